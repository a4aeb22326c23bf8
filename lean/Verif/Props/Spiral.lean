import Verif.Model.Scans
import Verif.Props.FitParams
import Mathlib.Tactic.Ring
import Mathlib.Tactic.FieldSimp
import Mathlib.Tactic.NormNum

/-!
C42: the order in which the two-dimensional scan visits its grid.
-/

namespace Verif.Scans

open Verif.FitParams

/-! ### Specification -/

/-- two grid points that differ by one step along one axis -/
def Spec.neighbours (p q : Int × Int) : Prop :=
  (p.1 = q.1 ∧ (p.2 = q.2 + 1 ∨ q.2 = p.2 + 1)) ∨ (p.2 = q.2 ∧ (p.1 = q.1 + 1 ∨ q.1 = p.1 + 1))

/-! ### Paths of the spiral -/

/-- `l.length` iterations of the loop starting in `s`, visiting `l` and ending in `t` -/
inductive Path (b : Int) : Spiral → List (Int × Int) → Spiral → Prop
  | nil (s) : Path b s [] s
  | cons {s l t} : s.r - 1 < b → Path b s.step l t → Path b s ((s.step.i, s.step.j) :: l) t

theorem Path.append {b : Int} {s t u : Spiral} {l m : List (Int × Int)} (h : Path b s l t) (h' : Path b t m u) :
    Path b s (l ++ m) u := by
  induction h with
  | nil => exact h'
  | cons hr _ ih => exact .cons hr (ih h')

theorem Path.one {b : Int} {s t : Spiral} {p : Int × Int} (hr : s.r - 1 < b) (ht : s.step = t) (hp : p = (t.i, t.j)) :
    Path b s [p] t := by
  subst ht hp; exact .cons hr (.nil _)

theorem Path.visits {b : Int} {s t : Spiral} {l : List (Int × Int)} (h : Path b s l t) (f : Nat) :
    Spiral.visits b (l.length + f) s = (Spiral.visits b f t).map (l ++ ·) := by
  induction h with
  | nil => simp
  | @cons s l t hr _ ih =>
    rw [List.length_cons, show l.length + 1 + f = (l.length + f) + 1 by omega]
    rw [Spiral.visits, if_pos hr, ih]
    cases Spiral.visits b f t <;> rfl

/-- the five outcomes of the turn, with the first `if` feeding the others -/
theorem turn_eq (i j r : Int) (dr dc : Int) : Spiral.turn ⟨i, j, dr, dc, r⟩ =
    if i = r ∧ dr = 1 then (if j = r then ⟨i, j, -1, 0, r⟩ else if i = -r ∧ False then ⟨i, j, 0, -1, r⟩ else ⟨i, j, 0, 1, r⟩)
    else if j = r ∧ dc = 1 then ⟨i, j, -1, 0, r⟩
    else if i = -r ∧ dr = -1 then ⟨i, j, 0, -1, r⟩
    else if j = -r ∧ dc = -1 then ⟨i, j, 1, 0, r⟩
    else ⟨i, j, dr, dc, r⟩ := by
  by_cases h : i = r ∧ dr = 1
  · simp [Spiral.turn, h]
  · simp [Spiral.turn, h]

/-- the direction is one step along one axis -/
def UnitStep (s : Spiral) : Prop :=
  (s.drow = 0 ∧ (s.dcol = 1 ∨ s.dcol = -1)) ∨ (s.dcol = 0 ∧ (s.drow = 1 ∨ s.drow = -1))

theorem unit_turn {s : Spiral} (h : UnitStep s) : UnitStep s.turn ∧ s.turn.i = s.i ∧ s.turn.j = s.j := by
  obtain ⟨i, j, dr, dc, r⟩ := s
  rw [turn_eq]
  split_ifs <;> first | exact ⟨h, rfl, rfl⟩ | exact ⟨by simp [UnitStep], rfl, rfl⟩

theorem step_pos (s : Spiral) :
    s.step.i = s.turn.i + s.turn.drow ∧ s.step.j = s.turn.j + s.turn.dcol ∧ s.step.drow = s.turn.drow ∧
      s.step.dcol = s.turn.dcol := by
  unfold Spiral.step
  dsimp only
  split_ifs <;> exact ⟨rfl, rfl, rfl, rfl⟩

theorem unit_step {s : Spiral} (h : UnitStep s) : UnitStep s.step ∧ Spec.neighbours (s.i, s.j) (s.step.i, s.step.j) := by
  obtain ⟨h1, h2, h3⟩ := unit_turn h
  obtain ⟨a, b, c, d⟩ := step_pos s
  unfold UnitStep Spec.neighbours at *
  rw [a, b, c, d, h2, h3]
  dsimp only
  omega

theorem Path.chain {b : Int} {s t : Spiral} {l : List (Int × Int)} (h : Path b s l t) (hu : UnitStep s) :
    List.IsChain Spec.neighbours ((s.i, s.j) :: l) := by
  induction h with
  | nil => simp
  | cons _ _ ih =>
    obtain ⟨h1, h2⟩ := unit_step hu
    exact List.IsChain.cons_cons h2 (ih h1)

/-! ### One ring -/

def up (r : Nat) : List (Int × Int) := (List.range (2 * r)).map fun k : Nat => (-r + 1 + k, -r)
def right (r : Nat) : List (Int × Int) := (List.range (2 * r)).map fun k : Nat => (r, -r + 1 + k)
def down (r : Nat) : List (Int × Int) := (List.range (2 * r)).map fun k : Nat => (r - 1 - k, r)
def left (r : Nat) : List (Int × Int) := (List.range (2 * r)).map fun k : Nat => (-r, r - 1 - k)
def ring (r : Nat) : List (Int × Int) := up r ++ right r ++ down r ++ left r

/-- a straight piece: the first step leads to `st 0`, the following ones along `st` -/
theorem straight {b : Int} {s : Spiral} (n : Nat) (p : Nat → Int × Int) (st : Nat → Spiral) (hr : s.r - 1 < b)
    (h0 : s.step = st 0) (hrs : ∀ k, k < n → (st k).r - 1 < b) (hp : ∀ k, k ≤ n → p k = ((st k).i, (st k).j))
    (hnext : ∀ k, k < n → (st k).step = st (k + 1)) : Path b s ((List.range (n + 1)).map p) (st n) := by
  induction n with
  | zero => exact Path.one hr h0 (hp 0 le_rfl)
  | succ n ih =>
    rw [List.range_succ, List.map_append]
    refine (ih (fun k hk => hrs k (by omega)) (fun k hk => hp k (by omega)) (fun k hk => hnext k (by omega))).append ?_
    exact Path.one (hrs n (by omega)) (hnext n (by omega)) (hp (n + 1) le_rfl)

theorem step_of {i j r dr dc dr' dc' : Int} (ht : Spiral.turn ⟨i, j, dr, dc, r⟩ = ⟨i, j, dr', dc', r⟩)
    (h : ¬(i + dr' = -r ∧ j + dc' = -r)) : Spiral.step ⟨i, j, dr, dc, r⟩ = ⟨i + dr', j + dc', dr', dc', r⟩ := by
  unfold Spiral.step
  rw [ht]
  exact if_neg h

theorem step_last {i j r dr dc dr' dc' : Int} (ht : Spiral.turn ⟨i, j, dr, dc, r⟩ = ⟨i, j, dr', dc', r⟩)
    (h : i + dr' = -r ∧ j + dc' = -r) : Spiral.step ⟨i, j, dr, dc, r⟩ = ⟨i + dr', j + dc', dr', dc', r + 1⟩ := by
  unfold Spiral.step
  rw [ht]
  exact if_pos h

theorem turn_keep {i j r dr dc : Int} (h : ¬(i = r ∧ dr = 1) ∧ ¬(j = r ∧ dc = 1) ∧ ¬(i = -r ∧ dr = -1) ∧ ¬(j = -r ∧ dc = -1)) :
    Spiral.turn ⟨i, j, dr, dc, r⟩ = ⟨i, j, dr, dc, r⟩ := by
  rw [turn_eq, if_neg h.1, if_neg h.2.1, if_neg h.2.2.1, if_neg h.2.2.2]

theorem path_up {b : Int} (m : Nat) (hb : (m : Int) < b) :
    Path b ⟨-m, -m, 0, -1, m + 1⟩ (up (m + 1)) ⟨m + 1, -(m + 1), 1, 0, m + 1⟩ := by
  have h0 : Spiral.step ⟨-m, -m, 0, -1, m + 1⟩ = ⟨-m, -(m + 1), 0, -1, m + 1⟩ := by
    rw [step_of (turn_keep (by omega)) (by omega)]
    congr 1 <;> omega
  have hn : ∀ k : Nat, k < 2 * m + 1 → Spiral.step
      (if k = 0 then ⟨-m, -(m + 1), 0, -1, m + 1⟩ else ⟨-m + k, -(m + 1), 1, 0, m + 1⟩) =
        ⟨-m + (k + 1 : Nat), -(m + 1), 1, 0, m + 1⟩ := by
    intro k hk
    by_cases hk0 : k = 0
    · subst hk0
      rw [if_pos rfl, step_of (dr' := 1) (dc' := 0) _ (by omega)]
      · congr 1
      · rw [turn_eq, if_neg (by omega), if_neg (by omega), if_neg (by omega), if_pos (by omega)]
    · rw [if_neg hk0, step_of (turn_keep (by omega)) (by omega)]
      congr 1; omega
  have := straight (b := b) (2 * m + 1) (fun k : Nat => (-(m + 1 : Nat) + 1 + k, -(m + 1 : Nat)))
    (fun k : Nat => if k = 0 then ⟨-m, -(m + 1), 0, -1, m + 1⟩ else ⟨-m + k, -(m + 1), 1, 0, m + 1⟩) (by simp only; omega)
    h0 ?_ ?_ ?_
  · simp only [if_neg (show ¬(2 * m + 1 = 0) by omega)] at this
    convert this using 2 <;> first | rfl | (push_cast; omega)
  · intro k _; split_ifs <;> simp only <;> omega
  · intro k _; split_ifs <;> simp only [Prod.mk.injEq] <;> omega
  · intro k hk
    exact (hn k hk).trans (by rw [if_neg (by omega)])

/-- a side of the ring that starts with a turn -/
theorem side {b : Int} {i j dr dc di dj : Int} (m : Nat) (hb : (m : Int) < b) (p : Nat → Int × Int)
    (hp : ∀ k : Nat, p k = (i + (k + 1) * di, j + (k + 1) * dj))
    (ht : Spiral.turn ⟨i, j, dr, dc, m + 1⟩ = ⟨i, j, di, dj, m + 1⟩)
    (hk : ∀ k : Nat, 0 < k → k ≤ 2 * m + 1 → Spiral.turn ⟨i + k * di, j + k * dj, di, dj, m + 1⟩ = ⟨i + k * di, j + k * dj, di, dj, m + 1⟩)
    (hl : ∀ k : Nat, k ≤ 2 * m → ¬(i + (k + 1) * di = -(m + 1) ∧ j + (k + 1) * dj = -(m + 1))) :
    Path b ⟨i, j, dr, dc, m + 1⟩ ((List.range (2 * m + 1)).map p) ⟨i + (2 * m + 1) * di, j + (2 * m + 1) * dj, di, dj, m + 1⟩ := by
  have := straight (b := b) (s := ⟨i, j, dr, dc, m + 1⟩) (2 * m) p
    (fun k => ⟨i + (k + 1) * di, j + (k + 1) * dj, di, dj, m + 1⟩) (by simp only; omega) ?_ ?_ ?_ ?_
  · simpa using this
  · rw [step_of ht (by have := hl 0 (by omega); simpa using this)]
    simp
  · intro k _; simp only; omega
  · intro k _; exact hp k
  · intro k hk'
    have h1 := hk (k + 1) (by omega) (by omega)
    have h2 := hl (k + 1) (by omega)
    push_cast at h1 h2
    rw [step_of h1]
    · congr 1 <;> push_cast <;> ring
    · rintro ⟨e1, e2⟩
      exact h2 ⟨by rw [← e1]; ring, by rw [← e2]; ring⟩

/-- the end of a side -/
theorem side_end {b : Int} {i j dr dc di dj : Int} (m : Nat) (hb : (m : Int) < b) (p : Nat → Int × Int)
    (hp : ∀ k : Nat, p k = (i + (k + 1) * di, j + (k + 1) * dj))
    (ht : Spiral.turn ⟨i, j, dr, dc, m + 1⟩ = ⟨i, j, di, dj, m + 1⟩)
    (hk : ∀ k : Nat, 0 < k → k ≤ 2 * m + 1 → Spiral.turn ⟨i + k * di, j + k * dj, di, dj, m + 1⟩ = ⟨i + k * di, j + k * dj, di, dj, m + 1⟩)
    (hl : ∀ k : Nat, k ≤ 2 * m → ¬(i + (k + 1) * di = -(m + 1) ∧ j + (k + 1) * dj = -(m + 1))) {r : Int}
    (hr : r = if i + (2 * m + 2) * di = -(m + 1) ∧ j + (2 * m + 2) * dj = -(m + 1) then (m + 1 : Int) + 1 else m + 1) :
    Path b ⟨i, j, dr, dc, m + 1⟩ ((List.range (2 * (m + 1))).map p) ⟨i + (2 * m + 2) * di, j + (2 * m + 2) * dj, di, dj, r⟩ := by
  rw [show 2 * (m + 1) = (2 * m + 1) + 1 by omega, List.range_succ, List.map_append]
  refine (side m hb p hp ht hk hl).append ?_
  have h1 := hk (2 * m + 1) (by omega) (by omega)
  push_cast at h1
  refine Path.one (by simp only; omega) ?_ ?_
  · by_cases h : i + (2 * m + 2) * di = -(m + 1) ∧ j + (2 * m + 2) * dj = -(m + 1)
    · rw [step_last h1 ⟨by rw [← h.1]; ring, by rw [← h.2]; ring⟩, hr, if_pos h]
      congr 1 <;> ring
    · rw [step_of h1, hr, if_neg h]
      · congr 1 <;> ring
      · rintro ⟨e1, e2⟩
        exact h ⟨by rw [← e1]; ring, by rw [← e2]; ring⟩
  · rw [hp]; push_cast; simp only [Prod.mk.injEq]; constructor <;> ring

theorem path_ring {b : Int} (m : Nat) (hb : (m : Int) < b) :
    Path b ⟨-m, -m, 0, -1, m + 1⟩ (ring (m + 1)) ⟨-(m + 1), -(m + 1), 0, -1, m + 2⟩ := by
  have hR : Path b ⟨m + 1, -(m + 1), 1, 0, m + 1⟩ (right (m + 1)) ⟨m + 1, m + 1, 0, 1, m + 1⟩ := by
    have := side_end (b := b) (i := m + 1) (j := -(m + 1)) (dr := 1) (dc := 0) (di := 0) (dj := 1) (r := m + 1) m hb
      (fun k : Nat => ((m + 1 : Nat), -(m + 1 : Nat) + 1 + k)) (fun k => by simp only [Prod.mk.injEq]; push_cast; omega)
      (by rw [turn_eq, if_pos (by omega), if_neg (by omega), if_neg (by simp)])
      (fun k _ _ => turn_keep (by omega)) (fun k _ => by omega) (by rw [if_neg (by omega)])
    convert this using 2 <;> first | rfl | ring
  have hD : Path b ⟨m + 1, m + 1, 0, 1, m + 1⟩ (down (m + 1)) ⟨-(m + 1), m + 1, -1, 0, m + 1⟩ := by
    have := side_end (b := b) (i := m + 1) (j := m + 1) (dr := 0) (dc := 1) (di := -1) (dj := 0) (r := m + 1) m hb
      (fun k : Nat => ((m + 1 : Nat) - 1 - k, (m + 1 : Nat))) (fun k => by simp only [Prod.mk.injEq]; push_cast; omega)
      (by rw [turn_eq, if_neg (by omega), if_pos (by omega)])
      (fun k _ _ => turn_keep (by omega)) (fun k _ => by omega) (by rw [if_neg (by omega)])
    convert this using 2 <;> first | rfl | ring
  have hL : Path b ⟨-(m + 1), m + 1, -1, 0, m + 1⟩ (left (m + 1)) ⟨-(m + 1), -(m + 1), 0, -1, m + 2⟩ := by
    have := side_end (b := b) (i := -(m + 1)) (j := m + 1) (dr := -1) (dc := 0) (di := 0) (dj := -1) (r := m + 2) m hb
      (fun k : Nat => (-(m + 1 : Nat), (m + 1 : Nat) - 1 - k)) (fun k => by simp only [Prod.mk.injEq]; push_cast; omega)
      (by rw [turn_eq, if_neg (by omega), if_neg (by omega), if_pos (by omega)])
      (fun k _ _ => turn_keep (by omega)) (fun k _ => by omega) (by rw [if_pos (by omega)]; ring)
    convert this using 2 <;> first | rfl | ring
  exact (((path_up m hb).append hR).append hD).append hL

/-! ### All rings -/

def rings (b : Nat) : List (Int × Int) := (List.range b).flatMap fun m => ring (m + 1)

theorem path_rings {b : Int} (n : Nat) (hn : (n : Int) ≤ b) : Path b Spiral.start (rings n) ⟨-n, -n, 0, -1, n + 1⟩ := by
  induction n with
  | zero => exact .nil _
  | succ n ih =>
    have h := (ih (by push_cast at hn; omega)).append (path_ring n (by push_cast at hn; omega))
    have e : rings (n + 1) = rings n ++ ring (n + 1) := by
      simp [rings, List.range_succ, List.flatMap_append]
    rw [e]
    convert h using 2 <;> push_cast <;> ring

theorem mem_ring (r : Nat) (p : Int × Int) (hr : 0 < r) :
    p ∈ ring r ↔ (-(r : Int) ≤ p.1 ∧ p.1 ≤ r ∧ -(r : Int) ≤ p.2 ∧ p.2 ≤ r) ∧ (p.1 = r ∨ p.1 = -r ∨ p.2 = r ∨ p.2 = -r) := by
  obtain ⟨i, j⟩ := p
  simp only [ring, up, right, down, left, List.mem_append, List.mem_map, List.mem_range, Prod.mk.injEq]
  constructor
  · rintro (((⟨k, h, e⟩ | ⟨k, h, e⟩) | ⟨k, h, e⟩) | ⟨k, h, e⟩) <;> omega
  · rintro ⟨h, h'⟩
    by_cases h1 : j = -r ∧ i ≠ -r
    · exact .inl (.inl (.inl ⟨(i + r - 1).toNat, by omega, by omega, by omega⟩))
    · by_cases h2 : i = r
      · exact .inl (.inl (.inr ⟨(j + r - 1).toNat, by omega, by omega, by omega⟩))
      · by_cases h3 : j = r
        · exact .inl (.inr ⟨(r - 1 - i).toNat, by omega, by omega, by omega⟩)
        · exact .inr ⟨(r - 1 - j).toNat, by omega, by omega, by omega⟩

theorem ring_nodup (r : Nat) (hr : 0 < r) : (ring r).Nodup := by
  have hm : ∀ f : Nat → Int × Int, Function.Injective f → ((List.range (2 * r)).map f).Nodup :=
    fun f hf => List.Nodup.map hf List.nodup_range
  simp only [ring, List.nodup_append, up, right, down, left, List.mem_append, List.mem_map, List.mem_range]
  refine ⟨⟨⟨hm _ ?_, hm _ ?_, ?_⟩, hm _ ?_, ?_⟩, hm _ ?_, ?_⟩
  · intro a b h; simp only [Prod.mk.injEq] at h; omega
  · intro a b h; simp only [Prod.mk.injEq] at h; omega
  · rintro p ⟨k, h, rfl⟩ q ⟨k', h', rfl⟩ e
    simp only [Prod.mk.injEq] at e; omega
  · intro a b h; simp only [Prod.mk.injEq] at h; omega
  · rintro p (⟨k, h, rfl⟩ | ⟨k, h, rfl⟩) q ⟨k', h', rfl⟩ e <;> simp only [Prod.mk.injEq] at e <;> omega
  · intro a b h; simp only [Prod.mk.injEq] at h; omega
  · rintro p ((⟨k, h, rfl⟩ | ⟨k, h, rfl⟩) | ⟨k, h, rfl⟩) q ⟨k', h', rfl⟩ e <;> simp only [Prod.mk.injEq] at e <;> omega

theorem mem_rings (b : Nat) (p : Int × Int) :
    p ∈ rings b ↔ (-(b : Int) ≤ p.1 ∧ p.1 ≤ b ∧ -(b : Int) ≤ p.2 ∧ p.2 ≤ b) ∧ p ≠ (0, 0) := by
  obtain ⟨i, j⟩ := p
  simp only [rings, List.mem_flatMap, List.mem_range, mem_ring _ _ (Nat.succ_pos _), ne_eq, Prod.mk.injEq]
  constructor
  · rintro ⟨m, hm, h, h'⟩
    push_cast at h h'
    omega
  · rintro ⟨h, h'⟩
    refine ⟨max i.natAbs j.natAbs - 1, ?_, ?_⟩
    · omega
    · push_cast
      omega

theorem rings_nodup (b : Nat) : (rings b).Nodup := by
  induction b with
  | zero => simp [rings]
  | succ n ih =>
    have e : rings (n + 1) = rings n ++ ring (n + 1) := by
      simp [rings, List.range_succ, List.flatMap_append]
    rw [e, List.nodup_append]
    refine ⟨ih, ring_nodup _ (by omega), ?_⟩
    rintro p hp q hq rfl
    rw [mem_rings] at hp
    rw [mem_ring _ _ (by omega)] at hq
    push_cast at hq
    omega

theorem length_rings (b : Nat) : (rings b).length = 4 * b * (b + 1) := by
  induction b with
  | zero => rfl
  | succ n ih =>
    have e : rings (n + 1) = rings n ++ ring (n + 1) := by
      simp [rings, List.range_succ, List.flatMap_append]
    rw [e, List.length_append, ih]
    simp only [ring, up, right, down, left, List.length_append, List.length_map, List.length_range]
    ring

theorem visits_rings (b f : Nat) : Spiral.visits b (4 * b * (b + 1) + f) Spiral.start = some (rings b) := by
  have h := (path_rings (b := b) b le_rfl).visits f
  rw [length_rings] at h
  rw [h, Spiral.visits.eq_def]
  dsimp only
  rw [if_neg (by omega)]
  simp

/-! ### The scan over the cells -/

section
variable {V : Type} [Field V]

/-- cells of the grid that differ by one step along one axis -/
def Spec.adjacent (p q : Nat × Nat) : Prop := Spec.neighbours (p.1, p.2) (q.1, q.2)

theorem pyIndex_ok (n : Nat) (i : Int) (h0 : 0 ≤ i) (h1 : i < n) : pyIndex n i = .ok i.toNat := by
  unfold pyIndex; rw [if_pos ⟨h0, h1⟩]

theorem scanCells_spec (fit : Nat → Vec V → Vec V) (nll : Vec V → V) (idx0 idx1 n : Nat) (bf : Int) (best : V)
    (xs ys : Nat → V) (cell : Int × Int → Nat × Nat) (l : List (Int × Int))
    (hc : ∀ ij ∈ l, pyIndex n (bf - ij.1) = .ok (cell ij).1 ∧ pyIndex n (bf + ij.2) = .ok (cell ij).2)
    (hn : (l.map cell).Nodup) (a : Scan2 V) :
    ∃ a' : Scan2 V, ∃ y : Nat → Vec V, scanCells fit nll idx0 idx1 n bf best xs ys a l = .ok a' ∧ y 0 = a.x ∧
      (∀ k p q, (l.map cell)[k]? = some (p, q) →
        y (k + 1) = fit (a.calls + k) (Function.update (Function.update (y k) idx0 (xs p)) idx1 (ys q)) ∧
        a'.dnlls p q = some (nll (y (k + 1)) - best)) ∧
      (∀ p q, (p, q) ∉ l.map cell → a'.dnlls p q = a.dnlls p q) ∧ a'.calls = a.calls + l.length := by
  induction l generalizing a with
  | nil => exact ⟨a, fun _ => a.x, rfl, rfl, by simp, fun _ _ _ => rfl, rfl⟩
  | cons ij l ih =>
    obtain ⟨h1, h2⟩ := hc ij (by simp)
    rw [List.map_cons, List.nodup_cons] at hn
    have hcell : scanCell fit nll idx0 idx1 n bf best xs ys a ij = .ok
        ⟨a.calls + 1, fit a.calls (Function.update (Function.update a.x idx0 (xs (cell ij).1)) idx1 (ys (cell ij).2)),
          fun p q => if p = (cell ij).1 ∧ q = (cell ij).2 then
            some (nll (fit a.calls (Function.update (Function.update a.x idx0 (xs (cell ij).1)) idx1 (ys (cell ij).2))) - best)
          else a.dnlls p q⟩ := by
      unfold scanCell; rw [h1, h2]
    generalize hb : (Scan2.mk _ _ _ : Scan2 V) = b at hcell
    obtain ⟨a', y, e1, e2, e3, e4, e5⟩ := ih (fun ij' h => hc ij' (by simp [h])) hn.2 b
    refine ⟨a', fun k => match k with
      | 0 => a.x
      | k + 1 => y k, ?_, rfl, ?_, ?_, ?_⟩
    · unfold scanCells; rw [hcell]; exact e1
    · intro k p q hk
      cases k with
      | zero =>
        simp only [List.map_cons, List.getElem?_cons_zero, Option.some.injEq] at hk
        refine ⟨?_, ?_⟩
        · show y 0 = _
          rw [e2, ← hb, hk, Nat.add_zero]
          rfl
        · rw [e4 p q (by rw [← hk]; exact hn.1)]
          show _ = some (nll (y 0) - best)
          rw [e2, ← hb]
          simp [hk]
      | succ k =>
        simp only [List.map_cons, List.getElem?_cons_succ] at hk
        obtain ⟨f1, f2⟩ := e3 k p q hk
        refine ⟨?_, f2⟩
        show y (k + 1) = _
        rw [f1, ← hb]
        show fit (a.calls + 1 + k) _ = fit (a.calls + (k + 1)) _
        rw [Nat.add_assoc, Nat.add_comm 1 k]
    · intro p q h
      simp only [List.map_cons, List.mem_cons, not_or] at h
      rw [e4 p q h.2, ← hb]
      simp only
      rw [if_neg]
      rintro ⟨rfl, rfl⟩
      exact h.1 rfl
    · rw [e5, ← hb, List.length_cons]; simp only; omega

/-- the cell `(best_fit - i, best_fit + j)` -/
def cellOf (b : Nat) (ij : Int × Int) : Nat × Nat := (((b : Int) - ij.1).toNat, ((b : Int) + ij.2).toNat)

theorem cells_ok (b n : Nat) (hn : 2 * b + 1 ≤ n) (ij : Int × Int) (h : ij ∈ rings b) :
    pyIndex n ((b : Int) - ij.1) = .ok (cellOf b ij).1 ∧ pyIndex n ((b : Int) + ij.2) = .ok (cellOf b ij).2 := by
  rw [mem_rings] at h
  exact ⟨pyIndex_ok _ _ (by omega) (by omega), pyIndex_ok _ _ (by omega) (by omega)⟩

theorem cells_nodup (b : Nat) : ((rings b).map (cellOf b)).Nodup := by
  rw [List.nodup_map_iff_inj_on (rings_nodup b)]
  rintro ⟨i, j⟩ h ⟨i', j'⟩ h' e
  rw [mem_rings] at h h'
  simp only [cellOf, Prod.mk.injEq] at e h h' ⊢
  omega

theorem mem_cells (b p q : Nat) : (p, q) ∈ (rings b).map (cellOf b) ↔ p < 2 * b + 1 ∧ q < 2 * b + 1 ∧ (p, q) ≠ (b, b) := by
  simp only [List.mem_map, cellOf, Prod.mk.injEq, Prod.exists, mem_rings, ne_eq]
  constructor
  · rintro ⟨i, j, h, h1, h2⟩
    omega
  · rintro ⟨h1, h2, h3⟩
    exact ⟨(b : Int) - p, (q : Int) - b, by omega, by omega, by omega⟩

theorem adjacent_of {b : Nat} {p q : Int × Int} (h1 : -(b : Int) ≤ p.1 ∧ p.1 ≤ b ∧ -(b : Int) ≤ p.2 ∧ p.2 ≤ b)
    (h2 : -(b : Int) ≤ q.1 ∧ q.1 ≤ b ∧ -(b : Int) ≤ q.2 ∧ q.2 ≤ b) (h : Spec.neighbours p q) :
    Spec.adjacent (cellOf b p) (cellOf b q) := by
  unfold Spec.adjacent Spec.neighbours cellOf
  unfold Spec.neighbours at h
  simp only
  omega

theorem cells_chain (b : Nat) : List.IsChain Spec.adjacent ((b, b) :: (rings b).map (cellOf b)) := by
  have h := (path_rings (b := b) b le_rfl).chain (by simp [UnitStep, Spiral.start])
  have e : (b, b) :: (rings b).map (cellOf b) = ((0, 0) :: rings b).map (cellOf b) := by
    simp [cellOf]
  rw [e, List.isChain_map]
  have hm : ∀ p ∈ ((0 : Int), (0 : Int)) :: rings b, -(b : Int) ≤ p.1 ∧ p.1 ≤ b ∧ -(b : Int) ≤ p.2 ∧ p.2 ≤ b := by
    intro p hp
    rcases List.mem_cons.1 hp with rfl | hp
    · simp
    · exact ((mem_rings b p).1 hp).1
  have h' := List.isChain_iff_getElem.1 h
  rw [List.isChain_iff_getElem]
  intro i hi
  have hx := h' i hi
  exact adjacent_of (hm _ (List.getElem_mem (Nat.lt_of_succ_lt hi))) (hm _ (List.getElem_mem hi)) hx

/-! ### C42 -/

theorem freeze_parms {rx : Regex} {es : List String} {s t : FreezeState} {u : Res Unit}
    (h : freezeParams rx es s = (t, u)) : t.parms = s.parms := by
  have := op_parms rx (.freeze es) s
  simpa [FreezeOp.run, h] using this

/-- after freezing without an error, unfreezing the same expressions cannot fail -/
theorem defreeze_ok {rx : Regex} {es : List String} {s t : FreezeState} (h : freezeParams rx es s = (t, .ok ())) :
    ∃ u, defreezeParams rx es t = (u, .ok ()) := by
  have hp := freeze_parms h
  unfold freezeParams at h
  unfold defreezeParams
  rw [hp]
  cases hm : matchParams rx es s.parms with
  | error e => simp [hm] at h
  | ok ms => exact ⟨_, rfl⟩

/-- The loop of the scan over the cells of a grid with at least `2 b + 1` points per axis. -/
theorem scan2D_run (rx : Regex) (fit : Nat → Vec V → Vec V) (nll : Vec V → V) (fuel : Nat) (p0 p1 : String) (range : V)
    (b points : Nat) (usePrefit : Bool) (sd : Nat → V) (s : Sess V) (fr : FreezeState) (i0 i1 : Nat)
    (hpts : points = 2 * b + 1 ∨ points = 2 * b + 2)
    (hfuel : 4 * b * (b + 1) ≤ fuel) (hfr : freezeParams rx [p0, p1] s.fr = (fr, .ok ()))
    (h0 : paramIdx s.fr.parms p0 = .ok i0) (h1 : paramIdx s.fr.parms p1 = .ok i1) :
    ∃ (d : Nat → Nat → Option V) (y : Nat → Vec V) (s' : Sess V),
      nllScan2D rx fit nll fuel p0 p1 range points usePrefit sd s = (s', .ok
        (gridValues usePrefit range points (s.x i0) (sd i0), gridValues usePrefit range points (s.x i1) (sd i1), d)) ∧
      y 0 = s.x ∧ d b b = some 0 ∧
      (∀ k p q, ((rings b).map (cellOf b))[k]? = some (p, q) →
        y (k + 1) = fit k (Function.update (Function.update (y k) i0
          (gridValues usePrefit range points (s.x i0) (sd i0) p)) i1 (gridValues usePrefit range points (s.x i1) (sd i1) q)) ∧
        d p q = some (nll (y (k + 1)) - nll s.x)) ∧
      (∀ p q, (p, q) ∉ (rings b).map (cellOf b) → (p, q) ≠ (b, b) → d p q = none) ∧
      s'.x = s.x ∧ s'.x0 = s.x0 ∧ (defreezeParams rx [p0, p1] fr).1 = s'.fr := by
  obtain ⟨f, hf⟩ := Nat.exists_eq_add_of_le hfuel
  obtain ⟨u, hu⟩ := defreeze_ok hfr
  have hbf : ((((points + 1) / 2 : Nat) : Int) - 1) = b := by omega
  obtain ⟨a', y, e1, e2, e3, e4, -⟩ := scanCells_spec fit nll i0 i1 points b (nll s.x)
    (gridValues usePrefit range points (s.x i0) (sd i0)) (gridValues usePrefit range points (s.x i1) (sd i1))
    (cellOf b) (rings b) (cells_ok b points (by omega)) (cells_nodup b)
    ⟨0, s.x, fun p q => if p = b ∧ q = b then some 0 else none⟩
  refine ⟨a'.dnlls, y, { s with fr := u }, ?_, e2, ?_, ?_, ?_, rfl, rfl, by rw [hu]⟩
  · unfold nllScan2D
    rw [hfr]
    dsimp only
    rw [freeze_parms hfr, h0, h1]
    dsimp only
    rw [hbf, pyIndex_ok points b (by omega) (by omega)]
    dsimp only
    rw [hf, visits_rings]
    dsimp only
    rw [Int.toNat_natCast, e1, hu]
  · rw [e4 b b (by rw [mem_cells]; simp)]
    simp
  · intro k p q hk
    obtain ⟨g1, g2⟩ := e3 k p q hk
    exact ⟨by rw [g1]; simp, g2⟩
  · intro p q h h'
    rw [e4 p q h]
    simp only
    rw [if_neg]
    rintro ⟨rfl, rfl⟩
    exact h' rfl

end

/-- The spiral stops, and visits every point of the square around the start except the start, each once, and moves between
neighbouring points. -/
theorem c42_spiral (b fuel : Nat) (h : 4 * b * (b + 1) ≤ fuel) :
    ∃ l, Spiral.visits b fuel Spiral.start = some l ∧ l.Nodup ∧
      (∀ i j : Int, (i, j) ∈ l ↔ (-(b : Int) ≤ i ∧ i ≤ b ∧ -(b : Int) ≤ j ∧ j ≤ b) ∧ (i, j) ≠ (0, 0)) ∧
      List.IsChain Spec.neighbours ((0, 0) :: l) := by
  obtain ⟨f, rfl⟩ := Nat.exists_eq_add_of_le h
  exact ⟨rings b, visits_rings b f, rings_nodup b, fun i j => mem_rings b (i, j),
    (path_rings (b := b) b le_rfl).chain (by simp [UnitStep, Spiral.start])⟩

/-- With an odd number of points per axis the scan returns a value for every cell.  There is an order of the cells
other than the central one, without repetition, in which every cell is adjacent to the one before; the fit of every cell starts
from the result of the cell before with the two parameters moved to the grid values of the cell, and the value of the cell is the
difference of the likelihood after this fit to the initial one.  Missing: even numbers of points
(`c42_even_violated`). -/
theorem c42_scan_partial {V : Type} [Field V] (rx : Regex) (fit : Nat → Vec V → Vec V) (nll : Vec V → V) (fuel : Nat)
    (p0 p1 : String) (range : V) (b : Nat) (usePrefit : Bool) (sd : Nat → V) (s : Sess V) (i0 i1 : Nat)
    (hfuel : 4 * b * (b + 1) ≤ fuel) (hrx : ∀ e ∈ [p0, p1], (rx e).isSome)
    (h0 : paramIdx s.fr.parms p0 = .ok i0) (h1 : paramIdx s.fr.parms p1 = .ok i1) :
    ∃ xs ys d order, ∃ y : Nat → Vec V,
      (nllScan2D rx fit nll fuel p0 p1 range (2 * b + 1) usePrefit sd s).2 = .ok (xs, ys, d) ∧
      order.Nodup ∧ (∀ p q, (p, q) ∈ order ↔ p < 2 * b + 1 ∧ q < 2 * b + 1 ∧ (p, q) ≠ (b, b)) ∧
      List.IsChain Spec.adjacent ((b, b) :: order) ∧
      y 0 = s.x ∧ d b b = some 0 ∧
      ∀ k p q, order[k]? = some (p, q) →
        y (k + 1) = fit k (Function.update (Function.update (y k) i0 (xs p)) i1 (ys q)) ∧
        d p q = some (nll (y (k + 1)) - nll s.x) := by
  obtain ⟨fr, hfr⟩ : ∃ fr, freezeParams rx [p0, p1] s.fr = (fr, .ok ()) := by
    unfold freezeParams
    cases hm : matchParams rx [p0, p1] s.fr.parms with
    | error e =>
      obtain ⟨x, hx, hx'⟩ := (c25_raises_iff rx [p0, p1] s.fr.parms).1 ⟨e, hm⟩
      have := hrx x hx
      simp [hx'] at this
    | ok ms => exact ⟨_, rfl⟩
  obtain ⟨d, y, s', e1, e2, e3, e4, -⟩ := scan2D_run rx fit nll fuel p0 p1 range b (2 * b + 1) usePrefit sd s fr i0 i1
    (.inl rfl) hfuel hfr h0 h1
  exact ⟨_, _, d, (rings b).map (cellOf b), y, by rw [e1], cells_nodup b, mem_cells b, cells_chain b, e2, e3, e4⟩

/-- The grid of a scan around the best fit is symmetric about it, and the central cell is the best fit.  Missing: a single point
and `use_prefit` (`c42_single_violated`, `c42_prefit_violated`). -/
theorem c42_grid_partial {V : Type} [Field V] [CharZero V] (range centre sd : V) (b : Nat) (hb : 0 < b) :
    gridValues false range (2 * b + 1) centre sd b = centre ∧
      ∀ p, gridValues false range (2 * b + 1) centre sd p = centre + ((p : V) - b) * (range / b) * sd := by
  have hb' : (b : V) ≠ 0 := Nat.cast_ne_zero.2 hb.ne'
  have h : ∀ p, gridValues false range (2 * b + 1) centre sd p = centre + ((p : V) - b) * (range / b) * sd := by
    intro p
    unfold gridValues linspace
    rw [if_neg (by simp), if_neg (by omega)]
    push_cast
    field_simp
    ring
  exact ⟨by rw [h]; simp, h⟩

/-- With an even number of points the last row and the last column are never visited. -/
theorem c42_even_violated {V : Type} [Field V] (rx : Regex) (fit : Nat → Vec V → Vec V) (nll : Vec V → V) (fuel : Nat)
    (p0 p1 : String) (range : V) (b : Nat) (usePrefit : Bool) (sd : Nat → V) (s : Sess V) (i0 i1 : Nat)
    (hfuel : 4 * b * (b + 1) ≤ fuel) (hrx : ∀ e ∈ [p0, p1], (rx e).isSome)
    (h0 : paramIdx s.fr.parms p0 = .ok i0) (h1 : paramIdx s.fr.parms p1 = .ok i1) :
    ∃ xs ys d, (nllScan2D rx fit nll fuel p0 p1 range (2 * b + 2) usePrefit sd s).2 = .ok (xs, ys, d) ∧
      ∀ p, p < 2 * b + 2 → d p (2 * b + 1) = none ∧ d (2 * b + 1) p = none := by
  obtain ⟨fr, hfr⟩ : ∃ fr, freezeParams rx [p0, p1] s.fr = (fr, .ok ()) := by
    unfold freezeParams
    cases hm : matchParams rx [p0, p1] s.fr.parms with
    | error e =>
      obtain ⟨x, hx, hx'⟩ := (c25_raises_iff rx [p0, p1] s.fr.parms).1 ⟨e, hm⟩
      have := hrx x hx
      simp [hx'] at this
    | ok ms => exact ⟨_, rfl⟩
  obtain ⟨d, y, s', e1, -, -, -, e5, -⟩ := scan2D_run rx fit nll fuel p0 p1 range b (2 * b + 2) usePrefit sd s fr i0 i1
    (.inr rfl) hfuel hfr h0 h1
  refine ⟨_, _, d, by rw [e1], fun p _ => ⟨e5 _ _ ?_ ?_, e5 _ _ ?_ ?_⟩⟩
  · rw [mem_cells]; omega
  · simp only [ne_eq, Prod.mk.injEq]; omega
  · rw [mem_cells]; omega
  · simp only [ne_eq, Prod.mk.injEq]; omega

/-! ### Examples -/

/-- two parameters, the first at 1, the second at 0 -/
def Ex.sess : Sess ℚ := ⟨fun k => if k = 0 then 1 else 0, fun _ => 0, FreezeState.init ["a", "b"]⟩

/-- a likelihood with its minimum at `a = 1`, `b = 0` -/
def Ex.nll (x : Vec ℚ) : ℚ := (x 0 - 1) ^ 2 + x 1 ^ 2

example : ∃ xs ys d order, ∃ y : Nat → Vec ℚ,
    (nllScan2D exampleRx (fun _ x => x) Ex.nll 24 "a" "b" 2 5 false (fun _ => 1) Ex.sess).2 = .ok (xs, ys, d) ∧
    order.Nodup ∧ (∀ p q, (p, q) ∈ order ↔ p < 2 * 2 + 1 ∧ q < 2 * 2 + 1 ∧ (p, q) ≠ (2, 2)) ∧
    List.IsChain Spec.adjacent ((2, 2) :: order) ∧ y 0 = Ex.sess.x ∧ d 2 2 = some 0 ∧
    ∀ k p q, order[k]? = some (p, q) → y (k + 1) = Function.update (Function.update (y k) 0 (xs p)) 1 (ys q) ∧
      d p q = some (Ex.nll (y (k + 1)) - Ex.nll Ex.sess.x) :=
  c42_scan_partial exampleRx (fun _ x => x) Ex.nll 24 "a" "b" 2 2 false (fun _ => 1) Ex.sess 0 1 (by decide)
    (by decide) (by decide +kernel) (by decide +kernel)

example : Spiral.visits 1 8 Spiral.start = some [(0, -1), (1, -1), (1, 0), (1, 1), (0, 1), (-1, 1), (-1, 0), (-1, -1)] := by
  decide +kernel

example : gridValues false (2 : ℚ) 5 1 1 4 = 3 := by
  rw [(c42_grid_partial (2 : ℚ) 1 1 2 (by decide)).2]; norm_num

/-- whether the value reported for the central cell is the likelihood difference of its grid point, for a fit that does not
move the two scanned parameters and has no others -/
def Ex.centreRight (points b : Nat) (usePrefit : Bool) : Option Bool :=
  match (nllScan2D exampleRx (fun _ x => x) Ex.nll 100 "a" "b" 2 points usePrefit (fun _ => 1) Ex.sess).2 with
  | .ok (xs, ys, d) => some (d b b == some (Ex.nll (fun k => if k = 0 then xs b else ys b) - Ex.nll Ex.sess.x))
  | .error _ => none

/-- With `use_prefit` the grid is centred on zero, but the central cell is still reported as the best fit. -/
theorem c42_prefit_violated : Ex.centreRight 5 2 true = some false ∧ Ex.centreRight 5 2 false = some true := by
  decide +kernel

/-- A scan with a single point, or an even number of points, reports zero for a cell that is not the best fit. -/
theorem c42_single_violated : Ex.centreRight 1 0 false = some false ∧ Ex.centreRight 4 1 false = some false := by
  decide +kernel

end Verif.Scans
