import Verif.Lemmas.Tables
import Mathlib.Data.List.Perm.Basic
import Mathlib.Data.List.Range

/-! Helper lemmas about the assembly of the sparse tensors. -/

namespace Verif.Writer

open Verif.Logk M

set_option linter.unusedSectionVars false

/-! ### argsort -/

theorem argsort_perm (keys : List Nat) : (argsort keys).Perm (List.range keys.length) := pySort_perm _

theorem argsort_length (keys : List Nat) : (argsort keys).length = keys.length := by
  rw [(argsort_perm keys).length_eq, List.length_range]

theorem argsort_sorted (keys : List Nat) :
    (argsort keys).Pairwise fun a b => keys.getD a 0 ≤ keys.getD b 0 := by
  have := pySort_pairwise (le := fun a b => decide (keys.getD a 0 ≤ keys.getD b 0))
    (by intro a b c h1 h2; simp only [decide_eq_true_eq] at *; omega)
    (by intro a b; simp only [Bool.or_eq_true, decide_eq_true_eq]; omega) (List.range keys.length)
  exact this.imp fun h => by simpa using h

/-- a sorted arrangement of `0, ..., n-1` -/
theorem eq_range_of_sorted {l : List Nat} {n : Nat} (hp : l.Perm (List.range n)) (hs : l.Pairwise (· ≤ ·)) :
    l = List.range n :=
  hp.eq_of_pairwise (le := (· ≤ ·)) (fun a b _ _ h1 h2 => Nat.le_antisymm h1 h2) hs
    (List.pairwise_le_range)

/-- sorting a permutation gives its inverse -/
theorem argsort_inverse {σ : List Nat} (hσ : σ.Perm (List.range σ.length)) {p : Nat} (hp : p < σ.length) :
    ∃ r, (argsort σ)[p]? = some r ∧ σ[r]? = some p := by
  have h1 : ((argsort σ).map fun r => σ.getD r 0).Perm (List.range σ.length) := by
    refine (((argsort_perm σ).map _).trans ?_).trans hσ
    apply List.Perm.of_eq
    apply List.ext_getElem
    · simp
    · intro i h1 h2
      simp [List.getD_eq_getElem?_getD, List.getElem?_eq_getElem h2]
  have h2 : ((argsort σ).map fun r => σ.getD r 0).Pairwise (· ≤ ·) :=
    List.pairwise_map.2 (argsort_sorted σ)
  have h3 := eq_range_of_sorted h1 h2
  have hlen : p < (argsort σ).length := by rw [argsort_length]; exact hp
  refine ⟨(argsort σ)[p], List.getElem?_eq_getElem hlen, ?_⟩
  have h4 : ((argsort σ).map fun r => σ.getD r 0)[p]? = some p := by
    rw [h3]; simp [hp]
  rw [List.getElem?_map, List.getElem?_eq_getElem hlen, Option.map_some, Option.some.injEq] at h4
  have hr : (argsort σ)[p] < σ.length := by
    have := (argsort_perm σ).mem_iff.1 (List.getElem_mem hlen)
    simpa using this
  rw [List.getD_eq_getElem?_getD, List.getElem?_eq_getElem hr, Option.getD_some] at h4
  rw [List.getElem?_eq_getElem hr, h4]

section gather
variable {α : Type}

/-- gathering by a permutation of the positions permutes the list -/
theorem gather_perm (zero : α) (l : List α) {idx : List Nat} (h : idx.Perm (List.range l.length)) :
    (gather zero l idx).Perm l := by
  unfold gather
  refine (h.map _).trans (List.Perm.of_eq ?_)
  apply List.ext_getElem
  · simp
  · intro i h1 h2
    simp [List.getD_eq_getElem?_getD, List.getElem?_eq_getElem h2]

/-- sorting by distinct keys gives strictly increasing keys -/
theorem gather_sorted (zero : α) (l : List α) (key : α → Nat) (hnd : (l.map key).Nodup) :
    ((gather zero l (argsort (l.map key))).map key).Pairwise (· < ·) := by
  have hk : (gather zero l (argsort (l.map key))).map key =
      (argsort (l.map key)).map fun a => (l.map key).getD a 0 := by
    unfold gather
    rw [List.map_map]
    apply List.map_congr_left
    intro a ha
    have ha' : a < l.length := by
      have := (argsort_perm _).mem_iff.1 ha
      simpa using this
    simp [List.getD_eq_getElem?_getD, List.getElem?_eq_getElem ha']
  have hle : ((gather zero l (argsort (l.map key))).map key).Pairwise (· ≤ ·) := by
    rw [hk]; exact List.pairwise_map.2 (argsort_sorted _)
  have hn : ((gather zero l (argsort (l.map key))).map key).Nodup := by
    refine (((gather_perm zero l ?_).map key).nodup_iff).2 hnd
    have := argsort_perm (l.map key)
    rwa [List.length_map] at this
  exact (hle.and hn).imp fun h => Nat.lt_of_le_of_ne h.1 h.2

theorem gather_getElem (zero : α) (l : List α) (idx : List Nat) {r p : Nat} (hr : idx[r]? = some p) {x : α}
    (hp : l[p]? = some x) : (gather zero l idx)[r]? = some x := by
  unfold gather
  rw [List.getElem?_map, hr, Option.map_some, List.getD_eq_getElem?_getD, hp]; rfl

end gather

variable {V : Type} [Field V] [LinearOrder V]

/-! ### Positions in the norm buffer -/

theorem map_fst_nonzeros (l : List V) : (nonzeros l).map (·.1) = (l.zipIdx.filter fun e => e.1 ≠ 0).map (·.2) := by
  unfold nonzeros
  rw [List.map_map]; rfl

theorem mem_nonzeros {l : List V} {i : Nat} {v : V} : (i, v) ∈ nonzeros l ↔ l[i]? = some v ∧ v ≠ 0 := by
  unfold nonzeros
  rw [List.mem_map]
  constructor
  · rintro ⟨⟨w, j⟩, h, he⟩
    simp only [Prod.mk.injEq] at he
    obtain ⟨rfl, rfl⟩ := he
    rw [List.mem_filter, List.mk_mem_zipIdx_iff_getElem?] at h
    exact ⟨h.1, by simpa using h.2⟩
  · rintro ⟨h, hv⟩
    exact ⟨(v, i), by rw [List.mem_filter, List.mk_mem_zipIdx_iff_getElem?]; exact ⟨h, by simpa using hv⟩, rfl⟩

theorem nonzeros_sorted (l : List V) : ((nonzeros l).map (·.1)).Pairwise (· < ·) := by
  rw [map_fst_nonzeros]
  refine List.Pairwise.sublist ((List.filter_sublist).map _) ?_
  rw [List.zipIdx_map_snd]
  exact List.pairwise_lt_range' 

/-- position of a bin in the entries of its template -/
def Norm.posN (i : Nat) : Norm V → Nat
  | .csr _ l => l.countP fun e => e.1 < i
  | .dense l => (l.take (i + 1)).countP (fun v => v ≠ 0) - 1

theorem pos_ok {n : Norm V} {old i p : Nat} (h : n.pos old i = .ok p) :
    p = n.posN i + old ∧ ∀ l, n = .dense l → i < l.length := by
  cases n with
  | csr _ l => cases h; exact ⟨rfl, by intro l h; cases h⟩
  | dense l =>
    unfold Norm.pos at h
    dsimp only at h
    split at h
    · rename_i hi
      cases h
      exact ⟨rfl, by rintro l' h'; cases h'; exact hi⟩
    · cases h

theorem sorted_countP {α : Type} : ∀ {l : List (Nat × α)}, (l.map (·.1)).Pairwise (· < ·) → ∀ {e : Nat × α}, e ∈ l →
    l[l.countP fun x => x.1 < e.1]? = some e
  | [], _, _, h => by cases h
  | x :: l, hs, e, h => by
    rw [List.map_cons, List.pairwise_cons] at hs
    rcases List.mem_cons.1 h with rfl | h
    · have : (e :: l).countP (fun x => x.1 < e.1) = 0 := by
        rw [List.countP_eq_zero]
        intro y hy
        rcases List.mem_cons.1 hy with rfl | hy
        · simp
        · have := hs.1 y.1 (List.mem_map.2 ⟨y, hy, rfl⟩)
          simp only [decide_eq_true_eq]; omega
      rw [this]; rfl
    · have hx := hs.1 e.1 (List.mem_map.2 ⟨e, h, rfl⟩)
      rw [List.countP_cons]
      simp only [hx, decide_true, if_true]
      rw [List.getElem?_cons_succ]
      exact sorted_countP hs.2 h

theorem nonzeros_pos (l : List V) {i : Nat} {v : V} (h : l[i]? = some v) (hv : v ≠ 0) :
    (nonzeros l)[(l.take (i + 1)).countP (fun v => v ≠ 0) - 1]? = some (i, v) := by
  have hc := sorted_countP (nonzeros_sorted l) (mem_nonzeros.2 ⟨h, hv⟩)
  have heq : (nonzeros l).countP (fun x => x.1 < i) = (l.take (i + 1)).countP (fun v => v ≠ 0) - 1 := by
    have h1 : (l.take (i + 1)).countP (fun v => v ≠ 0) = (l.take i).countP (fun v => v ≠ 0) + 1 := by
      rw [List.take_add_one, h, List.countP_append]
      simp [hv]
    rw [h1, Nat.add_sub_cancel]
    unfold nonzeros
    rw [List.countP_map, List.countP_filter]
    have : ∀ (l : List V) (k : Nat), (l.zipIdx k).countP (fun a => (((fun x => decide (x.1 < i)) ∘ fun e : V × Nat => (e.2, e.1)) a) &&
        decide (a.1 ≠ 0)) = (l.take (i - k)).countP (fun v => decide (v ≠ 0)) := by
      intro l
      induction l with
      | nil => intro k; simp
      | cons x l ih =>
        intro k
        rw [List.zipIdx_cons, List.countP_cons, ih]
        by_cases hk : k < i
        · obtain ⟨d, hd⟩ : ∃ d, i - k = d + 1 := ⟨i - k - 1, by omega⟩
          rw [hd, show i - (k + 1) = d by omega, List.take_succ_cons, List.countP_cons]
          simp [hk]
        · rw [show i - (k + 1) = 0 by omega, show i - k = 0 by omega]
          simp [hk]
    have := this l 0
    simpa using this
  rw [← heq]; exact hc

/-- entries of a stored template are in increasing order -/
def Norm.sorted : Norm V → Prop
  | .csr _ l => (l.map (·.1)).Pairwise (· < ·)
  | .dense _ => True

theorem entries_sorted {n : Norm V} (h : n.sorted) : (n.entries.map (·.1)).Pairwise (· < ·) := by
  cases n with
  | csr _ l => exact h
  | dense l => exact nonzeros_sorted l

/-- the bins a stored variation may refer to -/
def fits (n : Norm V) (l : List (Nat × V)) : Prop :=
  match n with
  | .csr _ m => (l.map (·.1)).Sublist (m.map (·.1))
  | .dense m => (l.map (·.1)).Pairwise (· < ·) ∧ ∀ i v x, (i, v) ∈ l → m[i]? = some x → x ≠ 0

theorem fits_nodup {n : Norm V} {l : List (Nat × V)} (h : fits n l) (hs : n.sorted) : (l.map (·.1)).Pairwise (· < ·) := by
  cases n with
  | csr _ m => exact List.Pairwise.sublist h hs
  | dense m => exact h.1

theorem posN_ok {n : Norm V} {l : List (Nat × V)} (h : fits n l) (hs : n.sorted) {i : Nat} {v : V} (hi : (i, v) ∈ l)
    (hlt : ∀ m, n = .dense m → i < m.length) : ∃ x, n.entries[n.posN i]? = some (i, x) := by
  cases n with
  | csr sz m =>
    have : i ∈ m.map (·.1) := h.subset (List.mem_map.2 ⟨(i, v), hi, rfl⟩)
    obtain ⟨⟨j, x⟩, hm, rfl⟩ := List.mem_map.1 this
    exact ⟨x, sorted_countP hs hm⟩
  | dense m =>
    have hl := hlt m rfl
    have hx := List.getElem?_eq_getElem hl
    exact ⟨m[i], nonzeros_pos m hx (h.2 i v _ hi hx)⟩

/-! ### Assembly -/

/-- stored entries of a variation -/
def LogkE.ents : LogkE V → List (Nat × V)
  | .sparse l => l
  | .dense _ => []

/-- rows of the norm buffer written for a cell -/
def rowsOf (c : Cell V) : List (Nat × Nat × V) := c.norm.entries.map fun e => (c.start + e.1, c.iproc, e.2)

def LogkTask.col (nsyst : Nat) (t : LogkTask V) : Nat := t.k * nsyst + t.isyst

theorem res_mapM_ok {α β : Type} {f : α → Res β} {g : α → β} {l : List α} (hg : ∀ a b, f a = .ok b → b = g a) :
    ∀ {r : List β}, l.mapM f = .ok r → r = l.map g ∧ ∀ a ∈ l, ∃ b, f a = .ok b := by
  induction l with
  | nil => intro r h; cases h; exact ⟨rfl, by simp⟩
  | cons x l ih =>
    intro r h
    rw [List.mapM_cons] at h
    simp only [bind, Except.bind, pure, Except.pure] at h
    split at h
    · cases h
    · rename_i b hb
      split at h
      · cases h
      · rename_i bs hbs
        cases h
        obtain ⟨h1, h2⟩ := ih hbs
        refine ⟨by rw [h1, hg x b hb]; rfl, fun a ha => ?_⟩
        rcases List.mem_cons.1 ha with rfl | ha
        · exact ⟨b, hb⟩
        · exact h2 a ha

theorem addTask_ok {nsyst old : Nat} {acc r : List (Nat × Nat × V)} {t : LogkTask V} (h : addTask nsyst old acc t = .ok r) :
    (∃ l, t.vals = .sparse l) ∧
    r = acc ++ t.vals.ents.map (fun e => (t.cell.norm.posN e.1 + old, t.col nsyst, e.2)) ∧
    ∀ e ∈ t.vals.ents, ∀ l, t.cell.norm = .dense l → e.1 < l.length := by
  unfold addTask at h
  simp only [bind, Except.bind] at h
  cases hv : t.vals with
  | dense l => rw [hv] at h; cases h
  | sparse l =>
    rw [hv] at h
    simp only [LogkE.entries] at h
    split at h
    · cases h
    · rename_i out hout
      cases h
      obtain ⟨h1, h2⟩ := res_mapM_ok (g := fun e : Nat × V => (t.cell.norm.posN e.1 + old, t.k * nsyst + t.isyst, e.2)) (by
        intro a b hab
        cases hp : t.cell.norm.pos old a.1 with
        | error e => rw [hp] at hab; cases hab
        | ok p =>
          rw [hp] at hab
          cases hab
          rw [(pos_ok hp).1]) hout
      refine ⟨⟨l, rfl⟩, by rw [h1]; rfl, ?_⟩
      intro e he m hm
      obtain ⟨b, hb⟩ := h2 e he
      cases hp : t.cell.norm.pos old e.1 with
      | error e => rw [hp] at hb; cases hb
      | ok p => exact (pos_ok hp).2 m hm

theorem addTasks_ok {nsyst old : Nat} {ts : List (LogkTask V)} : ∀ {acc r : List (Nat × Nat × V)},
    loop (addTask nsyst old) acc ts = .ok r →
    r = acc ++ ts.flatMap (fun t => t.vals.ents.map fun e => (t.cell.norm.posN e.1 + old, t.col nsyst, e.2)) ∧
    ∀ t ∈ ts, ∀ e ∈ t.vals.ents, ∀ l, t.cell.norm = .dense l → e.1 < l.length := by
  induction ts with
  | nil => intro acc r h; cases h; simp
  | cons t ts ih =>
    intro acc r h
    unfold loop at h
    cases ht : addTask nsyst old acc t with
    | error e => rw [ht] at h; cases h
    | ok acc' =>
      rw [ht] at h
      obtain ⟨_, h1, h2⟩ := addTask_ok ht
      obtain ⟨h3, h4⟩ := ih h
      refine ⟨by rw [h3, h1, List.append_assoc]; rfl, fun t' ht' => ?_⟩
      rcases List.mem_cons.1 ht' with rfl | ht'
      · exact h2
      · exact h4 t' ht'

theorem mem_tasks {systs : List String} {c : Cell V} {t : LogkTask V} : t ∈ tasksOfCell systs c ↔
    ∃ m v, systs[t.isyst]? = some m ∧ c.avg.get? m = some v ∧ t.cell = c ∧
      ((t.k = 0 ∧ t.vals = v) ∨ (t.k = 1 ∧ c.half.get? m = some t.vals)) := by
  unfold tasksOfCell
  rw [List.mem_flatMap]
  constructor
  · rintro ⟨⟨m, i⟩, hmi, ht⟩
    rw [List.mk_mem_zipIdx_iff_getElem?] at hmi
    dsimp only at ht
    split at ht
    · cases ht
    · rename_i v hv
      rcases List.mem_cons.1 ht with rfl | ht
      · exact ⟨m, v, hmi, hv, rfl, .inl ⟨rfl, rfl⟩⟩
      · split at ht
        · cases ht
        · rename_i hv' hh
          rw [List.mem_singleton] at ht
          subst ht
          exact ⟨m, v, hmi, hv, rfl, .inr ⟨rfl, hh⟩⟩
  · rintro ⟨m, v, hm, hv, hc, ht⟩
    refine ⟨(m, t.isyst), by rw [List.mk_mem_zipIdx_iff_getElem?]; exact hm, ?_⟩
    obtain ⟨tc, ti, tk, tv⟩ := t
    dsimp only at *
    subst hc
    rw [hv]
    rcases ht with ⟨rfl, rfl⟩ | ⟨rfl, hh⟩
    · simp
    · simp [hh]

theorem tasks_pairwise (systs : List String) (c : Cell V) :
    (tasksOfCell systs c).Pairwise fun t u => t.col systs.length ≠ u.col systs.length := by
  have hlt : ∀ {ms : List String} {k : Nat} {e : String × Nat}, e ∈ ms.zipIdx k → e.2 < k + ms.length := by
    intro ms k e he
    obtain ⟨m, i⟩ := e
    have := List.mem_zipIdx he
    simp only at this ⊢; omega
  suffices H : ∀ (ms : List String) (k : Nat), k + ms.length ≤ systs.length →
      ((ms.zipIdx k).flatMap fun e => match c.avg.get? e.1 with
        | none => []
        | some v => (⟨c, e.2, 0, v⟩ : LogkTask V) :: match c.half.get? e.1 with
          | none => []
          | some hv => [⟨c, e.2, 1, hv⟩]).Pairwise fun t u => t.col systs.length ≠ u.col systs.length from
    H systs 0 (by omega)
  intro ms
  induction ms with
  | nil => intro k _; simp
  | cons m ms ih =>
    intro k hk
    rw [List.length_cons] at hk
    rw [List.zipIdx_cons, List.flatMap_cons, List.pairwise_append]
    refine ⟨?_, ih (k + 1) (by omega), ?_⟩
    · split
      · simp
      · split
        · simp
        · rename_i v _ hv _
          simp only [List.pairwise_cons, List.mem_singleton, forall_eq, List.not_mem_nil, false_implies, implies_true, List.Pairwise.nil, and_true, LogkTask.col, Nat.zero_mul, Nat.one_mul]
          omega
    · intro t ht u hu
      obtain ⟨e, he, hu⟩ := List.mem_flatMap.1 hu
      have he2 := hlt he
      have he1 : k + 1 ≤ e.2 := by
        obtain ⟨m', i⟩ := e
        have := List.mem_zipIdx he
        simp only at this ⊢; omega
      have htc : t.col systs.length = k ∨ t.col systs.length = systs.length + k := by
        dsimp only at ht
        split at ht
        · cases ht
        · rcases List.mem_cons.1 ht with rfl | ht
          · left; simp [LogkTask.col]
          · split at ht
            · cases ht
            · rw [List.mem_singleton] at ht; subst ht; right; simp [LogkTask.col]
      have huc : u.col systs.length = e.2 ∨ u.col systs.length = systs.length + e.2 := by
        split at hu
        · cases hu
        · rcases List.mem_cons.1 hu with rfl | hu
          · left; simp [LogkTask.col]
          · split at hu
            · cases hu
            · rw [List.mem_singleton] at hu; subst hu; right; simp [LogkTask.col]
      omega

/-- what the assembly needs to know about a cell -/
structure CellOk (systs : List String) (c : Cell V) : Prop where
  sorted : c.norm.sorted
  fits : ∀ t ∈ tasksOfCell systs c, ∃ l, t.vals = .sparse l ∧ fits c.norm l

/-- the state of the assembly after the cells `done` -/
structure AsmInv (systs : List String) (done : List (Cell V)) (acc : Acc V) : Prop where
  norm : acc.norm = done.flatMap rowsOf
  sound : ∀ p col v, (p, col, v) ∈ acc.logk → ∃ c ∈ done, ∃ t ∈ tasksOfCell systs c, ∃ i x, (i, v) ∈ t.vals.ents ∧
    col = t.col systs.length ∧ acc.norm[p]? = some (c.start + i, c.iproc, x) ∧ (i, x) ∈ c.norm.entries
  complete : ∀ c ∈ done, ∀ t ∈ tasksOfCell systs c, ∀ i v, (i, v) ∈ t.vals.ents → ∃ p x,
    (p, t.col systs.length, v) ∈ acc.logk ∧ acc.norm[p]? = some (c.start + i, c.iproc, x)
  nodup : (acc.logk.map fun e => (e.1, e.2.1)).Nodup

theorem asmInv_step {systs : List String} {done : List (Cell V)} {acc acc' : Acc V} {c : Cell V}
    (hI : AsmInv systs done acc) (hc : CellOk systs c) (h : addCell systs acc c = .ok acc') :
    AsmInv systs (done ++ [c]) acc' := by
  unfold addCell at h
  dsimp only at h
  split at h
  · cases h
  rename_i lk hlk
  cases h
  obtain ⟨h1, h2⟩ := addTasks_ok hlk
  have hcell : ∀ t ∈ tasksOfCell systs c, t.cell = c := fun t ht => by
    obtain ⟨_, _, _, _, h, _⟩ := mem_tasks.1 ht; exact h
  have hpos : ∀ t ∈ tasksOfCell systs c, ∀ e ∈ t.vals.ents, ∃ x, c.norm.entries[c.norm.posN e.1]? = some (e.1, x) := by
    intro t ht e he
    obtain ⟨l, hl, hf⟩ := hc.fits t ht
    rw [hl] at he
    refine posN_ok (i := e.1) (v := e.2) hf hc.sorted he fun m hm => ?_
    have := h2 t ht e (by rw [hl]; exact he) m
    rw [hcell t ht] at this
    exact this hm
  have hrow : ∀ t ∈ tasksOfCell systs c, ∀ e ∈ t.vals.ents, ∃ x,
      (acc.norm ++ rowsOf c)[c.norm.posN e.1 + acc.norm.length]? = some (c.start + e.1, c.iproc, x) ∧
      (e.1, x) ∈ c.norm.entries := by
    intro t ht e he
    obtain ⟨x, hx⟩ := hpos t ht e he
    refine ⟨x, ?_, List.mem_of_getElem? hx⟩
    rw [List.getElem?_append_right (by omega), Nat.add_sub_cancel]
    unfold rowsOf
    rw [List.getElem?_map, hx]; rfl
  have hold : ∀ {p : Nat} {x : Nat × Nat × V}, acc.norm[p]? = some x → (acc.norm ++ rowsOf c)[p]? = some x := by
    intro p x hx
    rw [List.getElem?_append_left (List.getElem?_eq_some_iff.1 hx).1]; exact hx
  refine ⟨by rw [hI.norm, List.flatMap_append]; simp [rowsOf], ?_, ?_, ?_⟩
  · intro p col v hm
    have hm' : (p, col, v) ∈ lk := hm
    rw [h1, List.mem_append] at hm'
    rcases hm' with hm' | hm'
    · obtain ⟨c', hc', t, ht, i, x, h3, h4, h5, h6⟩ := hI.sound p col v hm'
      exact ⟨c', by simp [hc'], t, ht, i, x, h3, h4, hold h5, h6⟩
    · obtain ⟨t, ht, hm'⟩ := List.mem_flatMap.1 hm'
      obtain ⟨⟨i, w⟩, he, heq⟩ := List.mem_map.1 hm'
      simp only [Prod.mk.injEq] at heq
      obtain ⟨hp, hcol, hv⟩ := heq
      subst hv
      obtain ⟨x, hx, hx'⟩ := hrow t ht (i, w) he
      refine ⟨c, by simp, t, ht, i, x, he, hcol.symm, ?_, hx'⟩
      show (acc.norm ++ rowsOf c)[p]? = _
      rw [← hp, hcell t ht]; exact hx
  · intro c' hc' t ht i v he
    rcases List.mem_append.1 hc' with hc' | hc'
    · obtain ⟨p, x, h3, h4⟩ := hI.complete c' hc' t ht i v he
      exact ⟨p, x, by show _ ∈ lk; rw [h1]; exact List.mem_append.2 (.inl h3), hold h4⟩
    · rw [List.mem_singleton] at hc'
      subst hc'
      obtain ⟨x, hx, _⟩ := hrow t ht (i, v) he
      refine ⟨c'.norm.posN i + acc.norm.length, x, ?_, hx⟩
      show _ ∈ lk
      rw [h1]
      refine List.mem_append.2 (.inr (List.mem_flatMap.2 ⟨t, ht, List.mem_map.2 ⟨(i, v), he, ?_⟩⟩))
      rw [hcell t ht]
  · show (lk.map fun e => (e.1, e.2.1)).Nodup
    rw [h1, List.map_append, List.nodup_append]
    refine ⟨hI.nodup, ?_, ?_⟩
    · rw [List.map_flatMap]
      unfold List.Nodup
      rw [List.pairwise_flatMap]
      constructor
      · intro t ht
        rw [List.map_map]
        obtain ⟨l, hl, hf⟩ := hc.fits t ht
        have hnd : (t.vals.ents.map (·.1)).Pairwise (· < ·) := by rw [hl]; exact fits_nodup hf hc.sorted
        rw [List.pairwise_map] at hnd ⊢
        refine (List.Pairwise.and_mem.1 hnd).imp ?_
        rintro e f ⟨he, hf', hlt⟩ heq
        simp only [Function.comp, Prod.mk.injEq] at heq
        rw [hcell t ht] at heq
        obtain ⟨x, hx⟩ := hpos t ht e he
        obtain ⟨y, hy⟩ := hpos t ht f hf'
        have : c.norm.posN e.1 = c.norm.posN f.1 := by omega
        rw [this, hy] at hx
        simp only [Option.some.injEq, Prod.mk.injEq] at hx
        omega
      · refine (tasks_pairwise systs c).imp ?_
        intro t u hne x hx y hy heq
        subst heq
        obtain ⟨e, he, rfl⟩ := List.mem_map.1 hx
        obtain ⟨e1, he1, rfl⟩ := List.mem_map.1 he
        obtain ⟨f, hf, hfe⟩ := List.mem_map.1 hy
        obtain ⟨f1, hf1, rfl⟩ := List.mem_map.1 hf
        simp only [Prod.mk.injEq] at hfe
        exact hne hfe.2.symm
    · intro a ha b hb heq
      subst heq
      obtain ⟨⟨p, col, v⟩, he, rfl⟩ := List.mem_map.1 ha
      obtain ⟨_, _, _, _, _, _, _, _, h5, _⟩ := hI.sound p col v he
      have hp := (List.getElem?_eq_some_iff.1 h5).1
      obtain ⟨⟨p', col', v'⟩, he', heq⟩ := List.mem_map.1 hb
      obtain ⟨t, ht, hm'⟩ := List.mem_flatMap.1 he'
      obtain ⟨⟨i, w⟩, _, heq'⟩ := List.mem_map.1 hm'
      simp only [Prod.mk.injEq] at heq heq'
      omega

theorem asmInv_loop {systs : List String} {cells : List (Cell V)} : ∀ {done : List (Cell V)} {acc acc' : Acc V},
    AsmInv systs done acc → (∀ c ∈ cells, CellOk systs c) → loop (addCell systs) acc cells = .ok acc' →
    AsmInv systs (done ++ cells) acc' := by
  induction cells with
  | nil => intro done acc acc' hI _ h; cases h; rw [List.append_nil]; exact hI
  | cons c cells ih =>
    intro done acc acc' hI hc h
    unfold loop at h
    cases ha : addCell systs acc c with
    | error e => rw [ha] at h; cases h
    | ok a =>
      rw [ha] at h
      have := ih (asmInv_step hI (hc c (by simp)) ha) (fun c' hc' => hc c' (by simp [hc'])) h
      rwa [List.append_assoc] at this

theorem asmInv_nil (systs : List String) : AsmInv systs ([] : List (Cell V)) {} :=
  ⟨rfl, fun _ _ _ h => (nomatch h), fun _ h => (nomatch h), List.Pairwise.nil⟩

/-! ### Canonical order -/

theorem rowMajor_lt {a b a' b' n : Nat} (hb : b < n) (hb' : b' < n) (h : a * n + b < a' * n + b') :
    a < a' ∨ (a = a' ∧ b < b') := by
  rcases Nat.lt_trichotomy a a' with h1 | h1 | h1
  · exact .inl h1
  · subst h1; exact .inr ⟨rfl, by omega⟩
  · have : (a' + 1) * n ≤ a * n := Nat.mul_le_mul_right n h1
    rw [Nat.add_mul] at this
    omega

theorem rowMajor_inj {a b a' b' n : Nat} (hb : b < n) (hb' : b' < n) (h : a * n + b = a' * n + b') : a = a' ∧ b = b' := by
  rcases Nat.lt_trichotomy a a' with h1 | h1 | h1
  · have : (a + 1) * n ≤ a' * n := Nat.mul_le_mul_right n h1
    rw [Nat.add_mul] at this
    omega
  · subst h1; exact ⟨rfl, by omega⟩
  · have : (a' + 1) * n ≤ a * n := Nat.mul_le_mul_right n h1
    rw [Nat.add_mul] at this
    omega

/-- strictly increasing in row-major order -/
def rowLt (e f : Nat × Nat × V) : Prop := e.1 < f.1 ∨ (e.1 = f.1 ∧ e.2.1 < f.2.1)

theorem canonicalise_ok {N nproc nsyst total : Nat} {symmetric : Bool} {acc : Acc V} {out : SparseOut V}
    (h : canonicalise N nproc nsyst symmetric total acc = .ok out)
    (hnd : (acc.norm.map fun e => (e.1, e.2.1)).Nodup) (hld : (acc.logk.map fun e => (e.1, e.2.1)).Nodup)
    (hp : ∀ e ∈ acc.logk, e.1 < acc.norm.length) :
    out.norm.Perm acc.norm ∧ out.norm.Pairwise rowLt ∧ out.logk.Pairwise rowLt ∧
    (∀ r col v, (r, col, v) ∈ out.logk → ∃ p x, (p, col, v) ∈ acc.logk ∧ acc.norm[p]? = some x ∧ out.norm[r]? = some x) ∧
    (∀ p col v, (p, col, v) ∈ acc.logk → ∃ r x, (r, col, v) ∈ out.logk ∧ acc.norm[p]? = some x ∧ out.norm[r]? = some x) := by
  unfold canonicalise at h
  split at h
  · cases h
  split at h
  · cases h
  rename_i hrange
  extract_lets perm norm' inv lg0 ncol0 at h
  split at h
  · cases h
  rename_i hlrange
  cases h
  set σ := argsort (acc.norm.map fun e => e.1 * nproc + e.2.1) with hσ
  have hσp : σ.Perm (List.range acc.norm.length) := by
    have := argsort_perm (acc.norm.map fun e => e.1 * nproc + e.2.1)
    rwa [List.length_map] at this
  have hσl : σ.length = acc.norm.length := by rw [hσp.length_eq, List.length_range]
  have hproc : ∀ e ∈ acc.norm, e.2.1 < nproc := by
    intro e he
    have := (List.any_eq_false.1 (Bool.not_eq_true _ ▸ hrange)) e he
    simp only [Bool.or_eq_true, decide_eq_true_eq, not_or, not_le] at this
    exact this.2
  have hkey : (acc.norm.map fun e => e.1 * nproc + e.2.1).Nodup := by
    unfold List.Nodup at hnd ⊢
    rw [List.pairwise_map] at hnd ⊢
    refine (List.Pairwise.and_mem.1 hnd).imp ?_
    rintro e f ⟨he, hf, hne⟩ heq
    obtain ⟨h1, h2⟩ := rowMajor_inj (hproc e he) (hproc f hf) heq
    exact hne (by rw [h1, h2])
  have hnorm : (gather (0, 0, 0) acc.norm σ).Perm acc.norm := gather_perm _ _ hσp
  set ncol := (if symmetric = true then nsyst else 2 * nsyst) with hncol
  set lg := acc.logk.map fun e => ((argsort σ).getD e.1 0, e.2) with hlg
  have hinv : ∀ p, p < acc.norm.length → ∃ r, (argsort σ)[p]? = some r ∧ σ[r]? = some p := fun p hp' =>
    argsort_inverse (by rw [hσl]; exact hσp) (by rw [hσl]; exact hp')
  have hcol : ∀ e ∈ lg, e.2.1 < ncol := by
    intro e he
    have := (List.any_eq_false.1 (Bool.not_eq_true _ ▸ hlrange)) e he
    simp only [Bool.or_eq_true, decide_eq_true_eq, not_or, not_le] at this
    exact this.2
  have hlgkey : (lg.map fun e => e.1 * ncol + e.2.1).Nodup := by
    rw [hlg, List.map_map]
    unfold List.Nodup at hld ⊢
    rw [List.pairwise_map] at hld ⊢
    refine (List.Pairwise.and_mem.1 hld).imp ?_
    rintro e f ⟨he, hf, hne⟩ heq
    obtain ⟨r, hr1, hr2⟩ := hinv e.1 (hp e he)
    obtain ⟨q, hq1, hq2⟩ := hinv f.1 (hp f hf)
    simp only [Function.comp, List.getD_eq_getElem?_getD, hr1, hq1, Option.getD_some] at heq
    obtain ⟨h1, h2⟩ := rowMajor_inj (hcol _ (List.mem_map.2 ⟨e, he, rfl⟩)) (hcol _ (List.mem_map.2 ⟨f, hf, rfl⟩)) heq
    rw [h1, hq2] at hr2
    exact hne (by rw [Option.some.inj hr2, h2])
  have hlperm : (gather (0, 0, 0) lg (argsort (lg.map fun e => e.1 * ncol + e.2.1))).Perm lg := by
    refine gather_perm _ _ ?_
    have := argsort_perm (lg.map fun e => e.1 * ncol + e.2.1)
    rwa [List.length_map] at this
  refine ⟨hnorm, ?_, ?_, ?_, ?_⟩
  · have := gather_sorted ((0, 0, 0) : Nat × Nat × V) acc.norm (fun e => e.1 * nproc + e.2.1) hkey
    rw [List.pairwise_map] at this
    refine (List.Pairwise.and_mem.1 this).imp ?_
    rintro e f ⟨he, hf, hlt⟩
    exact rowMajor_lt (hproc e (hnorm.mem_iff.1 he)) (hproc f (hnorm.mem_iff.1 hf)) hlt
  · have := gather_sorted ((0, 0, 0) : Nat × Nat × V) lg (fun e => e.1 * ncol + e.2.1) hlgkey
    rw [List.pairwise_map] at this
    refine (List.Pairwise.and_mem.1 this).imp ?_
    rintro e f ⟨he, hf, hlt⟩
    exact rowMajor_lt (hcol e (hlperm.mem_iff.1 he)) (hcol f (hlperm.mem_iff.1 hf)) hlt
  · intro r col v hm
    have hm' := hlperm.mem_iff.1 hm
    rw [hlg] at hm'
    obtain ⟨⟨p, col', v'⟩, he, heq⟩ := List.mem_map.1 hm'
    simp only [Prod.mk.injEq] at heq
    obtain ⟨h1, rfl, rfl⟩ := heq
    have hpl := hp _ he
    obtain ⟨r', hr1, hr2⟩ := hinv p hpl
    rw [List.getD_eq_getElem?_getD, hr1, Option.getD_some] at h1
    subst h1
    have hx := List.getElem?_eq_getElem hpl
    exact ⟨p, _, he, hx, gather_getElem _ _ _ hr2 hx⟩
  · intro p col v he
    have hpl := hp _ he
    obtain ⟨r', hr1, hr2⟩ := hinv p hpl
    have hx := List.getElem?_eq_getElem hpl
    refine ⟨r', _, hlperm.mem_iff.2 ?_, hx, gather_getElem _ _ _ hr2 hx⟩
    rw [hlg]
    refine List.mem_map.2 ⟨(p, col, v), he, ?_⟩
    simp [List.getD_eq_getElem?_getD, hr1]

end Verif.Writer
