import Verif.Lemmas.Batched
import Verif.Lemmas.Sparse
import Verif.Lemmas.Merge
import Verif.Props.WriterDense

/-! Variations booked for one systematic of a histogram with extra axes. -/

namespace Verif.Batched

set_option linter.unusedSectionVars false

open Verif.Logk Verif.Writer Verif.Grid
open Verif.Merge (zipB_map)

section
variable {V : Type} [Field V] [LinearOrder V]

/-- the template at a bin -/
def Spec.normAt : Norm V → Nat → V
  | .dense l, b => l.getD b 0
  | .csr _ l, b => ((l.find? fun e => e.1 == b).map (·.2)).getD 0

/-- a template with `size` bins; sparse ones are sorted and store no zeros -/
def Spec.sized (size : Nat) : Norm V → Prop
  | .dense l => l.length = size
  | .csr _ l => (l.map (·.1)).Pairwise (· < ·) ∧ ∀ e ∈ l, e.1 < size ∧ e.2 ≠ 0

/-- the variation of a template `n` by the difference `x` -/
def Spec.logk (N : Num V) (t : SystType) (kfac n x : V) : V :=
  if n = 0 then 0
  else match t with
    | .logNormal => if 0 < n * (n + x) then kfac * N.log ((n + x) / n) else N.eps
    | .normal => kfac * x
    | .other => 0

/-- a stored variation has the values `w`; a sparse one lists the bins where they are not zero -/
def Spec.holds (sparse : Bool) (size : Nat) (w : Nat → V) : LogkE V → Prop
  | .dense l => sparse = false ∧ l = (List.range size).map w
  | .sparse l => sparse = true ∧ (l.map (·.1)).Nodup ∧ ∀ b v, (b, v) ∈ l ↔ b < size ∧ v = w b ∧ v ≠ 0

/-- the same stored variation up to the order of its entries -/
def Spec.same : LogkE V → LogkE V → Prop
  | .dense l, .dense m => l = m
  | .sparse l, .sparse m => l.Perm m
  | _, _ => False

theorem same_of_holds {sparse : Bool} {size : Nat} {w : Nat → V} {e e' : LogkE V} (h : Spec.holds sparse size w e)
    (h' : Spec.holds sparse size w e') : Spec.same e e' := by
  cases e with
  | dense l =>
    cases e' with
    | dense m => exact h.2.trans h'.2.symm
    | sparse m => rw [h.1] at h'; exact absurd h'.1 (by simp)
  | sparse l =>
    cases e' with
    | dense m => rw [h.1] at h'; exact absurd h'.1 (by simp)
    | sparse m =>
      refine (List.perm_ext_iff_of_nodup (List.Nodup.of_map _ h.2.1) (List.Nodup.of_map _ h'.2.1)).2 fun x => ?_
      exact (h.2.2 x.1 x.2).trans (h'.2.2 x.1 x.2).symm

theorem same_refl (e : LogkE V) : Spec.same e e := by
  cases e with
  | dense l => exact rfl
  | sparse l => exact .refl _

theorem logkVal_eq {N : Num V} {t : SystType} (ht : t ≠ .other) {kfac n x : V} (hn : n ≠ 0) :
    logkVal N t kfac (n + x) n = Spec.logk N t kfac n x := by
  unfold Spec.logk logkVal
  rw [if_neg hn]
  cases t with
  | other => exact absurd rfl ht
  | logNormal => rfl
  | normal => simp only [add_sub_cancel_left]

theorem logk_zero [IsStrictOrderedRing V] {N : Num V} (hN : N.log 1 = 0) (t : SystType) (kfac n : V) :
    Spec.logk N t kfac n 0 = 0 := by
  unfold Spec.logk
  split
  · rfl
  · rename_i h
    cases t with
    | other => rfl
    | normal => simp
    | logNormal =>
      have : 0 < n * n := mul_self_pos.2 h
      simp [this, div_self h, hN]

/-! ### Sorted lists -/

theorem lookup_eq {α : Type} {l : List (Nat × α)} (hs : (l.map (·.1)).Pairwise (· < ·)) (b : Nat) :
    (match l[l.countP fun e => e.1 < b]? with
      | some x => if x.1 = b then some x else none
      | none => none) = l.find? fun e => e.1 == b := by
  cases h : l[l.countP fun e => e.1 < b]? with
  | some x => exact (countP_sorted hs h).symm
  | none =>
    dsimp only
    symm
    rw [List.find?_eq_none]
    intro y hy
    rw [List.getElem?_eq_none_iff] at h
    have hc := List.countP_eq_length.1 (le_antisymm List.countP_le_length h) y hy
    simp only [decide_eq_true_eq] at hc
    simp only [beq_iff_eq]; omega

theorem find?_of_mem {α : Type} {l : List (Nat × α)} (hn : (l.map (·.1)).Nodup) {b : Nat} {v : α} (h : (b, v) ∈ l) :
    l.find? (fun e => e.1 == b) = some (b, v) := by
  cases hf : l.find? (fun e => e.1 == b) with
  | none =>
    have := List.find?_eq_none.1 hf _ h
    simp at this
  | some x =>
    have h1 := List.mem_of_find?_eq_some hf
    have h2 : x.1 = b := by simpa using List.find?_some hf
    exact congrArg some (List.inj_on_of_nodup_map hn h1 h h2)

theorem find?_eq_some_iff {α : Type} {l : List (Nat × α)} (hn : (l.map (·.1)).Nodup) {b : Nat} {v : α} :
    ((l.find? fun e => e.1 == b).map (·.2)) = some v ↔ (b, v) ∈ l := by
  constructor
  · intro h
    obtain ⟨x, hx, rfl⟩ := Option.map_eq_some_iff.1 h
    have h2 : x.1 = b := by simpa using List.find?_some hx
    rw [← h2]
    exact List.mem_of_find?_eq_some hx
  · intro h
    rw [find?_of_mem hn h]; rfl

/-! ### The batched path -/

theorem mapM_ok {α β : Type} {f : α → Res β} {g : α → β} : ∀ {l : List α}, (∀ x ∈ l, f x = .ok (g x)) →
    l.mapM f = .ok (l.map g)
  | [], _ => rfl
  | x :: l, h => by
    rw [List.mapM_cons, h x (by simp), mapM_ok fun y hy => h y (by simp [hy])]; rfl

theorem mapM_some {α β : Type} {f : α → Option β} {g : α → β} : ∀ {l : List α}, (∀ x ∈ l, f x = some (g x)) →
    l.mapM f = some (l.map g)
  | [], _ => rfl
  | x :: l, h => by
    rw [List.mapM_cons, h x (by simp), mapM_some fun y hy => h y (by simp [hy])]; rfl

theorem withNorm_eq {α : Type} {size : Nat} {norm : Norm V} (hn : Spec.sized size norm) {l : List (α × Nat × FVal V)}
    (hl : ∀ e ∈ l, e.2.1 < size) :
    withNorm norm l = .ok ((l.filter fun e => Spec.normAt norm e.2.1 ≠ 0).map
      fun e => (e.1, e.2.1, e.2.2, Spec.normAt norm e.2.1)) := by
  cases norm with
  | csr sz n =>
    unfold withNorm
    dsimp only
    congr 1
    induction l with
    | nil => rfl
    | cons e l ih =>
      have ih := ih fun x hx => hl x (by simp [hx])
      have hlk := lookup_eq hn.1 e.2.1
      rw [List.filterMap_cons]
      cases hx : n[n.countP fun x => x.1 < e.2.1]? with
      | none =>
        rw [hx] at hlk
        dsimp only at hlk ⊢
        have h0 : Spec.normAt (.csr sz n) e.2.1 = 0 := by
          show ((n.find? fun x => x.1 == e.2.1).map (·.2)).getD 0 = _
          rw [← hlk]; rfl
        rw [List.filter_cons_of_neg (by simp [h0])]
        exact ih
      | some x =>
        rw [hx] at hlk
        dsimp only at hlk ⊢
        by_cases hxe : x.1 = e.2.1
        · rw [if_pos hxe] at hlk ⊢
          have h0 : Spec.normAt (.csr sz n) e.2.1 = x.2 := by
            show ((n.find? fun x => x.1 == e.2.1).map (·.2)).getD 0 = _
            rw [← hlk]; rfl
          have hx0 : x.2 ≠ 0 := (hn.2 x (List.mem_of_getElem? hx)).2
          rw [List.filter_cons_of_pos (by simp [h0, hx0]), List.map_cons, ih, h0]
        · rw [if_neg hxe] at hlk ⊢
          have h0 : Spec.normAt (.csr sz n) e.2.1 = 0 := by
            show ((n.find? fun x => x.1 == e.2.1).map (·.2)).getD 0 = _
            rw [← hlk]; rfl
          rw [List.filter_cons_of_neg (by simp [h0])]
          exact ih
  | dense n =>
    unfold withNorm
    dsimp only
    rw [mapM_ok (g := fun e => (e.1, e.2.1, e.2.2, Spec.normAt (.dense n) e.2.1))]
    · dsimp only [bind, Except.bind]
      rw [List.filter_map]
      rfl
    · intro e he
      have h1 : e.2.1 < n.length := lt_of_lt_of_eq (hl e he) (Eq.symm hn)
      rw [List.getElem?_eq_getElem h1]
      simp [Spec.normAt, List.getD_eq_getElem?_getD, h1]

/-- the list `Z` has exactly the nonzero values of `w` -/
def Lists (size : Nat) (w : Nat → V) (Z : List (Nat × V)) : Prop :=
  (Z.map (·.1)).Nodup ∧ ∀ b v, (b, v) ∈ Z ↔ b < size ∧ v = w b ∧ v ≠ 0

theorem Lists.perm {size : Nat} {w : Nat → V} {Z Z' : List (Nat × V)} (h : Lists size w Z) (hp : Z'.Perm Z) :
    Lists size w Z' := ⟨(hp.map _).nodup_iff.2 h.1, fun b v => (hp.mem_iff).trans (h.2 b v)⟩

theorem stored_holds {size : Nat} {w : Nat → V} {Z : List (Nat × V)} (h : Lists size w Z) (sparse : Bool) :
    Spec.holds sparse size w (stored sparse size Z) := by
  cases sparse with
  | true => exact ⟨rfl, h.1, h.2⟩
  | false =>
    refine ⟨rfl, ?_⟩
    refine List.map_congr_left fun b hb => ?_
    rw [List.mem_range] at hb
    have hr : Lists size w Z.reverse := h.perm (List.reverse_perm Z)
    have hd : (Z.reverse.find? fun e => decide (e.1 = b)) = Z.reverse.find? fun e => e.1 == b := by
      congr 1
    rw [hd]
    cases hf : (Z.reverse.find? fun e => e.1 == b).map (·.2) with
    | some v =>
      have := (hr.2 b v).1 ((find?_eq_some_iff hr.1).1 hf)
      exact this.2.1
    | none =>
      dsimp only [Option.getD_none]
      by_contra hw
      have hm : (b, w b) ∈ Z.reverse := (hr.2 b (w b)).2 ⟨hb, rfl, fun h => hw h.symm⟩
      rw [(find?_eq_some_iff hr.1).2 hm] at hf
      cases hf

/-- the difference of a systematic in a bin -/
def diffAt (P : List (Nat × Nat × FVal V)) (s b : Nat) : V :=
  (((P.find? fun e => e.1 == s && e.2.1 == b).bind fun e => e.2.2.toFin?)).getD 0

theorem diffAt_of_mem {P : List (Nat × Nat × FVal V)} (hP : (P.map fun e => (e.1, e.2.1)).Nodup) {s b : Nat} {u : V}
    (h : (s, b, FVal.fin u) ∈ P) : diffAt P s b = u := by
  unfold diffAt
  cases hf : P.find? fun e => e.1 == s && e.2.1 == b with
  | none =>
    have := List.find?_eq_none.1 hf _ h
    simp at this
  | some x =>
    have h1 := List.mem_of_find?_eq_some hf
    have h2 : x.1 = s ∧ x.2.1 = b := by simpa using List.find?_some hf
    have : x = (s, b, FVal.fin u) := List.inj_on_of_nodup_map hP h1 h (by simp [h2.1, h2.2])
    rw [this]; rfl

theorem diffAt_ne {P : List (Nat × Nat × FVal V)} {s b : Nat} (h : diffAt P s b ≠ 0) :
    ∃ u, (s, b, FVal.fin u) ∈ P ∧ diffAt P s b = u := by
  unfold diffAt at h ⊢
  cases hf : P.find? fun e => e.1 == s && e.2.1 == b with
  | none => rw [hf] at h; exact absurd rfl h
  | some x =>
    rw [hf] at h
    have h1 := List.mem_of_find?_eq_some hf
    have h2 : x.1 = s ∧ x.2.1 = b := by simpa using List.find?_some hf
    obtain ⟨x1, x2, x3⟩ := x
    obtain ⟨rfl, rfl⟩ := h2
    cases x3 with
    | fin u => exact ⟨u, h1, rfl⟩
    | nan => exact absurd rfl h
    | pinf => exact absurd rfl h
    | ninf => exact absurd rfl h

/-- the entries that the batched path keeps -/
theorem batch_lists [IsStrictOrderedRing V] {N : Num V} (hN : N.log 1 = 0) {t : SystType} (ht : t ≠ .other) {kfac : V}
    {norm : Norm V} {size : Nat} {P : List (Nat × Nat × FVal V)} (hP : (P.map fun e => (e.1, e.2.1)).Nodup)
    (hb : ∀ e ∈ P, e.2.1 < size) {l : List (Nat × Nat × V × V)}
    (hl : (((P.filter fun e => Spec.normAt norm e.2.1 ≠ 0).map fun e => (e.1, e.2.1, e.2.2, Spec.normAt norm e.2.1)).mapM
      fun e => (e.2.2.1.toFin?).map fun v => (e.1, e.2.1, v, e.2.2.2)) = some l) (s : Nat) :
    Lists size (fun b => Spec.logk N t kfac (Spec.normAt norm b) (diffAt P s b))
      ((((l.map fun e => (e.1, e.2.1, logkVal N t kfac (e.2.2.2 + e.2.2.1) e.2.2.2)).filter fun e => e.2.2 ≠ 0).filter
        fun e => e.1 = s).map (·.2)) := by
  have hl2 : ((P.filter fun e => Spec.normAt norm e.2.1 ≠ 0).map fun e => (e.1, e.2.1, e.2.2, Spec.normAt norm e.2.1)) =
      l.map fun e => (e.1, e.2.1, FVal.fin e.2.2.1, e.2.2.2) := by
    refine (mapM_eq_some_iff (g := fun e : Nat × Nat × V × V => (e.1, e.2.1, FVal.fin e.2.2.1, e.2.2.2)) ?_).1 hl
    rintro ⟨a, b, x, n⟩ ⟨a', b', u, n'⟩
    cases x <;> simp [FVal.toFin?]
  have hmem : ∀ a b u n, (a, b, u, n) ∈ l ↔ (a, b, FVal.fin u) ∈ P ∧ n = Spec.normAt norm b ∧ n ≠ 0 := by
    intro a b u n
    have h1 : (a, b, u, n) ∈ l ↔ (a, b, FVal.fin u, n) ∈ l.map fun e => (e.1, e.2.1, FVal.fin e.2.2.1, e.2.2.2) := by
      constructor
      · exact fun h => List.mem_map.2 ⟨_, h, rfl⟩
      · intro h
        obtain ⟨⟨a', b', u', n'⟩, hy, e⟩ := List.mem_map.1 h
        simp only [Prod.mk.injEq, FVal.fin.injEq] at e
        obtain ⟨rfl, rfl, rfl, rfl⟩ := e
        exact hy
    rw [h1, ← hl2, List.mem_map]
    constructor
    · rintro ⟨⟨a', b', x⟩, hy, e⟩
      simp only [Prod.mk.injEq] at e
      obtain ⟨rfl, rfl, rfl, rfl⟩ := e
      have := List.mem_filter.1 hy
      exact ⟨this.1, rfl, by simpa using this.2⟩
    · rintro ⟨h2, rfl, h3⟩
      exact ⟨(a, b, .fin u), List.mem_filter.2 ⟨h2, by simpa using h3⟩, rfl⟩
  have hnd : (l.map fun e => (e.1, e.2.1)).Nodup := by
    have h1 : (l.map fun e => (e.1, e.2.1)) = (P.filter fun e => Spec.normAt norm e.2.1 ≠ 0).map fun e => (e.1, e.2.1) := by
      have := congrArg (List.map fun e : Nat × Nat × FVal V × V => (e.1, e.2.1)) hl2
      rw [List.map_map, List.map_map] at this
      exact this.symm
    rw [h1]
    exact hP.sublist (List.filter_sublist.map _)
  refine ⟨?_, fun b v => ?_⟩
  · rw [List.map_map]
    have hsub : ∀ (l : List (Nat × Nat × V)), (l.map fun e => (e.1, e.2.1)).Nodup →
        ((l.filter fun e => e.1 = s).map ((·.1) ∘ (·.2))).Nodup := by
      intro l hl
      have h1 := hl.sublist ((List.filter_sublist (p := fun e : Nat × Nat × V => decide (e.1 = s))).map
        fun e : Nat × Nat × V => (e.1, e.2.1))
      refine List.Nodup.of_map (fun b => (s, b)) ?_
      rw [List.map_map]
      refine (List.map_congr_left fun e he => ?_) ▸ h1
      have : e.1 = s := by simpa using (List.mem_filter.1 he).2
      simp [← this]
    refine hsub _ (List.Nodup.sublist (List.filter_sublist.map _) ?_)
    rw [List.map_map]
    exact hnd
  · rw [List.mem_map]
    constructor
    · rintro ⟨⟨s', b', v'⟩, hm, e⟩
      simp only [Prod.mk.injEq] at e
      obtain ⟨rfl, rfl⟩ := e
      have h1 := List.mem_filter.1 hm
      have h2 := List.mem_filter.1 h1.1
      have hs : s' = s := by simpa using h1.2
      have hv : v' ≠ 0 := by simpa using h2.2
      obtain ⟨⟨a, c, u, n⟩, hy, e⟩ := List.mem_map.1 h2.1
      simp only [Prod.mk.injEq] at e
      obtain ⟨rfl, rfl, rfl⟩ := e
      obtain ⟨hp, rfl, hn⟩ := (hmem _ _ _ _).1 hy
      subst hs
      refine ⟨hb _ hp, ?_, hv⟩
      dsimp only
      rw [diffAt_of_mem hP hp]
      exact logkVal_eq ht hn
    · rintro ⟨hbs, rfl, hv⟩
      dsimp only at hv ⊢
      have hx : diffAt P s b ≠ 0 := by
        intro h0
        rw [h0, logk_zero hN] at hv
        exact hv rfl
      have hn : Spec.normAt norm b ≠ 0 := by
        intro h0
        unfold Spec.logk at hv
        rw [if_pos h0] at hv
        exact hv rfl
      obtain ⟨u, hu, hd⟩ := diffAt_ne hx
      rw [hd] at hv ⊢
      refine ⟨(s, b, Spec.logk N t kfac (Spec.normAt norm b) u), List.mem_filter.2 ⟨List.mem_filter.2 ⟨?_, by simpa using hv⟩,
        by simp⟩, rfl⟩
      refine List.mem_map.2 ⟨(s, b, u, Spec.normAt norm b), (hmem _ _ _ _).2 ⟨hu, rfl, hn⟩, ?_⟩
      simp only [Prod.mk.injEq, true_and]
      exact logkVal_eq ht hn

/-! ### The loop over slices -/

theorem diffAt_slice {P : List (Nat × Nat × FVal V)} (hP : (P.map fun e => (e.1, e.2.1)).Nodup) {s : Nat}
    {C : List (Nat × FVal V)} (hC : C.Perm ((P.filter fun e => e.1 = s).map (·.2))) (b : Nat) :
    ((C.find? fun e => e.1 == b).bind fun e => e.2.toFin?).getD 0 = diffAt P s b := by
  unfold diffAt
  have hmem : ∀ x, (b, x) ∈ C ↔ (s, b, x) ∈ P := by
    intro x
    rw [hC.mem_iff, List.mem_map]
    constructor
    · rintro ⟨⟨s', y⟩, hy, e⟩
      have := List.mem_filter.1 hy
      have h2 : s' = s := by simpa using this.2
      subst h2
      dsimp only at e
      subst e
      exact this.1
    · exact fun h => ⟨_, List.mem_filter.2 ⟨h, by simp⟩, rfl⟩
  cases hf : C.find? fun e => e.1 == b with
  | some x =>
    have h1 := List.mem_of_find?_eq_some hf
    have h2 : x.1 = b := by simpa using List.find?_some hf
    have h3 : (s, b, x.2) ∈ P := (hmem x.2).1 (by rw [← h2]; exact h1)
    cases hg : P.find? fun e => e.1 == s && e.2.1 == b with
    | none =>
      have := List.find?_eq_none.1 hg _ h3
      simp at this
    | some y =>
      have h4 := List.mem_of_find?_eq_some hg
      have h5 : y.1 = s ∧ y.2.1 = b := by simpa using List.find?_some hg
      have : y = (s, b, x.2) := List.inj_on_of_nodup_map hP h4 h3 (by simp [h5.1, h5.2])
      rw [this]; rfl
  | none =>
    cases hg : P.find? fun e => e.1 == s && e.2.1 == b with
    | none => rfl
    | some y =>
      have h4 := List.mem_of_find?_eq_some hg
      have h5 : y.1 = s ∧ y.2.1 = b := by simpa using List.find?_some hg
      have h6 : (b, y.2.2) ∈ C := (hmem _).2 (by rw [← h5.1, ← h5.2]; exact h4)
      have := List.find?_eq_none.1 hf _ h6
      simp at this

theorem slice_nodup {P : List (Nat × Nat × FVal V)} (hP : (P.map fun e => (e.1, e.2.1)).Nodup) {s : Nat}
    {C : List (Nat × FVal V)} (hC : C.Perm ((P.filter fun e => e.1 = s).map (·.2))) : (C.map (·.1)).Nodup := by
  rw [(hC.map _).nodup_iff, List.map_map]
  have h1 := hP.sublist ((List.filter_sublist (p := fun e : Nat × Nat × FVal V => decide (e.1 = s))).map
    fun e : Nat × Nat × FVal V => (e.1, e.2.1))
  refine List.Nodup.of_map (fun b => (s, b)) ?_
  rw [List.map_map]
  refine (List.map_congr_left fun e he => ?_) ▸ h1
  have : e.1 = s := by simpa using (List.mem_filter.1 he).2
  simp [← this]

/-- the bins of a template that are looked at -/
def binsOf (size : Nat) : Norm V → List Nat
  | .dense _ => List.range size
  | .csr _ l => l.map (·.1)

theorem vals_eq {size : Nat} {norm : Norm V} (hn : Spec.sized size norm) :
    norm.vals = (binsOf size norm).map (Spec.normAt norm) := by
  cases norm with
  | dense l =>
    have hl : l.length = size := hn
    refine List.ext_getElem (by simp [Norm.vals, binsOf, hl]) fun i h1 h2 => ?_
    have h1' : i < l.length := h1
    simp [Norm.vals, binsOf, Spec.normAt, h1']
  | csr sz l =>
    show l.map (·.2) = (l.map (·.1)).map _
    rw [List.map_map]
    refine List.map_congr_left fun e he => ?_
    have hnd : (l.map (·.1)).Nodup := hn.1.imp fun h => by omega
    show e.2 = ((l.find? fun x => x.1 == e.1).map (·.2)).getD 0
    rw [find?_of_mem hnd he]; rfl

/-- value of a sparse array in a bin -/
def csrAt (C : List (Nat × FVal V)) (b : Nat) : FVal V := ((C.find? fun e => e.1 == b).map (·.2)).getD (.fin 0)

theorem systVals_eq {size : Nat} {norm : Norm V} {keep : List Axis} {F : List (Nat × FVal V)}
    {flow : Bool} (hsz : Writer.prod (dims flow keep) = size)
    (hC : ((((HIn.sparseHist keep F).flatCsr flow).2).map (·.1)).Nodup) {sv : List (FVal V)}
    (h : systVals (.sparseHist keep F) norm flow = .ok sv) :
    sv = (binsOf size norm).map (csrAt ((HIn.sparseHist keep F).flatCsr flow).2) := by
  have hs : ((((HIn.sparseHist keep F).flatCsr flow).2).map (·.1)).Pairwise (· < ·) :=
    ((flatCsr_sorted _ flow).and hC).imp fun h => Nat.lt_of_le_of_ne h.1 h.2
  cases norm with
  | dense l =>
    cases h
    show densify _ (Writer.prod (dims flow keep)) _ = _
    rw [hsz]; rfl
  | csr sz l =>
    unfold systVals at h
    simp only [HIn.isSparse, if_true] at h
    show sv = (l.map (·.1)).map _
    generalize l.map (·.1) = is at h
    generalize ((HIn.sparseHist keep F).flatCsr flow).2 = C at h hs
    unfold sparseValuesAt at h
    induction is generalizing sv with
    | nil => cases h; rfl
    | cons i is ih =>
      rw [List.mapM_cons] at h
      cases he : C[C.countP fun e => e.1 < i]? with
      | none => rw [he] at h; cases h
      | some e =>
        rw [he] at h
        dsimp only [bind, Except.bind] at h
        split at h
        · cases h
        · rename_i ws hws
          cases h
          rw [List.map_cons, ← ih hws]
          congr 1
          unfold csrAt
          rw [countP_sorted hs he]
          split <;> rfl

theorem finites_map {B : List Nat} {f : Nat → FVal V} {sv : List V} (h : finites (B.map f) = some sv) :
    ∃ g : Nat → V, (∀ b ∈ B, f b = .fin (g b)) ∧ sv = B.map g := by
  refine ⟨fun b => ((f b).toFin?).getD 0, ?_⟩
  rw [finites_eq_some] at h
  have key : ∀ (B : List Nat) (sv : List V), B.map f = sv.map .fin →
      (∀ b ∈ B, f b = .fin (((f b).toFin?).getD 0)) ∧ sv = B.map fun b => ((f b).toFin?).getD 0 := by
    intro B
    induction B with
    | nil => intro sv h; cases sv with
      | nil => exact ⟨by simp, rfl⟩
      | cons => cases h
    | cons b B ih =>
      intro sv h
      cases sv with
      | nil => cases h
      | cons v sv =>
        rw [List.map_cons, List.map_cons, List.cons.injEq] at h
        obtain ⟨h1, h2⟩ := ih sv h.2
        refine ⟨fun x hx => ?_, ?_⟩
        · rcases List.mem_cons.1 hx with rfl | hx
          · rw [h.1]; rfl
          · exact h1 x hx
        · rw [List.map_cons, ← h2, h.1]; rfl
  exact key B sv h

/-- what the loop stores for one slice -/
theorem loop_entry [IsStrictOrderedRing V] {cfg : Cfg V} (ht : cfg.systType ≠ .other) {kfac : V} {norm : Norm V}
    {size : Nat} (hn : Spec.sized size norm) (hsp : ∀ sz l, norm = .csr sz l → cfg.sparse = true) {keep : List Axis}
    {F : List (Nat × FVal V)} {flow : Bool} (hsz : Writer.prod (dims flow keep) = size) {P : List (Nat × Nat × FVal V)}
    (hP : (P.map fun e => (e.1, e.2.1)).Nodup) (hb : ∀ e ∈ P, e.2.1 < size) {s : Nat}
    (hC : ((HIn.sparseHist keep F).flatCsr flow).2.Perm ((P.filter fun e => e.1 = s).map (·.2)))
    {sv sv' : List (FVal V)} {lk : List V} {e : LogkE V}
    (h1 : systVals (.sparseHist keep F) norm flow = .ok sv) (h2 : applyDiff true norm.vals sv = .ok sv')
    (h3 : logkVals cfg.num cfg.systType kfac sv' norm.vals = .ok lk)
    (h4 : bookedLogk cfg norm (wrap norm.idx lk) = .ok e) :
    Spec.holds cfg.sparse size (fun b => Spec.logk cfg.num cfg.systType kfac (Spec.normAt norm b) (diffAt P s b)) e ∧
      ∀ b x, (s, b, x) ∈ P → Spec.normAt norm b ≠ 0 → ∃ u, x = .fin u := by
  have hnd := slice_nodup hP hC
  have hd := diffAt_slice hP hC
  have hsv := systVals_eq hsz hnd h1
  have hmemC : ∀ b x, (s, b, x) ∈ P → csrAt ((HIn.sparseHist keep F).flatCsr flow).2 b = x := by
    intro b x hx
    have : (b, x) ∈ ((HIn.sparseHist keep F).flatCsr flow).2 :=
      hC.mem_iff.2 (List.mem_map.2 ⟨_, List.mem_filter.2 ⟨hx, by simp⟩, rfl⟩)
    unfold csrAt
    rw [find?_of_mem hnd this]; rfl
  generalize ((HIn.sparseHist keep F).flatCsr flow).2 = C at *
  subst hsv
  rw [vals_eq hn] at h2 h3
  unfold applyDiff at h2
  rw [if_pos rfl, zipB_map] at h2
  cases h2
  unfold logkVals at h3
  split at h3
  · cases h3
  rename_i g hg
  obtain ⟨g, hg1, rfl⟩ := finites_map hg
  rw [if_neg ht, zipB_map] at h3
  cases h3
  have hfin : ∀ b ∈ binsOf size norm, ∃ u, csrAt C b = .fin u ∧ g b = Spec.normAt norm b + u ∧ diffAt P s b = u := by
    intro b hb
    have := hg1 b hb
    have hdd := hd b
    have hx : ((C.find? fun e => e.1 == b).bind fun e => e.2.toFin?).getD 0 = (csrAt C b).toFin?.getD 0 := by
      unfold csrAt
      cases C.find? fun e => e.1 == b <;> rfl
    rw [hx] at hdd
    cases hc : csrAt C b with
    | fin u =>
      rw [hc] at this hdd
      simp only [FVal.addFin, FVal.fin.injEq] at this
      exact ⟨u, rfl, this.symm, hdd.symm⟩
    | nan => rw [hc] at this; cases this
    | pinf => rw [hc] at this; cases this
    | ninf => rw [hc] at this; cases this
  have hin : ∀ b, b < size → Spec.normAt norm b ≠ 0 → b ∈ binsOf size norm := by
    intro b hb hnz
    cases norm with
    | dense l => exact List.mem_range.2 hb
    | csr sz l =>
      by_contra hc
      refine hnz ?_
      show ((l.find? fun x => x.1 == b).map (·.2)).getD 0 = 0
      rw [List.find?_eq_none.2]
      · rfl
      · intro x hx
        simp only [beq_iff_eq]
        rintro rfl
        exact hc (List.mem_map.2 ⟨x, hx, rfl⟩)
  have hval : ∀ b ∈ binsOf size norm, Spec.normAt norm b ≠ 0 →
      logkVal cfg.num cfg.systType kfac (g b) (Spec.normAt norm b) =
        Spec.logk cfg.num cfg.systType kfac (Spec.normAt norm b) (diffAt P s b) := by
    intro b hb hnz
    obtain ⟨u, _, h2, h3⟩ := hfin b hb
    rw [h2, h3]
    exact logkVal_eq ht hnz
  refine ⟨?_, fun b x hx hnz => ?_⟩
  swap
  · obtain ⟨u, hu, _⟩ := hfin b (hin b (hb _ hx) hnz)
    exact ⟨u, by rw [← hmemC b x hx, hu]⟩
  cases norm with
  | dense l =>
    have hl : l = (List.range size).map (Spec.normAt (.dense l)) := vals_eq hn
    simp only [Norm.idx, wrap, bookedLogk, bind, Except.bind] at h4
    have hz : zipB maskNorm l ((binsOf size (Norm.dense l)).map fun b =>
        logkVal cfg.num cfg.systType kfac (g b) (Spec.normAt (Norm.dense l) b)) =
        .ok ((List.range size).map fun b => Spec.logk cfg.num cfg.systType kfac (Spec.normAt (.dense l) b) (diffAt P s b)) := by
      have : zipB maskNorm l ((binsOf size (Norm.dense l)).map fun b =>
        logkVal cfg.num cfg.systType kfac (g b) (Spec.normAt (Norm.dense l) b)) =
        zipB maskNorm ((List.range size).map (Spec.normAt (.dense l))) ((List.range size).map fun b =>
        logkVal cfg.num cfg.systType kfac (g b) (Spec.normAt (Norm.dense l) b)) := by rw [← hl]; rfl
      rw [this, zipB_map]
      congr 1
      refine List.map_congr_left fun b hb => ?_
      by_cases hnz : Spec.normAt (Norm.dense l) b = 0
      · rw [hnz]; simp [maskNorm, Spec.logk]
      · rw [hval b hb hnz]; simp [maskNorm, hnz]
    rw [hz] at h4
    dsimp only at h4
    cases hs : cfg.sparse with
    | false =>
      rw [hs] at h4
      cases h4
      exact ⟨rfl, rfl⟩
    | true =>
      rw [hs] at h4
      cases h4
      refine ⟨rfl, (nonzeros_sorted _).imp fun h => by omega, fun b v => ?_⟩
      rw [mem_nonzeros, List.getElem?_map]
      constructor
      · rintro ⟨h1, h2⟩
        obtain ⟨b', hb', e⟩ := Option.map_eq_some_iff.1 h1
        obtain ⟨hlt, hb'⟩ := List.getElem?_eq_some_iff.1 hb'
        rw [List.length_range] at hlt
        rw [List.getElem_range] at hb'
        subst hb'
        exact ⟨hlt, e.symm, h2⟩
      · rintro ⟨h1, rfl, h2⟩
        rw [List.getElem?_range h1]
        exact ⟨rfl, h2⟩
  | csr sz l =>
    rw [hsp sz l rfl]
    simp only [Norm.idx, wrap, bookedLogk] at h4
    cases h4
    have hnz : ∀ b ∈ l.map (·.1), Spec.normAt (.csr sz l) b ≠ 0 ∧ b < size := by
      intro b hb
      obtain ⟨x, hx, rfl⟩ := List.mem_map.1 hb
      have hnd : (l.map (·.1)).Nodup := hn.1.imp fun h => by omega
      refine ⟨?_, (hn.2 x hx).1⟩
      show ((l.find? fun y => y.1 == x.1).map (·.2)).getD 0 ≠ 0
      rw [find?_of_mem hnd hx]
      exact (hn.2 x hx).2
    have hz : (l.map (·.1)).zip ((binsOf size (Norm.csr sz l)).map fun b =>
        logkVal cfg.num cfg.systType kfac (g b) (Spec.normAt (Norm.csr sz l) b)) =
        (l.map (·.1)).map fun b => (b, Spec.logk cfg.num cfg.systType kfac (Spec.normAt (.csr sz l) b) (diffAt P s b)) := by
      have key : ∀ (B : List Nat) (f : Nat → V), B.zip (B.map f) = B.map fun b => (b, f b) := by
        intro B f
        induction B with
        | nil => rfl
        | cons b B ih => rw [List.map_cons, List.zip_cons_cons, ih]; rfl
      refine (key _ _).trans (List.map_congr_left fun b hb => ?_)
      rw [hval b hb (hnz b hb).1]
    rw [hz]
    refine ⟨rfl, ?_, fun b v => ?_⟩
    · refine List.Nodup.sublist (List.filter_sublist.map _) ?_
      rw [List.map_map]
      have hnd : (l.map (·.1)).Nodup := hn.1.imp fun h => by omega
      refine (List.map_id (l.map (·.1))).symm ▸ hnd
    · rw [List.mem_filter, List.mem_map]
      constructor
      · rintro ⟨⟨b', hb', e⟩, h2⟩
        simp only [Prod.mk.injEq] at e
        obtain ⟨rfl, rfl⟩ := e
        exact ⟨(hnz _ hb').2, rfl, by simpa using h2⟩
      · rintro ⟨hb, rfl, h2⟩
        refine ⟨⟨b, hin b hb fun h0 => h2 ?_, rfl⟩, by simpa using h2⟩
        show Spec.logk _ _ _ (Spec.normAt (.csr sz l) b) _ = 0
        rw [h0]
        simp [Spec.logk]

end

end Verif.Batched
