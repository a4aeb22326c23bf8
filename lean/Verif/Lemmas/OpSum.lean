import Verif.Lemmas.Tensor
import Verif.Lemmas.Rebin

/-! Tensor operations that act on every axis separately, written as sums over groups of indices. -/

namespace Verif.Mappings

open Verif.Grid

variable {V : Type}

/-- What happens to one axis: whether it is kept, and the indices that an output index sums. -/
abbrev Op := Bool × (Nat → List Nat)

def idOp : Op := (true, fun i => [i])

def opSum [AddMonoid V] : List Op → (List Nat → V) → List Nat → V
  | [], f, i => f i
  | (true, _) :: _, _, [] => 0
  | (true, g) :: r, f, i :: is => ((g i).map fun j => opSum r (fun js => f (j :: js)) is).sum
  | (false, g) :: r, f, is => ((g 0).map fun j => opSum r (fun js => f (j :: js)) is).sum

/-- one operation after the other -/
def comp : List Op → List Op → List Op
  | [], r2 => r2
  | (false, g) :: r1, r2 => (false, g) :: comp r1 r2
  | (true, g) :: r1, (k, h) :: r2 => (k, fun i => (h i).flatMap g) :: comp r1 r2
  | (true, g) :: r1, [] => (true, g) :: r1

theorem opSum_congr [AddMonoid V] (ops : List Op) (f f' : List Nat → V)
    (h : ∀ j, ops.length ≤ j.length → f j = f' j) (i : List Nat) : opSum ops f i = opSum ops f' i := by
  induction ops generalizing f f' i with
  | nil => exact h i (by simp)
  | cons o ops ih =>
    rcases o with ⟨b, g⟩
    have h' : ∀ a, ∀ j, ops.length ≤ j.length → f (a :: j) = f' (a :: j) := fun a j hj => h _ (by simpa using hj)
    cases b with
    | false =>
      simp only [opSum]
      exact congrArg List.sum (List.map_congr_left fun a _ => ih _ _ (h' a) _)
    | true =>
      cases i with
      | nil => rfl
      | cons i is =>
        simp only [opSum]
        exact congrArg List.sum (List.map_congr_left fun a _ => ih _ _ (h' a) _)

theorem opSum_zero [AddCommMonoid V] (ops : List Op) (i : List Nat) : opSum ops (fun _ => (0 : V)) i = 0 := by
  induction ops generalizing i with
  | nil => rfl
  | cons o ops ih =>
    rcases o with ⟨_ | _, g⟩
    · simp [opSum, ih]
    · cases i <;> simp [opSum, ih]

theorem opSum_add [AddCommMonoid V] (ops : List Op) (f f' : List Nat → V) (i : List Nat) :
    opSum ops (fun j => f j + f' j) i = opSum ops f i + opSum ops f' i := by
  induction ops generalizing f f' i with
  | nil => rfl
  | cons o ops ih =>
    rcases o with ⟨_ | _, g⟩
    · simp only [opSum, ih, List.sum_map_add]
    · cases i with
      | nil => simp [opSum]
      | cons i is => simp only [opSum, ih, List.sum_map_add]

theorem opSum_sum [AddCommMonoid V] {ι : Type} (l : List ι) (ops : List Op) (F : ι → List Nat → V) (i : List Nat) :
    opSum ops (fun j => (l.map fun a => F a j).sum) i = (l.map fun a => opSum ops (F a) i).sum := by
  induction l with
  | nil => simp [opSum_zero]
  | cons a l ih => simp only [List.map_cons, List.sum_cons, opSum_add, ih]

theorem opSum_comp [AddCommMonoid V] (r1 r2 : List Op) (f : List Nat → V) (i : List Nat) :
    opSum r2 (opSum r1 f) i = opSum (comp r1 r2) f i := by
  induction r1 generalizing r2 f i with
  | nil => rfl
  | cons o r1 ih =>
    rcases o with ⟨_ | _, g⟩
    · simp only [comp]
      have : (opSum ((false, g) :: r1) f) = fun js => ((g 0).map fun j => opSum r1 (fun x => f (j :: x)) js).sum := by
        funext js; simp [opSum]
      rw [this, opSum_sum]
      simp only [opSum, ih]
    · rcases r2 with _ | ⟨⟨k, h⟩, r2⟩
      · rfl
      · have key : ∀ m is, opSum r2 (fun js => opSum ((true, g) :: r1) f (m :: js)) is =
            ((g m).map fun j => opSum (comp r1 r2) (fun x => f (j :: x)) is).sum := by
          intro m is
          simp only [opSum]
          rw [opSum_sum]
          exact congrArg List.sum (List.map_congr_left fun j _ => ih _ _ _)
        have key2 : ∀ (l : List Nat) is, (l.map fun m => opSum r2 (fun js => opSum ((true, g) :: r1) f (m :: js)) is).sum =
            ((l.flatMap g).map fun j => opSum (comp r1 r2) (fun x => f (j :: x)) is).sum := by
          intro l is
          induction l with
          | nil => rfl
          | cons m l ihl => rw [List.map_cons, List.sum_cons, ihl, key, List.flatMap_cons, List.map_append, List.sum_append]
        cases k with
        | false => simp only [comp, opSum]; exact key2 _ _
        | true =>
          cases i with
          | nil => rfl
          | cons i is => simp only [comp, opSum]; exact key2 _ _

/-- operations given axis by axis compose axis by axis -/
theorem comp_map {α β : Type} (l : List α) (A : α → Op) (S : α → Option β) (B : β → Op)
    (h : ∀ a ∈ l, (A a).1 = (S a).isSome) :
    comp (l.map A) ((l.filterMap S).map B) = l.map fun a => match S a with
      | none => A a
      | some b => ((B b).1, fun i => ((B b).2 i).flatMap (A a).2) := by
  induction l with
  | nil => rfl
  | cons a l ih =>
    have ha := h a (by simp)
    have ih := ih fun b hb => h b (List.mem_cons_of_mem _ hb)
    rw [List.filterMap_cons, List.map_cons, List.map_cons]
    rcases hA : A a with ⟨k, g⟩
    rw [hA] at ha
    cases hs : S a with
    | none =>
      rw [hs] at ha
      simp only [Option.isSome_none] at ha
      subst ha
      simp only [comp, ih]
    | some b =>
      rw [hs] at ha
      simp only [Option.isSome_some] at ha
      subst ha
      simp only [List.map_cons, comp, ih]

/-- whether bin `j` is summed into output bin `i` -/
def opMem : List Op → List Nat → List Nat → Bool
  | [], [], [] => true
  | (true, g) :: r, i :: is, j :: js => decide (j ∈ g i) && opMem r is js
  | (false, g) :: r, is, j :: js => decide (j ∈ g 0) && opMem r is js
  | _, _, _ => false

/-- number of kept axes -/
def kept (ops : List Op) : Nat := ops.countP (·.1)

theorem sum_group [AddCommMonoid V] (n : Nat) (g : List Nat) (hg : g.Nodup) (hb : ∀ j ∈ g, j < n) (F : Nat → V) :
    (g.map F).sum = (((List.range n).filter fun j => decide (j ∈ g)).map F).sum := by
  apply List.Perm.sum_eq
  apply List.Perm.map
  rw [List.perm_ext_iff_of_nodup hg (List.nodup_range.filter _)]
  intro a
  simp only [List.mem_filter, List.mem_range, decide_eq_true_eq]
  exact ⟨fun h => ⟨hb a h, h⟩, fun h => h.2⟩

theorem filter_grid_cons [AddMonoid V] (n : Nat) (s : List Nat) (P : Nat → Bool) (Q : List Nat → Bool)
    (C : List Nat → Bool) (hC : ∀ j js, C (j :: js) = (P j && Q js)) (f : List Nat → V) :
    (((grid (n :: s)).filter C).map f).sum =
      (((List.range n).filter P).map fun j => (((grid s).filter Q).map fun js => f (j :: js)).sum).sum := by
  simp only [grid]
  generalize List.range n = l
  induction l with
  | nil => rfl
  | cons a l ih =>
    rw [List.flatMap_cons, List.filter_append, List.map_append, List.sum_append, ih, List.filter_cons (x := a)]
    have h1 : ((grid s).map (a :: ·)).filter C = if P a then ((grid s).filter Q).map (a :: ·) else [] := by
      rw [List.filter_map]
      by_cases hp : P a
      · rw [if_pos hp]
        congr 1
        apply List.filter_congr
        intro js _
        rw [Function.comp_apply, hC, hp, Bool.true_and]
      · rw [if_neg hp, List.filter_eq_nil_iff.2 (fun js _ => by rw [Function.comp_apply, hC]; simp [hp])]; rfl
    rw [h1]
    by_cases hp : P a
    · simp only [hp, if_true, List.map_map, List.map_cons, List.sum_cons]; rfl
    · simp [hp]

/-- the groups that an output bin reads are duplicate free and inside the axes -/
def opOk : List Op → List Nat → List Nat → Prop
  | [], [], [] => True
  | (true, g) :: r, n :: s, i :: is => ((g i).Nodup ∧ ∀ j ∈ g i, j < n) ∧ opOk r s is
  | (false, g) :: r, n :: s, is => ((g 0).Nodup ∧ ∀ j ∈ g 0, j < n) ∧ opOk r s is
  | _, _, _ => False

/-- a sum over groups is the sum over the bins that belong to the output bin -/
theorem opSum_filter [AddCommMonoid V] (ops : List Op) (s i tr : List Nat) (h : opOk ops s i) (f : List Nat → V) :
    opSum ops f (i ++ tr) = (((grid s).filter (opMem ops i)).map fun j => f (j ++ tr)).sum := by
  induction ops generalizing s i f with
  | nil =>
    rcases s with _ | ⟨n, s⟩
    · rcases i with _ | ⟨m, i⟩
      · have h0 : opMem [] [] [] = true := rfl
        simp [opSum, grid, h0]
      · exact absurd h (by simp [opOk])
    · exact absurd h (by simp [opOk])
  | cons o ops ih =>
    rcases o with ⟨b, g⟩
    rcases s with _ | ⟨n, s⟩
    · cases b <;> exact absurd h (by simp [opOk])
    cases b with
    | false =>
      simp only [opOk] at h
      simp only [opSum]
      rw [filter_grid_cons n s (fun j => decide (j ∈ g 0)) (opMem ops i) _ (fun j js => by simp [opMem]),
        sum_group n (g 0) h.1.1 h.1.2]
      exact congrArg List.sum (List.map_congr_left fun j _ => ih s i h.2 _)
    | true =>
      rcases i with _ | ⟨m, i⟩
      · exact absurd h (by simp [opOk])
      simp only [opOk] at h
      simp only [opSum, List.cons_append]
      rw [filter_grid_cons n s (fun j => decide (j ∈ g m)) (opMem ops i) _ (fun j js => by simp [opMem]),
        sum_group n (g m) h.1.1 h.1.2]
      exact congrArg List.sum (List.map_congr_left fun j _ => ih s i h.2 _)

/-! The TensorFlow operations as sums over groups -/

def posOp (p : Bool × List Nat) : Op := (p.1, fun i => [p.2.getD i 0])

theorem readIdx_opSum [AddMonoid V] (ps : List (Bool × List Nat)) (f : List Nat → V) (i : List Nat)
    (h : (ps.countP (·.1)) ≤ i.length) : f (readIdx ps i) = opSum (ps.map posOp) f i := by
  induction ps generalizing f i with
  | nil => rfl
  | cons p ps ih =>
    rcases p with ⟨b, js⟩
    cases b with
    | false =>
      simp only [readIdx, List.map_cons, posOp, opSum, List.map_nil, List.sum_cons, List.sum_nil, add_zero]
      exact ih (fun x => f (js.getD 0 0 :: x)) i (by simpa using h)
    | true =>
      rcases i with _ | ⟨m, i⟩
      · simp at h
      · simp only [readIdx, List.map_cons, posOp, opSum, List.map_nil, List.sum_cons, List.sum_nil, add_zero]
        exact ih (fun x => f (js.getD m 0 :: x)) i (by simpa using h)

theorem opSum_at [AddMonoid V] (k : Nat) (g : Nat → List Nat) (f : List Nat → V) (i : List Nat) (h : k < i.length) :
    opSum (List.replicate k idOp ++ [(true, g)]) f i = ((g (i.getD k 0)).map fun j => f (i.set k j)).sum := by
  induction k generalizing f i with
  | zero =>
    rcases i with _ | ⟨m, i⟩
    · simp at h
    · simp [opSum]
  | succ k ih =>
    rcases i with _ | ⟨m, i⟩
    · simp at h
    · simp only [List.replicate_succ, List.cons_append, idOp, opSum, List.map_cons, List.map_nil, List.sum_cons, List.sum_nil,
        add_zero, List.getD_cons_succ, List.set_cons_succ]
      exact ih (fun x => f (m :: x)) i (by simpa using h)

theorem zip_range_map {α β : Type} (n : Nat) (F : Nat → α) (ids : List β) (h : ids.length = n) :
    ((List.range n).map F).zip ids = (List.range n).filterMap fun j => (ids[j]?).map fun x => (F j, x) := by
  subst h
  have : ∀ (ids : List β) (m : Nat) , (((List.range' m ids.length).map F).zip ids) =
      (List.range' m ids.length).filterMap fun j => (ids[j - m]?).map fun x => (F j, x) := by
    intro ids
    induction ids with
    | nil => intro m; rfl
    | cons a ids ih =>
      intro m
      simp only [List.length_cons, List.range'_succ, List.map_cons, List.zip_cons_cons]
      rw [ih (m + 1), List.filterMap_cons]
      simp only [Nat.sub_self, List.getElem?_cons_zero, Option.map_some]
      congr 1
      apply List.filterMap_congr
      intro j hj
      have : m + 1 ≤ j := (List.mem_range'_1.1 hj).1
      rw [show j - m = (j - (m + 1)) + 1 by omega, List.getElem?_cons_succ]
  have := this ids 0
  rw [← List.range_eq_range'] at this
  simpa using this

theorem sum_apply [AddMonoid V] (l : List (List Nat → V)) (x : List Nat) : l.sum x = (l.map fun F => F x).sum := by
  induction l with
  | nil => rfl
  | cons F l ih => simp [ih]

/-- a segment sum along an axis with valid ids -/
theorem segmentSum_opSum [LinearOrder V] [AddCommMonoid V] (t : Tensor V) (k : Nat) (old new : List V)
    (ho : old.IsChain (· < ·)) (hn : new.IsChain (· < ·)) (hsub : ∀ x ∈ new, x ∈ old) (h2 : 2 ≤ new.length)
    (hk : t.shape.getD k 0 = old.length - 1) :
    ∃ u, t.segmentSum (segIds old new) k (numSegs (segIds old new)) = .ok u ∧
      u.shape = t.shape.set k (new.length - 1) ∧
      ∀ i, k < i.length → u.val i = opSum (List.replicate k idOp ++ [(true, segGroup (segIds old new))]) t.val i := by
  obtain ⟨a, mid, b, hform, hne, hmid, hsort, hlast⟩ := segIds_form ho hn hsub h2
  have hnum := numSegs_eq ho hn hsub h2
  have hlen : (segIds old new).length = old.length - 1 := segIds_length
  have hlen' : a + mid.length + b = old.length - 1 := by
    rw [← hlen, hform]; simp [Nat.add_assoc]
  obtain ⟨r, hr, hrl, hrv⟩ := Storage.c64_segment_sum
    ((List.range (t.shape.getD k 0)).map fun j (rest : List Nat) => t.val (rest.insertIdx k j)) a b mid hne
    (fun i hi => (hmid i hi).1) hsort (new.length - 1) hlast (by rw [List.length_map, List.length_range, hk, hlen'])
  rw [← hform] at hr hrv
  unfold Tensor.segmentSum
  rw [hnum]
  dsimp only
  rw [hr]
  refine ⟨_, rfl, rfl, fun i hi => ?_⟩
  rw [opSum_at k _ _ i hi]
  show (r.getD (i.getD k 0) 0) (i.eraseIdx k) = _
  have hval : ∀ j, (i.eraseIdx k).insertIdx k j = i.set k j := by
    intro j
    have : k < i.length := hi
    rw [List.insertIdx_eraseIdx_self (by omega)]
  by_cases hm : i.getD k 0 < new.length - 1
  · rw [List.getD_eq_getElem?_getD, hrv _ hm]
    simp only [Option.getD_some]
    rw [sum_apply, List.map_map, zip_range_map _ _ _ (by rw [hlen, hk])]
    unfold segGroup
    rw [hlen, ← hk]
    have hstep : ∀ (L : List Nat), (∀ j ∈ L, j < (segIds old new).length) →
        ((L.filterMap fun j => ((segIds old new)[j]?).map fun x => ((fun rest : List Nat => t.val (rest.insertIdx k j)), x)).filter
          fun p => p.2 == ((i.getD k 0 : Nat) : Int)).map ((fun F => F (i.eraseIdx k)) ∘ fun x => x.1) =
        (L.filter fun j => decide ((segIds old new).getD j (-1) = ((i.getD k 0 : Nat) : Int))).map fun j => t.val (i.set k j) := by
      intro L
      induction L with
      | nil => intro _; rfl
      | cons c L ih =>
        intro hL
        have hc := hL c (by simp)
        have ih := ih fun j hj => hL j (List.mem_cons_of_mem _ hj)
        rw [List.filterMap_cons, List.getElem?_eq_getElem hc]
        simp only [Option.map_some]
        rw [List.filter_cons, List.filter_cons]
        have hg : (segIds old new).getD c (-1) = (segIds old new)[c] := by
          rw [List.getD_eq_getElem?_getD, List.getElem?_eq_getElem hc]; rfl
        by_cases hx : (segIds old new)[c] = ((i.getD k 0 : Nat) : Int)
        · rw [if_pos (by simpa using hx), if_pos (by rw [hg]; simpa using hx), List.map_cons, List.map_cons, ih]
          simp only [Function.comp_apply, hval]
        · rw [if_neg (by simpa using hx), if_neg (by rw [hg]; simpa using hx), ih]
    rw [hstep _ (fun j hj => by rw [hlen, ← hk]; simpa using hj)]
  · have h0 : r.getD (i.getD k 0) 0 = 0 := by
      rw [List.getD_eq_getElem?_getD, List.getElem?_eq_none (by omega)]; rfl
    rw [h0]
    have hempty : segGroup (segIds old new) (i.getD k 0) = [] := by
      apply List.eq_nil_iff_forall_not_mem.2
      intro j hj
      obtain ⟨_, _, _, _, _, _, _, h, _⟩ := (mem_segGroup ho hn hsub h2 _ _).1 hj
      have := (List.getElem?_eq_some_iff.1 h).1
      omega
    rw [hempty]; rfl

/-- sums over the axes that satisfy a condition -/
def sumOps {α : Type} (l : List α) (sz : α → Nat) (Q : α → Bool) : List Op :=
  l.map fun a => if Q a then (false, fun _ => List.range (sz a)) else idOp

theorem dropAxes_zip {α β : Type} (l : List α) (Q : α → Bool) (axes : List Nat)
    (hax : ∀ k (h : k < l.length), axes.contains k = Q l[k]) (l' : List β) (hl : l'.length = l.length) :
    dropAxes axes l' = ((l.zip l').filter fun p => !Q p.1).map (·.2) := by
  unfold dropAxes
  have key : ∀ (l : List α) (l' : List β) (m : Nat), l'.length = l.length →
      (∀ k (h : k < l.length), axes.contains (m + k) = Q l[k]) →
      ((l'.zipIdx m).filter fun p => !axes.contains p.2).map (·.1) = ((l.zip l').filter fun p => !Q p.1).map (·.2) := by
    intro l
    induction l with
    | nil => intro l' m hl _; have : l' = [] := by simpa using hl
             subst this; rfl
    | cons a l ih =>
      intro l' m hl h
      rcases l' with _ | ⟨b, l'⟩
      · simp at hl
      have h0 : axes.contains m = Q a := h 0 (by simp)
      have ih := ih l' (m + 1) (by simpa using hl) fun k hk => by
        have := h (k + 1) (by simpa using hk)
        rw [show m + 1 + k = m + (k + 1) by omega]
        simpa using this
      rw [List.zipIdx_cons, List.zip_cons_cons, List.filter_cons, List.filter_cons]
      simp only [h0]
      by_cases hq : Q a
      · simp only [hq, Bool.not_true, Bool.false_eq_true, if_false]; exact ih
      · simp only [hq, Bool.not_false, if_true, List.map_cons, ih]
  exact key l l' 0 hl fun k hk => by rw [Nat.zero_add]; exact hax k hk

theorem opMem_sumOps {α : Type} (l : List α) (sz : α → Nat) (Q : α → Bool) (i j : List Nat)
    (hj : j ∈ grid (l.map sz)) : opMem (sumOps l sz Q) i j = decide (((l.zip j).filter fun p => !Q p.1).map (·.2) = i) := by
  induction l generalizing i j with
  | nil =>
    rcases mem_grid.1 hj with _ | _
    cases i <;> simp [sumOps, opMem]
  | cons a l ih =>
    rw [List.map_cons] at hj
    rcases mem_grid.1 hj with _ | ⟨h1, h2⟩
    rename_i j0 js
    have ih := fun i => ih i js (mem_grid.2 h2)
    simp only [sumOps, List.map_cons]
    rw [List.zip_cons_cons, List.filter_cons]
    by_cases hq : Q a
    · simp only [hq, if_true, opMem, Bool.not_true, Bool.false_eq_true, if_false]
      have := ih i
      simp only [sumOps] at this
      rw [this]
      simp [h1]
    · simp only [hq, Bool.not_false, if_true, List.map_cons]
      rcases i with _ | ⟨i0, is⟩
      · simp [idOp, opMem]
      · have := ih is
        simp only [sumOps, idOp] at this
        simp only [Bool.false_eq_true, if_false, idOp, opMem]
        rw [this]
        simp only [List.mem_singleton, List.cons.injEq, Bool.decide_and]

theorem opOk_sumOps {α : Type} (l : List α) (sz : α → Nat) (Q : α → Bool) (i : List Nat)
    (hi : i ∈ grid ((l.filter fun a => !Q a).map sz)) : opOk (sumOps l sz Q) (l.map sz) i := by
  induction l generalizing i with
  | nil =>
    rcases mem_grid.1 hi with _ | _
    trivial
  | cons a l ih =>
    rw [List.filter_cons] at hi
    simp only [sumOps, List.map_cons]
    by_cases hq : Q a
    · simp only [hq, Bool.not_true, Bool.false_eq_true, if_false] at hi
      simp only [hq, if_true, opOk]
      exact ⟨⟨List.nodup_range, fun j hj => by simpa using hj⟩, ih i hi⟩
    · simp only [hq, Bool.not_false, if_true, List.map_cons] at hi
      rcases mem_grid.1 hi with _ | ⟨h1, h2⟩
      rename_i i0 is
      simp only [hq, Bool.false_eq_true, if_false, idOp, opOk]
      exact ⟨⟨by simp, fun j hj => by rw [List.mem_singleton] at hj; omega⟩, ih is (mem_grid.2 h2)⟩

/-- `tf.reduce_sum` over the axes that satisfy a condition -/
theorem reduceSum_opSum [AddCommMonoid V] {α : Type} (l : List α) (sz : α → Nat) (Q : α → Bool) (axes : List Nat)
    (hax : ∀ k (h : k < l.length), axes.contains k = Q l[k]) (hlt : ∀ k ∈ axes, k < l.length) (t : Tensor V) (tr : List Nat)
    (ht : t.shape = l.map sz ++ tr) :
    (t.reduceSum axes).shape = (l.filter fun a => !Q a).map sz ++ tr ∧
    ∀ i ∈ grid ((l.filter fun a => !Q a).map sz), ∀ q ∈ grid tr,
      (t.reduceSum axes).val (i ++ q) = opSum (sumOps l sz Q) t.val (i ++ q) := by
  have hd : ∀ (l' : List Nat) (q : List Nat), l'.length = l.length →
      dropAxes axes (l' ++ q) = ((l.zip l').filter fun p => !Q p.1).map (·.2) ++ q := by
    intro l' q hl
    rw [dropAxes_append _ _ _ (by rw [hl]; exact hlt), dropAxes_zip l Q axes hax l' hl]
  have hzip : ∀ l : List α, ((l.zip (l.map sz)).filter fun p => !Q p.1).map (·.2) = (l.filter fun a => !Q a).map sz := by
    intro l
    induction l with
    | nil => rfl
    | cons a l ih =>
      rw [List.map_cons, List.zip_cons_cons, List.filter_cons, List.filter_cons]
      by_cases hq : Q a
      · simp only [hq, Bool.not_true, Bool.false_eq_true, if_false]; exact ih
      · simp only [hq, Bool.not_false, if_true, List.map_cons, ih]
  constructor
  · show dropAxes axes t.shape = _
    rw [ht, hd _ _ (by simp), hzip]
  · intro i hi q hq
    rw [opSum_filter _ (l.map sz) i q (opOk_sumOps l sz Q i hi)]
    show (((grid t.shape).filter fun j => dropAxes axes j == i ++ q).map t.val).sum = _
    rw [ht]
    refine sum_filter_append (l.map sz) tr _ q hq _ ?_ t.val
    intro j hj q' hq'
    have hjl : j.length = l.length := by rw [length_of_mem_grid hj]; simp
    rw [hd j q' hjl, opMem_sumOps l sz Q i j hj, Bool.eq_iff_iff, Bool.and_eq_true, decide_eq_true_eq, decide_eq_true_eq,
      beq_iff_eq]
    constructor
    · intro h
      exact (List.append_inj' h ((length_of_mem_grid hq').trans (length_of_mem_grid hq).symm))
    · rintro ⟨h1, rfl⟩; rw [h1]

end Verif.Mappings
