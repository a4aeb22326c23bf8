import Verif.Props.Ratio

/-
C67: angular coefficients (rabbit/mappings/angular_coefficients.py).

Specification: `S` is the selection of C51 with the helicity axis left alone.  The coefficient `A_i` of a bin is `S` of
helicity state `i + 1` over `S` of helicity state `0` (the unpolarised cross section), all other coordinates the same; the
Lam-Tung combination is `A_0 - A_2`.
-/

namespace Verif.Mappings

open Verif.ABCD Verif.Grid

variable {V : Type}

namespace Spec

/-- position of the helicity axis among the surviving axes -/
def helPos (s : Sels V) (c : Chan V) (h : String) : Nat :=
  ((c.axes.takeWhile fun a => decide (a.name ≠ h)).filter fun a => (want s a).keep).length

end Spec

/-! ## requests that differ on one axis -/

section split

variable [LinearOrder V]

theorem inBin_congr {w w' : Axis V → Spec.Want V} (axs : List (Axis V)) (h : ∀ b ∈ axs, w b = w' b) (i j : List Nat) :
    Spec.inBin w axs i j = Spec.inBin w' axs i j := by
  induction axs generalizing i j with
  | nil => cases i <;> cases j <;> rfl
  | cons a axs ih =>
    have ha := h a List.mem_cons_self
    have hr := ih fun b hb => h b (List.mem_cons_of_mem _ hb)
    cases j with
    | nil => cases i <;> rfl
    | cons j js =>
      simp only [Spec.inBin]
      rw [ha]
      cases i with
      | nil => simp only [hr]
      | cons i is => simp only [hr]

theorem inBin_shift {w w' : Axis V → Spec.Want V} (A B : List (Axis V)) (a : Axis V) (n : Nat)
    (h : ∀ b ∈ A ++ B, w' b = w b) (hw : w a = ⟨0, n, true, none⟩) (hw' : w' a = ⟨1, n, true, none⟩)
    (iA iB : List Nat) (x : Nat) (hl : iA.length = (A.filter fun b => (w b).keep).length) (j : List Nat) :
    Spec.inBin w' (A ++ a :: B) (iA ++ x :: iB) j = Spec.inBin w (A ++ a :: B) (iA ++ (x + 1) :: iB) j := by
  induction A generalizing iA j with
  | nil =>
    have : iA = [] := by simpa using hl
    subst this
    cases j with
    | nil => rfl
    | cons j js =>
      simp only [List.nil_append, Spec.inBin, hw, hw', if_true]
      rw [inBin_congr B (fun b hb => h b (by simpa using hb))]
      congr 1
      simp only [Spec.belongs, if_true]
      rw [Bool.eq_iff_iff]
      simp only [Bool.and_eq_true, decide_eq_true_eq]
      omega
  | cons b A ih =>
    have hb := h b (by simp)
    have hr := ih fun b' hb' => h b' (by rw [List.cons_append]; exact List.mem_cons_of_mem _ hb')
    cases j with
    | nil => cases iA <;> rfl
    | cons j js =>
      simp only [List.cons_append, Spec.inBin]
      rw [hb]
      by_cases hk : (w b).keep = true
      · rw [List.filter_cons_of_pos (by simpa using hk)] at hl
        cases iA with
        | nil => simp at hl
        | cons i0 is =>
          simp only [List.cons_append, if_pos hk]
          rw [hr is (by simpa using hl)]
      · rw [List.filter_cons_of_neg (by simpa using hk)] at hl
        simp only [if_neg hk]
        rw [hr iA hl]

theorem inBin_insert {w w' : Axis V → Spec.Want V} (A B : List (Axis V)) (a : Axis V) (n : Nat) (hn : 0 < n)
    (h : ∀ b ∈ A ++ B, w' b = w b) (hw : w a = ⟨0, n, true, none⟩) (hw' : w' a = ⟨0, 1, false, none⟩)
    (iA iB : List Nat) (hl : iA.length = (A.filter fun b => (w b).keep).length) (j : List Nat) :
    Spec.inBin w' (A ++ a :: B) (iA ++ iB) j = Spec.inBin w (A ++ a :: B) (iA ++ 0 :: iB) j := by
  induction A generalizing iA j with
  | nil =>
    have : iA = [] := by simpa using hl
    subst this
    cases j with
    | nil => cases iB <;> rfl
    | cons j js =>
      simp only [List.nil_append, Spec.inBin, hw, hw', if_true]
      rw [inBin_congr B (fun b hb => h b (by simpa using hb))]
      simp only [Bool.false_eq_true, if_false]
      congr 1
      simp only [Spec.belongs, if_true]
      rw [Bool.eq_iff_iff]
      simp only [Bool.and_eq_true, decide_eq_true_eq, Bool.false_eq_true, if_false, and_true]
      omega
  | cons b A ih =>
    have hb := h b (by simp)
    have hr := ih fun b' hb' => h b' (by rw [List.cons_append]; exact List.mem_cons_of_mem _ hb')
    cases j with
    | nil => cases iA <;> cases iB <;> rfl
    | cons j js =>
      simp only [List.cons_append, Spec.inBin]
      rw [hb]
      by_cases hk : (w b).keep = true
      · rw [List.filter_cons_of_pos (by simpa using hk)] at hl
        cases iA with
        | nil => simp at hl
        | cons i0 is =>
          simp only [List.cons_append, if_pos hk]
          rw [hr is (by simpa using hl)]
      · rw [List.filter_cons_of_neg (by simpa using hk)] at hl
        simp only [if_neg hk]
        rw [hr iA hl]

end split

/-! ## broadcasting -/

theorem mapM_id_some {α : Type} (l : List α) : (l.map some).mapM id = some l := by
  induction l with
  | nil => rfl
  | cons a l ih => simp [List.mapM_cons, ih]

theorem bdim_self (n : Nat) : bdim n n = some n := if_pos rfl

theorem bdim_one (n : Nat) : bdim n 1 = some n := by
  unfold bdim
  split
  · rfl
  · simp

theorem bdims (pre post : List Nat) (n : Nat) :
    (List.zipWith bdim (pre ++ n :: post) (pre ++ 1 :: post)).mapM id = some (pre ++ n :: post) := by
  have : List.zipWith bdim (pre ++ n :: post) (pre ++ 1 :: post) = (pre ++ n :: post).map some := by
    have hs : ∀ l : List Nat, List.zipWith bdim l l = l.map some := by
      intro l
      induction l with
      | nil => rfl
      | cons a l ih => rw [List.zipWith_cons_cons, ih, bdim_self]; rfl
    rw [List.zipWith_append rfl, hs, List.zipWith_cons_cons, hs, bdim_one]
    simp
  rw [this, mapM_id_some]

theorem clip_self {s i : List Nat} (h : i ∈ grid s) : clip s i = i := by
  have h := mem_grid.1 h
  clear * - h
  induction h with
  | nil => rfl
  | @cons x n l s hx _ ih =>
    show (if n = 1 then 0 else x) :: clip s l = x :: l
    rw [ih]
    split
    · congr 1; omega
    · rfl

theorem clip_append {s i : List Nat} (s' i' : List Nat) (h : i.length = s.length) :
    clip (s ++ s') (i ++ i') = clip s i ++ clip s' i' := List.zipWith_append h.symm

theorem insertIdx_append {α : Type} (l r : List α) (x : α) : (l ++ r).insertIdx l.length x = l ++ x :: r := by
  induction l with
  | nil => simp
  | cons a l ih => simp [ih]

theorem map2B_eq (f : V → V → V) (t u : Tensor V) (pre post : List Nat) (n : Nat) (ht : t.shape = pre ++ n :: post)
    (hu : u.shape = pre ++ 1 :: post) :
    map2B f t u = .ok ⟨pre ++ n :: post, fun i => f (t.val (clip t.shape i)) (u.val (clip u.shape i))⟩ := by
  have hl : u.shape.length = t.shape.length := by rw [ht, hu]; simp
  unfold map2B
  rw [hl, max_self]
  simp only [padTo, hl, Nat.sub_self, List.replicate_zero, List.nil_append, List.drop_zero]
  rw [show List.zipWith bdim t.shape u.shape = List.zipWith bdim (pre ++ n :: post) (pre ++ 1 :: post) by rw [ht, hu], bdims]

theorem map2B_same (f : V → V → V) (t u : Tensor V) (h : u.shape = t.shape) :
    map2B f t u = .ok ⟨t.shape, fun i => f (t.val (clip t.shape i)) (u.val (clip t.shape i))⟩ := by
  unfold map2B
  rw [h, max_self]
  simp only [padTo, Nat.sub_self, List.replicate_zero, List.nil_append, List.drop_zero]
  have hs : ∀ l : List Nat, List.zipWith bdim l l = l.map some := by
    intro l
    induction l with
    | nil => rfl
    | cons a l ih => rw [List.zipWith_cons_cons, ih, bdim_self]; rfl
  rw [hs, mapM_id_some]

/-! ## the coefficients -/

section main

variable (inp : InData V) (ch : String) (ps : List String) (s : Sels V) (hel : Option String) (h : String)
  (c : Chan V) (hc : inp.chans.get? ch = some c)
  (nb : Nat) (hnb : c.start + c.shape.prod ≤ nb)

/-- the request with one more selection -/
def withSel (s : Sels V) (h : String) (p : Pick) : Sels V := { s with sel := Dict.merge [(h, p)] s.sel }

/-- the request leaves the helicity axis alone -/
structure Free (s : Sels V) (h : String) : Prop where
  sel : h ∉ Dict.keys s.sel
  rebin : h ∉ Dict.keys s.rebin
  sum : h ∉ s.sum

theorem merge_cons {d : Dict String Pick} {h : String} (p : Pick) (hn : (Dict.keys d).Nodup) (hd : h ∉ Dict.keys d) :
    Dict.merge [(h, p)] d = (h, p) :: d := by
  have key : ∀ (e acc : Dict String Pick), (Dict.keys (acc ++ e)).Nodup →
      e.foldl (fun acc kv => Dict.set acc kv.1 kv.2) acc = acc ++ e := by
    intro e
    induction e with
    | nil => intro acc _; simp
    | cons kv e ih =>
      intro acc hk
      rw [List.foldl_cons]
      have hnot : kv.1 ∉ Dict.keys acc := by
        simp only [Dict.keys, List.map_append, List.map_cons, List.nodup_append] at hk
        intro hm
        exact hk.2.2 _ hm _ List.mem_cons_self rfl
      rw [Dict.set_of_not_mem _ _ _ hnot, ih _ (by simpa using hk)]
      simp
  have := key d [(h, p)] (by simpa [Dict.keys] using ⟨by simpa [Dict.keys] using hd, hn⟩)
  simpa [Dict.merge] using this

theorem withSel_get {p : Pick} (hn : (Dict.keys s.sel).Nodup) (hf : h ∉ Dict.keys s.sel) (k : String) :
    Dict.get? (withSel s h p).sel k = if h = k then some p else Dict.get? s.sel k := by
  show Dict.get? (Dict.merge [(h, p)] s.sel) k = _
  rw [merge_cons p hn hf]
  rfl

theorem withSel_want {p : Pick} (hn : (Dict.keys s.sel).Nodup) (hf : h ∉ Dict.keys s.sel) (b : Axis V) (hb : b.name ≠ h) :
    Spec.want (withSel s h p) b = Spec.want s b := by
  unfold Spec.want
  rw [withSel_get s h hn hf, if_neg (Ne.symm hb)]
  rfl

variable [LinearOrder V]

theorem withSel_good {p : Pick} (hp : ∀ a b st, p ≠ .slc a b (some st)) (hg : Good s c) (hf : h ∉ Dict.keys s.sel) :
    Good (withSel s h p) c := by
  refine ⟨hg.flow, hg.ok, hg.names, ?_, hg.rebin, ?_⟩
  · show (Dict.keys (Dict.merge [(h, p)] s.sel)).Nodup
    rw [merge_cons p hg.sel hf]
    exact List.nodup_cons.2 ⟨hf, hg.sel⟩
  · intro k a b st hk
    rw [withSel_get s h hg.sel hf] at hk
    split at hk
    · exact hp _ _ _ (Option.some.inj hk)
    · exact hg.step _ _ _ _ hk

/-- numbers of bins of part of the axes -/
def partSizes (s : Sels V) (axs : List (Axis V)) : List Nat :=
  (axs.filter fun a => (Spec.want s a).keep).map fun a => (Spec.newEdges a (Spec.want s a)).length - 1

omit [LinearOrder V] in
theorem partSizes_congr {s s' : Sels V} (axs : List (Axis V)) (hw : ∀ b ∈ axs, Spec.want s' b = Spec.want s b) :
    partSizes s' axs = partSizes s axs := by
  induction axs with
  | nil => rfl
  | cons a axs ih =>
    have ha := hw a List.mem_cons_self
    have hr := ih fun b hb => hw b (List.mem_cons_of_mem _ hb)
    unfold partSizes at hr ⊢
    rw [List.filter_cons, List.filter_cons, ha]
    split
    · rw [List.map_cons, List.map_cons, ha, hr]
    · exact hr

include hc hnb in
/-- what the two selected histograms are -/
theorem ais_spec [Field V] (hg : Good s c) (hh : helicityAxis c hel = .ok h) (hf : Free s h) (m : Angular V)
    (hm : angularInit inp ch ps s hel = .ok m) (obs : Tensor V) (hobs : Spec.Obs obs nb inp.procs.length) :
    ∃ (a : Axis V) (pre post : List Nat) (t : Tensor V), a ∈ c.axes ∧ a.name = h ∧
      Spec.outSizes s c = pre ++ a.size :: post ∧ pre.length = Spec.helPos s c h ∧ m.helIdx = pre.length ∧ 1 < a.size ∧
      m.ais obs = .ok t ∧ t.shape = pre ++ (a.size - 1) :: post ∧
      ∀ iA x iB, iA ∈ grid pre → x < a.size - 1 → iB ∈ grid post →
        t.val (iA ++ x :: iB) = Spec.side inp s c ps obs (iA ++ (x + 1) :: iB) / Spec.side inp s c ps obs (iA ++ 0 :: iB) := by
  unfold angularInit at hm
  rw [hc] at hm
  dsimp only at hm
  rw [hh] at hm
  dsimp only at hm
  cases hn : termInit inp ch ps (withSel s h (.slc (some 1) none none)) with
  | error e => rw [show termInit inp ch ps { s with sel := Dict.merge [(h, .slc (some 1) none none)] s.sel } = _ from hn] at hm; exact nomatch hm
  | ok tn =>
    rw [show termInit inp ch ps { s with sel := Dict.merge [(h, .slc (some 1) none none)] s.sel } = _ from hn] at hm
    dsimp only at hm
    cases hd : termInit inp ch ps (withSel s h (.int 0)) with
    | error e => rw [show termInit inp ch ps { s with sel := Dict.merge [(h, .int 0)] s.sel } = _ from hd] at hm; exact nomatch hm
    | ok td =>
      rw [show termInit inp ch ps { s with sel := Dict.merge [(h, .int 0)] s.sel } = _ from hd] at hm
      dsimp only at hm
      cases hk : axPos tn.axes h with
      | none => rw [hk] at hm; exact nomatch hm
      | some k =>
        rw [hk] at hm
        have hnum : m.num = tn := by rw [← Except.ok.inj hm]
        have hden : m.den = td := by rw [← Except.ok.inj hm]
        have hidx : m.helIdx = k := by rw [← Except.ok.inj hm]
        have hg1 := withSel_good s h c (p := .slc (some 1) none none) (by intro a b st hp; cases hp) hg hf.sel
        have hg2 := withSel_good s h c (p := .int 0) (by intro a b st hp; cases hp) hg hf.sel
        obtain ⟨hb1, -⟩ := select_core inp ch ps _ c hc hg1 tn hn
        obtain ⟨u1, su1, sh1, v1⟩ := term_select inp ch ps _ c hc hg1 nb hnb tn hn obs hobs false
        obtain ⟨u2, su2, sh2, v2⟩ := term_select inp ch ps _ c hc hg2 nb hnb td hd obs hobs false
        simp only [Bool.false_eq_true, if_false] at v1 v2
        -- the helicity axis
        have hmem : ∃ a ∈ c.axes, a.name = h := by
          obtain ⟨b, hb, hbn⟩ := axPos_some hk
          have hb := List.mem_of_getElem? hb
          rw [hb1.axes, List.mem_filterMap] at hb
          obtain ⟨a, ha, hab⟩ := hb
          exact ⟨a, ha, ((outAxis_spec _ hg1.step a (hb1.req a ha)).2 b hab).1.symm.trans hbn⟩
        obtain ⟨a, ha, han⟩ := hmem
        obtain ⟨A, B, hAB⟩ := List.append_of_mem ha
        have hne : ∀ b ∈ A ++ B, b.name ≠ h := by
          have := hg.names
          rw [hAB, List.map_append, List.map_cons, List.nodup_append, List.nodup_cons] at this
          intro b hb hbn
          rcases List.mem_append.1 hb with hb | hb
          · exact this.2.2 _ (List.mem_map_of_mem (f := Axis.name) hb) _ List.mem_cons_self (hbn.trans han.symm)
          · exact this.2.1.1 (by rw [han, ← hbn]; exact List.mem_map_of_mem (f := Axis.name) hb)
        have hw1 : ∀ b ∈ A ++ B, Spec.want (withSel s h (.slc (some 1) none none)) b = Spec.want s b :=
          fun b hb => withSel_want s h hg.sel hf.sel b (hne b hb)
        have hw2 : ∀ b ∈ A ++ B, Spec.want (withSel s h (.int 0)) b = Spec.want s b :=
          fun b hb => withSel_want s h hg.sel hf.sel b (hne b hb)
        have hselN : Dict.get? s.sel a.name = none := (Dict.get?_eq_none_iff _ _).2 (han ▸ hf.sel)
        have hrebN : Dict.get? s.rebin a.name = none := (Dict.get?_eq_none_iff _ _).2 (han ▸ hf.rebin)
        have hsumN : a.name ∉ s.sum := han ▸ hf.sum
        have hwa : Spec.want s a = ⟨0, a.size, true, none⟩ := by
          unfold Spec.want
          rw [hselN, hrebN]
          simp [Spec.range, Spec.isInt, hsumN]
        have hwa1 : Spec.want (withSel s h (.slc (some 1) none none)) a = ⟨1, a.size, true, none⟩ := by
          unfold Spec.want
          rw [withSel_get s h hg.sel hf.sel, if_pos han.symm]
          simp [Spec.range, Spec.isInt, withSel, hsumN, hrebN]
        have hwa2 : Spec.want (withSel s h (.int 0)) a = ⟨0, 1, false, none⟩ := by
          unfold Spec.want
          rw [withSel_get s h hg.sel hf.sel, if_pos han.symm]
          simp [Spec.range, Spec.isInt, withSel, hsumN, hrebN]
        -- sizes
        have hedge : a.edges.length = a.size + 1 := (hg.ok a ha).1
        have hsize : 1 < a.size := by
          obtain ⟨o, ho⟩ := (hb1.req a ha).sel _ (by rw [withSel_get s h hg.sel hf.sel, if_pos han.symm])
          simp only [selectAxis, Option.getD_some, Option.getD_none] at ho
          split at ho
          · omega
          · exact nomatch ho
        have hout : ∀ s' : Sels V, Spec.outSizes s' c = partSizes s' A ++ partSizes s' [a] ++ partSizes s' B := by
          intro s'
          unfold Spec.outSizes partSizes
          rw [hAB, show A ++ a :: B = A ++ [a] ++ B by simp, List.filter_append, List.filter_append, List.map_append,
            List.map_append]
        have hs0 : Spec.outSizes s c = partSizes s A ++ a.size :: partSizes s B := by
          rw [hout]
          have : partSizes s [a] = [a.size] := by
            simp [partSizes, hwa, Spec.newEdges, hedge]
          rw [this]; simp
        have hs1 : Spec.outSizes (withSel s h (.slc (some 1) none none)) c = partSizes s A ++ (a.size - 1) :: partSizes s B := by
          rw [hout, partSizes_congr A fun b hb => hw1 b (List.mem_append_left _ hb),
            partSizes_congr B fun b hb => hw1 b (List.mem_append_right _ hb)]
          have : partSizes (withSel s h (.slc (some 1) none none)) [a] = [a.size - 1] := by
            simp [partSizes, hwa1, Spec.newEdges, hedge]
          rw [this]; simp
        have hs2 : Spec.outSizes (withSel s h (.int 0)) c = partSizes s A ++ partSizes s B := by
          rw [hout, partSizes_congr A fun b hb => hw2 b (List.mem_append_left _ hb),
            partSizes_congr B fun b hb => hw2 b (List.mem_append_right _ hb)]
          have : partSizes (withSel s h (.int 0)) [a] = [] := by
            simp [partSizes, hwa2]
          rw [this]; simp
        have hlenA : (partSizes s A).length = (A.filter fun b => (Spec.want s b).keep).length := by
          unfold partSizes; rw [List.length_map]
        -- the position
        have hpos : (partSizes s A).length = Spec.helPos s c h := by
          rw [hlenA]
          unfold Spec.helPos
          rw [hAB, List.takeWhile_append_of_pos, List.takeWhile_cons_of_neg, List.append_nil]
          · simp [han]
          · intro b hb
            simpa using hne b (List.mem_append_left _ hb)
        have hkpos : k = (partSizes s A).length := by
          rw [hb1.axes, hAB, List.filterMap_append, List.filterMap_cons] at hk
          have hao := outAxis_spec _ hg1.step a (hb1.req a ha)
          cases hoa : outAxis (withSel s h (.slc (some 1) none none)) a with
          | none =>
            rw [hoa, hwa1] at hao
            exact absurd hao.1 (by simp)
          | some a' =>
            rw [hoa] at hk
            have ha'n := (hao.2 a' hoa).1
            unfold axPos at hk
            rw [List.findIdx?_append] at hk
            have hnone : List.findIdx? (fun b : Axis V => decide (b.name = h))
                (A.filterMap (outAxis (withSel s h (.slc (some 1) none none)))) = none := by
              rw [List.findIdx?_eq_none_iff]
              intro b hb
              rw [List.mem_filterMap] at hb
              obtain ⟨b0, hb0, hbb⟩ := hb
              have hb0c : b0 ∈ c.axes := by rw [hAB]; exact List.mem_append_left _ hb0
              have := ((outAxis_spec _ hg1.step b0 (hb1.req b0 hb0c)).2 b hbb).1
              simp only [decide_eq_false_iff_not]
              rw [this]
              exact hne b0 (List.mem_append_left _ hb0)
            rw [hnone, List.findIdx?_cons, if_pos (by simp [ha'n, han])] at hk
            simp only [Option.none_or, Option.map_some, Option.some.injEq, Nat.zero_add] at hk
            rw [← hk, hlenA]
            have : ∀ A' : List (Axis V), (∀ b ∈ A', b ∈ A) →
                (A'.filterMap (outAxis (withSel s h (.slc (some 1) none none)))).length =
                  (A'.filter fun b => (Spec.want s b).keep).length := by
              intro A' hA'
              induction A' with
              | nil => rfl
              | cons b A' ih =>
                have ih := ih fun b' hb' => hA' b' (List.mem_cons_of_mem _ hb')
                have hbA := hA' b List.mem_cons_self
                have hbc : b ∈ c.axes := by rw [hAB]; exact List.mem_append_left _ hbA
                have h1 := (outAxis_spec _ hg1.step b (hb1.req b hbc)).1
                rw [hw1 b (List.mem_append_left _ hbA)] at h1
                rw [List.filterMap_cons, List.filter_cons]
                cases ho : outAxis (withSel s h (.slc (some 1) none none)) b with
                | none =>
                  rw [ho] at h1
                  rw [if_neg (by rw [← h1]; simp)]
                  exact ih
                | some b' =>
                  rw [ho] at h1
                  rw [if_pos (by rw [← h1]; rfl), List.length_cons, List.length_cons, ← ih]
            exact this A fun _ hb => hb
        -- the values
        have hsel : ∀ f : Nat → V, ∀ iA x iB, iA.length = (partSizes s A).length →
            Spec.selected (withSel s h (.slc (some 1) none none)) c f (iA ++ x :: iB) = Spec.selected s c f (iA ++ (x + 1) :: iB) := by
          intro f iA x iB hl
          unfold Spec.selected
          congr 2
          apply List.filter_congr
          intro j _
          rw [hAB]
          exact inBin_shift A B a a.size hw1 hwa hwa1 iA iB x (hl.trans hlenA) j
        have hsel2 : ∀ f : Nat → V, ∀ iA iB, iA.length = (partSizes s A).length →
            Spec.selected (withSel s h (.int 0)) c f (iA ++ iB) = Spec.selected s c f (iA ++ 0 :: iB) := by
          intro f iA iB hl
          unfold Spec.selected
          congr 2
          apply List.filter_congr
          intro j _
          rw [hAB]
          exact inBin_insert A B a a.size (by omega) hw2 hwa hwa2 iA iB (hl.trans hlenA) j
        have hexp : (expandDims u2 k).shape = partSizes s A ++ 1 :: partSizes s B := by
          show u2.shape.insertIdx k 1 = _
          rw [sh2, hs2, hkpos, insertIdx_append]
        refine ⟨a, partSizes s A, partSizes s B,
          ⟨partSizes s A ++ (a.size - 1) :: partSizes s B, fun i => u1.val (clip u1.shape i) / (expandDims u2 k).val (clip (expandDims u2 k).shape i)⟩,
          ha, han, hs0, hpos, hidx.trans hkpos, hsize, ?_, rfl, ?_⟩
        · unfold Angular.ais
          rw [hnum, hden, su1, su2]
          dsimp only
          rw [hidx]
          exact map2B_eq _ _ _ _ _ _ (sh1.trans hs1) hexp
        · intro iA x iB hA hx hB
          dsimp only
          have hlA := length_of_mem_grid hA
          have hmem1 : iA ++ x :: iB ∈ grid (partSizes s A ++ (a.size - 1) :: partSizes s B) := by
            rw [mem_grid]
            exact List.rel_append (mem_grid.1 hA) (List.Forall₂.cons hx (mem_grid.1 hB))
          rw [sh1, hs1, clip_self hmem1, v1 _ (by rw [hs1]; exact hmem1), hsel _ _ _ _ hlA, hexp, clip_append _ _ hlA,
            clip_self hA]
          have hclip : clip (1 :: partSizes s B) (x :: iB) = 0 :: iB := by
            show (if (1 : Nat) = 1 then 0 else x) :: clip (partSizes s B) iB = _
            rw [if_pos rfl, clip_self hB]
          rw [hclip]
          have hmem2 : iA ++ iB ∈ grid (partSizes s A ++ partSizes s B) := by
            rw [mem_grid]
            exact List.rel_append (mem_grid.1 hA) (mem_grid.1 hB)
          have hval : (expandDims u2 k).val (iA ++ 0 :: iB) = u2.val (iA ++ iB) := by
            show u2.val ((iA ++ 0 :: iB).eraseIdx k) = _
            rw [hkpos, ← hlA, List.eraseIdx_append_of_length_le (Nat.le_refl _)]
            simp
          rw [hval, v2 _ (by rw [hs2]; exact hmem2), hsel2 _ _ _ hlA]
          rfl

include hc hnb in
/-- C67.  Whenever the mapping is accepted, for a request that leaves the helicity axis alone: the result has one bin for
every bin of the other axes and every helicity state but the first, and its content is the selected content of that
helicity state over that of the first state in the same bin of the other axes. -/
theorem c67_value [Field V] (hg : Good s c) (hh : helicityAxis c hel = .ok h) (hf : Free s h) (m : Angular V)
    (hm : angularInit inp ch ps s hel = .ok m) (obs : Tensor V) (hobs : Spec.Obs obs nb inp.procs.length) :
    let S := Spec.side inp s c ps obs
    let k := Spec.helPos s c h
    ∃ a ∈ c.axes, a.name = h ∧ (Spec.outSizes s c)[k]? = some a.size ∧ 1 < a.size ∧
      m.flat obs = .ok ((grid ((Spec.outSizes s c).set k (a.size - 1))).map fun i =>
        S (i.set k (i.getD k 0 + 1)) / S (i.set k 0)) := by
  obtain ⟨a, pre, post, t, ha, han, hs, hk, hi, h1, ht, hts, htv⟩ := ais_spec inp ch ps s hel h c hc nb hnb hg hh hf m hm obs hobs
  intro S k
  have hk : k = pre.length := hk.symm
  refine ⟨a, ha, han, ?_, h1, ?_⟩
  · rw [hs, hk]; simp
  · unfold Angular.flat
    rw [ht]
    dsimp only
    unfold Tensor.flat
    rw [hts, hs, hk, show (pre ++ a.size :: post).set pre.length (a.size - 1) = pre ++ (a.size - 1) :: post by simp]
    congr 1
    apply List.map_congr_left
    intro i hi
    obtain ⟨iA, r, rfl, hA, hr⟩ := split_grid_append hi
    obtain ⟨x, iB, hx, hB, rfl⟩ : ∃ x iB, x < a.size - 1 ∧ iB ∈ grid post ∧ r = x :: iB := by
      have := mem_grid.1 hr
      cases r with
      | nil => cases this
      | cons x iB =>
        cases this with
        | cons hx hB => exact ⟨x, iB, hx, mem_grid.2 hB, rfl⟩
    have hl := length_of_mem_grid hA
    rw [htv iA x iB hA hx hB, ← hl]
    simp [S, List.getD_eq_getElem?_getD]

include hc hnb in
/-- C67, `LamTung`: in every bin of the other axes the result is `A_0 - A_2`, helicity states one and three over state
zero; it is refused when there are fewer than four helicity states. -/
theorem c67_lamtung [Field V] (hg : Good s c) (hh : helicityAxis c hel = .ok h) (hf : Free s h) (m : Angular V)
    (hm : angularInit inp ch ps s hel = .ok m) (obs : Tensor V) (hobs : Spec.Obs obs nb inp.procs.length) :
    let S := Spec.side inp s c ps obs
    let k := Spec.helPos s c h
    ∃ a ∈ c.axes, a.name = h ∧
      m.lamTung obs = if 3 < a.size then
        .ok ((grid ((Spec.outSizes s c).eraseIdx k)).map fun i =>
          (S (i.insertIdx k 1) - S (i.insertIdx k 3)) / S (i.insertIdx k 0))
        else .error .index := by
  obtain ⟨a, pre, post, t, ha, han, hs, hk, hi, h1, ht, hts, htv⟩ := ais_spec inp ch ps s hel h c hc nb hnb hg hh hf m hm obs hobs
  intro S k
  have hk : k = pre.length := hk.symm
  refine ⟨a, ha, han, ?_⟩
  have hdim : t.shape.getD pre.length 0 = a.size - 1 := by rw [hts]; simp [List.getD_eq_getElem?_getD]
  have herase : t.shape.eraseIdx pre.length = pre ++ post := by
    rw [hts, List.eraseIdx_append_of_length_le (Nat.le_refl _)]; simp
  unfold Angular.lamTung
  rw [ht]
  dsimp only
  rw [hi]
  unfold gatherAt
  rw [hdim, if_pos (by omega), herase]
  dsimp only
  by_cases h3 : 3 < a.size
  · rw [if_pos (by omega), if_pos h3]
    dsimp only
    rw [map2B_same _ ⟨pre ++ post, fun i => t.val (i.insertIdx pre.length 0)⟩
      ⟨pre ++ post, fun i => t.val (i.insertIdx pre.length 2)⟩ rfl]
    dsimp only
    unfold Tensor.flat
    have : (Spec.outSizes s c).eraseIdx k = pre ++ post := by
      rw [hs, hk, List.eraseIdx_append_of_length_le (Nat.le_refl _)]; simp
    rw [this]
    congr 1
    apply List.map_congr_left
    intro i hi
    obtain ⟨iA, iB, rfl, hA, hB⟩ := split_grid_append hi
    have hl := length_of_mem_grid hA
    dsimp only
    rw [clip_self hi, ← hl, insertIdx_append, insertIdx_append, htv _ _ _ hA (by omega) hB, htv _ _ _ hA (by omega) hB, hk, ← hl,
      insertIdx_append, insertIdx_append, insertIdx_append, sub_div]
  · rw [if_neg (by omega), if_neg h3]

include hc hnb in
/-- C67.  A common factor on all contents drops out. -/
theorem c67_scale [Field V] (hg : Good s c) (hh : helicityAxis c hel = .ok h) (hf : Free s h) (m : Angular V)
    (hm : angularInit inp ch ps s hel = .ok m) (obs : Tensor V) (hobs : Spec.Obs obs nb inp.procs.length) (k : V) (hk : k ≠ 0) :
    m.flat (scaled k obs) = m.flat obs ∧ m.lamTung (scaled k obs) = m.lamTung obs := by
  constructor
  · obtain ⟨a, ha, han, -, -, h1⟩ := c67_value inp ch ps s hel h c hc nb hnb hg hh hf m hm obs hobs
    obtain ⟨b, hb, hbn, -, -, h2⟩ := c67_value inp ch ps s hel h c hc nb hnb hg hh hf m hm (scaled k obs) hobs
    have : a = b := List.inj_on_of_nodup_map hg.names ha hb (han.trans hbn.symm)
    subst this
    rw [h1, h2]
    simp only [side_scaled, mul_div_mul_left _ _ hk]
  · obtain ⟨a, ha, han, h1⟩ := c67_lamtung inp ch ps s hel h c hc nb hnb hg hh hf m hm obs hobs
    obtain ⟨b, hb, hbn, h2⟩ := c67_lamtung inp ch ps s hel h c hc nb hnb hg hh hf m hm (scaled k obs) hobs
    have : a = b := List.inj_on_of_nodup_map hg.names ha hb (han.trans hbn.symm)
    subst this
    rw [h1, h2]
    simp only [side_scaled, ← mul_sub, mul_div_mul_left _ _ hk]

omit [LinearOrder V] in
/-- C67.  Which axis is the helicity axis: the one asked for, else `helicitySig`, else `helicity`, else the mapping is
refused. -/
theorem c67_axis (c : Chan V) :
    (∀ x, helicityAxis c (some x) = .ok x) ∧
    (∀ x, helicityAxis c none = .ok x ↔ (x = "helicitySig" ∧ ∃ a ∈ c.axes, a.name = "helicitySig") ∨
      (x = "helicity" ∧ (∃ a ∈ c.axes, a.name = "helicity") ∧ ¬ ∃ a ∈ c.axes, a.name = "helicitySig")) := by
  refine ⟨fun _ => rfl, fun x => ?_⟩
  unfold helicityAxis
  have e : ∀ n : String, n ∈ c.axes.map (·.name) ↔ ∃ a ∈ c.axes, a.name = n := fun n => List.mem_map
  simp only [← e]
  by_cases h1 : "helicitySig" ∈ c.axes.map (·.name)
  · rw [if_pos h1]
    constructor
    · intro hx; cases hx; exact Or.inl ⟨rfl, h1⟩
    · rintro (⟨rfl, -⟩ | ⟨-, -, h⟩)
      · rfl
      · exact absurd h1 h
  · rw [if_neg h1]
    by_cases h2 : "helicity" ∈ c.axes.map (·.name)
    · rw [if_pos h2]
      constructor
      · intro hx; cases hx; exact Or.inr ⟨rfl, h2, h1⟩
      · rintro (⟨-, h⟩ | ⟨rfl, -, -⟩)
        · exact absurd h h1
        · rfl
    · rw [if_neg h2]
      constructor
      · intro hx; exact nomatch hx
      · rintro (⟨-, h⟩ | ⟨-, h, -⟩)
        · exact absurd h h1
        · exact absurd h h2

include hc in
/-- C67.  The description of the result: the surviving axes in the order of the channel, the helicity axis under the
name `ai` and without its first bin, every other axis with the edges asked for; for the Lam-Tung combination (if no
other axis is called `ai`) the same without the helicity axis. -/
theorem c67_labels [Field V] (hg : Good s c) (hh : helicityAxis c hel = .ok h) (hf : Free s h) (m : Angular V)
    (hm : angularInit inp ch ps s hel = .ok m) :
    ∃ axes, m.info = [(ch, ⟨axes, false, []⟩)] ∧
      axes.map (fun a => (a.name, a.size, a.edges)) = (c.axes.filter fun a => (Spec.want s a).keep).map (fun a =>
        if a.name = h then ("ai", a.size - 1, a.edges.drop 1)
        else (a.name, (Spec.newEdges a (Spec.want s a)).length - 1, Spec.newEdges a (Spec.want s a))) ∧
      ((∀ a ∈ c.axes, a.name ≠ "ai") →
        ∃ axes', m.lamTungInfo ch = .ok [(ch, ⟨axes', false, []⟩)] ∧
          axes'.map (fun a => (a.name, a.size, a.edges)) =
            (c.axes.filter fun a => (Spec.want s a).keep && decide (a.name ≠ h)).map fun a =>
              (a.name, (Spec.newEdges a (Spec.want s a)).length - 1, Spec.newEdges a (Spec.want s a))) := by
  unfold angularInit at hm
  rw [hc] at hm
  dsimp only at hm
  rw [hh] at hm
  dsimp only at hm
  cases hn : termInit inp ch ps (withSel s h (.slc (some 1) none none)) with
  | error e => rw [show termInit inp ch ps { s with sel := Dict.merge [(h, .slc (some 1) none none)] s.sel } = _ from hn] at hm; exact nomatch hm
  | ok tn =>
    rw [show termInit inp ch ps { s with sel := Dict.merge [(h, .slc (some 1) none none)] s.sel } = _ from hn] at hm
    dsimp only at hm
    split at hm
    · exact nomatch hm
    split at hm
    · exact nomatch hm
    have hinfo : m.info = [(ch, ⟨tn.axes.map fun a => if a.name = h then { a with name := "ai" } else a, false, []⟩)] := by
      rw [← Except.ok.inj hm, hg.flow]
    have hg1 := withSel_good s h c (p := .slc (some 1) none none) (by intro a b st hp; cases hp) hg hf.sel
    obtain ⟨hb1, -⟩ := select_core inp ch ps _ c hc hg1 tn hn
    have key : ∀ axs : List (Axis V), (∀ a ∈ axs, AxisReq (withSel s h (.slc (some 1) none none)) a) →
        (∀ a ∈ axs, a ∈ c.axes) →
        ((axs.filterMap (outAxis (withSel s h (.slc (some 1) none none)))).map fun a =>
          if a.name = h then { a with name := "ai" } else a).map (fun a => (a.name, a.size, a.edges)) =
          (axs.filter fun a => (Spec.want s a).keep).map (fun a =>
            if a.name = h then ("ai", a.size - 1, a.edges.drop 1)
            else (a.name, (Spec.newEdges a (Spec.want s a)).length - 1, Spec.newEdges a (Spec.want s a))) ∧
        ((∀ a ∈ axs, a.name ≠ "ai") →
          (((axs.filterMap (outAxis (withSel s h (.slc (some 1) none none)))).map fun a =>
            if a.name = h then { a with name := "ai" } else a).filter fun a => decide (a.name ≠ "ai")).map
              (fun a => (a.name, a.size, a.edges)) =
            (axs.filter fun a => (Spec.want s a).keep && decide (a.name ≠ h)).map fun a =>
              (a.name, (Spec.newEdges a (Spec.want s a)).length - 1, Spec.newEdges a (Spec.want s a))) := by
      intro axs
      induction axs with
      | nil => intro _ _; exact ⟨rfl, fun _ => rfl⟩
      | cons a axs ih =>
        intro hreq hsub
        obtain ⟨ih1, ih2⟩ := ih (fun b hb => hreq b (List.mem_cons_of_mem _ hb)) fun b hb => hsub b (List.mem_cons_of_mem _ hb)
        have ha := hreq a List.mem_cons_self
        obtain ⟨h1, h2⟩ := outAxis_spec _ hg1.step a ha
        have hos := outSize_eq hg1.step ha
        by_cases han : a.name = h
        · have hedge : a.edges.length = a.size + 1 := (hg.ok a (hsub a List.mem_cons_self)).1
          have hselN : Dict.get? s.sel a.name = none := (Dict.get?_eq_none_iff _ _).2 (han ▸ hf.sel)
          have hrebN : Dict.get? s.rebin a.name = none := (Dict.get?_eq_none_iff _ _).2 (han ▸ hf.rebin)
          have hsumN : a.name ∉ s.sum := han ▸ hf.sum
          have hwa : (Spec.want s a).keep = true := by
            unfold Spec.want
            rw [hselN, hrebN]
            simp [Spec.isInt, hsumN]
          have hwa1 : Spec.want (withSel s h (.slc (some 1) none none)) a = ⟨1, a.size, true, none⟩ := by
            unfold Spec.want
            rw [withSel_get s h hg.sel hf.sel, if_pos han.symm]
            simp [Spec.range, Spec.isInt, withSel, hsumN, hrebN]
          have hne : Spec.newEdges a ⟨1, a.size, true, none⟩ = a.edges.drop 1 := by
            simp only [Spec.newEdges, Option.getD_none]
            rw [List.take_of_length_le (by omega)]
          rw [hwa1] at h1 h2 hos
          rw [hne] at h2 hos
          cases ho : outAxis (withSel s h (.slc (some 1) none none)) a with
          | none => rw [ho] at h1; exact nomatch h1
          | some b =>
            obtain ⟨h3, h4, h5⟩ := h2 b ho
            have h4' : b.size = a.size - 1 := by rw [h4, hos, List.length_drop, hedge]; omega
            have hbn : b.name = h := h3.trans han
            constructor
            · rw [List.filterMap_cons, ho, List.filter_cons, hwa]
              simp only [if_true, List.map_cons]
              rw [ih1, if_pos hbn, if_pos han]
              dsimp only
              rw [h4', h5]
            · intro hai
              rw [List.filterMap_cons, ho, List.filter_cons, hwa]
              simp only [List.map_cons]
              rw [if_pos hbn, List.filter_cons, if_neg (by simp), if_neg (by simp [han]),
                ih2 fun b hb => hai b (List.mem_cons_of_mem _ hb)]
        · have hw := withSel_want (p := .slc (some 1) none none) s h hg.sel hf.sel a han
          rw [hw] at h1 h2 hos
          rw [List.filterMap_cons, List.filter_cons, List.filter_cons, ← h1]
          cases ho : outAxis (withSel s h (.slc (some 1) none none)) a with
          | none =>
            simp only [Option.isSome_none, Bool.false_and, Bool.false_eq_true, if_false]
            exact ⟨ih1, fun hai => ih2 fun b hb => hai b (List.mem_cons_of_mem _ hb)⟩
          | some b =>
            obtain ⟨h3, h4, h5⟩ := h2 b ho
            have hbn : ¬ b.name = h := fun h' => han (h3.symm.trans h')
            simp only [Option.isSome_some, Bool.true_and, if_true, List.map_cons]
            rw [if_neg hbn]
            constructor
            · rw [ih1, if_neg han, h3, h4, h5, hos]
            · intro hai
              have ha' := hai a List.mem_cons_self
              rw [List.filter_cons, if_pos (by simpa [h3] using ha'), if_pos (by simpa using han), List.map_cons,
                List.map_cons, ih2 fun b hb => hai b (List.mem_cons_of_mem _ hb), h3, h4, h5, hos]
    obtain ⟨k1, k2⟩ := key c.axes hb1.req fun _ h => h
    rw [← hb1.axes] at k1 k2
    refine ⟨_, hinfo, k1, fun hai => ⟨_, ?_, k2 hai⟩⟩
    unfold Angular.lamTungInfo
    rw [hinfo]
    simp [Dict.get?, Dict.set]

end main

namespace Ex67

/-- a channel with two bins in y and four helicity states -/
def axY : Axis ℚ := { name := "y", size := 2, edges := [0, 1, 2] }
def axH : Axis ℚ := { name := "helicitySig", size := 4, edges := [0, 1, 2, 3, 4] }
def chan : Chan ℚ := { axes := [axY, axH], start := 0 }
def inp : InData ℚ := ⟨["a", "b"], [("ch", chan)], 8, 8, fun b p => b + p⟩

def obs : Tensor ℚ := ofList [10, 1, 2, 3, 100, 4, 5, 6]
def obs2 : Tensor ℚ := ⟨[8, 2], fun i => obs.val [i.headD 0] * (if i.getD 1 0 = 0 then 1 else i.headD 0)⟩

def run (s : Sels ℚ) (ps : List String) (o : Tensor ℚ) : Option (List ℚ) :=
  (angularInit inp "ch" ps s none).toOption.bind fun m => (m.flat o).toOption

def runL (s : Sels ℚ) (o : Tensor ℚ) : Option (List ℚ) :=
  (angularInit inp "ch" [] s none).toOption.bind fun m => (m.lamTung o).toOption

example : run {} [] obs = some [1/10, 2/10, 3/10, 4/100, 5/100, 6/100] := by decide +kernel
example : runL {} obs = some [1/10 - 3/10, 4/100 - 6/100] := by decide +kernel
/-- sum over y first -/
example : run { sum := ["y"] } [] obs = some [5/110, 7/110, 9/110] := by decide +kernel

/-- the hypotheses are met -/
example : Good (V := ℚ) { sum := ["y"] } chan ∧ Free (V := ℚ) { sum := ["y"] } "helicitySig" ∧
    helicityAxis chan none = .ok "helicitySig" ∧ Spec.Obs obs 8 2 := by
  refine ⟨⟨rfl, ?_, by decide, by decide, by decide, ?_⟩, ⟨by decide, by decide, by decide⟩, by decide, Or.inl rfl⟩
  · intro a ha
    simp only [chan, List.mem_cons, List.not_mem_nil, or_false] at ha
    rcases ha with rfl | rfl
    · refine ⟨rfl, ?_⟩; simp [axY]
    · refine ⟨rfl, ?_⟩; simp [axH]; norm_num
  · intro k s e st h
    exact nomatch h

end Ex67

/-- C67 does not hold when the request selects helicity states (say only `A_0` and `A_1`): the request replaces the
selection of the unpolarised cross section, so every coefficient becomes `1`. -/
theorem c67_request_violated :
    Ex67.run { sel := [("helicitySig", .slc (some 1) (some 3) none)], sum := ["y"] } [] Ex67.obs = some [1, 1] ∧
      Ex67.run { sum := ["y"] } [] Ex67.obs = some [5/110, 7/110, 9/110] := by
  constructor <;> decide +kernel

/-- C67 does not hold for a selection of processes: the mapping never asks for the predictions per process, and with the
summed predictions the selection is ignored. -/
theorem c67_process_violated :
    Ex67.run { sum := ["y"] } ["a"] Ex67.obs2 = some [5/110, 7/110, 9/110] ∧
      Ex67.run { sum := ["y"] } ["a"] (Ex67.obs2.reduceSum [1]) =
        some [(1 + 1 + 4 + 20) / 510, (2 + 4 + 5 + 30) / 510, (3 + 9 + 6 + 42) / 510] := by
  constructor <;> decide +kernel

end Verif.Mappings
