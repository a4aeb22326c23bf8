import Verif.Lemmas.Select
import Verif.Lemmas.ABCD

/-! The tensor operations of `Term.select` as sums over groups of bins. -/

namespace Verif.Mappings

open Verif.ABCD Verif.Grid

variable {V : Type}

/-! selection by index -/

/-- positions read on an axis -/
def posOf (sel : Dict String Pick) (a : Axis V) : Bool × List Nat :=
  ((selOf sel a).isSome, (List.range ((Spec.range a.size (sel.get? a.name)).2 - (Spec.range a.size (sel.get? a.name)).1)).map
    ((Spec.range a.size (sel.get? a.name)).1 + ·))

/-- no selection with a step -/
def NoStep (sel : Dict String Pick) : Prop := ∀ k s e st, sel.get? k ≠ some (.slc s e (some st))

/-- what is known of an axis and what remains of it -/
theorem selOf_spec [LinearOrder V] (sel : Dict String Pick) (hst : NoStep sel) (a : Axis V) (ha : AxisOk a)
    (hok : ∀ p, sel.get? a.name = some p → ∃ o, selectAxis a p = .ok o) :
    (Spec.range a.size (sel.get? a.name)).2 ≤ a.size ∧
    ((sel.get? a.name).getD (.slc none none none)).positions a.size = .ok (posOf sel a) ∧
    ∀ a', selOf sel a = some a' → a'.name = a.name ∧
      a'.size = (Spec.range a.size (sel.get? a.name)).2 - (Spec.range a.size (sel.get? a.name)).1 ∧ AxisOk a' ∧
      (Spec.range a.size (sel.get? a.name)).1 ≤ (Spec.range a.size (sel.get? a.name)).2 ∧
      ∀ j, j ≤ (Spec.range a.size (sel.get? a.name)).2 - (Spec.range a.size (sel.get? a.name)).1 →
        a'.edges[j]? = a.edges[(Spec.range a.size (sel.get? a.name)).1 + j]? := by
  cases hg : sel.get? a.name with
  | none =>
    have hs : selOf sel a = some a := by simp [selOf, hg]
    refine ⟨by simp [Spec.range], ?_, ?_⟩
    · simp [Pick.positions, posOf, hg, hs, Spec.range]
    · intro a' h
      rw [hs] at h
      cases h
      exact ⟨rfl, by simp [Spec.range], ha, by simp [Spec.range], fun j _ => by simp [Spec.range]⟩
  | some p =>
    obtain ⟨o, ho⟩ := hok p hg
    have hs : selOf sel a = o := by simp [selOf, hg, ho]
    obtain ⟨h1, h2, h3⟩ := selectAxis_spec a ha p (fun s e st h => hst a.name s e st (h ▸ hg)) o ho
    refine ⟨h1, ?_, ?_⟩
    · simp only [Option.getD_some, h2, posOf, hg, hs]
    · intro a' h
      rw [hs] at h
      exact h3 a' h

theorem index_spec [LinearOrder V] (sel : Dict String Pick) (hst : NoStep sel) (axs : List (Axis V))
    (ha : ∀ a ∈ axs, AxisOk a) (hok : ∀ a ∈ axs, ∀ p, sel.get? a.name = some p → ∃ o, selectAxis a p = .ok o)
    (tr : List Nat) :
    allPositions (axs.map (·.size) ++ tr) (axs.map fun a => (sel.get? a.name).getD (.slc none none none)) =
      .ok (axs.map (posOf sel)) ∧
    readShape (axs.map (posOf sel)) (axs.map (·.size) ++ tr) = (axs.filterMap (selOf sel)).map (·.size) ++ tr := by
  induction axs with
  | nil => exact ⟨by cases tr <;> rfl, rfl⟩
  | cons a axs ih =>
    obtain ⟨ih1, ih2⟩ := ih (fun b hb => ha b (List.mem_cons_of_mem _ hb)) (fun b hb => hok b (List.mem_cons_of_mem _ hb))
    obtain ⟨h1, h2, h3⟩ := selOf_spec sel hst a (ha a (by simp)) (hok a (by simp))
    constructor
    · simp only [List.map_cons, List.cons_append, allPositions, h2, ih1]
    · rw [List.map_cons, List.map_cons, List.cons_append, List.filterMap_cons]
      cases hs : selOf sel a with
      | none =>
        simp only [posOf, hs, Option.isSome_none, readShape, List.tail_cons]
        exact ih2
      | some a' =>
        obtain ⟨-, h4, -⟩ := h3 a' hs
        simp only [posOf, hs, Option.isSome_some, readShape, List.tail_cons, List.length_map, List.length_range, List.map_cons,
          List.cons_append, h4]
        exact congrArg _ ih2

theorem countP_posOf (sel : Dict String Pick) (axs : List (Axis V)) :
    (axs.map (posOf sel)).countP (·.1) = (axs.filterMap (selOf sel)).length := by
  induction axs with
  | nil => rfl
  | cons a axs ih =>
    rw [List.map_cons, List.countP_cons, ih, List.filterMap_cons]
    cases hs : selOf sel a <;> simp [posOf, hs]

/-! rebinning -/

/-- the axis with the bins `e` -/
def newAxis (a : Axis V) (e : List V) : Axis V :=
  { name := a.name, size := e.length - 1, extent := e.length - 1 + (a.extent - a.size), edges := e }

/-- axis after rebinning -/
def rebAxis (reb : Dict String (List V)) (a : Axis V) : Axis V :=
  match reb.get? a.name with
  | none => a
  | some e => newAxis a e

/-- groups of bins -/
def rebOp [DecidableEq V] (reb : Dict String (List V)) (a : Axis V) : Op :=
  match reb.get? a.name with
  | none => idOp
  | some e => (true, segGroup (segIds a.edges e))

theorem rebAxis_name (reb : Dict String (List V)) (a : Axis V) : (rebAxis reb a).name = a.name := by
  unfold rebAxis
  split <;> rfl

theorem rebOp_keep [DecidableEq V] (reb : Dict String (List V)) (a : Axis V) : (rebOp reb a).1 = true := by
  unfold rebOp
  split <;> rfl

theorem opSum_id [AddMonoid V] {α : Type} (l : List α) (f : List Nat → V) (i : List Nat) (h : l.length ≤ i.length) :
    opSum (l.map fun _ => idOp) f i = f i := by
  induction l generalizing f i with
  | nil => rfl
  | cons a l ih =>
    rcases i with _ | ⟨m, i⟩
    · simp at h
    · simp only [List.map_cons, idOp, opSum, List.map_nil, List.sum_cons, List.sum_nil, add_zero]
      exact ih _ _ (by simpa using h)

theorem opSum_single [AddMonoid V] (h : List (Axis V)) (n : String) (g : Nat → List Nat) (k : Nat) (a : Axis V)
    (hn : (h.map (·.name)).Nodup) (hk : h[k]? = some a) (hka : a.name = n) (f : List Nat → V) (i : List Nat)
    (hi : h.length ≤ i.length) :
    opSum (h.map fun b => if b.name = n then (true, g) else idOp) f i = ((g (i.getD k 0)).map fun j => f (i.set k j)).sum := by
  induction h generalizing k f i with
  | nil => simp at hk
  | cons b h ih =>
    rw [List.map_cons, List.nodup_cons] at hn
    rcases i with _ | ⟨m, i⟩
    · simp at hi
    cases k with
    | zero =>
      have hb : b = a := by simpa using hk
      subst hb
      have : (h.map fun b => if b.name = n then (true, g) else idOp) = h.map fun _ => idOp := by
        apply List.map_congr_left
        intro c hc
        rw [if_neg (fun hcn => hn.1 (by rw [hka, ← hcn]; exact List.mem_map_of_mem hc))]
      rw [List.map_cons, this, if_pos hka]
      simp only [opSum, List.getD_cons_zero, List.set_cons_zero]
      apply congrArg
      apply List.map_congr_left
      intro j _
      exact opSum_id h _ _ (by simpa using hi)
    | succ k =>
      have hk' : h[k]? = some a := by simpa using hk
      have hb : b.name ≠ n := fun hbn => hn.1 (by
        rw [hbn, ← hka]; exact List.mem_map_of_mem (List.mem_of_getElem? hk'))
      rw [List.map_cons, if_neg hb]
      simp only [idOp, opSum, List.map_nil, List.map_cons, List.sum_cons, List.sum_nil, add_zero]
      have := ih k hn.2 hk' (fun js => f (m :: js)) i (by simpa using hi)
      simp only [idOp] at this
      rw [this]
      simp

theorem set_eq_map (h : List (Axis V)) (k : Nat) (a a' : Axis V) (hn : (h.map (·.name)).Nodup) (hk : h[k]? = some a) :
    h.set k a' = h.map fun b => if b.name = a.name then a' else b := by
  induction h generalizing k with
  | nil => simp at hk
  | cons b h ih =>
    rw [List.map_cons, List.nodup_cons] at hn
    cases k with
    | zero =>
      have hb : b = a := by simpa using hk
      subst hb
      rw [List.set_cons_zero, List.map_cons, if_pos rfl]
      congr 1
      conv_lhs => rw [← List.map_id h]
      apply List.map_congr_left
      intro c hc
      rw [if_neg (fun hcn => hn.1 (by rw [← hcn]; exact List.mem_map_of_mem hc))]
      rfl
    | succ k =>
      have hk' : h[k]? = some a := by simpa using hk
      have hb : b.name ≠ a.name := fun hbn => hn.1 (by rw [hbn]; exact List.mem_map_of_mem (List.mem_of_getElem? hk'))
      rw [List.set_cons_succ, ih k hn.2 hk', List.map_cons, if_neg hb]

/-- the rebinning of all axes -/
theorem rebin_spec [LinearOrder V] [AddCommMonoid V] (reb : Dict String (List V)) (h h' : List (Axis V))
    (segs0 segs : Dict Nat (List Int × Nat)) (hh : ∀ a ∈ h, AxisOk a) (hn : (h.map (·.name)).Nodup)
    (hk : (Dict.keys reb).Nodup) (hs0 : ∀ k ∈ Dict.keys segs0, ∀ a, h[k]? = some a → a.name ∉ Dict.keys reb)
    (hok : rebinAll h segs0 reb = .ok (h', segs)) :
    h' = h.map (rebAxis reb) ∧
    (∀ n e, Dict.get? reb n = some e → ∃ a ∈ h, a.name = n ∧ 2 ≤ e.length ∧ e.IsChain (· < ·) ∧ ∀ x ∈ e, x ∈ a.edges) ∧
    ∃ segs1, segs = segs0 ++ segs1 ∧ ∀ (t : Tensor V) (tr : List Nat), t.shape = h.map (·.size) ++ tr →
      ∃ u, segmentAll t segs1 = .ok u ∧ u.shape = h'.map (·.size) ++ tr ∧
        ∀ i, h.length ≤ i.length → u.val i = opSum (h.map (rebOp reb)) t.val i := by
  induction reb generalizing h segs0 with
  | nil =>
    simp only [rebinAll] at hok
    cases hok
    refine ⟨?_, ?_, [], by simp, ?_⟩
    · conv_lhs => rw [← List.map_id h']
      rfl
    · intro n e he
      exact nomatch he
    · intro t tr ht
      refine ⟨t, rfl, ht, fun i hi => ?_⟩
      exact (opSum_id h' _ _ hi).symm
  | cons ne r ih =>
    obtain ⟨n, new⟩ := ne
    simp only [Dict.keys, List.map_cons, List.nodup_cons] at hk
    have hkn : n ∉ Dict.keys r := hk.1
    simp only [rebinAll] at hok
    cases hp : axPos h n with
    | none => rw [hp] at hok; exact nomatch hok
    | some k =>
      obtain ⟨a, hka, han⟩ := axPos_some hp
      rw [hp] at hok
      simp only [hka] at hok
      cases hr : rebinAxis a new with
      | error e => rw [hr] at hok; exact nomatch hok
      | ok a' =>
        rw [hr] at hok
        dsimp only at hok
        unfold rebinAxis at hr
        split at hr
        · rename_i hc
          obtain ⟨hc2, hcc, hcs⟩ := hc
          have ha' : a' = newAxis a new := by cases hr; rfl
          have hmem : a ∈ h := List.mem_of_getElem? hka
          have hset : h.set k a' = h.map fun b => if b.name = n then newAxis a new else b := by
            rw [set_eq_map h k a a' hn hka, han, ha']
          have hget : ∀ b ∈ h, b.name = n → b = a := by
            intro b hb hbn
            obtain ⟨m, hm⟩ := List.getElem?_of_mem hb
            have h1 := axPos_eq hn hm
            have h2 := axPos_eq hn hka
            rw [hbn] at h1
            rw [han, h1] at h2
            cases h2
            rw [hm] at hka
            cases hka; rfl
          have hsegset : Dict.set segs0 k (segIds a.edges new, numSegs (segIds a.edges new)) =
              segs0 ++ [(k, segIds a.edges new, numSegs (segIds a.edges new))] := by
            apply Dict.set_of_not_mem
            intro hks
            exact hs0 k hks a hka (by rw [han]; simp [Dict.keys])
          rw [hsegset] at hok
          obtain ⟨i1, i2, segs1, i3, i4⟩ := ih (h.set k a') (segs0 ++ [(k, segIds a.edges new, numSegs (segIds a.edges new))])
            (by
              rw [hset]
              intro b hb
              obtain ⟨c, hc, rfl⟩ := List.mem_map.1 hb
              split
              · exact ⟨by simp only [newAxis]; omega, hcc⟩
              · exact hh c hc)
            (by
              rw [hset, List.map_map]
              have : h.map ((fun x => x.name) ∘ fun b => if b.name = n then newAxis a new else b) = h.map (·.name) := by
                apply List.map_congr_left
                intro b _
                simp only [Function.comp]
                split
                · rename_i hbn; rw [hbn, ← han]; rfl
                · rfl
              rw [this]; exact hn)
            hk.2
            (by
              intro m hm b hb
              simp only [Dict.keys, List.map_append, List.map_cons, List.map_nil, List.mem_append, List.mem_singleton] at hm
              rw [List.getElem?_set] at hb
              by_cases hmk : k = m
              · rw [if_pos hmk] at hb
                have hb' : b = a' := by
                  split at hb
                  · cases hb; rfl
                  · exact nomatch hb
                rw [hb', ha']
                simp only [newAxis, han]
                exact hkn
              · rw [if_neg hmk] at hb
                have hm' : m ∈ Dict.keys segs0 := by
                  rcases hm with hm | hm
                  · exact hm
                  · exact absurd hm.symm hmk
                intro hbr
                exact hs0 m hm' b hb (by simp only [Dict.keys, List.map_cons]; exact List.mem_cons_of_mem _ hbr))
            hok
          refine ⟨?_, ?_, (k, segIds a.edges new, numSegs (segIds a.edges new)) :: segs1, by rw [i3]; simp, ?_⟩
          · rw [i1, hset, List.map_map]
            apply List.map_congr_left
            intro b hb
            simp only [Function.comp, rebAxis, Dict.get?]
            by_cases hbn : b.name = n
            · rw [if_pos hbn, if_pos hbn.symm, hget b hb hbn]
              have : Dict.get? r (newAxis a new).name = none := by
                rw [Dict.get?_eq_none_iff]; simp only [newAxis, han]; exact hkn
              rw [this]
            · rw [if_neg hbn, if_neg (fun h => hbn h.symm)]
          · intro m e he
            simp only [Dict.get?] at he
            split at he
            · rename_i hnm
              cases he
              exact ⟨a, hmem, by rw [han, hnm], hc2, hcc, hcs⟩
            · rename_i hnm
              obtain ⟨b, hb, hbn, h2, h3, h4⟩ := i2 m e he
              rw [hset] at hb
              obtain ⟨c, hc, rfl⟩ := List.mem_map.1 hb
              by_cases hcn : c.name = n
              · rw [if_pos hcn] at hbn
                exact absurd (by rw [← hbn]; simp only [newAxis, han]) hnm
              · rw [if_neg hcn] at hbn h4
                exact ⟨c, hc, hbn, h2, h3, h4⟩
          · intro t tr ht
            have hkl : k < h.length := (List.getElem?_eq_some_iff.1 hka).1
            obtain ⟨hal, hac⟩ := hh a hmem
            obtain ⟨t1, ht1, hs1, hv1⟩ := segmentSum_opSum t k a.edges new hac hcc hcs hc2 (by
              rw [ht, List.getD_eq_getElem?_getD, List.getElem?_append_left (by simpa using hkl), List.getElem?_map, hka, hal]
              rfl)
            obtain ⟨u, hu, hus, huv⟩ := i4 t1 tr (by
              rw [hs1, ht, List.set_append_left _ _ (by simpa using hkl), List.map_set]
              rw [ha']
              rfl)
            refine ⟨u, by simp only [segmentAll, ht1, hu], hus, ?_⟩
            intro i hi
            rw [huv i (by simpa using hi)]
            have hstep : ∀ j, h.length ≤ j.length →
                t1.val j = opSum (h.map fun b => if b.name = n then (true, segGroup (segIds a.edges new)) else idOp) t.val j := by
              intro j hj
              rw [hv1 j (by omega), opSum_at _ _ _ _ (by omega), opSum_single h n _ k a hn hka han _ _ hj]
            rw [opSum_congr _ _ _ (fun j hj => hstep j (by simpa using hj)), opSum_comp, hset]
            have hmapsome : (h.map fun b => if b.name = n then newAxis a new else b) =
                h.filterMap fun b => some (if b.name = n then newAxis a new else b) := by
              rw [← List.filterMap_eq_map]; rfl
            rw [hmapsome, comp_map]
            · congr 1
              apply List.map_congr_left
              intro b hb
              dsimp only
              simp only [rebOp, Dict.get?]
              by_cases hbn : b.name = n
              · rw [if_pos hbn, if_pos hbn, if_pos hbn.symm, hget b hb hbn]
                have : Dict.get? r (newAxis a new).name = none := by
                  rw [Dict.get?_eq_none_iff]; simp only [newAxis, han]; exact hkn
                rw [this]
                simp only [idOp, List.flatMap_cons, List.flatMap_nil, List.append_nil]
              · rw [if_neg hbn, if_neg hbn, if_neg (fun h => hbn h.symm)]
                cases Dict.get? r b.name with
                | none => simp [idOp]
                | some e => simp [idOp]
            · intro b _
              split <;> rfl
        · exact nomatch hr

end Verif.Mappings
