import Verif.Model.Driver
import Std.Data.String.ToInt
import Mathlib.Data.List.Basic
import Mathlib.Data.List.Nodup

/-
C57: every requested fit gets its own entry in the output (bin/rabbit_fit.py, bin/rabbit_limit.py).
-/

namespace Verif.Driver

namespace Spec

/-- the label of a fit: none for data -/
def label (ifit : Int) : List String := if ifit = 0 then [] else if ifit = -1 then ["asimov"] else [s!"toy{ifit}"]

/-- the key of a fit: `results`, the label of the fit and the name of its pseudo-data set, joined by underscores -/
def key (ifit : Int) (set : List String) : String := join ("results" :: (label ifit ++ set))

/-- the data of a fit -/
def data (ifit : Int) (j : Nat) : Source := if ifit = 0 then .data j else if ifit = -1 then .asimov else .toy ifit j

end Spec

/-! ## keys are read back uniquely -/

theorem append_cons_inj {c : Char} : ∀ {l1 l2 r1 r2 : List Char}, c ∉ l1 → c ∉ l2 → l1 ++ c :: r1 = l2 ++ c :: r2 → l1 = l2 ∧ r1 = r2
  | [], [], _, _, _, _, h => ⟨rfl, List.tail_eq_of_cons_eq h⟩
  | [], b :: l2, _, _, _, h2, h => absurd (List.head_eq_of_cons_eq h) fun e => h2 (e ▸ List.mem_cons_self)
  | a :: l1, [], _, _, h1, _, h => absurd (List.head_eq_of_cons_eq h) fun e => h1 (e ▸ List.mem_cons_self)
  | a :: l1, b :: l2, _, _, h1, h2, h => by
    have e := List.head_eq_of_cons_eq h
    obtain ⟨h3, h4⟩ := append_cons_inj (fun h => h1 (List.mem_cons_of_mem _ h)) (fun h => h2 (List.mem_cons_of_mem _ h))
      (List.tail_eq_of_cons_eq h)
    exact ⟨by rw [e, h3], h4⟩

/-- free of underscores -/
def plain (s : String) : Prop := '_' ∉ s.toList

theorem join_cons_toList (a b : String) (l : List String) : (join (a :: b :: l)).toList = a.toList ++ '_' :: (join (b :: l)).toList := by
  show (a ++ "_" ++ join (b :: l)).toList = _
  rw [String.toList_append, String.toList_append, List.append_assoc]
  rfl

theorem join_inj : ∀ {l l' : List String}, l ≠ [] → l' ≠ [] → (∀ s ∈ l, plain s) → (∀ s ∈ l', plain s) → join l = join l' → l = l'
  | [], _, h, _, _, _, _ => absurd rfl h
  | _, [], _, h, _, _, _ => absurd rfl h
  | [a], [b], _, _, _, _, h => by rw [show a = b from h]
  | [a], b :: c :: l, _, _, h1, _, h => by
    have := congrArg String.toList h
    rw [join_cons_toList] at this
    exact absurd (by rw [show a.toList = _ from this]; simp) (h1 a List.mem_cons_self)
  | a :: b :: l, [c], _, _, _, h2, h => by
    have := congrArg String.toList h
    rw [join_cons_toList] at this
    exact absurd (by rw [show c.toList = _ from this.symm]; simp) (h2 c List.mem_cons_self)
  | a :: b :: l, c :: d :: l', _, _, h1, h2, h => by
    have := congrArg String.toList h
    rw [join_cons_toList, join_cons_toList] at this
    obtain ⟨h3, h4⟩ := append_cons_inj (h1 a List.mem_cons_self) (h2 c List.mem_cons_self) this
    have := join_inj (by simp) (by simp) (fun s hs => h1 s (List.mem_cons_of_mem _ hs)) (fun s hs => h2 s (List.mem_cons_of_mem _ hs))
      (String.toList_inj.1 h4)
    rw [String.toList_inj.1 h3, this]

theorem toList_toy (f : Int) : (s!"toy{f}").toList = ['t', 'o', 'y'] ++ (Int.repr f).toList := by
  show (toString "toy" ++ toString f).toList = _
  rw [String.toList_append]
  rfl

theorem toy_inj {f f' : Int} (h : s!"toy{f}" = s!"toy{f'}") : f = f' := by
  have := congrArg String.toList h
  rw [toList_toy, toList_toy, List.append_cancel_left_eq] at this
  exact Int.repr_injective (String.toList_inj.1 this)

theorem plain_toy {f : Int} (h : 1 ≤ f) : plain s!"toy{f}" := by
  obtain ⟨n, rfl⟩ := Int.eq_ofNat_of_zero_le (show 0 ≤ f by omega)
  unfold plain
  rw [toList_toy]
  have : (Int.repr (n : Int)) = Nat.repr n := rfl
  rw [this, Nat.toList_repr]
  simp only [List.mem_append, List.mem_cons, List.not_mem_nil, or_false, not_or]
  exact ⟨by decide, Nat.underscore_not_in_toDigits⟩

theorem plain_label {f : Int} (h : -1 ≤ f) : ∀ s ∈ Spec.label f, plain s := by
  intro s hs
  unfold Spec.label at hs
  split at hs
  · simp at hs
  · split at hs
    · rw [List.mem_singleton.1 hs]; unfold plain; decide
    · rw [List.mem_singleton.1 hs]; exact plain_toy (by omega)

theorem label_inj {f f' : Int} (e : Spec.label f = Spec.label f') : f = f' := by
  have hne : ∀ g : Int, s!"toy{g}" ≠ "asimov" := by
    intro g hg
    have := congrArg String.toList hg
    rw [toList_toy] at this
    exact absurd (List.head_eq_of_cons_eq this) (by decide)
  unfold Spec.label at e
  split_ifs at e with h1 h2 h3 h4 h5 h6 h7 <;>
    first
      | omega
      | (simp only [List.cons.injEq, and_true] at e; exact absurd e (hne _))
      | (simp only [List.cons.injEq, and_true] at e; exact absurd e.symm (hne _))
      | (simp only [List.cons.injEq, and_true] at e; exact toy_inj e)

theorem labelled_eq {f : Int} (h : -1 ≤ f) (g : List String) : labelled f g = g ++ Spec.label f := by
  unfold labelled Spec.label
  by_cases h1 : f = -1
  · subst h1; simp
  · rw [if_neg h1]
    by_cases h2 : f = 0
    · subst h2; simp
    · rw [if_neg h2, if_pos (by omega), if_neg h2, if_neg h1]

theorem source_eq {f : Int} (h : -1 ≤ f) (j : Nat) : source f j = Spec.data f j := by
  unfold source Spec.data
  by_cases h1 : f = -1
  · subst h1; simp
  · rw [if_neg h1]
    by_cases h2 : f = 0
    · subst h2; simp
    · rw [if_neg h2, if_pos (by omega), if_neg h2, if_neg h1]

/-! ## the loops -/

theorem named_zero {names : List String} {n : String} (h : names[0]? = some n) (g : List String) :
    named (some names) 0 g = .ok (g ++ [n]) := by
  unfold named
  simp [h]

theorem named_succ {names : List String} {j : Nat} {n : String} (h : names[j + 1]? = some n) (g : List String) (a : String) :
    named (some names) (j + 1) (g ++ [a]) = .ok (g ++ [n]) := by
  unfold named
  simp only [h]
  simp

/-- the sets after the first, for a fit without label: the last part of the key is replaced -/
theorem setLoop_data (names : List String) : ∀ (n j : Nat) (g : List String) (a : String), 1 ≤ j → j + n = names.length →
    setLoop 0 (some names) n j (g ++ [a]) =
      .ok ((List.range n).map fun k => (join (g ++ [names.getD (j + k) ""]), Source.data (j + k)))
  | 0, _, _, _, _, _ => rfl
  | n + 1, j, g, a, hj, hn => by
    obtain ⟨j, rfl⟩ : ∃ i, j = i + 1 := ⟨j - 1, by omega⟩
    have hlt : j + 1 < names.length := by omega
    unfold setLoop
    rw [labelled_eq (by decide), show Spec.label 0 = [] from rfl, List.append_nil,
      named_succ (List.getElem?_eq_getElem hlt)]
    dsimp only
    rw [setLoop_data names n (j + 1 + 1) g _ (by omega) (by omega)]
    dsimp only
    rw [List.range_succ_eq_map, List.map_cons, List.map_map]
    congr 2
    · have : names.getD (j + 1 + 0) "" = names[j + 1] := by
        rw [List.getD_eq_getElem?_getD]
        show names[j + 1]?.getD "" = _
        rw [List.getElem?_eq_getElem hlt]
        rfl
      rw [source_eq (by decide), this]
      rfl
    · apply List.map_congr_left
      intro k _
      simp only [Function.comp_apply, Nat.succ_eq_add_one]
      rw [show j + 1 + 1 + k = j + 1 + (k + 1) by omega]

/-- the sets after the first, for a labelled fit: the label just appended is replaced, so the key grows -/
theorem setLoop_label (names : List String) (f : Int) (hf : -1 ≤ f) (hf0 : f ≠ 0) : ∀ (n j : Nat) (g : List String),
    1 ≤ j → j + n = names.length →
    setLoop f (some names) n j g =
      .ok ((List.range n).map fun k => (join (g ++ (names.drop j).take (k + 1)), Spec.data f (j + k)))
  | 0, _, _, _, _ => rfl
  | n + 1, j, g, hj, hn => by
    obtain ⟨j, rfl⟩ : ∃ i, j = i + 1 := ⟨j - 1, by omega⟩
    have hlt : j + 1 < names.length := by omega
    have hl : ∃ a, Spec.label f = [a] := by
      unfold Spec.label
      rw [if_neg hf0]
      split
      · exact ⟨_, rfl⟩
      · exact ⟨_, rfl⟩
    obtain ⟨a, ha⟩ := hl
    have hdrop : names.drop (j + 1) = names[j + 1] :: names.drop (j + 1 + 1) := List.drop_eq_getElem_cons hlt
    unfold setLoop
    rw [labelled_eq hf, ha, named_succ (List.getElem?_eq_getElem hlt)]
    dsimp only
    rw [setLoop_label names f hf hf0 n (j + 1 + 1) _ (by omega) (by omega)]
    dsimp only
    rw [List.range_succ_eq_map, List.map_cons, List.map_map]
    congr 2
    · rw [source_eq hf, hdrop]
      rfl
    · apply List.map_congr_left
      intro k _
      simp only [Function.comp_apply, Nat.succ_eq_add_one]
      rw [show j + 1 + 1 + k = j + 1 + (k + 1) by omega, hdrop, List.take_succ_cons, List.append_assoc, List.singleton_append]

/-- the keys of one fit -/
theorem setLoop_eq (names : List String) (f : Int) (hf : -1 ≤ f) :
    setLoop f (some names) names.length 0 ["results"] =
      .ok ((List.range names.length).map fun j =>
        (join ("results" :: (Spec.label f ++ if f = 0 then [names.getD j ""] else names.take (j + 1))), Spec.data f j)) := by
  cases names with
  | nil => rfl
  | cons n names =>
    rw [List.length_cons]
    unfold setLoop
    rw [labelled_eq hf, named_zero (names := n :: names) (n := n) rfl]
    dsimp only
    by_cases h0 : f = 0
    · subst h0
      rw [setLoop_data (n :: names) names.length (0 + 1) (["results"] ++ Spec.label 0) n (by omega) (by simp; omega)]
      dsimp only
      rw [List.range_succ_eq_map, List.map_cons, List.map_map]
      congr 2
      apply List.map_congr_left
      intro k _
      simp only [Function.comp_apply, Nat.succ_eq_add_one, if_true]
      rw [show 0 + 1 + k = k + 1 by omega]
      rfl
    · rw [setLoop_label (n :: names) f hf h0 names.length (0 + 1) _ (by omega) (by simp; omega)]
      dsimp only
      rw [List.range_succ_eq_map, List.map_cons, List.map_map]
      simp only [if_neg h0]
      congr 2
      · rw [source_eq hf]
        simp
      · apply List.map_congr_left
        intro k _
        simp only [Function.comp_apply, Nat.succ_eq_add_one]
        rw [show 0 + 1 + k = k + 1 by omega]
        simp [List.append_assoc]

theorem setLoop_none (f : Int) (hf : -1 ≤ f) : setLoop f none 1 0 ["results"] = .ok [(Spec.key f [], Spec.data f 0)] := by
  unfold setLoop setLoop
  rw [labelled_eq hf]
  simp only [named]
  rw [source_eq hf]
  simp [Spec.key]

theorem fitLoop_eq {pseudo : Option (List String)} {n : Nat} {g : Int → List (String × Source)} :
    ∀ {fs : List Int}, (∀ f ∈ fs, setLoop f pseudo n 0 ["results"] = .ok (g f)) → fitLoop pseudo n fs = .ok (fs.flatMap g)
  | [], _ => rfl
  | f :: fs, h => by
    unfold fitLoop
    rw [h f List.mem_cons_self]
    dsimp only
    rw [fitLoop_eq fun f hf => h f (List.mem_cons_of_mem _ hf)]
    rfl

/-- all requested fits are known kinds when the requested numbers are at least -1 -/
theorem fitsOf_ge {toys : List Int} (h : ∀ x ∈ toys, -1 ≤ x) : ∀ f ∈ fitsOf toys, -1 ≤ f := by
  intro f hf
  unfold fitsOf at hf
  obtain ⟨x, hx, hf⟩ := List.mem_flatMap.1 hf
  split at hf
  · rw [List.mem_singleton.1 hf]; exact h x hx
  · obtain ⟨k, -, rfl⟩ := List.mem_map.1 hf
    have : (0 : Int) ≤ Int.ofNat k := Int.natCast_nonneg k
    omega

/-- C57.  The requested fits: data and asimov as given, a positive number `n` for the toys one to `n`. -/
theorem c57_fits (toys : List Int) (f : Int) :
    f ∈ fitsOf toys ↔ (f ≤ 0 ∧ f ∈ toys) ∨ ∃ n ∈ toys, 1 ≤ f ∧ f ≤ n := by
  unfold fitsOf
  rw [List.mem_flatMap]
  constructor
  · rintro ⟨x, hx, hf⟩
    split at hf
    · rw [List.mem_singleton.1 hf]; exact .inl ⟨by assumption, hx⟩
    · obtain ⟨k, hk, rfl⟩ := List.mem_map.1 hf
      rw [List.mem_range] at hk
      have : Int.ofNat k = (k : Int) := rfl
      exact .inr ⟨x, hx, by omega, by omega⟩
  · rintro (⟨h0, h⟩ | ⟨n, hn, h1, h2⟩)
    · exact ⟨f, h, by rw [if_pos h0]; exact List.mem_singleton.2 rfl⟩
    · refine ⟨n, hn, ?_⟩
      rw [if_neg (by omega)]
      refine List.mem_map.2 ⟨(f - 1).toNat, List.mem_range.2 (by omega), ?_⟩
      have : Int.ofNat (f - 1).toNat = f - 1 := Int.toNat_of_nonneg (by omega)
      omega

/-- C57, without pseudo-data: every requested fit is stored once, under its own label, with its own data. -/
theorem c57_plain (toys : List Int) (h : ∀ x ∈ toys, -1 ≤ x) :
    results toys none = .ok ((fitsOf toys).map fun f => (Spec.key f [], Spec.data f 0)) := by
  unfold results
  dsimp only
  rw [fitLoop_eq (g := fun f => [(Spec.key f [], Spec.data f 0)]) fun f hf => setLoop_none f (fitsOf_ge h f hf)]
  congr 1
  induction fitsOf toys with
  | nil => rfl
  | cons f fs ih => rw [List.flatMap_cons, List.map_cons, ih]; rfl

/-- C57, with pseudo-data: the entries of a run. -/
theorem results_pseudo (toys : List Int) (h : ∀ x ∈ toys, -1 ≤ x) (names : List String) :
    results toys (some names) = .ok ((fitsOf toys).flatMap fun f => (List.range names.length).map fun j =>
      (join ("results" :: (Spec.label f ++ if f = 0 then [names.getD j ""] else names.take (j + 1))), Spec.data f j)) := by
  unfold results
  dsimp only
  exact fitLoop_eq fun f hf => setLoop_eq names f (fitsOf_ge h f hf)

/-- C57, with pseudo-data, for fits to data and for the first (or only) set of any fit: stored under the label of the fit and
the name of the set (partial: see `c57_accumulated_violated` for the other sets of asimov fits and toys). -/
theorem c57_pseudo_partial (toys : List Int) (h : ∀ x ∈ toys, -1 ≤ x) (names : List String) (l : List (String × Source))
    (hl : results toys (some names) = .ok l) (f : Int) (hf : f ∈ fitsOf toys) (j : Nat) (n : String) (hn : names[j]? = some n)
    (hj : f = 0 ∨ j = 0) : (Spec.key f [n], Spec.data f j) ∈ l := by
  rw [results_pseudo toys h names] at hl
  cases hl
  obtain ⟨hlt, hne⟩ := List.getElem?_eq_some_iff.1 hn
  refine List.mem_flatMap.2 ⟨f, hf, List.mem_map.2 ⟨j, List.mem_range.2 hlt, ?_⟩⟩
  rcases hj with rfl | rfl
  · rw [if_pos rfl, List.getD_eq_getElem?_getD, hn]
    rfl
  · by_cases h0 : f = 0
    · rw [if_pos h0, List.getD_eq_getElem?_getD, hn]
      rfl
    · rw [if_neg h0]
      cases names with
      | nil => simp at hlt
      | cons a names =>
        simp only [List.getElem_cons_zero] at hne
        subst hne
        rfl

/-- C57.  Different combinations get different keys, as long as no fit is requested twice and the names of the pseudo-data
sets are distinct and free of underscores (partial: see the violations below). -/
theorem c57_distinct_partial (toys : List Int) (h : ∀ x ∈ toys, -1 ≤ x) (hnd : (fitsOf toys).Nodup) (pseudo : Option (List String))
    (hp : ∀ names, pseudo = some names → names.Nodup ∧ ∀ n ∈ names, plain n) (l : List (String × Source))
    (hl : results toys pseudo = .ok l) : (l.map (·.1)).Nodup := by
  have hge := fitsOf_ge h
  have hres : plain "results" := by unfold plain; decide
  cases pseudo with
  | none =>
    rw [c57_plain toys h] at hl
    cases hl
    rw [List.map_map]
    refine hnd.map_on fun f hf f' hf' e => ?_
    simp only [Function.comp_apply, Spec.key, List.append_nil] at e
    have := join_inj (by simp) (by simp) (by
      intro s hs
      rcases List.mem_cons.1 hs with rfl | hs
      · exact hres
      · exact plain_label (hge f hf) s hs) (by
      intro s hs
      rcases List.mem_cons.1 hs with rfl | hs
      · exact hres
      · exact plain_label (hge f' hf') s hs) e
    exact label_inj (List.tail_eq_of_cons_eq this)
  | some names =>
    obtain ⟨hn1, hn2⟩ := hp names rfl
    rw [results_pseudo toys h names] at hl
    cases hl
    rw [List.map_flatMap]
    have hpl : ∀ f ∈ fitsOf toys, ∀ j < names.length,
        ∀ s ∈ "results" :: (Spec.label f ++ if f = 0 then [names.getD j ""] else names.take (j + 1)), plain s := by
      intro f hf j hj s hs
      rcases List.mem_cons.1 hs with rfl | hs
      · exact hres
      · rcases List.mem_append.1 hs with hs | hs
        · exact plain_label (hge f hf) s hs
        · split at hs
          · rw [List.mem_singleton.1 hs, List.getD_eq_getElem?_getD, List.getElem?_eq_getElem hj]
            exact hn2 _ (List.getElem_mem hj)
          · exact hn2 s (List.mem_of_mem_take hs)
    refine List.nodup_flatMap.2 ⟨fun f hf => ?_, ?_⟩
    · rw [List.map_map]
      refine List.nodup_range.map_on fun j hj j' hj' e => ?_
      rw [List.mem_range] at hj hj'
      have := join_inj (by simp) (by simp) (hpl f hf j hj) (hpl f hf j' hj') e
      have := List.append_cancel_left (List.tail_eq_of_cons_eq this)
      split at this
      · have e := List.head_eq_of_cons_eq this
        rw [List.getD_eq_getElem?_getD, List.getD_eq_getElem?_getD, List.getElem?_eq_getElem hj, List.getElem?_eq_getElem hj'] at e
        exact (hn1.getElem_inj_iff).1 e
      · have := congrArg List.length this
        rw [List.length_take, List.length_take] at this
        omega
    · refine hnd.imp_of_mem fun {f f'} hf hf' hne => ?_
      intro s hs hs'
      dsimp only at hs hs'
      rw [List.map_map] at hs hs'
      obtain ⟨j, hj, rfl⟩ := List.mem_map.1 hs
      obtain ⟨j', hj', e⟩ := List.mem_map.1 hs'
      rw [List.mem_range] at hj hj'
      have e := join_inj (by simp) (by simp) (hpl f' hf' j' hj') (hpl f hf j hj) e
      have e := List.tail_eq_of_cons_eq e
      have h1 : ∀ g : Int, -1 ≤ g → g ≠ 0 → ∃ a, Spec.label g = [a] := by
        intro g _ hg
        unfold Spec.label
        rw [if_neg hg]
        split
        · exact ⟨_, rfl⟩
        · exact ⟨_, rfl⟩
      have hlen := congrArg List.length e
      by_cases h0 : f = 0
      · have h0' : f' ≠ 0 := fun h => hne (by omega)
        obtain ⟨a, ha⟩ := h1 f' (hge f' hf') h0'
        rw [if_pos h0, if_neg h0', ha, h0, show Spec.label 0 = [] from rfl] at hlen
        simp only [List.length_append, List.length_cons, List.length_nil, List.length_take] at hlen
        omega
      · obtain ⟨a, ha⟩ := h1 f (hge f hf) h0
        by_cases h0' : f' = 0
        · rw [if_neg h0, if_pos h0', ha, h0', show Spec.label 0 = [] from rfl] at hlen
          simp only [List.length_append, List.length_cons, List.length_nil, List.length_take] at hlen
          omega
        · obtain ⟨b, hb⟩ := h1 f' (hge f' hf') h0'
          rw [ha, hb] at e
          have := List.head_eq_of_cons_eq e
          exact hne (label_inj (by rw [ha, hb, this]))

theorem length_join : ∀ l : List String, l ≠ [] → (join l).length + 1 = (l.map fun s => s.length + 1).sum
  | [], h => absurd rfl h
  | [a], _ => by simp [join]
  | a :: b :: l, _ => by
    have h1 := congrArg List.length (join_cons_toList a b l)
    have ih := length_join (b :: l) (by simp)
    rw [List.length_append, List.length_cons, String.length_toList, String.length_toList, String.length_toList] at h1
    rw [List.map_cons, List.sum_cons, ← ih]
    omega

/-- C57 does not hold for asimov fits and toys with several pseudo-data sets: from the second set on, the key carries the
names of all sets before, because the label appended in the loop is what the name replaces. -/
theorem c57_accumulated_violated (f : Int) (hf : -1 ≤ f) (h0 : f ≠ 0) (names : List String) :
    ∃ l, setLoop f (some names) names.length 0 ["results"] = .ok l ∧ ∀ j n, names[j]? = some n →
      ∃ key, l[j]? = some (key, Spec.data f j) ∧ key = join ("results" :: (Spec.label f ++ names.take (j + 1))) ∧
        (1 ≤ j → key ≠ Spec.key f [n]) := by
  refine ⟨_, setLoop_eq names f hf, fun j n hn => ?_⟩
  obtain ⟨hj, hne⟩ := List.getElem?_eq_some_iff.1 hn
  refine ⟨_, ?_, rfl, ?_⟩
  · rw [List.getElem?_map, List.getElem?_range hj, Option.map_some, if_neg h0]
  · intro h1 he
    have e1 := length_join ("results" :: (Spec.label f ++ names.take (j + 1))) (by simp)
    have e2 := length_join ("results" :: (Spec.label f ++ [n])) (by simp)
    rw [he] at e1
    rw [show (Spec.key f [n]) = join ("results" :: (Spec.label f ++ [n])) from rfl] at e1
    rw [e2, List.take_succ_eq_append_getElem hj, hne] at e1
    simp only [List.map_cons, List.map_append, List.sum_cons, List.sum_append, List.map_nil, List.sum_nil] at e1
    have e3 : ((names.take j).map fun s => s.length + 1).sum = 0 := by omega
    cases hnm : names with
    | nil => rw [hnm] at hj; simp at hj
    | cons a rest =>
      obtain ⟨j, rfl⟩ : ∃ i, j = i + 1 := ⟨j - 1, by omega⟩
      rw [hnm] at e3
      simp at e3

-- two sets, asimov
example : results [-1] (some ["a", "b"]) = .ok [("results_asimov_a", .asimov), ("results_asimov_a_b", .asimov)] := by decide +kernel
example : results [2] (some ["a", "b"]) = .ok [("results_toy1_a", .toy 1 0), ("results_toy1_a_b", .toy 1 1),
    ("results_toy2_a", .toy 2 0), ("results_toy2_a_b", .toy 2 1)] := by decide +kernel
-- data
example : results [0] (some ["a", "b"]) = .ok [("results_a", .data 0), ("results_b", .data 1)] := by decide +kernel
example : results [-1, 0, 2] none = .ok [("results_asimov", .asimov), ("results", .data 0), ("results_toy1", .toy 1 0),
    ("results_toy2", .toy 2 0)] := by decide +kernel

/-- C57 does not hold for toys requested in two numbers: toy one is stored twice under the same key. -/
theorem c57_repeated_violated :
    results [1, 2] none = .ok [("results_toy1", .toy 1 0), ("results_toy1", .toy 1 0), ("results_toy2", .toy 2 0)] := by
  decide +kernel

/-- C57 does not hold for a name with an underscore: the fit to one set and the asimov fit of another share their key. -/
theorem c57_underscore_violated :
    results [0, -1] (some ["p", "asimov_p"]) = .ok [("results_p", .data 0), ("results_asimov_p", .data 1),
      ("results_asimov_p", .asimov), ("results_asimov_p_asimov_p", .asimov)] := by
  decide +kernel

/-- C57 does not hold for numbers below -1, which the parser accepts: nothing is assigned, the fit goes to the data of the
fit before and is stored under the key of the data. -/
theorem c57_negative_violated :
    results [0, -2] none = .ok [("results", .data 0), ("results", .unchanged)] := by
  decide +kernel

end Verif.Driver
