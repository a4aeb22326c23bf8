import Verif.Props.Workspace
import Verif.Props.Ratio

/-
C53: composition of mappings (rabbit/mappings/mapping.py:85-139).

Specification: the output is the concatenation of what the components give by themselves, each on the predictions it asks
for (per process or summed), and the histogram of every channel of every component is the one that the component by itself
would get.
-/

namespace Verif.Workspace

open Verif.ABCD Verif.Grid Verif.Mappings

variable {V : Type}

section flat

variable [AddMonoid V]

theorem concat_ok {α : Type} {l : List (List α)} (h : l ≠ []) : concat (.ok l) = .ok l.flatten := by
  cases l with
  | nil => exact absurd rfl h
  | cons a l => rfl

/-- the loop when no component needs the sum -/
theorem go_plain (need : Bool) (ms : List (Mp V)) (obs : Tensor V) (h : ∀ m ∈ ms, (need && !m.needProcesses) = false)
    (outs : List (List V)) :
    compFlatGo need ms obs = .ok outs ↔ List.Forall₂ (fun (m : Mp V) o => m.flat obs = .ok o) ms outs := by
  induction ms generalizing outs with
  | nil =>
    constructor
    · intro h; cases h; exact .nil
    · intro h; cases h; rfl
  | cons m ms ih =>
    have ih := ih fun m' hm' => h m' (List.mem_cons_of_mem _ hm')
    unfold compFlatGo
    rw [h m List.mem_cons_self]
    simp only [Bool.false_eq_true, if_false]
    cases hf : m.flat obs with
    | error e =>
      constructor
      · intro h; exact nomatch h
      · intro h; cases h with | cons h1 _ => rw [hf] at h1; exact nomatch h1
    | ok r =>
      dsimp only
      cases hg : compFlatGo need ms obs with
      | error e =>
        constructor
        · intro h; exact nomatch h
        · intro h
          cases h with
          | cons h1 h2 => rw [(ih _).2 h2] at hg; exact nomatch hg
      | ok rs =>
        dsimp only
        constructor
        · intro h
          cases h
          exact .cons hf ((ih _).1 hg)
        · intro h
          cases h with
          | cons h1 h2 =>
            rw [(ih _).2 h2] at hg
            rw [hf] at h1
            cases hg
            cases h1
            rfl

theorem concat_iff {α : Type} (r : Res (List (List α))) (out : List α) :
    concat r = .ok out ↔ ∃ l, r = .ok l ∧ l ≠ [] ∧ out = l.flatten := by
  cases r with
  | error e => exact ⟨fun h => (nomatch h), fun ⟨_, h, _⟩ => (nomatch h)⟩
  | ok l =>
    cases l with
    | nil =>
      constructor
      · intro h; exact nomatch h
      · rintro ⟨l, h, h', -⟩; cases h; exact absurd rfl h'
    | cons a l =>
      constructor
      · intro h; cases h; exact ⟨_, rfl, by simp, rfl⟩
      · rintro ⟨l', h, -, rfl⟩; cases h; rfl

/-- C53.  When either no component or every component needs the predictions per process, the composite gives a result
exactly when every component does, and it is the concatenation in the order of the components. -/
theorem c53_concat (ms : List (Mp V)) (hne : ms ≠ [])
    (h : (∀ m ∈ ms, m.needProcesses = false) ∨ ∀ m ∈ ms, m.needProcesses = true) (obs : Tensor V) (out : List V) :
    (composite ms).flat obs = .ok out ↔
      ∃ outs, List.Forall₂ (fun (m : Mp V) o => m.flat obs = .ok o) ms outs ∧ out = outs.flatten := by
  show concat (compFlatGo (ms.any (·.needProcesses)) ms obs) = .ok out ↔ _
  have hp : ∀ m ∈ ms, (ms.any (·.needProcesses) && !m.needProcesses) = false := by
    rcases h with h | h
    · have : ms.any (·.needProcesses) = false := by rw [List.any_eq_false]; intro m hm; simp [h m hm]
      rw [this]; simp
    · intro m hm; simp [h m hm]
  rw [concat_iff]
  constructor
  · rintro ⟨l, h1, -, h3⟩; exact ⟨l, (go_plain _ ms obs hp l).1 h1, h3⟩
  · rintro ⟨l, h1, h2⟩
    refine ⟨l, (go_plain _ ms obs hp l).2 h1, ?_, h2⟩
    rintro rfl
    cases h1
    exact hne rfl

/-- C53, per process: the rows of the composite are those of the components, one after the other. -/
theorem c53_per_process (ms : List (Mp V)) (hne : ms ≠ []) (obs : Tensor V) (out : List (List V)) :
    (composite ms).perProcess obs = .ok out ↔
      ∃ outs, List.Forall₂ (fun (m : Mp V) o => m.perProcess obs = .ok o) ms outs ∧ out = outs.flatten := by
  show concat (compProcGo ms obs) = .ok out ↔ _
  have hp : ∀ (ms : List (Mp V)) (l : List (List (List V))), compProcGo ms obs = .ok l ↔
      List.Forall₂ (fun (m : Mp V) o => m.perProcess obs = .ok o) ms l := by
    intro ms
    induction ms with
    | nil =>
      intro l
      constructor
      · intro h; cases h; exact .nil
      · intro h; cases h; rfl
    | cons m ms ih =>
      intro l
      unfold compProcGo
      cases hf : m.perProcess obs with
      | error e =>
        constructor
        · intro h; exact nomatch h
        · intro h; cases h with | cons h1 _ => rw [hf] at h1; exact nomatch h1
      | ok r =>
        dsimp only
        cases hg : compProcGo ms obs with
        | error e =>
          constructor
          · intro h; exact nomatch h
          · intro h
            cases h with
            | cons h1 h2 => rw [(ih _).2 h2] at hg; exact nomatch hg
        | ok rs =>
          dsimp only
          constructor
          · intro h
            cases h
            exact .cons hf ((ih _).1 hg)
          · intro h
            cases h with
            | cons h1 h2 =>
              rw [(ih _).2 h2] at hg
              rw [hf] at h1
              cases hg
              cases h1
              rfl
  rw [concat_iff]
  constructor
  · rintro ⟨l, h1, -, h3⟩; exact ⟨l, (hp ms l).1 h1, h3⟩
  · rintro ⟨l, h1, h2⟩
    refine ⟨l, (hp ms l).2 h1, ?_, h2⟩
    rintro rfl
    cases h1
    exact hne rfl

/-- C53, mixed components: the components that need the predictions per process get them and the LAST component, which does
not, gets the sums over the processes.  Missing: a component that does not need them before another component (see
`c53_order_violated`, `c53_two_violated`). -/
theorem c53_mixed_partial (ms : List (Mp V)) (b : Mp V) (hms : ms ≠ []) (h : ∀ m ∈ ms, m.needProcesses = true)
    (hb : b.needProcesses = false) (obs : Tensor V) (hobs : obs.shape.length = 2) (out : List V) :
    (composite (ms ++ [b])).flat obs = .ok out ↔
      ∃ outs o, List.Forall₂ (fun (m : Mp V) o => m.flat obs = .ok o) ms outs ∧ b.flat (obs.reduceSum [1]) = .ok o ∧
        out = outs.flatten ++ o := by
  have hany : (ms ++ [b]).any (·.needProcesses) = true := by
    cases ms with
    | nil => exact absurd rfl hms
    | cons m ms => simp [h m List.mem_cons_self]
  show concat (compFlatGo ((ms ++ [b]).any (·.needProcesses)) (ms ++ [b]) obs) = .ok out ↔ _
  rw [hany]
  clear hany hms
  have key : ∀ (ms : List (Mp V)), (∀ m ∈ ms, m.needProcesses = true) → ∀ l, compFlatGo true (ms ++ [b]) obs = .ok l ↔
      ∃ outs o, List.Forall₂ (fun (m : Mp V) o => m.flat obs = .ok o) ms outs ∧ b.flat (obs.reduceSum [1]) = .ok o ∧ l = outs ++ [o] := by
    intro ms hms
    induction ms with
    | nil =>
      intro l
      rw [List.nil_append]
      unfold compFlatGo
      simp only [hb, Bool.not_false, Bool.and_true, if_true]
      unfold sumProcs
      rw [if_neg (by omega)]
      dsimp only
      cases hf : b.flat (obs.reduceSum [1]) with
      | error e =>
        constructor
        · intro h; exact nomatch h
        · rintro ⟨_, _, -, h, -⟩; exact nomatch h
      | ok r =>
        simp only [compFlatGo]
        constructor
        · intro h; cases h; exact ⟨[], r, .nil, rfl, rfl⟩
        · rintro ⟨_, _, h1, h2, rfl⟩; cases h1; cases h2; rfl
    | cons m ms ih =>
      intro l
      have ih := ih fun m' hm' => hms m' (List.mem_cons_of_mem _ hm')
      rw [List.cons_append]
      unfold compFlatGo
      simp only [hms m List.mem_cons_self, Bool.not_true, Bool.and_false, Bool.false_eq_true, if_false]
      cases hf : m.flat obs with
      | error e =>
        constructor
        · intro h; exact nomatch h
        · rintro ⟨_, _, h, -⟩; cases h with | cons h1 _ => rw [hf] at h1; exact nomatch h1
      | ok r =>
        dsimp only
        cases hg : compFlatGo true (ms ++ [b]) obs with
        | error e =>
          constructor
          · intro h; exact nomatch h
          · rintro ⟨_, o, h, h', rfl⟩
            cases h with
            | cons h1 h2 => rw [(ih _).2 ⟨_, o, h2, h', rfl⟩] at hg; exact nomatch hg
        | ok rs =>
          dsimp only
          constructor
          · intro h
            cases h
            obtain ⟨outs, o, h1, h2, rfl⟩ := (ih _).1 hg
            exact ⟨r :: outs, o, .cons hf h1, h2, rfl⟩
          · rintro ⟨_, o, h, h', rfl⟩
            cases h with
            | cons h1 h2 =>
              rw [(ih _).2 ⟨_, o, h2, h', rfl⟩] at hg
              rw [hf] at h1
              cases hg
              cases h1
              rfl
  rw [concat_iff]
  constructor
  · rintro ⟨l, h1, -, h3⟩
    obtain ⟨outs, o, h4, h5, rfl⟩ := (key ms h l).1 h1
    exact ⟨outs, o, h4, h5, by rw [h3]; simp⟩
  · rintro ⟨outs, o, h1, h2, h3⟩
    exact ⟨_, (key ms h _).2 ⟨outs, o, h1, h2, rfl⟩, by simp, by rw [h3]; simp⟩

end flat

/-! ## channels -/

/-- the channels of the composite with distinct names: those of the components, in order -/
def Spec.allInfo (ms : List (Mp V)) : Dict String (ChInfo V) :=
  ms.flatMap fun m => m.info.map fun kc => (m.key ++ " " ++ kc.1, kc.2)

theorem foldl_set_append {d e : Dict String (ChInfo V)} (hn : (Dict.keys (d ++ e)).Nodup) :
    e.foldl (fun d kc => Dict.set d kc.1 kc.2) d = d ++ e := by
  induction e generalizing d with
  | nil => simp
  | cons kv e ih =>
    rw [List.foldl_cons]
    have hnot : kv.1 ∉ Dict.keys d := by
      simp only [Dict.keys, List.map_append, List.map_cons, List.nodup_append] at hn
      intro hm
      exact hn.2.2 _ hm _ List.mem_cons_self rfl
    rw [Dict.set_of_not_mem _ _ _ hnot, ih (by simpa using hn)]
    simp

theorem composite_info [AddMonoid V] (ms : List (Mp V)) (hn : (Dict.keys (Spec.allInfo ms)).Nodup) :
    (composite ms).info = Spec.allInfo ms := by
  have key : ∀ (ms : List (Mp V)) (d : Dict String (ChInfo V)), (Dict.keys (d ++ Spec.allInfo ms)).Nodup →
      ms.foldl addInfo d = d ++ Spec.allInfo ms := by
    intro ms
    induction ms with
    | nil => intro d _; simp [Spec.allInfo]
    | cons m ms ih =>
      intro d hd
      rw [List.foldl_cons]
      have hcons : Spec.allInfo (m :: ms) = (m.info.map fun kc => (m.key ++ " " ++ kc.1, kc.2)) ++ Spec.allInfo ms := rfl
      rw [hcons, ← List.append_assoc] at hd
      have : addInfo d m = d ++ m.info.map fun kc => (m.key ++ " " ++ kc.1, kc.2) := by
        have hd' : (Dict.keys (d ++ m.info.map fun kc => (m.key ++ " " ++ kc.1, kc.2))).Nodup :=
          hd.sublist ((List.sublist_append_left _ _).map _)
        rw [← foldl_set_append hd', List.foldl_map]
        rfl
      rw [this, ih _ hd, hcons, List.append_assoc]
  have := key ms [] (by simpa using hn)
  simpa [composite] using this

theorem cut_append {α : Type} (a b : List Nat) (l r : List α) (h : l.length = a.sum) :
    Spec.cut (a ++ b) (l ++ r) = Spec.cut a l ++ Spec.cut b r := by
  induction a generalizing l with
  | nil =>
    have : l = [] := List.length_eq_zero_iff.1 (by simpa using h)
    subst this
    rfl
  | cons n a ih =>
    rw [List.sum_cons] at h
    rw [List.cons_append, Spec.cut, Spec.cut, List.cons_append, List.take_append_of_le_length (by omega),
      List.drop_append_of_le_length (by omega), ih _ (by rw [List.length_drop]; omega)]

/-- C53.  Channel ranges: whatever the components give (`outs`), as long as each has as many entries as its channels have
bins and all composite channel names differ, the composite's vector is stored such that every channel of every component
has exactly the histogram that the component by itself would store. -/
theorem c53_ranges {α : Type} [AddMonoid V] (ms : List (Mp V)) (hn : (Dict.keys (Spec.allInfo ms)).Nodup) (name : String) (outs : List (List α))
    (hl : List.Forall₂ (fun (m : Mp V) (o : List α) => o.length = (m.info.map fun kc => Spec.width kc.2).sum) ms outs) :
    ∃ st, addExpected (composite ms) name outs.flatten [] = .ok st ∧
      ∀ (k : Nat) (m : Mp V) (o : List α), ms[k]? = some m → outs[k]? = some o →
        ∃ st', addExpected m name o [] = .ok st' ∧ ∀ ch ∈ Dict.keys m.info,
          (Dict.get? st' (m.key, ch, name)).isSome ∧
          Dict.get? st ("CompositeMapping", m.key ++ " " ++ ch, name) = Dict.get? st' (m.key, ch, name) := by
  have hinfo := composite_info ms hn
  have hw : ∀ m : Mp V, (m.info.map fun kc => ((m.key ++ " " ++ kc.1, kc.2) : String × ChInfo V)).map (fun kc => Spec.width kc.2) =
      m.info.map fun kc => Spec.width kc.2 := by
    intro m; rw [List.map_map]; rfl
  have hsum : outs.flatten.length = ((Spec.allInfo ms).map fun kc => Spec.width kc.2).sum := by
    clear hn hinfo
    induction hl with
    | nil => rfl
    | @cons m o ms outs h _ ih =>
      have hcons : Spec.allInfo (m :: ms) = (m.info.map fun kc => (m.key ++ " " ++ kc.1, kc.2)) ++ Spec.allInfo ms := rfl
      rw [hcons, List.flatten_cons, List.length_append, List.map_append, List.sum_append, ← ih, h, hw]
  have hcut : ∀ (k : Nat) (m : Mp V) (o : List α), ms[k]? = some m → outs[k]? = some o →
      ∀ (j : Nat) (kc : String × ChInfo V) (v : List α), m.info[j]? = some kc →
        (Spec.cut (m.info.map fun kc => Spec.width kc.2) o)[j]? = some v →
        ∃ K : Nat, (Spec.allInfo ms)[K]? = some (m.key ++ " " ++ kc.1, kc.2) ∧
          (Spec.cut ((Spec.allInfo ms).map fun kc => Spec.width kc.2) outs.flatten)[K]? = some v := by
    clear hn hinfo hsum
    induction hl with
    | nil => intro k m o h; simp at h
    | @cons m0 o0 ms outs h _ ih =>
      intro k m o hm ho j kc v hj hv
      have hcons : Spec.allInfo (m0 :: ms) = (m0.info.map fun kc => (m0.key ++ " " ++ kc.1, kc.2)) ++ Spec.allInfo ms := rfl
      have hc2 : Spec.cut ((Spec.allInfo (m0 :: ms)).map fun kc => Spec.width kc.2) (o0 :: outs).flatten =
          Spec.cut (m0.info.map fun kc => Spec.width kc.2) o0 ++
            Spec.cut ((Spec.allInfo ms).map fun kc => Spec.width kc.2) outs.flatten := by
        rw [hcons, List.map_append, hw, List.flatten_cons, cut_append _ _ _ _ h]
      have hlc : (Spec.cut (m0.info.map fun kc => Spec.width kc.2) o0).length = m0.info.length := by
        have := congrArg List.length (c54_cut _ o0 h).2
        simpa using this
      rw [hc2, hcons]
      cases k with
      | zero =>
        simp only [List.getElem?_cons_zero, Option.some.injEq] at hm ho
        subst hm ho
        have hjl : j < m0.info.length := (List.getElem?_eq_some_iff.1 hj).1
        refine ⟨j, ?_, ?_⟩
        · rw [List.getElem?_append_left (by simpa using hjl), List.getElem?_map, hj]; rfl
        · rw [List.getElem?_append_left (by rw [hlc]; exact hjl), hv]
      | succ k =>
        rw [List.getElem?_cons_succ] at hm ho
        obtain ⟨K, h1, h2⟩ := ih k m o hm ho j kc v hj hv
        refine ⟨m0.info.length + K, ?_, ?_⟩
        · rw [List.getElem?_append_right (by simp)]
          simpa using h1
        · rw [List.getElem?_append_right (by rw [hlc]; omega), hlc]
          simpa using h2
  obtain ⟨st, h1, h2, -⟩ := c54_expected (composite ms) (by rw [hinfo]; exact hn) name outs.flatten [] (by rw [hinfo]; exact hsum)
  refine ⟨st, h1, ?_⟩
  intro k m o hm ho
  have hmem : m ∈ ms := List.mem_of_getElem? hm
  have hkm : (Dict.keys m.info).Nodup := by
    have hsub : (m.info.map fun kc => ((m.key ++ " " ++ kc.1, kc.2) : String × ChInfo V)).Sublist (Spec.allInfo ms) := by
      unfold Spec.allInfo
      rw [List.flatMap_def]
      exact List.sublist_flatten_of_mem (List.mem_map_of_mem (f := fun m : Mp V => m.info.map fun kc => (m.key ++ " " ++ kc.1, kc.2)) hmem)
    have := hn.sublist (hsub.map Prod.fst)
    rw [List.map_map] at this
    unfold Dict.keys
    have h' : m.info.map (Prod.fst ∘ fun kc => ((m.key ++ " " ++ kc.1, kc.2) : String × ChInfo V)) =
        (m.info.map Prod.fst).map fun k => m.key ++ " " ++ k := by rw [List.map_map]; rfl
    rw [h'] at this
    exact List.Nodup.of_map _ this
  have hlo : o.length = (m.info.map fun kc => Spec.width kc.2).sum := by
    have := List.forall₂_iff_get.1 hl
    obtain ⟨hk1, rfl⟩ := List.getElem?_eq_some_iff.1 hm
    obtain ⟨hk2, rfl⟩ := List.getElem?_eq_some_iff.1 ho
    exact this.2 k hk1 hk2
  obtain ⟨st', k1, k2, -⟩ := c54_expected m hkm name o [] hlo
  refine ⟨st', k1, fun ch hch => ?_⟩
  obtain ⟨kc, hkc, rfl⟩ := List.mem_map.1 hch
  obtain ⟨j, hj, hjk⟩ := List.mem_iff_getElem.1 hkc
  have hj' : m.info[j]? = some (kc.1, kc.2) := by rw [List.getElem?_eq_getElem hj, hjk]
  obtain ⟨v, hv, hv'⟩ := k2 j kc.1 kc.2 hj'
  obtain ⟨K, hK, hKv⟩ := hcut k m o hm ho j (kc.1, kc.2) v hj' hv
  obtain ⟨w, hw1, hw2⟩ := h2 K _ _ (by rw [hinfo]; exact hK)
  rw [hinfo, hKv] at hw1
  cases hw1
  rw [hv']
  exact ⟨rfl, hw2⟩

/-! ## examples and deviations -/

namespace Ex53

open Verif.Mappings.Ex51

/-- bins of y of process b -/
def sel : Mp ℚ :=
  match chanMappingInit inp "ch" [] { sum := ["x"] } with
  | .ok m => ofSelect ["x:sum"] m
  | .error _ => { key := "", info := [], flat := fun _ => .error .runtime, perProcess := fun _ => .error .runtime }

/-- process b over process a -/
def rat : Mp ℚ :=
  match ratioInit inp "ch" "ch" ["b"] ["a"] { sum := ["x"] } { sum := ["x"] } with
  | .ok m => ofRatio "Ratio ch ch b a" m
  | .error _ => { key := "", info := [], flat := fun _ => .error .runtime, perProcess := fun _ => .error .runtime }

example : ((composite [sel, sel]).flat obs).toOption = some [11, 22, 33, 44, 11, 22, 33, 44] := by decide +kernel
example : ((composite [rat, sel]).flat obs2).toOption = some [10, 10, 10, 10, 121, 242, 363, 484] := by decide +kernel

/-- the hypotheses of `c53_mixed_partial` and `c53_ranges` are met -/
example : (rat.needProcesses = true ∧ sel.needProcesses = false ∧ obs2.shape.length = 2) ∧
    (Dict.keys (Spec.allInfo [rat, sel])).Nodup ∧
    [10, 10, 10, 10].length = (rat.info.map fun kc => Spec.width kc.2).sum ∧
    [121, 242, 363, 484].length = (sel.info.map fun kc => Spec.width kc.2).sum := by
  decide +kernel

end Ex53

/-- C53 does not hold when a component that does not need the predictions per process comes before one that does: the
second one silently gets the summed predictions, so the ratio of process `b` (ten times process `a`) to process `a`
becomes one. -/
theorem c53_order_violated :
    ((composite [Ex53.rat, Ex53.sel]).flat Ex51.obs2).toOption = some [10, 10, 10, 10, 121, 242, 363, 484] ∧
      ((composite [Ex53.sel, Ex53.rat]).flat Ex51.obs2).toOption = some [121, 242, 363, 484, 1, 1, 1, 1] := by
  constructor <;> decide +kernel

/-- C53 does not hold with two components that do not need the predictions per process beside one that does: the sum over
the processes is taken twice and raises. -/
theorem c53_two_violated :
    ((composite [Ex53.rat, Ex53.sel, Ex53.sel]).flat Ex51.obs2) = .error .value := by
  rfl

/-- C53 does not hold when one mapping is asked for twice: its channel appears once while its output appears twice, so the
next mapping's histogram receives the repeated output. -/
theorem c53_duplicate_violated :
    let mp (k : String) (v : ℚ) : Mp ℚ := ⟨k, [("ch", ⟨[⟨"x", 2, 2, [], []⟩], false, false⟩)], 0, true, false, false,
      fun _ => .ok [v, v + 1], fun _ => .error .notImpl⟩
    let c := composite [mp "A" 1, mp "A" 1, mp "B" 7]
    (c.flat Ex51.obs).toOption = some [1, 2, 1, 2, 7, 8] ∧
      (addExpected c "exp" [1, 2, 1, 2, 7, 8] []).toOption =
        some [(("CompositeMapping", "A ch", "exp"), ⟨[2], [1, 2]⟩), (("CompositeMapping", "B ch", "exp"), ⟨[2], [1, 2]⟩)] := by
  constructor <;> decide +kernel

end Verif.Workspace
