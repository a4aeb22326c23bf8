import Verif.Lemmas.Bookings
import Verif.Props.WriterTemplates

/-!
C05 (constraint flags) and C06 (groups and parameters of interest).
-/

namespace Verif.Writer

open Verif.Logk M

set_option linter.unusedSectionVars false

variable {V : Type} [Field V] [LinearOrder V]

/-! ### Specification -/

/-- the nuisances a call asks for: the given name, or two nuisances for the linear and quadratic symmetrisation of an
up/down pair -/
def Spec.asks : Op V → List Booking
  | .syst (.single _) name _ _ _ _ _ toCov _ o => [⟨name, toCov, o⟩]
  | .syst (.pair _ _) name _ _ _ _ symm toCov _ o =>
    if symm = .linear ∨ symm = .quadratic then [⟨name ++ "SymDiff", toCov, o⟩, ⟨name ++ "SymAvg", toCov, o⟩]
    else [⟨name, toCov, o⟩]
  | .normSyst name _ _ _ toCov _ o => [⟨name, toCov, o⟩]
  | _ => []

/-- some call of the history asks for this booking -/
def Spec.asked (ops : List (Op V)) (b : Booking) : Prop := ∃ op ∈ ops, b ∈ Spec.asks op

/-- some accepted call of the history asks for this booking -/
def Spec.booked (cfg : Cfg V) (s : State V) (ops : List (Op V)) (b : Booking) : Prop :=
  ∃ l op r, ops = l ++ op :: r ∧ b ∈ Spec.asks op ∧ (step cfg op (runOps cfg s l)).2 = .ok ()

/-- no nuisance is asked for both with and without constraint -/
def Spec.consistent (ops : List (Op V)) : Prop :=
  ∀ b b', Spec.asked ops b → Spec.asked ops b' → b.name = b'.name → b.toCov = false → b'.toCov = false →
    b.o.constrained = b'.o.constrained

/-! ### Bookings of a history -/

theorem books_step (cfg : Cfg V) (op : Op V) : Books (fun b => b ∈ Spec.asks op) (Spec.asks op) (step cfg op) := by
  have k : ∀ {m : M V Unit}, Keeps bk m → Books (fun b => b ∈ Spec.asks op) [] m := fun h => .of_keeps h
  cases op with
  | dataCov c => exact k ⟨fun _ => rfl⟩
  | pseudo h name c => exact k (keeps_addPseudo _ (fun _ _ _ => rfl) ..)
  | data h c vars => exact k (keeps_addData _ (fun _ _ _ => rfl) ..)
  | channel a n m f => exact k (keeps_addChannel _ (fun _ _ _ _ _ _ _ => rfl) ..)
  | process h name c sig vars => exact k (keeps_addProcess _ (fun _ _ _ _ _ _ _ => rfl) ..)
  | write it => exact k (Keeps.bind (keeps_write _ (fun _ _ => rfl) ..) fun _ => Keeps.pure _)
  | normSyst name procs c u t sy o => exact books_addNormSystematic cfg _ _ _ _ _ _ _ (by simp [Spec.asks])
  | syst x name proc c kf m sy t d o =>
    have heq : (systNames x sy name).map (fun n => (⟨n, t, o⟩ : Booking)) = Spec.asks (.syst x name proc c kf m sy t d o) := by
      cases x <;> cases sy <;> simp [systNames, asymNames, avgName, Spec.asks]
    rw [← heq]
    exact books_addSystematic cfg _ _ _ _ _ _ _ _ _ _ fun n hn => List.mem_map.2 ⟨n, hn, rfl⟩

theorem books_run (cfg : Cfg V) (ops : List (Op V)) : ∀ s : State V, ∃ bs : List Booking,
    bk (runOps cfg s ops) = bs.foldl bookB (bk s) ∧
    (∀ b ∈ bs, Spec.asked ops b ∧ (b.toCov && b.o.noi) = false) ∧ ∀ b, Spec.booked cfg s ops b → b ∈ bs := by
  induction ops with
  | nil =>
    intro s
    refine ⟨[], rfl, by simp, ?_⟩
    rintro b ⟨l, op, r, h, _⟩
    simp at h
  | cons op ops ih =>
    intro s
    obtain ⟨bs, h1, h2, h3⟩ := (books_step cfg op).run s
    obtain ⟨bs', h4, h5, h6⟩ := ih (step cfg op s).1
    refine ⟨bs ++ bs', by rw [List.foldl_append, ← h1]; exact h4, fun b hb => ?_, ?_⟩
    · rcases List.mem_append.1 hb with hb | hb
      · exact ⟨⟨op, by simp, (h2 b hb).1⟩, (h2 b hb).2⟩
      · obtain ⟨⟨op', ho, hb'⟩, hn⟩ := h5 b hb
        exact ⟨⟨op', by simp [ho], hb'⟩, hn⟩
    · rintro b ⟨l, op', r, he, hb, hok⟩
      rw [List.mem_append]
      cases l with
      | nil =>
        simp only [List.nil_append, List.cons.injEq] at he
        obtain ⟨rfl, rfl⟩ := he
        exact .inl (h3 () hok b hb)
      | cons x l =>
        simp only [List.cons_append, List.cons.injEq] at he
        obtain ⟨rfl, rfl⟩ := he
        exact .inr (h6 b ⟨l, op', r, rfl, hb, hok⟩)

theorem bkSpec_run (cfg : Cfg V) (ops : List (Op V)) : ∃ bs : List Booking, BkSpec bs (bk (run cfg ops)) ∧
    (∀ b ∈ bs, Spec.asked ops b ∧ (b.toCov && b.o.noi) = false) ∧ ∀ b, Spec.booked cfg {} ops b → b ∈ bs := by
  obtain ⟨bs, h1, h2, h3⟩ := books_run cfg ops ({} : State V)
  refine ⟨bs, ?_, h2, h3⟩
  have := bkSpec_foldl bs bkSpec_nil
  rw [List.nil_append] at this
  show BkSpec bs (bk (runOps cfg {} ops))
  rw [h1]
  exact this

/-! ### Index lookups -/

theorem foldl_set_get (es : List (String × Nat)) : ∀ (d : Dict String Nat) (n : String),
    (∀ i, (es.foldl (fun d e => Dict.set d e.1 e.2) d).get? n = some i → (n, i) ∈ es ∨ d.get? n = some i) ∧
    ((∃ i, (n, i) ∈ es) ∨ (d.get? n).isSome = true → ((es.foldl (fun d e => Dict.set d e.1 e.2) d).get? n).isSome = true) := by
  induction es with
  | nil => intro d n; exact ⟨fun i h => .inr h, by simp⟩
  | cons e es ih =>
    intro d n
    obtain ⟨h1, h2⟩ := ih (Dict.set d e.1 e.2) n
    rw [List.foldl_cons]
    constructor
    · intro i h
      rcases h1 i h with h | h
      · exact .inl (by simp [h])
      · rw [Dict.get?_set] at h
        split at h
        · rename_i he
          cases h
          subst he
          exact .inl (by simp)
        · exact .inr h
    · intro h
      apply h2
      rw [Dict.get?_set]
      rcases h with ⟨i, h⟩ | h
      · rcases List.mem_cons.1 h with rfl | h
        · exact .inr (by simp)
        · exact .inl ⟨i, h⟩
      · right; split
        · rfl
        · exact h

theorem systToIdx_some {systs : List String} {n : String} {i : Nat} (h : (systToIdx systs).get? n = some i) :
    systs[i]? = some n := by
  rcases (foldl_set_get systs.zipIdx [] n).1 i h with h | h
  · rw [List.mk_mem_zipIdx_iff_getElem?] at h; exact h
  · cases h

theorem systToIdx_isSome {systs : List String} {n : String} (h : n ∈ systs) :
    ∃ i, (systToIdx systs).get? n = some i ∧ systs[i]? = some n := by
  obtain ⟨i, hi⟩ := List.mem_iff_getElem?.1 h
  have := (foldl_set_get systs.zipIdx [] n).2 (.inl ⟨i, by rw [List.mk_mem_zipIdx_iff_getElem?]; exact hi⟩)
  obtain ⟨j, hj⟩ := Option.isSome_iff_exists.1 this
  exact ⟨j, hj, systToIdx_some hj⟩

theorem naturalSort_perm (l : List String) : (naturalSort l).Perm l := pySort_perm _

theorem naturalSortDict_mem {ν : Type} {d : Dict String ν} (k : String) (v : ν) :
    (k, v) ∈ naturalSortDict d ↔ d.get? k = some v := by
  unfold naturalSortDict
  rw [List.mem_filterMap]
  constructor
  · rintro ⟨a, _, h⟩
    rw [Option.map_eq_some_iff] at h
    obtain ⟨w, hw, he⟩ := h
    cases he; exact hw
  · intro h
    refine ⟨k, ?_, by rw [h]; rfl⟩
    rw [(naturalSort_perm _).mem_iff, Dict.mem_keys_iff]
    exact ⟨v, h⟩

theorem naturalSortDict_keys {ν : Type} {d : Dict String ν} (h : (Dict.keys d).Nodup) :
    ((naturalSortDict d).map Prod.fst).Nodup := by
  have : (naturalSortDict d).map Prod.fst = naturalSort (Dict.keys d) := by
    unfold naturalSortDict
    have hall : ∀ k ∈ naturalSort (Dict.keys d), ∃ v, d.get? k = some v := by
      intro k hk
      rw [(naturalSort_perm _).mem_iff, Dict.mem_keys_iff] at hk
      exact hk
    generalize naturalSort (Dict.keys d) = l at hall
    induction l with
    | nil => rfl
    | cons k l ih =>
      obtain ⟨v, hv⟩ := hall k (by simp)
      rw [List.filterMap_cons, hv]
      simp only [Option.map_some, List.map_cons]
      rw [ih fun k hk => hall k (by simp [hk])]
  rw [this, (naturalSort_perm _).nodup_iff]
  exact h

theorem indicesOf_ok {systs members : List String} {idx : List Nat} (h : indicesOf systs members = .ok idx) :
    idx.map (fun i => systs[i]?) = members.map some := by
  unfold indicesOf at h
  induction members generalizing idx with
  | nil => cases h; rfl
  | cons m ms ih =>
    rw [List.mapM_cons] at h
    simp only [bind, Except.bind, pure, Except.pure] at h
    unfold Dict.get at h
    cases hm : (systToIdx systs).get? m with
    | none => rw [hm] at h; cases h
    | some i =>
      rw [hm] at h
      dsimp only at h
      split at h
      · cases h
      · rename_i is his
        cases h
        rw [List.map_cons, List.map_cons, ih his, systToIdx_some hm]

theorem indicesOf_isOk {systs members : List String} (h : ∀ m ∈ members, m ∈ systs) :
    ∃ idx, indicesOf systs members = .ok idx := by
  unfold indicesOf
  induction members with
  | nil => exact ⟨[], rfl⟩
  | cons m ms ih =>
    obtain ⟨is, his⟩ := ih fun m hm => h m (by simp [hm])
    obtain ⟨i, hi, _⟩ := systToIdx_isSome (h m (by simp))
    refine ⟨i :: is, ?_⟩
    rw [List.mapM_cons]
    unfold Dict.get at his ⊢
    rw [hi]
    simp only [bind, Except.bind, pure, Except.pure]
    rw [his]

theorem mapM_ok {α β : Type} {f : α → Res β} {l : List α} : ∀ {r : List β}, l.mapM f = .ok r →
    List.Forall₂ (fun a b => f a = .ok b) l r := by
  induction l with
  | nil => intro r h; cases h; exact .nil
  | cons a l ih =>
    intro r h
    rw [List.mapM_cons] at h
    simp only [bind, Except.bind, pure, Except.pure] at h
    split at h
    · cases h
    · rename_i b hb
      split at h
      · cases h
      · rename_i bs hbs
        cases h
        exact .cons hb (ih hbs)

theorem mem_getSysts (iter : List String → List String) (hit : ∀ l, (iter l).Perm l) (s : State V) (n : String) :
    n ∈ getSysts iter s ↔ n ∈ s.noConstraint ∨ n ∈ s.standard := by
  unfold getSysts
  rw [List.mem_append, (naturalSort_perm _).mem_iff, (naturalSort_perm _).mem_iff, (hit _).mem_iff, (hit _).mem_iff]

/-! ### C05 -/

theorem weights_loop (idx : String → Option Nat) (l : List String) : ∀ {w r : List V},
    loop (fun w syst => match idx syst with
      | some i => .ok (w.set i (0 : V))
      | none => .error .key) w l = .ok r →
    r.length = w.length ∧ ∀ i : Nat, i < w.length → r[i]? = if ∃ n ∈ l, idx n = some i then some 0 else w[i]? := by
  induction l with
  | nil => intro w r h; cases h; simp
  | cons x l ih =>
    intro w r h
    unfold loop at h
    cases hx : idx x with
    | none => rw [hx] at h; cases h
    | some j =>
      rw [hx] at h
      dsimp only at h
      obtain ⟨h1, h2⟩ := ih h
      rw [List.length_set] at h1 h2
      refine ⟨h1, fun i hi => ?_⟩
      rw [h2 i hi, List.getElem?_set]
      by_cases hl : ∃ n ∈ l, idx n = some i
      · rw [if_pos hl, if_pos]
        obtain ⟨n, hn, hni⟩ := hl
        exact ⟨n, by simp [hn], hni⟩
      · rw [if_neg hl]
        by_cases hj : j = i
        · subst hj
          rw [if_pos rfl, if_pos hi, if_pos ⟨x, by simp, hx⟩]
        · rw [if_neg hj, if_neg]
          rintro ⟨n, hn, hni⟩
          rcases List.mem_cons.1 hn with rfl | hn
          · rw [hx] at hni; exact hj (Option.some.inj hni)
          · exact hl ⟨n, hn, hni⟩

/-- C05 (for histories that do not ask for a nuisance both with and without constraint): every accepted booking of a
nuisance is listed in the written file, once; and the weight stored at the position of a nuisance is 0 if the calls that
asked for it had `constrained=False` and 1 otherwise. -/
theorem c05_weights_partial (cfg : Cfg V) (ops : List (Op V)) (iter : List String → List String)
    (hit : ∀ l, (iter l).Perm l) (t : Tensor V) (hw : (write cfg iter (run cfg ops)).2 = .ok t)
    (hc : Spec.consistent ops) :
    t.systs.Nodup ∧ t.weights.length = t.systs.length ∧
    (∀ b, Spec.booked cfg {} ops b → b.toCov = false → b.name ∈ t.systs) ∧
    (∀ (i : Nat) n, t.systs[i]? = some n → (∃ b, Spec.asked ops b ∧ b.name = n ∧ b.toCov = false) ∧
      ∀ b, Spec.asked ops b → b.name = n → b.toCov = false →
        t.weights[i]? = some (if b.o.constrained then 1 else 0)) := by
  obtain ⟨lay, cells, W⟩ := write_ok hw
  obtain ⟨bs, B, hask, hbk⟩ := bkSpec_run cfg ops
  set s := run cfg ops with hs
  have hst : ∀ n, n ∈ s.standard ↔ _ := B.standard
  have hnc : ∀ n, n ∈ s.noConstraint ↔ _ := B.noConstraint
  have hdisj : ∀ n, n ∈ s.noConstraint → n ∈ s.standard → False := by
    intro n h1 h2
    obtain ⟨b, hb, e1, e2, e3⟩ := (hnc n).1 h1
    obtain ⟨b', hb', e1', e2', e3'⟩ := (hst n).1 h2
    have := hc b b' (hask b hb).1 (hask b' hb').1 (e1.trans e1'.symm) e2 e2'
    rw [e3, e3'] at this; cases this
  have hmem := mem_getSysts iter hit s
  have hnd : (getSysts iter s).Nodup := by
    unfold getSysts
    rw [List.nodup_append, (naturalSort_perm _).nodup_iff, (naturalSort_perm _).nodup_iff, (hit _).nodup_iff,
      (hit _).nodup_iff]
    refine ⟨B.nodup.2.1, B.nodup.1, ?_⟩
    rintro a ha b hb rfl
    rw [(naturalSort_perm _).mem_iff, (hit _).mem_iff] at ha hb
    exact hdisj a ha hb
  have hW := W.weights
  unfold constraintWeights at hW
  obtain ⟨hlen, hval⟩ := weights_loop (fun n => (systToIdx (getSysts iter s)).get? n) _ hW
  rw [List.length_replicate] at hlen hval
  rw [W.systs]
  refine ⟨hnd, hlen, ?_, ?_⟩
  · intro b hb ht
    rw [hmem]
    cases hcon : b.o.constrained with
    | true => exact .inr ((hst _).2 ⟨b, hbk b hb, rfl, ht, hcon⟩)
    | false => exact .inl ((hnc _).2 ⟨b, hbk b hb, rfl, ht, hcon⟩)
  · intro i n hi
    have hn : n ∈ getSysts iter s := List.mem_of_getElem? hi
    have hilt : i < (getSysts iter s).length := (List.getElem?_eq_some_iff.1 hi).1
    have hex : ∃ b ∈ bs, b.name = n ∧ b.toCov = false ∧ (b.o.constrained = false ↔ n ∈ s.noConstraint) := by
      rcases (hmem n).1 hn with h | h
      · obtain ⟨b, hb, e1, e2, e3⟩ := (hnc n).1 h
        exact ⟨b, hb, e1, e2, by simp [e3, h]⟩
      · obtain ⟨b, hb, e1, e2, e3⟩ := (hst n).1 h
        refine ⟨b, hb, e1, e2, ?_⟩
        simp only [e3, Bool.true_eq_false, false_iff]
        exact fun h' => hdisj n h' h
    obtain ⟨b, hb, e1, e2, e3⟩ := hex
    refine ⟨⟨b, (hask b hb).1, e1, e2⟩, fun b' hb' e1' e2' => ?_⟩
    have hcc := hc b b' (hask b hb).1 hb' (e1.trans e1'.symm) e2 e2'
    rw [hval i hilt]
    have hidx : ∀ m, (systToIdx (getSysts iter s)).get? m = some i ↔ m = n := by
      intro m
      constructor
      · intro h
        have := systToIdx_some h
        rw [hi] at this; exact (Option.some.inj this).symm
      · rintro rfl
        obtain ⟨j, hj, hj'⟩ := systToIdx_isSome hn
        have : i = j := (List.getElem?_inj hilt hnd).1 (hi.trans hj'.symm)
        rw [this]; exact hj
    by_cases h : n ∈ s.noConstraint
    · rw [if_pos ⟨n, by rw [(naturalSort_perm _).mem_iff, (hit _).mem_iff]; exact h, (hidx n).2 rfl⟩,
        ← hcc, e3.2 h]
      simp
    · rw [if_neg]
      · rw [← hcc]
        cases hcon : b.o.constrained with
        | true => simp [hilt]
        | false => exact absurd (e3.1 hcon) h
      · rintro ⟨m, hm, hmi⟩
        rw [(naturalSort_perm _).mem_iff, (hit _).mem_iff] at hm
        rw [(hidx m).1 hmi] at hm
        exact h hm

/-- The code violates C05 for a nuisance booked without constraint for one process and with constraint for another one: it
is listed twice, and the copy in the unconstrained block has weight 1 while the copy in the constrained block has
weight 0. -/
theorem c05_mixed_violated : ∃ (cfg : Cfg ℚ) (ops : List (Op ℚ)) (t : Tensor ℚ),
    (write cfg id (run cfg ops)).2 = .ok t ∧ Spec.booked cfg {} ops ⟨"n", false, { constrained := false }⟩ ∧
    t.noConstraint = ["n"] ∧ t.systs = ["n", "n"] ∧ t.weights = [1, 0] := by
  let ops : List (Op ℚ) := [.channel [Ex.ax 1] (some "a") true false, .process (Ex.h [1]) "p" "a" true none,
    .process (Ex.h [1]) "q" "a" true none,
    .normSyst "n" ["p"] "a" [.num 2] false .average { constrained := false },
    .normSyst "n" ["q"] "a" [.num 2] false .average {}]
  have h : (match (write Ex.cfg id (run Ex.cfg ops)).2 with
      | .ok t => some (t.noConstraint, t.systs, t.weights)
      | .error _ => none) = some (["n"], ["n", "n"], [1, 0]) := by decide +kernel
  have hb : Spec.booked Ex.cfg {} ops ⟨"n", false, { constrained := false }⟩ :=
    ⟨ops.take 3, .normSyst "n" ["p"] "a" [.num 2] false .average { constrained := false }, ops.drop 4, rfl,
      by simp [Spec.asks], by decide +kernel⟩
  refine ⟨Ex.cfg, ops, ?_⟩
  cases hr : (write Ex.cfg id (run Ex.cfg ops)).2 with
  | error e => rw [hr] at h; cases h
  | ok t =>
    rw [hr] at h
    simp only [Option.some.injEq, Prod.mk.injEq] at h
    exact ⟨t, rfl, hb, h.1, h.2.1, h.2.2⟩

/-- the hypotheses of `c05_weights_partial` are met: a constrained and an unconstrained nuisance -/
example :
    let ops : List (Op ℚ) := [.channel [Ex.ax 1] (some "a") true false, .process (Ex.h [1]) "p" "a" true none,
      .normSyst "n" ["p"] "a" [.num 2] false .average { constrained := false },
      .normSyst "m" ["p"] "a" [.num 2] false .average {}]
    Spec.consistent ops ∧ (match (write Ex.cfg id (run Ex.cfg ops)).2 with
      | .ok t => some (t.systs, t.weights)
      | .error _ => none) = some (["n", "m"], [0, 1]) := by
  refine ⟨?_, by decide +kernel⟩
  rintro b b' ⟨op, ho, hb⟩ ⟨op', ho', hb'⟩ he _ _
  simp only [List.mem_cons, List.not_mem_nil, or_false] at ho ho'
  rcases ho with rfl | rfl | rfl | rfl <;> simp only [Spec.asks, List.not_mem_nil, List.mem_singleton] at hb <;>
    rcases ho' with rfl | rfl | rfl | rfl <;> simp only [Spec.asks, List.not_mem_nil, List.mem_singleton] at hb' <;>
    subst hb hb' <;> first | rfl | (simp at he)

/-! ### C06 -/

/-- C06: for every history, in the written file each group occurs once; its index list, looked up in the stored nuisance
names, gives pairwise different nuisances, all of them asked for with this group (a booking without groups asks for the
group of its own name); and every accepted booking is found in all its groups.  The same holds for the list of
parameters of interest. -/
theorem c06_groups (cfg : Cfg V) (ops : List (Op V)) (iter : List String → List String) (hit : ∀ l, (iter l).Perm l)
    (t : Tensor V) (hw : (write cfg iter (run cfg ops)).2 = .ok t) :
    (t.groups.map (·.1)).Nodup ∧
    (∀ g idx, (g, idx) ∈ t.groups → ∃ names : List String, idx.map (fun i => t.systs[i]?) = names.map some ∧
      names.Nodup ∧
      (∀ n ∈ names, ∃ b, Spec.asked ops b ∧ b.name = n ∧ b.toCov = false ∧ g ∈ b.o.groups.getD [n]) ∧
      (∀ b, Spec.booked cfg {} ops b → b.toCov = false → g ∈ b.o.groups.getD [b.name] → b.name ∈ names)) ∧
    (∀ b, Spec.booked cfg {} ops b → b.toCov = false → ∀ g ∈ b.o.groups.getD [b.name], ∃ idx, (g, idx) ∈ t.groups) ∧
    (∃ names : List String, t.noiIdxs.map (fun i => t.systs[i]?) = names.map some ∧ names.Nodup ∧
      (∀ n ∈ names, ∃ b, Spec.asked ops b ∧ b.name = n ∧ b.o.noi = true) ∧
      (∀ b, Spec.booked cfg {} ops b → b.o.noi = true → b.name ∈ names)) := by
  obtain ⟨lay, cells, W⟩ := write_ok hw
  obtain ⟨bs, B, hask, hbk⟩ := bkSpec_run cfg ops
  set s := run cfg ops with hs
  have hgr : ∀ g n, n ∈ (s.groups.get? g).getD [] ↔ _ := B.groups
  have hG := W.groups
  unfold getGroups at hG
  have hF := mapM_ok hG
  have hmemG : ∀ g idx, (g, idx) ∈ t.groups → ∃ m, s.groups.get? g = some m ∧ indicesOf t.systs (iter m) = .ok idx := by
    intro g idx h
    obtain ⟨k, hk, hget⟩ := List.mem_iff_getElem.1 h
    have hlen := hF.length_eq
    have h2 := (List.forall₂_iff_get.1 hF).2 k (by omega) hk
    simp only [List.get_eq_getElem, hget] at h2
    set x := (naturalSortDict s.groups)[k]'(by omega) with hx
    have hxm : x ∈ naturalSortDict s.groups := List.getElem_mem _
    obtain ⟨g', m⟩ := x
    rw [naturalSortDict_mem] at hxm
    cases hi : indicesOf (getSysts iter s) (iter m) with
    | error e => simp only [hi] at h2; cases h2
    | ok l =>
      simp only [hi] at h2
      cases h2
      exact ⟨m, hxm, by rw [W.systs]; exact hi⟩
  have hkeys : t.groups.map (·.1) = (naturalSortDict s.groups).map Prod.fst := by
    have : ∀ {l : List (String × List String)} {r : List (String × List Nat)},
        List.Forall₂ (fun a b => ((indicesOf (getSysts iter s) (iter a.2)).map fun l => (a.1, l)) = .ok b) l r →
          r.map (·.1) = l.map Prod.fst := by
      intro l r h
      induction h with
      | nil => rfl
      | @cons a b l r h _ ih =>
        rw [List.map_cons, List.map_cons, ih]
        cases hi : indicesOf (getSysts iter s) (iter a.2) with
        | error e => rw [hi] at h; cases h
        | ok l => rw [hi] at h; cases h; rfl
    exact this hF
  refine ⟨?_, ?_, ?_, ?_⟩
  · rw [hkeys]
    exact naturalSortDict_keys B.nodup.2.2.2.2
  · intro g idx hgi
    obtain ⟨m, hm, hi⟩ := hmemG g idx hgi
    refine ⟨iter m, indicesOf_ok hi, (hit m).nodup_iff.2 (B.members g m hm).1, ?_, ?_⟩
    · intro n hn
      rw [(hit m).mem_iff] at hn
      obtain ⟨b, hb, e1, e2, e3⟩ := (hgr g n).1 (by rw [hm]; exact hn)
      exact ⟨b, (hask b hb).1, e1, e2, by rw [← e1]; exact e3⟩
    · intro b hb ht hg
      rw [(hit m).mem_iff]
      have := (hgr g b.name).2 ⟨b, hbk b hb, rfl, ht, hg⟩
      rw [hm] at this; exact this
  · intro b hb ht g hg
    have := (hgr g b.name).2 ⟨b, hbk b hb, rfl, ht, hg⟩
    have hgm : g ∈ t.groups.map (·.1) := by
      rw [hkeys, List.mem_map]
      cases hm : s.groups.get? g with
      | none => rw [hm] at this; cases this
      | some m => exact ⟨(g, m), (naturalSortDict_mem g m).2 hm, rfl⟩
    obtain ⟨⟨g', idx⟩, hx, rfl⟩ := List.mem_map.1 hgm
    exact ⟨idx, hx⟩
  · have hn := W.noi
    unfold noiIdxs at hn
    have hmm : ∀ n, n ∈ naturalSort (iter s.noi) ↔ n ∈ s.noi := fun n => by
      rw [(naturalSort_perm _).mem_iff, (hit _).mem_iff]
    refine ⟨naturalSort (iter s.noi), by rw [W.systs]; exact indicesOf_ok hn, ?_, ?_, ?_⟩
    · rw [(naturalSort_perm _).nodup_iff, (hit _).nodup_iff]; exact B.nodup.2.2.1
    · intro n hn
      obtain ⟨b, hb, e1, e2⟩ := (B.noi n).1 ((hmm n).1 hn)
      exact ⟨b, (hask b hb).1, e1, e2⟩
    · intro b hb hnoi
      exact (hmm _).2 ((B.noi _).2 ⟨b, hbk b hb, rfl, hnoi⟩)

/-- C06: resolving the groups and the parameters of interest never fails, whatever the history. -/
theorem c06_resolves (cfg : Cfg V) (ops : List (Op V)) (iter : List String → List String)
    (hit : ∀ l, (iter l).Perm l) :
    (∃ g, getGroups iter (run cfg ops) = .ok g) ∧ ∃ l, noiIdxs iter (run cfg ops) = .ok l := by
  obtain ⟨bs, B, hask, hbk⟩ := bkSpec_run cfg ops
  set s := run cfg ops with hs
  have hin : ∀ b ∈ bs, b.toCov = false → b.name ∈ getSysts iter s := by
    intro b hb ht
    rw [mem_getSysts iter hit]
    cases hcon : b.o.constrained with
    | true => exact .inr ((B.standard _).2 ⟨b, hb, rfl, ht, hcon⟩)
    | false => exact .inl ((B.noConstraint _).2 ⟨b, hb, rfl, ht, hcon⟩)
  constructor
  · unfold getGroups
    have hall : ∀ x ∈ naturalSortDict s.groups, ∃ l, indicesOf (getSysts iter s) (iter x.2) = .ok l := by
      rintro ⟨g, m⟩ hx
      rw [naturalSortDict_mem] at hx
      refine indicesOf_isOk fun n hn => ?_
      rw [(hit m).mem_iff] at hn
      obtain ⟨b, hb, e1, e2, _⟩ := (B.groups g n).1 (by
        show n ∈ (s.groups.get? g).getD []
        rw [hx]; exact hn)
      rw [← e1]; exact hin b hb e2
    generalize naturalSortDict s.groups = l at hall
    induction l with
    | nil => exact ⟨[], rfl⟩
    | cons x l ih =>
      obtain ⟨r, hr⟩ := ih fun x hx => hall x (by simp [hx])
      obtain ⟨i, hi⟩ := hall x (by simp)
      refine ⟨(x.1, i) :: r, ?_⟩
      rw [List.mapM_cons, hi]
      simp only [Except.map, bind, Except.bind, pure, Except.pure]
      simp only [Except.map] at hr
      rw [hr]
  · refine indicesOf_isOk fun n hn => ?_
    rw [(naturalSort_perm _).mem_iff, (hit _).mem_iff] at hn
    obtain ⟨b, hb, e1, e2⟩ := (B.noi n).1 hn
    rw [← e1]
    refine hin b hb ?_
    have := (hask b hb).2
    cases ht : b.toCov with
    | false => rfl
    | true => rw [ht, e2] at this; cases this

/-- the hypotheses of `c06_groups` are met: a nuisance in two groups, one without groups, one parameter of interest -/
example :
    let ops : List (Op ℚ) := [.channel [Ex.ax 1] (some "a") true false, .process (Ex.h [1]) "p" "a" true none,
      .normSyst "n" ["p"] "a" [.num 2] false .average { groups := some ["g", "h"] },
      .normSyst "m" ["p"] "a" [.num 2] false .average { noi := true, constrained := false },
      .normSyst "k" ["p"] "a" [.num 2] false .average { groups := some ["g"] }]
    (match (write Ex.cfg id (run Ex.cfg ops)).2 with
      | .ok t => some (t.systs, t.groups, t.noiIdxs)
      | .error _ => none) =
      some (["m", "k", "n"], [("g", [2, 1]), ("h", [2]), ("m", [0])], [0]) := by
  decide +kernel

end Verif.Writer
