import Verif.Lemmas.Datacard

/-!
C60: every process rate, observation and systematic line of a datacard is represented; nothing is dropped silently.

A card is read as rows of words (`Spec.TextOf`, every text has rows).  The theorems say what a card that was read without an
exception contains; the `_violated` theorems are cards that are read without an exception and lose a line.
-/

namespace Verif.Datacard

variable {V H : Type}

theorem ok_bind {α β : Type} (x : α) (f : α → Res β) : (Except.ok x : Res α).bind f = f x := rfl
theorem ok_map {α β : Type} (x : α) (f : α → β) : (Except.ok x : Res α).map f = .ok (f x) := rfl

theorem bind_ok {α β : Type} {x : Res α} {f : α → Res β} {b : β} (h : x.bind f = .ok b) : ∃ a, x = .ok a ∧ f a = .ok b := by
  cases x with
  | error e => cases h
  | ok a => exact ⟨a, rfl, h⟩

theorem map_ok {α β : Type} {x : Res α} {f : α → β} {b : β} (h : x.map f = .ok b) : ∃ a, x = .ok a ∧ f a = b := by
  cases x with
  | error e => cases h
  | ok a => exact ⟨a, rfl, Except.ok.inj h⟩

/-! The stages only set their own attributes -/

theorem parseHeader_stage (lines : List Line) (c c' : Card V) (h : parseHeader lines c = .ok c') :
    ∃ i j k, c' = { c with imax := i, jmax := j, kmax := k } := by
  induction lines generalizing c with
  | nil => exact ⟨c.imax, c.jmax, c.kmax, (Except.ok.inj h).symm⟩
  | cons l ls ih =>
    rw [parseHeader] at h
    split at h
    · obtain ⟨e, _, h⟩ := bind_ok h
      obtain ⟨i, j, k, h⟩ := ih _ h
      exact ⟨i, j, k, h⟩
    · split at h
      · obtain ⟨e, _, h⟩ := bind_ok h
        obtain ⟨i, j, k, h⟩ := ih _ h
        exact ⟨i, j, k, h⟩
      · split at h
        · obtain ⟨e, _, h⟩ := bind_ok h
          obtain ⟨i, j, k, h⟩ := ih _ h
          exact ⟨i, j, k, h⟩
        · exact ih _ h

theorem parseObservations_stage (flt : String → Res V) (lines : List Line) (c c' : Card V) (h : parseObservations flt lines c = .ok c') :
    ∃ b o, c' = { c with bins := b, observations := o } := by
  rw [parseObservations] at h
  split at h
  · dsimp only at h
    split at h
    · obtain ⟨d, _, h⟩ := map_ok h
      exact ⟨_, d, h.symm⟩
    · exact ⟨_, c.observations, (Except.ok.inj h).symm⟩
  · exact ⟨c.bins, c.observations, (Except.ok.inj h).symm⟩

theorem setRates_stage (flt : String → Res V) (bs ps rs : List String) (c c' : Card V) (h : setRates flt bs ps rs c = .ok c') :
    ∃ r m, c' = { c with rates := r, binMap := m } := by
  induction bs generalizing ps rs c with
  | nil => exact ⟨c.rates, c.binMap, (Except.ok.inj h).symm⟩
  | cons b bs ih =>
    rcases ps with _ | ⟨p, ps⟩
    · cases h
    · rcases rs with _ | ⟨r, rs⟩
      · cases h
      · rw [setRates] at h
        obtain ⟨v, _, h⟩ := bind_ok h
        obtain ⟨r, m, h⟩ := ih _ _ _ h
        exact ⟨r, m, h⟩

theorem parseProcesses_stage (flt : String → Res V) (int : String → Res Int) (lines : List Line) (c c' : Card V)
    (h : parseProcesses flt int lines c = .ok c') :
    ∃ ps i r m, c' = { c with processes := ps, indices := i, rates := r, binMap := m } := by
  rw [parseProcesses] at h
  split at h
  · exact ⟨c.processes, c.indices, c.rates, c.binMap, (Except.ok.inj h).symm⟩
  · dsimp only at h
    obtain ⟨d, _, h⟩ := bind_ok h
    obtain ⟨r, m, h⟩ := setRates_stage _ _ _ _ _ _ h
    exact ⟨_, _, r, m, h⟩

theorem parseShapes_stage (files : Files) (lines : List Line) (c c' : Card V) (h : parseShapes files lines c = .ok c') :
    ∃ s m, c' = { c with shapes := s, maxDepth := m } := by
  induction lines generalizing c with
  | nil => exact ⟨c.shapes, c.maxDepth, (Except.ok.inj h).symm⟩
  | cons l ls ih =>
    rw [parseShapes] at h
    split at h
    · split at h
      · split at h
        · cases h
        · obtain ⟨s, m, h⟩ := ih _ h
          exact ⟨s, m, h⟩
      · exact ih _ h
    · exact ih _ h

theorem parseSystematics_stage (int : String → Res Int) (lines : List Line) (c c' : Card V) (h : parseSystematics int lines c = .ok c') :
    ∃ s, c' = { c with systematics := s } := by
  rw [parseSystematics] at h
  split at h
  · exact ⟨c.systematics, (Except.ok.inj h).symm⟩
  · obtain ⟨s, _, h⟩ := map_ok h
    exact ⟨s, h.symm⟩

theorem parseDirectives_stage (lines : List Line) (c : Card V) :
    ∃ a b g e, parseDirectives lines c = { c with params := a, rateParams := b, groups := g, edits := e } := by
  induction lines generalizing c with
  | nil => exact ⟨c.params, c.rateParams, c.groups, c.edits, rfl⟩
  | cons l ls ih =>
    rw [parseDirectives]
    split
    · split
      · obtain ⟨a, b, g, e, h⟩ := ih { c with params := c.params ++ _ }
        exact ⟨a, b, g, e, h⟩
      · split
        · obtain ⟨a, b, g, e, h⟩ := ih { c with rateParams := c.rateParams ++ _ }
          exact ⟨a, b, g, e, h⟩
        · split
          · obtain ⟨a, b, g, e, h⟩ := ih { c with groups := c.groups ++ _ }
            exact ⟨a, b, g, e, h⟩
          · split
            · obtain ⟨a, b, g, e, h⟩ := ih { c with edits := c.edits ++ _ }
              exact ⟨a, b, g, e, h⟩
            · exact ih c
    · exact ih c

/-- the six stages of a card that is read -/
theorem parse_stages {flt : String → Res V} {int : String → Res Int} {files : Files} {text : List Char} {c : Card V}
    (h : parse flt int files text = .ok c) : ∃ c1 c2 c3 c4 c5 : Card V,
      parseHeader (readLines text) {} = .ok c1 ∧ parseObservations flt (readLines text) c1 = .ok c2 ∧
      parseProcesses flt int (readLines text) c2 = .ok c3 ∧ parseShapes files (readLines text) c3 = .ok c4 ∧
      parseSystematics int (readLines text) c4 = .ok c5 ∧ c = parseDirectives (readLines text) c5 := by
  rw [parse] at h
  obtain ⟨c1, h1, h⟩ := bind_ok h
  obtain ⟨c2, h2, h⟩ := bind_ok h
  obtain ⟨c3, h3, h⟩ := bind_ok h
  obtain ⟨c4, h4, h⟩ := bind_ok h
  obtain ⟨c5, h5, h⟩ := bind_ok h
  exact ⟨c1, c2, c3, c4, c5, h1, h2, h3, h4, h5, (Except.ok.inj h).symm⟩

/-! Observations -/

theorem setObs_spec (flt : String → Res V) (bs os : List String) (d d' : Dict String V) (h : setObs flt bs os d = .ok d')
    (hlen : bs.length = os.length) (hnd : bs.Nodup) (hdis : ∀ b ∈ bs, b ∉ Dict.keys d) :
    Dict.keys d' = Dict.keys d ++ bs ∧ (∀ b, b ∉ bs → Dict.get? d' b = Dict.get? d b) ∧
      ∀ (k : Nat) (b o : String), bs[k]? = some b → os[k]? = some o → ∃ v, flt o = .ok v ∧ Dict.get? d' b = some v := by
  induction bs generalizing os d with
  | nil =>
    have : d = d' := by cases os <;> exact Except.ok.inj h
    subst this
    exact ⟨by simp, fun _ _ => rfl, fun k b o hb => by simp at hb⟩
  | cons b bs ih =>
    rcases os with _ | ⟨o, os⟩
    · simp at hlen
    · rw [setObs] at h
      obtain ⟨v, hv, h⟩ := bind_ok h
      have hb : b ∉ bs := (List.nodup_cons.1 hnd).1
      have hset := Dict.keys_set_of_not_mem d b v (hdis b (by simp))
      obtain ⟨h1, h2, h3⟩ := ih os _ h (by simpa using hlen) (List.nodup_cons.1 hnd).2 (by
        intro b' hb'
        rw [hset, List.mem_append]
        rintro (hm | hm)
        · exact hdis b' (by simp [hb']) hm
        · rw [List.mem_singleton] at hm
          exact hb (hm ▸ hb'))
      refine ⟨by rw [h1, hset]; simp, ?_, ?_⟩
      · intro b' hb'
        rw [h2 b' (fun hm => hb' (by simp [hm])), Dict.get?_set_ne _ _ (fun he => hb' (by simp [he]))]
      · intro k b' o' hb' ho'
        cases k with
        | zero =>
          simp only [List.getElem?_cons_zero, Option.some.injEq] at hb' ho'
          subst hb' ho'
          exact ⟨v, hv, by rw [h2 b hb, Dict.get?_set_self]⟩
        | succ k => exact h3 k b' o' (by simpa using hb') (by simpa using ho')

theorem find_range {n : Nat} {p : Nat → Bool} {i : Nat} (hi : i < n) (hp : p i = true) (hfirst : ∀ j < i, p j = false) :
    (List.range n).find? p = some i := by
  rw [List.find?_range_eq_some]
  exact ⟨hp, List.mem_range.2 hi, fun j hj => by simp [hfirst j hj]⟩

theorem begins_lt {p : String} {rows : List (List String)} {i : Nat} (h : Spec.Begins p (rows.getD i [])) : i < rows.length := by
  by_contra hn
  rw [List.getD_eq_getElem?_getD, List.getElem?_eq_none (by omega)] at h
  obtain ⟨t, ts, h, _⟩ := h
  cases h

theorem starts_iff {lines : List Line} {rows : List (List String)} (h : List.Forall₂ Matches lines rows) (p : String)
    (hp : p.toList ≠ []) (hps : ∀ c ∈ p.toList, isSpace c = false) (i : Nat) :
    starts p (lines.getD i []) = true ↔ Spec.Begins p (rows.getD i []) := (getD_matches h i).2 p hp hps

theorem starts_false {lines : List Line} {rows : List (List String)} (h : List.Forall₂ Matches lines rows) (p : String)
    (hp : p.toList ≠ []) (hps : ∀ c ∈ p.toList, isSpace c = false) {i : Nat} (hn : ¬ Spec.Begins p (rows.getD i [])) :
    starts p (lines.getD i []) = false := by
  rw [← Bool.not_eq_true, starts_iff h p hp hps]; exact hn

theorem words_getD {lines : List Line} {rows : List (List String)} (h : List.Forall₂ Matches lines rows) (i : Nat) :
    words (lines.getD i []) = rows.getD i [] := (getD_matches h i).1

/-- Every observation is in the card: the row of the bins and the row of the observations may be anywhere, provided the process
section is not at the very beginning, every bin has one number and the bins are distinct. -/
theorem c60_observations_partial {flt : String → Res V} {int : String → Res Int} {files : Files} {text : List Char} {c : Card V}
    {rows : List (List String)} (ht : Spec.TextOf text rows) (h : parse flt int files text = .ok c) {ib io : Nat}
    (hb : Spec.Begins "bin" (rows.getD ib [])) (hnp : ¬ Spec.Begins "process" (rows.getD (ib + 1) []))
    (hbf : ∀ i < ib, Spec.Begins "bin" (rows.getD i []) → Spec.Begins "process" (rows.getD (i + 1) []))
    (hproc : ∀ i, Spec.Begins "bin" (rows.getD i []) → Spec.Begins "process" (rows.getD (i + 1) []) → 0 < i ∧ i + 2 < rows.length)
    (ho : Spec.Begins "observation" (rows.getD io [])) (hof : ∀ i < io, ¬ Spec.Begins "observation" (rows.getD i []))
    (hlen : (rows.getD ib []).length = (rows.getD io []).length) (hnd : ((rows.getD ib []).drop 1).Nodup) :
    c.bins = (rows.getD ib []).drop 1 ∧ Dict.keys c.observations = (rows.getD ib []).drop 1 ∧
      ∀ (k : Nat) (b o : String), ((rows.getD ib []).drop 1)[k]? = some b → ((rows.getD io []).drop 1)[k]? = some o →
        ∃ v, flt o = .ok v ∧ Dict.get? c.observations b = some v := by
  obtain ⟨c1, c2, c3, c4, c5, h1, h2, h3, h4, h5, h6⟩ := parse_stages h
  obtain ⟨i, j, k, e1⟩ := parseHeader_stage _ _ _ h1
  obtain ⟨ps, is, r, m, e3⟩ := parseProcesses_stage _ _ _ _ _ h3
  obtain ⟨s, m', e4⟩ := parseShapes_stage _ _ _ _ h4
  obtain ⟨ss, e5⟩ := parseSystematics_stage _ _ _ _ h5
  obtain ⟨a, b, g, e, e6⟩ := parseDirectives_stage (readLines text) c5
  have hm := readLines_of ht
  have hl := hm.length_eq
  have hbl : binLine (readLines text) = some ((readLines text).getD ib []) := by
    rw [binLine, find_range (i := ib) (by rw [hl]; exact begins_lt hb) ?_ ?_]
    · rfl
    · rw [(starts_iff hm "bin" (by decide) (by decide) ib).2 hb, isProcessBin,
        starts_false hm "process" (by decide) (by decide) hnp]
      simp
    · intro j hj
      by_cases hbj : Spec.Begins "bin" (rows.getD j [])
      · have hpj := hbf j hj hbj
        obtain ⟨q1, q2⟩ := hproc j hbj hpj
        rw [isProcessBin, (starts_iff hm "process" (by decide) (by decide) (j + 1)).2 hpj, hl]
        simp [q1, q2]
      · rw [starts_false hm "bin" (by decide) (by decide) hbj]; rfl
  have hol : obsLine (readLines text) = some ((readLines text).getD io []) := by
    have hlt : io < (readLines text).length := by rw [hl]; exact begins_lt ho
    have hget : (readLines text).getD io [] = (readLines text)[io] := by
      rw [List.getD_eq_getElem?_getD, List.getElem?_eq_getElem hlt]; rfl
    rw [obsLine, List.find?_eq_some_iff_getElem]
    refine ⟨(starts_iff hm "observation" (by decide) (by decide) io).2 ho, io, hlt, hget.symm, ?_⟩
    intro j hj
    have hgj : (readLines text)[j]'(by omega) = (readLines text).getD j [] := by
      rw [List.getD_eq_getElem?_getD, List.getElem?_eq_getElem (by omega)]; rfl
    rw [hgj, starts_false hm "observation" (by decide) (by decide) (hof j hj)]; rfl
  rw [parseObservations, hbl, hol] at h2
  dsimp only at h2
  rw [words_getD hm, words_getD hm, if_pos (by rw [List.length_drop, List.length_drop, hlen])] at h2
  obtain ⟨d, hd, h2⟩ := map_ok h2
  have hc1 : c1.observations = [] := by rw [e1]
  rw [hc1] at hd
  have hspec := setObs_spec flt _ _ [] d hd (by rw [List.length_drop, List.length_drop, hlen]) hnd (by simp [Dict.keys])
  have hbins : c.bins = (rows.getD ib []).drop 1 := by rw [h6, e6, e5, e4, e3, ← h2]
  have hobs : c.observations = d := by rw [h6, e6, e5, e4, e3, ← h2]
  rw [hbins, hobs]
  exact ⟨rfl, by rw [hspec.1]; rfl, hspec.2.2⟩

/-! Rates -/

/-- the process section at row `i` -/
def Spec.Block (rows : List (List String)) (i : Nat) : Prop :=
  Spec.Begins "bin" (rows.getD i []) ∧ Spec.Begins "process" (rows.getD (i + 1) []) ∧ Spec.Begins "process" (rows.getD (i + 2) []) ∧
    Spec.Begins "rate" (rows.getD (i + 3) [])

theorem isBlock_iff {lines : List Line} {rows : List (List String)} (h : List.Forall₂ Matches lines rows) (i : Nat) :
    isBlock lines i = true ↔ Spec.Block rows i := by
  rw [isBlock, Bool.and_eq_true, Bool.and_eq_true, Bool.and_eq_true, starts_iff h "bin" (by decide) (by decide),
    starts_iff h "process" (by decide) (by decide), starts_iff h "process" (by decide) (by decide),
    starts_iff h "rate" (by decide) (by decide), Spec.Block]
  exact ⟨fun ⟨⟨⟨a, b⟩, c⟩, d⟩ => ⟨a, b, c, d⟩, fun ⟨a, b, c, d⟩ => ⟨⟨⟨a, b⟩, c⟩, d⟩⟩

theorem setRates_spec (flt : String → Res V) (bs ps rs : List String) (c c' : Card V) (h : setRates flt bs ps rs c = .ok c')
    (hnd : (bs.zip ps).Nodup) (hdis : ∀ x ∈ bs.zip ps, x ∉ Dict.keys c.rates) :
    bs.length ≤ ps.length ∧ bs.length ≤ rs.length ∧ Dict.keys c'.rates = Dict.keys c.rates ++ bs.zip ps ∧
      (∀ x, x ∉ bs.zip ps → Dict.get? c'.rates x = Dict.get? c.rates x ∧
        ((Dict.get? c'.binMap x.1).getD []).get? x.2 = ((Dict.get? c.binMap x.1).getD []).get? x.2) ∧
      ∀ (k : Nat) (b p r : String), bs[k]? = some b → ps[k]? = some p → rs[k]? = some r →
        ∃ v, flt r = .ok v ∧ Dict.get? c'.rates (b, p) = some v ∧ ((Dict.get? c'.binMap b).getD []).get? p = some v := by
  induction bs generalizing ps rs c with
  | nil =>
    have : c = c' := Except.ok.inj h
    subst this
    exact ⟨by simp, by simp, by simp, fun _ _ => ⟨rfl, rfl⟩, fun k b p r hb => by simp at hb⟩
  | cons b bs ih =>
    rcases ps with _ | ⟨p, ps⟩
    · cases h
    rcases rs with _ | ⟨r, rs⟩
    · cases h
    rw [setRates] at h
    obtain ⟨v, hv, h⟩ := bind_ok h
    rw [List.zip_cons_cons] at hnd hdis
    have hb : (b, p) ∉ bs.zip ps := (List.nodup_cons.1 hnd).1
    have hset := Dict.keys_set_of_not_mem c.rates (b, p) v (hdis _ (by simp))
    obtain ⟨q1, q2, q3, q4, q5⟩ := ih ps rs _ h (List.nodup_cons.1 hnd).2 (by
      intro x hx
      dsimp only
      rw [hset, List.mem_append]
      rintro (hm | hm)
      · exact hdis x (by simp [hx]) hm
      · rw [List.mem_singleton] at hm
        exact hb (hm ▸ hx))
    dsimp only at q3 q4
    have hmap : ∀ b' p', ((Dict.get? (Dict.set c.binMap b (Dict.set ((Dict.get? c.binMap b).getD []) p v)) b').getD []).get? p' =
        if b = b' ∧ p = p' then some v else ((Dict.get? c.binMap b').getD []).get? p' := by
      intro b' p'
      rw [Dict.get?_set]
      by_cases h1 : b = b'
      · subst h1
        rw [if_pos rfl, Option.getD_some, Dict.get?_set]
        by_cases h2 : p = p' <;> simp [h2]
      · rw [if_neg h1, if_neg (fun hh => h1 hh.1)]
    refine ⟨by simpa using q1, by simpa using q2, by rw [q3, hset, List.zip_cons_cons]; simp, ?_, ?_⟩
    · intro x hx
      rw [List.zip_cons_cons] at hx
      have hne : ¬ (b, p) = x := fun he => hx (by simp [he])
      obtain ⟨w1, w2⟩ := q4 x (fun hm => hx (by simp [hm]))
      refine ⟨by rw [w1, Dict.get?_set_ne _ _ hne], ?_⟩
      rw [w2, hmap, if_neg]
      rintro ⟨rfl, rfl⟩
      exact hne rfl
    · intro k b' p' r' hb' hp' hr'
      cases k with
      | zero =>
        simp only [List.getElem?_cons_zero, Option.some.injEq] at hb' hp' hr'
        subst hb' hp' hr'
        obtain ⟨w1, w2⟩ := q4 (b, p) hb
        refine ⟨v, hv, by rw [w1, Dict.get?_set_self], ?_⟩
        rw [w2, hmap, if_pos ⟨rfl, rfl⟩]
      | succ k => exact q5 k b' p' r' (by simpa using hb') (by simpa using hp') (by simpa using hr')

/-- Every rate of the first process section is in the card, in the order of the columns, wherever the section is, provided no
(bin, process) pair has two columns. -/
theorem c60_rates_partial {flt : String → Res V} {int : String → Res Int} {files : Files} {text : List Char} {c : Card V}
    {rows : List (List String)} (ht : Spec.TextOf text rows) (h : parse flt int files text = .ok c) {i : Nat}
    (hb : Spec.Block rows i) (hf : ∀ j < i, ¬ Spec.Block rows j)
    (hnd : (((rows.getD i []).drop 1).zip ((rows.getD (i + 1) []).drop 1)).Nodup) :
    Dict.keys c.rates = ((rows.getD i []).drop 1).zip ((rows.getD (i + 1) []).drop 1) ∧
      ((rows.getD i []).drop 1).length ≤ ((rows.getD (i + 1) []).drop 1).length ∧
      ((rows.getD i []).drop 1).length ≤ ((rows.getD (i + 3) []).drop 1).length ∧
      ∀ (k : Nat) (b p r : String), ((rows.getD i []).drop 1)[k]? = some b → ((rows.getD (i + 1) []).drop 1)[k]? = some p →
        ((rows.getD (i + 3) []).drop 1)[k]? = some r →
        ∃ v, flt r = .ok v ∧ Dict.get? c.rates (b, p) = some v ∧ ((Dict.get? c.binMap b).getD []).get? p = some v := by
  obtain ⟨c1, c2, c3, c4, c5, h1, h2, h3, h4, h5, h6⟩ := parse_stages h
  obtain ⟨_, _, _, e1⟩ := parseHeader_stage _ _ _ h1
  obtain ⟨_, _, e2⟩ := parseObservations_stage _ _ _ _ h2
  obtain ⟨_, _, e4⟩ := parseShapes_stage _ _ _ _ h4
  obtain ⟨_, e5⟩ := parseSystematics_stage _ _ _ _ h5
  obtain ⟨_, _, _, _, e6⟩ := parseDirectives_stage (readLines text) c5
  have hm := readLines_of ht
  have hl := hm.length_eq
  have hlt := begins_lt hb.2.2.2
  rw [parseProcesses, find_range (i := i) (by rw [hl]; omega) ((isBlock_iff hm i).2 hb) (fun j hj => by
    rw [← Bool.not_eq_true, isBlock_iff hm]; exact hf j hj)] at h3
  dsimp only at h3
  obtain ⟨d, _, h3⟩ := bind_ok h3
  rw [words_getD hm, words_getD hm, words_getD hm] at h3
  have hr0 : c2.rates = [] := by rw [e2, e1]
  have hs := setRates_spec flt _ _ _ _ _ h3 hnd (by dsimp only; rw [hr0]; simp [Dict.keys])
  dsimp only at hs
  rw [hr0] at hs
  have er : c.rates = c3.rates := by rw [h6, e6, e5, e4]
  have em : c.binMap = c3.binMap := by rw [h6, e6, e5, e4]
  rw [er, em]
  exact ⟨by rw [hs.2.2.1]; rfl, hs.1, hs.2.1, hs.2.2.2.2⟩

/-! Systematics -/

/-- the words after which no systematics are read -/
def Spec.Stop (row : List String) : Prop :=
  ∃ name word rest, row = name :: word :: rest ∧ (word = "shapes" ∨ word = "nuisance" ∨ word = "param" ∨ word = "rateParam" ∨
    word = "group" ∨ word = "extArg")

/-- the rows of the known types of systematics -/
def Spec.Known (row : List String) : Prop :=
  ∃ name word rest, row = name :: word :: rest ∧ (word = "lnN" ∨ word = "shape" ∨ word = "gmN" ∨ word = "lnU" ∨ word = "shapeN" ∨
    word = "shape?" ∨ word = "shapeU")

/-- the systematic `s` represents the row: its name, type, number of events and one effect per column, except those with `-` -/
def Spec.Represents (int : String → Res Int) (columns : List (String × String)) (row : List String) (s : Syst) : Prop :=
  ∃ name type rest, row = name :: type :: rest ∧ s.name = name ∧ s.type = type ∧
    (type = "gmN" → ∀ n, rest.head? = some n → ∃ k, int n = .ok k ∧ s.nEvents = some k) ∧
    ∀ effects, effects = (if type = "gmN" then rest.drop 1 else rest) → effects.length = columns.length →
      ∀ (k : Nat) (b p e : String), columns[k]? = some (b, p) → effects[k]? = some e →
        Dict.get? s.effects (b, p) = if e = "-" then none else some e

theorem effects_fold (l : List ((String × String) × String)) (d : Dict (String × String) String) (hnd : (l.map Prod.fst).Nodup)
    (hdis : ∀ x ∈ l, Dict.get? d x.1 = none) :
    (∀ k, k ∉ l.map Prod.fst → Dict.get? (l.foldl (fun d ke => if ke.2 ≠ "-" then Dict.set d ke.1 ke.2 else d) d) k = Dict.get? d k) ∧
      ∀ x ∈ l, Dict.get? (l.foldl (fun d ke => if ke.2 ≠ "-" then Dict.set d ke.1 ke.2 else d) d) x.1 =
        if x.2 = "-" then none else some x.2 := by
  induction l generalizing d with
  | nil => exact ⟨fun _ _ => rfl, fun x hx => by cases hx⟩
  | cons a l ih =>
    rw [List.map_cons, List.nodup_cons] at hnd
    have hd' : ∀ k, k ≠ a.1 → Dict.get? (if a.2 ≠ "-" then Dict.set d a.1 a.2 else d) k = Dict.get? d k := by
      intro k hk
      split
      · exact Dict.get?_set_ne _ _ (Ne.symm hk)
      · rfl
    obtain ⟨h1, h2⟩ := ih (if a.2 ≠ "-" then Dict.set d a.1 a.2 else d) hnd.2 (by
      intro x hx
      rw [hd' _ (fun he => hnd.1 (he ▸ List.mem_map_of_mem (f := Prod.fst) hx))]
      exact hdis x (by simp [hx]))
    rw [List.foldl_cons]
    refine ⟨?_, ?_⟩
    · intro k hk
      rw [List.map_cons, List.mem_cons, not_or] at hk
      rw [h1 k hk.2, hd' k hk.1]
    · intro x hx
      rcases List.mem_cons.1 hx with rfl | hx
      · rw [h1 _ hnd.1]
        by_cases hx2 : x.2 = "-"
        · rw [if_neg (by simp [hx2]), if_pos hx2]
          exact hdis x (by simp)
        · rw [if_pos hx2, if_neg hx2, Dict.get?_set_self]
      · exact h2 x hx

theorem effectsOf_spec (keys : List (String × String)) (effects : List String) (hnd : keys.Nodup) (hlen : effects.length = keys.length)
    (k : Nat) (x : String × String) (e : String) (hx : keys[k]? = some x) (he : effects[k]? = some e) :
    Dict.get? (effectsOf keys effects) x = if e = "-" then none else some e := by
  rw [effectsOf, if_pos hlen]
  have hfst : (keys.zip effects).map Prod.fst = keys := List.map_fst_zip (by omega)
  have := (effects_fold (keys.zip effects) [] (by rw [hfst]; exact hnd) (by simp [Dict.get?])).2 (x, e) (by
    rw [List.mem_iff_getElem?]
    exact ⟨k, by rw [List.getElem?_zip_eq_some]; exact ⟨hx, he⟩⟩)
  exact this

theorem systTypes_iff (w : String) : w ∈ systTypes ↔ (w = "lnN" ∨ w = "shape" ∨ w = "gmN" ∨ w = "lnU" ∨ w = "shapeN" ∨ w = "shape?" ∨
    w = "shapeU") := by
  simp [systTypes]

theorem stopWords_iff (w : String) : w ∈ stopWords ↔ (w = "shapes" ∨ w = "nuisance" ∨ w = "param" ∨ w = "rateParam" ∨ w = "group" ∨
    w = "extArg") := by
  simp [stopWords]

theorem systLine_spec {int : String → Res Int} {keys : List (String × String)} (hnd : keys.Nodup) {parts : List String} {o : Option Syst}
    (h : systLine int keys parts = .ok o) :
    (Spec.Known parts → ∃ s, o = some s ∧ Spec.Represents int keys parts s) ∧ (¬ Spec.Known parts → o = none) := by
  match parts, h with
  | [], h =>
    refine ⟨?_, fun _ => (Except.ok.inj h).symm⟩
    rintro ⟨_, _, _, h, _⟩; cases h
  | [_], h =>
    refine ⟨?_, fun _ => (Except.ok.inj h).symm⟩
    rintro ⟨_, _, _, h, _⟩; cases h
  | name :: type :: rest, h =>
    unfold systLine at h
    dsimp only at h
    by_cases ht : type ∈ systTypes
    · rw [if_pos ht] at h
      refine ⟨fun _ => ?_, fun hn => absurd ⟨_, _, _, rfl, (systTypes_iff type).1 ht⟩ hn⟩
      rcases rest with _ | ⟨n, rest⟩
      · refine ⟨_, (Except.ok.inj h).symm, name, type, [], rfl, rfl, rfl, (fun _ n hn => by cases hn), ?_⟩
        intro effects he hlen k b p e hb hee
        rw [he] at hee
        simp at hee
      · dsimp only at h
        by_cases hg : type = "gmN"
        · rw [if_pos hg] at h
          obtain ⟨k, hk, h⟩ := map_ok h
          refine ⟨_, h.symm, name, type, n :: rest, rfl, rfl, rfl, ?_, ?_⟩
          · intro _ n' hn'
            cases hn'
            exact ⟨k, hk, rfl⟩
          · intro effects he hlen k b p e hb hee
            rw [if_pos hg, List.drop_one, List.tail_cons] at he
            subst he
            rw [if_neg (by intro h0; rw [h0] at hee; simp at hee)]
            exact effectsOf_spec keys _ hnd hlen k (b, p) e hb hee
        · rw [if_neg hg] at h
          refine ⟨_, (Except.ok.inj h).symm, name, type, n :: rest, rfl, rfl, rfl, fun h0 => absurd h0 hg, ?_⟩
          intro effects he hlen k b p e hb hee
          rw [if_neg hg] at he
          subst he
          exact effectsOf_spec keys _ hnd hlen k (b, p) e hb hee
    · rw [if_neg ht] at h
      refine ⟨?_, fun _ => (Except.ok.inj h).symm⟩
      rintro ⟨_, w, _, he, hk⟩
      cases he
      exact absurd ((systTypes_iff _).2 hk) ht

open Classical in
/-- the rows of the systematics of a list of rows -/
noncomputable def Spec.systRows (rows : List (List String)) : List (List String) :=
  (rows.takeWhile fun r => ¬ Spec.Stop r).filter fun r => Spec.Known r

theorem systLoop_spec {int : String → Res Int} {keys : List (String × String)} (hnd : keys.Nodup) {lines : List Line}
    {rows : List (List String)} (hm : List.Forall₂ Matches lines rows) {acc out : List Syst}
    (h : systLoop int keys lines acc = .ok out) :
    ∃ new, out = acc ++ new ∧ List.Forall₂ (Spec.Represents int keys) (Spec.systRows rows) new := by
  induction hm generalizing acc with
  | nil => exact ⟨[], by rw [← Except.ok.inj h]; simp, .nil⟩
  | @cons l row ls rows hl _ ih =>
    rw [systLoop] at h
    rw [hl.1] at h
    match row, h with
    | [], h =>
      obtain ⟨new, h1, h2⟩ := ih h
      refine ⟨new, h1, ?_⟩
      have hs : ¬ Spec.Stop [] := by rintro ⟨_, _, _, h, _⟩; cases h
      have hk : ¬ Spec.Known [] := by rintro ⟨_, _, _, h, _⟩; cases h
      rw [Spec.systRows, List.takeWhile_cons, if_pos (by simpa using hs), List.filter_cons, if_neg (by simpa using hk)]
      exact h2
    | [x], h =>
      obtain ⟨new, h1, h2⟩ := ih h
      refine ⟨new, h1, ?_⟩
      have hs : ¬ Spec.Stop [x] := by rintro ⟨_, _, _, h, _⟩; cases h
      have hk : ¬ Spec.Known [x] := by rintro ⟨_, _, _, h, _⟩; cases h
      rw [Spec.systRows, List.takeWhile_cons, if_pos (by simpa using hs), List.filter_cons, if_neg (by simpa using hk)]
      exact h2
    | x :: second :: rest, h =>
      dsimp only at h
      by_cases hst : second ∈ stopWords
      · rw [if_pos hst] at h
        have hs : Spec.Stop (x :: second :: rest) := ⟨_, _, _, rfl, (stopWords_iff _).1 hst⟩
        refine ⟨[], by rw [← Except.ok.inj h]; simp, ?_⟩
        rw [Spec.systRows, List.takeWhile_cons, if_neg (by simpa using hs)]
        exact .nil
      · rw [if_neg hst] at h
        have hs : ¬ Spec.Stop (x :: second :: rest) := by
          rintro ⟨_, _, _, he, hk⟩
          cases he
          exact hst ((stopWords_iff _).2 hk)
        obtain ⟨o, ho, h⟩ := bind_ok h
        obtain ⟨new, h1, h2⟩ := ih h
        obtain ⟨g1, g2⟩ := systLine_spec hnd ho
        by_cases hk : Spec.Known (x :: second :: rest)
        · obtain ⟨s, hs', hrep⟩ := g1 hk
          refine ⟨s :: new, by rw [h1, hs']; simp, ?_⟩
          rw [Spec.systRows, List.takeWhile_cons, if_pos (by simpa using hs), List.filter_cons, if_pos (by simpa using hk)]
          exact .cons hrep h2
        · refine ⟨new, by rw [h1, g2 hk]; simp, ?_⟩
          rw [Spec.systRows, List.takeWhile_cons, if_pos (by simpa using hs), List.filter_cons, if_neg (by simpa using hk)]
          exact h2

theorem setRates_nodup (flt : String → Res V) (bs ps rs : List String) (c c' : Card V) (h : setRates flt bs ps rs c = .ok c')
    (hn : (Dict.keys c.rates).Nodup) : (Dict.keys c'.rates).Nodup := by
  induction bs generalizing ps rs c with
  | nil => rw [← Except.ok.inj h]; exact hn
  | cons b bs ih =>
    rcases ps with _ | ⟨p, ps⟩
    · cases h
    rcases rs with _ | ⟨r, rs⟩
    · cases h
    rw [setRates] at h
    obtain ⟨v, _, h⟩ := bind_ok h
    exact ih _ _ _ h (Dict.nodup_keys_set _ _ _ hn)

/-- The systematics of the card are exactly the rows of a known type after the first row of the rates and before the first
directive, in the order of the card, each with its name, type and one effect per column. -/
theorem c60_systematics_partial {flt : String → Res V} {int : String → Res Int} {files : Files} {text : List Char} {c : Card V}
    {rows : List (List String)} (ht : Spec.TextOf text rows) (h : parse flt int files text = .ok c) {i : Nat}
    (hr : Spec.Begins "rate" (rows.getD i [])) (hf : ∀ j < i, ¬ Spec.Begins "rate" (rows.getD j [])) :
    List.Forall₂ (Spec.Represents int (Dict.keys c.rates)) (Spec.systRows (rows.drop (i + 1))) c.systematics := by
  obtain ⟨c1, c2, c3, c4, c5, h1, h2, h3, h4, h5, h6⟩ := parse_stages h
  obtain ⟨_, _, _, e1⟩ := parseHeader_stage _ _ _ h1
  obtain ⟨_, _, e2⟩ := parseObservations_stage _ _ _ _ h2
  obtain ⟨_, _, _, _, e3⟩ := parseProcesses_stage _ _ _ _ _ h3
  obtain ⟨_, _, e4⟩ := parseShapes_stage _ _ _ _ h4
  obtain ⟨_, e5⟩ := parseSystematics_stage _ _ _ _ h5
  obtain ⟨_, _, _, _, e6⟩ := parseDirectives_stage (readLines text) c5
  have hm := readLines_of ht
  have hl := hm.length_eq
  have hnd : (Dict.keys c3.rates).Nodup := by
    have hr0 : c2.rates = [] := by rw [e2, e1]
    rw [parseProcesses] at h3
    split at h3
    · rw [← Except.ok.inj h3, hr0]; simp [Dict.keys]
    · dsimp only at h3
      obtain ⟨d, _, h3⟩ := bind_ok h3
      exact setRates_nodup _ _ _ _ _ _ h3 (by dsimp only; rw [hr0]; simp [Dict.keys])
  rw [parseSystematics, find_range (i := i) (by rw [hl]; exact begins_lt hr)
    ((starts_iff hm "rate" (by decide) (by decide) i).2 hr) (fun j hj => starts_false hm "rate" (by decide) (by decide) (hf j hj))] at h5
  dsimp only at h5
  obtain ⟨ss, hss, h5⟩ := map_ok h5
  have er4 : c4.rates = c3.rates := by rw [e4]
  have es4 : c4.systematics = [] := by rw [e4, e3, e2, e1]
  rw [er4, es4] at hss
  obtain ⟨new, hn1, hn2⟩ := systLoop_spec hnd (List.forall₂_drop (i + 1) hm) hss
  have er : c.rates = c3.rates := by rw [h6, e6, e5, e4]
  have es : c.systematics = new := by rw [h6, e6, ← h5]; exact hn1
  rw [er, es]
  exact hn2

/-! Directives -/

theorem parseDirectives_spec {lines : List Line} {rows : List (List String)} (hm : List.Forall₂ Matches lines rows) (c : Card V) :
    (parseDirectives lines c).params = c.params ++ rows.filterMap (fun r => match r with
      | n :: w :: rest => if w = "param" then some (n :: rest) else none | _ => none) ∧
    (parseDirectives lines c).rateParams = c.rateParams ++ rows.filterMap (fun r => match r with
      | n :: w :: rest => if w = "rateParam" then some (n :: rest) else none | _ => none) ∧
    (parseDirectives lines c).groups = c.groups ++ rows.filterMap (fun r => match r with
      | n :: w :: rest => if w = "group" then some (n :: rest) else none | _ => none) := by
  induction hm generalizing c with
  | nil => simp [parseDirectives]
  | @cons l row ls rows hl _ ih =>
    rw [parseDirectives, hl.1]
    match row with
    | [] => simpa using ih c
    | [x] => simpa using ih c
    | x :: second :: rest =>
      dsimp only
      split
      · rename_i hs; subst hs
        have := ih { c with params := c.params ++ [x :: rest] }
        simpa [List.filterMap_cons] using this
      · split
        · rename_i _ hs; subst hs
          have := ih { c with rateParams := c.rateParams ++ [x :: rest] }
          simpa [List.filterMap_cons] using this
        · split
          · rename_i _ _ hs; subst hs
            have := ih { c with groups := c.groups ++ [x :: rest] }
            simpa [List.filterMap_cons] using this
          · rename_i n1 n2 n3
            have := ih { c with edits := if second = "nuisance edit" then c.edits ++ [x :: rest] else c.edits }
            split
            · rename_i hs
              rw [if_pos hs] at this
              simpa [List.filterMap_cons, n1, n2, n3] using this
            · rename_i hs
              rw [if_neg hs] at this
              simpa [List.filterMap_cons, n1, n2, n3] using this

/-- Every `param`, `rateParam` and `group` row of the card, wherever it is, is represented, in order. -/
theorem c60_directives {flt : String → Res V} {int : String → Res Int} {files : Files} {text : List Char} {c : Card V}
    {rows : List (List String)} (ht : Spec.TextOf text rows) (h : parse flt int files text = .ok c) (name : String) (rest : List String) :
    ((name :: "param" :: rest) ∈ rows ↔ (name :: rest) ∈ c.params) ∧ ((name :: "rateParam" :: rest) ∈ rows ↔ (name :: rest) ∈ c.rateParams) ∧
      ((name :: "group" :: rest) ∈ rows ↔ (name :: rest) ∈ c.groups) := by
  obtain ⟨c1, c2, c3, c4, c5, h1, h2, h3, h4, h5, h6⟩ := parse_stages h
  obtain ⟨_, _, _, e1⟩ := parseHeader_stage _ _ _ h1
  obtain ⟨_, _, e2⟩ := parseObservations_stage _ _ _ _ h2
  obtain ⟨_, _, _, _, e3⟩ := parseProcesses_stage _ _ _ _ _ h3
  obtain ⟨_, _, e4⟩ := parseShapes_stage _ _ _ _ h4
  obtain ⟨_, e5⟩ := parseSystematics_stage _ _ _ _ h5
  obtain ⟨s1, s2, s3⟩ := parseDirectives_spec (readLines_of ht) c5
  have p1 : c5.params = [] := by rw [e5, e4, e3, e2, e1]
  have p2 : c5.rateParams = [] := by rw [e5, e4, e3, e2, e1]
  have p3 : c5.groups = [] := by rw [e5, e4, e3, e2, e1]
  rw [h6, s1, s2, s3, p1, p2, p3]
  have key : ∀ w : String, ((name :: w :: rest) ∈ rows ↔ (name :: rest) ∈ rows.filterMap (fun r => match r with
      | n :: w' :: rest => if w' = w then some (n :: rest) else none | _ => none)) := by
    intro w
    rw [List.mem_filterMap]
    constructor
    · intro hm
      exact ⟨_, hm, by simp⟩
    · rintro ⟨r, hr, he⟩
      match r, he with
      | n :: w' :: rest', he =>
        dsimp only at he
        split at he
        · rename_i hw
          cases he
          rw [← hw]; exact hr
        · cases he
  refine ⟨?_, ?_, ?_⟩ <;> rw [List.nil_append] <;> exact key _

theorem words_no_space (l : Line) : ∀ w ∈ words l, ∀ c ∈ w.toList, isSpace c = false := by
  have h := lineOf_words l
  generalize words l = ts at h
  induction h with
  | blank => intro w hw; cases hw
  | word gap t rest ts hg ht hw hr _ ih =>
    intro w hww
    rcases List.mem_cons.1 hww with rfl | hww
    · exact hw
    · exact ih w hww

theorem edits_never (lines : List Line) (c : Card V) : (parseDirectives lines c).edits = c.edits := by
  induction lines generalizing c with
  | nil => rfl
  | cons l ls ih =>
    rw [parseDirectives]
    split
    · rename_i first second rest hw
      rw [ih]
      split
      · rfl
      · split
        · rfl
        · split
          · rfl
          · rw [if_neg]
            rintro rfl
            have := words_no_space l "nuisance edit" (by rw [hw]; simp) ' ' (by decide)
            revert this; decide
    · exact ih c

/-- A row `nuisance edit …` is never represented: no card has nuisance edits. -/
theorem c60_nuisance_edit_violated {flt : String → Res V} {int : String → Res Int} {files : Files} {text : List Char} {c : Card V}
    (h : parse flt int files text = .ok c) : c.edits = [] := by
  obtain ⟨c1, c2, c3, c4, c5, h1, h2, h3, h4, h5, h6⟩ := parse_stages h
  obtain ⟨_, _, _, e1⟩ := parseHeader_stage _ _ _ h1
  obtain ⟨_, _, e2⟩ := parseObservations_stage _ _ _ _ h2
  obtain ⟨_, _, _, _, e3⟩ := parseProcesses_stage _ _ _ _ _ h3
  obtain ⟨_, _, e4⟩ := parseShapes_stage _ _ _ _ h4
  obtain ⟨_, e5⟩ := parseSystematics_stage _ _ _ _ h5
  rw [h6, edits_never, e5, e4, e3, e2, e1]

/-! Cards that are read without an exception and lose something.  Numbers are kept as their words. -/

namespace Ex

def int (s : String) : Res Int := match s.toList with
  | ['0'] => .ok 0
  | ['1'] => .ok 1
  | ['2'] => .ok 2
  | ['5'] => .ok 5
  | _ => .error .value

def files : Files := ⟨id, fun _ => true⟩

def read (text : String) : Res (Card String) := parse (fun s => .ok s) int files text.toList

def good : String := "# a card\nimax 1\njmax 1\nkmax *\n-----\n  bin b1 b2\n  observation 10 20\n-----\nbin b1\tb1 b2\nprocess sig bkg bkg\nprocess 0 1 1\nrate 5 6 7 \n\nlumi lnN 1.1 - 1.2\nnorm gmN 5 - 0.1 0.2\nalpha param 0 1\nr rateParam b1 bkg 1\n"

/-- the card is read and has the property -/
def ok (text : String) (p : Card String → Bool) : Bool := match read text with
  | .ok c => p c
  | .error _ => false

theorem exists_of {text : String} {p : Card String → Bool} (h : ok text p = true) : ∃ c, read text = .ok c ∧ p c = true := by
  rw [ok] at h
  split at h
  · rename_i c hc
    exact ⟨c, hc, h⟩
  · cases h

end Ex

/-- a card with everything in the usual order is read completely -/
example : ∃ c, Ex.read Ex.good = .ok c ∧ c.bins = ["b1", "b2"] ∧ c.observations = [("b1", "10"), ("b2", "20")] ∧
    c.rates = [(("b1", "sig"), "5"), (("b1", "bkg"), "6"), (("b2", "bkg"), "7")] ∧
    c.systematics = [⟨"lumi", "lnN", none, [(("b1", "sig"), "1.1"), (("b2", "bkg"), "1.2")]⟩,
      ⟨"norm", "gmN", some 5, [(("b1", "bkg"), "0.1"), (("b2", "bkg"), "0.2")]⟩] ∧
    c.params = [["alpha", "0", "1"]] ∧ c.rateParams = [["r", "b1", "bkg", "1"]] := by
  obtain ⟨c, h, hp⟩ := Ex.exists_of (text := Ex.good) (p := fun c => decide (c.bins = ["b1", "b2"] ∧ c.observations = [("b1", "10"), ("b2", "20")] ∧
    c.rates = [(("b1", "sig"), "5"), (("b1", "bkg"), "6"), (("b2", "bkg"), "7")] ∧
    c.systematics = [⟨"lumi", "lnN", none, [(("b1", "sig"), "1.1"), (("b2", "bkg"), "1.2")]⟩,
      ⟨"norm", "gmN", some 5, [(("b1", "bkg"), "0.1"), (("b2", "bkg"), "0.2")]⟩] ∧
    c.params = [["alpha", "0", "1"]] ∧ c.rateParams = [["r", "b1", "bkg", "1"]])) (by decide +kernel)
  exact ⟨c, h, of_decide_eq_true hp⟩

theorem textOf_rows (text : List Char) : Spec.TextOf text ((readLines text).map words) := by
  obtain ⟨rows, h⟩ := textOf_exists text
  have hm := readLines_of h
  have : (readLines text).map words = rows := by
    clear h
    generalize readLines text = lines at hm
    induction hm with
    | nil => rfl
    | cons hx _ ih => rw [List.map_cons, ih, hx.1]
  rw [this]; exact h

instance (p : String) (row : List String) : Decidable (Spec.Begins p row) :=
  decidable_of_iff ((match row with | t :: _ => p.toList.isPrefixOf t.toList | [] => false) = true) (by
    cases row with
    | nil => simp [Spec.Begins]
    | cons t ts => simp [Spec.Begins])

instance (rows : List (List String)) (i : Nat) : Decidable (Spec.Block rows i) := by unfold Spec.Block; infer_instance

/-- the rows of the card, and the hypotheses of the theorems about observations, rates and systematics -/
example : Spec.TextOf Ex.good.toList ((readLines Ex.good.toList).map words) ∧
    (let rows := (readLines Ex.good.toList).map words
    rows.length = 15 ∧ Spec.Begins "bin" (rows.getD 4 []) ∧ ¬ Spec.Begins "process" (rows.getD 5 []) ∧
      (∀ i < 4, Spec.Begins "bin" (rows.getD i []) → Spec.Begins "process" (rows.getD (i + 1) [])) ∧
      (∀ i < 16, Spec.Begins "bin" (rows.getD i []) → Spec.Begins "process" (rows.getD (i + 1) []) → 0 < i ∧ i + 2 < rows.length) ∧
      Spec.Begins "observation" (rows.getD 5 []) ∧ (∀ i < 5, ¬ Spec.Begins "observation" (rows.getD i [])) ∧
      (rows.getD 4 []).length = (rows.getD 5 []).length ∧ ((rows.getD 4 []).drop 1).Nodup ∧
      Spec.Block rows 7 ∧ (∀ j < 7, ¬ Spec.Block rows j) ∧ (((rows.getD 7 []).drop 1).zip ((rows.getD 8 []).drop 1)).Nodup ∧
      Spec.Begins "rate" (rows.getD 10 []) ∧ (∀ j < 10, ¬ Spec.Begins "rate" (rows.getD j []))) :=
  ⟨textOf_rows _, by decide +kernel⟩

/-- A systematic after the first directive is dropped: here `late` is not read. -/
theorem c60_after_directive_violated :
    ∃ c, Ex.read (Ex.good ++ "late lnN 1.3 1.3 1.3\n") = .ok c ∧ ∀ s ∈ c.systematics, s.name ≠ "late" := by
  obtain ⟨c, h, hp⟩ := Ex.exists_of (text := Ex.good ++ "late lnN 1.3 1.3 1.3\n")
    (p := fun c => decide (∀ s ∈ c.systematics, s.name ≠ "late")) (by decide +kernel)
  exact ⟨c, h, of_decide_eq_true hp⟩

/-- A systematic before the row of the rates is dropped. -/
theorem c60_before_rate_violated :
    ∃ c, Ex.read ("early lnN 1.3 1.3 1.3\n" ++ Ex.good) = .ok c ∧ ∀ s ∈ c.systematics, s.name ≠ "early" := by
  obtain ⟨c, h, hp⟩ := Ex.exists_of (text := "early lnN 1.3 1.3 1.3\n" ++ Ex.good)
    (p := fun c => decide (∀ s ∈ c.systematics, s.name ≠ "early")) (by decide +kernel)
  exact ⟨c, h, of_decide_eq_true hp⟩

/-- A row of an unknown type is dropped: for example the statistical uncertainties `* autoMCStats 10`, or a misspelt `lnn`. -/
theorem c60_type_violated :
    ∃ c, Ex.read "bin b\nobservation 1\nbin b\nprocess s\nprocess 0\nrate 5\nlumi lnn 1.1\n* autoMCStats 10\n" = .ok c ∧
      c.systematics = [] ∧ c.params = [] ∧ c.rateParams = [] ∧ c.groups = [] := by
  obtain ⟨c, h, hp⟩ := Ex.exists_of (text := "bin b\nobservation 1\nbin b\nprocess s\nprocess 0\nrate 5\nlumi lnn 1.1\n* autoMCStats 10\n")
    (p := fun c => decide (c.systematics = [] ∧ c.params = [] ∧ c.rateParams = [] ∧ c.groups = [])) (by decide +kernel)
  exact ⟨c, h, of_decide_eq_true hp⟩

/-- A systematic with an effect too few, or too many, is read without any effect. -/
theorem c60_effects_violated :
    ∃ c, Ex.read "bin b\nobservation 1\nbin b b\nprocess s t\nprocess 0 1\nrate 5 5\nlumi lnN 1.1\nscale lnN 1.1 1.2 1.3\n" = .ok c ∧
      c.systematics = [⟨"lumi", "lnN", none, []⟩, ⟨"scale", "lnN", none, []⟩] := by
  obtain ⟨c, h, hp⟩ := Ex.exists_of (text := "bin b\nobservation 1\nbin b b\nprocess s t\nprocess 0 1\nrate 5 5\nlumi lnN 1.1\nscale lnN 1.1 1.2 1.3\n")
    (p := fun c => decide (c.systematics = [⟨"lumi", "lnN", none, []⟩, ⟨"scale", "lnN", none, []⟩])) (by decide +kernel)
  exact ⟨c, h, of_decide_eq_true hp⟩

/-- Two columns of the same bin and process: the first rate is lost, and with it the effects of every systematic. -/
theorem c60_duplicate_column_violated :
    ∃ c, Ex.read "bin b\nobservation 1\nbin b b b\nprocess s t t\nprocess 0 1 1\nrate 5 6 7\nlumi lnN 1.1 1.1 1.1\n" = .ok c ∧
      c.rates = [(("b", "s"), "5"), (("b", "t"), "7")] ∧ c.systematics = [⟨"lumi", "lnN", none, []⟩] := by
  obtain ⟨c, h, hp⟩ := Ex.exists_of (text := "bin b\nobservation 1\nbin b b b\nprocess s t t\nprocess 0 1 1\nrate 5 6 7\nlumi lnN 1.1 1.1 1.1\n")
    (p := fun c => decide (c.rates = [(("b", "s"), "5"), (("b", "t"), "7")] ∧ c.systematics = [⟨"lumi", "lnN", none, []⟩])) (by decide +kernel)
  exact ⟨c, h, of_decide_eq_true hp⟩

/-- More processes and rates than bins: the additional columns are dropped. -/
theorem c60_columns_violated :
    ∃ c, Ex.read "bin b\nobservation 1\nbin b\nprocess s t\nprocess 0 1\nrate 5 6\n" = .ok c ∧ c.rates = [(("b", "s"), "5")] := by
  obtain ⟨c, h, hp⟩ := Ex.exists_of (text := "bin b\nobservation 1\nbin b\nprocess s t\nprocess 0 1\nrate 5 6\n")
    (p := fun c => decide (c.rates = [(("b", "s"), "5")])) (by decide +kernel)
  exact ⟨c, h, of_decide_eq_true hp⟩

/-- A different number of bins and observations: no observation is read. -/
theorem c60_observations_violated :
    ∃ c, Ex.read "bin b c\nobservation 1 2 3\nbin b\nprocess s\nprocess 0\nrate 5\n" = .ok c ∧ c.bins = ["b", "c"] ∧ c.observations = [] := by
  obtain ⟨c, h, hp⟩ := Ex.exists_of (text := "bin b c\nobservation 1 2 3\nbin b\nprocess s\nprocess 0\nrate 5\n")
    (p := fun c => decide (c.bins = ["b", "c"] ∧ c.observations = [])) (by decide +kernel)
  exact ⟨c, h, of_decide_eq_true hp⟩

/-- The order of the sections matters: with the process section at the beginning of the text its bins are taken for those of the
observations, which are dropped; with any other row before it they are read. -/
theorem c60_order_violated :
    (∃ c, Ex.read "bin b b\nprocess s t\nprocess 0 1\nrate 5 6\nbin b\nobservation 1\n" = .ok c ∧ c.bins = ["b", "b"] ∧
      c.observations = []) ∧
    (∃ c, Ex.read "---\nbin b b\nprocess s t\nprocess 0 1\nrate 5 6\nbin b\nobservation 1\n" = .ok c ∧ c.bins = ["b"] ∧
      c.observations = [("b", "1")]) := by
  constructor
  · obtain ⟨c, h, hp⟩ := Ex.exists_of (text := "bin b b\nprocess s t\nprocess 0 1\nrate 5 6\nbin b\nobservation 1\n")
      (p := fun c => decide (c.bins = ["b", "b"] ∧ c.observations = [])) (by decide +kernel)
    exact ⟨c, h, of_decide_eq_true hp⟩
  · obtain ⟨c, h, hp⟩ := Ex.exists_of (text := "---\nbin b b\nprocess s t\nprocess 0 1\nrate 5 6\nbin b\nobservation 1\n")
      (p := fun c => decide (c.bins = ["b"] ∧ c.observations = [("b", "1")])) (by decide +kernel)
    exact ⟨c, h, of_decide_eq_true hp⟩

/-- A row between the rows of the process section, for example a separator: no rate is read. -/
theorem c60_separator_violated :
    ∃ c, Ex.read "bin b\nobservation 1\nbin b\nprocess s\nprocess 0\n---\nrate 5\nlumi lnN 1.1\n" = .ok c ∧ c.rates = [] ∧
      c.processes = [] ∧ c.systematics = [⟨"lumi", "lnN", none, []⟩] := by
  obtain ⟨c, h, hp⟩ := Ex.exists_of (text := "bin b\nobservation 1\nbin b\nprocess s\nprocess 0\n---\nrate 5\nlumi lnN 1.1\n")
    (p := fun c => decide (c.rates = [] ∧ c.processes = [] ∧ c.systematics = [⟨"lumi", "lnN", none, []⟩])) (by decide +kernel)
  exact ⟨c, h, of_decide_eq_true hp⟩

/-! The converter -/

theorem nominal_counting (env : Env V H) {c : Card V} (hc : c.shapes = []) (proc bin : String) :
    nominal env c proc bin = .ok (env.count ((Dict.get? c.observations bin).getD env.zero)) := by
  have : shapeMap c = [] := by rw [shapeMap, hc]; rfl
  rw [nominal, this]
  rfl

theorem processCalls_mem {env : Env V H} {c : Card V} {bin : String} {ps : List String} {calls : List (Call V H)}
    (h : processCalls env c bin ps = .ok calls) : ∀ p ∈ ps, ∃ x, nominal env c p bin = .ok x ∧
      (p = "data_obs" → Call.channel x bin ∈ calls ∧ Call.data x bin ∈ calls) ∧
      (p ≠ "data_obs" → Call.process x p bin (decide ((Dict.get? c.indices p).getD 0 ≤ 0)) ∈ calls) := by
  induction ps generalizing calls with
  | nil => intro p hp; cases hp
  | cons q qs ih =>
    rw [processCalls] at h
    obtain ⟨x, hx, h⟩ := bind_ok h
    obtain ⟨r, hr, h⟩ := map_ok h
    intro p hp
    rcases List.mem_cons.1 hp with rfl | hp
    · refine ⟨x, hx, ?_, ?_⟩
      · intro hd; rw [← h, if_pos hd]; simp
      · intro hd; rw [← h, if_neg hd]; simp
    · obtain ⟨y, h1, h2, h3⟩ := ih hr p hp
      refine ⟨y, h1, ?_, ?_⟩
      · intro hd; rw [← h]; exact ⟨List.mem_append_right _ (h2 hd).1, List.mem_append_right _ (h2 hd).2⟩
      · intro hd; rw [← h]; exact List.mem_append_right _ (h3 hd)

theorem processCalls_only {env : Env V H} {c : Card V} {bin : String} {ps : List String} {calls : List (Call V H)}
    (h : processCalls env c bin ps = .ok calls) : ∀ x ∈ calls, (∃ t, x = .channel t bin) ∨ (∃ t, x = .data t bin) ∨
      ∃ t p s, x = .process t p bin s ∧ nominal env c p bin = .ok t := by
  induction ps generalizing calls with
  | nil => intro x hx; rw [← Except.ok.inj h] at hx; cases hx
  | cons q qs ih =>
    rw [processCalls] at h
    obtain ⟨t, ht, h⟩ := bind_ok h
    obtain ⟨r, hr, h⟩ := map_ok h
    intro x hx
    rw [← h, List.mem_append] at hx
    rcases hx with hx | hx
    · split at hx
      · rcases List.mem_cons.1 hx with rfl | hx
        · exact .inl ⟨t, rfl⟩
        · exact .inr (.inl ⟨t, List.mem_singleton.1 hx⟩)
      · exact .inr (.inr ⟨t, q, _, List.mem_singleton.1 hx, ht⟩)
    · exact ih hr x hx

theorem nominalCalls_mem {env : Env V H} {c : Card V} {bs : List String} {calls : List (Call V H)}
    (h : nominalCalls env c bs = .ok calls) : ∀ b ∈ bs, ∃ d r, Dict.get? c.binMap b = some d ∧
      processCalls env c b ("data_obs" :: Dict.keys d) = .ok r ∧ ∀ x ∈ r, x ∈ calls := by
  induction bs generalizing calls with
  | nil => intro b hb; cases hb
  | cons b' bs ih =>
    rw [nominalCalls] at h
    obtain ⟨d, hd, h⟩ := bind_ok h
    obtain ⟨r, hr, h⟩ := bind_ok h
    obtain ⟨r', hr', hcalls⟩ := map_ok h
    intro b hb
    rcases List.mem_cons.1 hb with rfl | hb
    · refine ⟨d, r, ?_, hr, fun x hx => by rw [← hcalls]; exact List.mem_append_left _ hx⟩
      rw [Dict.get] at hd
      split at hd
      · rename_i v hv
        rw [hv, Except.ok.inj hd]
      · cases hd
    · obtain ⟨d2, r2, e1, e2, e3⟩ := ih hr' b hb
      exact ⟨d2, r2, e1, e2, fun x hx => by rw [← hcalls]; exact List.mem_append_right _ (e3 x hx)⟩

theorem nominalCalls_only {env : Env V H} {c : Card V} {bs : List String} {calls : List (Call V H)}
    (h : nominalCalls env c bs = .ok calls) : ∀ x ∈ calls, ∃ b ∈ bs, (∃ t, x = .channel t b) ∨ (∃ t, x = .data t b) ∨
      ∃ t p s, x = .process t p b s ∧ nominal env c p b = .ok t := by
  induction bs generalizing calls with
  | nil => intro x hx; rw [← Except.ok.inj h] at hx; cases hx
  | cons b' bs ih =>
    rw [nominalCalls] at h
    obtain ⟨d, hd, h⟩ := bind_ok h
    obtain ⟨r, hr, h⟩ := bind_ok h
    obtain ⟨r', hr', h⟩ := map_ok h
    intro x hx
    rw [← h, List.mem_append] at hx
    rcases hx with hx | hx
    · exact ⟨b', by simp, processCalls_only hr x hx⟩
    · obtain ⟨b, hb, e⟩ := ih hr' x hx
      exact ⟨b, by simp [hb], e⟩

theorem convert_parts {env : Env V H} {c : Card V} {calls : List (Call V H)} (h : convert env c = .ok calls) :
    ∃ a b d, nominalCalls env c c.bins = .ok a ∧ rateParamCalls env c c.rateParams = .ok b ∧ systCalls env c c.systematics = .ok d ∧
      calls = a ++ b ++ d := by
  rw [convert] at h
  obtain ⟨a, ha, h⟩ := bind_ok h
  obtain ⟨b, hb, h⟩ := bind_ok h
  obtain ⟨d, hd, h⟩ := map_ok h
  exact ⟨a, b, d, ha, hb, hd, h.symm⟩

/-- Every process of a bin of the observations is handed to the writer, as a signal exactly if its index is not positive. -/
theorem c60_processes_converted {env : Env V H} {c : Card V} {calls : List (Call V H)} (h : convert env c = .ok calls) {b : String}
    (hb : b ∈ c.bins) {d : Dict String V} (hd : Dict.get? c.binMap b = some d) {p : String} {v : V} (hp : Dict.get? d p = some v)
    (hno : p ≠ "data_obs") :
    ∃ x, nominal env c p b = .ok x ∧ Call.process x p b (decide ((Dict.get? c.indices p).getD 0 ≤ 0)) ∈ calls := by
  obtain ⟨a, r, e, ha, _, _, hc⟩ := convert_parts h
  obtain ⟨d', r', h1, h2, h3⟩ := nominalCalls_mem ha b hb
  rw [hd] at h1
  cases h1
  obtain ⟨x, hx, _, hm⟩ := processCalls_mem h2 p (by
    rw [List.mem_cons]; exact .inr ((Dict.mem_keys_iff d p).2 ⟨v, hp⟩))
  exact ⟨x, hx, by rw [hc]; exact List.mem_append_left _ (List.mem_append_left _ (h3 _ (hm hno)))⟩

theorem rateParamCalls_only {env : Env V H} {c : Card V} {ls : List (List String)} {calls : List (Call V H)}
    (h : rateParamCalls env c ls = .ok calls) : ∀ x ∈ calls, ∃ n ps b, x = .norm n ps b (.single env.onePercent) false := by
  induction ls generalizing calls with
  | nil => intro x hx; rw [← Except.ok.inj h] at hx; cases hx
  | cons l ls ih =>
    rw [rateParamCalls] at h
    obtain ⟨y, hy, h⟩ := bind_ok h
    obtain ⟨r, hr, h⟩ := map_ok h
    intro x hx
    rw [← h, List.mem_append] at hx
    rcases hx with hx | hx
    · unfold rateParamCall at hy
      split at hy
      · obtain ⟨_, _, hy⟩ := bind_ok hy
        obtain ⟨_, _, hy⟩ := map_ok hy
        rw [← hy] at hx
        obtain ⟨b, _, hb⟩ := List.mem_map.1 hx
        exact ⟨_, _, _, hb.symm⟩
      · cases hy
    · exact ih hr x hx

theorem effectCalls_mem {f : String → String → String → Res (Call V H)} {d : Dict (String × String) String} {calls : List (Call V H)}
    (h : effectCalls f d = .ok calls) : (∀ b p e, ((b, p), e) ∈ d → e ≠ "-" → e ≠ "0" → ∃ x, f b p e = .ok x ∧ x ∈ calls) ∧
      ∀ x ∈ calls, ∃ b p e, ((b, p), e) ∈ d ∧ f b p e = .ok x := by
  induction d generalizing calls with
  | nil => exact ⟨(fun b p e hm => by cases hm), fun x hx => by rw [← Except.ok.inj h] at hx; cases hx⟩
  | cons a d ih =>
    obtain ⟨⟨b', p'⟩, e'⟩ := a
    rw [effectCalls] at h
    split at h
    · rename_i hs
      obtain ⟨h1, h2⟩ := ih h
      refine ⟨?_, ?_⟩
      · intro b p e hm n1 n2
        rcases List.mem_cons.1 hm with he | hm
        · cases he
          rcases hs with hs | hs
          · exact absurd hs n1
          · exact absurd hs n2
        · exact h1 b p e hm n1 n2
      · intro x hx
        obtain ⟨b, p, e, hm, hf⟩ := h2 x hx
        exact ⟨b, p, e, List.mem_cons_of_mem _ hm, hf⟩
    · obtain ⟨x, hx, h⟩ := bind_ok h
      obtain ⟨r, hr, h⟩ := map_ok h
      obtain ⟨h1, h2⟩ := ih hr
      refine ⟨?_, ?_⟩
      · intro b p e hm n1 n2
        rcases List.mem_cons.1 hm with he | hm
        · cases he
          exact ⟨x, hx, by rw [← h]; simp⟩
        · obtain ⟨y, hy, hmem⟩ := h1 b p e hm n1 n2
          exact ⟨y, hy, by rw [← h]; exact List.mem_cons_of_mem _ hmem⟩
      · intro y hy
        rw [← h] at hy
        rcases List.mem_cons.1 hy with rfl | hy
        · exact ⟨b', p', e', by simp, hx⟩
        · obtain ⟨b, p, e, hm, hf⟩ := h2 y hy
          exact ⟨b, p, e, List.mem_cons_of_mem _ hm, hf⟩

theorem systCalls_mem {env : Env V H} {c : Card V} {ss : List Syst} {calls : List (Call V H)} (h : systCalls env c ss = .ok calls) :
    ∀ s ∈ ss, ∀ b p e, ((b, p), e) ∈ s.effects → e ≠ "-" → e ≠ "0" →
      ((s.type = "lnN" ∨ s.type = "lnU") → ∃ x, normCall env s.name p b e = .ok x ∧ x ∈ calls) ∧
      (s.type ∈ ["shape", "shapeN", "shape?", "shapeU"] → ∃ x, shapeCall env c s.name s.type p b e = .ok x ∧ x ∈ calls) := by
  induction ss generalizing calls with
  | nil => intro s hs; cases hs
  | cons s' ss ih =>
    rw [systCalls] at h
    obtain ⟨r, hr, h⟩ := bind_ok h
    obtain ⟨r', hr', hcalls⟩ := map_ok h
    intro s hs b p e hm n1 n2
    rcases List.mem_cons.1 hs with rfl | hs
    · refine ⟨?_, ?_⟩
      · intro ht
        rw [if_neg (by rcases ht with ht | ht <;> rw [ht] <;> decide), if_pos (by rcases ht with ht | ht <;> rw [ht] <;> decide)] at hr
        obtain ⟨x, hx, hmem⟩ := (effectCalls_mem hr).1 b p e hm n1 n2
        exact ⟨x, hx, by rw [← hcalls]; exact List.mem_append_left _ hmem⟩
      · intro ht
        rw [if_pos ht] at hr
        obtain ⟨x, hx, hmem⟩ := (effectCalls_mem hr).1 b p e hm n1 n2
        exact ⟨x, hx, by rw [← hcalls]; exact List.mem_append_left _ hmem⟩
    · obtain ⟨g1, g2⟩ := ih hr' s hs b p e hm n1 n2
      refine ⟨?_, ?_⟩
      · intro ht
        obtain ⟨x, hx, hmem⟩ := g1 ht
        exact ⟨x, hx, by rw [← hcalls]; exact List.mem_append_right _ hmem⟩
      · intro ht
        obtain ⟨x, hx, hmem⟩ := g2 ht
        exact ⟨x, hx, by rw [← hcalls]; exact List.mem_append_right _ hmem⟩

theorem splitStr_pair (ch : Char) (a b : String) (ha : ch ∉ a.toList) (hb : ch ∉ b.toList) (s : String)
    (hs : s.toList = a.toList ++ ch :: b.toList) : splitStr ch s = [a, b] := by
  rw [splitStr, hs, splitOn_cons _ _ _ ha, splitOn_none _ _ hb]
  simp

/-- Every effect of a log-normal systematic is handed to the writer: `k` as the factor `k`, `down/up` as the pair (up, down); the
effect `0` means none. -/
theorem c60_norm_converted {env : Env V H} {c : Card V} {calls : List (Call V H)} (h : convert env c = .ok calls) {s : Syst}
    (hs : s ∈ c.systematics) (ht : s.type = "lnN" ∨ s.type = "lnU") {b p e : String} (he : ((b, p), e) ∈ s.effects) (h1 : e ≠ "-")
    (h2 : e ≠ "0") :
    ('/' ∉ e.toList → ∃ v, env.flt e = .ok v ∧ Call.norm s.name [p] b (.single v) true ∈ calls) ∧
      ∀ down up : String, e.toList = down.toList ++ '/' :: up.toList → '/' ∉ down.toList → '/' ∉ up.toList →
        ∃ u d, env.flt up = .ok u ∧ env.flt down = .ok d ∧ Call.norm s.name [p] b (.pair u d) true ∈ calls := by
  obtain ⟨a, r, d, _, _, hd, hc⟩ := convert_parts h
  obtain ⟨x, hx, hm⟩ := (systCalls_mem hd s hs b p e he h1 h2).1 ht
  have hmem : x ∈ calls := by rw [hc]; exact List.mem_append_right _ hm
  rw [normCall] at hx
  refine ⟨?_, ?_⟩
  · intro hsl
    rw [if_neg hsl] at hx
    obtain ⟨v, hv, hx⟩ := map_ok hx
    exact ⟨v, hv, by rw [hx]; exact hmem⟩
  · intro down up hspl hdn hup
    rw [if_pos (by rw [hspl]; simp), splitStr_pair '/' down up hdn hup e hspl] at hx
    dsimp only at hx
    obtain ⟨u, hu, hx⟩ := bind_ok hx
    obtain ⟨d, hd, hx⟩ := map_ok hx
    exact ⟨u, d, hu, hd, by rw [hx]; exact hmem⟩

/-- A process without shape is given the observation of its bin, not its rate: the rates of a card without shapes have no effect
on the templates. -/
theorem c60_counting_violated {env : Env V H} {c : Card V} (hc : c.shapes = []) {calls : List (Call V H)} (h : convert env c = .ok calls)
    {x : H} {p b : String} {s : Bool} (hx : Call.process x p b s ∈ calls) : x = env.count ((Dict.get? c.observations b).getD env.zero) := by
  obtain ⟨a, r, d, ha, hr, hd, hcalls⟩ := convert_parts h
  rw [hcalls, List.mem_append, List.mem_append] at hx
  rcases hx with (hx | hx) | hx
  · obtain ⟨b', _, hx⟩ := nominalCalls_only ha _ hx
    rcases hx with ⟨_, hx⟩ | ⟨_, hx⟩ | ⟨t, p', s', hx, hn⟩
    · cases hx
    · cases hx
    · cases hx
      rw [nominal_counting env hc] at hn
      exact (Except.ok.inj hn).symm
  · obtain ⟨_, _, _, hx⟩ := rateParamCalls_only hr _ hx
    cases hx
  · exfalso
    have : ∀ (ss : List Syst) (d : List (Call V H)), systCalls env c ss = .ok d → Call.process x p b s ∉ d := by
      intro ss
      induction ss with
      | nil => intro d hd; rw [← Except.ok.inj hd]; simp
      | cons s' ss ih =>
        intro d hd
        rw [systCalls] at hd
        obtain ⟨r1, hr1, hd⟩ := bind_ok hd
        obtain ⟨r2, hr2, hd⟩ := map_ok hd
        rw [← hd, List.mem_append, not_or]
        refine ⟨?_, ih r2 hr2⟩
        have hnorm : ∀ n pr bi ef, normCall env n pr bi ef ≠ .ok (Call.process x p b s) := by
          intro n pr bi ef hh
          rw [normCall] at hh
          split at hh
          · split at hh
            · obtain ⟨_, _, hh⟩ := bind_ok hh
              obtain ⟨_, _, hh⟩ := map_ok hh
              cases hh
            · cases hh
          · obtain ⟨_, _, hh⟩ := map_ok hh
            cases hh
        intro hmem
        split at hr1
        · obtain ⟨bi, pr, ef, _, hf⟩ := (effectCalls_mem hr1).2 _ hmem
          rw [shapeCall] at hf
          obtain ⟨up, _, hf⟩ := bind_ok hf
          obtain ⟨dn, _, hf⟩ := bind_ok hf
          split at hf
          · exact hnorm _ _ _ _ hf
          · obtain ⟨_, _, hf⟩ := map_ok hf
            cases hf
        · split at hr1
          · obtain ⟨bi, pr, ef, _, hf⟩ := (effectCalls_mem hr1).2 _ hmem
            exact hnorm _ _ _ _ hf
          · rw [← Except.ok.inj hr1] at hmem; cases hmem
    exact this _ _ hd hx

theorem nominalCalls_congr {env : Env V H} {c c' : Card V} (h1 : c.shapes = c'.shapes) (h2 : c.processes = c'.processes) (h3 : c.bins = c'.bins)
    (h4 : c.observations = c'.observations) (h5 : c.indices = c'.indices) (h6 : c.binMap = c'.binMap) (bs : List String) :
    nominalCalls env c bs = nominalCalls env c' bs := by
  have hs : shapeMap c = shapeMap c' := by rw [shapeMap, shapeMap, h1, h2, h3]
  have hn : ∀ p b, nominal env c p b = nominal env c' p b := fun p b => by rw [nominal, nominal, hs, h4]
  have hp : ∀ b ps, processCalls env c b ps = processCalls env c' b ps := by
    intro b ps
    induction ps with
    | nil => rfl
    | cons p ps ih => rw [processCalls, processCalls, hn, ih, h5]
  induction bs with
  | nil => rfl
  | cons b bs ih =>
    rw [nominalCalls, nominalCalls, h6, ih]
    cases Dict.get c'.binMap b with
    | error e => rfl
    | ok d => rw [ok_bind, ok_bind, hp]

/-- Rows `param` and `group` and systematics of type `gmN` are read and then ignored by the converter, without a message. -/
theorem c60_ignored_violated (env : Env V H) (c : Card V) (params groups : List (List String)) :
    convert env { c with params := params, groups := groups, systematics := c.systematics.filter fun s => s.type ≠ "gmN" } =
      convert env c := by
  have h2 : ∀ (c' : Card V), c'.shapes = c.shapes → c'.processes = c.processes → c'.bins = c.bins → ∀ ss : List Syst,
      systCalls env c' (ss.filter fun s => s.type ≠ "gmN") = systCalls env c ss := by
    intro c' e1 e2 e3 ss
    have hsm : shapeMap c' = shapeMap c := by rw [shapeMap, shapeMap, e1, e2, e3]
    have hsc : ∀ n t p b e, shapeCall env c' n t p b e = shapeCall env c n t p b e := fun n t p b e => by
      rw [shapeCall, shapeCall, hsm]
    induction ss with
    | nil => rfl
    | cons s ss ih =>
      rw [List.filter_cons]
      by_cases hg : s.type = "gmN"
      · rw [if_neg (by simp [hg]), ih]
        rw [systCalls, if_neg (by rw [hg]; decide), if_neg (by rw [hg]; decide), ok_bind]
        cases systCalls env c ss <;> rfl
      · rw [if_pos (by simp [hg]), systCalls, systCalls, ih]
        simp only [hsc]
  have h3 : ∀ (c' : Card V), c'.processes = c.processes → c'.bins = c.bins → ∀ ls, rateParamCalls env c' ls = rateParamCalls env c ls := by
    intro c' e2 e3 ls
    induction ls with
    | nil => rfl
    | cons l ls ih =>
      have : rateParamCall env c' l = rateParamCall env c l := by
        unfold rateParamCall
        rw [e2, e3]
      rw [rateParamCalls, rateParamCalls, ih, this]
  generalize hc' : ({ c with params := params, groups := groups, systematics := c.systematics.filter fun s => s.type ≠ "gmN" } : Card V) = c'
  have e : c'.systematics = c.systematics.filter fun s => s.type ≠ "gmN" := by rw [← hc']
  have er : c'.rateParams = c.rateParams := by rw [← hc']
  have eb : c'.bins = c.bins := by rw [← hc']
  have ep : c'.processes = c.processes := by rw [← hc']
  have es : c'.shapes = c.shapes := by rw [← hc']
  rw [convert, convert, nominalCalls_congr (c := c') (c' := c) es ep eb (by rw [← hc']) (by rw [← hc']) (by rw [← hc']),
    h3 c' ep eb, e, h2 c' es ep eb, er, eb]

namespace Ex

def env : Env String String :=
  ⟨fun _ p b s _ => .ok (some (b ++ p ++ s.getD "")), fun v => "count " ++ v, .ok, "0", "1.01"⟩

end Ex

namespace Ex

def card1 : String := "bin b\nobservation 10\nbin b b\nprocess s t\nprocess 0 1\nrate 3 7\nlumi lnN 1.1 0.9/1.2\n"
def card2 : String := "bin b\nobservation 10\nbin b b\nprocess s t\nprocess 0 1\nrate 30 70\nlumi lnN 1.1 0.9/1.2\n"

def calls : List (Call String String) := [.channel "count 10" "b", .data "count 10" "b", .process "count 10" "s" "b" true,
  .process "count 10" "t" "b" false, .norm "lumi" ["s"] "b" (.single "1.1") true, .norm "lumi" ["t"] "b" (.pair "1.2" "0.9") true]

def conv (c : Card String) : Bool := match convert env c with
  | .ok a => decide (a = calls)
  | .error _ => false

theorem conv_ok {c : Card String} (h : conv c = true) : convert env c = .ok calls := by
  rw [conv] at h
  split at h
  · rename_i a ha
    rw [ha, of_decide_eq_true h]
  · cases h

end Ex

/-- two cards whose rates differ are converted to the same calls -/
example : ∃ c c', Ex.read Ex.card1 = .ok c ∧ Ex.read Ex.card2 = .ok c' ∧
    c.rates ≠ c'.rates ∧
    convert Ex.env c = .ok Ex.calls ∧
    convert Ex.env c = convert Ex.env c' := by
  obtain ⟨c, h1, hp⟩ := Ex.exists_of (text := Ex.card1) (p := fun c => decide (c.rates = [(("b", "s"), "3"), (("b", "t"), "7")]) &&
    Ex.conv c) (by decide +kernel)
  obtain ⟨c', h2, hp'⟩ := Ex.exists_of (text := Ex.card2) (p := fun c => decide (c.rates = [(("b", "s"), "30"), (("b", "t"), "70")]) &&
    Ex.conv c) (by decide +kernel)
  rw [Bool.and_eq_true, decide_eq_true_iff] at hp hp'
  refine ⟨c, c', h1, h2, ?_, Ex.conv_ok hp.2, by rw [Ex.conv_ok hp.2, Ex.conv_ok hp'.2]⟩
  rw [hp.1, hp'.1]; decide

/-- A bin without observation: its rates are read and then ignored by the converter. -/
theorem c60_bin_violated {env : Env V H} {c : Card V} {calls : List (Call V H)} (h : nominalCalls env c c.bins = .ok calls) {b : String}
    (hb : b ∉ c.bins) {x : H} {p : String} {s : Bool} : Call.process x p b s ∉ calls := by
  intro hx
  obtain ⟨b', hb', hx⟩ := nominalCalls_only h _ hx
  rcases hx with ⟨_, hx⟩ | ⟨_, hx⟩ | ⟨t, p', s', hx, _⟩
  · cases hx
  · cases hx
  · cases hx
    exact hb hb'

example : ∃ c, Ex.read "bin b\nobservation 10\nbin b d\nprocess s s\nprocess 0 0\nrate 3 7\n" = .ok c ∧
    c.rates = [(("b", "s"), "3"), (("d", "s"), "7")] ∧ "d" ∉ c.bins ∧ (nominalCalls Ex.env c c.bins).isOk = true := by
  obtain ⟨c, h, hp⟩ := Ex.exists_of (text := "bin b\nobservation 10\nbin b d\nprocess s s\nprocess 0 0\nrate 3 7\n")
    (p := fun c => decide (c.rates = [(("b", "s"), "3"), (("d", "s"), "7")] ∧ "d" ∉ c.bins ∧
      (nominalCalls Ex.env c c.bins).isOk = true)) (by decide +kernel)
  exact ⟨c, h, of_decide_eq_true hp⟩

end Verif.Datacard
