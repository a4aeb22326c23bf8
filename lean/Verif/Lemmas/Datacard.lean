import Verif.Model.Datacard
import Verif.Lemmas.Py
import Mathlib.Data.List.Forall2
import Mathlib.Data.List.Basic
import Mathlib.Tactic.Common

/-! Helper lemmas about the datacard parser: the lines of a text and their words. -/

namespace Verif.Datacard

/-- independent meaning of the words of a line: white space, words without white space, white space between them -/
inductive Spec.LineOf : List Char → List String → Prop
  | blank (l : List Char) (h : ∀ c ∈ l, isSpace c = true) : Spec.LineOf l []
  | word (gap : List Char) (t : String) (rest : List Char) (ts : List String) (hg : ∀ c ∈ gap, isSpace c = true)
      (ht : t.toList ≠ []) (hw : ∀ c ∈ t.toList, isSpace c = false)
      (hr : ∀ c, rest.head? = some c → isSpace c = true) (h : Spec.LineOf rest ts) :
      Spec.LineOf (gap ++ (t.toList ++ rest)) (t :: ts)

/-- the first word of the row begins with `p` -/
def Spec.Begins (p : String) (row : List String) : Prop := ∃ t ts, row = t :: ts ∧ p.toList <+: t.toList

/-- rows that count: not blank, not a comment -/
def Spec.Counts (row : List String) : Prop := row ≠ [] ∧ ¬ Spec.Begins "#" row

/-- independent meaning of the rows of a text: its lines are separated by line breaks, blank lines and comments do not count -/
inductive Spec.TextOf : List Char → List (List String) → Prop
  | last (l : List Char) (ts : List String) (hn : '\n' ∉ l) (h : Spec.LineOf l ts) (hc : Spec.Counts ts) : Spec.TextOf l [ts]
  | lastSkip (l : List Char) (ts : List String) (hn : '\n' ∉ l) (h : Spec.LineOf l ts) (hc : ¬ Spec.Counts ts) : Spec.TextOf l []
  | line (l : List Char) (ts : List String) (rest : List Char) (rows : List (List String)) (hn : '\n' ∉ l) (h : Spec.LineOf l ts)
      (hc : Spec.Counts ts) (hr : Spec.TextOf rest rows) : Spec.TextOf (l ++ '\n' :: rest) (ts :: rows)
  | skip (l : List Char) (ts : List String) (rest : List Char) (rows : List (List String)) (hn : '\n' ∉ l) (h : Spec.LineOf l ts)
      (hc : ¬ Spec.Counts ts) (hr : Spec.TextOf rest rows) : Spec.TextOf (l ++ '\n' :: rest) rows

theorem mem_takeWhile_imp {α : Type} {p : α → Bool} {l : List α} {x : α} (h : x ∈ l.takeWhile p) : p x = true := by
  induction l with
  | nil => cases h
  | cons a l ih =>
    rw [List.takeWhile_cons] at h
    split at h
    · rename_i ha
      rcases List.mem_cons.1 h with rfl | h
      · exact ha
      · exact ih h
    · cases h

theorem wordsFrom_space (gap rest : List Char) (hg : ∀ c ∈ gap, isSpace c = true) : wordsFrom [] (gap ++ rest) = wordsFrom [] rest := by
  induction gap with
  | nil => rfl
  | cons c gap ih =>
    rw [List.cons_append, wordsFrom, if_pos (hg c (by simp)), if_pos rfl]
    exact ih fun x hx => hg x (by simp [hx])

theorem wordsFrom_word (acc t rest : List Char) (hw : ∀ c ∈ t, isSpace c = false) : wordsFrom acc (t ++ rest) = wordsFrom (acc ++ t) rest := by
  induction t generalizing acc with
  | nil => simp
  | cons c t ih =>
    rw [List.cons_append, wordsFrom, if_neg (by rw [hw c (by simp)]; simp), ih _ fun x hx => hw x (by simp [hx])]
    simp

theorem wordsFrom_end (acc rest : List Char) (ha : acc ≠ []) (hr : ∀ c, rest.head? = some c → isSpace c = true) :
    wordsFrom acc rest = String.ofList acc :: wordsFrom [] rest := by
  cases rest with
  | nil => simp [wordsFrom, ha]
  | cons c rest => simp [wordsFrom, ha, hr c rfl]

theorem words_of {l : List Char} {ts : List String} (h : Spec.LineOf l ts) : words l = ts := by
  induction h with
  | blank l h =>
    have := wordsFrom_space l [] h
    rw [List.append_nil] at this
    rw [words, this]; rfl
  | word gap t rest ts hg ht hw hr _ ih =>
    rw [words, wordsFrom_space _ _ hg, wordsFrom_word _ _ _ hw, List.nil_append, wordsFrom_end _ _ ht hr, String.ofList_toList]
    rw [← ih]; rfl

/-- every line has words -/
theorem lineOf_words : ∀ (l : List Char), Spec.LineOf l (words l) := by
  have key : ∀ (n : Nat) (l : List Char), l.length ≤ n → ∃ ts, Spec.LineOf l ts := by
    intro n
    induction n with
    | zero =>
      intro l hl
      have : l = [] := List.length_eq_zero_iff.1 (by omega)
      exact ⟨[], .blank _ (by simp [this])⟩
    | succ n ih =>
      intro l hl
      have h1 := List.takeWhile_append_dropWhile (p := isSpace) (l := l)
      rcases hd : l.dropWhile isSpace with _ | ⟨c, r⟩
      · refine ⟨[], .blank _ ?_⟩
        intro x hx
        rw [hd, List.append_nil] at h1
        rw [← h1] at hx
        exact mem_takeWhile_imp hx
      · have hc : isSpace c = false := by
          have := List.head_dropWhile_not (p := isSpace) (l := l) (by rw [hd]; simp)
          simpa [hd] using this
        have h2 := List.takeWhile_append_dropWhile (p := fun x => !isSpace x) (l := c :: r)
        have hlen : ((c :: r).dropWhile fun x => !isSpace x).length ≤ n := by
          have h3 : ((c :: r).dropWhile fun x => !isSpace x).length ≤ r.length := by
            rw [List.dropWhile_cons, if_pos (by simp [hc])]
            exact (List.dropWhile_suffix _).length_le
          have h4 : (c :: r).length ≤ l.length := by
            rw [← hd]; exact (List.dropWhile_suffix _).length_le
          simp only [List.length_cons] at h4
          omega
        obtain ⟨ts, hts⟩ := ih _ hlen
        refine ⟨String.ofList ((c :: r).takeWhile fun x => !isSpace x) :: ts, ?_⟩
        rw [← h1, hd, ← h2]
        have hw := Spec.LineOf.word (l.takeWhile isSpace) (String.ofList ((c :: r).takeWhile fun x => !isSpace x))
          ((c :: r).dropWhile fun x => !isSpace x) ts ?_ ?_ ?_ ?_ hts
        · rw [String.toList_ofList] at hw
          rw [h2] at hw ⊢
          exact hw
        · intro x hx; exact mem_takeWhile_imp hx
        · rw [String.toList_ofList, List.takeWhile_cons, if_pos (by simp [hc])]; simp
        · rw [String.toList_ofList]
          intro x hx
          simpa using mem_takeWhile_imp hx
        · intro x hx
          by_contra hns
          have hne : ((c :: r).dropWhile fun x => !isSpace x) ≠ [] := by
            intro h0; rw [h0] at hx; cases hx
          have := List.head_dropWhile_not (p := fun x => !isSpace x) (l := c :: r) hne
          rw [List.head?_eq_some_head hne] at hx
          cases hx
          simp at this
          exact hns this
  intro l
  obtain ⟨ts, h⟩ := key l.length l (Nat.le_refl _)
  rw [words_of h]; exact h

theorem strip_front (gap rest : List Char) (hg : ∀ c ∈ gap, isSpace c = true) : strip (gap ++ rest) = strip rest := by
  have : (gap ++ rest).dropWhile isSpace = rest.dropWhile isSpace := by
    induction gap with
    | nil => rfl
    | cons c gap ih =>
      rw [List.cons_append, List.dropWhile_cons, if_pos (hg c (by simp))]
      exact ih fun x hx => hg x (by simp [hx])
  rw [strip, strip, this]

theorem strip_blank (l : List Char) (h : ∀ c ∈ l, isSpace c = true) : strip l = [] := by
  have := strip_front l [] h
  rw [List.append_nil] at this
  rw [this]; rfl

/-- the stripped line -/
theorem strip_spec {l : List Char} {ts : List String} (h : Spec.LineOf l ts) :
    (ts = [] ∧ strip l = []) ∨ ∃ t ts' r, ts = t :: ts' ∧ strip l = t.toList ++ r ∧ t.toList ≠ [] ∧ (∀ c ∈ t.toList, isSpace c = false) ∧
      (∀ c, r.head? = some c → isSpace c = true) ∧ Spec.LineOf (strip l) ts := by
  cases h with
  | blank l h => exact .inl ⟨rfl, strip_blank l h⟩
  | word gap t rest ts hg ht hw hr h =>
    refine .inr ⟨t, ts, (rest.reverse.dropWhile isSpace).reverse, rfl, ?_⟩
    have hdrop : (t.toList ++ rest).dropWhile isSpace = t.toList ++ rest := by
      rcases hT : t.toList with _ | ⟨c, T⟩
      · exact absurd hT ht
      · rw [List.cons_append, List.dropWhile_cons, if_neg]
        rw [hw c (by rw [hT]; simp)]; simp
    have hlast : (t.toList.reverse).dropWhile isSpace = t.toList.reverse := by
      rcases hT : t.toList.reverse with _ | ⟨c, T⟩
      · rfl
      · rw [List.dropWhile_cons, if_neg]
        rw [hw c (by rw [← List.mem_reverse, hT]; simp)]; simp
    have hs : strip (gap ++ (t.toList ++ rest)) = t.toList ++ (rest.reverse.dropWhile isSpace).reverse := by
      rw [strip_front _ _ hg, strip, hdrop, List.reverse_append, List.dropWhile_append]
      split
      · rename_i he
        rw [hlast, List.reverse_reverse]
        rw [List.isEmpty_iff] at he
        rw [he]; simp
      · rw [List.reverse_append, List.reverse_reverse]
    have hsplit : (rest.reverse.dropWhile isSpace).reverse ++ (rest.reverse.takeWhile isSpace).reverse = rest := by
      rw [← List.reverse_append, List.takeWhile_append_dropWhile, List.reverse_reverse]
    have hhead : ∀ c, (rest.reverse.dropWhile isSpace).reverse.head? = some c → isSpace c = true := by
      intro c hc
      apply hr
      rw [← hsplit]
      rcases hq : (rest.reverse.dropWhile isSpace).reverse with _ | ⟨x, q⟩
      · rw [hq] at hc; cases hc
      · rw [hq] at hc; exact hc
    refine ⟨hs, ht, hw, hhead, ?_⟩
    rw [hs]
    refine Spec.LineOf.word [] t _ ts (by simp) ht hw hhead ?_
    have hgen : ∀ (a b : List Char), (∀ c ∈ b, isSpace c = true) → words (a ++ b) = words a := by
      intro a b hb
      have : ∀ (acc : List Char), wordsFrom acc (a ++ b) = wordsFrom acc a := by
        induction a with
        | nil =>
          intro acc
          rw [List.nil_append]
          by_cases hacc : acc = []
          · subst hacc
            have := wordsFrom_space b [] hb
            rw [List.append_nil] at this
            exact this
          · rw [wordsFrom_end acc b hacc (fun c hc => hb c (List.mem_of_head? hc))]
            have := wordsFrom_space b [] hb
            rw [List.append_nil] at this
            rw [this]
            simp [wordsFrom, hacc]
        | cons c a ih =>
          intro acc
          rw [List.cons_append, wordsFrom, wordsFrom, ih, ih]
      exact this []
    have : words ((rest.reverse.dropWhile isSpace).reverse) = ts := by
      rw [← hgen _ (rest.reverse.takeWhile isSpace).reverse (fun c hc => mem_takeWhile_imp (List.mem_reverse.1 hc)), hsplit]
      exact words_of h
    rw [← this]
    exact lineOf_words _

/-- a line of the card and its row -/
def Matches (l : Line) (row : List String) : Prop :=
  words l = row ∧ ∀ p : String, p.toList ≠ [] → (∀ c ∈ p.toList, isSpace c = false) → (starts p l = true ↔ Spec.Begins p row)

theorem matches_strip {l : List Char} {ts : List String} (h : Spec.LineOf l ts) : Matches (strip l) ts := by
  rcases strip_spec h with ⟨h0, h1⟩ | ⟨t, ts', r, h0, h1, ht, hw, hr, hl⟩
  · subst h0
    rw [h1]
    refine ⟨rfl, fun p hp _ => ?_⟩
    constructor
    · intro hs
      simp [starts] at hs
      exact absurd (by simp [hs]) hp
    · rintro ⟨t, ts, h, _⟩; cases h
  · refine ⟨words_of hl, fun p hp hps => ?_⟩
    rw [starts, List.isPrefixOf_iff_prefix, h1, h0]
    constructor
    · intro hpre
      refine ⟨t, ts', rfl, ?_⟩
      by_cases hlen : p.toList.length ≤ t.toList.length
      · exact List.prefix_of_prefix_length_le hpre (List.prefix_append _ _) hlen
      · exfalso
        obtain ⟨q, hq⟩ := hpre
        have h2 : t.toList <+: p.toList :=
          List.prefix_of_prefix_length_le (List.prefix_append _ _) ⟨q, hq⟩ (by omega)
        obtain ⟨u, hu⟩ := h2
        rw [← hu, List.append_assoc] at hq
        have hr2 := List.append_cancel_left hq
        rcases u with _ | ⟨c, u⟩
        · rw [List.append_nil] at hu; rw [← hu] at hlen; exact hlen (Nat.le_refl _)
        · have := hr c (by rw [← hr2]; rfl)
          rw [hps c (by rw [← hu]; simp)] at this
          cases this
    · rintro ⟨t', ts'', h, hpre⟩
      cases h
      exact hpre.trans (List.prefix_append _ _)

theorem splitOn_none (c : Char) (l : List Char) (h : c ∉ l) : splitOn c l = [l] := by
  induction l with
  | nil => rfl
  | cons x l ih =>
    rw [splitOn, if_neg (by intro he; exact h (by simp [he])), ih (fun hx => h (by simp [hx]))]

theorem splitOn_cons (c : Char) (l rest : List Char) (h : c ∉ l) : splitOn c (l ++ c :: rest) = l :: splitOn c rest := by
  induction l with
  | nil => simp [splitOn]
  | cons x l ih =>
    rw [List.cons_append, splitOn, if_neg (by intro he; exact h (by simp [he])), ih (fun hx => h (by simp [hx]))]

theorem keep_iff {l : List Char} {ts : List String} (h : Spec.LineOf l ts) :
    ((strip l ≠ [] && !starts "#" (strip l)) = true) ↔ Spec.Counts ts := by
  have hm := (matches_strip h).2 "#" (by decide) (by decide)
  have hne : strip l ≠ [] ↔ ts ≠ [] := by
    rcases strip_spec h with ⟨h0, h1⟩ | ⟨t, ts', r, h0, h1, ht, _⟩
    · simp [h0, h1]
    · rw [h0, h1]; simp [ht]
  rw [Bool.and_eq_true, Spec.Counts, decide_eq_true_iff, hne, ← hm]
  simp

/-- the lines the parser keeps are the rows of the text -/
theorem readLines_of {text : List Char} {rows : List (List String)} (h : Spec.TextOf text rows) :
    List.Forall₂ Matches (readLines text) rows := by
  induction h with
  | last l ts hn h hc =>
    rw [readLines, splitOn_none _ _ hn, List.map_cons, List.map_nil, List.filter_cons, if_pos ((keep_iff h).2 hc), List.filter_nil]
    exact .cons (matches_strip h) .nil
  | lastSkip l ts hn h hc =>
    rw [readLines, splitOn_none _ _ hn, List.map_cons, List.map_nil, List.filter_cons, if_neg (fun hk => hc ((keep_iff h).1 hk)), List.filter_nil]
    exact .nil
  | line l ts rest rows hn h hc _ ih =>
    rw [readLines, splitOn_cons _ _ _ hn, List.map_cons, List.filter_cons, if_pos ((keep_iff h).2 hc)]
    exact .cons (matches_strip h) ih
  | skip l ts rest rows hn h hc _ ih =>
    rw [readLines, splitOn_cons _ _ _ hn, List.map_cons, List.filter_cons, if_neg (fun hk => hc ((keep_iff h).1 hk))]
    exact ih

/-- every text has rows -/
theorem textOf_exists (text : List Char) : ∃ rows, Spec.TextOf text rows := by
  have hlast : ∀ l : List Char, '\n' ∉ l → ∃ rows, Spec.TextOf l rows := by
    intro l hn
    by_cases hc : Spec.Counts (words l)
    · exact ⟨_, .last l _ hn (lineOf_words l) hc⟩
    · exact ⟨_, .lastSkip l _ hn (lineOf_words l) hc⟩
  have key : ∀ (n : Nat) (text : List Char), text.length ≤ n → ∃ rows, Spec.TextOf text rows := by
    intro n
    induction n with
    | zero =>
      intro l hl
      have : l = [] := List.length_eq_zero_iff.1 (by omega)
      subst this
      exact hlast [] (by simp)
    | succ n ih =>
      intro l hl
      by_cases hn : '\n' ∈ l
      · obtain ⟨a, b, hab, ha⟩ := List.eq_append_cons_of_mem hn
        obtain ⟨rows, hrows⟩ := ih b (by rw [hab] at hl; simp at hl; omega)
        rw [hab]
        by_cases hc : Spec.Counts (words a)
        · exact ⟨_, .line a _ b rows ha (lineOf_words a) hc hrows⟩
        · exact ⟨_, .skip a _ b rows ha (lineOf_words a) hc hrows⟩
      · exact hlast l hn
  exact key _ text (Nat.le_refl _)

theorem getD_matches {lines : List Line} {rows : List (List String)} (h : List.Forall₂ Matches lines rows) (i : Nat) :
    Matches (lines.getD i []) (rows.getD i []) := by
  induction h generalizing i with
  | nil =>
    refine ⟨by simp [words, wordsFrom], fun p hp _ => ?_⟩
    simp only [List.getD_nil, starts]
    constructor
    · intro hs
      simp at hs
      exact absurd (by simp [hs]) hp
    · rintro ⟨t, ts, h, _⟩; cases h
  | cons h _ ih =>
    cases i with
    | zero => exact h
    | succ i => exact ih i

end Verif.Datacard
