import Verif.Model.NaturalSort
import Verif.Lemmas.Py
import Mathlib.Tactic.Common

namespace Verif

/-- Shape of `re.split(r"(\d+)", s)`: text (digits text)*. -/
inductive Alt : List (List Char) → Prop
  | last (t) (h : ∀ c ∈ t, c.isDigit = false) : Alt [t]
  | cons (t d rest) (h : ∀ c ∈ t, c.isDigit = false) (hd : isDigits d = true) (hr : Alt rest) :
      Alt (t :: d :: rest)

theorem alt_splitDigits (s : List Char) : Alt (splitDigits s) := by
  induction s with
  | nil => exact .last [] (by simp)
  | cons c cs ih =>
    rw [splitDigits]
    generalize splitDigits cs = l at ih
    cases hc : c.isDigit with
    | true =>
      have h1 : isDigits [c] = true := by simp [isDigits, hc]
      cases ih with
      | last t h =>
        cases t with
        | nil => exact .cons [] [c] _ (by simp) h1 (.last _ h)
        | cons a t => exact .cons [] [c] _ (by simp) h1 (.last _ h)
      | cons t d rest h hd hr =>
        cases t with
        | nil =>
          refine .cons [] (c :: d) _ (by simp) ?_ hr
          simp only [isDigits, Bool.and_eq_true, List.all_eq_true] at hd ⊢
          exact ⟨rfl, by intro x hx; rcases List.mem_cons.1 hx with rfl | hx; exacts [hc, hd.2 x hx]⟩
        | cons a t => exact .cons [] [c] _ (by simp) h1 (.cons _ _ _ h hd hr)
    | false =>
      cases ih with
      | last t h =>
        exact .last _ (by intro x hx; rcases List.mem_cons.1 hx with rfl | hx; exacts [hc, h x hx])
      | cons t d rest h hd hr =>
        exact .cons _ _ _ (by intro x hx; rcases List.mem_cons.1 hx with rfl | hx; exacts [hc, h x hx]) hd hr

theorem flatten_splitDigits (s : List Char) : (splitDigits s).flatten = s := by
  induction s with
  | nil => rfl
  | cons c cs ih =>
    rw [splitDigits]
    have ha := alt_splitDigits cs
    generalize hl : splitDigits cs = l at ih ha
    cases hc : c.isDigit with
    | true =>
      cases ha with
      | last t h => cases t <;> simp_all
      | cons t d rest h hd hr => cases t <;> simp_all
    | false => cases ha <;> simp_all

/-- Shape of a key: `str (int str)*`. -/
inductive KeyAlt : List Part → Prop
  | last (t) : KeyAlt [.txt t]
  | cons (t n rest) (hr : KeyAlt rest) : KeyAlt (.txt t :: .num n :: rest)

theorem keyAlt_naturalSortKey (s : String) : KeyAlt (naturalSortKey s) := by
  unfold naturalSortKey
  generalize hl : splitDigits s.toList = l
  have h := alt_splitDigits s.toList
  rw [hl] at h
  clear hl
  have ht : ∀ t : List Char, (∀ c ∈ t, c.isDigit = false) → isDigits t = false := by
    intro t h
    cases t with
    | nil => rfl
    | cons a t => simp [isDigits, h a (by simp)]
  induction h with
  | last t h => simp only [List.map, ht t h]; exact .last _
  | cons t d rest h hd hr ih => simp only [List.map, ht t h, hd]; exact .cons _ _ _ ih

theorem charsLt_irrefl (a : List Char) : charsLt a a = false := by
  induction a with
  | nil => rfl
  | cons c cs ih => simp [charsLt, ih]

theorem charsLt_trans {a b c : List Char} : charsLt a b = true → charsLt b c = true → charsLt a c = true := by
  induction a generalizing b c with
  | nil => cases b <;> cases c <;> simp [charsLt]
  | cons x xs ih =>
    cases b with
    | nil => simp [charsLt]
    | cons y ys =>
      cases c with
      | nil => simp [charsLt]
      | cons z zs =>
        simp only [charsLt]
        intro h1 h2
        split at h1
        · split at h2
          · rw [if_pos (by omega)]
          · split at h2
            · simp at h2
            · rw [if_pos (by omega)]
        · split at h1
          · simp at h1
          · split at h2
            · rw [if_pos (by omega)]
            · split at h2
              · simp at h2
              · rw [if_neg (by omega), if_neg (by omega)]; exact ih h1 h2

theorem charsLt_total (a b : List Char) : charsLt a b = true ∨ a = b ∨ charsLt b a = true := by
  induction a generalizing b with
  | nil => cases b <;> simp [charsLt]
  | cons x xs ih =>
    cases b with
    | nil => simp [charsLt]
    | cons y ys =>
      simp only [charsLt]
      by_cases h1 : x.toNat < y.toNat
      · simp [h1]
      · by_cases h2 : y.toNat < x.toNat
        · simp [h2]
        · have : x = y := by
            have := Nat.le_antisymm (Nat.not_lt.1 h2) (Nat.not_lt.1 h1)
            exact Char.toNat_inj.1 (by omega)
          subst this
          simp only [h1, if_false]
          rcases ih ys with h | h | h
          · exact .inl h
          · exact .inr (.inl (by rw [h]))
          · exact .inr (.inr h)

theorem keyLt_isSome {a b : List Part} (ha : KeyAlt a) (hb : KeyAlt b) : (keyLt a b).isSome = true := by
  induction ha generalizing b with
  | last t =>
    cases hb with
    | last t' => simp only [keyLt]; split <;> simp
    | cons t' n rest hr => simp only [keyLt]; split <;> simp
  | cons t n rest hr ih =>
    cases hb with
    | last t' => simp only [keyLt]; split <;> simp
    | cons t' n' rest' hr' =>
      simp only [keyLt]
      split
      · split
        · exact ih hr'
        · simp
      · simp

theorem keyLt_irrefl (a : List Part) : keyLt a a = some false := by
  induction a with
  | nil => rfl
  | cons p ps ih => cases p <;> simp [keyLt, ih]

theorem keyLt_trans {a b c : List Part} : keyLt a b = some true → keyLt b c = some true →
    keyLt a c = some true := by
  induction a generalizing b c with
  | nil => cases b <;> cases c <;> simp [keyLt]
  | cons x xs ih =>
    cases b with
    | nil => simp [keyLt]
    | cons y ys =>
      cases c with
      | nil => cases y <;> simp [keyLt]
      | cons z zs =>
        cases x with
        | num a =>
          cases y with
          | txt _ => simp [keyLt]
          | num b =>
            cases z with
            | txt _ => simp [keyLt]
            | num c =>
              simp only [keyLt]
              intro h1 h2
              by_cases hab : a = b
              · by_cases hbc : b = c
                · subst hab hbc; simp only [if_true] at *; exact ih h1 h2
                · subst hab; simp_all
              · by_cases hbc : b = c
                · subst hbc; simp_all
                · simp only [hab, hbc, if_false, Option.some.injEq, decide_eq_true_eq] at h1 h2
                  rw [if_neg (by omega)]; simp; omega
        | txt a =>
          cases y with
          | num _ => simp [keyLt]
          | txt b =>
            cases z with
            | num _ => simp [keyLt]
            | txt c =>
              simp only [keyLt]
              intro h1 h2
              by_cases hab : a = b
              · by_cases hbc : b = c
                · subst hab hbc; simp only [if_true] at *; exact ih h1 h2
                · subst hab; simp_all
              · by_cases hbc : b = c
                · subst hbc; simp_all
                · simp only [hab, hbc, if_false, Option.some.injEq] at h1 h2
                  have h3 := charsLt_trans h1 h2
                  rw [if_neg, h3]
                  rintro rfl
                  rw [charsLt_irrefl] at h3; simp at h3

theorem keyLt_total {a b : List Part} (ha : KeyAlt a) (hb : KeyAlt b) :
    keyLt a b = some true ∨ a = b ∨ keyLt b a = some true := by
  have ht : ∀ (t t' : List Char) (r r' : List Part),
      (t ≠ t' → keyLt (.txt t :: r) (.txt t' :: r') = some true ∨ keyLt (.txt t' :: r') (.txt t :: r) = some true) := by
    intro t t' r r' h
    have h' : t' ≠ t := fun e => h e.symm
    simp only [keyLt, h, h', if_false, Option.some.injEq]
    rcases charsLt_total t t' with h1 | h1 | h1
    · exact .inl h1
    · exact absurd h1 h
    · exact .inr h1
  induction ha generalizing b with
  | last t =>
    cases hb with
    | last t' =>
      by_cases h : t = t'
      · simp [h]
      · rcases ht _ _ [] [] h with h | h <;> simp [h]
    | cons t' n rest hr =>
      by_cases h : t = t'
      · simp [h, keyLt]
      · rcases ht _ _ [] (.num n :: rest) h with h | h <;> simp [h]
  | cons t n rest hr ih =>
    cases hb with
    | last t' =>
      by_cases h : t = t'
      · simp [h, keyLt]
      · rcases ht _ _ (.num n :: rest) [] h with h | h <;> simp [h]
    | cons t' n' rest' hr' =>
      by_cases h : t = t'
      · subst h
        simp only [keyLt, if_true]
        rcases Nat.lt_trichotomy n n' with h | h | h
        · simp [show n ≠ n' by omega, h]
        · subst h
          simp only [if_true]
          rcases ih hr' with h | h | h <;> simp [h]
        · simp [show n' ≠ n by omega, h]
      · rcases ht _ _ (.num n :: rest) (.num n' :: rest') h with h | h <;> simp [h]

/-- total strict order on names through their keys -/
theorem nameLe_total (a b : String) : (nameLe a b || nameLe b a) = true := by
  unfold nameLe
  cases h1 : keyLt (naturalSortKey b) (naturalSortKey a) with
  | none => simp
  | some x =>
    cases x with
    | false => simp
    | true =>
      cases h2 : keyLt (naturalSortKey a) (naturalSortKey b) with
      | none => simp
      | some y =>
        cases y with
        | false => simp
        | true => have := keyLt_trans h1 h2; rw [keyLt_irrefl] at this; simp at this

theorem nameLe_iff (a b : String) :
    nameLe a b = true ↔ (keyLt (naturalSortKey a) (naturalSortKey b) = some true ∨
      naturalSortKey a = naturalSortKey b) := by
  have ha := keyAlt_naturalSortKey a
  have hb := keyAlt_naturalSortKey b
  unfold nameLe
  constructor
  · intro h
    rcases keyLt_total ha hb with h1 | h1 | h1
    · exact .inl h1
    · exact .inr h1
    · simp [h1] at h
  · rintro (h | h)
    · cases h1 : keyLt (naturalSortKey b) (naturalSortKey a) with
      | none => simp
      | some x =>
        cases x with
        | false => simp
        | true => have := keyLt_trans h h1; rw [keyLt_irrefl] at this; simp at this
    · rw [h, keyLt_irrefl]; rfl

theorem nameLe_trans (a b c : String) : nameLe a b = true → nameLe b c = true → nameLe a c = true := by
  simp only [nameLe_iff]
  rintro (h1 | h1) (h2 | h2)
  · exact .inl (keyLt_trans h1 h2)
  · rw [← h2]; exact .inl h1
  · rw [h1]; exact .inl h2
  · exact .inr (h1.trans h2)

theorem nameLe_antisymm {a b : String} (h1 : nameLe a b = true) (h2 : nameLe b a = true) :
    naturalSortKey a = naturalSortKey b := by
  rw [nameLe_iff] at h1 h2
  rcases h1 with h1 | h1
  · rcases h2 with h2 | h2
    · have := keyLt_trans h1 h2; rw [keyLt_irrefl] at this; simp at this
    · exact h2.symm
  · exact h1

end Verif
