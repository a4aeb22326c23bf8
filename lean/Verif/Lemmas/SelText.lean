import Verif.Model.SelText
import Verif.Lemmas.Py
import Verif.Lemmas.Datacard
import Verif.Model.Mappings

/-
The format of the text of an axis selection, as documented, and lemmas for C82.
-/

namespace Verif.SelText

open Verif.Mappings Verif.Datacard Verif.Grid Verif.ABCD

variable {V C : Type}

/-! ## the format of the text (helpers.py:33-41) -/

/-- a name without the characters that the format uses -/
def Spec.Name (s : Line) : Prop := ∀ c ∈ s, c ≠ ',' ∧ c ≠ ':' ∧ c ≠ '(' ∧ c ≠ ')'

/-- the characters of an integer -/
def Spec.Digits (s : Line) : Prop := ∀ c ∈ s, c ∈ "+-0123456789".toList

/-- the characters of a list of numbers -/
def Spec.Reals (s : Line) : Prop := ∀ c ∈ s, c ∈ "+-.0123456789eE, ".toList

/-- a bound of a slice -/
inductive Spec.Bound (env : Env V C) : Line → Option Int → Prop
  | all : Spec.Bound env "None".toList none
  | int {s : Line} {n : Int} : Spec.Digits s → env.int s = .ok n → Spec.Bound env s (some n)

/-- what may stand after the colon, and what it asks for -/
inductive Spec.Says (env : Env V C) : Line → Tok V → Prop
  | sum : Spec.Says env "sum".toList .sum
  | all : Spec.Says env "None".toList .none
  | index {s : Line} {n : Int} : Spec.Digits s → env.int s = .ok n → Spec.Says env s (.index n)
  | rebin {t : Line} {es : List V} : Spec.Reals t → env.edges t = .ok es →
      Spec.Says env ("rebin(".toList ++ t ++ ")".toList) (.rebin es)
  | stop {y : Line} {b : Option Int} : Spec.Bound env y b → Spec.Says env ("slice(".toList ++ y ++ ")".toList) (.slice none b none)
  | range {x y : Line} {a b : Option Int} : Spec.Bound env x a → Spec.Bound env y b →
      Spec.Says env ("slice(".toList ++ (x ++ ',' :: y) ++ ")".toList) (.slice a b none)
  | stride {x y z : Line} {a b c : Option Int} : Spec.Bound env x a → Spec.Bound env y b → Spec.Bound env z c →
      Spec.Says env ("slice(".toList ++ (x ++ ',' :: (y ++ ',' :: z)) ++ ")".toList) (.slice a b c)

/-- texts separated by commas -/
def Spec.commas : List Line → Line
  | [] => []
  | [f] => f
  | f :: g :: r => f ++ ',' :: Spec.commas (g :: r)

/-- `<axis_0>:<selection_0>,<axis_1>:<selection_1>,…` together with what it asks for -/
def Spec.Text (env : Env V C) (text : Line) (toks : List (String × Tok V)) : Prop :=
  ∃ fs : List (Line × Line × Tok V), fs ≠ [] ∧ (∀ f ∈ fs, Spec.Name f.1 ∧ Spec.Says env f.2.1 f.2.2) ∧
    text = Spec.commas (fs.map fun f => f.1 ++ ':' :: f.2.1) ∧ toks = fs.map fun f => (String.ofList f.1, f.2.2)

/-! ## splitting -/

theorem closes_plain (p r : Line) (h : ∀ c ∈ p, c ≠ '(' ∧ c ≠ ')') : closes (p ++ r) = closes r := by
  induction p with
  | nil => rfl
  | cons c p ih =>
    have hc := h c (by simp)
    rw [List.cons_append, closes, if_neg hc.2, if_neg hc.1]
    exact ih fun x hx => h x (List.mem_cons_of_mem _ hx)

/-- put a text in front of the first piece -/
def glue (f : Line) : List Line → List Line
  | [] => [f]
  | a :: t => (f ++ a) :: t

theorem splitTop_ne (l : Line) : splitTop l ≠ [] := by
  cases l with
  | nil => simp [splitTop]
  | cons c r =>
    rw [splitTop]
    split
    · simp
    · split <;> simp

theorem splitTop_step (c : Char) (r : Line) (h : c = ',' → closes r = true) : splitTop (c :: r) = glue [c] (splitTop r) := by
  rw [splitTop, if_neg (by
    by_cases hc : c = ','
    · simp [h hc]
    · simp [hc])]
  cases splitTop r <;> rfl

theorem glue_nil (l : List Line) (h : l ≠ []) : glue [] l = l := by
  cases l with
  | nil => exact absurd rfl h
  | cons a t => rfl

theorem glue_cons (c : Char) (p : Line) (l : List Line) : glue [c] (glue p l) = glue (c :: p) l := by
  cases l <;> rfl

theorem splitTop_append (p r : Line) (h : (∀ c ∈ p, c ≠ ',') ∨ (∀ c ∈ p, c ≠ '(' ∧ c ≠ ')') ∧ closes r = true) :
    splitTop (p ++ r) = glue p (splitTop r) := by
  induction p with
  | nil => exact (glue_nil _ (splitTop_ne r)).symm
  | cons c p ih =>
    have h' : (∀ c ∈ p, c ≠ ',') ∨ (∀ c ∈ p, c ≠ '(' ∧ c ≠ ')') ∧ closes r = true :=
      h.imp (fun h x hx => h x (List.mem_cons_of_mem _ hx)) fun h => ⟨fun x hx => h.1 x (List.mem_cons_of_mem _ hx), h.2⟩
    rw [List.cons_append, splitTop_step c _ ?_, ih h', glue_cons]
    intro hc
    rcases h with h | h
    · exact absurd hc (h c (by simp))
    · rw [closes_plain p r fun x hx => h.1 x (List.mem_cons_of_mem _ hx)]; exact h.2

/-- one piece: without parentheses, or with one pair of them at the end -/
def Shape (f : Line) : Prop :=
  ∃ a : Line, (∀ c ∈ a, c ≠ ',' ∧ c ≠ '(' ∧ c ≠ ')') ∧
    (f = a ∨ ∃ b : Line, (∀ c ∈ b, c ≠ '(' ∧ c ≠ ')') ∧ f = a ++ '(' :: (b ++ [')']))

theorem shape_split {f : Line} (h : Shape f) (r : Line) : splitTop (f ++ r) = glue f (splitTop r) := by
  obtain ⟨a, ha, rfl | ⟨b, hb, rfl⟩⟩ := h
  · exact splitTop_append _ r (Or.inl fun c hc => (ha c hc).1)
  · have e : a ++ '(' :: (b ++ [')']) ++ r = a ++ (['('] ++ (b ++ ([')'] ++ r))) := by simp
    rw [e, splitTop_append a _ (Or.inl fun c hc => (ha c hc).1), splitTop_append ['('] _ (Or.inl (by simp)),
      splitTop_append b _ (Or.inr ⟨hb, by simp [closes]⟩), splitTop_append [')'] r (Or.inl (by simp))]
    cases splitTop r <;> simp [glue]

theorem shape_closes {f : Line} (h : Shape f) (r : Line) (hr : closes r = false) : closes (f ++ r) = false := by
  obtain ⟨a, ha, rfl | ⟨b, hb, rfl⟩⟩ := h
  · rw [closes_plain _ _ fun c hc => (ha c hc).2]; exact hr
  · rw [List.append_assoc, closes_plain _ _ fun c hc => (ha c hc).2]
    simp [closes]

theorem commas_closes : ∀ fs : List Line, (∀ f ∈ fs, Shape f) → closes (Spec.commas fs) = false
  | [], _ => rfl
  | [f], h => by
    have := shape_closes (h f (by simp)) [] rfl
    simpa [Spec.commas] using this
  | f :: g :: r, h => by
    rw [Spec.commas]
    refine shape_closes (h f (by simp)) _ ?_
    have := commas_closes (g :: r) fun x hx => h x (List.mem_cons_of_mem _ hx)
    simpa [closes] using this

theorem splitTop_commas : ∀ fs : List Line, fs ≠ [] → (∀ f ∈ fs, Shape f) → splitTop (Spec.commas fs) = fs
  | [], h, _ => absurd rfl h
  | [f], _, h => by
    have := shape_split (h f (by simp)) []
    simpa [Spec.commas, splitTop, glue] using this
  | f :: g :: r, _, h => by
    have hr : ∀ x ∈ g :: r, Shape x := fun x hx => h x (List.mem_cons_of_mem _ hx)
    rw [Spec.commas, shape_split (h f (by simp)), splitTop, if_pos (by simp [commas_closes _ hr]),
      splitTop_commas (g :: r) (by simp) hr]
    simp [glue]

/-! ## the applied selections -/

theorem toPicks_set (d : Dict String (Slc C)) (d' : Dict String Pick) (k : String) (s : Slc C) (p : Pick) (h : toPicks d = .ok d')
    (hs : toPick s = .ok p) : toPicks (Dict.set d k s) = .ok (Dict.set d' k p) := by
  induction d generalizing d' with
  | nil =>
    simp only [toPicks, Except.ok.injEq] at h
    subst h
    simp [Dict.set, toPicks, hs]
  | cons x d ih =>
    obtain ⟨k', s'⟩ := x
    rw [toPicks] at h
    cases h1 : toPick s' with
    | error e => rw [h1] at h; exact nomatch h
    | ok p' =>
      cases h2 : toPicks d with
      | error e => rw [h1, h2] at h; exact nomatch h
      | ok t =>
        rw [h1, h2] at h
        cases h
        rw [Dict.set, Dict.set]
        split
        · simp [toPicks, hs, h2]
        · simp [toPicks, h1, ih t h2]

theorem toPicks_has (d : Dict String (Slc C)) (d' : Dict String Pick) (k : String) (h : toPicks d = .ok d') :
    Dict.has d k = Dict.has d' k := by
  induction d generalizing d' with
  | nil =>
    simp only [toPicks, Except.ok.injEq] at h
    subst h
    rfl
  | cons x d ih =>
    obtain ⟨k', s'⟩ := x
    rw [toPicks] at h
    cases h1 : toPick s' with
    | error e => rw [h1] at h; exact nomatch h
    | ok p' =>
      cases h2 : toPicks d with
      | error e => rw [h1, h2] at h; exact nomatch h
      | ok t =>
        rw [h1, h2] at h
        cases h
        have := ih t h2
        simp only [Dict.has, Dict.get?] at this ⊢
        split
        · rfl
        · exact this

/-- the state of the parser of the text stands for the state of the parser of the tokens -/
def Rel (o : Out V C) (s : Sels V) : Prop := toPicks o.sel = .ok s.sel ∧ o.rebin = s.rebin ∧ o.sum = s.sum

theorem toSels_of_rel {o : Out V C} {s : Sels V} (h : Rel o s) : toSels o = .ok s := by
  obtain ⟨h1, h2, h3⟩ := h
  rw [toSels, h1, h2, h3]

theorem digits_not {s : Line} (h : Spec.Digits s) {c : Char} (hc : c ∉ "+-0123456789".toList) : c ∉ s := fun h' => hc (h c h')

theorem reals_not {s : Line} (h : Spec.Reals s) {c : Char} (hc : c ∉ "+-.0123456789eE, ".toList) : c ∉ s := fun h' => hc (h c h')

theorem number_digits (env : Env V C) {s : Line} {n : Int} (h : Spec.Digits s) (hn : env.int s = .ok n) :
    number env s = .ok (.int n) := by
  rw [number, if_neg (digits_not h (by decide +kernel)), hn]
  rfl

theorem sliceArg_bound (env : Env V C) {s : Line} {b : Option Int} (h : Spec.Bound env s b) :
    sliceArg env s = .ok (b.map .int) := by
  cases h with
  | all => rfl
  | int hd hn =>
    rw [sliceArg, if_neg, number_digits env hd hn]
    · rfl
    · intro e
      exact digits_not hd (c := 'N') (by decide +kernel) (by rw [e]; decide +kernel)

theorem bound_not {env : Env V C} {s : Line} {b : Option Int} (h : Spec.Bound env s b) {c : Char}
    (hc : c ∉ "+-0123456789None".toList) : c ∉ s := by
  have e : "+-0123456789None".toList = "+-0123456789".toList ++ "None".toList := by decide +kernel
  rw [e, List.mem_append] at hc
  cases h with
  | all => exact fun h' => hc (Or.inr h')
  | int hd hn => exact fun h' => hc (Or.inl (hd c h'))

theorem contains_prefix (p l : Line) (h : p.isPrefixOf l = true) : contains p l = true := by
  cases l with
  | nil => exact h
  | cons c r => rw [contains, h]; rfl

theorem contains_no (p l : Line) {c : Char} (hp : c ∈ p) (h : c ∉ l) : contains p l = false := by
  induction l with
  | nil =>
    cases p with
    | nil => exact absurd hp (by simp)
    | cons x p => rfl
  | cons y l ih =>
    rw [contains, ih fun h' => h (List.mem_cons_of_mem _ h'), Bool.or_false, Bool.eq_false_iff]
    intro hpre
    exact h (List.IsPrefix.subset (List.isPrefixOf_iff_prefix.1 hpre) hp)

theorem inner_of (w t : Line) (hw : w.length = 6) : inner (w ++ t ++ ")".toList) = t := by
  have e : ")".toList = [')'] := by decide +kernel
  rw [inner, List.append_assoc, List.drop_left' hw, e, List.dropLast_concat]

theorem toPick_ints (a b c : Option Int) : toPick (C := C) ⟨a.map .int, b.map .int, c.map .int⟩ = .ok (.slc a b c) := by
  cases a <;> cases b <;> cases c <;> rfl

/-- a slice in the text -/
theorem apply_slice (env : Env V C) (o : Out V C) (s : Sels V) (h : Rel o s) (k : String) (t : Line) (as : List (Option (Num C)))
    (a b c : Option Int) (h1 : sliceArgs env (splitOn ',' t) = .ok as)
    (h2 : mkSlice as = .ok ⟨a.map .int, b.map .int, c.map .int⟩) :
    ∃ o', apply env o k ("slice(".toList ++ t ++ ")".toList) = .ok o' ∧ Rel o' (parseTok s (k, .slice a b c)) := by
  have hc : contains "slice".toList ("slice(".toList ++ t ++ ")".toList) = true := contains_prefix _ _ (by
    have e1 : "slice".toList = ['s', 'l', 'i', 'c', 'e'] := by decide +kernel
    have e2 : "slice(".toList = ['s', 'l', 'i', 'c', 'e', '('] := by decide +kernel
    rw [e1, e2]
    rfl)
  rw [apply, if_pos hc, inner_of _ t (by decide +kernel), h1]
  dsimp only
  rw [h2]
  exact ⟨_, rfl, toPicks_set _ _ k _ _ h.1 (toPick_ints a b c), h.2.1, h.2.2⟩

/-- one axis: the text and the token do the same -/
theorem apply_says (env : Env V C) (o : Out V C) (s : Sels V) (h : Rel o s) (k : String) (v : Line) (t : Tok V)
    (hv : Spec.Says env v t) : ∃ o', apply env o k v = .ok o' ∧ Rel o' (parseTok s (k, t)) := by
  cases hv with
  | sum => exact ⟨{ o with sum := o.sum ++ [k] }, rfl, h.1, h.2.1, by simp [parseTok, h.2.2]⟩
  | all => exact ⟨_, rfl, toPicks_set _ _ k _ _ h.1 (toPick_ints none none none), h.2.1, h.2.2⟩
  | index hd hn =>
    rename_i n
    have hne : ∀ w : Line, (∃ c ∈ w, c ∉ "+-0123456789".toList) → v ≠ w := by
      rintro w ⟨c, hcw, hc⟩ rfl
      exact digits_not hd hc hcw
    have hstart : starts "rebin" v = false := by
      rw [Bool.eq_false_iff]
      intro h'
      exact digits_not hd (c := 'r') (by decide +kernel)
        (List.IsPrefix.subset (List.isPrefixOf_iff_prefix.1 h') (by decide +kernel))
    rw [apply, if_neg (by rw [contains_no _ _ (c := 's') (by decide +kernel) (digits_not hd (by decide +kernel))]; simp),
      if_neg (hne _ ⟨'s', by decide +kernel, by decide +kernel⟩), if_neg (by rw [hstart]; simp),
      if_neg (hne _ ⟨'N', by decide +kernel, by decide +kernel⟩), number_digits env hd hn]
    refine ⟨_, rfl, toPicks_set _ _ k _ _ h.1 (toPick_ints (some n) (some (n + 1)) none), h.2.1, ?_⟩
    simp [parseTok, h.2.2]
  | rebin hr he =>
    rename_i t es
    have hs : 's' ∉ ("rebin(".toList ++ t ++ ")".toList) := by
      intro h'
      rcases List.mem_append.1 h' with h' | h'
      · rcases List.mem_append.1 h' with h' | h'
        · exact absurd h' (by decide +kernel)
        · exact reals_not hr (by decide +kernel) h'
      · exact absurd h' (by decide +kernel)
    have e2 : "rebin(".toList = ['r', 'e', 'b', 'i', 'n', '('] := by decide +kernel
    have hst : starts "rebin" ("rebin(".toList ++ t ++ ")".toList) = true := by
      have e1 : "rebin".toList = ['r', 'e', 'b', 'i', 'n'] := by decide +kernel
      rw [starts, e1, e2]
      rfl
    rw [apply, if_neg (by rw [contains_no _ _ (c := 's') (by decide +kernel) hs]; simp),
      if_neg (by intro e; exact hs (by rw [e]; decide +kernel)), if_pos hst, inner_of _ t (by decide +kernel), he]
    exact ⟨_, rfl, h.1, by simp [parseTok, h.2.1], h.2.2⟩
  | stop hb =>
    rename_i y b
    refine apply_slice env o s h k y [b.map .int] none b none ?_ rfl
    rw [splitOn_none _ _ (bound_not hb (by decide +kernel)), sliceArgs, sliceArg_bound env hb]
    rfl
  | range ha hb =>
    rename_i x y a b
    refine apply_slice env o s h k _ [a.map .int, b.map .int] a b none ?_ rfl
    rw [splitOn_cons _ _ _ (bound_not ha (by decide +kernel)), splitOn_none _ _ (bound_not hb (by decide +kernel)), sliceArgs,
      sliceArg_bound env ha, sliceArgs, sliceArg_bound env hb]
    rfl
  | stride ha hb hc =>
    rename_i x y z a b c
    refine apply_slice env o s h k _ [a.map .int, b.map .int, c.map .int] a b c ?_ rfl
    rw [splitOn_cons _ _ _ (bound_not ha (by decide +kernel)), splitOn_cons _ _ _ (bound_not hb (by decide +kernel)),
      splitOn_none _ _ (bound_not hc (by decide +kernel)), sliceArgs, sliceArg_bound env ha, sliceArgs, sliceArg_bound env hb,
      sliceArgs, sliceArg_bound env hc]
    rfl

theorem says_no_colon {env : Env V C} {v : Line} {t : Tok V} (h : Spec.Says env v t) : ':' ∉ v := by
  have hp : ∀ (w m : Line), ':' ∉ w → ':' ∉ m → ':' ∉ w ++ m ++ ")".toList := by
    intro w m hw hm h'
    rcases List.mem_append.1 h' with h' | h'
    · rcases List.mem_append.1 h' with h' | h'
      · exact hw h'
      · exact hm h'
    · exact absurd h' (by decide +kernel)
  have hc : ∀ x y : Line, ':' ∉ x → ':' ∉ y → ':' ∉ x ++ ',' :: y := by
    intro x y hx hy h'
    rcases List.mem_append.1 h' with h' | h'
    · exact hx h'
    · rcases List.mem_cons.1 h' with h' | h'
      · exact absurd h' (by decide)
      · exact hy h'
  cases h with
  | sum => decide +kernel
  | all => decide +kernel
  | index hd _ => exact digits_not hd (by decide +kernel)
  | rebin hr _ => exact hp _ _ (by decide +kernel) (reals_not hr (by decide +kernel))
  | stop hb => exact hp _ _ (by decide +kernel) (bound_not hb (by decide +kernel))
  | range ha hb => exact hp _ _ (by decide +kernel) (hc _ _ (bound_not ha (by decide +kernel)) (bound_not hb (by decide +kernel)))
  | stride ha hb hc' =>
    exact hp _ _ (by decide +kernel)
      (hc _ _ (bound_not ha (by decide +kernel)) (hc _ _ (bound_not hb (by decide +kernel)) (bound_not hc' (by decide +kernel))))

theorem says_shape {env : Env V C} {n v : Line} {t : Tok V} (hn : Spec.Name n) (h : Spec.Says env v t) :
    Shape (n ++ ':' :: v) := by
  have flat : ∀ v : Line, (∀ c ∈ v, c ≠ ',' ∧ c ≠ '(' ∧ c ≠ ')') → Shape (n ++ ':' :: v) := by
    intro v hv
    refine ⟨_, ?_, Or.inl rfl⟩
    intro c hc
    rcases List.mem_append.1 hc with hc | hc
    · exact ⟨(hn c hc).1, (hn c hc).2.2⟩
    · rcases List.mem_cons.1 hc with rfl | hc
      · decide
      · exact hv c hc
  have par : ∀ w m : Line, (∀ c ∈ w, c ≠ ',' ∧ c ≠ '(' ∧ c ≠ ')') → (∀ c ∈ m, c ≠ '(' ∧ c ≠ ')') →
      Shape (n ++ ':' :: (w ++ ['('] ++ m ++ ")".toList)) := by
    intro w m hw hm
    refine ⟨n ++ ':' :: w, ?_, Or.inr ⟨m, hm, ?_⟩⟩
    · intro c hc
      rcases List.mem_append.1 hc with hc | hc
      · exact ⟨(hn c hc).1, (hn c hc).2.2⟩
      · rcases List.mem_cons.1 hc with rfl | hc
        · decide
        · exact hw c hc
    · have e : ")".toList = [')'] := by decide +kernel
      rw [e]
      simp
  have es : "slice(".toList = "slice".toList ++ ['('] := by decide +kernel
  have er : "rebin(".toList = "rebin".toList ++ ['('] := by decide +kernel
  have ne : ∀ {l : Line} {c : Char}, c ∈ l → ∀ {d : Char}, d ∉ l → c ≠ d := by
    rintro l c hc d hd rfl
    exact hd hc
  cases h with
  | sum => exact flat _ (by decide +kernel)
  | all => exact flat _ (by decide +kernel)
  | index hd _ =>
    exact flat _ fun c hc => ⟨ne hc (digits_not hd (by decide +kernel)), ne hc (digits_not hd (by decide +kernel)),
      ne hc (digits_not hd (by decide +kernel))⟩
  | rebin hr _ =>
    rw [er]
    exact par _ _ (by decide +kernel) fun c hc => ⟨ne hc (reals_not hr (by decide +kernel)), ne hc (reals_not hr (by decide +kernel))⟩
  | stop hb =>
    rw [es]
    exact par _ _ (by decide +kernel) fun c hc => ⟨ne hc (bound_not hb (by decide +kernel)), ne hc (bound_not hb (by decide +kernel))⟩
  | range ha hb =>
    rw [es]
    refine par _ _ (by decide +kernel) fun c hc => ?_
    rcases List.mem_append.1 hc with hc | hc
    · exact ⟨ne hc (bound_not ha (by decide +kernel)), ne hc (bound_not ha (by decide +kernel))⟩
    · rcases List.mem_cons.1 hc with rfl | hc
      · decide
      · exact ⟨ne hc (bound_not hb (by decide +kernel)), ne hc (bound_not hb (by decide +kernel))⟩
  | stride ha hb hc' =>
    rw [es]
    refine par _ _ (by decide +kernel) fun c hc => ?_
    rcases List.mem_append.1 hc with hc | hc
    · exact ⟨ne hc (bound_not ha (by decide +kernel)), ne hc (bound_not ha (by decide +kernel))⟩
    · rcases List.mem_cons.1 hc with rfl | hc
      · decide
      · rcases List.mem_append.1 hc with hc | hc
        · exact ⟨ne hc (bound_not hb (by decide +kernel)), ne hc (bound_not hb (by decide +kernel))⟩
        · rcases List.mem_cons.1 hc with rfl | hc
          · decide
          · exact ⟨ne hc (bound_not hc' (by decide +kernel)), ne hc (bound_not hc' (by decide +kernel))⟩

theorem run_says (env : Env V C) (fs : List (Line × Line × Tok V)) (hf : ∀ f ∈ fs, Spec.Name f.1 ∧ Spec.Says env f.2.1 f.2.2)
    (o : Out V C) (s : Sels V) (h : Rel o s) (k : Option String) :
    ∃ o', run env o k (fs.map fun f => f.1 ++ ':' :: f.2.1) =
        .ok (o', ((fs.map fun f => (String.ofList f.1, f.2.2)).getLast?.map Prod.fst).or k) ∧
      Rel o' ((fs.map fun f => (String.ofList f.1, f.2.2)).foldl parseTok s) := by
  induction fs generalizing o s k with
  | nil => exact ⟨o, rfl, h⟩
  | cons f fs ih =>
    obtain ⟨hn, hs⟩ := hf f (by simp)
    obtain ⟨o1, h1, h2⟩ := apply_says env o s h (String.ofList f.1) f.2.1 f.2.2 hs
    obtain ⟨o2, h3, h4⟩ := ih (fun x hx => hf x (List.mem_cons_of_mem _ hx)) o1 _ h2 (some (String.ofList f.1))
    refine ⟨o2, ?_, h4⟩
    rw [List.map_cons, run, splitOn_cons ':' f.1 _ fun hc => (hn _ hc).2.1 rfl, splitOn_none ':' _ (says_no_colon hs)]
    dsimp only
    rw [h1]
    dsimp only
    rw [h3]
    congr 2
    rw [List.map_cons, List.getLast?_cons]
    cases hl : (fs.map fun f => (String.ofList f.1, f.2.2)).getLast? <;> simp

/-- the text and the tokens give the same selections -/
theorem parse_text (env : Env V C) (text : Line) (toks : List (String × Tok V)) (h : Spec.Text env text toks)
    (hne : text ≠ "None:None".toList) : ∃ o, parse env text = .ok o ∧ toSels o = .ok (parseAxisSelection toks) := by
  obtain ⟨fs, hfs, hf, rfl, rfl⟩ := h
  obtain ⟨o, h1, h2⟩ := run_says env fs hf {} {} ⟨rfl, rfl, rfl⟩ none
  rw [parse, if_neg hne, splitTop_commas _ (by simpa using hfs) (by
    intro x hx
    obtain ⟨f, hfx, rfl⟩ := List.mem_map.1 hx
    exact says_shape (hf f hfx).1 (hf f hfx).2), h1]
  cases hl : (fs.map fun f => (String.ofList f.1, f.2.2)).getLast? with
  | none =>
    refine ⟨o, rfl, ?_⟩
    rw [parseAxisSelection, hl]
    exact toSels_of_rel h2
  | some kt =>
    obtain ⟨k, t⟩ := kt
    rw [parseAxisSelection, hl]
    change ∃ o', (if Dict.has o.sel k = true then Except.ok o else Except.ok { o with sel := Dict.set o.sel k {} }) = Except.ok o' ∧ _
    dsimp only
    rw [toPicks_has _ _ k h2.1]
    by_cases hk : Dict.has ((fs.map fun f => (String.ofList f.1, f.2.2)).foldl parseTok {}).sel k = true
    · rw [if_pos hk, if_pos hk]
      exact ⟨_, rfl, toSels_of_rel h2⟩
    · rw [if_neg hk, if_neg hk]
      exact ⟨_, rfl, toSels_of_rel ⟨toPicks_set _ _ k _ _ h2.1 (toPick_ints none none none), h2.2.1, h2.2.2⟩⟩

theorem splitOn_length (c : Char) (l : Line) : (splitOn c l).length = l.count c + 1 := by
  induction l with
  | nil => rfl
  | cons x l ih =>
    rw [splitOn]
    by_cases hx : x = c
    · rw [if_pos hx, List.length_cons, ih, hx, List.count_cons_self]
    · rw [if_neg hx, List.count_cons_of_ne hx]
      revert ih
      cases splitOn c l with
      | nil => intro ih; simp at ih
      | cons a r => intro ih; simpa using ih

/-- the list of processes on the command line: `None`, or names separated by commas -/
def Spec.Procs (text : Line) (ps : List String) : Prop :=
  (text = "None".toList ∧ ps = []) ∨
    ps ≠ [] ∧ (∀ p ∈ ps, ',' ∉ p.toList ∧ ':' ∉ p.toList ∧ p ≠ "None") ∧ text = Spec.commas (ps.map String.toList)

theorem splitOn_commas : ∀ fs : List Line, fs ≠ [] → (∀ f ∈ fs, ',' ∉ f) → splitOn ',' (Spec.commas fs) = fs
  | [], h, _ => absurd rfl h
  | [f], _, h => splitOn_none _ _ (h f (by simp))
  | f :: g :: r, _, h => by
    rw [Spec.commas, splitOn_cons _ _ _ (h f (by simp)), splitOn_commas (g :: r) (by simp) fun x hx => h x (List.mem_cons_of_mem _ hx)]

theorem commas_not : ∀ (fs : List Line) (c : Char), c ≠ ',' → (∀ f ∈ fs, c ∉ f) → c ∉ Spec.commas fs
  | [], _, _, _ => by simp [Spec.commas]
  | [f], _, _, h => h f (by simp)
  | f :: g :: r, c, hc, h => by
    rw [Spec.commas]
    intro h'
    rcases List.mem_append.1 h' with h' | h'
    · exact h f (by simp) h'
    · rcases List.mem_cons.1 h' with h' | h'
      · exact hc h'
      · exact commas_not (g :: r) c hc (fun x hx => h x (List.mem_cons_of_mem _ hx)) h'

theorem commas_mem : ∀ (fs : List Line) (c : Char), (∃ f ∈ fs, c ∈ f) → c ∈ Spec.commas fs
  | [], _, h => by simp at h
  | [f], c, h => by simpa [Spec.commas] using h
  | f :: g :: r, c, h => by
    rw [Spec.commas]
    obtain ⟨x, hx, hc⟩ := h
    rcases List.mem_cons.1 hx with rfl | hx
    · exact List.mem_append_left _ hc
    · exact List.mem_append_right _ (List.mem_cons_of_mem _ (commas_mem (g :: r) c ⟨x, hx, hc⟩))

theorem procs_list {text : Line} {ps : List String} (h : Spec.Procs text ps) : procList text = ps ∧ hasColon text = false := by
  rcases h with ⟨rfl, rfl⟩ | ⟨h0, h1, rfl⟩
  · exact ⟨by decide +kernel, by decide +kernel⟩
  · constructor
    · rw [procList, splitOn_commas _ (by simpa using h0) (by
        intro f hf
        obtain ⟨p, hp, rfl⟩ := List.mem_map.1 hf
        exact (h1 p hp).1), List.map_map]
      have : ps.map (String.ofList ∘ String.toList) = ps := by
        conv => rhs; rw [← List.map_id ps]
        exact List.map_congr_left fun p _ => String.ofList_toList
      rw [this]
      exact List.filter_eq_self.2 fun p hp => by simpa using (h1 p hp).2.2
    · rw [hasColon, decide_eq_false_iff_not]
      refine commas_not _ _ (by decide) ?_
      intro f hf
      obtain ⟨p, hp, rfl⟩ := List.mem_map.1 hf
      exact (h1 p hp).2.1

theorem text_colon {env : Env V C} {text : Line} {toks : List (String × Tok V)} (h : Spec.Text env text toks) :
    hasColon text = true := by
  obtain ⟨fs, hfs, -, rfl, -⟩ := h
  rw [hasColon, decide_eq_true_eq]
  cases fs with
  | nil => exact absurd rfl hfs
  | cons f fs => exact commas_mem _ _ ⟨f.1 ++ ':' :: f.2.1, by simp, by simp⟩

end Verif.SelText
