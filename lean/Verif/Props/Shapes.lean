import Verif.Model.Shapes
import Verif.Props.Datacard
import Mathlib.Data.List.Infix

/-!
C76: the histograms taken for a process, a bin and a systematic of a datacard are those its shape directives name.
-/

namespace Verif.Datacard

variable {V H : Type}

/-! ### which directive -/

/-- the directive `s` applies to process `p` in bin `b` -/
def Spec.Applies (s : Shape) (p b : String) : Prop := (s.process = "*" ∨ s.process = p) ∧ (s.channel = "*" ∨ s.channel = b)

/-- the last directive of the card that applies -/
def Spec.LastShape (c : Card V) (p b : String) (s : Shape) : Prop :=
  ∃ pre post, c.shapes = pre ++ s :: post ∧ Spec.Applies s p b ∧ ∀ t ∈ post, ¬ Spec.Applies t p b

theorem fold_set_chan (m : Dict (String × String) Shape) (q p b : String) (cs : List String) (s : Shape) :
    Dict.get? (cs.foldl (fun d ch => Dict.set d (q, ch) s) m) (p, b) =
      if q = p ∧ b ∈ cs then some s else Dict.get? m (p, b) := by
  induction cs generalizing m with
  | nil => simp
  | cons c cs ih =>
    rw [List.foldl_cons, ih, Dict.get?_set]
    by_cases hq : q = p
    · subst hq
      by_cases h1 : b ∈ cs
      · simp [h1]
      · by_cases h2 : c = b
        · subst h2; simp
        · simp [h1, h2, Ne.symm h2]
    · simp [hq]

theorem fold_set_proc (m : Dict (String × String) Shape) (p b : String) (qs cs : List String) (s : Shape) :
    Dict.get? (qs.foldl (fun d q => cs.foldl (fun d ch => Dict.set d (q, ch) s) d) m) (p, b) =
      if p ∈ qs ∧ b ∈ cs then some s else Dict.get? m (p, b) := by
  induction qs generalizing m with
  | nil => simp
  | cons q qs ih =>
    rw [List.foldl_cons, ih, fold_set_chan]
    by_cases hb : b ∈ cs
    · by_cases h1 : p ∈ qs
      · simp [h1, hb]
      · by_cases h2 : q = p
        · subst h2; simp [hb]
        · simp [h1, h2, Ne.symm h2]
    · simp [hb]

/-- entries of the map after the directives `ss` -/
theorem shapes_fold (c : Card V) (ss : List Shape) (m : Dict (String × String) Shape) (p b : String) :
    Dict.get? (ss.foldl (fun d s =>
      (if s.process = "*" then "data_obs" :: c.processes else [s.process]).foldl (fun d p =>
        (if s.channel = "*" then c.bins else [s.channel]).foldl (fun d ch => Dict.set d (p, ch) s) d) d) m) (p, b) =
      (ss.reverse.find? fun s => decide (p ∈ (if s.process = "*" then "data_obs" :: c.processes else [s.process]) ∧
        b ∈ (if s.channel = "*" then c.bins else [s.channel]))).or (Dict.get? m (p, b)) := by
  induction ss generalizing m with
  | nil => simp
  | cons s ss ih =>
    rw [List.foldl_cons, ih, fold_set_proc, List.reverse_cons, List.find?_append]
    cases List.find? _ ss.reverse with
    | some t => simp
    | none =>
      simp only [List.find?_cons, List.find?_nil, Option.none_or]
      by_cases h : p ∈ (if s.process = "*" then "data_obs" :: c.processes else [s.process]) ∧
          b ∈ (if s.channel = "*" then c.bins else [s.channel])
      · rw [if_pos h, decide_eq_true h]; simp
      · rw [if_neg h, decide_eq_false h]; simp

theorem reverse_find {α : Type} {q : α → Bool} {l : List α} {x : α} (h : l.reverse.find? q = some x) :
    ∃ pre post, l = pre ++ x :: post ∧ q x = true ∧ ∀ y ∈ post, q y = false := by
  rw [List.find?_eq_some_iff_append] at h
  obtain ⟨hq, as, bs, h1, h2⟩ := h
  refine ⟨bs.reverse, as.reverse, ?_, hq, fun y hy => ?_⟩
  · rw [← List.reverse_reverse l, h1]; simp
  · simpa using h2 y (List.mem_reverse.1 hy)

/-- C76, directives: for a process and a bin of the card the directive used is the last one that applies; there is none exactly
if no directive applies. -/
theorem c76_directive (c : Card V) (p b : String) (hp : p = "data_obs" ∨ p ∈ c.processes) (hb : b ∈ c.bins)
    (hs : "*" ∉ c.processes) (hsb : "*" ∉ c.bins) :
    (∀ s, shapeOf (shapeMap c) p b = some s ↔ Spec.LastShape c p b s) ∧
      (shapeOf (shapeMap c) p b = none ↔ ∀ s ∈ c.shapes, ¬ Spec.Applies s p b) := by
  have key : ∀ (p b : String) (s : Shape), (p = "data_obs" ∨ p ∈ c.processes) → b ∈ c.bins →
      ((p ∈ (if s.process = "*" then "data_obs" :: c.processes else [s.process]) ∧
        b ∈ (if s.channel = "*" then c.bins else [s.channel])) ↔ Spec.Applies s p b) := by
    intro p b s hp hb
    unfold Spec.Applies
    by_cases h1 : s.process = "*" <;> by_cases h2 : s.channel = "*" <;> simp [h1, h2, hp, hb, eq_comm]
  have hmap : ∀ p b, Dict.get? (shapeMap c) (p, b) = _ := fun p b => (shapes_fold c c.shapes [] p b)
  have hstar1 : ∀ b', Dict.get? (shapeMap c) ("*", b') = none := by
    intro b'
    rw [hmap, Dict.get?_nil, Option.or_none, List.find?_eq_none]
    intro s _
    rw [decide_eq_true_iff]
    rintro ⟨h, -⟩
    split at h
    · rcases List.mem_cons.1 h with h | h
      · exact absurd h (by decide)
      · exact hs h
    · rename_i hne; exact hne (List.mem_singleton.1 h).symm
  have hstar2 : ∀ p', Dict.get? (shapeMap c) (p', "*") = none := by
    intro p'
    rw [hmap, Dict.get?_nil, Option.or_none, List.find?_eq_none]
    intro s _
    rw [decide_eq_true_iff]
    rintro ⟨-, h⟩
    split at h
    · exact hsb h
    · rename_i hne; exact hne (List.mem_singleton.1 h).symm
  have heq : shapeOf (shapeMap c) p b = c.shapes.reverse.find? fun s =>
      decide (p ∈ (if s.process = "*" then "data_obs" :: c.processes else [s.process]) ∧
        b ∈ (if s.channel = "*" then c.bins else [s.channel])) := by
    unfold shapeOf
    rw [hstar1, hstar2, hstar1, hmap, Dict.get?_nil]
    simp
  have hfwd : ∀ s, shapeOf (shapeMap c) p b = some s → Spec.LastShape c p b s := by
    intro s h
    rw [heq] at h
    obtain ⟨pre, post, h1, h2, h3⟩ := reverse_find h
    exact ⟨pre, post, h1, (key p b s hp hb).1 (of_decide_eq_true h2), fun t ht ha =>
      of_decide_eq_false (h3 t ht) ((key p b t hp hb).2 ha)⟩
  have hnone : shapeOf (shapeMap c) p b = none ↔ ∀ s ∈ c.shapes, ¬ Spec.Applies s p b := by
    rw [heq, List.find?_eq_none]
    constructor
    · intro h s hs ha
      exact h s (by simpa using hs) (decide_eq_true ((key p b s hp hb).2 ha))
    · intro h s hs ha
      exact h s (by simpa using hs) ((key p b s hp hb).1 (of_decide_eq_true ha))
  refine ⟨fun s => ⟨hfwd s, ?_⟩, hnone⟩
  rintro ⟨pre, post, h1, h2, h3⟩
  rw [heq, h1, List.reverse_append, List.find?_append, List.reverse_cons, List.find?_append,
    List.find?_eq_none.2 (by
      intro t ht hd
      exact h3 t (List.mem_reverse.1 ht) ((key p b t hp hb).1 (of_decide_eq_true hd)))]
  simp [(key p b s hp hb).2 h2]

/-- C76, directives, against the precedence of the lookup (213-239: a directive for the process and the bin before wildcards):
a directive with wildcards that comes after a directive for this process and bin replaces it. -/
theorem c76_wildcard_violated (c : Card V) (p b : String) (hp : p = "data_obs" ∨ p ∈ c.processes) (hb : b ∈ c.bins)
    (hs : "*" ∉ c.processes) (hsb : "*" ∉ c.bins) (pre : List Shape) (t : Shape) (ht : t.process = "*" ∧ t.channel = "*")
    (hc : c.shapes = pre ++ [t]) : shapeOf (shapeMap c) p b = some t :=
  ((c76_directive c p b hp hb hs hsb).1 t).2 ⟨pre, [], hc, ⟨.inl ht.1, .inl ht.2⟩, by simp⟩

/-! ### the name of a histogram -/

/-- a pattern is made of text and variables -/
inductive Spec.Var where
  | process | channel | syst | mass
deriving DecidableEq

def Spec.Var.text : Spec.Var → List Char
  | .process => "$PROCESS".toList
  | .channel => "$CHANNEL".toList
  | .syst => "$SYSTEMATIC".toList
  | .mass => "$MASS".toList

inductive Spec.Tok where
  | lit (l : List Char)
  | var (v : Spec.Var)

/-- the pattern as written in the card -/
def Spec.text : List Spec.Tok → List Char
  | [] => []
  | .lit l :: ts => l ++ Spec.text ts
  | .var v :: ts => v.text ++ Spec.text ts

/-- the pattern with values for the variables -/
def Spec.render (f : Spec.Var → List Char) : List Spec.Tok → List Char
  | [] => []
  | .lit l :: ts => l ++ Spec.render f ts
  | .var v :: ts => f v ++ Spec.render f ts

/-- the text of a pattern contains no `$` beside the variables -/
def Spec.Plain (ts : List Spec.Tok) : Prop := ∀ l, .lit l ∈ ts → '$' ∉ l

def Spec.values (proc bin syst mass : String) : Spec.Var → List Char
  | .process => proc.toList
  | .channel => bin.toList
  | .syst => syst.toList
  | .mass => mass.toList

/-- `name` is the name of the histogram of `p` and `b`, and the systematic `y` if any, by the directive `s`.  Without a pattern
for systematics the name of the systematic is appended to that of the nominal histogram. -/
def Spec.Names (mass : String) (s : Shape) (p b : String) (y : Option String) (name : List Char) : Prop :=
  match y with
  | none => ∃ ts, Spec.Plain ts ∧ .var .syst ∉ ts ∧ s.pattern.toList = Spec.text ts ∧ name = Spec.render (Spec.values p b "" mass) ts
  | some y => (∃ pat ts, s.systPattern = some pat ∧ Spec.Plain ts ∧ pat.toList = Spec.text ts ∧
        name = Spec.render (Spec.values p b y mass) ts) ∨
      (s.systPattern = none ∧ ∃ ts, Spec.Plain ts ∧ .var .syst ∉ ts ∧ s.pattern.toList = Spec.text ts ∧
        name = Spec.render (Spec.values p b y mass) ts ++ '_' :: y.toList)

theorem replaceGo_skip (old new : List Char) (k : Nat) (l : List Char) : replaceGo old new k l = replaceAll old new (l.drop k) := by
  induction l generalizing k with
  | nil => cases k <;> simp [replaceGo, replaceAll]
  | cons c l ih =>
    cases k with
    | zero => rfl
    | succ k => rw [replaceGo, ih, List.drop_succ_cons]

theorem replaceAll_cons (old new : List Char) (c : Char) (l : List Char) : replaceAll old new (c :: l) =
    if old.isPrefixOf (c :: l) then new ++ replaceAll old new (l.drop (old.length - 1)) else c :: replaceAll old new l := by
  rw [replaceAll, replaceGo, replaceGo_skip]
  rfl

theorem replace_skip (old new l rest : List Char) (ho : old.head? = some '$') (hl : '$' ∉ l) :
    replaceAll old new (l ++ rest) = l ++ replaceAll old new rest := by
  induction l with
  | nil => rfl
  | cons c l ih =>
    rw [List.cons_append, replaceAll_cons, if_neg, ih (fun h => hl (List.mem_cons_of_mem _ h)), List.cons_append]
    rw [List.isPrefixOf_iff_prefix]
    intro h
    cases old with
    | nil => cases ho
    | cons o os =>
      cases ho
      rw [List.cons_prefix_cons] at h
      exact hl (by rw [h.1]; exact List.mem_cons_self)

theorem replace_hit (old new rest : List Char) (ho : old ≠ []) :
    replaceAll old new (old ++ rest) = new ++ replaceAll old new rest := by
  cases old with
  | nil => exact absurd rfl ho
  | cons o os =>
    rw [List.cons_append, replaceAll_cons, if_pos]
    · simp
    · rw [List.isPrefixOf_iff_prefix, ← List.cons_append]
      exact List.prefix_append _ _

theorem replace_miss (old new v rest : List Char) (ho : old.head? = some '$') (hv : v.head? = some '$') (hn : '$' ∉ v.tail)
    (h1 : ¬ old <+: v) (h2 : ¬ v <+: old) : replaceAll old new (v ++ rest) = v ++ replaceAll old new rest := by
  cases v with
  | nil => cases hv
  | cons c v =>
    rw [List.cons_append, replaceAll_cons, if_neg, replace_skip old new v rest ho hn, List.cons_append]
    rw [List.isPrefixOf_iff_prefix, ← List.cons_append]
    intro h
    rcases List.prefix_or_prefix_of_prefix h (List.prefix_append (c :: v) rest) with h | h
    · exact h1 h
    · exact h2 h

/-- one variable replaced by text -/
def subst (v : Spec.Var) (new : List Char) : Spec.Tok → Spec.Tok
  | .lit l => .lit l
  | .var w => if w = v then .lit new else .var w

theorem replace_var (v : Spec.Var) (new : List Char) (ts : List Spec.Tok) (hp : Spec.Plain ts) :
    replaceAll v.text new (Spec.text ts) = Spec.text (ts.map (subst v new)) := by
  induction ts with
  | nil => rfl
  | cons t ts ih =>
    have hp' : Spec.Plain ts := fun l hl => hp l (List.mem_cons_of_mem _ hl)
    have ho : v.text.head? = some '$' := by cases v <;> rfl
    cases t with
    | lit l =>
      rw [Spec.text, replace_skip _ _ _ _ ho (hp l List.mem_cons_self), ih hp']
      rfl
    | var w =>
      rw [Spec.text]
      by_cases h : w = v
      · subst h
        have hne : w.text ≠ [] := by cases w <;> decide +kernel
        rw [replace_hit _ _ _ hne, ih hp', List.map_cons, subst, if_pos rfl, Spec.text]
      · rw [replace_miss v.text new w.text _ ho (by cases w <;> rfl) (by cases w <;> decide +kernel)
          (by cases v <;> cases w <;> first | exact absurd rfl h | decide +kernel)
          (by cases v <;> cases w <;> first | exact absurd rfl h | decide +kernel), ih hp', List.map_cons, subst, if_neg h, Spec.text]

theorem plain_subst (v : Spec.Var) (new : List Char) (hn : '$' ∉ new) (ts : List Spec.Tok) (hp : Spec.Plain ts) :
    Spec.Plain (ts.map (subst v new)) := by
  intro l hl
  obtain ⟨t, ht, he⟩ := List.mem_map.1 hl
  cases t with
  | lit k => cases he; exact hp _ ht
  | var w =>
    rw [subst] at he
    split at he
    · cases he; exact hn
    · cases he

theorem text_subst (f : Spec.Var → List Char) (v : Spec.Var) (ts : List Spec.Tok) :
    Spec.render f (ts.map (subst v (f v))) = Spec.render f ts := by
  induction ts with
  | nil => rfl
  | cons t ts ih =>
    cases t with
    | lit l => simp only [List.map_cons, subst, Spec.render, ih]
    | var w =>
      simp only [List.map_cons, subst]
      split_ifs with h
      · subst h; simp only [Spec.render, ih]
      · simp only [Spec.render, ih]

theorem text_no_var (f : Spec.Var → List Char) (ts : List Spec.Tok) (h : ∀ v, .var v ∉ ts) : Spec.text ts = Spec.render f ts := by
  induction ts with
  | nil => rfl
  | cons t ts ih =>
    cases t with
    | lit l => rw [Spec.text, Spec.render, ih fun v hv => h v (List.mem_cons_of_mem _ hv)]
    | var w => exact absurd List.mem_cons_self (h w)

theorem no_var (v : Spec.Var) (new : List Char) (ts : List Spec.Tok) : .var v ∉ ts.map (subst v new) := by
  intro h
  obtain ⟨t, -, he⟩ := List.mem_map.1 h
  cases t with
  | lit k => cases he
  | var w =>
    rw [subst] at he
    split at he
    · cases he
    · rename_i hne; cases he; exact hne rfl

theorem keep_no_var (v w : Spec.Var) (new : List Char) (ts : List Spec.Tok) (h : .var v ∉ ts) : .var v ∉ ts.map (subst w new) := by
  intro hm
  obtain ⟨t, ht, he⟩ := List.mem_map.1 hm
  cases t with
  | lit k => cases he
  | var u =>
    rw [subst] at he
    split at he
    · cases he
    · cases he; exact h ht

/-- C76, names: the name looked up is the pattern with the process, bin, systematic and mass put for the variables. -/
theorem c76_name (mass : String) (s : Shape) (p b : String) (y : Option String) (name : List Char) (hn : Spec.Names mass s p b y name)
    (hp : '$' ∉ p.toList) (hb : '$' ∉ b.toList) (hy : ∀ z ∈ y, '$' ∉ z.toList) : histName mass s p b y = name := by
  have nominal : ∀ ts z, Spec.Plain ts → .var .syst ∉ ts → s.pattern.toList = Spec.text ts →
      replaceAll "$MASS".toList mass.toList (replaceAll "$CHANNEL".toList b.toList (replaceAll "$PROCESS".toList p.toList
        s.pattern.toList)) = Spec.render (Spec.values p b z mass) ts := by
    intro ts z hts hno hpat
    rw [hpat, show "$PROCESS".toList = Spec.Var.process.text from rfl, show "$CHANNEL".toList = Spec.Var.channel.text from rfl,
      show "$MASS".toList = Spec.Var.mass.text from rfl]
    have e1 := replace_var .process p.toList ts hts
    have q1 := plain_subst .process p.toList hp ts hts
    have e2 := replace_var .channel b.toList _ q1
    have q2 := plain_subst .channel b.toList hb _ q1
    have e3 := replace_var .mass mass.toList _ q2
    rw [e1, e2, e3, text_no_var (Spec.values p b z mass)]
    · rw [show mass.toList = Spec.values p b z mass .mass from rfl, text_subst, show b.toList = Spec.values p b z mass .channel from rfl,
        text_subst, show p.toList = Spec.values p b z mass .process from rfl, text_subst]
    · intro v
      cases v with
      | process => exact keep_no_var _ _ _ _ (keep_no_var _ _ _ _ (no_var _ _ _))
      | channel => exact keep_no_var _ _ _ _ (no_var _ _ _)
      | mass => exact no_var _ _ _
      | syst => exact keep_no_var _ _ _ _ (keep_no_var _ _ _ _ (keep_no_var _ _ _ _ hno))
  cases y with
  | none =>
    obtain ⟨ts, hts, hno, hpat, rfl⟩ := hn
    exact nominal ts "" hts hno hpat
  | some y =>
    rcases hn with ⟨pat, ts, hsp, hts, hpat, rfl⟩ | ⟨hsp, ts, hts, hno, hpat, rfl⟩
    · unfold histName
      rw [hsp]
      dsimp only
      rw [hpat, show "$PROCESS".toList = Spec.Var.process.text from rfl, show "$CHANNEL".toList = Spec.Var.channel.text from rfl,
        show "$MASS".toList = Spec.Var.mass.text from rfl, show "$SYSTEMATIC".toList = Spec.Var.syst.text from rfl]
      have e1 := replace_var .process p.toList ts hts
      have q1 := plain_subst .process p.toList hp ts hts
      have e2 := replace_var .channel b.toList _ q1
      have q2 := plain_subst .channel b.toList hb _ q1
      have e3 := replace_var .syst y.toList _ q2
      have q3 := plain_subst .syst y.toList (hy y rfl) _ q2
      have e4 := replace_var .mass mass.toList _ q3
      rw [e1, e2, e3, e4, text_no_var (Spec.values p b y mass)]
      · rw [show mass.toList = Spec.values p b y mass .mass from rfl, text_subst, show y.toList = Spec.values p b y mass .syst from rfl,
          text_subst, show b.toList = Spec.values p b y mass .channel from rfl, text_subst,
          show p.toList = Spec.values p b y mass .process from rfl, text_subst]
      · intro v
        cases v with
        | process => exact keep_no_var _ _ _ _ (keep_no_var _ _ _ _ (keep_no_var _ _ _ _ (no_var _ _ _)))
        | channel => exact keep_no_var _ _ _ _ (keep_no_var _ _ _ _ (no_var _ _ _))
        | syst => exact keep_no_var _ _ _ _ (no_var _ _ _)
        | mass => exact no_var _ _ _
    · unfold histName
      rw [hsp]
      dsimp only
      rw [nominal ts y hts hno hpat]

/-! ### the histogram of a name -/

/-- `h` is the histogram with the path `ps` in a file -/
inductive Spec.At : Dict String (Node H) → List String → H → Prop where
  | here {es n h} : (n, .hist h) ∈ es → Spec.At es [n] h
  | down {es n sub ps h} : (n, .dir sub) ∈ es → Spec.At sub ps h → Spec.At es (n :: ps) h

/-- the names in every directory are different -/
inductive Spec.Distinct : Dict String (Node H) → Prop where
  | mk {es} : (Dict.keys es).Nodup → (∀ n sub, (n, .dir sub) ∈ es → Spec.Distinct sub) → Spec.Distinct es

/-- `name` is the path `ps` written with `/` -/
def Spec.Path (name : List Char) (ps : List String) : Prop :=
  ps ≠ [] ∧ (∀ p ∈ ps, '/' ∉ p.toList) ∧ name = List.intercalate ['/'] (ps.map String.toList)

theorem split_path {name : List Char} {ps : List String} (h : Spec.Path name ps) : splitStr '/' (String.ofList name) = ps := by
  obtain ⟨hne, hsl, rfl⟩ := h
  rw [splitStr, String.toList_ofList]
  induction ps with
  | nil => exact absurd rfl hne
  | cons p ps ih =>
    cases ps with
    | nil =>
      rw [List.map_cons, List.map_nil, List.intercalate_singleton, splitOn_none _ _ (hsl p (by simp))]
      simp
    | cons q qs =>
      rw [List.map_cons, List.intercalate_cons_of_ne_nil (by simp), List.append_assoc, List.singleton_append,
        splitOn_cons _ _ _ (hsl p (by simp)), List.map_cons, ih (by simp) (fun x hx => hsl x (List.mem_cons_of_mem _ hx))]
      simp

theorem mem_of_get? {κ ν : Type} [DecidableEq κ] {d : Dict κ ν} {k : κ} {v : ν} (h : Dict.get? d k = some v) : (k, v) ∈ d := by
  induction d with
  | nil => cases h
  | cons a d ih =>
    obtain ⟨k', v'⟩ := a
    rw [Dict.get?] at h
    split at h
    · rename_i he; cases h; rw [he]; exact List.mem_cons_self
    · exact List.mem_cons_of_mem _ (ih h)

/-- what the loaded directories contain is in the file -/
theorem prune_sub (k : Nat) (es : Dict String (Node H)) : ∀ n x, (n, x) ∈ prune k es →
    (n, x) ∈ es ∨ ∃ j sub, k = j + 1 ∧ x = .dir (prune j sub) ∧ (n, .dir sub) ∈ es := by
  intro n x h
  rw [prune.eq_def] at h
  split at h
  · split at h
    · exact .inl (List.mem_filter.1 h).1
    · rename_i j
      obtain ⟨e, he, hx⟩ := List.mem_map.1 h
      obtain ⟨m, y⟩ := e
      have he' := (List.mem_filter.1 he).1
      cases y with
      | hist _ => exact absurd (List.mem_filter.1 he).2 (by simp [Node.isDir])
      | other => exact absurd (List.mem_filter.1 he).2 (by simp [Node.isDir])
      | dir sub => cases hx; exact .inr ⟨j, sub, rfl, rfl, he'⟩
  · exact .inl h

theorem at_prune {k : Nat} {es : Dict String (Node H)} {ps : List String} {h : H} (ha : Spec.At (prune k es) ps h) : Spec.At es ps h := by
  induction ps generalizing k es with
  | nil => cases ha
  | cons p ps ih =>
    cases ha with
    | here hm =>
      rcases prune_sub k es _ _ hm with hm | ⟨_, _, _, hx, _⟩
      · exact .here hm
      · cases hx
    | down hm hr =>
      rcases prune_sub k es _ _ hm with hm | ⟨j, sub, _, hx, hm'⟩
      · exact .down hm hr
      · cases hx
        exact .down hm' (ih hr)

theorem at_loaded {k : Nat} {es : Dict String (Node H)} {ps : List String} {h : H} (ha : Spec.At (loaded k es) ps h) : Spec.At es ps h := by
  cases k with
  | zero => exact ha
  | succ k => exact at_prune ha

/-- paths with more than `k + 1` parts are kept -/
theorem prune_keeps {k : Nat} {es : Dict String (Node H)} {ps : List String} {h : H} (hl : k + 1 < ps.length)
    (ha : Spec.At es ps h) : Spec.At (prune k es) ps h := by
  induction k generalizing es ps with
  | zero =>
    cases ha with
    | here hm => simp at hl
    | down hm hr =>
      refine .down ?_ hr
      rw [prune.eq_def]
      rw [if_pos (List.any_eq_true.2 ⟨_, hm, rfl⟩)]
      exact List.mem_filter.2 ⟨hm, rfl⟩
  | succ k ih =>
    cases ha with
    | here hm => simp at hl
    | down hm hr =>
      rw [prune.eq_def, if_pos (List.any_eq_true.2 ⟨_, hm, rfl⟩)]
      exact .down (List.mem_map.2 ⟨_, List.mem_filter.2 ⟨hm, rfl⟩, rfl⟩) (ih (by simpa using hl) hr)

theorem loaded_keeps {k : Nat} {es : Dict String (Node H)} {ps : List String} {h : H} (hl : k < ps.length)
    (ha : Spec.At es ps h) : Spec.At (loaded k es) ps h := by
  cases k with
  | zero => exact ha
  | succ k => exact prune_keeps hl ha

theorem keys_prune_nodup {k : Nat} {es : Dict String (Node H)} (h : (Dict.keys es).Nodup) : (Dict.keys (prune k es)).Nodup := by
  rw [prune.eq_def]
  split
  · split
    · exact h.sublist (List.filter_sublist.map _)
    · refine (congrArg List.Nodup ?_).mpr (h.sublist (List.filter_sublist (p := fun x : String × Node H => x.2.isDir).map Prod.fst))
      unfold Dict.keys
      rw [List.map_map]
      refine List.map_congr_left fun e _ => ?_
      dsimp only [Function.comp]
      split <;> rfl
  · exact h

theorem distinct_prune {k : Nat} {es : Dict String (Node H)} (h : Spec.Distinct es) : Spec.Distinct (prune k es) := by
  induction k generalizing es with
  | zero =>
    obtain ⟨h1, h2⟩ := h
    refine ⟨keys_prune_nodup h1, fun n sub hm => ?_⟩
    rcases prune_sub 0 es _ _ hm with hm | ⟨_, _, hk, _⟩
    · exact h2 n sub hm
    · cases hk
  | succ k ih =>
    obtain ⟨h1, h2⟩ := h
    refine ⟨keys_prune_nodup h1, fun n sub hm => ?_⟩
    rcases prune_sub (k + 1) es _ _ hm with hm | ⟨j, s, hk, hx, hm'⟩
    · exact h2 n sub hm
    · cases hk; cases hx
      exact ih (h2 n s hm')

theorem distinct_loaded {k : Nat} {es : Dict String (Node H)} (h : Spec.Distinct es) : Spec.Distinct (loaded k es) := by
  cases k with
  | zero => exact h
  | succ k => exact distinct_prune h

theorem descend_at {es : Dict String (Node H)} {ps : List String} {h : H} (hd : Spec.Distinct es) (ha : Spec.At es ps h) :
    descend (.dir es) ps = .ok (.hist h) := by
  induction ps generalizing es with
  | nil => cases ha
  | cons p ps ih =>
    obtain ⟨h1, h2⟩ := hd
    cases ha with
    | here hm => rw [descend, Dict.get?_of_mem es _ _ h1 hm]; rfl
    | down hm hr => rw [descend, Dict.get?_of_mem es _ _ h1 hm]; exact ih (h2 _ _ hm) hr

theorem at_of_descend {es : Dict String (Node H)} {ps : List String} {h : H} (hd : descend (.dir es) ps = .ok (.hist h)) :
    Spec.At es ps h := by
  induction ps generalizing es with
  | nil => cases hd
  | cons p ps ih =>
    rw [descend] at hd
    cases hg : Dict.get? es p with
    | none =>
      rw [hg, Option.getD_none] at hd
      cases ps with
      | nil => cases hd
      | cons q qs => exact absurd (ih hd) (by intro h; cases h with | here hm => cases hm | down hm _ => cases hm)
    | some n =>
      rw [hg, Option.getD_some] at hd
      cases n with
      | hist x =>
        cases ps with
        | nil => cases hd; exact .here (mem_of_get? hg)
        | cons q qs => cases hd
      | other => cases ps <;> cases hd
      | dir sub => exact .down (mem_of_get? hg) (ih hd)

/-- C76, histograms: a histogram that is returned is the one of the name. -/
theorem c76_histogram (roots : String → Dict String (Node H)) (mass : String) (depth : Nat) (s : Shape) (p b : String)
    (y : Option String) (demand : Bool) (name : List Char) (ps : List String) (hn : Spec.Names mass s p b y name)
    (hp : '$' ∉ p.toList) (hb : '$' ∉ b.toList) (hy : ∀ z ∈ y, '$' ∉ z.toList) (hpath : Spec.Path name ps) (h : H)
    (hg : getHistogram roots mass depth s p b y demand = .ok (some h)) : Spec.At (roots s.file) ps h := by
  unfold getHistogram at hg
  rw [c76_name mass s p b y name hn hp hb hy, split_path hpath] at hg
  obtain ⟨n, h1, h2⟩ := bind_ok hg
  split at h2
  · cases h2; exact at_loaded (at_of_descend h1)
  · cases h2
  · split at h2 <;> cases h2

/-- C76, histograms: the histogram of a name with at least as many directories as any pattern of the card is found.  Missing:
histograms in fewer directories, see `c76_depth_violated`. -/
theorem c76_found_partial (roots : String → Dict String (Node H)) (mass : String) (depth : Nat) (s : Shape) (p b : String)
    (y : Option String) (demand : Bool) (name : List Char) (ps : List String) (hn : Spec.Names mass s p b y name)
    (hp : '$' ∉ p.toList) (hb : '$' ∉ b.toList) (hy : ∀ z ∈ y, '$' ∉ z.toList) (hpath : Spec.Path name ps) (hdepth : depth < ps.length)
    (hd : Spec.Distinct (roots s.file)) (h : H) (ha : Spec.At (roots s.file) ps h) :
    getHistogram roots mass depth s p b y demand = .ok (some h) := by
  unfold getHistogram
  rw [c76_name mass s p b y name hn hp hb hy, split_path hpath, descend_at (distinct_loaded hd) (loaded_keeps hdepth ha)]
  rfl

/-- C76, histograms: a histogram beside a directory is not found when any directive of the card has a directory in its pattern. -/
theorem c76_depth_violated (roots : String → Dict String (Node H)) (mass : String) (depth : Nat) (s : Shape) (p b : String)
    (y : Option String) (demand : Bool) (n : String) (hn : Spec.Names mass s p b y n.toList)
    (hp : '$' ∉ p.toList) (hb : '$' ∉ b.toList) (hy : ∀ z ∈ y, '$' ∉ z.toList) (hslash : '/' ∉ n.toList)
    (hdepth : 0 < depth) (hd : Spec.Distinct (roots s.file)) (h : H) (ha : Spec.At (roots s.file) [n] h) (m : String)
    (sub : Dict String (Node H)) (hdir : (m, .dir sub) ∈ roots s.file) :
    getHistogram roots mass depth s p b y demand = if demand then .error .value else .ok none := by
  have hpath : Spec.Path n.toList [n] := ⟨by simp, by simpa using hslash, by simp⟩
  unfold getHistogram
  rw [c76_name mass s p b y _ hn hp hb hy, split_path hpath]
  obtain ⟨k, rfl⟩ : ∃ k, depth = k + 1 := ⟨depth - 1, by omega⟩
  have hmem : (n, .hist h) ∈ roots s.file := by
    cases ha with
    | here hm => exact hm
    | down _ hr => cases hr
  obtain ⟨h1, h2⟩ := hd
  have hnone : Dict.get? (loaded (k + 1) (roots s.file)) n = none := by
    cases hg : Dict.get? (loaded (k + 1) (roots s.file)) n with
    | none => rfl
    | some x =>
      exfalso
      have hx := mem_of_get? hg
      have hisdir : x.isDir = true := by
        rw [loaded, prune.eq_def, if_pos (List.any_eq_true.2 ⟨_, hdir, rfl⟩)] at hx
        split at hx
        · exact (List.mem_filter.1 hx).2
        · obtain ⟨e, he, hx⟩ := List.mem_map.1 hx
          have h3 := (List.mem_filter.1 he).2
          obtain ⟨e1, e2⟩ := e
          cases e2 with
          | hist _ => cases h3
          | other => cases h3
          | dir sub => cases hx; rfl
      have hin : ∃ x', (n, x') ∈ roots s.file ∧ x'.isDir = true := by
        rcases prune_sub k _ _ _ hx with hx | ⟨_, sub, _, _, hx'⟩
        · exact ⟨x, hx, hisdir⟩
        · exact ⟨.dir sub, hx', rfl⟩
      obtain ⟨x', hx', hd'⟩ := hin
      have e1 := Dict.get?_of_mem _ _ _ h1 hx'
      rw [Dict.get?_of_mem _ _ _ h1 hmem] at e1
      cases e1
      cases hd'
  rw [descend, hnone]
  cases demand <;> rfl

/-! ### the converter -/

/-- `h` is the histogram which the directives of the card and the files give for `p`, `b` and the systematic `y`, if any; it is in
at least as many directories as any pattern of the card has -/
def Spec.Given (roots : String → Dict String (Node H)) (mass : String) (c : Card V) (p b : String) (y : Option String) (h : H) : Prop :=
  ∃ s name ps, Spec.LastShape c p b s ∧ Spec.Names mass s p b y name ∧ Spec.Path name ps ∧ c.maxDepth < ps.length ∧
    Spec.Distinct (roots s.file) ∧ Spec.At (roots s.file) ps h

/-- names of the card: without `*` for processes and bins, and without `$` -/
def Spec.Named (c : Card V) : Prop := "*" ∉ c.processes ∧ "*" ∉ c.bins ∧ (∀ p ∈ c.processes, '$' ∉ p.toList) ∧
  (∀ b ∈ c.bins, '$' ∉ b.toList) ∧ ∀ s ∈ c.systematics, '$' ∉ s.name.toList

theorem given_found {roots : String → Dict String (Node H)} {mass : String} {c : Card V} (hc : Spec.Named c) {p b : String}
    (hp : p = "data_obs" ∨ p ∈ c.processes) (hb : b ∈ c.bins) {y : Option String} (hy : ∀ z ∈ y, '$' ∉ z.toList) {h : H}
    (hg : Spec.Given roots mass c p b y h) (demand : Bool) :
    ∃ s, shapeOf (shapeMap c) p b = some s ∧ getHistogram roots mass c.maxDepth s p b y demand = .ok (some h) := by
  obtain ⟨s, name, ps, h1, h2, h3, h4, h5, h6⟩ := hg
  obtain ⟨n1, n2, n3, n4, -⟩ := hc
  refine ⟨s, ((c76_directive c p b hp hb n1 n2).1 s).2 h1, ?_⟩
  exact c76_found_partial roots mass c.maxDepth s p b y demand name ps h2
    (by rcases hp with rfl | hp
        · decide +kernel
        · exact n3 p hp) (n4 b hb) hy h3 h4 h5 h h6

/-- C76: the data and the nominal histogram of every process handed to the writer are those given by the card and the files. -/
theorem c76_nominal_partial (roots : String → Dict String (Node H)) (mass : String) (c : Card V) (count : V → H) (flt : String → Res V)
    (zero onePercent : V) (calls : List (Call V H)) (hconv : convert (fileEnv roots mass c count flt zero onePercent) c = .ok calls)
    (hc : Spec.Named c) (b : String) (hb : b ∈ c.bins) (d : Dict String V) (hd : Dict.get? c.binMap b = some d) (h : H) :
    (Spec.Given roots mass c "data_obs" b none h → Call.data h b ∈ calls) ∧
    ∀ p v, Dict.get? d p = some v → p ∈ c.processes → p ≠ "data_obs" → Spec.Given roots mass c p b none h →
      ∃ sig, Call.process h p b sig ∈ calls := by
  have hnom : ∀ p, (p = "data_obs" ∨ p ∈ c.processes) → Spec.Given roots mass c p b none h →
      nominal (fileEnv roots mass c count flt zero onePercent) c p b = .ok h := by
    intro p hp hg
    obtain ⟨s, hs, hh⟩ := given_found hc hp hb (by simp) hg true
    unfold nominal
    rw [hs]
    dsimp only [fileEnv]
    rw [hh]
    rfl
  constructor
  · intro hg
    obtain ⟨a, r, e, ha, -, -, rfl⟩ := convert_parts hconv
    obtain ⟨d', r', -, h2, h3⟩ := nominalCalls_mem ha b hb
    obtain ⟨x, hx, hm, -⟩ := processCalls_mem h2 "data_obs" (by simp)
    rw [hnom _ (.inl rfl) hg] at hx
    cases hx
    exact List.mem_append_left _ (List.mem_append_left _ (h3 _ (hm rfl).2))
  · intro p v hp hpc hne hg
    obtain ⟨x, hx, hm⟩ := c60_processes_converted hconv hb hd hp hne
    rw [hnom p (.inr hpc) hg] at hx
    cases hx
    exact ⟨_, hm⟩

/-- C76: a shape systematic is handed to the writer with the up and down histograms given by the card and the files and the factor of
the card, constrained unless it is of the type `shapeU`. -/
theorem c76_systematic_partial (roots : String → Dict String (Node H)) (mass : String) (c : Card V) (count : V → H) (flt : String → Res V)
    (zero onePercent : V) (calls : List (Call V H)) (hconv : convert (fileEnv roots mass c count flt zero onePercent) c = .ok calls)
    (hc : Spec.Named c) (y : Syst) (hy : y ∈ c.systematics) (ht : y.type ∈ ["shape", "shapeN", "shape?", "shapeU"]) (b p e : String)
    (he : ((b, p), e) ∈ y.effects) (h1 : e ≠ "-") (h2 : e ≠ "0") (hb : b ∈ c.bins) (hp : p ∈ c.processes) (up down : H)
    (hup : Spec.Given roots mass c p b (some (y.name ++ "Up")) up)
    (hdown : Spec.Given roots mass c p b (some (y.name ++ "Down")) down) :
    ∃ k con, flt e = .ok k ∧ Call.syst (some up) (some down) y.name p b k con ∈ calls ∧ (con = false ↔ y.type = "shapeU") := by
  obtain ⟨a, r, d, -, -, hd, rfl⟩ := convert_parts hconv
  obtain ⟨x, hx, hm⟩ := (systCalls_mem hd y hy b p e he h1 h2).2 ht
  have hyn := hc.2.2.2.2 y hy
  have hsuf : ∀ t : String, '$' ∉ t.toList → ∀ z ∈ some (y.name ++ t), '$' ∉ z.toList := by
    intro t ht z hz
    cases hz
    rw [String.toList_append, List.mem_append]
    exact fun h => h.elim hyn ht
  obtain ⟨s, hs, hu⟩ := given_found hc (.inr hp) hb (hsuf "Up" (by decide +kernel)) hup (decide (y.type ≠ "shape?"))
  obtain ⟨s', hs', hdn⟩ := given_found hc (.inr hp) hb (hsuf "Down" (by decide +kernel)) hdown (decide (y.type ≠ "shape?"))
  rw [hs] at hs'
  cases hs'
  unfold shapeCall at hx
  rw [hs] at hx
  dsimp only [getHist, fileEnv] at hx
  rw [hu, hdn, ok_bind, ok_bind] at hx
  dsimp only at hx
  obtain ⟨k, hk, rfl⟩ := map_ok hx
  refine ⟨k, _, hk, List.mem_append_right _ hm, ?_⟩
  simp

/-- C76: an optional shape systematic (`shape?`) whose histograms are beside a directory is turned into a normalisation when any
directive of the card has a directory in its pattern. -/
theorem c76_optional_violated (roots : String → Dict String (Node H)) (mass : String) (c : Card V) (count : V → H) (flt : String → Res V)
    (zero onePercent : V) (calls : List (Call V H)) (hconv : convert (fileEnv roots mass c count flt zero onePercent) c = .ok calls)
    (hc : Spec.Named c) (y : Syst) (hy : y ∈ c.systematics) (ht : y.type = "shape?") (b p e : String)
    (he : ((b, p), e) ∈ y.effects) (h1 : e ≠ "-") (h2 : e ≠ "0") (h3 : '/' ∉ e.toList) (hb : b ∈ c.bins) (hp : p ∈ c.processes)
    (s : Shape) (hs : Spec.LastShape c p b s) (hdist : Spec.Distinct (roots s.file)) (hdepth : 0 < c.maxDepth)
    (m : String) (sub : Dict String (Node H)) (hdir : (m, .dir sub) ∈ roots s.file) (nu nd : String) (up down : H)
    (hnu : Spec.Names mass s p b (some (y.name ++ "Up")) nu.toList) (hnd : Spec.Names mass s p b (some (y.name ++ "Down")) nd.toList)
    (hsu : '/' ∉ nu.toList) (hsd : '/' ∉ nd.toList) (hau : Spec.At (roots s.file) [nu] up) (had : Spec.At (roots s.file) [nd] down) :
    ∃ k, flt e = .ok k ∧ Call.norm y.name [p] b (.single k) true ∈ calls := by
  obtain ⟨a, r, d, -, -, hd, rfl⟩ := convert_parts hconv
  obtain ⟨x, hx, hm⟩ := (systCalls_mem hd y hy b p e he h1 h2).2 (by rw [ht]; decide)
  obtain ⟨n1, n2, n3, n4, n5⟩ := hc
  have hsuf : ∀ t : String, '$' ∉ t.toList → ∀ z ∈ some (y.name ++ t), '$' ∉ z.toList := by
    intro t ht z hz
    cases hz
    rw [String.toList_append, List.mem_append]
    exact fun h => h.elim (n5 y hy) ht
  have hu := c76_depth_violated roots mass c.maxDepth s p b _ false nu hnu (n3 p hp) (n4 b hb) (hsuf "Up" (by decide +kernel)) hsu
    hdepth hdist up hau m sub hdir
  have hdn := c76_depth_violated roots mass c.maxDepth s p b _ false nd hnd (n3 p hp) (n4 b hb) (hsuf "Down" (by decide +kernel)) hsd
    hdepth hdist down had m sub hdir
  unfold shapeCall at hx
  rw [((c76_directive c p b (.inr hp) hb n1 n2).1 s).2 hs, ht] at hx
  dsimp only [getHist, fileEnv] at hx
  rw [show decide ("shape?" ≠ "shape?") = false by simp, hu, hdn] at hx
  dsimp only [Except.bind] at hx
  simp only [Bool.false_eq_true, if_false] at hx
  unfold normCall at hx
  rw [if_neg h3] at hx
  obtain ⟨k, hk, rfl⟩ := map_ok hx
  exact ⟨k, hk, List.mem_append_right _ hm⟩

/-! ### the depth of the directories -/

theorem parseShapes_depth (files : Files) (lines : List Line) (c c' : Card V) (h : parseShapes files lines c = .ok c')
    (h1 : ∀ s ∈ c.shapes, s.pattern.toList.count '/' ≤ c.maxDepth)
    (h2 : c.maxDepth = 0 ∨ ∃ s ∈ c.shapes, s.pattern.toList.count '/' = c.maxDepth) :
    (∀ s ∈ c'.shapes, s.pattern.toList.count '/' ≤ c'.maxDepth) ∧
      (c'.maxDepth = 0 ∨ ∃ s ∈ c'.shapes, s.pattern.toList.count '/' = c'.maxDepth) := by
  induction lines generalizing c with
  | nil => cases h; exact ⟨h1, h2⟩
  | cons l ls ih =>
    rw [parseShapes] at h
    split at h
    · split at h
      · rename_i proc chan file pat rest _
        split at h
        · cases h
        · refine ih _ h ?_ ?_
          · intro s hs
            rcases List.mem_append.1 hs with hs | hs
            · exact (h1 s hs).trans (le_max_left _ _)
            · rw [List.mem_singleton.1 hs]; exact le_max_right _ _
          · right
            dsimp only
            rcases le_total (pat.toList.count '/') c.maxDepth with hle | hle
            · rw [max_eq_left hle]
              rcases h2 with h2 | ⟨s, hs, he⟩
              · refine ⟨_, List.mem_append_right _ List.mem_cons_self, ?_⟩
                dsimp only
                omega
              · exact ⟨s, List.mem_append_left _ hs, he⟩
            · rw [max_eq_right hle]
              exact ⟨_, List.mem_append_right _ List.mem_cons_self, rfl⟩
      · exact ih c h h1 h2
    · exact ih c h h1 h2

/-- C76, depth: the depth kept of the files is that of the deepest pattern for nominal histograms.  In a card whose patterns all have the
same number of directories every nominal histogram is deep enough for `c76_nominal_partial`. -/
theorem c76_max_depth {flt : String → Res V} {int : String → Res Int} {files : Files} {text : List Char} {c : Card V}
    (h : parse flt int files text = .ok c) (n : Nat) :
    c.maxDepth ≤ n ↔ ∀ t ∈ c.shapes, t.pattern.toList.count '/' ≤ n := by
  obtain ⟨c1, c2, c3, c4, c5, h1, h2, h3, h4, h5, h6⟩ := parse_stages h
  obtain ⟨_, _, _, e1⟩ := parseHeader_stage _ _ _ h1
  obtain ⟨_, _, e2⟩ := parseObservations_stage _ _ _ _ h2
  obtain ⟨_, _, _, _, e3⟩ := parseProcesses_stage _ _ _ _ _ h3
  obtain ⟨_, e5⟩ := parseSystematics_stage _ _ _ _ h5
  obtain ⟨_, _, _, _, e6⟩ := parseDirectives_stage (readLines text) c5
  have hs4 : c.shapes = c4.shapes ∧ c.maxDepth = c4.maxDepth := by rw [h6, e6, e5]; exact ⟨rfl, rfl⟩
  have hd := parseShapes_depth files _ c3 c4 h4 (by rw [e3, e2, e1]; simp) (by rw [e3, e2, e1]; exact .inl rfl)
  rw [← hs4.1, ← hs4.2] at hd
  constructor
  · intro hn t ht
    exact (hd.1 t ht).trans hn
  · intro hn
    rcases hd.2 with h0 | ⟨t, ht, he⟩
    · omega
    · rw [← he]; exact hn t ht

/-! ### examples -/

namespace Ex76

def file : Dict String (Node String) := [("b", .dir [("data_obs", .hist "D"), ("s", .hist "S"), ("s_jesUp", .hist "U"),
  ("s_jesDown", .hist "d")]), ("s_pdfUp", .hist "PU"), ("s_pdfDown", .hist "Pd")]

def shape : Shape := ⟨"*", "*", "f", "$CHANNEL/$PROCESS", some "$CHANNEL/$PROCESS_$SYSTEMATIC"⟩

def flat : Shape := ⟨"s", "b", "f", "$CHANNEL/$PROCESS", some "$PROCESS_$SYSTEMATIC"⟩

def card : Card String where
  bins := ["b"]
  processes := ["s"]
  observations := [("b", "4")]
  indices := [("s", 0)]
  binMap := [("b", [("s", "5")])]
  systematics := [⟨"jes", "shape", none, [(("b", "s"), "1")]⟩]
  shapes := [flat, shape]
  maxDepth := 1

def card' : Card String := { card with
  systematics := [⟨"pdf", "shape?", none, [(("b", "s"), "1")]⟩]
  shapes := [shape, flat] }

def roots : String → Dict String (Node String) := fun _ => file

theorem distinct : Spec.Distinct file := by
  refine ⟨by decide +kernel, fun n sub h => ?_⟩
  simp only [file, List.mem_cons, Prod.mk.injEq, List.not_mem_nil, reduceCtorEq, and_false, or_false, Node.dir.injEq] at h
  obtain ⟨-, rfl⟩ := h
  refine ⟨by decide +kernel, fun n sub h => ?_⟩
  simp at h

theorem named : Spec.Named card ∧ Spec.Named card' := by
  simp only [Spec.Named, card, card']
  decide +kernel

theorem last : Spec.LastShape card "s" "b" shape ∧ Spec.LastShape card "data_obs" "b" shape ∧ Spec.LastShape card' "s" "b" flat :=
  ⟨⟨[flat], [], rfl, by simp [Spec.Applies, shape], by simp⟩, ⟨[flat], [], rfl, by simp [Spec.Applies, shape], by simp⟩,
    ⟨[shape], [], rfl, by simp [Spec.Applies, flat], by simp⟩⟩

def toks : List Spec.Tok := [.var .channel, .lit ['/'], .var .process]
def toksY : List Spec.Tok := toks ++ [.lit ['_'], .var .syst]

theorem given_nominal (p h : String) (hp : '/' ∉ p.toList) (hl : Spec.LastShape card p "b" shape) (ha : Spec.At file ["b", p] h) :
    Spec.Given roots "125" card p "b" none h := by
  refine ⟨shape, 'b' :: '/' :: p.toList, ["b", p], hl, ⟨toks, ?_, ?_, by decide +kernel, ?_⟩, ⟨by simp, ?_, ?_⟩, by simp [card], distinct, ha⟩
  · intro l hl; simp [toks] at hl; subst hl; decide
  · simp [toks]
  · simp [toks, Spec.render, Spec.values]
  · intro q hq; simp at hq; rcases hq with rfl | rfl
    · decide +kernel
    · exact hp
  · simp [List.intercalate, List.intersperse]

theorem given_syst (y h : String) (hy : '/' ∉ y.toList) (ha : Spec.At file ["b", "s_" ++ y] h) :
    Spec.Given roots "125" card "s" "b" (some y) h := by
  refine ⟨shape, ("b/s_" ++ y).toList, ["b", "s_" ++ y], last.1,
    .inl ⟨_, toksY, rfl, ?_, by decide +kernel, ?_⟩, ⟨by simp, ?_, ?_⟩, by simp [card], distinct, ha⟩
  · intro l hl; simp [toks, toksY] at hl; rcases hl with rfl | rfl <;> decide
  · simp [toks, toksY, Spec.render, Spec.values]
  · intro q hq; simp at hq; rcases hq with rfl | rfl
    · decide +kernel
    · simp [hy]
  · simp [List.intercalate, List.intersperse]

def env (c : Card String) : Env String String := fileEnv roots "125" c id .ok "0" "1.01"

end Ex76

/-- the hypotheses of `c76_nominal_partial` and `c76_systematic_partial`, whose conclusion can be read off the calls -/
example : Spec.Named Ex76.card ∧ Spec.Given Ex76.roots "125" Ex76.card "data_obs" "b" none "D" ∧
    Spec.Given Ex76.roots "125" Ex76.card "s" "b" none "S" ∧ Spec.Given Ex76.roots "125" Ex76.card "s" "b" (some ("jes" ++ "Up")) "U" ∧
    Spec.Given Ex76.roots "125" Ex76.card "s" "b" (some ("jes" ++ "Down")) "d" ∧
    convert (Ex76.env Ex76.card) Ex76.card = .ok [.channel "D" "b", .data "D" "b", .process "S" "s" "b" true,
      .syst (some "U") (some "d") "jes" "s" "b" "1" true] := by
  refine ⟨Ex76.named.1, Ex76.given_nominal _ _ (by decide +kernel) Ex76.last.2.1 ?_, Ex76.given_nominal _ _ (by decide +kernel) Ex76.last.1 ?_,
    Ex76.given_syst _ _ (by decide +kernel) ?_, Ex76.given_syst _ _ (by decide +kernel) ?_, ?_⟩
  · exact .down (List.mem_cons_self) (.here (by simp))
  · exact .down (List.mem_cons_self) (.here (by simp))
  · exact .down (List.mem_cons_self) (.here (by simp))
  · exact .down (List.mem_cons_self) (.here (by simp))
  · decide +kernel

/-- the hypotheses of `c76_wildcard_violated`: the directive for the process and the bin is not used -/
example : Ex76.card.shapes = [Ex76.flat] ++ [Ex76.shape] ∧ Ex76.flat.process = "s" ∧ Ex76.flat.channel = "b" ∧
    (Ex76.shape.process = "*" ∧ Ex76.shape.channel = "*") ∧ shapeOf (shapeMap Ex76.card) "s" "b" = some Ex76.shape :=
  ⟨rfl, rfl, rfl, ⟨rfl, rfl⟩, c76_wildcard_violated Ex76.card "s" "b" (.inr (by decide +kernel)) (by decide +kernel) (by decide +kernel) (by decide +kernel)
    [Ex76.flat] Ex76.shape ⟨rfl, rfl⟩ rfl⟩

/-- the hypotheses of `c76_depth_violated` and `c76_optional_violated` -/
example : Spec.Names "125" Ex76.flat "s" "b" (some ("pdf" ++ "Up")) "s_pdfUp".toList ∧
    Spec.Names "125" Ex76.flat "s" "b" (some ("pdf" ++ "Down")) "s_pdfDown".toList ∧
    Spec.At Ex76.file ["s_pdfUp"] "PU" ∧ Spec.At Ex76.file ["s_pdfDown"] "Pd" ∧ Spec.Distinct Ex76.file ∧ Spec.Named Ex76.card' ∧
    Spec.LastShape Ex76.card' "s" "b" Ex76.flat ∧ (∃ sub, ("b", .dir sub) ∈ Ex76.file) ∧
    convert (Ex76.env Ex76.card') Ex76.card' = .ok [.channel "D" "b", .data "D" "b", .process "S" "s" "b" true,
      .norm "pdf" ["s"] "b" (.single "1") true] := by
  refine ⟨.inl ⟨_, [.var .process, .lit ['_'], .var .syst], rfl, ?_, by decide +kernel, by decide +kernel⟩,
    .inl ⟨_, [.var .process, .lit ['_'], .var .syst], rfl, ?_, by decide +kernel, by decide +kernel⟩, .here (by simp [Ex76.file]),
    .here (by simp [Ex76.file]), Ex76.distinct, Ex76.named.2, Ex76.last.2.2, ⟨_, List.mem_cons_self⟩, by decide +kernel⟩
  all_goals intro l hl; simp at hl; subst hl; decide

/-- the hypotheses of `c76_max_depth` -/
example : ∃ c, Ex.read "shapes * * f.root $CHANNEL/$PROCESS $CHANNEL/$PROCESS_$SYSTEMATIC\nshapes data_obs * f.root obs_$CHANNEL\nbin b\nobservation 10\nbin b\nprocess s\nprocess 0\nrate 3\n" = .ok c ∧
    c.maxDepth = 1 ∧ c.shapes.map (·.pattern) = ["$CHANNEL/$PROCESS", "obs_$CHANNEL"] := by
  obtain ⟨c, h, hp⟩ := Ex.exists_of (text := "shapes * * f.root $CHANNEL/$PROCESS $CHANNEL/$PROCESS_$SYSTEMATIC\nshapes data_obs * f.root obs_$CHANNEL\nbin b\nobservation 10\nbin b\nprocess s\nprocess 0\nrate 3\n")
    (p := fun c => decide (c.maxDepth = 1 ∧ c.shapes.map (·.pattern) = ["$CHANNEL/$PROCESS", "obs_$CHANNEL"])) (by decide +kernel)
  exact ⟨c, h, of_decide_eq_true hp⟩

end Verif.Datacard
