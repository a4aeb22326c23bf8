import Verif.Model.ExternalTerms
import Verif.Lemmas.Py
import Verif.Props.Storage
import Mathlib.Algebra.BigOperators.Group.List.Lemmas
import Mathlib.Algebra.BigOperators.Ring.List
import Mathlib.Data.List.Perm.Subperm
import Mathlib.Tactic.Ring

/-! Helper lemmas for the external likelihood terms. -/

set_option linter.unusedSectionVars false

namespace Verif.Ext

open Verif.Storage

variable {K : Type} [Field K]

/-! Association lists -/

theorem lookup_eq_some_of_mem {β : Type} (l : List (String × β)) (hn : (l.map (·.1)).Nodup) (p : String) (v : β)
    (h : (p, v) ∈ l) : l.lookup p = some v := by
  induction l with
  | nil => simp at h
  | cons a l ih =>
    obtain ⟨a, w⟩ := a
    simp only [List.map_cons, List.nodup_cons] at hn
    rcases List.mem_cons.1 h with h' | h'
    · cases h'; simp
    · have hne : p ≠ a := by
        rintro rfl
        exact hn.1 (List.mem_map.2 ⟨(p, v), h', rfl⟩)
      rw [List.lookup_cons, beq_false_of_ne hne]
      exact ih hn.2 h'

theorem mem_of_lookup {β : Type} (l : List (String × β)) (p : String) (v : β) (h : l.lookup p = some v) :
    (p, v) ∈ l := by
  induction l with
  | nil => simp at h
  | cons a l ih =>
    obtain ⟨a, w⟩ := a
    rw [List.lookup_cons] at h
    by_cases hp : p = a
    · subst hp; simp at h; subst h; simp
    · rw [beq_false_of_ne hp] at h
      exact List.mem_cons_of_mem _ (ih h)

theorem lookup_perm {β : Type} (l l' : List (String × β)) (hp : l.Perm l') (hn : (l.map (·.1)).Nodup) (p : String) :
    l.lookup p = l'.lookup p := by
  have hn' : (l'.map (·.1)).Nodup := (hp.map _).nodup_iff.1 hn
  cases h : l.lookup p with
  | some v => exact (lookup_eq_some_of_mem _ hn' _ _ (hp.mem_iff.1 (mem_of_lookup _ _ _ h))).symm
  | none =>
    cases h' : l'.lookup p with
    | none => rfl
    | some v =>
      rw [lookup_eq_some_of_mem _ hn _ _ (hp.mem_iff.2 (mem_of_lookup _ _ _ h'))] at h
      cases h

theorem get?_foldl_set (L : List (String × Nat)) (hn : (L.map (·.1)).Nodup) (d : Dict String Nat) (p : String) :
    Dict.get? (L.foldl (fun d q => d.set q.1 q.2) d) p = (L.lookup p).or (Dict.get? d p) := by
  induction L generalizing d with
  | nil => simp
  | cons a L ih =>
    obtain ⟨a, i⟩ := a
    simp only [List.map_cons, List.nodup_cons] at hn
    simp only [List.foldl_cons]
    rw [ih hn.2, List.lookup_cons, Dict.get?_set]
    by_cases h : p = a
    · subst h
      have : L.lookup p = none := by
        cases h : L.lookup p with
        | none => rfl
        | some v => exact absurd (List.mem_map.2 ⟨_, mem_of_lookup _ _ _ h, rfl⟩) hn.1
      simp [this]
    · rw [beq_false_of_ne h, if_neg (Ne.symm h)]

theorem keys_foldl_set (L : List (String × Nat)) (d : Dict String Nat) (hd : d.keys.Nodup) :
    (Dict.keys (L.foldl (fun d q => d.set q.1 q.2) d)).Nodup ∧
    ∀ p, p ∈ Dict.keys (L.foldl (fun d q => d.set q.1 q.2) d) ↔ p ∈ d.keys ∨ p ∈ L.map (·.1) := by
  induction L generalizing d with
  | nil => exact ⟨hd, by simp⟩
  | cons a L ih =>
    obtain ⟨a, i⟩ := a
    obtain ⟨h1, h2⟩ := ih (d.set a i) (Dict.nodup_keys_set _ _ _ hd)
    refine ⟨h1, fun p => ?_⟩
    simp only [List.foldl_cons]
    rw [h2, Dict.mem_keys_iff_has, Dict.has_set, List.map_cons, List.mem_cons, Dict.mem_keys_iff_has]
    simp only [Bool.or_eq_true, decide_eq_true_eq]
    constructor
    · rintro ((rfl | h) | h)
      · exact .inr (.inl rfl)
      · exact .inl h
      · exact .inr (.inr h)
    · rintro (h | rfl | h)
      · exact .inl (.inr h)
      · exact .inl (.inl rfl)
      · exact .inr h

theorem map_fst_zipIdx (parms : List String) : parms.zipIdx.map (·.1) = parms := by
  simp [List.zipIdx_map_fst]

theorem parmsIdx_length (parms : List String) : (parmsIdx parms).length = parms.length ↔ parms.Nodup := by
  obtain ⟨h1, h2⟩ := keys_foldl_set parms.zipIdx [] (by simp [Dict.keys])
  rw [map_fst_zipIdx] at h2
  have hlen : (parmsIdx parms).length = (Dict.keys (parmsIdx parms)).length := by simp [Dict.keys]
  rw [hlen]
  have hmem : ∀ p, p ∈ Dict.keys (parmsIdx parms) ↔ p ∈ parms := by
    intro p; rw [parmsIdx, h2]; simp [Dict.keys]
  constructor
  · intro h
    have hs := h1.subperm fun p hp => (hmem p).1 hp
    exact (hs.perm_of_length_le h.ge).nodup_iff.1 h1
  · intro h
    exact ((List.perm_ext_iff_of_nodup h1 h).2 hmem).length_eq

theorem mem_zipIdx_lookup (parms : List String) (hn : parms.Nodup) (p : String) (j : Nat) :
    Dict.get? (parmsIdx parms) p = some j ↔ parms[j]? = some p := by
  rw [parmsIdx, get?_foldl_set _ (by rw [map_fst_zipIdx]; exact hn)]
  simp only [Dict.get?_nil, Option.or_none]
  constructor
  · intro h
    have := mem_of_lookup _ _ _ h
    rwa [List.mem_zipIdx_iff_getElem?] at this
  · intro h
    exact lookup_eq_some_of_mem _ (by rw [map_fst_zipIdx]; exact hn) _ _ (List.mem_zipIdx_iff_getElem?.2 h)

theorem get?_parmsIdx_none (parms : List String) (p : String) :
    Dict.get? (parmsIdx parms) p = none ↔ p ∉ parms := by
  obtain ⟨h1, h2⟩ := keys_foldl_set parms.zipIdx [] (by simp [Dict.keys])
  rw [map_fst_zipIdx] at h2
  rw [Dict.get?_eq_none_iff, parmsIdx, h2]
  simp [Dict.keys]

/-! Values -/

/-- value of a term by names -/
def termSpec (X : String → K) (t : Term K) : K :=
  (match t.grad with
    | some g => (List.zipWith (fun p v => v * X p) t.params g).sum
    | none => 0) +
  (match t.hessDense, t.hessSparse with
    | some h, _ => (1 / 2) * (List.zipWith (fun p r => (List.zipWith (fun q v => X p * v * X q) t.params r).sum) t.params h).sum
    | none, some es => (1 / 2) * (es.map fun e => X (t.params.getD e.1 "") * e.2.2 * X (t.params.getD e.2.1 "")).sum
    | none, none => 0)

structure WF (t : Term K) : Prop where
  grad : ∀ g, t.grad = some g → g.length = t.params.length
  dense : ∀ h, t.hessDense = some h → h.length = t.params.length ∧ ∀ r ∈ h, r.length = t.params.length
  sparse : ∀ es, t.hessSparse = some es → ∀ e ∈ es, e.1 < t.params.length ∧ e.2.1 < t.params.length

theorem dot_map (X : String → K) (ps : List String) (g : List K) :
    dot g (ps.map X) = (List.zipWith (fun p v => v * X p) ps g).sum := by
  unfold dot
  rw [List.zipWith_map_right, List.zipWith_comm]

theorem sum_zipWith_mul_left (c : K) (X : String → K) (ps : List String) (r : List K) :
    (List.zipWith (fun q v => c * v * X q) ps r).sum = c * (List.zipWith (fun q v => v * X q) ps r).sum := by
  induction ps generalizing r with
  | nil => simp
  | cons p ps ih =>
    cases r with
    | nil => simp
    | cons v r => simp only [List.zipWith_cons_cons, List.sum_cons, ih]; ring

theorem dot_dense (X : String → K) (ps ps' : List String) (h : List (List K)) :
    dot (ps'.map X) (h.map fun r => dot r (ps.map X)) =
      (List.zipWith (fun p r => (List.zipWith (fun q v => X p * v * X q) ps r).sum) ps' h).sum := by
  induction ps' generalizing h with
  | nil => simp [dot]
  | cons p ps' ih =>
    cases h with
    | nil => simp [dot]
    | cons r h =>
      have := ih h
      simp only [dot, List.map_cons, List.zipWith_cons_cons, List.sum_cons] at this ⊢
      rw [this, sum_zipWith_mul_left]
      congr 2
      exact dot_map X ps r

theorem zipWith_range (xs : List K) (f : Nat → K) :
    List.zipWith (· * ·) xs ((List.range xs.length).map f) = (List.range xs.length).map fun r => xs.getD r 0 * f r := by
  refine List.ext_getElem (by simp) fun i h1 h2 => ?_
  simp at h1 h2
  simp [h1]

theorem sum_range_single (n r : Nat) (f : Nat → K) :
    ((List.range n).map fun k => if r == k then f k else 0).sum = if r < n then f r else 0 := by
  induction n with
  | zero => simp
  | succ n ih =>
    rw [List.range_succ, List.map_append, List.sum_append, ih]
    simp only [List.map_cons, List.map_nil, List.sum_cons, List.sum_nil, add_zero, beq_iff_eq]
    by_cases h : r = n
    · subst h; simp
    · rw [if_neg h, add_zero]
      by_cases h' : r < n
      · rw [if_pos h', if_pos (by omega)]
      · rw [if_neg h', if_neg (by omega)]

theorem dot_csr (xs : List K) (es : List (Nat × Nat × K)) (h : ∀ e ∈ es, e.1 < xs.length) :
    dot xs (csrMatvec xs.length es xs) = (es.map fun e => xs.getD e.1 0 * e.2.2 * xs.getD e.2.1 0).sum := by
  unfold dot csrMatvec
  rw [zipWith_range]
  induction es with
  | nil => simp
  | cons e es ih =>
    simp only [List.map_cons, List.sum_cons]
    rw [← ih fun e he => h e (List.mem_cons_of_mem _ he)]
    have he := h e (by simp)
    have := sum_range_single xs.length e.1 fun k => xs.getD k 0 * (e.2.2 * xs.getD e.2.1 0)
    rw [if_pos he] at this
    rw [mul_assoc, ← this, ← List.sum_map_add]
    congr 1
    refine List.map_congr_left fun r _ => ?_
    rw [List.filter_cons]
    by_cases hr : (e.1 == r) = true
    · rw [if_pos hr, if_pos hr, List.map_cons, List.sum_cons]; ring
    · rw [if_neg hr, if_neg hr, zero_add]

theorem getD_map_of_lt (X : String → K) (ps : List String) (i : Nat) (h : i < ps.length) :
    (ps.map X).getD i 0 = X (ps.getD i "") := by
  simp [h]

theorem termValue_eq (X : String → K) (x : List K) (t : Term K) (hwf : WF t) (b : Built K)
    (hb : b.grad = t.grad ∧ b.hessDense = t.hessDense ∧ b.hessCsr = if t.hessDense.isSome then none else t.hessSparse)
    (hi : b.indices.map (fun i => x.getD i 0) = t.params.map X) : termValue x b = termSpec X t := by
  obtain ⟨hb1, hb2, hb3⟩ := hb
  unfold termValue termSpec
  dsimp only
  rw [hi, hb1, hb2, hb3]
  congr 1
  · cases hg : t.grad with
    | none => rfl
    | some g => exact dot_map X t.params g
  · cases hd : t.hessDense with
    | some h => simp only; rw [dot_dense]
    | none =>
      cases hs : t.hessSparse with
      | none => rfl
      | some es =>
        have hwf' := hwf.sparse es hs
        simp only [Option.isSome_none, Bool.false_eq_true, if_false]
        rw [dot_csr _ _ (by simpa using fun a b c h => (hwf' (a, b, c) h).1)]
        congr 2
        refine List.map_congr_left fun e he => ?_
        rw [getD_map_of_lt _ _ _ (hwf' e he).1, getD_map_of_lt _ _ _ (hwf' e he).2]

/-! Resolution -/

theorem mapM_ok_iff {A B : Type} (f : A → Res B) (l : List A) :
    (∃ r, l.mapM f = .ok r) ↔ ∀ a ∈ l, ∃ b, f a = .ok b := by
  induction l with
  | nil => simp [List.mapM_nil, pure, Except.pure]
  | cons a l ih =>
    rw [List.mapM_cons]
    cases ha : f a with
    | error e => simp [bind, Except.bind, ha]
    | ok b =>
      simp only [bind, Except.bind, List.mem_cons, forall_eq_or_imp, ha]
      cases hl : l.mapM f with
      | error e => rw [hl] at ih; simpa using ih
      | ok r => rw [hl] at ih; simpa [pure, Except.pure] using ih

theorem mapM_ok_forall₂ {A B : Type} (f : A → Res B) (l : List A) (r : List B) (h : l.mapM f = .ok r) :
    List.Forall₂ (fun a b => f a = .ok b) l r := by
  induction l generalizing r with
  | nil => simp [List.mapM_nil, pure, Except.pure] at h; subst h; exact .nil
  | cons a l ih =>
    rw [List.mapM_cons] at h
    cases ha : f a with
    | error e => simp [bind, Except.bind, ha] at h
    | ok b =>
      cases hl : l.mapM f with
      | error e => simp [bind, Except.bind, ha, hl] at h
      | ok r' =>
        simp [bind, Except.bind, ha, hl, pure, Except.pure] at h
        subst h
        exact .cons ha (ih _ hl)

/-- if all errors are of one kind the whole loop raises that kind -/
theorem mapM_error {A B : Type} (f : A → Res B) (l : List A) (e : Err) (hf : ∀ a ∈ l, ∀ e', f a = .error e' → e' = e)
    (h : ¬ ∃ r, l.mapM f = .ok r) : l.mapM f = .error e := by
  induction l with
  | nil => exact absurd ⟨[], rfl⟩ h
  | cons a l ih =>
    rw [List.mapM_cons] at h ⊢
    cases ha : f a with
    | error e' =>
      have := hf a (by simp) e' ha
      subst this; rfl
    | ok b =>
      cases hl : l.mapM f with
      | error e' =>
        have := ih (fun a ha' => hf a (List.mem_cons_of_mem _ ha')) (by rintro ⟨r, hr⟩; rw [hl] at hr; cases hr)
        rw [hl] at this; cases this; rfl
      | ok r => exact absurd ⟨b :: r, by simp [bind, Except.bind, ha, hl, pure, Except.pure]⟩ h

/-- value of the named parameter in the fit -/
def valueOf (parms : List String) (x : List K) (p : String) : K := ((parms.zip x).lookup p).getD 0

theorem valueOf_getElem (parms : List String) (x : List K) (hn : parms.Nodup) (hx : x.length = parms.length)
    (p : String) (j : Nat) (h : parms[j]? = some p) : x.getD j 0 = valueOf parms x p := by
  obtain ⟨hj, hj'⟩ := List.getElem?_eq_some_iff.1 h
  have hmem : (p, x[j]'(by omega)) ∈ parms.zip x := by
    refine List.mem_of_getElem? (i := j) ?_
    rw [List.getElem?_zip_eq_some]
    exact ⟨h, List.getElem?_eq_getElem _⟩
  have hm : ((parms.zip x).map (·.1)) = parms := List.map_fst_zip hx.ge
  unfold valueOf
  rw [lookup_eq_some_of_mem _ (by rw [hm]; exact hn) _ _ hmem]
  have : j < x.length := by omega
  simp [this]

theorem buildTerm_ok_iff (parms : List String) (t : Term K) :
    (∃ b, buildTerm (parmsIdx parms) t = .ok b) ↔ ∀ p ∈ t.params, p ∈ parms := by
  unfold buildTerm
  constructor
  · rintro ⟨b, hb⟩ p hp
    by_contra hc
    cases hm : t.params.mapM (resolve (parmsIdx parms)) with
    | error e => rw [hm] at hb; simp [bind, Except.bind] at hb
    | ok r =>
      obtain ⟨j, hj⟩ := (mapM_ok_iff _ _).1 ⟨r, hm⟩ p hp
      rw [resolve, (get?_parmsIdx_none parms p).2 hc] at hj
      cases hj
  · intro h
    obtain ⟨r, hr⟩ := (mapM_ok_iff (resolve (parmsIdx parms)) t.params).2 (by
        intro p hp
        cases hg : (parmsIdx parms).get? p with
        | some j => exact ⟨j, by rw [resolve, hg]⟩
        | none => exact absurd (h p hp) ((get?_parmsIdx_none _ _).1 hg))
    exact ⟨⟨r, _, _, _⟩, by rw [hr]; rfl⟩

theorem buildTerm_error (idx : Dict String Nat) (t : Term K) (e : Err) (h : buildTerm idx t = .error e) : e = .runtime := by
  unfold buildTerm at h
  cases hm : t.params.mapM (resolve idx) with
  | ok r => rw [hm] at h; simp [bind, Except.bind, pure, Except.pure] at h
  | error e' =>
    rw [hm] at h
    simp only [bind, Except.bind, Except.error.injEq] at h
    subst h
    have hne : ¬ ∃ r, t.params.mapM (resolve idx) = .ok r := by rintro ⟨r, hr⟩; rw [hm] at hr; cases hr
    have := mapM_error _ t.params .runtime (by
      intro p _ e' he
      cases hg : idx.get? p with
      | some j => rw [resolve, hg] at he; cases he
      | none => rw [resolve, hg] at he; cases he; rfl) hne
    rw [hm] at this
    cases this; rfl

theorem buildTerm_value (parms : List String) (x : List K) (hn : parms.Nodup) (hx : x.length = parms.length)
    (t : Term K) (hwf : WF t) (b : Built K) (hb : buildTerm (parmsIdx parms) t = .ok b) :
    termValue x b = termSpec (valueOf parms x) t := by
  unfold buildTerm at hb
  cases hm : t.params.mapM (resolve (parmsIdx parms)) with
  | error e => rw [hm] at hb; simp [bind, Except.bind] at hb
  | ok r =>
    rw [hm] at hb
    simp only [bind, Except.bind, pure, Except.pure, Except.ok.injEq] at hb
    subst hb
    refine termValue_eq _ _ _ hwf _ ⟨rfl, rfl, rfl⟩ ?_
    have := mapM_ok_forall₂ _ _ _ hm
    simp only
    clear hm hwf
    generalize t.params = ps at this
    induction this with
    | nil => rfl
    | @cons p j ps js h _ ih =>
      simp only [List.map_cons]
      congr 1
      cases hg : (parmsIdx parms).get? p with
      | none => rw [resolve, hg] at h; cases h
      | some k =>
        rw [resolve, hg] at h; cases h
        exact valueOf_getElem _ _ hn hx _ _ ((mem_zipIdx_lookup _ hn _ _).1 hg)

/-! Write / read -/

variable [DecidableEq K]

theorem sortEntries_perm (n : Nat) (es : List (Nat × Nat × K)) (h : ∀ e ∈ es, e.1 < n ∧ e.2.1 < n) :
    ∃ es', sortEntries n es = .ok es' ∧ es'.Perm es := by
  unfold sortEntries
  split_ifs with h1 h2
  · exact ⟨es, rfl, .refl _⟩
  · obtain ⟨e, he, he'⟩ := List.any_eq_true.1 h2
    have := h e he
    simp at he'; omega
  · exact ⟨_, rfl, pySort_perm _⟩

theorem zip_map_map (es : List (Nat × Nat × K)) :
    (((es.map fun e => [e.1, e.2.1]).zip (es.map (·.2.2))).map fun e => (e.1.getD 0 0, e.1.getD 1 0, e.2)) = es := by
  induction es with
  | nil => rfl
  | cons e es ih =>
    simp only [List.map_cons, List.zip_cons_cons]
    rw [ih]
    rfl

/-- a written term reads back with the same content up to the order of the sparse entries -/
theorem write_read (chunk : Nat) (t : Term K) (hwf : WF t) (hone : t.hessDense = none ∨ t.hessSparse = none) :
    ∃ g, writeTerm chunk t = .ok g ∧ (readTerm g).params = t.params ∧ WF (readTerm g) ∧
      ∀ X, termSpec X (readTerm g) = termSpec X t := by
  have hz : ∀ a : K, decide (a = 0) = true → a = 0 := fun a h => by simpa using h
  have hgrad : (t.grad.map fun g => (maketensor (writeFlatInChunks (fun a : K => decide (a = 0)) 0 8 chunk
      ⟨[g.length], g⟩)).data) = t.grad := by
    cases t.grad with
    | none => rfl
    | some g => simp [c13_roundtrip_exact _ _ hz]
  unfold writeTerm
  dsimp only
  cases hd : t.hessDense with
  | some h =>
    simp only
    obtain ⟨hh1, hh2⟩ := hwf.dense h hd
    have hflat := rows_flatten t.params.length h hh2
    rw [hh1] at hflat
    have hs : t.hessSparse = none := by rcases hone with h' | h'; · rw [hd] at h'; cases h'
                                        · exact h'
    have hr : readTerm (⟨t.name, t.params, t.grad.map fun g => writeFlatInChunks (fun a : K => decide (a = 0)) 0 8 chunk
        ⟨[g.length], g⟩, some (writeFlatInChunks (fun a : K => decide (a = 0)) 0 8 chunk ⟨[t.params.length, t.params.length], h.flatten⟩),
        none⟩ : TermGroup K) = t := by
      unfold readTerm
      dsimp only
      rw [Option.map_map]
      simp only [Function.comp_def, Option.map_some, Option.map_none, c13_roundtrip_exact _ _ hz]
      simp only [List.getD_cons_zero, List.getD_cons_succ, hflat]
      obtain ⟨nm, ps, gr, hdn, hsp⟩ := t
      simp only at hd hs
      subst hd hs
      simp
    exact ⟨_, rfl, by rw [hr], by rw [hr]; exact hwf, fun X => by rw [hr]⟩
  | none =>
    cases hs : t.hessSparse with
    | none =>
      simp only
      have hr : readTerm (⟨t.name, t.params, t.grad.map fun g => writeFlatInChunks (fun a : K => decide (a = 0)) 0 8 chunk
          ⟨[g.length], g⟩, none, none⟩ : TermGroup K) = t := by
        unfold readTerm
        dsimp only
        rw [Option.map_map]
        simp only [Function.comp_def, Option.map_none, c13_roundtrip_exact _ _ hz]
        obtain ⟨nm, ps, gr, hdn, hsp⟩ := t
        simp only at hd hs
        subst hd hs
        simp
      exact ⟨_, rfl, by rw [hr], by rw [hr]; exact hwf, fun X => by rw [hr]⟩
    | some es =>
      have hes := hwf.sparse es hs
      obtain ⟨es', h1, h2⟩ := sortEntries_perm t.params.length es hes
      simp only [h1, bind, Except.bind, pure, Except.pure]
      have hr : readTerm (⟨t.name, t.params, t.grad.map fun g => writeFlatInChunks (fun a : K => decide (a = 0)) 0 8 chunk
          ⟨[g.length], g⟩, none, some (writeSparse (fun a : K => decide (a = 0)) 0 8 8 chunk
            ⟨es'.map fun e => [e.1, e.2.1], es'.map (·.2.2), [t.params.length, t.params.length]⟩)⟩ : TermGroup K) =
          { t with hessSparse := some es' } := by
        unfold readTerm
        dsimp only
        rw [Option.map_map]
        simp only [Function.comp_def, Option.map_none, Option.map_some, c13_roundtrip_exact _ _ hz]
        rw [c13_sparse_roundtrip _ _ hz _ _ _ _ (by
          intro r hr
          obtain ⟨e, -, rfl⟩ := List.mem_map.1 hr
          rfl)]
        rw [zip_map_map]
        obtain ⟨nm, ps, gr, hdn, hsp⟩ := t
        simp only at hd hs
        subst hd
        simp
      refine ⟨_, rfl, by rw [hr], ?_, fun X => ?_⟩
      · rw [hr]
        exact ⟨hwf.grad, hwf.dense, fun e he => by
          cases he
          exact fun e he => hes e (h2.mem_iff.1 he)⟩
      · rw [hr]
        unfold termSpec
        simp only [hd, hs]
        congr 2
        exact (h2.map _).sum_eq

end Verif.Ext
