import Verif.Lemmas.ExternalTerms
import Mathlib.Algebra.Field.Rat
import Mathlib.Tactic.NormNum

/-!
C14: external likelihood terms.
-/

set_option linter.unusedSectionVars false

namespace Verif.Ext

open Verif.Storage

variable {K : Type} [Field K] [DecidableEq K]

/-! Specification: the value of a user's call as a function of named parameter values. -/

/-- `g · x` by names -/
def Spec.gradValue (X : String → K) : Option (GradIn K) → K
  | some (.hist [.strCat l _] v) => (List.zipWith (fun p g => g * X p) l v).sum
  | _ => 0

/-- `x · H · x / 2` by names; the bin of a sparse entry is the one its flat index denotes in the extents of the axes -/
def Spec.hessValue (X : String → K) : Option (HessIn K) → K
  | some (.dense [.strCat l _, _] h) =>
    (List.zipWith (fun p r => (List.zipWith (fun q v => X p * v * X q) l r).sum) l h).sum / 2
  | some (.sparse [.strCat l _, .strCat _ e1] es) =>
    (es.map fun e => X (l.getD (e.1 / e1) "") * e.2 * X (l.getD (e.1 % e1) "")).sum / 2
  | _ => 0

def Spec.value (X : String → K) (c : Call K) : K := Spec.gradValue X c.grad + Spec.hessValue X c.hess

/-- the parameter names of a call -/
def Spec.names (c : Call K) : List String :=
  match c.grad, c.hess with
  | some (.hist [.strCat l _] _), _ => l
  | _, some (.dense [.strCat l _, _] _) => l
  | _, some (.sparse [.strCat l _, _] _) => l
  | _, _ => []

/-- sparse Hessians are on axes without flow bins (extent = number of labels) and have no entry outside -/
def Spec.NoFlow (c : Call K) : Prop :=
  match c.hess with
  | some (.sparse [.strCat l _, .strCat _ e1] es) => e1 = l.length ∧ ∀ e ∈ es, e.1 < l.length * l.length
  | _ => True

/-- the value of the named parameter in the fit -/
def Spec.paramValue (parms : List String) (x : List K) (p : String) : K := ((parms.zip x).lookup p).getD 0

/-! Registration -/

theorem checkHessAxes_ok (ps : Option (List String)) (axes : List Axis) (p : List String)
    (h : checkHessAxes ps axes = .ok p) :
    (∃ e0 e1, axes = [.strCat p e0, .strCat p e1]) ∧ ∀ q, ps = some q → q = p := by
  unfold checkHessAxes at h
  split at h
  · rename_i a b
    cases a with
    | other => simp [labels, bind, Except.bind] at h
    | strCat l e0 =>
      cases b with
      | other => simp [labels, bind, Except.bind] at h
      | strCat l' e1 =>
        simp only [labels, bind, Except.bind] at h
        split_ifs at h with hl
        simp only [ne_eq, not_not] at hl
        subst hl
        cases ps with
        | none => cases h; exact ⟨⟨_, _, rfl⟩, fun q hq => by cases hq⟩
        | some q =>
          simp only at h
          split_ifs at h with hq
          cases h
          simp only [ne_eq, not_not] at hq
          subst hq
          exact ⟨⟨_, _, rfl⟩, fun q' hq' => by cases hq'; rfl⟩
  · cases h

theorem checkGrad_ok (g : Option (GradIn K)) (r : Option (List String × List K)) (h : checkGrad g = .ok r) :
    (g = none ∧ r = none) ∨ ∃ l e v, g = some (.hist [.strCat l e] v) ∧ r = some (l, v) ∧ v.length = l.length := by
  unfold checkGrad at h
  split at h
  · cases h; exact .inl ⟨rfl, rfl⟩
  · cases h
  · split at h
    · rename_i v _ a
      cases a with
      | other => simp [labels, bind, Except.bind] at h
      | strCat l e =>
        simp only [labels, bind, Except.bind] at h
        split_ifs at h with hl
        cases h
        simp only [ne_eq, not_not] at hl
        exact .inr ⟨l, e, v, rfl, rfl, hl⟩
    · cases h

theorem addTerm_ok (terms : List (Term K)) (c : Call K) (ts : List (Term K))
    (h : addTerm terms c.grad c.hess c.name = .ok ts) :
    ∃ t, ts = terms ++ [t] ∧ t.params = Spec.names c ∧ (∀ t' ∈ terms, t'.name ≠ t.name) ∧
      (t.hessDense = none ∨ t.hessSparse = none) ∧
      (Spec.NoFlow c → WF t ∧ ∀ X, termSpec X t = Spec.value X c) := by
  obtain ⟨grad, hess, name⟩ := c
  simp only at h
  unfold addTerm at h
  simp only [bind, Except.bind, pure, Except.pure, throw, throwThe, MonadExceptOf.throw] at h
  split_ifs at h with h0 h1
  have hname : ∀ t' ∈ terms, t'.name ≠ name.getD s!"ext{terms.length}" := by
    intro t' ht' he
    exact h1 (List.any_eq_true.2 ⟨t', ht', by simpa using he⟩)
  cases hg : checkGrad grad with
  | error e => rw [hg] at h; simp at h
  | ok g =>
    rw [hg] at h
    simp only at h
    have hgr := checkGrad_ok _ _ hg
    cases hess with
    | none =>
      rcases hgr with ⟨rfl, rfl⟩ | ⟨l, e, v, rfl, rfl, hv⟩
      · simp at h
      · simp only [Except.ok.injEq] at h
        subst h
        refine ⟨_, rfl, rfl, hname, .inl rfl, fun _ => ⟨⟨?_, ?_, ?_⟩, fun X => ?_⟩⟩
        · rintro g hg'; cases hg'; exact hv
        · rintro g hg'; cases hg'
        · rintro g hg'; cases hg'
        · rfl
    | some hin =>
      cases hin with
      | scipy => simp at h
      | sparse axes es =>
        simp only at h
        cases hc : checkHessAxes (g.map (·.1)) axes with
        | error e => rw [hc] at h; simp at h
        | ok p =>
          rw [hc] at h
          simp only [Except.ok.injEq] at h
          subst h
          obtain ⟨⟨e0, e1, rfl⟩, hp⟩ := checkHessAxes_ok _ _ _ hc
          refine ⟨_, rfl, ?_, hname, .inl rfl, fun hnf => ?_⟩
          · rcases hgr with ⟨rfl, rfl⟩ | ⟨l, e, v, rfl, rfl, hv⟩
            · rfl
            · exact (hp l rfl).symm
          · obtain ⟨he1, hes⟩ := hnf
            have hpos : ∀ e ∈ es, 0 < p.length := by
              intro e he
              rcases Nat.eq_zero_or_pos p.length with h | h
              · have := hes e he; rw [h] at this; simp at this
              · exact h
            refine ⟨⟨?_, ?_, ?_⟩, fun X => ?_⟩
            · rcases hgr with ⟨rfl, rfl⟩ | ⟨l, e, v, rfl, rfl, hv⟩
              · rintro g hg'; cases hg'
              · rintro g hg'; cases hg'; rw [hv, hp l rfl]
            · rintro g hg'; cases hg'
            · rintro es' hes'; cases hes'
              intro e he
              obtain ⟨e', he', rfl⟩ := List.mem_map.1 he
              exact ⟨Nat.div_lt_of_lt_mul (hes e' he'), Nat.mod_lt _ (hpos e' he')⟩
            · unfold termSpec Spec.value
              congr 1
              · rcases hgr with ⟨rfl, rfl⟩ | ⟨l, e, v, rfl, rfl, hv⟩
                · rfl
                · simp only [Option.map_some, Spec.gradValue, hp l rfl]
              · simp only [Spec.hessValue, List.map_map, Function.comp_def]
                rw [he1]
                ring
      | dense axes values =>
        simp only at h
        cases hc : checkHessAxes (g.map (·.1)) axes with
        | error e => rw [hc] at h; simp at h
        | ok p =>
          rw [hc] at h
          simp only at h
          split_ifs at h with hs
          simp only [Except.ok.injEq] at h
          subst h
          push Not at hs
          obtain ⟨⟨e0, e1, rfl⟩, hp⟩ := checkHessAxes_ok _ _ _ hc
          refine ⟨_, rfl, ?_, hname, .inr rfl, fun _ => ⟨⟨?_, ?_, ?_⟩, fun X => ?_⟩⟩
          · rcases hgr with ⟨rfl, rfl⟩ | ⟨l, e, v, rfl, rfl, hv⟩
            · rfl
            · exact (hp l rfl).symm
          · rcases hgr with ⟨rfl, rfl⟩ | ⟨l, e, v, rfl, rfl, hv⟩
            · rintro g hg'; cases hg'
            · rintro g hg'; cases hg'; rw [hv, hp l rfl]
          · rintro g hg'; cases hg'; exact hs
          · rintro g hg'; cases hg'
          · unfold termSpec Spec.value
            congr 1
            · rcases hgr with ⟨rfl, rfl⟩ | ⟨l, e, v, rfl, rfl, hv⟩
              · rfl
              · simp only [Option.map_some, Spec.gradValue, hp l rfl]
            · simp only [Spec.hessValue]; ring

theorem foldlM_addTerm (calls : List (Call K)) (ts0 ts : List (Term K))
    (h : calls.foldlM (fun ts c => addTerm ts c.grad c.hess c.name) ts0 = .ok ts) :
    ∃ new, ts = ts0 ++ new ∧ List.Forall₂ (fun c t => t.params = Spec.names c ∧
      (t.hessDense = none ∨ t.hessSparse = none) ∧ (Spec.NoFlow c → WF t ∧ ∀ X, termSpec X t = Spec.value X c))
      calls new := by
  induction calls generalizing ts0 with
  | nil => simp [pure, Except.pure] at h; exact ⟨[], by simp [h], .nil⟩
  | cons c calls ih =>
    rw [List.foldlM_cons] at h
    cases ha : addTerm ts0 c.grad c.hess c.name with
    | error e => simp [ha, bind, Except.bind] at h
    | ok ts1 =>
      rw [ha] at h
      obtain ⟨t, rfl, h1, -, h2, h3⟩ := addTerm_ok _ _ _ ha
      obtain ⟨new, rfl, hn⟩ := ih _ h
      exact ⟨t :: new, by simp, .cons ⟨h1, h2, h3⟩ hn⟩

theorem addAll_ok (calls : List (Call K)) (ts : List (Term K)) (h : addAll calls = .ok ts) :
    List.Forall₂ (fun c t => t.params = Spec.names c ∧ (t.hessDense = none ∨ t.hessSparse = none) ∧
      (Spec.NoFlow c → WF t ∧ ∀ X, termSpec X t = Spec.value X c)) calls ts := by
  obtain ⟨new, rfl, hn⟩ := foldlM_addTerm _ _ _ h
  simpa using hn

theorem foldl_add_map (x : List K) (bs : List (Built K)) (c : K) :
    bs.foldl (fun acc t => acc + termValue x t) c = c + (bs.map (termValue x)).sum := by
  induction bs generalizing c with
  | nil => simp
  | cons b bs ih => rw [List.foldl_cons, ih, List.map_cons, List.sum_cons, add_assoc]

/-- what is stored after writing and reading, call by call -/
theorem stored_ok (chunk : Nat) (calls : List (Call K)) (ts : List (Term K)) (h : addAll calls = .ok ts)
    (hnf : ∀ c ∈ calls, Spec.NoFlow c) :
    ∃ gs, ts.mapM (writeTerm chunk) = .ok gs ∧ List.Forall₂ (fun c g => (readTerm g).params = Spec.names c ∧
      WF (readTerm g) ∧ ∀ X, termSpec X (readTerm g) = Spec.value X c) calls gs := by
  have hall := addAll_ok _ _ h
  clear h
  induction hall with
  | nil => exact ⟨[], rfl, .nil⟩
  | @cons c t cs ts' hct _ ih =>
    obtain ⟨h1, h2, h3⟩ := hct
    obtain ⟨hwf, hv⟩ := h3 (hnf c (by simp))
    obtain ⟨gs, hgs, hf⟩ := ih fun c hc => hnf c (List.mem_cons_of_mem _ hc)
    obtain ⟨g, hg, hg1, hg2, hg3⟩ := write_read chunk t hwf h2
    refine ⟨g :: gs, ?_, .cons ⟨hg1.trans h1, hg2, fun X => (hg3 X).trans (hv X)⟩ hf⟩
    rw [List.mapM_cons, hg, hgs]; rfl

theorem forall₂_exists_left {A B : Type} {R : A → B → Prop} {l : List A} {l' : List B} (h : List.Forall₂ R l l') :
    (∀ b ∈ l', ∃ a ∈ l, R a b) ∧ ∀ a ∈ l, ∃ b ∈ l', R a b := by
  induction h with
  | nil => simp
  | cons h _ ih =>
    refine ⟨fun b hb => ?_, fun a ha => ?_⟩
    · rcases List.mem_cons.1 hb with rfl | hb
      · exact ⟨_, by simp, h⟩
      · obtain ⟨a, ha, hr⟩ := ih.1 b hb; exact ⟨a, by simp [ha], hr⟩
    · rcases List.mem_cons.1 ha with rfl | ha
      · exact ⟨_, by simp, h⟩
      · obtain ⟨b, hb, hr⟩ := ih.2 a ha; exact ⟨b, by simp [hb], hr⟩

/-- C14: names decide.  Once the calls were accepted, evaluating the terms in a fit succeeds exactly when the fit has no
duplicated parameter names and knows every named parameter; otherwise the fit raises. -/
theorem c14_accepted_iff (order : List (TermGroup K) → List (TermGroup K)) (hord : ∀ l, (order l).Perm l) (chunk : Nat)
    (calls : List (Call K)) (ts : List (Term K)) (hadd : addAll calls = .ok ts) (hnf : ∀ c ∈ calls, Spec.NoFlow c)
    (parms : List String) (x : List K) :
    ((∃ v, pipeline order chunk calls parms x = .ok v) ↔ parms.Nodup ∧ ∀ c ∈ calls, ∀ p ∈ Spec.names c, p ∈ parms) ∧
    ((¬ ∃ v, pipeline order chunk calls parms x = .ok v) → pipeline order chunk calls parms x = .error .runtime) := by
  obtain ⟨gs, hgs, hf⟩ := stored_ok chunk calls ts hadd hnf
  obtain ⟨hf1, hf2⟩ := forall₂_exists_left hf
  have hp : pipeline order chunk calls parms x =
      (build ((order gs).map readTerm) parms >>= fun b => pure (computeExternal b x)) := by
    unfold pipeline; rw [hadd]; simp only [bind, Except.bind]; rw [hgs]
  rw [hp]
  unfold build
  dsimp only
  by_cases hn : parms.Nodup
  · rw [if_neg (by rw [not_not]; exact (parmsIdx_length parms).2 hn)]
    have hiff : (∃ r, ((order gs).map readTerm).mapM (buildTerm (parmsIdx parms)) = .ok r) ↔
        ∀ c ∈ calls, ∀ p ∈ Spec.names c, p ∈ parms := by
      rw [mapM_ok_iff]
      constructor
      · intro h c hc p hpc
        obtain ⟨g, hg, hg1, -⟩ := hf2 c hc
        have := (buildTerm_ok_iff parms (readTerm g)).1 (h _ (List.mem_map.2 ⟨g, (hord gs).mem_iff.2 hg, rfl⟩))
        exact this p (hg1 ▸ hpc)
      · intro h t ht
        obtain ⟨g, hg, rfl⟩ := List.mem_map.1 ht
        obtain ⟨c, hc, hg1, -⟩ := hf1 g ((hord gs).mem_iff.1 hg)
        exact (buildTerm_ok_iff parms (readTerm g)).2 fun p hp => h c hc p (hg1 ▸ hp)
    constructor
    · rw [and_iff_right hn, ← hiff]
      cases ((order gs).map readTerm).mapM (buildTerm (parmsIdx parms)) with
      | error e => simp [bind, Except.bind]
      | ok r => simp [bind, Except.bind, pure, Except.pure]
    · intro h
      have hne : ¬ ∃ r, ((order gs).map readTerm).mapM (buildTerm (parmsIdx parms)) = .ok r := by
        rintro ⟨r, hr⟩
        exact h ⟨computeExternal r x, by simp [bind, Except.bind, pure, Except.pure, hr]⟩
      have := mapM_error _ _ .runtime (fun t _ e he => buildTerm_error _ t e he) hne
      simp [bind, Except.bind, this]
  · rw [if_pos (by rw [ne_eq, parmsIdx_length]; exact hn)]
    exact ⟨⟨fun ⟨v, hv⟩ => by simp [bind, Except.bind, throw, throwThe, MonadExceptOf.throw] at hv,
      fun h => absurd h.1 hn⟩, fun _ => rfl⟩

/-- C14: through registration, file, resolution and evaluation, the terms contribute exactly the sum of
`g·x + x·H·x/2` over the named parameters, for every order of the fit parameters, every chunk size and whatever order
the file returns the terms in. -/
theorem c14_value (order : List (TermGroup K) → List (TermGroup K)) (hord : ∀ l, (order l).Perm l) (chunk : Nat)
    (calls : List (Call K)) (hne : calls ≠ []) (ts : List (Term K)) (hadd : addAll calls = .ok ts)
    (hnf : ∀ c ∈ calls, Spec.NoFlow c) (parms : List String) (x : List K) (hn : parms.Nodup)
    (hx : x.length = parms.length) (hk : ∀ c ∈ calls, ∀ p ∈ Spec.names c, p ∈ parms) :
    pipeline order chunk calls parms x =
      .ok (some (calls.map (Spec.value (Spec.paramValue parms x))).sum) := by
  obtain ⟨gs, hgs, hf⟩ := stored_ok chunk calls ts hadd hnf
  obtain ⟨⟨v, hv⟩, -⟩ : (∃ v, pipeline order chunk calls parms x = .ok v) ∧ True :=
    ⟨((c14_accepted_iff order hord chunk calls ts hadd hnf parms x).1).2 ⟨hn, hk⟩, trivial⟩
  rw [hv]
  have hp : pipeline order chunk calls parms x =
      (build ((order gs).map readTerm) parms >>= fun b => pure (computeExternal b x)) := by
    unfold pipeline; rw [hadd]; simp only [bind, Except.bind]; rw [hgs]
  rw [hp] at hv
  unfold build at hv
  dsimp only at hv
  rw [if_neg (by rw [not_not]; exact (parmsIdx_length parms).2 hn)] at hv
  cases hm : ((order gs).map readTerm).mapM (buildTerm (parmsIdx parms)) with
  | error e => simp [bind, Except.bind, hm] at hv
  | ok bs =>
    simp only [bind, Except.bind, pure, Except.pure, hm, Except.ok.injEq] at hv
    subst hv
    congr 1
    have hwf : ∀ g ∈ gs, WF (readTerm g) := by
      intro g hg
      obtain ⟨c, -, -, hc, -⟩ := (forall₂_exists_left hf).1 g hg
      exact hc
    have hsum : (bs.map (termValue x)).sum = (((order gs).map readTerm).map (termSpec (valueOf parms x))).sum := by
      have h2 := mapM_ok_forall₂ _ _ _ hm
      have hwf' : ∀ t ∈ (order gs).map readTerm, WF t := by
        intro t ht
        obtain ⟨g, hg, rfl⟩ := List.mem_map.1 ht
        exact hwf g ((hord gs).mem_iff.1 hg)
      generalize (order gs).map readTerm = l at h2 hwf'
      clear hm
      induction h2 with
      | nil => rfl
      | cons h _ ih =>
        simp only [List.map_cons, List.sum_cons]
        rw [ih fun t ht => hwf' t (List.mem_cons_of_mem _ ht), buildTerm_value parms x hn hx _ (hwf' _ (by simp)) _ h]
    have hbs : bs ≠ [] := by
      rintro rfl
      have h1 := (mapM_ok_forall₂ _ _ _ hm).length_eq
      rw [List.length_map, (hord gs).length_eq, ← hf.length_eq] at h1
      exact hne (List.eq_nil_of_length_eq_zero h1)
    unfold computeExternal
    rw [if_neg (by simpa using hbs), foldl_add_map, zero_add, hsum]
    congr 1
    rw [((hord gs).map readTerm |>.map (termSpec (valueOf parms x))).sum_eq, List.map_map]
    clear hm hsum hgs hwf hp hadd hnf hk hne
    induction hf with
    | nil => rfl
    | @cons c g cs gs' h _ ih =>
      simp only [List.map_cons, List.sum_cons, Function.comp_apply] at ih ⊢
      rw [ih, h.2.2]
      rfl

/-- C14: two fits that hold the same named values in different orders get the same contribution. -/
theorem c14_order_independent (order : List (TermGroup K) → List (TermGroup K)) (hord : ∀ l, (order l).Perm l) (chunk : Nat)
    (calls : List (Call K)) (hne : calls ≠ []) (ts : List (Term K)) (hadd : addAll calls = .ok ts)
    (hnf : ∀ c ∈ calls, Spec.NoFlow c) (parms parms' : List String) (x x' : List K) (hn : parms.Nodup)
    (hx : x.length = parms.length) (hx' : x'.length = parms'.length) (hperm : (parms.zip x).Perm (parms'.zip x'))
    (hk : ∀ c ∈ calls, ∀ p ∈ Spec.names c, p ∈ parms) :
    pipeline order chunk calls parms' x' = pipeline order chunk calls parms x := by
  have hm : (parms.zip x).map (·.1) = parms := List.map_fst_zip hx.ge
  have hm' : (parms'.zip x').map (·.1) = parms' := List.map_fst_zip hx'.ge
  have hpp : parms.Perm parms' := by
    have := hperm.map (·.1)
    rwa [hm, hm'] at this
  rw [c14_value order hord chunk calls hne ts hadd hnf parms x hn hx hk,
    c14_value order hord chunk calls hne ts hadd hnf parms' x' (hpp.nodup_iff.1 hn) hx'
      fun c hc p hp => hpp.mem_iff.1 (hk c hc p hp)]
  have : (Spec.paramValue parms' x' : String → K) = Spec.paramValue parms x := by
    funext p
    unfold Spec.paramValue
    rw [lookup_perm _ _ hperm (by rw [hm]; exact hn)]
  rw [this]

/-! Dense and sparse Hessians -/

theorem sum_zipWith_range {A B : Type} (f : A → B → K) (l : List A) (r : List B) (a : A) (b : B) (h : l.length = r.length) :
    (List.zipWith f l r).sum = ((List.range l.length).map fun i => f (l.getD i a) (r.getD i b)).sum := by
  congr 1
  refine List.ext_getElem (by simp [h]) fun i h1 h2 => ?_
  simp only [List.length_map, List.length_range] at h2
  have h3 : i < r.length := by omega
  simp [h2, h3]

theorem div_mod_iff (f n i j : Nat) (hj : j < n) : f = i * n + j ↔ f / n = i ∧ f % n = j := by
  constructor
  · rintro rfl
    rw [Nat.mul_comm, Nat.mul_add_div (by omega), Nat.mul_add_mod, Nat.div_eq_of_lt hj, Nat.mod_eq_of_lt hj]
    simp
  · rintro ⟨rfl, rfl⟩
    rw [Nat.mul_comm]
    exact (Nat.div_add_mod f n).symm

theorem scatter_sum (Y : Nat → K) (n : Nat) (es : List (Nat × K)) (hes : ∀ e ∈ es, e.1 < n * n) :
    ((List.range n).map fun i => ((List.range n).map fun j =>
      Y i * ((es.filter fun e => e.1 == i * n + j).map (·.2)).sum * Y j).sum).sum =
    (es.map fun e => Y (e.1 / n) * e.2 * Y (e.1 % n)).sum := by
  induction es with
  | nil => simp
  | cons e es ih =>
    have he := hes e (by simp)
    have hn : 0 < n := by rcases Nat.eq_zero_or_pos n with h | h; · subst h; simp at he
                          · exact h
    rw [List.map_cons, List.sum_cons, ← ih fun e he => hes e (List.mem_cons_of_mem _ he)]
    have h1 := sum_range_single n (e.1 / n) fun i => Y i * e.2 * Y (e.1 % n)
    rw [if_pos (Nat.div_lt_of_lt_mul he)] at h1
    rw [← h1, ← List.sum_map_add]
    congr 1
    refine List.map_congr_left fun i _ => ?_
    have h2 := sum_range_single n (e.1 % n) fun j => if e.1 / n == i then Y i * e.2 * Y j else 0
    rw [if_pos (Nat.mod_lt _ hn)] at h2
    rw [← h2, ← List.sum_map_add]
    congr 1
    refine List.map_congr_left fun j hj => ?_
    rw [List.mem_range] at hj
    rw [List.filter_cons]
    have hiff := div_mod_iff e.1 n i j hj
    by_cases hh : e.1 = i * n + j
    · obtain ⟨ha, hb⟩ := hiff.1 hh
      rw [if_pos (by simpa using hh), if_pos (by simpa using hb), if_pos (by simpa using ha), List.map_cons, List.sum_cons]
      ring
    · rw [if_neg (by simpa using hh)]
      have : (if (e.1 % n == j) = true then if (e.1 / n == i) = true then Y i * e.2 * Y j else 0 else 0) = 0 := by
        split_ifs with ha hb
        · exact absurd (hiff.2 ⟨by simpa using hb, by simpa using ha⟩) hh
        · rfl
        · rfl
      rw [this, zero_add]

/-- C14: a dense Hessian and a sparse one that holds the same matrix give the same contribution. -/
theorem c14_dense_eq_sparse (order : List (TermGroup K) → List (TermGroup K)) (hord : ∀ l, (order l).Perm l) (chunk : Nat)
    (l : List String) (e0 e1 : Nat) (h : List (List K)) (es : List (Nat × K)) (grad : Option (GradIn K))
    (nm : Option String) (ts ts' : List (Term K))
    (hd : addAll [⟨grad, some (.dense [.strCat l e0, .strCat l e1] h), nm⟩] = .ok ts)
    (hs : addAll [⟨grad, some (.sparse [.strCat l l.length, .strCat l l.length] es), nm⟩] = .ok ts')
    (hes : ∀ e ∈ es, e.1 < l.length * l.length)
    (hsame : ∀ i < l.length, ∀ j < l.length,
      (h.getD i []).getD j 0 = ((es.filter fun e => e.1 == i * l.length + j).map (·.2)).sum)
    (parms : List String) (x : List K) (hn : parms.Nodup) (hx : x.length = parms.length) (hk : ∀ p ∈ l, p ∈ parms) :
    pipeline order chunk [⟨grad, some (.dense [.strCat l e0, .strCat l e1] h), nm⟩] parms x =
    pipeline order chunk [⟨grad, some (.sparse [.strCat l l.length, .strCat l l.length] es), nm⟩] parms x := by
  have hnames : ∀ (c : Call K) (ts : List (Term K)), addAll [c] = .ok ts → c.grad = grad →
      (c.hess = some (.dense [.strCat l e0, .strCat l e1] h) ∨
        c.hess = some (.sparse [.strCat l l.length, .strCat l l.length] es)) → Spec.names c = l := by
    rintro ⟨g, hh, n⟩ ts hc rfl hcase
    simp only at hcase
    unfold addAll at hc
    rw [List.foldlM_cons] at hc
    simp only at hc
    unfold addTerm at hc
    simp only [bind, Except.bind, pure, Except.pure, throw, throwThe, MonadExceptOf.throw] at hc
    cases hg : checkGrad g with
    | error e => rcases hcase with rfl | rfl <;> simp [hg] at hc
    | ok r =>
      rcases checkGrad_ok _ _ hg with ⟨rfl, rfl⟩ | ⟨l', e, v, rfl, rfl, hv⟩
      · rcases hcase with rfl | rfl <;> rfl
      · have : l' = l := by
          by_contra hne
          rcases hcase with rfl | rfl <;> simp [hg, checkHessAxes, labels, bind, Except.bind, hne] at hc
        subst this
        rcases hcase with rfl | rfl <;> rfl
  rw [c14_value order hord chunk _ (by simp) ts hd (by simp [Spec.NoFlow]) parms x hn hx (by
      intro c hc p hp
      rw [List.mem_singleton] at hc
      subst hc
      rw [hnames _ ts hd rfl (.inl rfl)] at hp
      exact hk p hp),
    c14_value order hord chunk _ (by simp) ts' hs (by
      intro c hc
      rw [List.mem_singleton] at hc
      subst hc
      exact ⟨rfl, hes⟩) parms x hn hx (by
      intro c hc p hp
      rw [List.mem_singleton] at hc
      subst hc
      rw [hnames _ ts' hs rfl (.inr rfl)] at hp
      exact hk p hp)]
  simp only [List.map_cons, List.map_nil, List.sum_cons, List.sum_nil, add_zero, Spec.value, Spec.hessValue]
  -- shape of the accepted dense Hessian
  have hshape : h.length = l.length ∧ ∀ r ∈ h, r.length = l.length := by
    have := addAll_ok _ _ hd
    cases this with
    | cons h1 h2 =>
      cases h2
      rename_i t
      have hp := h1.1
      rw [hnames _ _ hd rfl (.inl rfl)] at hp
      have hwf := (h1.2.2 (by simp [Spec.NoFlow])).1
      have hdn : t.hessDense = some h := by
        unfold addAll at hd
        rw [List.foldlM_cons] at hd
        simp only at hd
        unfold addTerm at hd
        simp only [bind, Except.bind, pure, Except.pure, throw, throwThe, MonadExceptOf.throw] at hd
        cases hg : checkGrad grad with
        | error e => simp [hg] at hd
        | ok r =>
          cases hc : checkHessAxes (r.map (·.1)) [.strCat l e0, .strCat l e1] with
          | error e => simp [hg, hc] at hd
          | ok p =>
            simp only [hg, hc, Option.isNone_some, Bool.and_false, Bool.false_eq_true, if_false, List.any_nil] at hd
            split_ifs at hd
            simp only [List.nil_append, List.foldlM_nil, pure, Except.pure, Except.ok.injEq, List.cons.injEq, and_true] at hd
            rw [← hd]
      have := hwf.dense h hdn
      rwa [hp] at this
  congr 4
  rw [sum_zipWith_range _ _ _ "" [] hshape.1.symm, ← scatter_sum (fun i => Spec.paramValue parms x (l.getD i "")) _ _ hes]
  congr 1
  refine List.map_congr_left fun i hi => ?_
  rw [List.mem_range] at hi
  have hr : (h.getD i []).length = l.length := by
    have : i < h.length := by omega
    have hg : h.getD i [] = h[i] := by simp [this]
    rw [hg]
    exact hshape.2 _ (List.getElem_mem _)
  rw [sum_zipWith_range _ _ _ "" 0 hr.symm]
  congr 1
  refine List.map_congr_left fun j hj => ?_
  rw [List.mem_range] at hj
  rw [hsame i hi j hj]

/-- C14: a second term with the name of an earlier one is rejected, and so is a call without gradient and Hessian. -/
theorem c14_duplicate_term_rejected (terms : List (Term K)) (c : Call K) :
    ((c.grad = none ∧ c.hess = none) → addTerm terms c.grad c.hess c.name = .error .value) ∧
    (∀ n, c.name = some n → (∃ t ∈ terms, t.name = n) → (c.grad ≠ none ∨ c.hess ≠ none) →
      addTerm terms c.grad c.hess c.name = .error .runtime) := by
  obtain ⟨g, h, n⟩ := c
  constructor
  · rintro ⟨rfl, rfl⟩; rfl
  · rintro n rfl ⟨t, ht, rfl⟩ hne
    simp only at hne
    unfold addTerm
    simp only [bind, Except.bind, throw, throwThe, MonadExceptOf.throw]
    rw [if_neg (by cases g <;> cases h <;> simp_all), if_pos (List.any_eq_true.2 ⟨t, ht, by simp⟩)]

/-- C14: an accepted call names the same parameters, in the same order, on all its axes. -/
theorem c14_accepted_labels_agree (terms : List (Term K)) (c : Call K) (ts : List (Term K))
    (h : addTerm terms c.grad c.hess c.name = .ok ts) :
    (∀ axes v, c.grad = some (.hist axes v) → ∃ e, axes = [.strCat (Spec.names c) e]) ∧
    (∀ axes es, c.hess = some (.sparse axes es) → ∃ e0 e1, axes = [.strCat (Spec.names c) e0, .strCat (Spec.names c) e1]) ∧
    (∀ axes v, c.hess = some (.dense axes v) → ∃ e0 e1, axes = [.strCat (Spec.names c) e0, .strCat (Spec.names c) e1]) := by
  obtain ⟨grad, hess, name⟩ := c
  simp only at h ⊢
  unfold addTerm at h
  simp only [bind, Except.bind, pure, Except.pure, throw, throwThe, MonadExceptOf.throw] at h
  split_ifs at h with h0 h1
  cases hg : checkGrad grad with
  | error e => rw [hg] at h; simp at h
  | ok g =>
    rw [hg] at h
    simp only at h
    refine ⟨?_, ?_, ?_⟩
    · rintro axes v rfl
      rcases checkGrad_ok _ _ hg with ⟨h', -⟩ | ⟨l, e, v', he, rfl, hv⟩
      · cases h'
      · cases he; exact ⟨e, rfl⟩
    · rintro axes es rfl
      simp only at h
      cases hc : checkHessAxes (g.map (·.1)) axes with
      | error e => rw [hc] at h; simp at h
      | ok p =>
        obtain ⟨⟨e0, e1, rfl⟩, hp⟩ := checkHessAxes_ok _ _ _ hc
        rcases checkGrad_ok _ _ hg with ⟨rfl, -⟩ | ⟨l, e, v', rfl, rfl, hv⟩
        · exact ⟨e0, e1, rfl⟩
        · obtain rfl := hp l rfl; exact ⟨e0, e1, rfl⟩
    · rintro axes v rfl
      simp only at h
      cases hc : checkHessAxes (g.map (·.1)) axes with
      | error e => rw [hc] at h; simp at h
      | ok p =>
        obtain ⟨⟨e0, e1, rfl⟩, hp⟩ := checkHessAxes_ok _ _ _ hc
        rcases checkGrad_ok _ _ hg with ⟨rfl, -⟩ | ⟨l, e, v', rfl, rfl, hv⟩
        · exact ⟨e0, e1, rfl⟩
        · obtain rfl := hp l rfl; exact ⟨e0, e1, rfl⟩

/-- C14 is violated for sparse Hessians on string axes with an overflow bin (the default of `hist`): the flat indices
are in the extents with flow but are split with the number of labels, so entries land on other parameters. -/
theorem c14_overflow_axes_violated :
    ∃ (c : Call ℚ) (parms : List String) (x : List ℚ), parms.Nodup ∧ (∀ p ∈ Spec.names c, p ∈ parms) ∧
      x.length = parms.length ∧
      pipeline id 64 [c] parms x = .ok (some 9) ∧ Spec.value (Spec.paramValue parms x) c = 3 := by
  refine ⟨⟨none, some (.sparse [.strCat ["a", "b"] 3, .strCat ["a", "b"] 3] [(3, 2)]), none⟩, ["a", "b"], [1, 3],
    by decide, by decide, rfl, ?_, ?_⟩
  · decide +kernel
  · decide +kernel

/-- C14 is violated for duplicated names inside one term: they are accepted and both entries act on the parameter. -/
theorem c14_duplicate_in_term_violated :
    ∃ (c : Call ℚ) (parms : List String) (x : List ℚ), parms.Nodup ∧ ¬ (Spec.names c).Nodup ∧
      pipeline id 64 [c] parms x = .ok (some 15) := by
  refine ⟨⟨some (.hist [.strCat ["a", "a"] 2] [1, 2]), none, none⟩, ["a"], [5], by decide, by decide, ?_⟩
  decide +kernel

/-! A dense and a sparse term on the same two of three parameters, evaluated for two orders of the fit parameters. -/

def exDense : Call ℚ :=
  ⟨some (.hist [.strCat ["a", "c"] 3] [1, 2]), some (.dense [.strCat ["a", "c"] 3, .strCat ["a", "c"] 3] [[2, 1], [1, 0]]), none⟩
def exSparse : Call ℚ :=
  ⟨some (.hist [.strCat ["a", "c"] 3] [1, 2]),
    some (.sparse [.strCat ["a", "c"] 2, .strCat ["a", "c"] 2] [(2, 1), (0, 2), (1, 1)]), some "s"⟩

example : ∃ ts, addAll [exDense, exSparse] = .ok ts := by
  refine ⟨[⟨"ext0", ["a", "c"], some [1, 2], some [[2, 1], [1, 0]], none⟩,
    ⟨"s", ["a", "c"], some [1, 2], none, some [(1, 0, 1), (0, 0, 2), (0, 1, 1)]⟩], ?_⟩
  rfl
example : ∀ c ∈ [exDense, exSparse], Spec.NoFlow c := by
  intro c hc
  rcases List.mem_cons.1 hc with rfl | hc
  · trivial
  · rw [List.mem_singleton] at hc; subst hc; exact ⟨rfl, by decide⟩
example : pipeline id 64 [exDense] ["a", "b", "c"] [1, 7, 3] = .ok (some 11) := by decide +kernel
example : pipeline id 64 [exDense] ["c", "a", "b"] [3, 1, 7] = .ok (some 11) := by decide +kernel
example : pipeline List.reverse 64 [exDense] ["a", "b"] [1, 7] = .error .runtime := by decide +kernel

end Verif.Ext
