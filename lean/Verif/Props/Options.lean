import Verif.Model.Options
import Verif.Lemmas.Py
import Mathlib.Data.Real.Basic

/-!
C100 Options are resolved to a combination that the libraries can run, and to the one that was asked for.
-/

namespace Verif.Options

open Verif.BBB

/-! ### specification -/

namespace Spec

/-- What TensorFlow can run: products of sparse matrices have neither a compiled form nor a forward derivative, and a
forward derivative through compiled code is zero. -/
def runs (sparse jit : Bool) (h : Hvp) (hvpJit : Bool) : Prop :=
  (sparse = true → jit = false ∧ h = .revrev ∧ hvpJit = false) ∧ (h = .fwdrev → hvpJit = false)

/-- Compilation was not switched off. -/
def wantsJit (o : Opts) : Prop := o.jitCompile ≠ some (.flag false) ∧ o.jitCompile ≠ some (.text "off")

/-- The type of the bin-by-bin parameters, as the name says; the text of the option promises for `automatic`: gamma except for
a data covariance. -/
def named : String → Kind → Prop
  | "gamma", k => k = .gamma
  | "normal-additive", k => k = .normAdd
  | "normal-multiplicative", k => k = .normMult
  | _, _ => False

/-- What SciPy's methods refuse to work without; names are read without regard to case. -/
def enough (method : String) (e : Extra) : Prop :=
  (method.toLower ∈ ["trust-krylov", "trust-ncg"] → e ≠ .none) ∧ (method.toLower ∈ ["trust-exact", "dogleg"] → e = .hess)

end Spec

/-! ### inversion -/

theorem init_inv {o : Opts} {i : Input} {r : Resolved} (h : init o i = .ok r) :
    i.systematicType ∈ ["log_normal", "normal"] ∧ jitCompile o i.sparse = .ok r.jit ∧
    (o.covarianceFit && o.chisqFit) = false ∧ (!o.chisqFit && o.covarianceFit && !i.dataCovInv) = false ∧
    bbstat o = .ok (r.mode, r.kind, r.enabled) ∧
    r.fit = (if o.chisqFit then .chisq else if o.covarianceFit then .covariance else .poisson) ∧
    r.hvp = hvp o i.sparse ∧ r.hvpJit = hvpJit r.jit r.hvp ∧ r.computeCov = !o.noHessian.getD false ∧
    r.forceLinear = o.forceLinear.getD false := by
  unfold init at h
  by_cases h1 : i.systematicType ∉ ["log_normal", "normal"]
  · rw [if_pos h1] at h; exact nomatch h
  · rw [if_neg h1] at h
    cases hj : jitCompile o i.sparse with
    | error e => rw [hj] at h; exact nomatch h
    | ok jit =>
      rw [hj] at h
      dsimp only at h
      by_cases h2 : (o.covarianceFit && o.chisqFit) = true
      · rw [if_pos h2] at h; exact nomatch h
      · rw [if_neg h2] at h
        by_cases h3 : (!o.chisqFit && o.covarianceFit && !i.dataCovInv) = true
        · rw [if_pos h3] at h; exact nomatch h
        · rw [if_neg h3] at h
          cases hb : bbstat o with
          | error e => rw [hb] at h; exact nomatch h
          | ok b =>
            obtain ⟨m, k, e⟩ := b
            rw [hb] at h
            cases h
            exact ⟨not_not.1 h1, rfl, by simpa using h2, by simpa using h3, rfl, rfl, rfl, rfl, rfl, rfl⟩

/-- the text the option `jitCompile` stands for -/
def jitText (o : Opts) : String :=
  match o.jitCompile.getD (.text "auto") with
  | .flag true => "on"
  | .flag false => "off"
  | .text s => s

theorem jit_ok (o : Opts) (sparse jit : Bool) : jitCompile o sparse = .ok jit ↔
    jitText o ∈ ["auto", "on", "off"] ∧ jit = (!sparse && decide (jitText o ≠ "off")) := by
  have : jitCompile o sparse = if jitText o ∉ ["auto", "on", "off"] then .error .value
    else if jitText o = "off" then .ok false
    else if jitText o = "on" then .ok (if sparse then false else true)
    else .ok (!sparse) := rfl
  rw [this]
  by_cases h1 : jitText o ∈ ["auto", "on", "off"]
  · rw [if_neg (not_not.2 h1)]
    by_cases h2 : jitText o = "off"
    · simp [h2, eq_comm]
    · rw [if_neg h2]
      split <;> cases sparse <;> simp [h1, h2, eq_comm]
  · simp [h1]

theorem bbstat_ok {o : Opts} {m : Mode} {k : Kind} {e : Bool} : bbstat o = .ok (m, k, e) ↔
    ¬ (o.covarianceFit = true ∧ o.noBinByBinStat = false ∧ statType o = "gamma") ∧ statType o ∈ validTypes ∧
    ((o.statMode = "full" ∧ m = .full) ∨ (o.statMode = "lite" ∧ m = .lite)) ∧ k = kindOf (statType o) ∧ e = !o.noBinByBinStat := by
  unfold bbstat
  dsimp only
  by_cases hv : statType o ∈ validTypes
  · have hp : ("normal".toList.isPrefixOf (statType o).toList) = decide (statType o ≠ "gamma") := by
      unfold validTypes at hv
      simp only [List.mem_cons, List.not_mem_nil, or_false] at hv
      rcases hv with hv | hv | hv <;> rw [hv] <;> rfl
    rw [hp]
    by_cases hc : o.covarianceFit = true ∧ o.noBinByBinStat = false ∧ statType o = "gamma"
    · rw [if_pos (by simp [hc.1, hc.2.1, hc.2.2])]
      exact ⟨fun h => (nomatch h), fun h => absurd hc h.1⟩
    · rw [if_neg (by simpa [and_assoc] using hc), if_neg (not_not.2 hv)]
      by_cases h1 : o.statMode = "full"
      · rw [if_pos h1]
        have : o.statMode ≠ "lite" := by rw [h1]; decide
        constructor
        · intro h; cases h; exact ⟨hc, hv, .inl ⟨h1, rfl⟩, rfl, rfl⟩
        · rintro ⟨-, -, h | h, rfl, rfl⟩
          · rw [h.2]
          · exact absurd h.1 this
      · rw [if_neg h1]
        by_cases h2 : o.statMode = "lite"
        · rw [if_pos h2]
          constructor
          · intro h; cases h; exact ⟨hc, hv, .inr ⟨h2, rfl⟩, rfl, rfl⟩
          · rintro ⟨-, -, h | h, rfl, rfl⟩
            · exact absurd h.1 h1
            · rw [h.2]
        · rw [if_neg h2]
          refine ⟨fun h => (nomatch h), fun h => ?_⟩
          rcases h.2.2.1 with h | h
          · exact absurd h.1 h1
          · exact absurd h.1 h2
  · refine ⟨fun h => ?_, fun h => absurd h.2.1 hv⟩
    split at h
    · exact nomatch h
    · exact nomatch h

/-! ### property theorems -/

/-- C100: whatever was asked for, what is run is possible. -/
theorem c100_runs (o : Opts) (i : Input) (r : Resolved) (h : init o i = .ok r) : Spec.runs i.sparse r.jit r.hvp r.hvpJit := by
  obtain ⟨-, h1, -, -, -, -, h2, h3, -, -⟩ := init_inv h
  obtain ⟨-, h1⟩ := (jit_ok _ _ _).1 h1
  refine ⟨fun hs => ?_, fun hf => ?_⟩
  · have h4 : r.hvp = .revrev := by
      rw [h2, hs]
      unfold hvp
      dsimp only
      split
      · rfl
      · rename_i hn
        rw [if_neg fun h => hn ⟨h, rfl⟩]
    have h5 : r.jit = false := by rw [h1, hs]; rfl
    exact ⟨h5, h4, by rw [h3, h4, h5]; rfl⟩
  · rw [h3, hf]; rfl

/-- C100: dense templates are compiled unless that was switched off, and the forward mode is used exactly if it was asked
for. -/
theorem c100_requested (o : Opts) (i : Input) (r : Resolved) (h : init o i = .ok r) (hd : i.sparse = false) :
    (r.jit = true ↔ Spec.wantsJit o) ∧ (r.hvp = .fwdrev ↔ o.hvpMethod = some "fwdrev") ∧
    (r.computeCov = true ↔ o.noHessian ≠ some true) ∧ (r.forceLinear = true ↔ o.forceLinear = some true) := by
  obtain ⟨-, h1, -, -, -, -, h2, -, h4, h5⟩ := init_inv h
  obtain ⟨h0, h1⟩ := (jit_ok _ _ _).1 h1
  rw [h1, h2, h4, h5, hd]
  refine ⟨?_, ?_, ?_, ?_⟩
  · unfold Spec.wantsJit jitText
    rcases o.jitCompile with _ | b | s
    · simp
    · cases b <;> simp
    · simp
  · unfold hvp
    rcases o.hvpMethod with _ | s
    · simp
    · by_cases hs : s = "fwdrev" <;> simp [hs]
  · rcases o.noHessian with _ | _ | _ <;> simp
  · rcases o.forceLinear with _ | _ | _ <;> simp

theorem named_kindOf {s : String} (h : s ∈ validTypes) : Spec.named s (kindOf s) := by
  unfold validTypes at h
  simp only [List.mem_cons, List.not_mem_nil, or_false] at h
  rcases h with rfl | rfl | rfl <;> rfl

/-- C100: the data term and the bin-by-bin parameters are those that were asked for; for `automatic` the type follows the
fit and the mode. -/
theorem c100_likelihood (o : Opts) (i : Input) (r : Resolved) (h : init o i = .ok r) :
    (r.fit = .chisq ↔ o.chisqFit = true) ∧ (r.fit = .covariance ↔ o.covarianceFit = true) ∧
    (r.fit = .covariance → i.dataCovInv = true ∧ (r.enabled = true → r.kind ≠ .gamma)) ∧
    (r.enabled = true ↔ o.noBinByBinStat = false) ∧
    (r.mode = .full ↔ o.statMode = "full") ∧ (r.mode = .lite ↔ o.statMode = "lite") ∧
    (o.statType ≠ "automatic" → Spec.named o.statType r.kind) ∧
    (o.statType = "automatic" → r.kind =
      if r.fit = .covariance then .normAdd else if r.mode = .full then .normMult else .gamma) := by
  obtain ⟨-, -, h1, h2, h3, h4, -⟩ := init_inv h
  obtain ⟨h5, h6, h7, h8, h9⟩ := bbstat_ok.1 h3
  have hfit : r.fit = .covariance ↔ o.covarianceFit = true := by
    rw [h4]
    cases hc : o.chisqFit <;> cases hv : o.covarianceFit <;> simp_all
  have hfull : r.mode = .full ↔ o.statMode = "full" := by
    rcases h7 with ⟨e1, e2⟩ | ⟨e1, e2⟩ <;> rw [e1, e2] <;> decide
  refine ⟨?_, hfit, fun hc => ⟨?_, fun he hk => ?_⟩, ?_, hfull, ?_, fun ht => ?_, fun ht => ?_⟩
  · rw [h4]
    cases hc : o.chisqFit <;> cases hv : o.covarianceFit <;> simp
  · have := hfit.1 hc
    rw [this] at h1 h2
    cases hc' : o.chisqFit
    · rw [hc'] at h2; simpa using h2
    · rw [hc'] at h1; exact nomatch h1
  · refine h5 ⟨hfit.1 hc, ?_, ?_⟩
    · rw [h9] at he; simpa using he
    · unfold validTypes at h6
      simp only [List.mem_cons, List.not_mem_nil, or_false] at h6
      rcases h6 with h6 | h6 | h6
      · exact h6
      · rw [h8, h6] at hk; exact absurd hk (by decide)
      · rw [h8, h6] at hk; exact absurd hk (by decide)
  · rw [h9]; simp
  · rcases h7 with ⟨e1, e2⟩ | ⟨e1, e2⟩ <;> rw [e1, e2] <;> decide
  · have e : statType o = o.statType := by unfold statType; rw [if_neg ht]
    rw [h8, e]
    rw [e] at h6
    exact named_kindOf h6
  · rw [h8]
    unfold statType
    rw [if_pos ht]
    by_cases hc : o.covarianceFit = true
    · rw [if_pos hc, if_pos (hfit.2 hc)]; decide
    · rw [if_neg hc, if_neg (fun e => hc (hfit.1 e))]
      by_cases hm : o.statMode = "full"
      · rw [if_pos hm, if_pos (hfull.2 hm)]; decide
      · rw [if_neg hm, if_neg (fun e => hm (hfull.1 e))]; decide

/-- C100 against the text of the option, which promises the gamma type for everything but a data covariance: with one
parameter per bin and process, `automatic` is the multiplicative normal type. -/
theorem c100_automatic_violated (o : Opts) (i : Input) (r : Resolved) (h : init o i = .ok r) (ht : o.statType = "automatic")
    (hm : o.statMode = "full") (hc : o.covarianceFit = false) : r.kind = .normMult ∧ r.fit ≠ .covariance := by
  obtain ⟨-, h2, -, -, h5, -, -, h8⟩ := c100_likelihood o i r h
  have : r.fit ≠ .covariance := fun e => by rw [h2.1 e] at hc; exact nomatch hc
  exact ⟨by rw [h8 ht, if_neg this, if_pos (h5.2 hm)], this⟩

/-- C100: of the values the command line accepts, only these are refused: both kinds of chi-square fit, a covariance fit
without a covariance, and a covariance fit with bin-by-bin parameters of gamma type. -/
theorem c100_command_line (o : Opts) (i : Input) (ho : cliOk o = true) (hi : i.systematicType ∈ ["log_normal", "normal"]) :
    (∃ r, init o i = .ok r) ↔ ¬ (o.chisqFit = true ∧ o.covarianceFit = true) ∧ (o.covarianceFit = true → i.dataCovInv = true) ∧
      ¬ (o.covarianceFit = true ∧ o.noBinByBinStat = false ∧ o.statType = "gamma") := by
  unfold cliOk at ho
  simp only [Bool.and_eq_true, decide_eq_true_eq] at ho
  obtain ⟨⟨⟨⟨⟨⟨hj, -⟩, -⟩, -⟩, hm⟩, ht⟩, -⟩ := ho
  have hg : o.covarianceFit = true → (statType o = "gamma" ↔ o.statType = "gamma") := fun hc => by
    unfold statType
    rw [if_pos hc]
    split
    · rename_i e
      rw [e]
      decide
    · rfl
  constructor
  · rintro ⟨r, h⟩
    obtain ⟨-, -, h1, h2, h3, -⟩ := init_inv h
    obtain ⟨h5, -⟩ := bbstat_ok.1 h3
    refine ⟨fun ⟨a, b⟩ => ?_, fun hc => ?_, fun ⟨a, b, c⟩ => h5 ⟨a, b, (hg a).2 c⟩⟩
    · rw [a, b] at h1; exact nomatch h1
    · rw [hc] at h1 h2
      cases hc' : o.chisqFit
      · rw [hc'] at h2; simpa using h2
      · rw [hc'] at h1; exact nomatch h1
  · rintro ⟨h1, h2, h3⟩
    obtain ⟨jit, hjit⟩ : ∃ jit, jitCompile o i.sparse = .ok jit := by
      refine ⟨_, (jit_ok _ _ _).2 ⟨?_, rfl⟩⟩
      unfold jitText
      rcases he : o.jitCompile with _ | b | s <;> rw [he] at hj
      · exact nomatch hj
      · exact nomatch hj
      · exact of_decide_eq_true hj
    have hvt : statType o ∈ validTypes := by
      unfold statType
      split
      · split
        · decide
        · split <;> decide
      · rename_i hn
        exact (List.mem_cons.1 ht).resolve_left hn
    obtain ⟨b, hb⟩ : ∃ b, bbstat o = .ok b := by
      simp only [List.mem_cons, List.not_mem_nil, or_false] at hm
      rcases hm with hm | hm
      · exact ⟨_, bbstat_ok.2 ⟨fun ⟨a, b, c⟩ => h3 ⟨a, b, (hg a).1 c⟩, hvt, .inr ⟨hm, rfl⟩, rfl, rfl⟩⟩
      · exact ⟨_, bbstat_ok.2 ⟨fun ⟨a, b, c⟩ => h3 ⟨a, b, (hg a).1 c⟩, hvt, .inl ⟨hm, rfl⟩, rfl, rfl⟩⟩
    obtain ⟨m, k, e⟩ := b
    unfold init
    rw [if_neg (not_not.2 hi), hjit]
    dsimp only
    rw [if_neg (by simpa [and_comm] using h1), if_neg, hb]
    · exact ⟨_, rfl⟩
    · cases hc : o.covarianceFit
      · simp
      · simp [h2 hc]

/-- C100: every method of the command line gets the derivatives without which it refuses to work. -/
theorem c100_derivatives (o : Opts) (ho : cliOk o = true) : Spec.enough o.method (extra o.method) := by
  unfold cliOk at ho
  simp only [Bool.and_eq_true, decide_eq_true_eq] at ho
  have := ho.2
  simp only [List.mem_cons, List.not_mem_nil, or_false] at this
  rcases this with h | h | h | h | h | h | h <;> rw [h] <;> unfold Spec.enough <;> decide +kernel

/-- The same for every method of SciPy whose name is written in lower case. -/
theorem c100_derivatives_lower (m : String) (h : m.toLower = m) : Spec.enough m (extra m) := by
  unfold Spec.enough extra
  rw [h]
  refine ⟨fun h1 => ?_, fun h1 => ?_⟩
  · rw [if_pos h1]; exact fun e => nomatch e
  · rw [if_neg, if_pos h1]
    simp only [List.mem_cons, List.not_mem_nil, or_false] at h1 ⊢
    rcases h1 with rfl | rfl <;> decide

/-- C100 fails for programmatic callers: SciPy takes names in any case, the choice of derivatives does not; the minimiser
then raises and the fit returns the starting values. -/
theorem c100_case_violated : ¬ Spec.enough "Trust-Krylov" (extra "Trust-Krylov") := by
  unfold Spec.enough; decide +kernel

section tolerances
variable {V : Type} [Zero V]

/-- C100: the limits given on the command line reach the method unchanged; the tolerance of the gradient is zero if none is
given, and so is the one of the value for the only method that has one. -/
theorem c100_tolerances (o : Opts) (ho : cliOk o = true) (maxiter gtol ftol : Option V) :
    let d := effective o.method maxiter gtol ftol
    d.get? "maxiter" = maxiter ∧ d.get? "gtol" = some (gtol.getD 0) ∧
    d.get? "ftol" = if o.method = "L-BFGS-B" then some (ftol.getD 0) else ftol := by
  unfold cliOk at ho
  simp only [Bool.and_eq_true, decide_eq_true_eq] at ho
  have := ho.2
  simp only [List.mem_cons, List.not_mem_nil, or_false] at this
  have hk : tolKeys o.method = if o.method = "L-BFGS-B" then ["ftol", "gtol"] else ["gtol"] := by
    rcases this with h | h | h | h | h | h | h <;> rw [h] <;> decide +kernel
  dsimp only
  unfold effective
  rw [hk]
  have hd : (sciOpts maxiter gtol ftol).get? "maxiter" = maxiter ∧ (sciOpts maxiter gtol ftol).get? "gtol" = gtol ∧
      (sciOpts maxiter gtol ftol).get? "ftol" = ftol := by
    unfold sciOpts
    cases maxiter <;> cases gtol <;> cases ftol <;> simp [Dict.get?, Dict.set]
  obtain ⟨h1, h2, h3⟩ := hd
  generalize sciOpts maxiter gtol ftol = d at h1 h2 h3
  split
  · simp only [List.foldl]
    cases ftol <;> cases gtol <;> simp [Dict.has, Dict.get?_set, h1, h2, h3]
  · simp only [List.foldl]
    cases gtol <;> simp [Dict.has, Dict.get?_set, h1, h2, h3]

/-- C100 against the text of `--minimizerGtol`, which promises SciPy's default if nothing is given (`none`: the method
chooses): every method of the command line gets the value zero. -/
theorem c100_default_violated (o : Opts) (ho : cliOk o = true) (maxiter ftol : Option V) :
    (effective o.method maxiter none ftol).get? "gtol" ≠ none := by
  rw [(c100_tolerances o ho maxiter none ftol).2.1]
  exact fun h => nomatch h

end tolerances

/-! ### cases that meet the hypotheses -/

namespace Ex

/-- a command line -/
def cli (m t : String) (cov : Bool) : Opts :=
  { jitCompile := some (.text "on"), hvpMethod := some "fwdrev", noHessian := some false, forceLinear := some false
    covarianceFit := cov, statMode := m, statType := t }

end Ex

example : cliOk (Ex.cli "full" "automatic" false) = true ∧
    init (Ex.cli "full" "automatic" false) ⟨"normal", true, false⟩ =
      .ok ⟨.poisson, .full, .normMult, true, false, .revrev, false, true, false⟩ := by decide +kernel

example : init (Ex.cli "lite" "automatic" true) ⟨"log_normal", false, true⟩ =
      .ok ⟨.covariance, .lite, .normAdd, true, true, .fwdrev, false, true, false⟩ ∧
    init (Ex.cli "lite" "gamma" true) ⟨"log_normal", false, true⟩ = .error .exception ∧
    init (Ex.cli "lite" "gamma" false) ⟨"log_normal", false, true⟩ =
      .ok ⟨.poisson, .lite, .gamma, true, true, .fwdrev, false, true, false⟩ := by decide +kernel

example : effective "L-BFGS-B" (some 100) none (some (3 : Int)) = [("maxiter", 100), ("ftol", 3), ("gtol", 0)] := by
  decide +kernel

end Verif.Options
