import Verif.Props.WriterBookings
import Verif.Lemmas.Tables
import Mathlib.Algebra.Order.Ring.Unbundled.Basic
import Mathlib.Tactic.FieldSimp
import Mathlib.Tactic.Positivity

/-!
C15 (normalisation systematics).
-/

namespace Verif.Writer

open Verif.Logk M

set_option linter.unusedSectionVars false

variable {V : Type} [Field V] [LinearOrder V]

/-! ### Specification -/

/-- the variation a stored entry assigns to bin `b`; a bin without entry is not varied -/
def Spec.var (e : LogkE V) (b : Nat) : V :=
  match e with
  | .dense l => l.getD b 0
  | .sparse l => ((l.find? fun e => e.1 == b).map (·.2)).getD 0

/-- no bin is listed twice in a sparse template -/
def Spec.canonical (n : Norm V) : Prop :=
  match n with
  | .dense _ => True
  | .csr _ l => (l.map (·.1)).Nodup

/-! ### Lemmas -/

theorem zipB_same {α β γ : Type} {f : α → β → γ} {a : List α} {b : List β} {r : List γ} (h : zipB f a b = .ok r)
    (hl : a.length = b.length) : r = List.zipWith f a b := by
  unfold zipB at h
  rw [if_pos hl] at h
  cases h; rfl

theorem logkVal_scaled [IsStrictOrderedRing V] (N : Num V) {v u : V} (hv : v ≠ 0) (hu : 0 < u) :
    logkVal N .logNormal 1 (v * u) v = N.log u := by
  have h : 0 < v * (v * u) := by
    have : 0 < v * v := mul_self_pos.2 hv
    have h2 := mul_pos this hu
    rwa [mul_assoc] at h2
  unfold logkVal
  rw [if_pos h]
  have : v * u / v = u := by field_simp
  rw [this, one_mul]

theorem find_zip_vals {α : Type} (f : V → α) : ∀ (l : List (Nat × V)) (b : Nat),
    (((l.map (·.1)).zip (l.map fun e => f e.2)).find? fun e => e.1 == b) = (l.find? fun e => e.1 == b).map fun e => (e.1, f e.2)
  | [], _ => rfl
  | x :: l, b => by
    have := find_zip_vals f l b
    simp only [List.map_cons, List.zip_cons_cons, List.find?_cons]
    cases h : x.1 == b with
    | true => rfl
    | false => exact this

/-- the entry stored for a scaled template -/
theorem scaled_var [IsStrictOrderedRing V] {cfg : Cfg V} {n : Norm V} {u : V} {lk : List V} {e : LogkE V} (hu : 0 < u)
    (hl : logkVals cfg.num .logNormal 1 (n.vals.map fun v => .fin (v * u)) n.vals = .ok lk)
    (he : bookedLogk cfg n (wrap n.idx lk) = .ok e) (hc : Spec.canonical n) (b : Nat) (hb : n.at b ≠ 0) :
    Spec.var e b = cfg.num.log u := by
  unfold logkVals at hl
  have hf : finites (n.vals.map fun v => .fin (v * u)) = some (n.vals.map fun v => v * u) := by
    rw [finites_eq_some, List.map_map]; rfl
  rw [hf] at hl
  simp only [reduceCtorEq, if_false] at hl
  have hlk := zipB_same hl (by simp)
  have hlk' : lk = n.vals.map fun v => logkVal cfg.num .logNormal 1 (v * u) v := by
    rw [hlk, List.zipWith_map_left, List.zipWith_self]
  subst hlk'
  cases n with
  | csr sz l =>
    simp only [Norm.idx, Norm.vals, wrap, bookedLogk, Except.ok.injEq] at he
    subst he
    unfold Spec.var
    simp only
    have hnd : ((((l.map (·.1)).zip (List.map (fun v => logkVal cfg.num .logNormal 1 (v * u) v) (l.map (·.2)))).map (·.1))).Nodup := by
      rw [List.map_fst_zip (by simp)]; exact hc
    rw [find?_filter_of_nodup hnd, List.map_map,
      show ((fun v => logkVal cfg.num .logNormal 1 (v * u) v) ∘ fun x : Nat × V => x.2) =
        fun e : Nat × V => logkVal cfg.num .logNormal 1 (e.2 * u) e.2 from rfl,
      find_zip_vals (fun v => logkVal cfg.num .logNormal 1 (v * u) v)]
    simp only [Norm.at] at hb
    cases hx : l.find? (fun e => e.1 == b) with
    | none => rw [hx] at hb; simp at hb
    | some x =>
      rw [hx] at hb
      simp only [Option.map_some, Option.getD_some] at hb ⊢
      have hv := logkVal_scaled cfg.num hb hu
      simp only [Option.filter, hv]
      by_cases h0 : cfg.num.log u = 0 <;> simp [h0]
  | dense l =>
    simp only [Norm.idx, Norm.vals, wrap, bookedLogk, bind, Except.bind] at he
    split at he
    · cases he
    · rename_i m hm
      have hm' := zipB_same hm (by simp)
      have hm'' : m = l.map fun v => maskNorm v (logkVal cfg.num .logNormal 1 (v * u) v) := by
        rw [hm', List.zipWith_map_right, List.zipWith_self]
      subst hm''
      simp only [Norm.at] at hb
      have hval : (l.map fun v => maskNorm v (logkVal cfg.num .logNormal 1 (v * u) v))[b]? = some (cfg.num.log u) := by
        rw [List.getElem?_map]
        rw [List.getD_eq_getElem?_getD] at hb
        cases hv : l[b]? with
        | none => rw [hv] at hb; simp at hb
        | some v =>
          rw [hv] at hb
          simp only [Option.getD_some] at hb
          simp only [Option.map_some, maskNorm, if_neg hb, logkVal_scaled cfg.num hb hu]
      cases hsp : cfg.sparse with
      | false =>
        rw [hsp] at he
        simp only [Bool.false_eq_true, if_true, if_false] at he
        cases he
        unfold Spec.var
        simp only [List.getD_eq_getElem?_getD]
        rw [hval]; rfl
      | true =>
        rw [hsp] at he
        simp only [Bool.false_eq_true, if_true, if_false] at he
        cases he
        unfold Spec.var nonzeros
        generalize (l.map fun v => maskNorm v (logkVal cfg.num .logNormal 1 (v * u) v)) = m at hval
        simp only
        have hnd : ((m.zipIdx.map fun e => (e.2, e.1)).map (·.1)).Nodup := by
          rw [List.map_map, show ((fun x : Nat × V => x.1) ∘ fun e : V × Nat => (e.2, e.1)) = Prod.snd from rfl,
            List.zipIdx_map_snd]
          exact List.nodup_range'
        have hfm : (m.zipIdx.filter fun e => e.1 ≠ 0).map (fun e => (e.2, e.1)) =
            (m.zipIdx.map fun e => (e.2, e.1)).filter fun e => e.2 ≠ 0 := by
          rw [List.filter_map]; rfl
        rw [hfm, find?_filter_of_nodup hnd]
        have hfind : (m.zipIdx.map fun e => (e.2, e.1)).find? (fun e => e.1 == b) = some (b, cfg.num.log u) := by
          rw [List.find?_map]
          have : (m.zipIdx.find? ((fun e => e.1 == b) ∘ fun e => (e.2, e.1))) = some (cfg.num.log u, b) := by
            have hmem : (cfg.num.log u, b) ∈ m.zipIdx := by
              rw [List.mk_mem_zipIdx_iff_getElem?]; exact hval
            cases hf : m.zipIdx.find? ((fun e => e.1 == b) ∘ fun e => (e.2, e.1)) with
            | none =>
              rw [List.find?_eq_none] at hf
              have := hf _ hmem
              simp at this
            | some x =>
              have h1 := List.find?_some hf
              have h2 := List.mem_of_find?_eq_some hf
              simp only [Function.comp, beq_iff_eq] at h1
              obtain ⟨w, i⟩ := x
              simp only at h1
              subst h1
              rw [List.mk_mem_zipIdx_iff_getElem?, hval] at h2
              cases h2; rfl
          rw [this]; rfl
        rw [hfind]
        simp only [Option.filter]
        by_cases h0 : cfg.num.log u = 0 <;> simp [h0]

/-! ### C15 -/

/-- C15 (with one uncertainty per listed process; this includes the scalar uncertainty with a single process): a
successful call books the variation `log(u)` for every listed process, in all bins where its template is not zero, makes
the nuisance a parameter of the model, and touches no other variation. -/
theorem c15_listed_partial [IsStrictOrderedRing V] (cfg : Cfg V) (hst : cfg.systType = .logNormal) (s s' : State V)
    (name chan : String) (procs : List String) (us : List V) (symm : Symm) (o : SystOpts)
    (hlen : procs.length = us.length) (hnd : procs.Nodup) (hu : ∀ u ∈ us, 0 < u)
    (hok : addNormSystematic cfg name procs chan (us.map .num) false symm o s = (s', .ok ())) :
    (∀ p u, (p, u) ∈ procs.zip us → ∃ n e, Spec.at2 s.norm chan p = some n ∧
      Spec.at3 s'.logkavg chan p name = some e ∧
      (Spec.canonical n → ∀ b, n.at b ≠ 0 → Spec.var e b = cfg.num.log u)) ∧
    (name ∈ s'.standard ∨ name ∈ s'.noConstraint) ∧
    (∀ c p m, ¬(c = chan ∧ p ∈ procs ∧ m = name) → Spec.at3 s'.logkavg c p m = Spec.at3 s.logkavg c p m) := by
  unfold addNormSystematic at hok
  rw [raiseIf_bind] at hok
  split at hok
  · cases hok
  rename_i hclr
  clear hclr
  obtain ⟨s1, v, hloop, hbook⟩ := bind_ok hok
  have hv := normLoop_ok rfl hloop
  subst hv
  have hpair : List.Forall₂ (fun (x : String × Unc V) (y : String × V) => x = (y.1, .num y.2))
      (procs.zip (us.map Unc.num)) (procs.zip us) := by
    clear hloop hok hnd hu
    induction procs generalizing us with
    | nil => exact .nil
    | cons p ps ih =>
      cases us with
      | nil => simp at hlen
      | cons u us =>
        simp only [List.map_cons, List.zip_cons_cons]
        exact .cons rfl (ih us (by simpa using hlen))
  -- the loop
  have key : ∀ (l : List (String × Unc V)) (l' : List (String × V)) (s s1 : State V) (w : String),
      List.Forall₂ (fun (x : String × Unc V) (y : String × V) => x = (y.1, .num y.2)) l l' →
      (l'.map (·.1)).Nodup → (∀ x ∈ l', 0 < x.2) → w = v →
      normLoop cfg v chan false symm o w l s = (s1, .ok v) →
      s1.norm = s.norm ∧
      (∀ p u, (p, u) ∈ l' → ∃ n e, Spec.at2 s.norm chan p = some n ∧ Spec.at3 s1.logkavg chan p v = some e ∧
        (Spec.canonical n → ∀ b, n.at b ≠ 0 → Spec.var e b = cfg.num.log u)) ∧
      (∀ c p m, ¬(c = chan ∧ p ∈ l'.map (·.1) ∧ m = v) → Spec.at3 s1.logkavg c p m = Spec.at3 s.logkavg c p m) := by
    intro l l' s s1 w hF
    induction hF generalizing s w with
    | nil =>
      intro _ _ hw h
      cases h
      exact ⟨rfl, by simp, fun _ _ _ _ => rfl⟩
    | @cons x y l l' hxy _ ih =>
      intro hnd hpos hw h
      subst hw
      obtain ⟨p, u⟩ := y
      simp only at hxy
      subst hxy
      obtain ⟨s2, w2, h1, h2⟩ := bind_ok h
      have hw2 := normOne_ok h1 rfl
      subst hw2
      unfold normOne at h1
      rw [read_bind] at h1
      obtain ⟨nc, hnc, h1⟩ := lift_bind_ok h1
      obtain ⟨n, hn, h1⟩ := lift_bind_ok h1
      dsimp only at h1
      obtain ⟨lk, hlk, h1⟩ := lift_bind_ok h1
      obtain ⟨s3, _, h3, h4⟩ := bind_ok h1
      cases h4
      obtain ⟨n', e, hn', he, hnorm, _, hat⟩ := bookLogk_ok h3
      have hnn : Spec.at2 s.norm chan p = some n := by
        unfold Dict.get at hnc hn
        unfold Spec.at2
        split at hnc
        · rename_i v hv; cases hnc; rw [hv]
          split at hn
          · rename_i w hw; cases hn; exact hw
          · cases hn
        · cases hnc
      rw [hnn] at hn'
      cases hn'
      rw [List.map_cons, List.nodup_cons] at hnd
      obtain ⟨i1, i2, i3⟩ := ih s2 w2 hnd.2 (fun x hx => hpos x (by simp [hx])) rfl h2
      refine ⟨i1.trans hnorm, ?_, ?_⟩
      · intro q r hqr
        rcases List.mem_cons.1 hqr with heq | hqr
        · obtain ⟨rfl, rfl⟩ := Prod.mk.inj heq
          refine ⟨n, e, hnn, ?_, fun hc b hb => ?_⟩
          · rw [i3 chan q w2 (fun h => hnd.1 h.2.1), hat, if_pos ⟨rfl, rfl, rfl⟩]
          · have ht : effType cfg false = .logNormal := hst
            rw [ht] at hlk
            exact scaled_var (hpos (q, r) (by simp)) hlk he hc b hb
        · obtain ⟨n2, e2, a1, a2, a3⟩ := i2 q r hqr
          exact ⟨n2, e2, by rw [← hnorm]; exact a1, a2, a3⟩
      · intro c q m hne
        rw [i3 c q m fun h => hne ⟨h.1, by simp only [List.map_cons, List.mem_cons]; exact .inr h.2.1, h.2.2⟩, hat, if_neg]
        rintro ⟨rfl, rfl, rfl⟩
        exact hne ⟨rfl, by simp, rfl⟩
  have hmap : (procs.zip us).map (·.1) = procs := List.map_fst_zip (by omega)
  obtain ⟨k1, k2, k3⟩ := key _ _ s s1 v hpair (by rw [hmap]; exact hnd)
    (fun x hx => hu x.2 (List.of_mem_zip (a := x.1) (b := x.2) hx).2) rfl hloop
  unfold bookSystematic at hbook
  rw [raiseIf_bind] at hbook
  simp only [Bool.false_and, Bool.false_eq_true, if_false, modify_bind] at hbook
  have hs' : s'.logkavg = s1.logkavg ∧ (v ∈ s'.standard ∨ v ∈ s'.noConstraint) := by
    unfold M.modify at hbook
    cases hbook
    cases hcn : o.constrained <;> cases hno : o.noi <;> simp [mem_setAdd]
  rw [hs'.1]
  rw [hmap] at k3
  exact ⟨k2, hs'.2, k3⟩

/-- The code violates C15 for a scalar uncertainty and more than one process: the loop `zip(process, uncertainty)` stops
after the first process, the others are not varied, and the call succeeds. -/
theorem c15_scalar_violated : ∃ (cfg : Cfg ℚ) (s s' : State ℚ) (u : ℚ) (n : Norm ℚ), cfg.systType = .logNormal ∧
    addNormSystematic cfg "norm" ["p", "q"] "a" [.num u] false .average {} s = (s', .ok ()) ∧
    Spec.at2 s.norm "a" "q" = some n ∧ n.at 0 ≠ 0 ∧ cfg.num.log u ≠ 0 ∧
    (Spec.at3 s'.logkavg "a" "p" "norm").isSome = true ∧ Spec.at3 s'.logkavg "a" "q" "norm" = none := by
  let s : State ℚ := run Ex.cfg [.channel [Ex.ax 1] (some "a") true false, .process (Ex.h [1]) "p" "a" true none,
    .process (Ex.h [1]) "q" "a" true none]
  refine ⟨Ex.cfg, s, (addNormSystematic Ex.cfg "norm" ["p", "q"] "a" [.num 2] false .average {} s).1, 2, .dense [1], ?_⟩
  refine ⟨by decide +kernel, Prod.ext rfl ?_, ?_, ?_, ?_, ?_, ?_⟩ <;> decide +kernel

/-- the hypotheses of `c15_listed_partial` are met, with two processes -/
example :
    let s : State ℚ := run Ex.cfg [.channel [Ex.ax 2] (some "a") true false, .process (Ex.h [1, 0]) "p" "a" true none,
      .process (Ex.h [3, 4]) "q" "a" true none]
    let r := addNormSystematic Ex.cfg "norm" ["p", "q"] "a" ([2, 3].map .num) false .average {} s
    Ex.cfg.systType = .logNormal ∧ r.2 = .ok () ∧
      Spec.at3 r.1.logkavg "a" "p" "norm" = some (.dense [Ex.cfg.num.log 2, 0]) ∧
      Spec.at3 r.1.logkavg "a" "q" "norm" = some (.dense [Ex.cfg.num.log 3, Ex.cfg.num.log 3]) := by
  decide +kernel

end Verif.Writer
