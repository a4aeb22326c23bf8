import Verif.Props.WriterNorm
import Verif.Lemmas.Booked

/-!
C15 for asymmetric normalisation uncertainties.
-/

namespace Verif.Writer

open Verif.Logk M

variable {V : Type} [Field V] [LinearOrder V]

/-- logarithms of a scaled template -/
theorem scaled_logk [IsStrictOrderedRing V] {N : Num V} {l lk : List V} {u : V} (hu : 0 < u)
    (h : logkVals N .logNormal 1 (l.map fun v => .fin (v * u)) l = .ok lk) :
    lk.length = l.length ∧ ∀ (i : Nat) x, l[i]? = some x → x ≠ 0 → lk[i]? = some (N.log u) := by
  unfold logkVals at h
  have hf : finites (l.map fun v => .fin (v * u)) = some (l.map fun v => v * u) := by
    rw [finites_eq_some, List.map_map]; rfl
  rw [hf] at h
  simp only [reduceCtorEq, if_false] at h
  have hlk := zipB_same h (by simp)
  rw [List.zipWith_map_left, List.zipWith_self] at hlk
  subst hlk
  refine ⟨by simp, fun i x hx h0 => ?_⟩
  rw [List.getElem?_map, hx, Option.map_some, logkVal_scaled N h0 hu]

/-- C15 for an asymmetric uncertainty (up, down) of one process: half the difference of the logarithms is stored, or the larger
of the two, in all bins where the template is not zero (dense mode). -/
theorem c15_asymmetric [IsStrictOrderedRing V] (cfg : Cfg V) (hst : cfg.systType = .logNormal) (hd : cfg.sparse = false) (s s' : State V)
    (name chan proc : String) (u w : V) (symm : Symm) (o : SystOpts) (hs : symm = .average ∨ symm = .conservative) (hu : 0 < u) (hw : 0 < w)
    (l : List V) (hn : Spec.at2 s.norm chan proc = some (.dense l))
    (hok : addNormSystematic cfg name [proc] chan [.list [u, w]] false symm o s = (s', .ok ())) :
    s'.norm = s.norm ∧ s'.logkhalf = s.logkhalf ∧ (name ∈ s'.standard ∨ name ∈ s'.noConstraint) ∧
    (∀ c p m, ¬(c = chan ∧ p = proc ∧ m = name) → Spec.at3 s'.logkavg c p m = Spec.at3 s.logkavg c p m) ∧
    ∃ B, Spec.at3 s'.logkavg chan proc name = some (.dense B) ∧ ∀ (i : Nat) x, l[i]? = some x → x ≠ 0 → B[i]? =
      some (if symm = .average then 1 / 2 * (cfg.num.log u - cfg.num.log w) else
        if |cfg.num.log w| < |cfg.num.log u| then cfg.num.log u else -cfg.num.log w) := by
  unfold addNormSystematic at hok
  rw [raiseIf_bind] at hok
  split at hok
  · cases hok
  rename_i hclr
  clear hclr
  obtain ⟨s1, v, hloop, hbook⟩ := bind_ok hok
  have hloop' : normLoop cfg name chan false symm o name [(proc, .list [u, w])] s = (s1, .ok v) := hloop
  unfold normLoop at hloop'
  obtain ⟨s2, v2, h1, h2⟩ := bind_ok hloop'
  cases h2
  unfold normOne at h1
  rw [read_bind] at h1
  obtain ⟨nc, hnc, h1⟩ := lift_bind_ok h1
  obtain ⟨n, hn', h1⟩ := lift_bind_ok h1
  have e1 := get_at2 hnc hn'
  rw [hn] at e1
  cases e1
  dsimp only at h1
  obtain ⟨up, hup, h1⟩ := lift_bind_ok h1
  obtain ⟨dn, hdn, h1⟩ := lift_bind_ok h1
  obtain ⟨s3, r, h4, h1⟩ := bind_ok h1
  obtain ⟨s4, _, h5, h6⟩ := bind_ok h1
  cases h6
  have ht : effType cfg false = .logNormal := hst
  rw [ht] at hup hdn
  obtain ⟨l1, g1⟩ := scaled_logk (l := l) hu hup
  obtain ⟨l2, g2⟩ := scaled_logk (l := l) hw hdn
  have hsame : s3 = s ∧ r.2 = name ∧ zipB (fun u d => (computeAsym cfg.num symm u d).avg) up (dn.map fun v => -v) = .ok r.1 := by
    unfold computeAsymSyst at h4
    obtain ⟨avg, ha, h4⟩ := lift_bind_ok h4
    rcases hs with rfl | rfl <;> (cases h4; exact ⟨rfl, rfl, ha⟩)
  obtain ⟨rfl, hname, havg⟩ := hsame
  obtain ⟨n', e, hn2, he, k1, k2, k3⟩ := bookLogk_ok h5
  rw [hn] at hn2
  cases hn2
  have hlen : up.length = (dn.map fun v => -v).length := by rw [List.length_map, l1, l2]
  obtain ⟨m, rfl, hm⟩ := booked_dense hd he (by rw [zipB_length havg, if_pos hlen, l1])
  rw [hname] at hbook k3
  have hk := (keepsTab_bookSystematic (V := V) name false o).run s1
  rw [hbook] at hk
  simp only [tab, Prod.mk.injEq] at hk
  have hb : name ∈ s'.standard ∨ name ∈ s'.noConstraint := by
    unfold bookSystematic at hbook
    rw [raiseIf_bind] at hbook
    simp only [Bool.false_and, Bool.false_eq_true, if_false, modify_bind] at hbook
    unfold M.modify at hbook
    cases hbook
    cases hcn : o.constrained <;> cases hno : o.noi <;> simp [mem_setAdd]
  refine ⟨hk.1.trans k1, hk.2.2.trans k2, hb, fun c p q hne => by rw [hk.2.1, k3, if_neg hne], m, by rw [hk.2.1, k3, if_pos ⟨rfl, rfl, rfl⟩], fun i x hx h0 => ?_⟩
  have hr : r.1[i]? = some ((computeAsym cfg.num symm (cfg.num.log u) (-cfg.num.log w)).avg) :=
    zipB_zip havg hlen (g1 i x hx h0) (by rw [List.getElem?_map, g2 i x hx h0]; rfl)
  rw [hm i x _ hx hr]
  unfold maskNorm
  rw [if_neg h0]
  rcases hs with rfl | rfl
  · simp only [computeAsym, if_true]; congr 1; ring
  · simp only [computeAsym, reduceCtorEq, if_false, abs_neg]

/-- the hypotheses of `c15_asymmetric` are met -/
example :
    let s : State ℚ := run Ex.cfg [.channel [Ex.ax 2] (some "a") true false, .process (Ex.h [1, 0]) "p" "a" true none]
    let r := addNormSystematic Ex.cfg "norm" ["p"] "a" [.list [3, 2]] false .average {} s
    Ex.cfg.systType = .logNormal ∧ Ex.cfg.sparse = false ∧ Spec.at2 s.norm "a" "p" = some (.dense [1, 0]) ∧ r.2 = .ok () ∧
      Spec.at3 r.1.logkavg "a" "p" "norm" = some (.dense [1 / 2 * (Ex.cfg.num.log 3 - Ex.cfg.num.log 2), 0]) := by
  decide +kernel

end Verif.Writer
