import Verif.Props.WriterNorm
import Verif.Lemmas.Booked

/-! Helper lemma: what a normalisation uncertainty books with the normal type. -/

namespace Verif.Writer

open Verif.Logk M

set_option linter.unusedSectionVars false

variable {V : Type} [Field V] [LinearOrder V]

/-- the entry stored for a scaled dense template -/
theorem scaled_normal {cfg : Cfg V} (hd : cfg.sparse = false) {l : List V} {u : V} {lk : List V} {e : LogkE V}
    (hl : logkVals cfg.num .normal 1 (l.map fun v => .fin (v * u)) l = .ok lk) (he : bookedLogk cfg (.dense l) (.arr lk) = .ok e) :
    e = .dense (l.map fun v => maskNorm v (1 * (v * u - v))) := by
  unfold logkVals at hl
  have hf : finites (l.map fun v => .fin (v * u)) = some (l.map fun v => v * u) := by
    rw [finites_eq_some, List.map_map]; rfl
  rw [hf] at hl
  simp only [reduceCtorEq, if_false] at hl
  have hlk := zipB_same hl (by simp)
  have hlk' : lk = l.map fun v => logkVal cfg.num .normal 1 (v * u) v := by
    rw [hlk, List.zipWith_map_left, List.zipWith_self]
  subst hlk'
  simp only [bookedLogk, bind, Except.bind] at he
  split at he
  · cases he
  · rename_i m hm
    have hm' := zipB_same hm (by simp)
    have hm'' : m = l.map fun v => maskNorm v (logkVal cfg.num .normal 1 (v * u) v) := by
      rw [hm', List.zipWith_map_right, List.zipWith_self]
    subst hm''
    rw [hd] at he
    simp only [Bool.false_eq_true, if_false] at he
    cases he
    rfl

/-- a normalisation of listed processes with the normal type -/
theorem norm_normal (cfg : Cfg V) (hst : cfg.systType = .normal) (hd : cfg.sparse = false) (s s' : State V)
    (name chan : String) (procs : List String) (us : List V) (symm : Symm) (o : SystOpts)
    (hlen : procs.length = us.length) (hnd : procs.Nodup)
    (hok : addNormSystematic cfg name procs chan (us.map .num) false symm o s = (s', .ok ())) :
    ∀ p u, (p, u) ∈ procs.zip us → ∃ n, Spec.at2 s.norm chan p = some n ∧ ∀ l, n = .dense l →
      Spec.at3 s'.logkavg chan p name = some (.dense (l.map fun v => maskNorm v (1 * (v * u - v)))) := by
  unfold addNormSystematic at hok
  rw [raiseIf_bind] at hok
  split at hok
  · cases hok
  rename_i hclr
  clear hclr
  obtain ⟨s1, v, hloop, hbook⟩ := bind_ok hok
  have hv := normLoop_ok rfl hloop
  subst hv
  have hpair : List.Forall₂ (fun (x : String × Unc V) (y : String × V) => x = (y.1, .num y.2))
      (procs.zip (us.map Unc.num)) (procs.zip us) := by
    clear hloop hok hnd
    induction procs generalizing us with
    | nil => exact .nil
    | cons p ps ih =>
      cases us with
      | nil => simp at hlen
      | cons u us =>
        simp only [List.map_cons, List.zip_cons_cons]
        exact .cons rfl (ih us (by simpa using hlen))
  have key : ∀ (l : List (String × Unc V)) (l' : List (String × V)) (s s1 : State V) (w : String),
      List.Forall₂ (fun (x : String × Unc V) (y : String × V) => x = (y.1, .num y.2)) l l' →
      (l'.map (·.1)).Nodup → w = v →
      normLoop cfg v chan false symm o w l s = (s1, .ok v) →
      (∀ p u, (p, u) ∈ l' → ∃ n, Spec.at2 s.norm chan p = some n ∧ ∀ l, n = .dense l →
        Spec.at3 s1.logkavg chan p v = some (.dense (l.map fun v => maskNorm v (1 * (v * u - v))))) ∧
      (∀ c p m, ¬(c = chan ∧ p ∈ l'.map (·.1) ∧ m = v) → Spec.at3 s1.logkavg c p m = Spec.at3 s.logkavg c p m) := by
    intro l l' s s1 w hF
    induction hF generalizing s w with
    | nil =>
      intro _ hw h
      cases h
      exact ⟨by simp, fun _ _ _ _ => rfl⟩
    | @cons x y l l' hxy _ ih =>
      intro hnd hw h
      subst hw
      obtain ⟨p, u⟩ := y
      simp only at hxy
      subst hxy
      obtain ⟨s2, w2, h1, h2⟩ := bind_ok h
      have hw2 := normOne_ok h1 rfl
      subst hw2
      unfold normOne at h1
      rw [read_bind] at h1
      obtain ⟨nc, hnc, h1⟩ := lift_bind_ok h1
      obtain ⟨n, hn, h1⟩ := lift_bind_ok h1
      dsimp only at h1
      obtain ⟨lk, hlk, h1⟩ := lift_bind_ok h1
      obtain ⟨s3, _, h3, h4⟩ := bind_ok h1
      cases h4
      obtain ⟨n', e, hn', he, hnorm, _, hat⟩ := bookLogk_ok h3
      have hnn := get_at2 hnc hn
      rw [hnn] at hn'
      cases hn'
      rw [List.map_cons, List.nodup_cons] at hnd
      obtain ⟨i2, i3⟩ := ih s2 w2 hnd.2 rfl h2
      refine ⟨?_, ?_⟩
      · intro q r hqr
        rcases List.mem_cons.1 hqr with heq | hqr
        · obtain ⟨rfl, rfl⟩ := Prod.mk.inj heq
          refine ⟨n, hnn, fun l hl => ?_⟩
          subst hl
          have ht : effType cfg false = .normal := hst
          rw [ht] at hlk
          rw [i3 chan q w2 (fun h => hnd.1 h.2.1), hat, if_pos ⟨rfl, rfl, rfl⟩, scaled_normal hd hlk he]
          rfl
        · obtain ⟨n2, a1, a2⟩ := i2 q r hqr
          exact ⟨n2, by rw [← hnorm]; exact a1, a2⟩
      · intro c q m hne
        rw [i3 c q m fun h => hne ⟨h.1, by simp only [List.map_cons, List.mem_cons]; exact .inr h.2.1, h.2.2⟩, hat, if_neg]
        rintro ⟨rfl, rfl, rfl⟩
        exact hne ⟨rfl, by simp, rfl⟩
  have hmap : (procs.zip us).map (·.1) = procs := List.map_fst_zip (by omega)
  obtain ⟨k2, _⟩ := key _ _ s s1 v hpair (by rw [hmap]; exact hnd) rfl hloop
  unfold bookSystematic at hbook
  rw [raiseIf_bind] at hbook
  simp only [Bool.false_and, Bool.false_eq_true, if_false, modify_bind] at hbook
  have hs' : s'.logkavg = s1.logkavg := by
    unfold M.modify at hbook
    cases hbook
    cases hcn : o.constrained <;> cases hno : o.noi <;> simp
  rw [hs']
  exact k2

/-- shifts of a scaled template -/
theorem scaled_add {N : Num V} {l lk : List V} {u : V} (h : logkVals N .normal 1 (l.map fun v => .fin (v * u)) l = .ok lk) :
    lk.length = l.length ∧ ∀ (i : Nat) x, l[i]? = some x → lk[i]? = some ((u - 1) * x) := by
  unfold logkVals at h
  have hf : finites (l.map fun v => .fin (v * u)) = some (l.map fun v => v * u) := by
    rw [finites_eq_some, List.map_map]; rfl
  rw [hf] at h
  simp only [reduceCtorEq, if_false] at h
  have hlk := zipB_same h (by simp)
  rw [List.zipWith_map_left, List.zipWith_self] at hlk
  subst hlk
  refine ⟨by simp, fun i x hx => ?_⟩
  rw [List.getElem?_map, hx, Option.map_some]
  show some (1 * (x * u - x)) = _
  congr 1
  ring

/-- an asymmetric normalisation of one process with the normal type -/
theorem pair_normal (cfg : Cfg V) (hst : cfg.systType = .normal) (hd : cfg.sparse = false) (s s' : State V)
    (name chan proc : String) (u w : V) (symm : Symm) (o : SystOpts) (hs : symm = .average ∨ symm = .conservative)
    (l : List V) (hn : Spec.at2 s.norm chan proc = some (.dense l))
    (hok : addNormSystematic cfg name [proc] chan [.list [u, w]] false symm o s = (s', .ok ())) :
    s'.norm = s.norm ∧ s'.logkhalf = s.logkhalf ∧ (name ∈ s'.standard ∨ name ∈ s'.noConstraint) ∧
    (∀ c p m, ¬(c = chan ∧ p = proc ∧ m = name) → Spec.at3 s'.logkavg c p m = Spec.at3 s.logkavg c p m) ∧
    ∃ B, Spec.at3 s'.logkavg chan proc name = some (.dense B) ∧ ∀ (i : Nat) x, l[i]? = some x → B[i]? =
      some (maskNorm x (computeAsym cfg.num symm ((u - 1) * x) (-((w - 1) * x))).avg) := by
  unfold addNormSystematic at hok
  rw [raiseIf_bind] at hok
  split at hok
  · cases hok
  rename_i hclr
  clear hclr
  obtain ⟨s1, v, hloop, hbook⟩ := bind_ok hok
  have hloop' : normLoop cfg name chan false symm o name [(proc, .list [u, w])] s = (s1, .ok v) := hloop
  unfold normLoop at hloop'
  obtain ⟨s2, v2, h1, h2⟩ := bind_ok hloop'
  cases h2
  unfold normOne at h1
  rw [read_bind] at h1
  obtain ⟨nc, hnc, h1⟩ := lift_bind_ok h1
  obtain ⟨n, hn', h1⟩ := lift_bind_ok h1
  have e1 := get_at2 hnc hn'
  rw [hn] at e1
  cases e1
  dsimp only at h1
  obtain ⟨up, hup, h1⟩ := lift_bind_ok h1
  obtain ⟨dn, hdn, h1⟩ := lift_bind_ok h1
  obtain ⟨s3, r, h4, h1⟩ := bind_ok h1
  obtain ⟨s4, _, h5, h6⟩ := bind_ok h1
  cases h6
  have ht : effType cfg false = .normal := hst
  rw [ht] at hup hdn
  obtain ⟨l1, g1⟩ := scaled_add (l := l) hup
  obtain ⟨l2, g2⟩ := scaled_add (l := l) hdn
  have hsame : s3 = s ∧ r.2 = name ∧ zipB (fun u d => (computeAsym cfg.num symm u d).avg) up (dn.map fun v => -v) = .ok r.1 := by
    unfold computeAsymSyst at h4
    obtain ⟨avg, ha, h4⟩ := lift_bind_ok h4
    rcases hs with rfl | rfl <;> (cases h4; exact ⟨rfl, rfl, ha⟩)
  obtain ⟨rfl, hname, havg⟩ := hsame
  obtain ⟨n', e, hn2, he, k1, k2, k3⟩ := bookLogk_ok h5
  rw [hn] at hn2
  cases hn2
  have hlen : up.length = (dn.map fun v => -v).length := by rw [List.length_map, l1, l2]
  obtain ⟨m, rfl, hm⟩ := booked_dense hd he (by rw [zipB_length havg, if_pos hlen, l1])
  rw [hname] at hbook k3
  have hk := (keepsTab_bookSystematic (V := V) name false o).run s1
  rw [hbook] at hk
  simp only [tab, Prod.mk.injEq] at hk
  have hb : name ∈ s'.standard ∨ name ∈ s'.noConstraint := by
    unfold bookSystematic at hbook
    rw [raiseIf_bind] at hbook
    simp only [Bool.false_and, Bool.false_eq_true, if_false, modify_bind] at hbook
    unfold M.modify at hbook
    cases hbook
    cases hcn : o.constrained <;> cases hno : o.noi <;> simp [mem_setAdd]
  refine ⟨hk.1.trans k1, hk.2.2.trans k2, hb, fun c p q hne => by rw [hk.2.1, k3, if_neg hne], m, by rw [hk.2.1, k3, if_pos ⟨rfl, rfl, rfl⟩], fun i x hx => ?_⟩
  have hr : r.1[i]? = some ((computeAsym cfg.num symm ((u - 1) * x) (-((w - 1) * x))).avg) :=
    zipB_zip havg hlen (g1 i x hx) (by rw [List.getElem?_map, g2 i x hx]; rfl)
  rw [hm i x _ hx hr]

/-- the hypotheses of `pair_normal` are met -/
example :
    let cfg : Cfg ℚ := { Ex.cfg with systType := .normal }
    let s : State ℚ := run cfg [.channel [Ex.ax 2] (some "a") true false, .process (Ex.h [2, 0]) "p" "a" true none]
    let r := addNormSystematic cfg "norm" ["p"] "a" [.list [3, 1 / 2]] false .average {} s
    cfg.systType = .normal ∧ cfg.sparse = false ∧ Spec.at2 s.norm "a" "p" = some (.dense [2, 0]) ∧ r.2 = .ok () ∧
      Spec.at3 r.1.logkavg "a" "p" "norm" = some (.dense [5 / 2, 0]) := by
  decide +kernel

end Verif.Writer
