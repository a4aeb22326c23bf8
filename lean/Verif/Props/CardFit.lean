import Verif.Lemmas.CardFile
import Verif.Props.FileFit

/-!
C105 The likelihood of a converted datacard is the one the card and its files describe.
-/

namespace Verif.CardFile

open Verif.Writer Verif.Datacard FileFit.Spec

noncomputable section

/-! ### specification: the analysis of a datacard -/

namespace Spec

/-- the card has a column for the process in the bin -/
def Column (c : Card ℝ) (b p : String) : Prop := ∃ d, Dict.get? c.binMap b = some d ∧ ∃ v, Dict.get? d p = some v

/-- the row asks for a variation of the process in the bin; `-` and `0` mean none -/
def Entry (s : Syst) (b p e : String) : Prop := ((b, p), e) ∈ s.effects ∧ e ≠ "-" ∧ e ≠ "0"

/-- the types of rows with histograms -/
def shapeTypes : List String := ["shape", "shapeN", "shape?", "shapeU"]

/-- the nuisances of a row: its name, or two of them if pairs of histograms are split -/
def names (symm : Symm) (s : Syst) : List String :=
  if s.type ∈ shapeTypes ∧ (symm = .linear ∨ symm = .quadratic) then [s.name ++ "SymAvg", s.name ++ "SymDiff"] else [s.name]

/-- (nuisance, bin, process) of the entries of a row -/
def rowCells (symm : Symm) (s : Syst) : List (String × String × String) :=
  (s.effects.filter fun e => ¬ (e.2 = "-" ∨ e.2 = "0")).flatMap fun e => (names symm s).map fun m => (m, e.1.1, e.1.2)

/-- (nuisance, bin, process) of a rate parameter `name bin process value`; `*` stands for all bins -/
def rateCells (c : Card ℝ) : List String → List (String × String × String)
  | name :: b :: p :: _ => (if b = "*" then c.bins else [b]).map fun b => (name, b, p)
  | _ => []

/-- number of bins -/
def nbins (h : Hist ℝ) : Nat := (h.axes.map Axis.size).prod

/-- What a parsed card and the histograms of its files describe.  `G p b y h`: the histogram `h` is given for process `p` (`data_obs` for the
observation), bin `b` and variation `y`, if any. -/
structure Describes (roots : String → Dict String (Node (Hist ℝ))) (mass : String) (flt : String → Res ℝ) (symm : Symm) (c : Card ℝ)
    (A : Analysis) : Prop where
  named : Datacard.Spec.Named c
  binsOnce : c.bins.Nodup
  columns : ∀ b ∈ c.bins, ∀ p, Column c b p → p ∈ c.processes ∧ p ≠ "data_obs" ∧ ∃ i, Dict.get? c.indices p = some i
  types : ∀ s ∈ c.systematics, s.type = "lnN" ∨ s.type ∈ shapeTypes
  entries : ∀ s ∈ c.systematics, ∀ b p e, Entry s b p e → b ∈ c.bins ∧ p ∈ c.processes
  rateOne : ∀ row ∈ c.rateParams, row[2]? ≠ some "*"
  once : (c.rateParams.flatMap (rateCells c) ++ c.systematics.flatMap (rowCells symm)).Nodup
  sizes : ∀ b ∈ c.bins, ∀ h0, Datacard.Spec.Given roots mass c "data_obs" b none h0 → ∀ p y h, Datacard.Spec.Given roots mass c p b y h →
    (h.vals false).length = nbins h0 ∧ (h.vars false).length = nbins h0
  chansOnce : (A.chans.map Prod.fst).Nodup
  chans : ∀ b n, (b, n) ∈ A.chans ↔ b ∈ c.bins ∧ ∃ h, Datacard.Spec.Given roots mass c "data_obs" b none h ∧ n = nbins h
  obs : ∀ b ∈ c.bins, ∃ h, Datacard.Spec.Given roots mass c "data_obs" b none h ∧
    ∀ (i : Nat) x, (h.vals false)[i]? = some x → x = .fin (A.obs b i)
  signalsOnce : A.signals.Nodup
  signals : ∀ p, p ∈ A.signals ↔ (∃ b ∈ c.bins, Column c b p) ∧ ∃ i, Dict.get? c.indices p = some i ∧ i ≤ 0
  backgroundsOnce : A.backgrounds.Nodup
  backgrounds : ∀ p, p ∈ A.backgrounds ↔ (∃ b ∈ c.bins, Column c b p) ∧ ∃ i, Dict.get? c.indices p = some i ∧ 0 < i
  nominal : ∀ b ∈ c.bins, ∀ p, Column c b p → ∃ h, Datacard.Spec.Given roots mass c p b none h ∧
    ∀ (i : Nat) x, (h.vals false)[i]? = some x → ∃ v, x = .fin v ∧ A.nominal b p i = max v 0
  absent : ∀ b ∈ c.bins, ∀ p, ¬ Column c b p → ∀ i, A.nominal b p i = 0
  nuisancesOnce : A.nuisances.Nodup
  nuisances : ∀ m, m ∈ A.nuisances ↔ (∃ b p, ∃ row ∈ c.rateParams, (m, b, p) ∈ rateCells c row) ∨
    ∃ s ∈ c.systematics, m ∈ names symm s ∧ ∃ b p e, Entry s b p e
  free : ∀ row ∈ c.rateParams, ∀ m b p, (m, b, p) ∈ rateCells c row → A.constrained m = false
  constrained : ∀ s ∈ c.systematics, ∀ b p e, Entry s b p e → ∀ m ∈ names symm s, A.constrained m = !decide (s.type = "shapeU")
  silent : ∀ b ∈ c.bins, ∀ p m, (∀ row ∈ c.rateParams, (m, b, p) ∉ rateCells c row) →
    (∀ s ∈ c.systematics, m ∈ names symm s → ∀ e, ¬ Entry s b p e) → ∀ i θ, A.response b p m i θ = 0
  rate : ∀ row ∈ c.rateParams, ∀ m b p, (m, b, p) ∈ rateCells c row → ∀ i θ, A.response b p m i θ = Real.log 1.01 * θ
  norm : ∀ s ∈ c.systematics, s.type = "lnN" → ∀ b p e, Entry s b p e →
    ('/' ∉ e.toList ∧ ∃ κ, flt e = .ok κ ∧ 0 < κ ∧ ∀ i θ, A.response b p s.name i θ = Real.log κ * θ) ∨
    ∃ down up : String, e.toList = down.toList ++ '/' :: up.toList ∧ '/' ∉ down.toList ∧ '/' ∉ up.toList ∧ ∃ d u, flt down = .ok d ∧
      flt up = .ok u ∧ 0 < d ∧ 0 < u ∧ ∀ i θ, A.response b p s.name i θ = (Real.log u - Real.log d) / 2 * θ
  shape : ∀ s ∈ c.systematics, s.type ∈ shapeTypes → ∀ b p e, Entry s b p e → ∃ k hu hd, flt e = .ok k ∧
    Datacard.Spec.Given roots mass c p b (some (s.name ++ "Up")) hu ∧ Datacard.Spec.Given roots mass c p b (some (s.name ++ "Down")) hd ∧
    ∀ n, (b, n) ∈ A.chans → ∀ i < n, ∃ u d, (hu.vals false)[i]? = some (.fin u) ∧ (hd.vals false)[i]? = some (.fin d) ∧
      ∀ m ∈ names symm s, ∀ θ, A.response b p m i θ =
        paired symm (m == s.name ++ "SymDiff") (logRatio k (A.nominal b p i) u) (logRatio k (A.nominal b p i) d) θ

end Spec

/-! ### the calls -/

section
variable {roots : String → Dict String (Node (Hist ℝ))} {mass : String} {flt : String → Res ℝ} {symm : Symm} {c : Card ℝ} {A : Analysis}

theorem nominal_given {count : ℝ → Hist ℝ} {zero one : ℝ} (hc : Datacard.Spec.Named c) {p b : String}
    (hp : p = "data_obs" ∨ p ∈ c.processes) (hb : b ∈ c.bins) {h : Hist ℝ} (hg : Datacard.Spec.Given roots mass c p b none h) :
    Datacard.nominal (fileEnv roots mass c count flt zero one) c p b = .ok h := by
  obtain ⟨s, hs, hh⟩ := given_found hc hp hb (by simp) hg true
  unfold Datacard.nominal
  rw [hs]
  dsimp only [fileEnv]
  rw [hh]
  rfl

theorem given_unique (hc : Datacard.Spec.Named c) {p b : String} (hp : p = "data_obs" ∨ p ∈ c.processes) (hb : b ∈ c.bins) {h h' : Hist ℝ}
    (hg : Datacard.Spec.Given roots mass c p b none h) (hg' : Datacard.Spec.Given roots mass c p b none h') : h = h' := by
  have e := nominal_given (flt := fun _ => .ok 0) (count := counting) (zero := 0) (one := 0) hc hp hb hg
  rw [nominal_given hc hp hb hg'] at e
  exact (Except.ok.inj e).symm

/-- the calls that a card asks for, with what it says about them -/
inductive CallOf (roots : String → Dict String (Node (Hist ℝ))) (mass : String) (flt : String → Res ℝ) (symm : Symm) (c : Card ℝ) (A : Analysis) :
    Call ℝ (Hist ℝ) → Prop
  | channel {b h} : b ∈ c.bins → Datacard.Spec.Given roots mass c "data_obs" b none h → CallOf roots mass flt symm c A (.channel h b)
  | data {b h} : b ∈ c.bins → Datacard.Spec.Given roots mass c "data_obs" b none h →
      (∀ (i : Nat) x, (h.vals false)[i]? = some x → x = .fin (A.obs b i)) → CallOf roots mass flt symm c A (.data h b)
  | process {b p h i} : b ∈ c.bins → Spec.Column c b p → Datacard.Spec.Given roots mass c p b none h → Dict.get? c.indices p = some i →
      (∀ (i : Nat) x, (h.vals false)[i]? = some x → ∃ v, x = .fin v ∧ A.nominal b p i = max v 0) →
      CallOf roots mass flt symm c A (.process h p b (decide (i ≤ 0)))
  | rate {m b p row} : row ∈ c.rateParams → (m, b, p) ∈ Spec.rateCells c row →
      CallOf roots mass flt symm c A (.norm m [p] b (.single 1.01) false)
  | single {s b p e κ} : s ∈ c.systematics → s.type = "lnN" → Spec.Entry s b p e → 0 < κ →
      (∀ i θ, A.response b p s.name i θ = Real.log κ * θ) → CallOf roots mass flt symm c A (.norm s.name [p] b (.single κ) true)
  | pair {s b p e d u} : s ∈ c.systematics → s.type = "lnN" → Spec.Entry s b p e → 0 < d → 0 < u →
      (∀ i θ, A.response b p s.name i θ = (Real.log u - Real.log d) / 2 * θ) →
      CallOf roots mass flt symm c A (.norm s.name [p] b (.pair u d) true)
  | shape {s b p e k hu hd} : s ∈ c.systematics → s.type ∈ Spec.shapeTypes → Spec.Entry s b p e →
      Datacard.Spec.Given roots mass c p b (some (s.name ++ "Up")) hu → Datacard.Spec.Given roots mass c p b (some (s.name ++ "Down")) hd →
      (∀ n, (b, n) ∈ A.chans → ∀ i < n, ∃ u d, (hu.vals false)[i]? = some (.fin u) ∧ (hd.vals false)[i]? = some (.fin d) ∧
        ∀ m ∈ Spec.names symm s, ∀ θ, A.response b p m i θ =
          paired symm (m == s.name ++ "SymDiff") (logRatio k (A.nominal b p i) u) (logRatio k (A.nominal b p i) d) θ) →
      CallOf roots mass flt symm c A (.syst (some hu) (some hd) s.name p b k (!decide (s.type = "shapeU")))

theorem shapeCall_given {count : ℝ → Hist ℝ} {zero one : ℝ} (hc : Datacard.Spec.Named c) {s : Syst} (hs : s ∈ c.systematics) {p b e : String}
    (hb : b ∈ c.bins) (hp : p ∈ c.processes) {hu hd : Hist ℝ} (hup : Datacard.Spec.Given roots mass c p b (some (s.name ++ "Up")) hu)
    (hdn : Datacard.Spec.Given roots mass c p b (some (s.name ++ "Down")) hd) {k : ℝ} (hk : flt e = .ok k) :
    shapeCall (fileEnv roots mass c count flt zero one) c s.name s.type p b e =
      .ok (.syst (some hu) (some hd) s.name p b k (!decide (s.type = "shapeU"))) := by
  have hyn := hc.2.2.2.2 s hs
  have hsuf : ∀ t : String, '$' ∉ t.toList → ∀ z ∈ some (s.name ++ t), '$' ∉ z.toList := by
    intro t ht z hz
    cases hz
    rw [String.toList_append, List.mem_append]
    exact fun h => h.elim hyn ht
  obtain ⟨sh, hs, hu'⟩ := given_found hc (.inr hp) hb (hsuf "Up" (by decide +kernel)) hup (decide (s.type ≠ "shape?"))
  obtain ⟨sh', hs', hdn'⟩ := given_found hc (.inr hp) hb (hsuf "Down" (by decide +kernel)) hdn (decide (s.type ≠ "shape?"))
  rw [hs] at hs'
  cases hs'
  unfold shapeCall
  rw [hs]
  dsimp only [getHist, fileEnv]
  rw [hu', hdn', ok_bind, ok_bind]
  dsimp only
  rw [hk, ok_map]
  simp

theorem normCall_given {env : Env ℝ (Hist ℝ)} {name p b e : String} :
    ('/' ∉ e.toList → ∀ κ, env.flt e = .ok κ → normCall env name p b e = .ok (.norm name [p] b (.single κ) true)) ∧
    ∀ (down up : String) d u, e.toList = down.toList ++ '/' :: up.toList → '/' ∉ down.toList → '/' ∉ up.toList → env.flt down = .ok d →
      env.flt up = .ok u → normCall env name p b e = .ok (.norm name [p] b (.pair u d) true) := by
  refine ⟨fun hsl κ hκ => ?_, fun down up d u he hd hu h1 h2 => ?_⟩
  · unfold normCall
    rw [if_neg hsl, hκ]
    rfl
  · unfold normCall
    rw [if_pos (by rw [he]; simp), splitStr_pair '/' down up hd hu e he]
    dsimp only
    rw [h2, h1]
    rfl

variable (D : Spec.Describes roots mass flt symm c A) {calls : List (Call ℝ (Hist ℝ))}
  (hconv : convert (fileEnv roots mass c counting flt 0 1.01) c = .ok calls)
include D hconv

omit D hconv in
theorem rate_calls {rows : List (List String)} {r : List (Call ℝ (Hist ℝ))} (hr : rateParamCalls (fileEnv roots mass c counting flt 0 1.01) c rows = .ok r)
    (hone : ∀ row ∈ rows, row[2]? ≠ some "*") : (∀ x ∈ r, ∃ m b p, (∃ row ∈ rows, (m, b, p) ∈ Spec.rateCells c row) ∧ x = .norm m [p] b (.single 1.01) false) ∧
      r.flatMap (cells symm) = rows.flatMap (Spec.rateCells c) := by
  induction rows generalizing r with
  | nil =>
    rw [← Except.ok.inj hr]
    exact ⟨fun x hx => (List.not_mem_nil hx).elim, rfl⟩
  | cons row rows ih =>
    rw [rateParamCalls] at hr
    obtain ⟨y, hy, h2⟩ := Datacard.bind_ok hr
    obtain ⟨r', hr', h3⟩ := Datacard.map_ok h2
    obtain ⟨i1, i2⟩ := ih hr' fun row h => hone row (List.mem_cons_of_mem _ h)
    unfold rateParamCall at hy
    split at hy
    swap
    · cases hy
    rename_i name ch pr val rest
    obtain ⟨_, _, h4⟩ := Datacard.bind_ok hy
    obtain ⟨_, _, h5⟩ := Datacard.map_ok h4
    have hpr : pr ≠ "*" := fun h => hone _ List.mem_cons_self (by rw [h]; rfl)
    rw [if_neg hpr] at h5
    rw [← h3, ← h5]
    refine ⟨fun x hx => ?_, ?_⟩
    · rcases List.mem_append.1 hx with hx | hx
      · obtain ⟨b, hb, rfl⟩ := List.mem_map.1 hx
        exact ⟨name, b, pr, ⟨_, List.mem_cons_self, List.mem_map.2 ⟨b, hb, rfl⟩⟩, rfl⟩
      · obtain ⟨m, b, p, ⟨row, h1, h2⟩, h3⟩ := i1 x hx
        exact ⟨m, b, p, ⟨row, List.mem_cons_of_mem _ h1, h2⟩, h3⟩
    · rw [List.flatMap_append, i2, List.flatMap_cons]
      congr 1
      rw [List.flatMap_map]
      show List.flatMap (fun b => [(name, b, pr)]) _ = _
      rw [← List.map_eq_flatMap]
      rfl

theorem calls_of : ∀ x ∈ calls, CallOf roots mass flt symm c A x := by
  obtain ⟨a, r, d, ha, hr, hd, rfl⟩ := convert_parts hconv
  intro x hx
  rw [List.mem_append, List.mem_append] at hx
  rcases hx with (hx | hx) | hx
  · obtain ⟨b, hb, dd, hdd, p, hp, t, ht, hx⟩ := nominalCalls_iff ha x hx
    rcases hx with ⟨rfl, hx⟩ | ⟨hne, rfl⟩
    · obtain ⟨h, hg, ho⟩ := D.obs b hb
      rw [nominal_given D.named (.inl rfl) hb hg] at ht
      cases ht
      rcases hx with rfl | rfl
      · exact .channel hb hg
      · exact .data hb hg ho
    · have hcol : Spec.Column c b p := ⟨dd, hdd, (Dict.mem_keys_iff _ _).1 ((List.mem_cons.1 hp).resolve_left hne)⟩
      obtain ⟨hpp, _, i, hi⟩ := D.columns b hb p hcol
      obtain ⟨h, hg, hv⟩ := D.nominal b hb p hcol
      rw [nominal_given D.named (.inr hpp) hb hg] at ht
      cases ht
      rw [hi]
      exact .process hb hcol hg hi hv
  · obtain ⟨m, b, p, ⟨row, h1, h2⟩, rfl⟩ := (rate_calls (symm := symm) hr D.rateOne).1 x hx
    exact .rate h1 h2
  · obtain ⟨s, hs, b, p, e, he, hne, hx⟩ := systCalls_only hd x hx
    have hent : Spec.Entry s b p e := ⟨he, fun h => hne (.inl h), fun h => hne (.inr h)⟩
    obtain ⟨hb, hp⟩ := D.entries s hs b p e hent
    rcases hx with ⟨ht, hx⟩ | ⟨ht, hx⟩
    · obtain ⟨k, hu, hd, hk, g1, g2, hr⟩ := D.shape s hs ht b p e hent
      rw [shapeCall_given D.named hs hb hp g1 g2 hk] at hx
      cases hx
      exact .shape hs ht hent g1 g2 hr
    · have ht' : s.type = "lnN" := by
        rcases D.types s hs with h | h
        · exact h
        · exfalso
          simp only [List.mem_cons, List.not_mem_nil, or_false] at ht
          rcases ht with ht | ht <;> rw [ht] at h <;> revert h <;> decide +kernel
      rcases D.norm s hs ht' b p e hent with ⟨h1, κ, h2, h3, hr⟩ | ⟨down, up, h1, h2, h3, dv, u, h4, h5, h6, h7, hr⟩
      · rw [normCall_given.1 h1 κ h2] at hx
        cases hx
        exact .single hs ht' hent h3 hr
      · rw [normCall_given.2 down up dv u h1 h2 h3 h4 h5] at hx
        cases hx
        exact .pair hs ht' hent h6 h7 hr

theorem calls_cells : calls.flatMap (cells symm) = c.rateParams.flatMap (Spec.rateCells c) ++ c.systematics.flatMap (Spec.rowCells symm) := by
  obtain ⟨a, r, d, ha, hr, hd, rfl⟩ := convert_parts hconv
  rw [List.flatMap_append, List.flatMap_append, (rate_calls hr D.rateOne).2]
  have h0 : a.flatMap (cells symm) = [] := by
    rw [List.flatMap_eq_nil_iff]
    intro x hx
    obtain ⟨b, hb, dd, hdd, p, hp, t, ht, hx⟩ := nominalCalls_iff ha x hx
    rcases hx with ⟨rfl, rfl | rfl⟩ | ⟨hne, rfl⟩ <;> rfl
  rw [h0, List.nil_append]
  congr 1
  have key : ∀ (ss : List Syst) (d : List (Call ℝ (Hist ℝ))), (∀ s ∈ ss, s ∈ c.systematics) →
      systCalls (fileEnv roots mass c counting flt 0 1.01) c ss = .ok d → d.flatMap (cells symm) = ss.flatMap (Spec.rowCells symm) := by
    intro ss
    induction ss with
    | nil => intro d _ h; rw [← Except.ok.inj h]; rfl
    | cons s ss ih =>
      intro d hin h
      rw [systCalls] at h
      obtain ⟨r1, hr1, h⟩ := Datacard.bind_ok h
      obtain ⟨r2, hr2, h⟩ := Datacard.map_ok h
      rw [← h, List.flatMap_append, List.flatMap_cons, ih r2 (fun s h => hin s (List.mem_cons_of_mem _ h)) hr2]
      congr 1
      have hs := hin s List.mem_cons_self
      by_cases ht : s.type ∈ Spec.shapeTypes
      · rw [if_pos (show s.type ∈ ["shape", "shapeN", "shape?", "shapeU"] from ht)] at hr1
        refine effectCalls_cells hr1 fun b p e x hm hne hx => ?_
        have hent : Spec.Entry s b p e := ⟨hm, fun h => hne (.inl h), fun h => hne (.inr h)⟩
        obtain ⟨hb, hp⟩ := D.entries s hs b p e hent
        obtain ⟨k, hu, hd, hk, g1, g2, _⟩ := D.shape s hs ht b p e hent
        rw [shapeCall_given D.named hs hb hp g1 g2 hk] at hx
        cases hx
        simp only [cells, Spec.names, pairNames, ht, true_and]
      · have ht' := (D.types s hs).resolve_right ht
        rw [if_neg (show ¬ s.type ∈ ["shape", "shapeN", "shape?", "shapeU"] from ht), if_pos (by rw [ht']; decide)] at hr1
        refine effectCalls_cells hr1 fun b p e x hm hne hx => ?_
        have hent : Spec.Entry s b p e := ⟨hm, fun h => hne (.inl h), fun h => hne (.inr h)⟩
        have hn : Spec.names symm s = [s.name] := by rw [Spec.names, if_neg (fun h => ht h.1)]
        rw [hn]
        rcases D.norm s hs ht' b p e hent with ⟨h1, κ, h2, h3, _⟩ | ⟨down, up, h1, h2, h3, dv, u, h4, h5, _⟩
        · rw [normCall_given.1 h1 κ h2] at hx
          cases hx
          rfl
        · rw [normCall_given.2 down up dv u h1 h2 h3 h4 h5] at hx
          cases hx
          rfl
  exact key _ _ (fun _ h => h) hd

theorem calls_nominal : (∀ b ∈ c.bins, ∀ h, Datacard.Spec.Given roots mass c "data_obs" b none h → Call.channel h b ∈ calls ∧ Call.data h b ∈ calls) ∧
    (∀ b ∈ c.bins, ∀ p, Spec.Column c b p → ∀ h i, Datacard.Spec.Given roots mass c p b none h → Dict.get? c.indices p = some i →
      Call.process h p b (decide (i ≤ 0)) ∈ calls) ∧ calls.filterMap chanOf = c.bins := by
  have hc := hconv
  obtain ⟨a, r, d, ha, hr, hd, rfl⟩ := convert_parts hconv
  refine ⟨fun b hb h hg => ?_, fun b hb p hcol h i hg hi => ?_, ?_⟩
  · obtain ⟨d', r', -, h2, h3⟩ := nominalCalls_mem ha b hb
    obtain ⟨x, hx, hm, -⟩ := processCalls_mem h2 "data_obs" (by simp)
    rw [nominal_given D.named (.inl rfl) hb hg] at hx
    cases hx
    exact ⟨List.mem_append_left _ (List.mem_append_left _ (h3 _ (hm rfl).1)), List.mem_append_left _ (List.mem_append_left _ (h3 _ (hm rfl).2))⟩
  · obtain ⟨dd, hdd, v, hv⟩ := hcol
    obtain ⟨hp, hne, _⟩ := D.columns b hb p ⟨dd, hdd, v, hv⟩
    obtain ⟨x, hx, hm⟩ := c60_processes_converted hc hb hdd hv hne
    rw [nominal_given D.named (.inr hp) hb hg] at hx
    cases hx
    rw [hi] at hm
    exact hm
  · rw [List.filterMap_append, List.filterMap_append, nominalCalls_chans ha]
    · have h1 : r.filterMap chanOf = [] := by
        rw [List.filterMap_eq_nil_iff]
        intro x hx
        obtain ⟨m, b, p, _, rfl⟩ := (rate_calls (symm := symm) hr D.rateOne).1 x hx
        rfl
      have h2 : d.filterMap chanOf = [] := by
        rw [List.filterMap_eq_nil_iff]
        intro x hx
        have hx' := calls_of D hc x (List.mem_append_right _ hx)
        obtain ⟨s, hs, b, p, e, he, hne, hx⟩ := systCalls_only hd x hx
        cases hx' with
        | channel h1 h2 =>
          exfalso
          rcases hx with ⟨_, hx⟩ | ⟨_, hx⟩
          · unfold shapeCall at hx
            obtain ⟨up, _, hx⟩ := Datacard.bind_ok hx
            obtain ⟨dn, _, hx⟩ := Datacard.bind_ok hx
            split at hx
            · exact normCall_ne hx
            · obtain ⟨_, _, hx⟩ := Datacard.map_ok hx
              cases hx
          · exact normCall_ne hx
        | _ => rfl
      rw [h1, h2]
      simp
    · intro b hb dd hdd hm
      obtain ⟨v, hv⟩ := (Dict.mem_keys_iff _ _).1 hm
      exact (D.columns b hb "data_obs" ⟨dd, hdd, v, hv⟩).2.1 rfl

theorem mem_cells (m b p : String) : (∃ x ∈ calls, (m, b, p) ∈ cells symm x) ↔
    (∃ row ∈ c.rateParams, (m, b, p) ∈ Spec.rateCells c row) ∨ ∃ s ∈ c.systematics, m ∈ Spec.names symm s ∧ ∃ e, Spec.Entry s b p e := by
  rw [← List.mem_flatMap, calls_cells D hconv, List.mem_append, List.mem_flatMap, List.mem_flatMap]
  refine or_congr Iff.rfl (exists_congr fun s => and_congr_right fun _ => ?_)
  simp only [Spec.rowCells, List.mem_flatMap, List.mem_filter, List.mem_map, decide_eq_true_eq, Prod.mk.injEq, Spec.Entry, not_or]
  constructor
  · rintro ⟨⟨⟨b', p'⟩, e⟩, ⟨h1, h2⟩, m', hm, rfl, rfl, rfl⟩
    exact ⟨hm, e, h1, h2⟩
  · rintro ⟨hm, e, h1, h2⟩
    exact ⟨((b, p), e), ⟨h1, h2⟩, m, hm, rfl, rfl, rfl⟩

omit D hconv in
theorem touches_cells {x : Call ℝ (Hist ℝ)} {op : Op ℝ} (h : callOp symm x = .ok op) (m b p : String) :
    Writer.Spec.touches b p m op ↔ (m, b, p) ∈ cells symm x := by
  unfold callOp at h
  split at h
  · cases h
    simp [Writer.Spec.touches, cells]
  · cases h
    simp [Writer.Spec.touches, cells]
  · cases h
    simp [Writer.Spec.touches, cells]
  · cases h
    simp only [Writer.Spec.touches, cells, List.mem_map, Prod.mk.injEq]
    exact ⟨fun ⟨h1, h2, h3⟩ => ⟨p, h2, h3.symm, h1, rfl⟩, fun ⟨q, h1, h2, h3, h4⟩ => ⟨h3, h4 ▸ h1, h2.symm⟩⟩
  · cases h
    simp only [Writer.Spec.touches, cells, List.mem_map, Prod.mk.injEq]
    exact ⟨fun ⟨h1, h2, h3⟩ => ⟨p, h2, h3.symm, h1, rfl⟩, fun ⟨q, h1, h2, h3, h4⟩ => ⟨h3, h4 ▸ h1, h2.symm⟩⟩
  · cases h
    cases symm <;> simp [Writer.Spec.touches, cells, pairNames, Writer.Spec.booksName] <;> aesop
  · cases h

omit D hconv in
/-- what a call asks for -/
theorem asks_cells {x : Call ℝ (Hist ℝ)} {op : Op ℝ} (h : callOp symm x = .ok op) (m : String) (con : Bool) :
    (∃ bk ∈ Writer.Spec.asks op, bk.name = m ∧ bk.toCov = false ∧ bk.o.constrained = con) ↔
      (∃ ps b k, x = .norm m ps b k con) ∨ ∃ u d name p b k, x = .syst u d name p b k con ∧ m ∈ pairNames symm name := by
  unfold callOp at h
  split at h
  · cases h
    simp [Writer.Spec.asks]
  · cases h
    simp [Writer.Spec.asks]
  · cases h
    simp [Writer.Spec.asks]
  · cases h
    simp [Writer.Spec.asks]
  · cases h
    simp [Writer.Spec.asks]
  · cases h
    cases symm <;> simp [Writer.Spec.asks, pairNames] <;> aesop
  · cases h

omit D hconv in
theorem asks_fits {x : Call ℝ (Hist ℝ)} {op : Op ℝ} (h : callOp symm x = .ok op) : ∀ bk ∈ Writer.Spec.asks op, bk.toCov = false := by
  unfold callOp at h
  split at h
  · cases h
    simp [Writer.Spec.asks]
  · cases h
    simp [Writer.Spec.asks]
  · cases h
    simp [Writer.Spec.asks]
  · cases h
    simp [Writer.Spec.asks]
  · cases h
    simp [Writer.Spec.asks]
  · cases h
    cases symm <;> simp [Writer.Spec.asks]
  · cases h

omit D hconv in
theorem chan_op {x : Call ℝ (Hist ℝ)} {op : Op ℝ} (h : callOp symm x = .ok op) : opChan op = chanOf x := by
  unfold callOp at h
  split at h <;> cases h <;> rfl

omit D hconv in
theorem chan_ops {xs : List (Call ℝ (Hist ℝ))} {ops : List (Op ℝ)} (h : List.Forall₂ (fun x o => callOp symm x = .ok o) xs ops) :
    ops.filterMap opChan = xs.filterMap chanOf := by
  induction h with
  | nil => rfl
  | cons h _ ih => simp only [List.filterMap_cons, chan_op h, ih]

omit D hconv in
theorem forall₂_split {α β : Type} {R : α → β → Prop} {l r : List β} {o : β} : ∀ {cs : List α}, List.Forall₂ R cs (l ++ o :: r) →
    ∃ lc x rc, cs = lc ++ x :: rc ∧ R x o ∧ List.Forall₂ R rc r := by
  induction l with
  | nil =>
    intro cs h
    cases h with
    | cons h1 h2 => exact ⟨[], _, _, rfl, h1, h2⟩
  | cons a l ih =>
    intro cs h
    cases h with
    | cons h1 h2 =>
      obtain ⟨lc, x, rc, rfl, h3, h4⟩ := ih h2
      exact ⟨_ :: lc, x, rc, rfl, h3, h4⟩

variable {ops : List (Op ℝ)} (hops : callOps symm calls = .ok ops)
include hops

theorem origin (op : Op ℝ) (h : op ∈ ops) : ∃ x ∈ calls, CallOf roots mass flt symm c A x ∧ callOp symm x = .ok op := by
  obtain ⟨x, hx, hxo⟩ := forall₂_right (callOps_forall hops) op h
  exact ⟨x, hx, calls_of D hconv x hx, hxo⟩

omit D hconv in
theorem image {x : Call ℝ (Hist ℝ)} (h : x ∈ calls) : ∃ op ∈ ops, callOp symm x = .ok op := forall₂_left (callOps_forall hops) x h

theorem channel_op {axes : List Axis} {o : Option String} {mk fl : Bool} (h : Op.channel axes o mk fl ∈ ops) :
    ∃ b ∈ c.bins, o = some b ∧ ∃ h, Datacard.Spec.Given roots mass c "data_obs" b none h ∧ axes = h.axes ∧ mk = false ∧ fl = false := by
  obtain ⟨x, _, hx, ho⟩ := origin D hconv hops _ h
  cases hx <;> cases ho
  exact ⟨_, ‹_›, rfl, _, ‹_›, rfl, rfl, rfl⟩

theorem process_op {h : HIn ℝ} {p b : String} {sig : Bool} {v : Option (HIn ℝ)} (hm : Op.process h p b sig v ∈ ops) :
    b ∈ c.bins ∧ Spec.Column c b p ∧ ∃ i, Dict.get? c.indices p = some i ∧ sig = decide (i ≤ 0) ∧ ∃ H : Hist ℝ, h = H.input ∧
      ∀ (i : Nat) x, (H.vals false)[i]? = some x → ∃ v, x = .fin v ∧ A.nominal b p i = max v 0 := by
  obtain ⟨x, _, hx, ho⟩ := origin D hconv hops _ hm
  cases hx <;> cases ho
  exact ⟨‹_›, ‹_›, _, ‹_›, rfl, _, rfl, ‹_›⟩

theorem column_op {p b : String} (hb : b ∈ c.bins) (hcol : Spec.Column c b p) {i : Int} (hi : Dict.get? c.indices p = some i) :
    ∃ h, Op.process h p b (decide (i ≤ 0)) none ∈ ops := by
  obtain ⟨h, hg, _⟩ := D.nominal b hb p hcol
  obtain ⟨op, hop, ho⟩ := image hops ((calls_nominal D hconv).2.1 b hb p hcol h i hg hi)
  cases ho
  exact ⟨_, hop⟩

omit D hconv hops in
theorem column_bin {b n} (D : Spec.Describes roots mass flt symm c A) (h : (b, n) ∈ A.chans) : b ∈ c.bins := ((D.chans b n).1 h).1

theorem asked_iff (m : String) (con : Bool) : (∃ bk, Writer.Spec.asked ops bk ∧ bk.name = m ∧ bk.toCov = false ∧ bk.o.constrained = con) →
    (∃ b p, ∃ x ∈ calls, (m, b, p) ∈ cells symm x) ∧ A.constrained m = con := by
  rintro ⟨bk, ⟨op, hop, hbk⟩, k1, k2, k3⟩
  obtain ⟨x, hxc, hx, ho⟩ := origin D hconv hops op hop
  have hcs := (asks_cells ho m con).1 ⟨bk, hbk, k1, k2, k3⟩
  clear k1 k2 k3
  cases hx with
  | channel | data | process => simp at hcs
  | rate h1 h2 =>
    rcases hcs with ⟨_, _, _, h⟩ | ⟨_, _, _, _, _, _, h, _⟩
    · cases h
      exact ⟨⟨_, _, _, hxc, List.mem_singleton.2 rfl⟩, D.free _ h1 _ _ _ h2⟩
    · cases h
  | single h1 h2 h3 h4 h5 =>
    rcases hcs with ⟨_, _, _, h⟩ | ⟨_, _, _, _, _, _, h, _⟩
    · cases h
      refine ⟨⟨_, _, _, hxc, List.mem_singleton.2 rfl⟩, ?_⟩
      have hnm : ∀ s : Syst, s.type = "lnN" → s.name ∈ Spec.names symm s := by
        intro s hs
        rw [Spec.names, if_neg (by rw [hs]; simp [Spec.shapeTypes])]
        simp
      rw [D.constrained _ h1 _ _ _ h3 _ (hnm _ h2), h2]
      decide
    · cases h
  | pair h1 h2 h3 h4 h5 =>
    rcases hcs with ⟨_, _, _, h⟩ | ⟨_, _, _, _, _, _, h, _⟩
    · cases h
      refine ⟨⟨_, _, _, hxc, List.mem_singleton.2 rfl⟩, ?_⟩
      have hnm : ∀ s : Syst, s.type = "lnN" → s.name ∈ Spec.names symm s := by
        intro s hs
        rw [Spec.names, if_neg (by rw [hs]; simp [Spec.shapeTypes])]
        simp
      rw [D.constrained _ h1 _ _ _ h3 _ (hnm _ h2), h2]
      decide
    · cases h
  | shape h1 h2 h3 =>
    rcases hcs with ⟨_, _, _, h⟩ | ⟨_, _, _, _, _, _, h, hm⟩
    · cases h
    · cases h
      refine ⟨⟨_, _, _, hxc, List.mem_map.2 ⟨m, hm, rfl⟩⟩, D.constrained _ h1 _ _ _ h3 _ ?_⟩
      simpa only [Spec.names, pairNames, h2, true_and] using hm

theorem described : FileFit.Spec.Describes false ops A where
  named axes mk fl h := by
    obtain ⟨_, _, h, _⟩ := channel_op D hconv hops h
    cases h
  canonical h p c s v hm flow := by
    obtain ⟨_, _, _, _, _, H, rfl, _⟩ := process_op D hconv hops hm
    exact List.nodup_nil
  chansOnce := D.chansOnce
  chans b n := by
    rw [D.chans]
    constructor
    · rintro ⟨hb, h, hg, rfl⟩
      obtain ⟨op, hop, ho⟩ := image hops ((calls_nominal D hconv).1 b hb h hg).1
      cases ho
      exact ⟨_, _, hop, rfl⟩
    · rintro ⟨axes, fl, hm, rfl⟩
      obtain ⟨b', hb, hbb, h, hg, rfl, _⟩ := channel_op D hconv hops hm
      cases hbb
      exact ⟨hb, h, hg, rfl⟩
  signalsOnce := D.signalsOnce
  signals p := by
    rw [D.signals]
    constructor
    · rintro ⟨⟨b, hb, hcol⟩, i, hi, hle⟩
      obtain ⟨h, hm⟩ := column_op D hconv hops hb hcol hi
      rw [decide_eq_true hle] at hm
      exact ⟨h, b, _, hm⟩
    · rintro ⟨h, b, v, hm⟩
      obtain ⟨hb, hcol, i, hi, hd, _⟩ := process_op D hconv hops hm
      exact ⟨⟨b, hb, hcol⟩, i, hi, of_decide_eq_true hd.symm⟩
  backgroundsOnce := D.backgroundsOnce
  backgrounds p := by
    rw [D.backgrounds]
    constructor
    · rintro ⟨⟨b, hb, hcol⟩, i, hi, hle⟩
      obtain ⟨h, hm⟩ := column_op D hconv hops hb hcol hi
      rw [decide_eq_false (not_le.2 hle)] at hm
      exact ⟨h, b, _, hm⟩
    · rintro ⟨h, b, v, hm⟩
      obtain ⟨hb, hcol, i, hi, hd, _⟩ := process_op D hconv hops hm
      exact ⟨⟨b, hb, hcol⟩, i, hi, not_le.1 (of_decide_eq_false hd.symm)⟩
  nuisancesOnce := D.nuisancesOnce
  nuisances m := by
    rw [D.nuisances]
    have hiff : ((∃ b p, ∃ row ∈ c.rateParams, (m, b, p) ∈ Spec.rateCells c row) ∨
        ∃ s ∈ c.systematics, m ∈ Spec.names symm s ∧ ∃ b p e, Spec.Entry s b p e) ↔ ∃ b p, ∃ x ∈ calls, (m, b, p) ∈ cells symm x := by
      simp only [mem_cells D hconv]
      constructor
      · rintro (⟨b, p, h⟩ | ⟨s, hs, hm, b, p, e, he⟩)
        · exact ⟨b, p, .inl h⟩
        · exact ⟨b, p, .inr ⟨s, hs, hm, e, he⟩⟩
      · rintro ⟨b, p, h | ⟨s, hs, hm, e, he⟩⟩
        · exact .inl ⟨b, p, h⟩
        · exact .inr ⟨s, hs, hm, b, p, e, he⟩
    rw [hiff]
    constructor
    · rintro ⟨b, p, x, hx, hm⟩
      obtain ⟨op, hop, ho⟩ := image hops hx
      have hc : ∃ con, (∃ ps b k, x = .norm m ps b k con) ∨ ∃ u d name p b k, x = .syst u d name p b k con ∧ m ∈ pairNames symm name := by
        cases x with
        | channel | data | process => cases hm
        | norm name ps b k con =>
          obtain ⟨q, _, hq⟩ := List.mem_map.1 hm
          cases hq
          exact ⟨con, .inl ⟨_, _, _, rfl⟩⟩
        | syst u d name p b k con =>
          obtain ⟨q, hq', hq⟩ := List.mem_map.1 hm
          cases hq
          exact ⟨con, .inr ⟨_, _, _, _, _, _, rfl, hq'⟩⟩
      obtain ⟨con, hc⟩ := hc
      obtain ⟨bk, h1, h2, h3, _⟩ := (asks_cells ho m con).2 hc
      exact ⟨bk, ⟨op, hop, h1⟩, h2, h3⟩
    · rintro ⟨bk, h1, h2, h3⟩
      exact (asked_iff D hconv hops m _ ⟨bk, h1, h2, h3, rfl⟩).1
  constrained bk h1 h2 := (asked_iff D hconv hops _ _ ⟨bk, h1, rfl, h2, rfl⟩).2
  obs h b v hm i x hx := by
    obtain ⟨y, _, hy, ho⟩ := origin D hconv hops _ hm
    cases hy with
    | data _ _ h3 =>
      cases ho
      exact h3 i x hx
    | _ => cases ho
  nominal b _ h p s v hm i x hx := by
    obtain ⟨_, _, _, _, _, H, rfl, h3⟩ := process_op D hconv hops hm
    obtain ⟨v, rfl, hv⟩ := h3 i x hx
    exact hv
  absent b hb p hno i := by
    obtain ⟨⟨b', n⟩, hn, rfl⟩ := List.mem_map.1 hb
    have hb' := column_bin D hn
    refine D.absent b' hb' p (fun hcol => ?_) i
    obtain ⟨_, _, j, hj⟩ := D.columns b' hb' p hcol
    obtain ⟨h, hm⟩ := column_op D hconv hops hb' hcol hj
    exact hno _ _ _ hm
  once b p m l op r he ht o ho hto := by
    subst he
    have hF := callOps_forall hops
    obtain ⟨lc, x, rc, hcs, hx, hrc⟩ := forall₂_split hF
    obtain ⟨y, hy, hyo⟩ := forall₂_right hrc o ho
    have hnd := D.once
    rw [← calls_cells D hconv, hcs, List.flatMap_append, List.flatMap_cons] at hnd
    have h2 := (List.nodup_append.1 hnd).2.1
    exact (List.nodup_append.1 h2).2.2 _ ((touches_cells hx m b p).1 ht) _ (List.mem_flatMap.2 ⟨y, hy, (touches_cells hyo m b p).1 hto⟩) rfl
  silent b hb p m hno i θ := by
    obtain ⟨⟨b', n⟩, hn, rfl⟩ := List.mem_map.1 hb
    have hn' : ¬ ∃ x ∈ calls, (m, b', p) ∈ cells symm x := by
      rintro ⟨x, hx, hm⟩
      obtain ⟨op, hop, ho⟩ := image hops hx
      exact hno op hop ((touches_cells ho m b' p).2 hm)
    rw [mem_cells D hconv] at hn'
    exact D.silent b' (column_bin D hn) p m (fun row hr hm => hn' (.inl ⟨row, hr, hm⟩))
      (fun s hs hm e he => hn' (.inr ⟨s, hs, hm, e, he⟩)) i θ
  responds b n hbn p m _ op hop ht i hi _ := by
    obtain ⟨x, _, hx, ho⟩ := origin D hconv hops op hop
    cases hx with
    | channel | data | process =>
      cases ho
      exact ht.elim
    | rate h1 h2 =>
      cases ho
      obtain ⟨rfl, hp, rfl⟩ := ht
      cases List.mem_singleton.1 hp
      exact ⟨rfl, .inl ⟨List.nodup_singleton _, [1.01], rfl, rfl, fun u hu => by rw [List.mem_singleton.1 hu]; norm_num, 1.01,
        List.mem_singleton.2 rfl, D.rate _ h1 _ _ _ h2 i⟩⟩
    | single h1 h2 h3 h4 h5 =>
      cases ho
      obtain ⟨rfl, hp, rfl⟩ := ht
      cases List.mem_singleton.1 hp
      exact ⟨rfl, .inl ⟨List.nodup_singleton _, [_], rfl, rfl, fun u hu => by rw [List.mem_singleton.1 hu]; exact h4, _,
        List.mem_singleton.2 rfl, h5 i⟩⟩
    | pair h1 h2 h3 h4 h5 h6 =>
      cases ho
      obtain ⟨rfl, hp, rfl⟩ := ht
      cases List.mem_singleton.1 hp
      exact ⟨rfl, .inr ⟨_, _, rfl, rfl, h5, h4, .inl rfl, h6 i⟩⟩
    | shape h1 h2 h3 h4 h5 h6 =>
      have hm := (touches_cells ho m b p).1 ht
      obtain ⟨m', hm', he⟩ := List.mem_map.1 hm
      cases he
      cases ho
      obtain ⟨u, d, g1, g2, g3⟩ := h6 n hbn i hi
      refine ⟨rfl, u, d, ⟨u, g1, rfl⟩, ⟨d, g2, rfl⟩, g3 m ?_⟩
      simpa only [Spec.names, pairNames, h2, true_and] using hm'

omit hconv ops hops in
theorem sized {b : String} (hb : b ∈ c.bins) {axes : List Axis} {h0 : Hist ℝ} (hg : Datacard.Spec.Given roots mass c "data_obs" b none h0)
    (ha : axes = h0.axes) {p : String} {y : Option String} {h : Hist ℝ} (hh : Datacard.Spec.Given roots mass c p b y h) :
    Writer.Spec.fullSize false axes h.input := by
  subst ha
  obtain ⟨h1, h2⟩ := D.sizes b hb h0 hg p y h hh
  have hp : Writer.prod (dims false h0.axes) = Spec.nbins h0 := by
    rw [FileFit.prod_eq]
    rfl
  rw [Writer.Spec.fullSize, hp]
  refine ⟨h1, fun v hv => ?_⟩
  rw [Hist.input, HIn.flatVars] at hv
  split_ifs at hv
  cases hv
  exact h2

theorem written {close : Axis → Axis → Bool} {iter : List String → List String} {s : State ℝ} {t : Tensor ℝ}
    (hrun : runAll (writerCfg Yields.num close false) {} ops = .ok s) (hw : (write (writerCfg Yields.num close false) iter s).2 = .ok t) :
    Writer.Spec.file (writerCfg Yields.num close false) ops iter t ∧ Writer.Spec.allOk (writerCfg Yields.num close false) {} ops := by
  obtain ⟨hok, rfl⟩ := runAll_ok hrun
  have hnone : ∀ a m f, Op.channel a none m f ∉ ops := (described D hconv hops).named
  have hfresh : Writer.Spec.freshNames (writerCfg Yields.num close false) {} ops := by
    refine fresh_of hnone ?_ ?_ fun b _ => rfl
    · rw [chan_ops (callOps_forall hops), (calls_nominal D hconv).2.2]
      exact D.binsOnce
    · exact layInv_run (writerCfg Yields.num close false) [] trivial
  refine ⟨⟨rfl, rfl, hfresh, fitting_of fun l op r he => ?_, hw⟩, hok⟩
  have hl : Writer.Spec.freshNames (writerCfg Yields.num close false) {} l := by
    rw [he] at hfresh
    exact (freshNames_split hfresh).1
  have hch : ∀ {b ch}, (runOps (writerCfg Yields.num close false) {} l).channels.get? b = some ch →
      b ∈ c.bins ∧ ch.flow = false ∧ ∃ h, Datacard.Spec.Given roots mass c "data_obs" b none h ∧ ch.axes = h.axes := by
    intro b ch hget
    have hsub : ∀ o ∈ l, o ∈ ops := fun o ho => by rw [he]; exact List.mem_append_left _ ho
    rcases channel_origin l {} (layInv_run (writerCfg Yields.num close false) [] trivial) hl (fun a m f hm => hnone a m f (hsub _ hm)) hget with h | h
    · cases h
    · obtain ⟨b', hb, hbb, h0, hg, h1, _, h2⟩ := channel_op D hconv hops (hsub _ h)
      cases hbb
      exact ⟨hb, h2, h0, hg, h1⟩
  obtain ⟨x, _, hx, ho⟩ := origin D hconv hops op (by rw [he]; simp)
  cases hx with
  | channel | rate | single | pair => cases ho; trivial
  | data hb hg _ =>
    cases ho
    intro ch hget
    obtain ⟨hb', _, h0, hg', ha⟩ := hch hget
    exact ⟨sized D hb' hg' ha hg, fun v hv => by cases hv⟩
  | process hb _ hg _ _ =>
    cases ho
    intro ch hget
    obtain ⟨hb', hf, h0, hg', ha⟩ := hch hget
    rw [hf]
    exact ⟨sized D hb' hg' ha hg, fun v hv => by cases hv⟩
  | shape _ _ _ g1 g2 _ =>
    cases ho
    intro ch hget
    obtain ⟨hb', hf, h0, hg', ha⟩ := hch hget
    rw [hf]
    exact ⟨sized D hb' hg' ha g1, sized D hb' hg' ha g2⟩

end

/-- C105: Whenever a card with shapes is converted and the file written, the loss that the fit builds from the file is the negative logarithm of the
likelihood of the card, up to a constant: Poisson counts of the observed histograms of the bins, expectations from the process histograms
(negative contents set to zero), signals with index ≤ 0 scaled by their strength, log-normal responses to the entries of the `lnN` rows (of a
pair `down/up` the average), responses to the `Up`/`Down` histograms of the shape rows with the symmetrisation asked for, one per cent per
unit for rate parameters, and unit Gaussian constraints for all nuisances but rate parameters and `shapeU` rows.  For all cards, files, numbers of bins,
processes and rows, all parameter points. -/
theorem c105_card_partial (close : Axis → Axis → Bool) (symm : Symm) (iter : List String → List String) (hit : ∀ l, (iter l).Perm l)
    (roots : String → Dict String (Node (Hist ℝ))) (mass : String) (flt : String → Res ℝ) (c : Card ℝ) (A : Analysis)
    (D : Spec.Describes roots mass flt symm c A) (t : Tensor ℝ)
    (hw : cardFile (writerCfg Yields.num close false) symm iter roots mass flt 0 1.01 c = .ok t) (xdef : List ℝ) (neg : Bool) :
    ∃ C, ∀ x, (FileFit.ofFile t .logNormal xdef neg).loss x =
      .ok (some (A.nll (strength t neg (List.ofFn x)) (nuisance t (List.ofFn x)) + C)) := by
  obtain ⟨calls, hconv, hw⟩ := Datacard.bind_ok hw
  obtain ⟨ops, hops, hw⟩ := Datacard.bind_ok hw
  obtain ⟨s, hrun, hw⟩ := Datacard.bind_ok hw
  obtain ⟨F, hok⟩ := written D hconv hops hrun hw
  have hD := described D hconv hops
  refine FileFit.c103_likelihood _ ops iter t A F hok rfl hit (fun b b' h h' he h1 h2 => ?_) hD xdef neg
  rw [← hD.constrained b h h1, ← hD.constrained b' h' h2, he]

/-- C105 for the text of a card: what counts is the card that is read (see C60). -/
theorem c105_text_partial (close : Axis → Axis → Bool) (symm : Symm) (iter : List String → List String) (hit : ∀ l, (iter l).Perm l)
    (roots : String → Dict String (Node (Hist ℝ))) (mass : String) (flt : String → Res ℝ) (int : String → Res Int) (files : Files)
    (text : List Char) (A : Analysis) (D : ∀ c, parse flt int files text = .ok c → Spec.Describes roots mass flt symm c A) (t : Tensor ℝ)
    (hw : textFile (writerCfg Yields.num close false) symm iter roots mass flt int files 0 1.01 text = .ok t) (xdef : List ℝ) (neg : Bool) :
    ∃ C, ∀ x, (FileFit.ofFile t .logNormal xdef neg).loss x =
      .ok (some (A.nll (strength t neg (List.ofFn x)) (nuisance t (List.ofFn x)) + C)) := by
  obtain ⟨c, hc, hw⟩ := Datacard.bind_ok hw
  exact c105_card_partial close symm iter hit roots mass flt c A (D c hc) t hw xdef neg

namespace Ex

/-- a histogram with its contents as variances -/
def hh (l : List ℝ) : Hist ℝ := ⟨[Writer.Ex.ax l.length], fun _ => l.map .fin, fun _ => l.map .fin⟩

def flt (s : String) : Res ℝ := if s = "1" then .ok 1 else if s = "2" then .ok 2 else if s = "3" then .ok 3 else .error .value

def file : Dict String (Node (Hist ℝ)) := [("b", .dir [("data_obs", .hist (hh [2, 3])), ("s", .hist (hh [1, 2])), ("q", .hist (hh [1, 2])),
  ("s_jesUp", .hist (hh [2, 3])), ("s_jesDown", .hist (hh [1, 1]))])]

def roots : String → Dict String (Node (Hist ℝ)) := fun _ => file

def shape : Shape := ⟨"*", "*", "f", "$CHANNEL/$PROCESS", some "$CHANNEL/$PROCESS_$SYSTEMATIC"⟩

/-- a signal and a background, a shape row, a row of normalisations, one of them a pair, and a rate parameter -/
def card : Card ℝ where
  bins := ["b"]
  processes := ["s", "q"]
  indices := [("s", 0), ("q", 1)]
  binMap := [("b", [("s", 5), ("q", 6)])]
  systematics := [⟨"jes", "shape", none, [(("b", "s"), "1"), (("b", "q"), "-")]⟩, ⟨"lum", "lnN", none, [(("b", "s"), "2"), (("b", "q"), "1/3")]⟩]
  rateParams := [["r", "*", "q", "1"]]
  shapes := [shape]
  maxDepth := 1

/-- the analysis on paper -/
def paper : Analysis where
  chans := [("b", 2)]
  signals := ["s"]
  backgrounds := ["q"]
  nuisances := ["jes", "lum", "r"]
  constrained := fun m => m != "r"
  obs := fun _ i => [2, 3].getD i 0
  nominal := fun _ p i => if p = "s" ∨ p = "q" then [1, 2].getD i 0 else 0
  response := fun _ p m i θ =>
    if p = "s" ∧ m = "jes" then paired .none false (logRatio 1 ([1, 2].getD i 0) ([2, 3].getD i 0)) (logRatio 1 ([1, 2].getD i 0) ([1, 1].getD i 0)) θ
    else if p = "s" ∧ m = "lum" then Real.log 2 * θ
    else if p = "q" ∧ m = "lum" then (Real.log 3 - Real.log 1) / 2 * θ
    else if p = "q" ∧ m = "r" then Real.log 1.01 * θ
    else 0

theorem distinct : Datacard.Spec.Distinct file := by
  refine ⟨by simp [file, Dict.keys], fun n sub h => ?_⟩
  simp only [file, List.mem_singleton, Prod.mk.injEq, Node.dir.injEq] at h
  obtain ⟨-, rfl⟩ := h
  refine ⟨by simp [Dict.keys], fun n sub h => ?_⟩
  simp at h

theorem last (p : String) : Datacard.Spec.LastShape card p "b" shape := ⟨[], [], rfl, by simp [Datacard.Spec.Applies, shape], by simp⟩

def toks : List Datacard.Spec.Tok := [.var .channel, .lit ['/'], .var .process]
def toksY : List Datacard.Spec.Tok := toks ++ [.lit ['_'], .var .syst]

theorem given_nominal (p : String) (h : Hist ℝ) (hp : '/' ∉ p.toList) (ha : Datacard.Spec.At file ["b", p] h) :
    Datacard.Spec.Given roots "125" card p "b" none h := by
  refine ⟨shape, 'b' :: '/' :: p.toList, ["b", p], last p, ⟨toks, ?_, ?_, by decide +kernel, ?_⟩, ⟨by simp, ?_, ?_⟩, by simp [card], distinct, ha⟩
  · intro l hl; simp [toks] at hl; subst hl; decide
  · simp [toks]
  · simp [toks, Datacard.Spec.render, Datacard.Spec.values]
  · intro q hq; simp at hq; rcases hq with rfl | rfl
    · decide +kernel
    · exact hp
  · simp [List.intercalate, List.intersperse]

theorem given_syst (y : String) (h : Hist ℝ) (hy : '/' ∉ y.toList) (ha : Datacard.Spec.At file ["b", "s_" ++ y] h) :
    Datacard.Spec.Given roots "125" card "s" "b" (some y) h := by
  refine ⟨shape, ("b/s_" ++ y).toList, ["b", "s_" ++ y], last "s",
    .inl ⟨_, toksY, rfl, ?_, by decide +kernel, ?_⟩, ⟨by simp, ?_, ?_⟩, by simp [card], distinct, ha⟩
  · intro l hl; simp [toks, toksY] at hl; rcases hl with rfl | rfl <;> decide
  · simp [toks, toksY, Datacard.Spec.render, Datacard.Spec.values]
  · intro q hq; simp at hq; rcases hq with rfl | rfl
    · decide +kernel
    · simp [hy]
  · simp [List.intercalate, List.intersperse]

theorem given_obs : Datacard.Spec.Given roots "125" card "data_obs" "b" none (hh [2, 3]) :=
  given_nominal _ _ (by decide +kernel) (.down List.mem_cons_self (.here (by simp)))
theorem given_s : Datacard.Spec.Given roots "125" card "s" "b" none (hh [1, 2]) :=
  given_nominal _ _ (by decide +kernel) (.down List.mem_cons_self (.here (by simp)))
theorem given_q : Datacard.Spec.Given roots "125" card "q" "b" none (hh [1, 2]) :=
  given_nominal _ _ (by decide +kernel) (.down List.mem_cons_self (.here (by simp)))
theorem given_up : Datacard.Spec.Given roots "125" card "s" "b" (some ("jes" ++ "Up")) (hh [2, 3]) :=
  given_syst _ _ (by decide +kernel) (.down List.mem_cons_self (.here (by simp)))
theorem given_down : Datacard.Spec.Given roots "125" card "s" "b" (some ("jes" ++ "Down")) (hh [1, 1]) :=
  given_syst _ _ (by decide +kernel) (.down List.mem_cons_self (.here (by simp)))

/-- all histograms of the file have two bins -/
theorem two_bins {p b y h} (hg : Datacard.Spec.Given roots "125" card p b y h) : Spec.nbins h = 2 ∧ (h.vals false).length = 2 ∧ (h.vars false).length = 2 := by
  obtain ⟨s, name, ps, _, _, _, _, _, ha⟩ := hg
  cases ha with
  | here hm => simp [roots, file] at hm
  | down hm ha =>
    simp only [roots, file, List.mem_singleton, Prod.mk.injEq, Node.dir.injEq] at hm
    obtain ⟨-, rfl⟩ := hm
    cases ha with
    | here hm =>
      simp only [List.mem_cons, Prod.mk.injEq, Node.hist.injEq, List.not_mem_nil, or_false] at hm
      rcases hm with ⟨_, rfl⟩ | ⟨_, rfl⟩ | ⟨_, rfl⟩ | ⟨_, rfl⟩ | ⟨_, rfl⟩ <;> simp [Spec.nbins, hh, Writer.Ex.ax]
    | down hm _ => simp at hm

theorem column_iff (b p : String) : Spec.Column card b p ↔ b = "b" ∧ (p = "s" ∨ p = "q") := by
  unfold Spec.Column
  simp only [card, Dict.get?]
  by_cases hb : b = "b"
  · subst hb
    by_cases h1 : p = "s"
    · subst h1; simp [Dict.get?]
    · by_cases h2 : p = "q"
      · subst h2; simp [Dict.get?]
      · simp [Dict.get?, h1, h2, Ne.symm h1, Ne.symm h2]
  · simp [hb, Ne.symm hb]

theorem entry_iff {s : Syst} (hs : s ∈ card.systematics) (b p e : String) : Spec.Entry s b p e ↔ b = "b" ∧
    ((s.name = "jes" ∧ p = "s" ∧ e = "1") ∨ (s.name = "lum" ∧ ((p = "s" ∧ e = "2") ∨ (p = "q" ∧ e = "1/3")))) := by
  simp only [card, List.mem_cons, List.not_mem_nil, or_false] at hs
  rcases hs with rfl | rfl
  · simp only [Spec.Entry, List.mem_cons, Prod.mk.injEq, List.not_mem_nil, or_false]
    constructor
    · rintro ⟨⟨⟨rfl, rfl⟩, rfl⟩ | ⟨⟨rfl, rfl⟩, rfl⟩, h1, h2⟩
      · simp
      · exact absurd rfl h1
    · rintro ⟨rfl, ⟨_, rfl, rfl⟩ | ⟨h, _⟩⟩
      · simp
      · exact absurd h (by decide)
  · simp only [Spec.Entry, List.mem_cons, Prod.mk.injEq, List.not_mem_nil, or_false]
    constructor
    · rintro ⟨⟨⟨rfl, rfl⟩, rfl⟩ | ⟨⟨rfl, rfl⟩, rfl⟩, h1, h2⟩ <;> simp
    · rintro ⟨rfl, ⟨h, _⟩ | ⟨_, ⟨rfl, rfl⟩ | ⟨rfl, rfl⟩⟩⟩
      · exact absurd h (by decide)
      · simp
      · simp

theorem rate_iff {row : List String} (hr : row ∈ card.rateParams) (m b p : String) : (m, b, p) ∈ Spec.rateCells card row ↔ m = "r" ∧ b = "b" ∧ p = "q" := by
  simp only [card, List.mem_singleton] at hr
  subst hr
  simp [Spec.rateCells, card]

theorem vals_hh {a b : ℝ} {i : Nat} {x : FVal ℝ} (h : ((hh [a, b]).vals false)[i]? = some x) : x = .fin ([a, b].getD i 0) := by
  match i, h with
  | 0, h => exact (Option.some.inj h).symm
  | 1, h => exact (Option.some.inj h).symm

theorem hh_vals {a b : ℝ} {i : Nat} (h : i < 2) : ((hh [a, b]).vals false)[i]? = some (.fin ([a, b].getD i 0)) := by
  match i, h with
  | 0, _ => rfl
  | 1, _ => rfl

theorem names_eq (s : Syst) : Spec.names .none s = [s.name] := by simp [Spec.names]

theorem describes : Spec.Describes roots "125" flt .none card paper where
  named := by
    refine ⟨?_, ?_, ?_, ?_, ?_⟩ <;> simp only [card] <;> decide +kernel
  binsOnce := by simp [card]
  columns := by
    intro b _ p hcol
    obtain ⟨rfl, rfl | rfl⟩ := (column_iff b p).1 hcol <;> simp [card, Dict.get?]
  types := by simp [card, Spec.shapeTypes]
  entries := by
    intro s hs b p e he
    obtain ⟨rfl, ⟨_, rfl, _⟩ | ⟨_, ⟨rfl, _⟩ | ⟨rfl, _⟩⟩⟩ := (entry_iff hs b p e).1 he <;> simp [card]
  rateOne := by simp [card]
  once := by
    simp only [card]
    decide +kernel
  sizes := by
    intro b _ h0 h1 p y h h2
    rw [(two_bins h1).1]
    exact (two_bins h2).2
  chansOnce := by simp [paper]
  chans := by
    intro b n
    simp only [paper, List.mem_singleton, Prod.mk.injEq]
    constructor
    · rintro ⟨rfl, rfl⟩
      exact ⟨by simp [card], _, given_obs, (two_bins given_obs).1.symm⟩
    · rintro ⟨hb, h, hg, rfl⟩
      exact ⟨by simpa [card] using hb, (two_bins hg).1⟩
  obs := by
    intro b hb
    obtain rfl : b = "b" := by simpa [card] using hb
    exact ⟨_, given_obs, fun i x hx => vals_hh hx⟩
  signalsOnce := by simp [paper]
  signals := by
    intro p
    simp only [column_iff, paper, List.mem_singleton]
    constructor
    · rintro rfl
      exact ⟨⟨"b", by simp [card], rfl, .inl rfl⟩, 0, by simp [card, Dict.get?], le_rfl⟩
    · rintro ⟨⟨_, _, _, rfl | rfl⟩, i, hi, hle⟩
      · rfl
      · simp [card, Dict.get?] at hi
        omega
  backgroundsOnce := by simp [paper]
  backgrounds := by
    intro p
    simp only [column_iff, paper, List.mem_singleton]
    constructor
    · rintro rfl
      exact ⟨⟨"b", by simp [card], rfl, .inr rfl⟩, 1, by simp [card, Dict.get?], by decide⟩
    · rintro ⟨⟨_, _, _, rfl | rfl⟩, i, hi, hle⟩
      · simp [card, Dict.get?] at hi
        omega
      · rfl
  nominal := by
    intro b _ p hcol
    obtain ⟨rfl, hp⟩ := (column_iff b p).1 hcol
    have hpos : ∀ i, (0 : ℝ) ≤ [1, 2].getD i 0 := by
      intro i
      match i with
      | 0 => exact one_pos.le
      | 1 => exact two_pos.le
      | i + 2 => exact le_rfl
    have hg : Datacard.Spec.Given roots "125" card p "b" none (hh [1, 2]) := by
      rcases hp with rfl | rfl
      · exact given_s
      · exact given_q
    refine ⟨_, hg, fun i x hx => ⟨_, vals_hh hx, ?_⟩⟩
    rw [max_eq_left (hpos i)]
    exact if_pos hp
  absent := by
    intro b hb p hcol i
    obtain rfl : b = "b" := by simpa [card] using hb
    exact if_neg fun h => hcol ((column_iff _ p).2 ⟨rfl, h⟩)
  nuisancesOnce := by simp [paper]
  nuisances := by
    intro m
    simp only [names_eq, List.mem_singleton]
    constructor
    · intro hm
      simp only [paper, List.mem_cons, List.not_mem_nil, or_false] at hm
      rcases hm with rfl | rfl | rfl
      · exact .inr ⟨card.systematics[0], by simp [card], rfl, "b", "s", "1", by simp [card, Spec.Entry]⟩
      · exact .inr ⟨card.systematics[1], by simp [card], rfl, "b", "s", "2", by simp [card, Spec.Entry]⟩
      · exact .inl ⟨"b", "q", _, by simp [card]; rfl, by simp [Spec.rateCells, card]⟩
    · rintro (⟨b, p, row, hr, h⟩ | ⟨s, hs, rfl, _⟩)
      · rw [((rate_iff hr m b p).1 h).1]
        simp [paper]
      · simp only [card, List.mem_cons, List.not_mem_nil, or_false] at hs
        rcases hs with rfl | rfl <;> simp [paper]
  free := by
    intro row hr m b p h
    rw [((rate_iff hr m b p).1 h).1]
    rfl
  constrained := by
    intro s hs b p e _ m hm
    rw [names_eq, List.mem_singleton] at hm
    subst hm
    simp only [card, List.mem_cons, List.not_mem_nil, or_false] at hs
    rcases hs with rfl | rfl <;> simp [paper]
  silent := by
    intro b hb p m h1 h2 i θ
    obtain rfl : b = "b" := by simpa [card] using hb
    have n1 : ¬ (p = "q" ∧ m = "r") := fun ⟨h3, h4⟩ => h1 ["r", "*", "q", "1"] (by simp [card]) ((rate_iff (by simp [card]) m "b" p).2 ⟨h4, rfl, h3⟩)
    have n2 : ¬ (p = "s" ∧ m = "jes") := by
      rintro ⟨rfl, rfl⟩
      exact h2 card.systematics[0] (by simp [card]) (by simp [card, names_eq]) "1" (by simp [card, Spec.Entry])
    have n3 : ¬ (p = "s" ∧ m = "lum") := by
      rintro ⟨rfl, rfl⟩
      exact h2 card.systematics[1] (by simp [card]) (by simp [card, names_eq]) "2" (by simp [card, Spec.Entry])
    have n4 : ¬ (p = "q" ∧ m = "lum") := by
      rintro ⟨rfl, rfl⟩
      exact h2 card.systematics[1] (by simp [card]) (by simp [card, names_eq]) "1/3" (by simp [card, Spec.Entry])
    show (if p = "s" ∧ m = "jes" then _ else _) = (0 : ℝ)
    rw [if_neg n2, if_neg n3, if_neg n4, if_neg n1]
  rate := by
    intro row hr m b p h i θ
    obtain ⟨rfl, rfl, rfl⟩ := (rate_iff hr m b p).1 h
    simp [paper]
  norm := by
    intro s hs ht b p e he
    have hn : s.name = "lum" := by
      simp only [card, List.mem_cons, List.not_mem_nil, or_false] at hs
      rcases hs with rfl | rfl
      · exact absurd ht (by decide)
      · rfl
    obtain ⟨rfl, ⟨h, _⟩ | ⟨_, ⟨rfl, rfl⟩ | ⟨rfl, rfl⟩⟩⟩ := (entry_iff hs b p e).1 he
    · rw [hn] at h
      exact absurd h (by decide)
    · refine .inl ⟨by decide +kernel, 2, by simp [flt], two_pos, fun i θ => ?_⟩
      rw [hn]
      simp [paper]
    · refine .inr ⟨"1", "3", by decide +kernel, by decide +kernel, by decide +kernel, 1, 3, by simp [flt], by simp [flt], one_pos, three_pos, fun i θ => ?_⟩
      rw [hn]
      simp [paper]
  shape := by
    intro s hs ht b p e he
    have hn : s.name = "jes" := by
      simp only [card, List.mem_cons, List.not_mem_nil, or_false] at hs
      rcases hs with rfl | rfl
      · rfl
      · exact absurd ht (by decide +kernel)
    obtain ⟨rfl, ⟨_, rfl, rfl⟩ | ⟨h, _⟩⟩ := (entry_iff hs b p e).1 he
    swap
    · rw [hn] at h
      exact absurd h (by decide)
    rw [hn]
    refine ⟨1, _, _, by simp [flt], given_up, given_down, fun n hbn i hi => ⟨_, _, hh_vals ?_, hh_vals ?_, fun m hm θ => ?_⟩⟩
    · simp [paper] at hbn
      omega
    · simp [paper] at hbn
      omega
    · rw [names_eq, List.mem_singleton, hn] at hm
      subst hm
      rfl

/-- the calls of the writer -/
def ops : List (Op ℝ) := [.channel [Writer.Ex.ax 2] (some "b") false false, .data (Writer.Ex.hr [2, 3]) "b" none,
  .process (Writer.Ex.hr [1, 2]) "s" "b" true none, .process (Writer.Ex.hr [1, 2]) "q" "b" false none,
  .normSyst "r" ["q"] "b" [.num 1.01] false .average { constrained := false },
  .syst (.pair (Writer.Ex.hr [2, 3]) (Writer.Ex.hr [1, 1])) "jes" "s" "b" 1 true .none false false {},
  .normSyst "lum" ["s"] "b" [.num 2] false .average {}, .normSyst "lum" ["q"] "b" [.list [3, 1]] false .average {}]

theorem converted : (convert (fileEnv roots "125" card counting flt 0 1.01) card).bind (callOps .none) = .ok ops := by
  have n := describes.named
  have hb : "b" ∈ card.bins := by simp [card]
  have hs : "s" ∈ card.processes := by simp [card]
  have hq : "q" ∈ card.processes := by simp [card]
  have h1 : nominalCalls (fileEnv roots "125" card counting flt 0 1.01) card card.bins =
      .ok [.channel (hh [2, 3]) "b", .data (hh [2, 3]) "b", .process (hh [1, 2]) "s" "b" true, .process (hh [1, 2]) "q" "b" false] := by
    show nominalCalls _ _ ["b"] = _
    rw [nominalCalls, show Dict.get card.binMap "b" = .ok [("s", 5), ("q", 6)] from rfl, ok_bind]
    show (processCalls _ _ _ ["data_obs", "s", "q"]).bind _ = _
    simp only [processCalls, nominal_given n (.inl rfl) hb given_obs, nominal_given n (.inr hs) hb given_s, nominal_given n (.inr hq) hb given_q,
      ok_bind, ok_map, nominalCalls]
    rfl
  have h2 : rateParamCalls (fileEnv roots "125" card counting flt 0 1.01) card card.rateParams = .ok [.norm "r" ["q"] "b" (.single 1.01) false] := by
    show rateParamCalls _ _ [["r", "*", "q", "1"]] = _
    simp only [rateParamCalls, rateParamCall]
    rw [show (fileEnv roots "125" card counting flt 0 1.01).flt "1" = .ok 1 from by simp [fileEnv, flt]]
    rfl
  have h3 : systCalls (fileEnv roots "125" card counting flt 0 1.01) card card.systematics = .ok [.syst (some (hh [2, 3])) (some (hh [1, 1])) "jes" "s" "b" 1 true,
      .norm "lum" ["s"] "b" (.single 2) true, .norm "lum" ["q"] "b" (.pair 3 1) true] := by
    have e1 := shapeCall_given (count := counting) (zero := 0) (one := 1.01) (flt := flt) (e := "1") n (s := card.systematics[0]) (by simp [card]) hb hs given_up given_down (k := 1) (by simp [flt])
    have e2 := (normCall_given (env := fileEnv roots "125" card counting flt 0 1.01) (name := "lum") (p := "s") (b := "b") (e := "2")).1 (by decide +kernel) 2 (by simp [fileEnv, flt])
    have e3 := (normCall_given (env := fileEnv roots "125" card counting flt 0 1.01) (name := "lum") (p := "q") (b := "b") (e := "1/3")).2 "1" "3" 1 3 (by decide +kernel) (by decide +kernel) (by decide +kernel)
      (by simp [fileEnv, flt]) (by simp [fileEnv, flt])
    show systCalls _ _ [⟨"jes", "shape", none, [(("b", "s"), "1"), (("b", "q"), "-")]⟩, ⟨"lum", "lnN", none, [(("b", "s"), "2"), (("b", "q"), "1/3")]⟩] = _
    simp only [systCalls, effectCalls]
    rw [show shapeCall (fileEnv roots "125" card counting flt 0 1.01) card "jes" "shape" "s" "b" "1" = _ from e1, e2, e3]
    rfl
  rw [convert, h1, ok_bind, h2, ok_bind, h3]
  rfl

def viewC (t : Tensor ℝ) : Bool := t.procs == ["s", "q"] && t.systs == ["r", "jes", "lum"]

theorem run_ok {V : Type} [Field V] [LinearOrder V] {cfg : Cfg V} {ops : List (Op V)} : ∀ {s : State V}, Writer.Ex.allOkB cfg s ops = true →
    runAll cfg s ops = .ok (runOps cfg s ops) := by
  induction ops with
  | nil => exact fun _ => rfl
  | cons op ops ih =>
    intro s h
    rw [Writer.Ex.allOkB, Bool.and_eq_true] at h
    rw [runAll]
    rcases hst : step cfg op s with ⟨s', r⟩
    rw [hst] at h
    cases r with
    | error e => exact absurd h.1 Bool.false_ne_true
    | ok u =>
      dsimp only
      rw [ih h.2]
      show _ = Except.ok (runOps cfg (step cfg op s).1 ops)
      rw [hst]

def close (a b : Axis) : Bool := a.bins == b.bins

open Writer.Ex in
theorem good : okB (write (writerCfg Yields.num close false) id (run (writerCfg Yields.num close false) ops)).2 viewC = true ∧
    allOkB (writerCfg Yields.num close false) {} ops = true := by
  simp only [allOkB, run, runOps, ops, step, addProcess, addData,
    Option.getD_none, hr_sumw2 _ 1 2 one_pos.le two_pos.le, hr_vars _ 2 3 two_pos.le three_pos.le]
  refine ⟨?_, ?_⟩ <;> decide +kernel

end Ex

/-- The hypotheses of `c105_card_partial` are met: a card with a signal and a background, a shape row, a row of normalisations with a pair, and a rate
parameter; the expectation is written out in the second bin. -/
example : ∃ t C, cardFile (writerCfg Yields.num Ex.close false) .none id Ex.roots "125" Ex.flt 0 1.01 Ex.card = .ok t ∧ t.procs = ["s", "q"] ∧
    t.systs = ["r", "jes", "lum"] ∧ (∀ x, (FileFit.ofFile t .logNormal [1] true).loss x =
      .ok (some (Ex.paper.nll (strength t true (List.ofFn x)) (nuisance t (List.ofFn x)) + C))) ∧
    ∀ μ θ : String → ℝ, θ "jes" = 1 → Ex.paper.expected μ θ "b" 1 =
      μ "s" * (2 * Real.exp (Real.log (3 / 2) + Real.log 2 * θ "lum")) + 2 * Real.exp (Real.log 3 / 2 * θ "lum" + Real.log 1.01 * θ "r") := by
  obtain ⟨h1, h2⟩ := Ex.good
  obtain ⟨t, ht, hv⟩ := Writer.Ex.okB_iff h1
  simp only [Ex.viewC, Bool.and_eq_true, beq_iff_eq] at hv
  have hw : cardFile (writerCfg Yields.num Ex.close false) .none id Ex.roots "125" Ex.flt 0 1.01 Ex.card = .ok t := by
    have hc := Ex.converted
    obtain ⟨calls, hconv, hops⟩ := Datacard.bind_ok hc
    rw [cardFile, hconv, ok_bind, hops, ok_bind, Ex.run_ok h2, ok_bind]
    exact ht
  obtain ⟨C, hC⟩ := c105_card_partial Ex.close .none id (fun l => .refl l) Ex.roots "125" Ex.flt Ex.card Ex.paper Ex.describes t hw [1] true
  refine ⟨t, C, hw, hv.1, hv.2, hC, fun μ θ hθ => ?_⟩
  simp [Analysis.expected, Analysis.varied, Ex.paper, paired, smooth, logRatio, hθ]
  norm_num

/-! ### cards whose likelihood is another one -/

namespace ExQ

def hq (l : List ℚ) : Hist ℚ := ⟨[Writer.Ex.ax l.length], fun _ => l.map .fin, fun _ => l.map .fin⟩

def roots : String → Dict String (Node (Hist ℚ)) := fun _ => [("data_obs", .hist (hq [4])), ("s", .hist (hq [1])), ("q", .hist (hq [2]))]

def flt (s : String) : Res ℚ := if s = "1" then .ok 1 else if s = "2" then .ok 2 else .error .value

def card : Card ℚ where
  bins := ["b"]
  processes := ["s", "q"]
  indices := [("s", 0), ("q", 1)]
  observations := [("b", 4)]
  rates := [(("b", "s"), 1), (("b", "q"), 2)]
  binMap := [("b", [("s", 1), ("q", 2)])]
  shapes := [⟨"*", "*", "f", "$PROCESS", none⟩]

def made (c : Card ℚ) : Res (Tensor ℚ) := cardFile Writer.Ex.cfg .none id roots "125" flt 0 (101 / 100) c

/-- variation of the only bin of a process under the only nuisance -/
def logk (t : Tensor ℚ) (p : Nat) : ℚ := match t.body with
  | .dense _ l => l 0 p 0 0
  | _ => 7

/-- content of the only bin of a process -/
def norm (t : Tensor ℚ) (p : Nat) : ℚ := match t.body with
  | .dense n _ => n 0 p
  | _ => 7

theorem of_okB {c : Card ℚ} {f : Tensor ℚ → Bool} (h : Writer.Ex.okB (made c) f = true) : ∃ t, made c = .ok t ∧ f t = true := Writer.Ex.okB_iff h

end ExQ

/-- The code violates C105 for a rate parameter of all processes: only the first process of the card is varied. -/
theorem c105_rate_violated : ∃ t, ExQ.made { ExQ.card with rateParams := [["r", "b", "*", "1"]] } = .ok t ∧ t.procs = ["s", "q"] ∧ t.systs = ["r"] ∧
    ExQ.norm t 0 = 1 ∧ ExQ.norm t 1 = 2 ∧ ExQ.logk t 0 ≠ 0 ∧ ExQ.logk t 1 = 0 := by
  obtain ⟨t, h1, h2⟩ := ExQ.of_okB (c := { ExQ.card with rateParams := [["r", "b", "*", "1"]] })
    (f := fun t => decide (t.procs = ["s", "q"] ∧ t.systs = ["r"] ∧ ExQ.norm t 0 = 1 ∧ ExQ.norm t 1 = 2 ∧ ExQ.logk t 0 ≠ 0 ∧ ExQ.logk t 1 = 0)) (by decide +kernel)
  exact ⟨t, h1, of_decide_eq_true h2⟩

/-- The code violates C105 for a row of type `lnU`, whose nuisance has a flat prior: it is constrained like one of type `lnN`. -/
theorem c105_flat_violated : ∃ t, ExQ.made { ExQ.card with systematics := [⟨"u", "lnU", none, [(("b", "s"), "2"), (("b", "q"), "-")]⟩] } = .ok t ∧
    t.systs = ["u"] ∧ t.noConstraint = [] ∧ t.weights = [1] ∧
    ∃ t', ExQ.made { ExQ.card with systematics := [⟨"u", "lnN", none, [(("b", "s"), "2"), (("b", "q"), "-")]⟩] } = .ok t' ∧
      t'.systs = t.systs ∧ t'.noConstraint = t.noConstraint ∧ t'.weights = t.weights ∧ ExQ.logk t' 0 = ExQ.logk t 0 ∧ ExQ.logk t' 1 = ExQ.logk t 1 := by
  obtain ⟨t, h1, h2⟩ := ExQ.of_okB (c := { ExQ.card with systematics := [⟨"u", "lnU", none, [(("b", "s"), "2"), (("b", "q"), "-")]⟩] })
    (f := fun t => decide (t.systs = ["u"] ∧ t.noConstraint = [] ∧ t.weights = [1] ∧ ExQ.logk t 0 = 1 ∧ ExQ.logk t 1 = 0)) (by decide +kernel)
  obtain ⟨t', h1', h2'⟩ := ExQ.of_okB (c := { ExQ.card with systematics := [⟨"u", "lnN", none, [(("b", "s"), "2"), (("b", "q"), "-")]⟩] })
    (f := fun t => decide (t.systs = ["u"] ∧ t.noConstraint = [] ∧ t.weights = [1] ∧ ExQ.logk t 0 = 1 ∧ ExQ.logk t 1 = 0)) (by decide +kernel)
  obtain ⟨a1, a2, a3, a4, a5⟩ := of_decide_eq_true h2
  obtain ⟨b1, b2, b3, b4, b5⟩ := of_decide_eq_true h2'
  exact ⟨t, h1, a1, a2, a3, t', h1', b1.trans a1.symm, b2.trans a2.symm, b3.trans a3.symm, b4.trans a4.symm, b5.trans a5.symm⟩

/-- The code violates C105 for a card without shapes: the template of every process is the observation of its bin, whatever the rates. -/
theorem c105_counting_violated : ∃ t, ExQ.made { ExQ.card with shapes := [] } = .ok t ∧ t.procs = ["s", "q"] ∧
    ExQ.norm t 0 = 4 ∧ ExQ.norm t 1 = 4 ∧ Dict.get? ExQ.card.rates ("b", "s") = some 1 ∧ Dict.get? ExQ.card.rates ("b", "q") = some 2 := by
  obtain ⟨t, h1, h2⟩ := ExQ.of_okB (c := { ExQ.card with shapes := [] })
    (f := fun t => decide (t.procs = ["s", "q"] ∧ ExQ.norm t 0 = 4 ∧ ExQ.norm t 1 = 4)) (by decide +kernel)
  obtain ⟨a1, a2, a3⟩ := of_decide_eq_true h2
  exact ⟨t, h1, a1, a2, a3, by decide +kernel, by decide +kernel⟩

/-- The code violates C105 for a row of type `gmN`: the file has no nuisance for it. -/
theorem c105_gamma_violated : ∃ t, ExQ.made { ExQ.card with systematics := [⟨"g", "gmN", some 4, [(("b", "s"), "2"), (("b", "q"), "-")]⟩] } = .ok t ∧
    t.procs = ["s", "q"] ∧ t.systs = [] := by
  obtain ⟨t, h1, h2⟩ := ExQ.of_okB (c := { ExQ.card with systematics := [⟨"g", "gmN", some 4, [(("b", "s"), "2"), (("b", "q"), "-")]⟩] })
    (f := fun t => decide (t.procs = ["s", "q"] ∧ t.systs = [])) (by decide +kernel)
  exact ⟨t, h1, of_decide_eq_true h2⟩

end

end Verif.CardFile
