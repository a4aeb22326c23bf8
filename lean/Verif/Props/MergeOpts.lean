import Verif.Model.MergeOpts
import Verif.Props.Merge

/-!
C89: the options of the merge tool: new names and clipping.
-/

set_option linter.unusedSectionVars false

namespace Verif.MergeOpts

open Verif.Logk Verif.Writer Verif.Writer.M Verif.Merge

/-! ### Specification -/

/-- the input with other names: every name is replaced by its entry in the table of its kind -/
def Spec.renamed {V : Type} (s g p c : String → String) (I : Input V) : Input V :=
  { I with tensor := { I.tensor with
      procs := I.tensor.procs.map p
      signals := I.tensor.signals.map p
      systs := I.tensor.systs.map s
      noConstraint := I.tensor.noConstraint.map s
      groups := I.tensor.groups.map fun e => (g e.1, e.2)
      channelInfo := I.tensor.channelInfo.map fun e => (c e.1, e.2) } }

/-- the entry of a table; names without entry stay -/
def Spec.entry (d : List (String × String)) (s : String) : String := ((d.find? fun e => e.1 == s).map (·.2)).getD s

/-- the new names keep different names of an input different -/
def Spec.Distinct {V : Type} (s p : String → String) (I : Input V) : Prop :=
  (∀ x ∈ I.tensor.systs ++ I.tensor.noConstraint, ∀ y ∈ I.tensor.systs ++ I.tensor.noConstraint, s x = s y → x = y) ∧
  ∀ x ∈ I.tensor.procs ++ I.tensor.signals, ∀ y ∈ I.tensor.procs ++ I.tensor.signals, p x = p y → x = y

/-- no new name of a process is longer than the longest old one -/
def Spec.Short {V : Type} (p : String → String) (I : Input V) : Prop :=
  ∀ x ∈ I.tensor.procs, ∃ y ∈ I.tensor.procs, (p x).length ≤ y.length

/-- what a tensor says about a varied template: the template -/
noncomputable def Spec.template (st : SystType) (logk norm : ℝ) : ℝ :=
  match st with
  | .logNormal => Real.exp logk * norm
  | _ => logk + norm

/-- what is stored for a varied template: its ratio to the nominal one in logarithms, or the difference -/
noncomputable def Spec.stored (st : SystType) (x norm : ℝ) : ℝ :=
  match st with
  | .logNormal => Real.log (x / norm)
  | _ => x - norm

/-- the template varied up (`1`) or down (`-1`) by one standard deviation -/
noncomputable def Spec.shifted (I : Input ℝ) (norm : Nat → Nat → ℝ) (logk : Nat → Nat → Nat → Nat → ℝ) (d : ℝ) (b p j : Nat) : ℝ :=
  Spec.template I.systType (d * logk b p 0 j + if I.tensor.symmetric then 0 else logk b p 1 j) (norm b p)

/-- the input with all templates raised to the threshold: nominal ones, their variances, and varied ones -/
noncomputable def Spec.raised (thr : ℝ) (I : Input ℝ) : Input ℝ :=
  match I.tensor.body with
  | .sparse _ => I
  | .dense norm logk =>
    let u := fun d b p j => Spec.stored I.systType (max (Spec.shifted I norm logk d b p j) thr) (max (norm b p) thr)
    { I with tensor := { I.tensor with
        symmetric := false
        sumw2 := fun b p => max (I.tensor.sumw2 b p) thr
        body := .dense (fun b p => max (norm b p) thr) fun b p k j =>
          if k = 0 then (u 1 b p j - u (-1) b p j) / 2 else (u 1 b p j + u (-1) b p j) / 2 } }

/-- raising leaves a variation of every process that a systematic varies in a channel -/
def Spec.Alive (thr : ℝ) (I : Input ℝ) : Prop :=
  ∀ norm logk, I.tensor.body = .dense norm logk → ∀ name a b, (name, a, b) ∈ readerFrom 0 I.tensor.channelInfo →
    ∀ p, p < I.tensor.procs.length → ∀ j, j < I.tensor.systs.length →
    (∃ i, a ≤ i ∧ i < b ∧ ∃ d, (d = 1 ∨ d = -1) ∧ (d * logk i p 0 j + if I.tensor.symmetric then 0 else logk i p 1 j) ≠ 0) →
    ∃ i, a ≤ i ∧ i < b ∧ ∃ d, (d = 1 ∨ d = -1) ∧ max (Spec.shifted I norm logk d i p j) thr ≠ max (norm i p) thr

/-- the threshold of a tensor: the last one given for it -/
def Spec.threshold (l : List (String × ℝ)) (name : String) : Option ℝ := (l.reverse.find? fun e => e.1 == name).map (·.2)

/-- the input as its options ask -/
noncomputable def Spec.optioned (T : Tables) (l : List (String × ℝ)) (I : String × Input ℝ) : Input ℝ :=
  Spec.renamed (Spec.entry T.systs) (Spec.entry T.groups) (Spec.entry T.procs) (Spec.entry T.channels)
    (match Spec.threshold l I.1 with
    | none => I.2
    | some thr => Spec.raised thr I.2)

/-! ### Names -/

theorem look_eq (d : Dict String String) (s : String) : look d s = Spec.entry d s := by
  unfold look Spec.entry
  congr 1
  induction d with
  | nil => rfl
  | cons e d ih =>
    obtain ⟨a, b⟩ := e
    unfold Dict.get?
    rw [List.find?_cons]
    by_cases h : a = s
    · rw [if_pos h]
      simp [h]
    · rw [if_neg h, ih]
      have : (a == s) = false := beq_false_of_ne h
      dsimp only
      rw [this]

theorem le_foldl (l : List String) : ∀ n, n ≤ l.foldl (fun n s => max n s.length) n ∧
    ∀ y ∈ l, y.length ≤ l.foldl (fun n s => max n s.length) n := by
  induction l with
  | nil => exact fun n => ⟨le_rfl, fun _ h => nomatch h⟩
  | cons a l ih =>
    intro n
    rw [List.foldl_cons]
    obtain ⟨h1, h2⟩ := ih (max n a.length)
    refine ⟨(le_max_left _ _).trans h1, fun y hy => ?_⟩
    rcases List.mem_cons.1 hy with rfl | hy
    · exact (le_max_right _ _).trans h1
    · exact h2 y hy

theorem newProc_eq (T : Tables) (procs : List String) (p : String) (h : ∃ y ∈ procs, (look T.procs p).length ≤ y.length) :
    newProc T procs p = look T.procs p := by
  obtain ⟨y, hy, hl⟩ := h
  unfold newProc
  unfold look at hl ⊢
  cases hg : T.procs.get? p with
  | none => rfl
  | some q =>
    rw [hg] at hl
    have hw := (le_foldl procs 1).2 y hy
    show fit (width procs) q = q
    unfold fit
    rw [List.take_of_length_le]
    · exact String.ofList_toList
    · rw [String.length_toList]
      exact le_trans hl hw

section
variable {V : Type} [Field V] [LinearOrder V]

/-- what the tables mean -/
abbrev Tables.apply (T : Tables) (I : Input V) : Input V :=
  Spec.renamed (look T.systs) (look T.groups) (look T.procs) (look T.channels) I

theorem blocks_map (c : String → String) (L : Dict String Chan) : ∀ ibin,
    blocksFrom ibin (L.map fun e => (c e.1, e.2)) = (blocksFrom ibin L).map fun k => { k with name := c k.name } := by
  induction L with
  | nil => intro ibin; rfl
  | cons e L ih =>
    intro ibin
    obtain ⟨n, ch⟩ := e
    rw [List.map_cons, blocksFrom, blocksFrom, ih, List.map_cons]

theorem forEach_map {α β : Type} (f : α → β) (body : β → M V Unit) (l : List α) :
    M.forEach body (l.map f) = M.forEach (fun a => body (f a)) l := by
  induction l with
  | nil => rfl
  | cons a l ih => rw [List.map_cons, M.forEach, M.forEach, ih]

theorem forEach_congr {α : Type} (f g : α → M V Unit) (l : List α) (h : ∀ a ∈ l, f a = g a) : M.forEach f l = M.forEach g l := by
  induction l with
  | nil => rfl
  | cons a l ih =>
    rw [M.forEach, M.forEach, ih fun b hb => h b (List.mem_cons_of_mem _ hb), h a (List.mem_cons_self ..)]

theorem mem_map_inj {f : String → String} {l : List String} {x : String} (h : ∀ y ∈ l, f x = f y → x = y) :
    f x ∈ l.map f ↔ x ∈ l := by
  constructor
  · intro hx
    obtain ⟨y, hy, e⟩ := List.mem_map.1 hx
    rw [h y hy e.symm]
    exact hy
  · exact fun hx => List.mem_map.2 ⟨x, hx, rfl⟩

theorem zipIdx_map' {α β : Type} (f : α → β) (l : List α) : (l.map f).zipIdx = l.zipIdx.map fun x => (f x.1, x.2) := by
  rw [List.zipIdx_map]
  rfl

theorem groupsOf_eq (T : Tables) (t : Tensor V) (j : Nat) (u : Tensor V)
    (h : u.groups = t.groups.map fun e => (look T.groups e.1, e.2)) : Merge.groupsOf u j = groupsOf T t j := by
  unfold Merge.groupsOf groupsOf
  rw [h, List.flatMap_map]

theorem filterMap_names (f : String → String) (l : List Nat) (systs : List String) :
    (l.filterMap fun i => (systs.map f)[i]?) = (l.filterMap fun i => systs[i]?).map f := by
  rw [List.map_filterMap]
  congr 1
  funext i
  rw [List.getElem?_map]

theorem optsOf_eq (T : Tables) (I : Input V) (j : Nat) (m : String) (hm : m ∈ I.tensor.systs)
    (hd : Spec.Distinct (look T.systs) (look T.procs) I) :
    Merge.optsOf (T.apply I).tensor j (look T.systs m) = optsOf T I.tensor j m := by
  unfold Merge.optsOf optsOf
  rw [groupsOf_eq T I.tensor j _ rfl]
  have h1 : look T.systs m ∈ ((T.apply I).tensor.noiIdxs.filterMap fun i => (T.apply I).tensor.systs[i]?) ↔
      m ∈ I.tensor.noiIdxs.filterMap fun i => I.tensor.systs[i]? := by
    show look T.systs m ∈ (I.tensor.noiIdxs.filterMap fun i => (I.tensor.systs.map (look T.systs))[i]?) ↔ _
    rw [filterMap_names]
    refine mem_map_inj fun y hy e => hd.1 m (List.mem_append_left _ hm) y (List.mem_append_left _ ?_) e
    obtain ⟨i, -, hi⟩ := List.mem_filterMap.1 hy
    exact List.mem_of_getElem? hi
  have h2 : look T.systs m ∈ (T.apply I).tensor.noConstraint ↔ m ∈ I.tensor.noConstraint :=
    mem_map_inj fun y hy e => hd.1 m (List.mem_append_left _ hm) y (List.mem_append_right _ hy) e
  congr 1
  · exact decide_eq_decide.2 h1
  · rw [decide_eq_decide.2 h2]

theorem block_eq (T : Tables) (cfg : Cfg V) (exp : V → V) (I : Input V) (norm : Nat → Nat → V)
    (logk : Nat → Nat → Nat → Nat → V) (k : Block) (hd : Spec.Distinct (look T.systs) (look T.procs) I)
    (hs : Spec.Short (look T.procs) I) :
    mergeBlock T none cfg exp I norm logk k =
      Merge.mergeBlock cfg exp (T.apply I) norm logk { k with name := look T.channels k.name } := by
  have e1 : nominalOps T none I norm k =
      Merge.nominalOps (T.apply I) norm { k with name := look T.channels k.name } := by
    unfold nominalOps Merge.nominalOps
    congr 1
    show _ = ((I.tensor.procs.map (look T.procs)).zipIdx).map _
    rw [zipIdx_map', List.map_map]
    refine List.map_congr_left fun p hp => ?_
    have hm : p.1 ∈ I.tensor.procs := List.fst_mem_of_mem_zipIdx hp
    show Op.process _ _ _ _ _ = Op.process _ _ _ _ _
    rw [newProc_eq T _ _ (hs p.1 hm)]
    congr 1
    refine decide_eq_decide.2 ?_
    exact (mem_map_inj fun y hy e => hd.2 p.1 (List.mem_append_left _ hm) y (List.mem_append_right _ hy) e).symm
  have e2 : systOps T none exp I norm logk k =
      Merge.systOps exp (T.apply I) norm logk { k with name := look T.channels k.name } := by
    unfold systOps Merge.systOps
    show _ = ((I.tensor.systs.map (look T.systs)).zipIdx).flatMap _
    rw [zipIdx_map', List.flatMap_map]
    refine List.flatMap_congr fun m hm => ?_
    have hm' : m.1 ∈ I.tensor.systs := List.fst_mem_of_mem_zipIdx hm
    show _ = (((I.tensor.procs.map (look T.procs)).zipIdx).filter _).map _
    rw [zipIdx_map', List.filter_map, List.map_map]
    refine List.map_congr_left fun p hp => ?_
    show Op.syst _ _ _ _ _ _ _ _ _ _ = Op.syst _ _ _ _ _ _ _ _ _ _
    have := optsOf_eq T I m.2 m.1 hm' hd
    rw [← this]
    rfl
  unfold mergeBlock Merge.mergeBlock
  rw [e1, e2]
  have e3 : (T.apply I).tensor.procs.isEmpty = I.tensor.procs.isEmpty := List.isEmpty_map
  rw [e3]
  rfl

theorem input_eq (T : Tables) (cfg : Cfg V) (exp : V → V) (I : Input V) (hd : Spec.Distinct (look T.systs) (look T.procs) I)
    (hs : Spec.Short (look T.procs) I) : mergeInput T none cfg exp I = Merge.mergeInput cfg exp (T.apply I) := by
  unfold mergeInput Merge.mergeInput
  show _ = match I.tensor.body with
    | .sparse _ => _
    | .dense norm logk => _
  cases hb : I.tensor.body with
  | sparse o => rfl
  | dense norm logk =>
    dsimp only
    have e : (T.apply I).tensor.channelInfo = I.tensor.channelInfo.map fun e => (look T.channels e.1, e.2) := rfl
    have e2 : (T.apply I).tensor.channelInfo.isEmpty = I.tensor.channelInfo.isEmpty := List.isEmpty_map
    rw [e2, e, blocks_map, forEach_map]
    congr 1
    funext _
    exact forEach_congr _ _ _ fun k _ => block_eq T cfg exp I norm logk k hd hs

end

/-! ### Clipping -/

theorem stored_template {st : SystType} (hst : st ≠ .other) {x n : ℝ} (h : st = .logNormal → 0 < x ∧ 0 < n) :
    varied Real.exp st (Spec.stored st x n) n = x := by
  cases st with
  | other => exact absurd rfl hst
  | normal => simp [varied, Spec.stored]
  | logNormal =>
    obtain ⟨hx, hn⟩ := h rfl
    show Real.exp (Real.log (x / n)) * n = x
    rw [Real.exp_log (div_pos hx hn), div_mul_cancel₀ _ hn.ne']

theorem stored_eq_zero {st : SystType} {x n : ℝ} (h : st = .logNormal → 0 < x ∧ 0 < n) : Spec.stored st x n = 0 ↔ x = n := by
  cases st with
  | other => exact sub_eq_zero
  | normal => exact sub_eq_zero
  | logNormal =>
    obtain ⟨hx, hn⟩ := h rfl
    show Real.log (x / n) = 0 ↔ _
    constructor
    · intro h0
      have := Real.exp_log (div_pos hx hn)
      rw [h0, Real.exp_zero] at this
      exact (div_eq_one_iff_eq hn.ne').1 this.symm
    · rintro rfl
      rw [div_self hn.ne', Real.log_one]

theorem template_eq {st : SystType} (hst : st ≠ .other) (v n : ℝ) : Spec.template st v n = varied Real.exp st v n := by
  cases st with
  | other => exact absurd rfl hst
  | normal => rfl
  | logNormal => rfl

theorem template_zero (st : SystType) (n : ℝ) : Spec.template st 0 n = n := by
  cases st <;> simp [Spec.template]

theorem up_eq (t : Tensor ℝ) (logk : Nat → Nat → Nat → Nat → ℝ) (b p j : Nat) :
    upVar t logk b p j = 1 * logk b p 0 j + if t.symmetric then 0 else logk b p 1 j := by
  unfold upVar
  split <;> ring

theorem down_eq (t : Tensor ℝ) (logk : Nat → Nat → Nat → Nat → ℝ) (b p j : Nat) :
    downVar t logk b p j = -1 * logk b p 0 j + if t.symmetric then 0 else logk b p 1 j := by
  unfold downVar
  split <;> ring

section
variable {thr : ℝ} {I : Input ℝ} {norm : Nat → Nat → ℝ} {logk : Nat → Nat → Nat → Nat → ℝ}

/-- the stored variation of a raised input -/
noncomputable def rvar (thr : ℝ) (I : Input ℝ) (norm : Nat → Nat → ℝ) (logk : Nat → Nat → Nat → Nat → ℝ) (d : ℝ) (b p j : Nat) : ℝ :=
  Spec.stored I.systType (max (Spec.shifted I norm logk d b p j) thr) (max (norm b p) thr)

/-- the stored tensor of a raised input -/
noncomputable def rlogk (thr : ℝ) (I : Input ℝ) (norm : Nat → Nat → ℝ) (logk : Nat → Nat → Nat → Nat → ℝ) (b p k j : Nat) : ℝ :=
  if k = 0 then (rvar thr I norm logk 1 b p j - rvar thr I norm logk (-1) b p j) / 2
  else (rvar thr I norm logk 1 b p j + rvar thr I norm logk (-1) b p j) / 2

theorem raised_eq (hb : I.tensor.body = .dense norm logk) : Spec.raised thr I = { I with tensor := { I.tensor with
    symmetric := false
    sumw2 := fun b p => max (I.tensor.sumw2 b p) thr
    body := .dense (fun b p => max (norm b p) thr) (rlogk thr I norm logk) } } := by
  unfold Spec.raised
  rw [hb]
  rfl

theorem raised_up (t : Tensor ℝ) (ht : t.symmetric = false) (b p j : Nat) :
    upVar t (rlogk thr I norm logk) b p j = rvar thr I norm logk 1 b p j := by
  unfold upVar rlogk
  rw [ht, if_neg (by simp), if_pos rfl, if_neg (by simp)]
  ring

theorem raised_down (t : Tensor ℝ) (ht : t.symmetric = false) (b p j : Nat) :
    downVar t (rlogk thr I norm logk) b p j = rvar thr I norm logk (-1) b p j := by
  unfold downVar rlogk
  rw [ht, if_neg (by simp), if_pos rfl, if_neg (by simp)]
  ring

theorem rvar_zero (hthr : I.systType = .logNormal → 0 < thr) (d : ℝ) (b p j : Nat) :
    rvar thr I norm logk d b p j = 0 ↔ max (Spec.shifted I norm logk d b p j) thr = max (norm b p) thr :=
  stored_eq_zero fun h => ⟨lt_max_of_lt_right (hthr h), lt_max_of_lt_right (hthr h)⟩

theorem rvaried (hst : I.systType ≠ .other) (hthr : I.systType = .logNormal → 0 < thr) (d : ℝ) (b p j : Nat) :
    varied Real.exp I.systType (rvar thr I norm logk d b p j) (max (norm b p) thr) = max (Spec.shifted I norm logk d b p j) thr :=
  stored_template hst fun h => ⟨lt_max_of_lt_right (hthr h), lt_max_of_lt_right (hthr h)⟩

/-- a bin varies if one of the two templates does -/
theorem varies_iff (t : Tensor ℝ) (logk : Nat → Nat → Nat → Nat → ℝ) (b p j : Nat) :
    varies t logk b p j = true ↔ ∃ d : ℝ, (d = 1 ∨ d = -1) ∧ (d * logk b p 0 j + if t.symmetric then 0 else logk b p 1 j) ≠ 0 := by
  unfold varies
  cases t.symmetric with
  | true =>
    simp
  | false =>
    simp only [Bool.false_eq_true, if_false, Bool.or_eq_true, decide_eq_true_eq, abs_pos]
    constructor
    · intro h
      by_contra hc
      push Not at hc
      have h1 := hc 1 (.inl rfl)
      have h2 := hc (-1) (.inr rfl)
      rcases h with h | h
      · exact h (by linarith)
      · exact h (by linarith)
    · rintro ⟨d, hd, h⟩
      by_contra hc
      push Not at hc
      exact h (by rw [hc.1, hc.2]; ring)

theorem active_eq (hthr : I.systType = .logNormal → 0 < thr) (hfl : ∀ e ∈ I.tensor.channelInfo, e.2.flow = false)
    (hb : I.tensor.body = .dense norm logk) (ha : Spec.Alive thr I) {k : Block} (hk : k ∈ blocksFrom 0 I.tensor.channelInfo) {p j : Nat}
    (hp : p < I.tensor.procs.length) (hj : j < I.tensor.systs.length) (t : Tensor ℝ) (ht : t.symmetric = false) :
    active t (rlogk thr I norm logk) k p j = active I.tensor logk k p j := by
  have hr := reader_of_block hfl hk
  have hd : ∀ d b, (d * rlogk thr I norm logk b p 0 j + if t.symmetric then 0 else rlogk thr I norm logk b p 1 j) =
      if d = 1 then rvar thr I norm logk 1 b p j else if d = -1 then rvar thr I norm logk (-1) b p j else
        d * rlogk thr I norm logk b p 0 j + rlogk thr I norm logk b p 1 j := by
    intro d b
    rw [ht, if_neg (by simp)]
    by_cases h1 : d = 1
    · rw [if_pos h1, h1]
      unfold rlogk
      rw [if_pos rfl, if_neg (by simp)]
      ring
    · rw [if_neg h1]
      by_cases h2 : d = -1
      · rw [if_pos h2, h2]
        unfold rlogk
        rw [if_pos rfl, if_neg (by simp)]
        ring
      · rw [if_neg h2]
  have hd' : ∀ d b, d = 1 ∨ d = -1 → (d * rlogk thr I norm logk b p 0 j + if t.symmetric then 0 else rlogk thr I norm logk b p 1 j) =
      rvar thr I norm logk d b p j := by
    intro d b h
    rw [hd]
    rcases h with rfl | rfl
    · rw [if_pos rfl]
    · rw [if_neg (by norm_num), if_pos rfl]
  rw [Bool.eq_iff_iff]
  unfold active
  simp only [List.any_eq_true, List.mem_range]
  constructor
  · rintro ⟨i, hi, hv⟩
    refine ⟨i, hi, ?_⟩
    rw [varies_iff] at hv ⊢
    obtain ⟨d, h1, h2⟩ := hv
    refine ⟨d, h1, fun h0 => h2 ?_⟩
    rw [hd' d _ h1, rvar_zero hthr]
    unfold Spec.shifted
    rw [h0, template_zero]
  · rintro ⟨i, hi, hv⟩
    rw [varies_iff] at hv
    obtain ⟨d, h1, h2⟩ := hv
    obtain ⟨i', ha', hb', d', h3, h4⟩ := ha norm logk hb _ _ _ hr p hp j hj ⟨k.start + i, by omega, by omega, d, h1, h2⟩
    refine ⟨i' - k.start, by omega, (varies_iff _ _ _ _ _).2 ⟨d', h3, ?_⟩⟩
    rw [show k.start + (i' - k.start) = i' by omega, hd' d' _ h3]
    exact fun h => h4 ((rvar_zero hthr _ _ _ _).1 h)

theorem block_raised (T : Tables) (cfg : Cfg ℝ) (hst : I.systType ≠ .other) (hthr : I.systType = .logNormal → 0 < thr)
    (hfl : ∀ e ∈ I.tensor.channelInfo, e.2.flow = false) (hb : I.tensor.body = .dense norm logk) (ha : Spec.Alive thr I) {k : Block}
    (hk : k ∈ blocksFrom 0 I.tensor.channelInfo) :
    mergeBlock T (some thr) cfg Real.exp I norm logk k =
      mergeBlock T none cfg Real.exp (Spec.raised thr I) (fun b p => max (norm b p) thr) (rlogk thr I norm logk) k := by
  rw [raised_eq hb]
  unfold mergeBlock
  have e2 : systOps T (some thr) Real.exp I norm logk k = systOps T none Real.exp { I with tensor := { I.tensor with
      symmetric := false
      sumw2 := fun b p => max (I.tensor.sumw2 b p) thr
      body := .dense (fun b p => max (norm b p) thr) (rlogk thr I norm logk) } } (fun b p => max (norm b p) thr) (rlogk thr I norm logk) k := by
    unfold systOps
    dsimp only
    refine List.flatMap_congr fun m hm => ?_
    have hm' : m.2 < I.tensor.systs.length := by
      have := List.snd_lt_add_of_mem_zipIdx hm
      omega
    have hf : (I.tensor.procs.zipIdx.filter fun p => active I.tensor logk k p.2 m.2) =
        I.tensor.procs.zipIdx.filter fun p => active { I.tensor with
          symmetric := false
          sumw2 := fun b p => max (I.tensor.sumw2 b p) thr
          body := .dense (fun b p => max (norm b p) thr) (rlogk thr I norm logk) } (rlogk thr I norm logk) k p.2 m.2 := by
      refine List.filter_congr fun p hp => ?_
      have hp' : p.2 < I.tensor.procs.length := by
        have := List.snd_lt_add_of_mem_zipIdx hp
        omega
      exact (active_eq hthr hfl hb ha hk hp' hm' _ rfl).symm
    rw [hf]
    refine List.map_congr_left fun p _ => ?_
    have hu : systHist (some thr) Real.exp I.systType norm k p.2 (fun b => upVar I.tensor logk b p.2 m.2) =
        systHist none Real.exp I.systType (fun b p => max (norm b p) thr) k p.2
          (fun b => upVar { I.tensor with
            symmetric := false
            sumw2 := fun b p => max (I.tensor.sumw2 b p) thr
            body := .dense (fun b p => max (norm b p) thr) (rlogk thr I norm logk) } (rlogk thr I norm logk) b p.2 m.2) := by
      unfold systHist clipVal
      dsimp only
      congr 1 <;>
      · unfold slice
        refine List.map_congr_left fun i _ => ?_
        dsimp only
        rw [raised_up (ht := rfl), rvaried hst hthr, up_eq, ← template_eq hst]
        rfl
    have hd : systHist (some thr) Real.exp I.systType norm k p.2 (fun b => downVar I.tensor logk b p.2 m.2) =
        systHist none Real.exp I.systType (fun b p => max (norm b p) thr) k p.2
          (fun b => downVar { I.tensor with
            symmetric := false
            sumw2 := fun b p => max (I.tensor.sumw2 b p) thr
            body := .dense (fun b p => max (norm b p) thr) (rlogk thr I norm logk) } (rlogk thr I norm logk) b p.2 m.2) := by
      unfold systHist clipVal
      dsimp only
      congr 1 <;>
      · unfold slice
        refine List.map_congr_left fun i _ => ?_
        dsimp only
        rw [raised_down (ht := rfl), rvaried hst hthr, down_eq, ← template_eq hst]
        rfl
    unfold systOp
    dsimp only
    rw [hu, hd]
    rfl
  rw [e2]
  rfl

theorem input_raised (T : Tables) (cfg : Cfg ℝ) (hthr : I.systType = .logNormal → 0 < thr)
    (hfl : ∀ e ∈ I.tensor.channelInfo, e.2.flow = false) (ha : Spec.Alive thr I) :
    mergeInput T (some thr) cfg Real.exp I = mergeInput T none cfg Real.exp (Spec.raised thr I) := by
  cases hb : I.tensor.body with
  | sparse o =>
    have : Spec.raised thr I = I := by
      unfold Spec.raised
      rw [hb]
    rw [this]
    unfold mergeInput
    rw [hb]
  | dense norm logk =>
    have e1 : mergeInput T none cfg Real.exp (Spec.raised thr I) = (do
        M.raiseIf (decide (I.systType = .other) && !I.tensor.channelInfo.isEmpty) .exception
        M.forEach (mergeBlock T none cfg Real.exp (Spec.raised thr I) (fun b p => max (norm b p) thr) (rlogk thr I norm logk))
          (blocksFrom 0 I.tensor.channelInfo)) := by
      rw [raised_eq hb]
      rfl
    rw [e1]
    unfold mergeInput
    rw [hb]
    dsimp only
    by_cases hst : I.systType = .other
    · cases hc : I.tensor.channelInfo with
      | nil => rfl
      | cons e l =>
        rw [hst]
        rfl
    · congr 1
      funext _
      exact forEach_congr _ _ _ fun k hk => block_raised T cfg hst hthr hfl hb ha hk

end

/-! ### C89 -/

theorem clipDict_get (l : List (String × ℝ)) (name : String) : (clipDict l).get? name = Spec.threshold l name := by
  unfold Spec.threshold
  induction l using List.reverseRecOn with
  | nil => rfl
  | append_singleton l e ih =>
    unfold clipDict at ih ⊢
    rw [List.foldl_append, List.reverse_append, List.foldl_cons, List.foldl_nil, List.reverse_singleton, List.singleton_append, List.find?_cons]
    by_cases h : e.1 = name
    · have : (e.1 == name) = true := by simp [h]
      rw [this, h, Dict.get?_set_self]
      rfl
    · have : (e.1 == name) = false := beq_false_of_ne h
      rw [this, Dict.get?_set_ne _ _ h, ih]

theorem clipPairs_eq (float : String → Option ℝ) : ∀ args : List (String × String × ℝ), (∀ a ∈ args, float a.2.1 = some a.2.2) →
    clipPairs float (args.flatMap fun a => [a.1, a.2.1]) = .ok (args.map fun a => (a.1, a.2.2))
  | [], _ => rfl
  | a :: args, h => by
    rw [List.flatMap_cons]
    show clipPairs float (a.1 :: a.2.1 :: args.flatMap fun a => [a.1, a.2.1]) = _
    unfold clipPairs
    rw [h a (List.mem_cons_self ..), clipPairs_eq float args fun b hb => h b (List.mem_cons_of_mem _ hb)]
    rfl

/-- C89 (new names of processes not longer than the longest old one and different names kept different; clipped tensors with
positive thresholds unless variations are additive, without flow bins, and with every variation left somewhere): the merged
file is that of the plain merge of the inputs with their new names and with their templates raised to the thresholds.
`c59_yields_partial` and `c59_groups` then say what it contains.  Missing: longer names, which are cut
(`c89_cut_violated`); a variation that clipping removes from a channel is still written, as zeros. -/
theorem c89_options_partial (T : Tables) (float : String → Option ℝ) (args : List (String × String × ℝ))
    (hf : ∀ a ∈ args, float a.2.1 = some a.2.2) (num : Num ℝ) (close : Axis → Axis → Bool) (st : SystType)
    (iter : List String → List String) (Is : List (String × Input ℝ))
    (hd : ∀ I ∈ Is, Spec.Distinct (Spec.entry T.systs) (Spec.entry T.procs) I.2)
    (hs : ∀ I ∈ Is, Spec.Short (Spec.entry T.procs) I.2)
    (hc : ∀ I ∈ Is, ∀ thr, Spec.threshold (args.map fun a => (a.1, a.2.2)) I.1 = some thr → (I.2.systType = .logNormal → 0 < thr) ∧
      (∀ e ∈ I.2.tensor.channelInfo, e.2.flow = false) ∧ Spec.Alive thr I.2) :
    mergedFile T float (args.flatMap fun a => [a.1, a.2.1]) num close st Real.exp iter Is =
      Merge.mergedFile num close st Real.exp iter (Is.map (Spec.optioned T (args.map fun a => (a.1, a.2.2)))) := by
  have hs' : look T.systs = Spec.entry T.systs := funext (look_eq _)
  have hg' : look T.groups = Spec.entry T.groups := funext (look_eq _)
  have hp' : look T.procs = Spec.entry T.procs := funext (look_eq _)
  have hc' : look T.channels = Spec.entry T.channels := funext (look_eq _)
  unfold mergedFile Merge.mergedFile
  dsimp only
  rw [clipPairs_eq float args hf]
  show ((do merge T (clipDict _) _ Real.exp Is; write _ iter : M ℝ (Tensor ℝ)) {}).2 = _
  have : ∀ cfg : Cfg ℝ, merge T (clipDict (args.map fun a => (a.1, a.2.2))) cfg Real.exp Is =
      Merge.merge cfg Real.exp (Is.map (Spec.optioned T (args.map fun a => (a.1, a.2.2)))) := by
    intro cfg
    unfold merge Merge.merge
    rw [forEach_map]
    refine forEach_congr _ _ _ fun I hI => ?_
    rw [clipDict_get]
    unfold Spec.optioned
    rw [← hs', ← hg', ← hp', ← hc']
    have hd1 := hd I hI
    have hs1 := hs I hI
    rw [← hs', ← hp'] at hd1
    rw [← hp'] at hs1
    cases ht : Spec.threshold (args.map fun a => (a.1, a.2.2)) I.1 with
    | none => exact input_eq T cfg Real.exp I.2 hd1 hs1
    | some thr =>
      obtain ⟨h1, h2, h3⟩ := hc I hI thr ht
      rw [input_raised T cfg h1 h2 h3]
      have e : (Spec.raised thr I.2).tensor.procs = I.2.tensor.procs ∧ (Spec.raised thr I.2).tensor.systs = I.2.tensor.systs ∧
          (Spec.raised thr I.2).tensor.noConstraint = I.2.tensor.noConstraint ∧ (Spec.raised thr I.2).tensor.signals = I.2.tensor.signals := by
        unfold Spec.raised
        split <;> exact ⟨rfl, rfl, rfl, rfl⟩
      obtain ⟨e1, e2, e3, e4⟩ := e
      refine input_eq T cfg Real.exp _ ?_ ?_
      · unfold Spec.Distinct
        rw [e1, e2, e3, e4]
        exact hd1
      · unfold Spec.Short
        rw [e1]
        exact hs1
  rw [this]

/-- C89.  Thresholds come with tensors: an odd number of words is refused. -/
theorem c89_odd {V : Type} [Field V] [LinearOrder V] (T : Tables) (float : String → Option V) (clip : List String) (hodd : clip.length % 2 = 1)
    (num : Num V) (close : Axis → Axis → Bool) (st : SystType) (exp : V → V) (iter : List String → List String) (Is : List (String × Input V)) :
    mergedFile T float clip num close st exp iter Is = .error .value := by
  have : ∀ (n : Nat) (clip : List String), clip.length = 2 * n + 1 → clipPairs float clip = .error .value := by
    intro n
    induction n with
    | zero =>
      intro clip h
      obtain ⟨a, rfl⟩ := List.length_eq_one_iff.1 h
      rfl
    | succ n ih =>
      intro clip h
      match clip, h with
      | a :: b :: l, h =>
        unfold clipPairs
        rw [ih l (by simp only [List.length_cons] at h; omega)]
        cases float b <;> rfl
  unfold mergedFile
  dsimp only
  rw [this (clip.length / 2) clip (by omega)]
  rfl

/-! ### Examples -/

namespace Ex89

/-- new names of a nuisance, a process and the channel -/
def tables : Tables := { systs := [("m", "mass")], procs := [("p", "x"), ("q", "p")], channels := [("a", "A")] }

/-- one tensor is clipped at two, given as text; the first threshold is superseded -/
noncomputable def float (s : String) : Option ℝ := if s = "2.0" then some 2 else some 7

example : mergedFile tables float ["one", "7", "one", "2.0"] Yields.num (fun a b => decide (a = b)) .normal Real.exp id [("one", Merge.Ex.I1), ("two", Merge.Ex.I2)] =
    Merge.mergedFile Yields.num (fun a b => decide (a = b)) .normal Real.exp id
      [Spec.optioned tables [("one", 7), ("one", 2)] ("one", Merge.Ex.I1), Spec.optioned tables [("one", 7), ("one", 2)] ("two", Merge.Ex.I2)] := by
  refine c89_options_partial tables float [("one", "7", 7), ("one", "2.0", 2)] ?_ Yields.num _ .normal id [("one", Merge.Ex.I1), ("two", Merge.Ex.I2)] ?_ ?_ ?_
  · intro a ha
    simp only [List.mem_cons, List.not_mem_nil, or_false] at ha
    rcases ha with rfl | rfl <;> simp [float]
  · intro I hI
    simp only [List.mem_cons, List.not_mem_nil, or_false] at hI
    rcases hI with rfl | rfl
    · show (∀ x ∈ ["m", "n"] ++ [], ∀ y ∈ ["m", "n"] ++ [], _) ∧ ∀ x ∈ ["p", "q"] ++ ["p"], ∀ y ∈ ["p", "q"] ++ ["p"], _
      decide +kernel
    · show (∀ x ∈ ["m", "u"] ++ ["u"], ∀ y ∈ ["m", "u"] ++ ["u"], _) ∧ ∀ x ∈ ["q", "r"] ++ [], ∀ y ∈ ["q", "r"] ++ [], _
      decide +kernel
  · intro I hI
    simp only [List.mem_cons, List.not_mem_nil, or_false] at hI
    rcases hI with rfl | rfl
    · show ∀ x ∈ ["p", "q"], ∃ y ∈ ["p", "q"], _
      decide +kernel
    · show ∀ x ∈ ["q", "r"], ∃ y ∈ ["q", "r"], _
      decide +kernel
  · intro I hI thr ht
    simp only [List.mem_cons, List.not_mem_nil, or_false] at hI
    rcases hI with rfl | rfl
    · have h2 : Spec.threshold [("one", (7 : ℝ)), ("one", 2)] "one" = some 2 := by simp [Spec.threshold]
      have h3 : some (2 : ℝ) = some thr := h2.symm.trans ht
      obtain rfl := Option.some.inj h3
      refine ⟨fun h => (nomatch h), ?_, ?_⟩
      · intro e he
        simp only [Merge.Ex.I1, Merge.Ex.input, List.mem_singleton] at he
        rw [he]
      · intro norm logk hb name a b hr p hp j hj ⟨i, h1, h2, d, hd, hne⟩
        have hr' : (name, a, b) = ("a", 0, 2) := List.mem_singleton.1 (show (name, a, b) ∈ [("a", 0, 2)] from hr)
        cases hr'
        cases hb
        have hpj : p = 0 ∧ j = 0 := by
          by_contra hc
          refine hne ?_
          show d * (((if p = 0 ∧ j = 0 ∧ 0 = 0 then ((i : ℚ) + 1) else 0 : ℚ)) : ℝ) + (if true = true then (0 : ℝ) else _) = 0
          rw [if_pos rfl, if_neg (fun h => hc ⟨h.1, h.2.1⟩)]
          simp
        obtain ⟨rfl, rfl⟩ := hpj
        refine ⟨1, by omega, by omega, 1, .inl rfl, ?_⟩
        show max ((1 * (((if 0 = 0 ∧ 0 = 0 ∧ 0 = 0 then (((1 : ℕ) : ℚ) + 1) else 0 : ℚ)) : ℝ) + (if true = true then (0 : ℝ) else _)) + (((1 + 0 + 1 : ℕ)) : ℝ)) 2 ≠
          max (((1 + 0 + 1 : ℕ)) : ℝ) 2
        norm_num
    · have h2 : Spec.threshold [("one", (7 : ℝ)), ("one", 2)] "two" = none := by decide +kernel
      have h3 : (none : Option ℝ) = some thr := h2.symm.trans ht
      cases h3

example : mergedFile (V := ℚ) {} (fun _ => some 1) ["one", "2.0", "two"] ⟨id, 1, 1⟩ (fun a b => decide (a = b)) .normal id id [] = .error .value :=
  c89_odd {} _ _ (by decide) _ _ _ _ _ _

/-- a tensor with one channel and the process "p"; with or without a nuisance -/
def input (systs : List String) : Input ℚ where
  systType := .normal
  tensor := {
    procs := ["p"]
    signals := ["p"]
    systs := systs
    noConstraint := []
    groups := []
    noiIdxs := []
    pseudoNames := []
    weights := []
    channelInfo := [("a", ⟨[Writer.Ex.ax 2], false, false⟩)]
    symmetric := true
    nbins := 2
    nbinsfull := 2
    dataObs := fun _ => .fin 5
    dataVar := fun _ => .fin 5
    pseudo := fun _ _ => .fin 0
    sumw := fun _ _ => 1
    sumw2 := fun _ _ => 1
    body := .dense (fun _ _ => 1) fun _ _ _ _ => 1
    fullCov := none }

def file (systs : List String) : Res (Tensor ℚ) :=
  mergedFile { procs := [("p", "signal")] } (fun _ => none) [] Writer.Ex.cfg.num Writer.Ex.cfg.close .normal id id [("t", input systs)]

end Ex89

/-- The code violates C89 (merge_inputs.py:159-164): new names of processes are stored in an array of numpy as wide as the
longest old name, which cuts them ("p" renamed to "signal" becomes "s"); systematics are then added to the uncut name, which
is unknown, and the merge fails. -/
theorem c89_cut_violated : ∃ (T : Tables) (I J : Input ℚ) (num : Num ℚ) (close : Axis → Axis → Bool) (t : Tensor ℚ),
    T.procs = [("p", "signal")] ∧ I.tensor.procs = ["p"] ∧ J.tensor.procs = ["p"] ∧ J.tensor.systs = ["m"] ∧
    mergedFile T (fun _ => none) [] num close .normal id id [("t", I)] = .ok t ∧ t.procs = ["s"] ∧
    mergedFile T (fun _ => none) [] num close .normal id id [("t", J)] = .error .key ∧
    (Merge.mergedFile num close .normal id id [Spec.renamed id id (Spec.entry T.procs) id J]).isOk = true := by
  obtain ⟨t, h1, h2⟩ := written_of (r := Ex89.file []) (f := fun t => t.procs) (v := ["s"]) (by decide +kernel)
  exact ⟨{ procs := [("p", "signal")] }, Ex89.input [], Ex89.input ["m"], _, _, t, rfl, rfl, rfl, rfl, h1, h2, by
    show Ex89.file ["m"] = _
    have : (match Ex89.file ["m"] with
      | .ok _ => none
      | .error e => some e) = some Err.key := by decide +kernel
    cases hf : Ex89.file ["m"] with
    | ok t => rw [hf] at this; cases this
    | error e => rw [hf] at this; rw [Option.some.inj this], by decide +kernel⟩

end Verif.MergeOpts
