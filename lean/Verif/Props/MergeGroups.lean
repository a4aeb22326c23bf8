import Verif.Props.Merge
import Verif.Props.WriterBookings

/-!
C59, groups: merging keeps the groups of the nuisances and the nuisance parameters of interest.
-/

namespace Verif.Merge

open Verif.Logk Verif.Writer M

set_option linter.unusedSectionVars false

variable {V : Type} [Field V] [LinearOrder V]

/-- all calls of a history are accepted -/
def accepts (cfg : Cfg V) : State V → List (Op V) → Prop
  | _, [] => True
  | s, op :: ops => (step cfg op s).2 = .ok () ∧ accepts cfg (step cfg op s).1 ops

theorem accepts_append (cfg : Cfg V) (a b : List (Op V)) (s : State V) (h1 : accepts cfg s a) (h2 : accepts cfg (runOps cfg s a) b) :
    accepts cfg s (a ++ b) := by
  induction a generalizing s with
  | nil => exact h2
  | cons op a ih => exact ⟨h1.1, ih _ h1.2 h2⟩

theorem accepts_mem {cfg : Cfg V} {ops : List (Op V)} {s : State V} (h : accepts cfg s ops) {op : Op V} (hop : op ∈ ops) :
    ∃ l r, ops = l ++ op :: r ∧ (step cfg op (runOps cfg s l)).2 = .ok () := by
  induction ops generalizing s with
  | nil => cases hop
  | cons o ops ih =>
    rcases List.mem_cons.1 hop with rfl | hop
    · exact ⟨[], ops, rfl, h.1⟩
    · obtain ⟨l, r, h1, h2⟩ := ih h.2 hop
      exact ⟨o :: l, r, by rw [h1]; rfl, h2⟩

theorem forEach_accepts {cfg : Cfg V} (ops : List (Op V)) : ∀ {s s' : State V},
    M.forEach (step cfg) ops s = (s', .ok ()) → s' = runOps cfg s ops ∧ accepts cfg s ops := by
  induction ops with
  | nil => intro s s' h; cases h; exact ⟨rfl, trivial⟩
  | cons op ops ih =>
    intro s s' h
    obtain ⟨s1, u, h1, h2⟩ := bind_ok (m := step cfg op) (f := fun _ => M.forEach (step cfg) ops) h
    obtain ⟨h3, h4⟩ := ih h2
    have e1 : (step cfg op s).1 = s1 := by rw [h1]
    refine ⟨?_, ?_, ?_⟩
    · rw [h3]
      show runOps cfg s1 ops = runOps cfg (step cfg op s).1 ops
      rw [e1]
    · rw [h1]
    · rw [e1]; exact h4

theorem block_accepts {cfg : Cfg V} {exp : V → V} {x : Piece V} {s s' : State V}
    (h : mergeBlock cfg exp x.I x.norm x.logk x.k s = (s', .ok ())) :
    s' = runOps cfg s (blockOps exp x) ∧ accepts cfg s (blockOps exp x) := by
  unfold mergeBlock at h
  obtain ⟨-, h⟩ := raiseIf_ok h
  obtain ⟨s1, _, h1, h⟩ := bind_ok h
  obtain ⟨-, h⟩ := raiseIf_ok h
  obtain ⟨s2, _, h2, h⟩ := bind_ok h
  obtain ⟨e1, a1⟩ := forEach_accepts _ h1
  obtain ⟨e3, a3⟩ := forEach_accepts _ h
  have e2 : (step cfg (.data (dataHist x.I.tensor x.k) x.k.name none) s1).1 = s2 := by rw [h2]
  unfold blockOps
  constructor
  · rw [runOps_append, ← e1, e3]
    show _ = runOps cfg (step cfg _ s1).1 _
    rw [e2]
  · refine accepts_append cfg _ _ s a1 ⟨?_, ?_⟩
    · rw [← e1, h2]
    · rw [← e1, e2]; exact a3

theorem merge_accepts {cfg : Cfg V} {exp : V → V} {Is : List (Input V)} {s : State V} (h : merge cfg exp Is {} = (s, .ok ())) :
    s = run cfg ((Is.flatMap piecesOf).flatMap (blockOps exp)) ∧ accepts cfg {} ((Is.flatMap piecesOf).flatMap (blockOps exp)) := by
  have step1 : ∀ (done : List (Piece V)) (x : Piece V) (t t' : State V),
      (t = runOps cfg {} (done.flatMap (blockOps exp)) ∧ accepts cfg {} (done.flatMap (blockOps exp))) →
      mergeBlock cfg exp x.I x.norm x.logk x.k t = (t', .ok ()) →
      t' = runOps cfg {} ((done ++ [x]).flatMap (blockOps exp)) ∧ accepts cfg {} ((done ++ [x]).flatMap (blockOps exp)) := by
    intro done x t t' ht hx
    obtain ⟨e, a⟩ := block_accepts hx
    rw [List.flatMap_append, List.flatMap_cons, List.flatMap_nil, List.append_nil, runOps_append, ← ht.1]
    exact ⟨e, accepts_append cfg _ _ _ ht.2 (by rw [← ht.1]; exact a)⟩
  have key := forEach_induction (body := mergeInput cfg exp)
    (fun done t => t = runOps cfg {} ((done.flatMap piecesOf).flatMap (blockOps exp)) ∧
      accepts cfg {} ((done.flatMap piecesOf).flatMap (blockOps exp))) ?_ Is [] {} s ⟨rfl, trivial⟩ h
  · rw [List.nil_append] at key; exact key
  · intro done I t t' ht hk
    unfold mergeInput at hk
    cases hb : I.tensor.body with
    | sparse o => rw [hb] at hk; cases hk
    | dense norm logk =>
      rw [hb] at hk
      dsimp only at hk
      obtain ⟨_, hk⟩ := raiseIf_ok hk
      have hp : piecesOf I = (blocksFrom 0 I.tensor.channelInfo).map fun k => ⟨I, norm, logk, k⟩ := by
        unfold piecesOf; rw [hb]
      have := forEach_induction (body := mergeBlock cfg exp I norm logk)
        (fun bs t => t = runOps cfg {} ((done.flatMap piecesOf ++ bs.map fun k => (⟨I, norm, logk, k⟩ : Piece V)).flatMap (blockOps exp)) ∧
          accepts cfg {} ((done.flatMap piecesOf ++ bs.map fun k => (⟨I, norm, logk, k⟩ : Piece V)).flatMap (blockOps exp)))
        ?_ _ [] t t' (by simpa using ht) hk
      · rw [List.nil_append] at this
        rw [List.flatMap_append (xs := done), List.flatMap_cons, List.flatMap_nil, List.append_nil, hp]
        exact this
      · intro bs k r r' hr hrk
        have := step1 _ ⟨I, norm, logk, k⟩ r r' hr hrk
        rw [List.map_append, ← List.append_assoc]
        exact this

/-! ### Specification -/

/-- nuisance `m` is in group `g` of the file -/
def Spec.inGroup (t : Tensor V) (g m : String) : Prop := ∃ idx j, (g, idx) ∈ t.groups ∧ j ∈ idx ∧ t.systs[j]? = some m

/-- nuisance `m` is a parameter of interest of the file -/
def Spec.isNoi (t : Tensor V) (m : String) : Prop := ∃ j ∈ t.noiIdxs, t.systs[j]? = some m

/-- nuisance number `j` has an effect in some bin on some process of a dense file without flow bins -/
def Spec.matters (t : Tensor V) (j : Nat) : Prop := ∃ norm logk name a b i ip, t.body = .dense norm logk ∧
  (name, a, b) ∈ readerFrom 0 t.channelInfo ∧ i < b - a ∧ ip < t.procs.length ∧
  (logk (a + i) ip 0 j ≠ 0 ∨ t.symmetric = false ∧ logk (a + i) ip 1 j ≠ 0)

theorem mem_blockOps_asks {exp : V → V} {x : Piece V} {op : Op V} (hop : op ∈ blockOps exp x) {b : Booking} (hb : b ∈ Spec.asks op) :
    ∃ (j : Nat) (m : String), x.I.tensor.systs[j]? = some m ∧ b = ⟨m, false, optsOf x.I.tensor j m⟩ := by
  unfold blockOps nominalOps at hop
  rcases List.mem_append.1 hop with hop | hop
  · rcases List.mem_cons.1 hop with rfl | hop
    · cases hb
    · obtain ⟨y, _, rfl⟩ := List.mem_map.1 hop
      cases hb
  · rcases List.mem_cons.1 hop with rfl | hop
    · cases hb
    · unfold systOps at hop
      obtain ⟨⟨m, j⟩, hm, hop⟩ := List.mem_flatMap.1 hop
      obtain ⟨y, _, rfl⟩ := List.mem_map.1 hop
      refine ⟨j, m, List.mem_zipIdx_iff_getElem?.1 hm, ?_⟩
      simpa [systOp, Spec.asks] using hb

theorem mem_groupsOf {t : Tensor V} {j : Nat} {g : String} : g ∈ groupsOf t j ↔ ∃ idx, (g, idx) ∈ t.groups ∧ j ∈ idx := by
  unfold groupsOf
  simp only [List.mem_flatMap, List.mem_map, List.mem_filter, beq_iff_eq]
  constructor
  · rintro ⟨⟨g', idx⟩, h1, k, ⟨h2, rfl⟩, rfl⟩; exact ⟨idx, h1, h2⟩
  · rintro ⟨idx, h1, h2⟩; exact ⟨(g, idx), h1, j, ⟨h2, rfl⟩, rfl⟩

theorem isNoi_iff {t : Tensor V} {m : String} : m ∈ t.noiIdxs.filterMap (fun i => t.systs[i]?) ↔ Spec.isNoi t m := by
  rw [List.mem_filterMap]; rfl

/-- C59, groups: in the file written by the merge tool a nuisance is in a group exactly if one of the inputs has it in this group (and
it has an effect there), and it is a parameter of interest exactly if it is one in one of the inputs. -/
theorem c59_groups [IsStrictOrderedRing V] (num : Num V) (close : Axis → Axis → Bool) (st : SystType) (exp : V → V) (iter : List String → List String)
    (hit : ∀ l, (iter l).Perm l) (Is : List (Input V)) (hflow : ∀ I ∈ Is, ∀ e ∈ I.tensor.channelInfo, e.2.flow = false)
    (hnd : ∀ I ∈ Is, I.tensor.systs.Nodup) (t : Tensor V)
    (h : mergedFile num close st exp iter Is = .ok t) :
    (∀ I ∈ Is, ∀ (j : Nat) (m : String), I.tensor.systs[j]? = some m → Spec.matters I.tensor j →
      (∀ g, Spec.inGroup I.tensor g m → Spec.inGroup t g m) ∧ (Spec.isNoi I.tensor m → Spec.isNoi t m)) ∧
    (∀ g m, Spec.inGroup t g m → ∃ I ∈ Is, Spec.inGroup I.tensor g m) ∧
    (∀ m, Spec.isNoi t m → ∃ I ∈ Is, Spec.isNoi I.tensor m) := by
  unfold mergedFile at h
  dsimp only at h
  set cfg : Cfg V := ⟨num, false, st, false, false, close⟩ with hcfg
  cases hm : merge cfg exp Is {} with
  | mk s res =>
  obtain ⟨s, hm, hw⟩ : ∃ s, merge cfg exp Is {} = (s, .ok ()) ∧ (write cfg iter s).2 = .ok t := by
    cases res with
    | error e =>
      exfalso
      have : ((do merge cfg exp Is; write cfg iter : M V (Tensor V)) {}).2 = .error e := by
        show (M.bind (merge cfg exp Is) (fun _ => write cfg iter) {}).2 = _
        unfold M.bind
        rw [hm]
      rw [this] at h
      cases h
    | ok u =>
      refine ⟨s, hm, ?_⟩
      rw [← h]
      show _ = (M.bind (merge cfg exp Is) (fun _ => write cfg iter) {}).2
      unfold M.bind
      rw [hm]
  obtain ⟨hs, hacc⟩ := merge_accepts hm
  rw [hs] at hw
  obtain ⟨-, hgrp, hgrp', names, hnames, -, hask, hbk⟩ := c06_groups cfg _ iter hit t hw
  have hidx : ∀ {idx : List Nat} {ns : List String}, idx.map (fun i => t.systs[i]?) = ns.map some →
      ∀ m, m ∈ ns ↔ ∃ j ∈ idx, t.systs[j]? = some m := by
    intro idx ns he m
    have h1 : some m ∈ ns.map some ↔ m ∈ ns := by simp
    rw [← h1, ← he, List.mem_map]
  have hasked : ∀ b, Spec.asked ((Is.flatMap piecesOf).flatMap (blockOps exp)) b →
      ∃ I ∈ Is, ∃ (j : Nat) (m : String), I.tensor.systs[j]? = some m ∧ b = ⟨m, false, optsOf I.tensor j m⟩ := by
    rintro b ⟨op, hop, hb⟩
    obtain ⟨x, hx, hop⟩ := List.mem_flatMap.1 hop
    obtain ⟨I, hI, hx⟩ := List.mem_flatMap.1 hx
    obtain ⟨j, m, h1, h2⟩ := mem_blockOps_asks hop hb
    have : x.I = I := by
      unfold piecesOf at hx
      split at hx
      · cases hx
      · obtain ⟨k, _, rfl⟩ := List.mem_map.1 hx; rfl
    rw [this] at h1 h2
    exact ⟨I, hI, j, m, h1, h2⟩
  have hbooked : ∀ I ∈ Is, ∀ (j : Nat) (m : String), I.tensor.systs[j]? = some m → Spec.matters I.tensor j →
      Spec.booked cfg {} ((Is.flatMap piecesOf).flatMap (blockOps exp)) ⟨m, false, optsOf I.tensor j m⟩ := by
    rintro I hI j m hj ⟨norm, logk, name, a, b, i, ip, hb, hr, hi, hip, hv⟩
    obtain ⟨c, hc, hbc, hk⟩ := mem_blocks (hflow I hI) hr
    set x : Piece V := ⟨I, norm, logk, ⟨name, c, a, b - a⟩⟩ with hxdef
    have hx : x ∈ Is.flatMap piecesOf := by
      refine List.mem_flatMap.2 ⟨I, hI, ?_⟩
      unfold piecesOf
      rw [hb]
      exact List.mem_map_of_mem (f := fun k : Block => (⟨I, norm, logk, k⟩ : Piece V)) hk
    have hact : active I.tensor logk ⟨name, c, a, b - a⟩ ip j = true := by
      unfold active
      rw [List.any_eq_true]
      refine ⟨i, List.mem_range.2 hi, ?_⟩
      unfold varies
      rcases hv with hv | ⟨hsym, hv⟩
      · have := abs_pos.2 hv
        split
        · simpa using hv
        · simp [hv]
      · have := abs_pos.2 hv
        rw [hsym]; simp [hv]
    obtain ⟨l, r, hlr, hok⟩ := accepts_mem hacc (op := systOp exp I norm logk ⟨name, c, a, b - a⟩ j m ip I.tensor.procs[ip]) (by
      refine List.mem_flatMap.2 ⟨x, hx, ?_⟩
      unfold blockOps systOps
      refine List.mem_append_right _ (List.mem_cons_of_mem _ (List.mem_flatMap.2 ⟨(m, j), List.mem_zipIdx_iff_getElem?.2 hj, ?_⟩))
      refine List.mem_map.2 ⟨(I.tensor.procs[ip], ip), List.mem_filter.2 ⟨List.mem_zipIdx_iff_getElem?.2 (List.getElem?_eq_getElem hip), hact⟩, rfl⟩)
    exact ⟨l, _, r, hlr, by simp [systOp, Spec.asks], hok⟩
  have huniq : ∀ I ∈ Is, ∀ (j k : Nat) (m : String), I.tensor.systs[j]? = some m → I.tensor.systs[k]? = some m → j = k := by
    intro I hI j k m h1 h2
    obtain ⟨g1, e1⟩ := List.getElem?_eq_some_iff.1 h1
    obtain ⟨g2, e2⟩ := List.getElem?_eq_some_iff.1 h2
    exact (List.Nodup.getElem_inj_iff (hnd I hI)).1 (e1.trans e2.symm)
  refine ⟨fun I hI j m hj hmat => ⟨?_, ?_⟩, ?_, ?_⟩
  · rintro g ⟨idx, k, hg, hk, hkm⟩
    rw [huniq I hI k j m hkm hj] at hk
    have hb := hbooked I hI j m hj hmat
    have hmem : g ∈ groupsOf I.tensor j := mem_groupsOf.2 ⟨idx, hg, hk⟩
    obtain ⟨idx', hidx'⟩ := hgrp' _ hb rfl g hmem
    obtain ⟨ns, h1, -, -, h4⟩ := hgrp g idx' hidx'
    obtain ⟨j', hj', hm'⟩ := (hidx h1 m).1 (h4 _ hb rfl hmem)
    exact ⟨idx', j', hidx', hj', hm'⟩
  · intro hn
    have hb := hbooked I hI j m hj hmat
    exact (hidx hnames m).1 (hbk _ hb (decide_eq_true (isNoi_iff.2 hn)))
  · rintro g m ⟨idx, j, hg, hj, hjm⟩
    obtain ⟨ns, h1, -, h3, -⟩ := hgrp g idx hg
    obtain ⟨b, hb, hbm, -, hbg⟩ := h3 m ((hidx h1 m).2 ⟨j, hj, hjm⟩)
    obtain ⟨I, hI, k, m', hk, rfl⟩ := hasked b hb
    dsimp only at hbm
    subst hbm
    obtain ⟨idx', e1, e2⟩ := mem_groupsOf.1 hbg
    exact ⟨I, hI, idx', k, e1, e2, hk⟩
  · intro m hn
    obtain ⟨b, hb, hbm, hbn⟩ := hask m ((hidx hnames m).2 hn)
    obtain ⟨I, hI, k, m', hk, rfl⟩ := hasked b hb
    dsimp only at hbm
    subst hbm
    exact ⟨I, hI, isNoi_iff.1 (of_decide_eq_true hbn)⟩

/-! ### A concrete case -/

open Lean Elab Tactic in
/-- `rfl` checked by the kernel only -/
local elab "kernel_rfl" : tactic => do (← getMainGoal).refl (check := false)

/-- a tensor whose nuisance `m` is in the groups `g` and `h` and of interest -/
noncomputable def Ex.grouped (chan : String) : Input ℝ where
  systType := .normal
  tensor := { (Ex.one [] chan Ex.norm).tensor with
    groups := [("g", [0]), ("h", [0])]
    noiIdxs := [0] }

/-- a file with a grouped nuisance and one with the same nuisance in no group: the hypotheses of `c59_groups` are met -/
example : (∀ I ∈ [Ex.grouped "a", Ex.one [] "b" Ex.norm], (∀ e ∈ I.tensor.channelInfo, e.2.flow = false) ∧ I.tensor.systs.Nodup) ∧
    Spec.inGroup (Ex.grouped "a").tensor "g" "m" ∧ Spec.isNoi (Ex.grouped "a").tensor "m" ∧ Spec.matters (Ex.grouped "a").tensor 0 ∧
    ∃ t, Ex.file .normal [Ex.grouped "a", Ex.one [] "b" Ex.norm] = .ok t ∧ t.systs = ["m"] ∧ t.groups = [("g", [0]), ("h", [0])] ∧
      t.noiIdxs = [0] := by
  refine ⟨?_, ⟨[0], 0, by simp [Ex.grouped], by simp, rfl⟩, ⟨0, by simp [Ex.grouped], rfl⟩, ?_, ?_⟩
  · intro I hI
    simp only [List.mem_cons, List.not_mem_nil, or_false] at hI
    rcases hI with rfl | rfl <;> simp [Ex.grouped, Ex.one, Ex.input]
  · exact ⟨_, _, "a", 0, 2, 0, 0, rfl, by simp [Ex.grouped, Ex.one, Ex.input, readerFrom, Writer.Ex.ax, prod, dims], by decide, Nat.zero_lt_one,
      .inl (by simp)⟩
  · obtain ⟨t, ht, hv⟩ : ∃ t, Ex.file .normal [Ex.grouped "a", Ex.one [] "b" Ex.norm] = .ok t ∧
        (t.systs, t.groups, t.noiIdxs) = (["m"], [("g", [0]), ("h", [0])], [0]) := by
      refine written_of (f := fun t => (t.systs, t.groups, t.noiIdxs)) ?_
      unfold Ex.file mergedFile merge Ex.grouped Ex.one
      simp only [forEach, mergeInput, Ex.input, blocksFrom, mergeBlock, systOps, Ex.active_cast, nominalOps, List.zipIdx,
        List.map, step, addProcess, procSumw2, addData, Option.getD_none, Ex.flat_nominal, Ex.flat_data, Ex.norm_nonneg,
        implies_true, Ex.five]
      kernel_rfl
    exact ⟨t, ht, congrArg (·.1) hv, congrArg (·.2.1) hv, congrArg (·.2.2) hv⟩

end Verif.Merge
