import Verif.Lemmas.Sparse
import Verif.Props.WriterNorm
import Verif.Props.WriterLayout

/-!
C11 (canonical assembly of the sparse tensors).
-/

namespace Verif.Writer

open Verif.Logk M

set_option linter.unusedSectionVars false

variable {V : Type} [Field V] [LinearOrder V]

/-! ### Specification -/

/-- every entry comes before the later ones in row-major order, no position occurs twice -/
def Spec.rowMajor (l : List (Nat × Nat × V)) : Prop :=
  l.Pairwise fun e f => e.1 < f.1 ∨ (e.1 = f.1 ∧ e.2.1 < f.2.1)

/-- dense templates have one value per bin of their channel -/
def Spec.sized (s : State V) : Prop :=
  ∀ chan proc l n, Spec.at2 s.norm chan proc = some (.dense l) → s.nbinschan.get? chan = some n → l.length = n

/-- the average (`half = false`) or half difference (`half = true`) booked for a nuisance -/
def Spec.bookedVar (s : State V) (half : Bool) (chan proc m : String) : Option (LogkE V) :=
  match Spec.at3 s.logkavg chan proc m with
  | none => none
  | some e => if half then Spec.at3 s.logkhalf chan proc m else some e

/-! ### The tables in sparse mode -/

theorem zipB_mask {n l m : List V} (h : zipB maskNorm n l = .ok m) {i : Nat} {v x : V} (hv : m[i]? = some v) (hv0 : v ≠ 0)
    (hx : n[i]? = some x) : x ≠ 0 := by
  have key : ∀ y z : V, maskNorm y z ≠ 0 → y ≠ 0 := by
    rintro y z h rfl
    exact h (if_pos rfl)
  unfold zipB at h
  split at h
  · cases h
    rw [List.getElem?_zipWith, hx] at hv
    cases hl : l[i]? with
    | none => rw [hl] at hv; cases hv
    | some z =>
      rw [hl] at hv
      simp only [Option.some.injEq] at hv
      subst hv
      exact key _ _ hv0
  · split at h
    · rename_i y b _
      cases h
      rw [List.getElem?_map] at hv
      cases i with
      | succ i => simp at hx
      | zero =>
        rw [List.getElem?_cons_zero, Option.some.injEq] at hx
        subst hx
        obtain ⟨z, _, rfl⟩ := Option.map_eq_some_iff.1 hv
        exact key _ _ hv0
    · cases h
      rw [List.getElem?_map, hx] at hv
      simp only [Option.map_some, Option.some.injEq] at hv
      subst hv
      exact key _ _ hv0
    · cases h

theorem map_fst_filter_sublist {α : Type} (l : List (Nat × α)) (p : Nat × α → Bool) :
    ((l.filter p).map (·.1)).Sublist (l.map (·.1)) := List.filter_sublist.map _

theorem zip_fst_sublist {α : Type} : ∀ (is : List Nat) (l : List α), ((is.zip l).map (·.1)).Sublist is
  | [], _ => by simp
  | i :: is, [] => by simp
  | i :: is, x :: l => by simpa using zip_fst_sublist is l

theorem flatCsr_sorted (h : HIn V) (flow : Bool) : ((h.flatCsr flow).2.map (·.1)).Pairwise (· ≤ ·) := by
  have key : ∀ l : List (Nat × FVal V), ((sortFlat l).map (·.1)).Pairwise (· ≤ ·) := by
    intro l
    rw [List.pairwise_map]
    have := pySort_pairwise (le := fun a b : Nat × FVal V => decide (a.1 ≤ b.1))
      (by intro a b c h1 h2; simp only [decide_eq_true_eq] at *; omega)
      (by intro a b; simp only [Bool.or_eq_true, decide_eq_true_eq]; omega) l
    exact this.imp fun h => by simpa using h
  cases h with
  | sparseHist axes flat => exact key _
  | scipy shape flat => exact key _
  | hist => exact .nil
  | array => exact .nil

theorem sparse_tables (cfg : Cfg V) (hsp : cfg.sparse = true) (ops : List (Op V)) :
    Tables (fun n => ∀ size l, n = .csr size l → (l.map (·.1)).Pairwise (· ≤ ·))
      (fun n e => ∃ l, e = .sparse l ∧ (∀ x ∈ l, x.2 ≠ 0) ∧ fits n l) (run cfg ops) := by
  refine tables_run ?_ ops ?_
  · intro n lk e _ he
    cases n with
    | csr size m =>
      simp only [Norm.idx, wrap, bookedLogk, Except.ok.injEq] at he
      subst he
      refine ⟨_, rfl, fun x hx => by simpa using (List.mem_filter.1 hx).2, ?_⟩
      exact (map_fst_filter_sublist _ _).trans (zip_fst_sublist _ _)
    | dense m =>
      simp only [Norm.idx, wrap, bookedLogk, bind, Except.bind, hsp] at he
      split at he
      · cases he
      · rename_i r hr
        cases he
        refine ⟨_, rfl, fun x hx => ?_, nonzeros_sorted _, fun i v x hi hx => ?_⟩
        · exact (mem_nonzeros.1 (show (x.1, x.2) ∈ nonzeros r from hx)).2
        · obtain ⟨h1, h2⟩ := mem_nonzeros.1 hi
          exact zipB_mask hr h1 h2 hx
  · intro h name chan sig vars _ n flow hn size l hl
    subst hl
    unfold procNorm at hn
    split at hn
    · dsimp only at hn
      split at hn
      · cases hn
      · rename_i l' hl'
        rw [finitesCsr_eq_some] at hl'
        have hs := flatCsr_sorted h flow
        rw [hl', List.map_map] at hs
        have hs' : (l'.map (·.1)).Pairwise (· ≤ ·) := hs
        split at hn
        · simp only [Except.ok.injEq, Norm.csr.injEq] at hn
          rw [← hn.2]
          refine List.Pairwise.sublist (map_fst_filter_sublist _ _) ?_
          rw [List.map_map]; exact hs'
        · simp only [Except.ok.injEq, Norm.csr.injEq] at hn
          rw [← hn.2]; exact hs'
    · dsimp only at hn
      split at hn <;> cases hn

/-! ### Cells are disjoint -/

theorem collect_pairwise {α β : Type} {body : α → Res (Option β)} {R : β → β → Prop} {S : α → α → Prop}
    (hR : ∀ a b x y, S a b → body a = .ok (some x) → body b = .ok (some y) → R x y) : ∀ {l : List α} {r : List β},
    l.Pairwise S → collect body l = .ok r → r.Pairwise R := by
  intro l
  induction l with
  | nil => intro r _ h; cases h; exact .nil
  | cons a l ih =>
    intro r hp h
    rw [List.pairwise_cons] at hp
    have h0 := h
    unfold collect at h
    split at h
    · cases h
    · rename_i o ho
      split at h
      · cases h
      · rename_i rs hrs
        cases h
        cases o with
        | none => exact ih hp.2 hrs
        | some x =>
          refine List.pairwise_cons.2 ⟨fun y hy => ?_, ih hp.2 hrs⟩
          obtain ⟨b, hb, hby⟩ := (mem_collect hrs y).1 hy
          exact hR a b x y (hp.1 b hb) ho hby

theorem cellsOf_pairwise {s : State V} {procs : List String} {lay : List Slot} : ∀ {r : List (Cell V)},
    cellsOf s procs lay = .ok r → lay.Pairwise (fun a b => a.start + a.n ≤ b.start) →
    r.Pairwise fun c d => c.iproc ≠ d.iproc ∨ c.start + c.n ≤ d.start := by
  induction lay with
  | nil => intro r h _; cases h; exact .nil
  | cons sl lay ih =>
    intro r h hp
    rw [List.pairwise_cons] at hp
    unfold cellsOf at h
    split at h
    · rename_i l ls h1 h2
      cases h
      rw [List.pairwise_append]
      refine ⟨?_, ih h2 hp.2, ?_⟩
      · unfold cellsOfSlot at h1
        split at h1
        · refine collect_pairwise (S := fun a b : String × Nat => a.2 ≠ b.2) ?_ ?_ h1
          · intro a b x y hab hx hy
            left
            split at hx
            · cases hx
            · split at hx
              · split at hy
                · cases hy
                · split at hy
                  · cases hx; cases hy; exact hab
                  · cases hy
              · cases hx
          · have : ((procs.zipIdx).map (·.2)).Pairwise (· < ·) := by
              rw [List.zipIdx_map_snd]; exact List.pairwise_lt_range'
            rw [List.pairwise_map] at this
            exact this.imp fun h => Nat.ne_of_lt h
        · cases h1
      · intro c hc d hd
        right
        obtain ⟨⟨_, e2, e3⟩, _⟩ := (mem_cellsOfSlot h1 c).1 hc
        obtain ⟨sl', hsl', _, e2', _⟩ := ((mem_cellsOf h2 d).1 hd).slot
        rw [← e2, ← e3, ← e2']
        exact hp.1 sl' hsl'
    · cases h
    · cases h

/-! ### The theorem -/

theorem entries_at {n : Norm V} (hn : ∀ size l, n = .csr size l → (l.map (·.1)).Nodup) {i : Nat} {v : V}
    (h : (i, v) ∈ n.entries) : v = n.at i := by
  cases n with
  | csr size l =>
    have hnd := hn size l rfl
    have h' : (i, v) ∈ l := h
    unfold Norm.at
    dsimp only
    have : l.find? (fun e => e.1 == i) = some (i, v) := by
      clear h hn
      induction l with
      | nil => cases h'
      | cons x l ih =>
        rw [List.map_cons, List.nodup_cons] at hnd
        rw [List.find?_cons]
        rcases List.mem_cons.1 h' with rfl | h'
        · simp
        · have : (x.1 == i) = false := by
            rw [beq_eq_false_iff_ne]
            rintro rfl
            exact hnd.1 (List.mem_map.2 ⟨_, h', rfl⟩)
          rw [this]
          exact ih hnd.2 h'
    rw [this]; rfl
  | dense l =>
    obtain ⟨h1, _⟩ := mem_nonzeros.1 h
    unfold Norm.at
    simp [List.getD_eq_getElem?_getD, h1]

theorem at_entries {n : Norm V} {i : Nat} (h : n.at i ≠ 0) : (i, n.at i) ∈ n.entries := by
  cases n with
  | csr size l =>
    unfold Norm.at at h ⊢
    dsimp only at h ⊢
    cases hf : l.find? (fun e => e.1 == i) with
    | none => rw [hf] at h; exact absurd rfl h
    | some e =>
      have h1 := List.mem_of_find?_eq_some hf
      have h2 : e.1 = i := by simpa using List.find?_some hf
      subst h2
      exact h1
  | dense l =>
    unfold Norm.at at h ⊢
    dsimp only at h ⊢
    refine mem_nonzeros.2 ⟨?_, h⟩
    rw [List.getD_eq_getElem?_getD] at h ⊢
    cases hl : l[i]? with
    | none => rw [hl] at h; exact absurd rfl h
    | some v => rfl

theorem var_mem {l : List (Nat × V)} (hs : (l.map (·.1)).Nodup) {i : Nat} {v : V} (h : (i, v) ∈ l) :
    Spec.var (.sparse l) i = v :=
  (entries_at (n := .csr 0 l) (fun _ _ e => by cases e; exact hs) h).symm

theorem mem_var {l : List (Nat × V)} {i : Nat} (h : Spec.var (.sparse l) i ≠ 0) : (i, Spec.var (.sparse l) i) ∈ l :=
  at_entries (n := .csr 0 l) h

/-- C11: in every file written in sparse mode (channel names used once; sparse templates list bins of their channel at
most once; dense templates have one value per bin) the nominal tensor is strictly increasing in row-major order and holds
exactly the nominal yields, zeros excepted; the variation tensor is strictly increasing in row-major order, and its
entries are exactly the non-zero variations booked for a bin, process and nuisance, at the column of that nuisance
(shifted by the number of nuisances for half differences) and at the row of the nominal tensor that holds that bin and
process. -/
theorem c11_canonical (cfg : Cfg V) (hsp : cfg.sparse = true) (ops : List (Op V)) (hf : Spec.freshNames cfg {} ops)
    (iter : List String → List String) (t : Tensor V) (hw : (write cfg iter (run cfg ops)).2 = .ok t)
    (hcsr : Spec.csrInRange (run cfg ops)) (hsz : Spec.sized (run cfg ops)) :
    let s := run cfg ops
    let R := readerFrom 0 t.channelInfo
    ∃ out, t.body = .sparse out ∧
    Spec.rowMajor out.norm ∧ Spec.rowMajor out.logk ∧
    (∀ b p v, (b, p, v) ∈ out.norm → b < t.nbinsfull ∧ p < t.procs.length ∧ v = t.sumw b p) ∧
    (∀ name a b, (name, a, b) ∈ R → ∀ ip proc, t.procs[ip]? = some proc → ∀ i, i < b - a →
      t.sumw (a + i) ip ≠ 0 → (a + i, ip, t.sumw (a + i) ip) ∈ out.norm) ∧
    (∀ name a b, (name, a, b) ∈ R → ∀ ip proc, t.procs[ip]? = some proc → ∀ i, i < b - a →
      ∀ is m, t.systs[is]? = some m → ∀ half e, Spec.bookedVar s half name proc m = some e → Spec.var e i ≠ 0 →
      ∃ r, (r, (if half then t.systs.length else 0) + is, Spec.var e i) ∈ out.logk ∧
        out.norm[r]? = some (a + i, ip, t.sumw (a + i) ip)) ∧
    (∀ r col v, (r, col, v) ∈ out.logk → v ≠ 0 ∧ ∃ name a b ip proc i is m half e, (name, a, b) ∈ R ∧
      t.procs[ip]? = some proc ∧ i < b - a ∧ t.systs[is]? = some m ∧ Spec.bookedVar s half name proc m = some e ∧
      v = Spec.var e i ∧ col = (if half then t.systs.length else 0) + is ∧
      out.norm[r]? = some (a + i, ip, t.sumw (a + i) ip)) := by
  intro s R
  have hs : LayInv s := layInv_run cfg ops hf
  obtain ⟨_, _, _, hsumw, _, _⟩ := c02_layout_partial cfg ops hf iter t hw hcsr
  obtain ⟨lay, cells, W⟩ := write_ok hw
  obtain ⟨hb, hpw, hcov, hch, hnb⟩ := layoutFrom_bounds W.layout
  obtain ⟨hN, hn⟩ := layInv_sizes hs W.layout W.nbins
  have hR : R = lay.map fun sl => (sl.name, sl.start, sl.start + sl.n) := by
    show readerFrom 0 t.channelInfo = _
    rw [W.channelInfo]
    exact reader_eq W.layout fun n c hc => hs.get hc
  have hcells := mem_cellsOf W.isCells
  have hT := sparse_tables cfg hsp ops
  -- facts about cells
  have hat2 : ∀ c ∈ cells, Spec.at2 s.norm c.chan c.proc = some c.norm := by
    intro c hc
    obtain ⟨nc, h1, h2⟩ := ((hcells c).1 hc).norm
    unfold Spec.at2; rw [h1]; exact h2
  have havg : ∀ c ∈ cells, ∀ m, Spec.at3 s.logkavg c.chan c.proc m = c.avg.get? m := by
    intro c hc m
    obtain ⟨nc, h1, h2⟩ := ((hcells c).1 hc).avg
    unfold Spec.at3 Spec.at2; rw [h1, Option.bind_some, h2]; rfl
  have hhalf : ∀ c ∈ cells, ∀ m, Spec.at3 s.logkhalf c.chan c.proc m = c.half.get? m := by
    intro c hc m
    obtain ⟨nc, h1, h2⟩ := ((hcells c).1 hc).half
    unfold Spec.at3 Spec.at2; rw [h1, Option.bind_some, h2]; rfl
  have hnbc : ∀ c ∈ cells, s.nbinschan.get? c.chan = some c.n := by
    intro c hc
    obtain ⟨sl, hsl, e1, e2, e3⟩ := ((hcells c).1 hc).slot
    rw [← e1, ← e3]; exact hnb sl hsl
  have hnd : ∀ c ∈ cells, ∀ size l, c.norm = .csr size l → (l.map (·.1)).Nodup ∧ ∀ e ∈ l, e.1 < c.n := by
    intro c hc size l hcl
    obtain ⟨nc, h1, h2⟩ := ((hcells c).1 hc).norm
    rw [hcl] at h2
    obtain ⟨h3, h4⟩ := hcsr c.chan nc c.proc size l h1 h2
    exact ⟨h3, h4 c.n (hnbc c hc)⟩
  have hsorted : ∀ c ∈ cells, c.norm.sorted := by
    intro c hc
    cases hcn : c.norm with
    | dense l => trivial
    | csr size l =>
      have h1 := hT.norm _ _ _ (hat2 c hc) size l hcn
      have h2 := (hnd c hc size l hcn).1
      exact (h1.and h2).imp fun h => Nat.lt_of_le_of_ne h.1 h.2
  have hrange : ∀ c ∈ cells, ∀ e ∈ c.norm.entries, e.1 < c.n := by
    intro c hc e he
    cases hcn : c.norm with
    | csr size l => rw [hcn] at he; exact (hnd c hc size l hcn).2 e he
    | dense l =>
      rw [hcn] at he
      have h2 := hat2 c hc
      rw [hcn] at h2
      have := hsz c.chan c.proc l c.n h2 (hnbc c hc)
      have h3 := (mem_nonzeros.1 (show (e.1, e.2) ∈ nonzeros l from he)).1
      rw [← this]
      exact (List.getElem?_eq_some_iff.1 h3).1
  have hok : ∀ c ∈ cells, CellOk t.systs c := by
    intro c hc
    refine ⟨hsorted c hc, fun k hk => ?_⟩
    obtain ⟨m, v, hm, hv, _, ⟨_, hkv⟩ | ⟨_, hkv⟩⟩ := mem_tasks.1 hk
    · obtain ⟨n, hn1, l, hl, _, hfit⟩ := hT.avg c.chan c.proc m v (by rw [← hv]; exact havg c hc m)
      have := hat2 c hc
      rw [show Spec.at2 s.norm c.chan c.proc = some n from hn1] at this
      cases this
      exact ⟨l, by rw [hkv, hl], hfit⟩
    · obtain ⟨n, hn1, l, hl, _, hfit⟩ := hT.half c.chan c.proc m k.vals (by rw [← hkv]; exact hhalf c hc m)
      have := hat2 c hc
      rw [show Spec.at2 s.norm c.chan c.proc = some n from hn1] at this
      cases this
      exact ⟨l, hl, hfit⟩
  have hnz : ∀ c ∈ cells, ∀ k ∈ tasksOfCell t.systs c, ∀ e ∈ k.vals.ents, e.2 ≠ 0 := by
    intro c hc k hk e he
    obtain ⟨m, v, hm, hv, _, ⟨_, hkv⟩ | ⟨_, hkv⟩⟩ := mem_tasks.1 hk
    · obtain ⟨n, hn1, l, hl, hnz, _⟩ := hT.avg c.chan c.proc m v (by rw [← hv]; exact havg c hc m)
      rw [hkv, hl] at he
      exact hnz e he
    · obtain ⟨n, hn1, l, hl, hnz, _⟩ := hT.half c.chan c.proc m k.vals (by rw [← hkv]; exact hhalf c hc m)
      rw [hl] at he
      exact hnz e he
  -- value of the nominal yields in a cell
  have hcellR : ∀ c ∈ cells, (c.chan, c.start, c.start + c.n) ∈ R := by
    intro c hc
    obtain ⟨sl, hsl, e1, e2, e3⟩ := ((hcells c).1 hc).slot
    rw [hR, ← e1, ← e2, ← e3]
    exact List.mem_map.2 ⟨sl, hsl, rfl⟩
  have hcval : ∀ c ∈ cells, ∀ i, i < c.n → t.sumw (c.start + i) c.iproc = c.norm.at i := by
    intro c hc i hi
    have h := hsumw c.chan c.start (c.start + c.n) (hcellR c hc) c.iproc c.proc ((hcells c).1 hc).proc i (by omega)
    obtain ⟨nc, h1, h2⟩ := ((hcells c).1 hc).norm
    obtain ⟨wc, h3, h4⟩ := ((hcells c).1 hc).sumw2
    have htm : Spec.template s c.chan c.proc = some (c.norm, c.sumw2) := template_eq_some.2 ⟨nc, wc, h1, h3, h2, h4⟩
    rw [show Spec.template (run cfg ops) c.chan c.proc = _ from htm] at h
    rw [h.1]
    cases hcn : c.norm with
    | csr size l => rfl
    | dense l =>
      have h5 := hat2 c hc
      rw [hcn] at h5
      have := hsz c.chan c.proc l c.n h5 (hnbc c hc)
      unfold Spec.content Spec.elem Norm.at
      dsimp only
      congr 1
      split <;> omega
  have hcellN : ∀ c ∈ cells, c.start + c.n ≤ t.nbinsfull := by
    intro c hc
    obtain ⟨sl, hsl, e1, e2, e3⟩ := ((hcells c).1 hc).slot
    have := (hb sl hsl).2
    rw [W.nbinsfull, hN, ← e2, ← e3]; omega
  have hcellof : ∀ name a b, (name, a, b) ∈ R → a < b → ∀ ip proc, t.procs[ip]? = some proc → ∀ n,
      Spec.at2 s.norm name proc = some n → ∃ c ∈ cells, c.chan = name ∧ c.proc = proc ∧ c.iproc = ip ∧ c.start = a ∧
        c.n = b - a ∧ c.norm = n := by
    intro name a b h hab ip proc hp n hn2
    rw [hR] at h
    obtain ⟨sl, hsl, he⟩ := List.mem_map.1 h
    simp only [Prod.mk.injEq] at he
    obtain ⟨rfl, rfl, rfl⟩ := he
    unfold Spec.at2 at hn2
    cases hnc : s.norm.get? sl.name with
    | none => rw [hnc] at hn2; cases hn2
    | some nc =>
      rw [hnc, Option.bind_some] at hn2
      obtain ⟨c, hc, h1, h2, h3⟩ := cell_exists W.isCells hsl hp hnc hn2
      obtain ⟨sl', hsl', e1, e2, e3⟩ := ((hcells c).1 hc).slot
      have : sl' = sl := layout_unique hpw hsl' hsl (i := sl.start) (by omega) (by omega)
      subst this
      have hpr : c.proc = proc := by
        have := ((hcells c).1 hc).proc
        rw [h1, hp] at this; exact (Option.some.inj this).symm
      refine ⟨c, hc, e1.symm, hpr, h1, h2, by omega, ?_⟩
      have := hat2 c hc
      rw [← e1, hpr] at this
      unfold Spec.at2 at this
      rw [hnc, Option.bind_some, hn2] at this
      exact (Option.some.inj this).symm
  -- assembly
  have hbody := W.body
  rw [hsp] at hbody
  unfold fillBody at hbody
  rw [if_pos rfl] at hbody
  cases hfs : fillSparse t.nbinsfull t.procs.length t.systs (run cfg ops).symmetric cells with
  | error e => rw [hfs] at hbody; cases hbody
  | ok out =>
  rw [hfs] at hbody
  have hbody' : t.body = .sparse out := (Except.ok.inj hbody).symm
  unfold fillSparse at hfs
  cases hloop : loop (addCell t.systs) {} cells with
  | error e => rw [hloop] at hfs; cases hfs
  | ok acc =>
  rw [hloop] at hfs
  have hI := asmInv_loop (asmInv_nil t.systs) hok hloop
  rw [List.nil_append] at hI
  have hnorm : ∀ e : Nat × Nat × V, e ∈ acc.norm ↔ ∃ c ∈ cells, ∃ x ∈ c.norm.entries, e = (c.start + x.1, c.iproc, x.2) := by
    intro e
    rw [hI.norm, List.mem_flatMap]
    constructor
    · rintro ⟨c, hc, he⟩
      obtain ⟨x, hx, rfl⟩ := List.mem_map.1 he
      exact ⟨c, hc, x, hx, rfl⟩
    · rintro ⟨c, hc, x, hx, rfl⟩
      exact ⟨c, hc, List.mem_map.2 ⟨x, hx, rfl⟩⟩
  have hndn : (acc.norm.map fun e => (e.1, e.2.1)).Nodup := by
    rw [hI.norm, List.map_flatMap]
    unfold List.Nodup
    rw [List.pairwise_flatMap]
    constructor
    · intro c hc
      have := entries_sorted (hsorted c hc)
      unfold rowsOf
      rw [List.map_map]
      rw [List.pairwise_map] at this ⊢
      refine this.imp fun h heq => ?_
      simp only [Function.comp, Prod.mk.injEq] at heq
      omega
    · refine (List.Pairwise.and_mem.1 (cellsOf_pairwise W.isCells hpw)).imp ?_
      rintro c d ⟨hc, hd, hcd⟩ x hx y hy heq
      subst heq
      obtain ⟨e, he, rfl⟩ := List.mem_map.1 hx
      obtain ⟨e1, he1, rfl⟩ := List.mem_map.1 he
      obtain ⟨f, hf, hfe⟩ := List.mem_map.1 hy
      obtain ⟨f1, hf1, rfl⟩ := List.mem_map.1 hf
      simp only [Prod.mk.injEq] at hfe
      have := hrange c hc e1 he1
      rcases hcd with h | h
      · exact h hfe.2.symm
      · omega
  obtain ⟨hperm, hrow, hlrow, hback, hforth⟩ := canonicalise_ok hfs hndn hI.nodup (by
    rintro ⟨p, col, v⟩ he
    obtain ⟨_, _, _, _, _, _, _, _, h5, _⟩ := hI.sound p col v he
    exact (List.getElem?_eq_some_iff.1 h5).1)
  -- value of a row
  have hrowval : ∀ (c : Cell V), c ∈ cells → ∀ (p i : Nat) (x : V), acc.norm[p]? = some (c.start + i, c.iproc, x) →
      (∃ y, (i, y) ∈ c.norm.entries) → i < c.n ∧ x = t.sumw (c.start + i) c.iproc := by
    intro c hc p i x hp hy
    obtain ⟨y, hy⟩ := hy
    have hi := hrange c hc _ hy
    refine ⟨hi, ?_⟩
    have hm := List.mem_of_getElem? hp
    obtain ⟨d, hd, z, hz, heq⟩ := (hnorm _).1 hm
    simp only [Prod.mk.injEq] at heq
    have hz1 := hrange d hd _ hz
    have hcd : c = d := cell_unique hpw ((hcells c).1 hc) ((hcells d).1 hd) heq.2.1 (b := c.start + i)
      ⟨by omega, by simp only at hi; omega⟩ ⟨by omega, by omega⟩
    subst hcd
    have : z.1 = i := by omega
    rw [hcval c hc i hi, heq.2.2, ← this]
    exact entries_at (fun size l hl => (hnd c hc size l hl).1) hz
  refine ⟨out, hbody', hrow, hlrow, ?_, ?_, ?_, ?_⟩
  · intro b p v h
    obtain ⟨c, hc, x, hx, heq⟩ := (hnorm _).1 (hperm.mem_iff.1 h)
    simp only [Prod.mk.injEq] at heq
    obtain ⟨rfl, rfl, rfl⟩ := heq
    have hi := hrange c hc x hx
    refine ⟨by have := hcellN c hc; omega, (List.getElem?_eq_some_iff.1 ((hcells c).1 hc).proc).1, ?_⟩
    rw [hcval c hc x.1 hi]
    exact entries_at (fun size l hl => (hnd c hc size l hl).1) hx
  · intro name a b h ip proc hp i hi hne
    have hv := hsumw name a b h ip proc hp i hi
    cases htm : Spec.template (run cfg ops) name proc with
    | none => rw [htm] at hv; exact absurd hv.1 hne
    | some x =>
      obtain ⟨n, w⟩ := x
      obtain ⟨nc, wc, h1, h2, h3, h4⟩ := template_eq_some.1 htm
      obtain ⟨c, hc, rfl, rfl, rfl, rfl, hcn, rfl⟩ := hcellof name a b h (by omega) ip proc hp n (by
        unfold Spec.at2; rw [show s.norm.get? name = some nc from h1]; exact h3)
      rw [hcval c hc i (by omega)] at hne ⊢
      exact hperm.mem_iff.2 ((hnorm _).2 ⟨c, hc, (i, c.norm.at i), at_entries hne, rfl⟩)
  · intro name a b h ip proc hp i hi is m hm half e he hne
    -- the task of this variation
    have hav : ∃ v, Spec.at3 s.logkavg name proc m = some v ∧
        ((half = false ∧ e = v) ∨ (half = true ∧ Spec.at3 s.logkhalf name proc m = some e)) := by
      unfold Spec.bookedVar at he
      split at he
      · cases he
      · rename_i v hv
        refine ⟨v, hv, ?_⟩
        cases half with
        | false => exact .inl ⟨rfl, (Option.some.inj he).symm⟩
        | true => exact .inr ⟨rfl, he⟩
    obtain ⟨v, hv, hcase⟩ := hav
    obtain ⟨n, hn2, _⟩ := hT.avg _ _ _ _ hv
    obtain ⟨c, hc, rfl, rfl, rfl, rfl, hcn, rfl⟩ := hcellof name a b h (by omega) ip proc hp n hn2
    have hk : (⟨c, is, if half then 1 else 0, e⟩ : LogkTask V) ∈ tasksOfCell t.systs c := by
      refine mem_tasks.2 ⟨m, v, hm, by rw [← havg c hc]; exact hv, rfl, ?_⟩
      rcases hcase with ⟨rfl, rfl⟩ | ⟨rfl, h2⟩
      · exact .inl ⟨rfl, rfl⟩
      · exact .inr ⟨rfl, by rw [← hhalf c hc]; exact h2⟩
    obtain ⟨l, hl, hfit⟩ := (hok c hc).fits _ hk
    dsimp only at hl
    subst hl
    have hmem := mem_var hne
    obtain ⟨p, x, h1, h2⟩ := hI.complete c hc _ hk i _ hmem
    obtain ⟨r, y, h3, h4, h5⟩ := hforth _ _ _ h1
    rw [h2] at h4
    cases h4
    have hx : ∃ y, (i, y) ∈ c.norm.entries := by
      obtain ⟨d, hd, z, hz, heq⟩ := (hnorm _).1 (List.mem_of_getElem? h2)
      simp only [Prod.mk.injEq] at heq
      have hz1 := hrange d hd _ hz
      have hcd : c = d := cell_unique hpw ((hcells c).1 hc) ((hcells d).1 hd) heq.2.1 (b := c.start + i)
        ⟨by omega, by omega⟩ ⟨by omega, by omega⟩
      subst hcd
      exact ⟨z.2, by rw [show i = z.1 by omega]; exact hz⟩
    obtain ⟨_, hxv⟩ := hrowval c hc p i x h2 hx
    refine ⟨r, ?_, by rw [h5, hxv]⟩
    have hcol : (⟨c, is, if half then 1 else 0, .sparse l⟩ : LogkTask V).col t.systs.length =
        (if half then t.systs.length else 0) + is := by
      unfold LogkTask.col
      cases half <;> simp
    rw [← hcol]; exact h3
  · intro r col v h
    obtain ⟨p, x, h1, h2, h3⟩ := hback r col v h
    obtain ⟨c, hc, k, hk, i, y, h4, h5, h6, h7⟩ := hI.sound p col v h1
    rw [h2] at h6
    cases h6
    obtain ⟨l, hl, hfit⟩ := (hok c hc).fits k hk
    rw [hl] at h4
    have h4' : (i, v) ∈ l := h4
    refine ⟨hnz c hc k hk (i, v) (by rw [hl]; exact h4'), ?_⟩
    -- the row belongs to this cell
    have hx : ∃ y, (i, y) ∈ c.norm.entries := ⟨y, h7⟩
    obtain ⟨hi, hxv⟩ := hrowval c hc p i y h2 hx
    obtain ⟨m, w, hm, hw', _, hkk⟩ := mem_tasks.1 hk
    have hvar : v = Spec.var k.vals i := by
      rw [hl]; exact (var_mem ((fits_nodup hfit (hsorted c hc)).imp fun h => Nat.ne_of_lt h) h4').symm
    have ha3 := havg c hc m
    rw [hw'] at ha3
    rcases hkk with ⟨hk0, hkv⟩ | ⟨hk1, hkh⟩
    · refine ⟨c.chan, c.start, c.start + c.n, c.iproc, c.proc, i, k.isyst, m, false, k.vals, hcellR c hc,
        ((hcells c).1 hc).proc, by omega, hm, ?_, hvar, ?_, by rw [h3, hxv]⟩
      · unfold Spec.bookedVar; rw [ha3, hkv]; rfl
      · rw [h5]; unfold LogkTask.col; rw [hk0]; simp
    · refine ⟨c.chan, c.start, c.start + c.n, c.iproc, c.proc, i, k.isyst, m, true, k.vals, hcellR c hc,
        ((hcells c).1 hc).proc, by omega, hm, ?_, hvar, ?_, by rw [h3, hxv]⟩
      · unfold Spec.bookedVar; rw [ha3]; dsimp only; rw [if_pos rfl, hhalf c hc, hkh]
      · rw [h5]; unfold LogkTask.col; rw [hk1]; simp

/-- the stored entries of a file written in sparse mode -/
def Ex.entries (t : Tensor V) : Option (List (Nat × Nat × V) × List (Nat × Nat × V)) :=
  match t.body with
  | .sparse o => some (o.norm, o.logk)
  | .dense .. => none

set_option synthInstance.maxSize 1000 in
/-- the hypotheses of `c11_canonical` are met: a sparse and a dense template in two channels, the second process booked
first, two nuisances; the rows of the buffer are really permuted -/
example :
    let cfg : Cfg ℚ := { Ex.cfg with sparse := true }
    let ops : List (Op ℚ) := [.channel [Ex.ax 3] (some "a") false false, .channel [Ex.ax 2] (some "b") false false,
      .process (.scipy [3] [(2, .fin 4), (0, .fin 5)]) "q" "a" false none, .process (Ex.h [1, 0, 2]) "p" "a" true none,
      .process (Ex.h [0, 6]) "q" "b" false none, .data (Ex.h [3, 3, 3]) "a" none, .data (Ex.h [3, 3]) "b" none,
      .normSyst "n" ["q", "p"] "a" [.num 2, .num 3] false .average {}, .normSyst "m" ["q"] "b" [.num 2] false .average {}]
    Spec.freshNames cfg {} ops ∧ Spec.csrInRange (run cfg ops) ∧ Spec.sized (run cfg ops) ∧
    ∃ t, (write cfg id (run cfg ops)).2 = .ok t ∧
      Ex.entries t = some ([(0, 0, 1), (0, 1, 5), (2, 0, 2), (2, 1, 4), (4, 1, 6)],
        [(0, 1, cfg.num.log 3), (1, 1, cfg.num.log 2), (2, 1, cfg.num.log 3), (3, 1, cfg.num.log 2),
          (4, 0, cfg.num.log 2)]) := by
  intro cfg ops
  have hnorm : (run cfg ops).norm = [("a", [("q", .csr 3 [(0, 5), (2, 4)]), ("p", .dense [1, 0, 2])]),
      ("b", [("q", .dense [0, 6])])] := by decide +kernel
  have hsize : (run cfg ops).nbinschan = [("a", 3), ("b", 2)] := by decide +kernel
  refine ⟨?_, ?_, ?_, ?_⟩
  · simp only [ops, Spec.freshNames, Spec.addsChannel, Option.getD_some, forall_eq', false_imp_iff, implies_true,
      and_true]
    decide +kernel
  · intro chan nc proc size l h1 h2
    have h4 := Dict.mem_of_get? _ _ _ h1
    have h5 := Dict.mem_of_get? _ _ _ h2
    rw [hnorm] at h4
    rw [hsize]
    simp only [List.mem_cons, Prod.mk.injEq, List.not_mem_nil, or_false] at h4
    rcases h4 with ⟨rfl, rfl⟩ | ⟨_, rfl⟩
    · simp only [List.mem_cons, Prod.mk.injEq, List.not_mem_nil, or_false, Norm.csr.injEq, reduceCtorEq, and_false] at h5
      obtain ⟨_, rfl, rfl⟩ := h5
      refine ⟨by decide, fun n hn e he => ?_⟩
      have : n = 3 := (Option.some.inj hn).symm
      subst this
      simp only [List.mem_cons, List.not_mem_nil, or_false] at he
      rcases he with rfl | rfl <;> decide
    · simp at h5
  · intro chan proc l n h1 h2
    obtain ⟨nc, h3, h5⟩ := Option.bind_eq_some_iff.1 h1
    have h4 := Dict.mem_of_get? _ _ _ h3
    have h6 := Dict.mem_of_get? _ _ _ h5
    have h7 := Dict.mem_of_get? _ _ _ h2
    rw [hnorm] at h4
    rw [hsize] at h7
    simp only [List.mem_cons, Prod.mk.injEq, List.not_mem_nil, or_false] at h4 h7
    rcases h4 with ⟨rfl, rfl⟩ | ⟨rfl, rfl⟩ <;>
      simp at h6 h7 <;> rw [h6.2, h7] <;> rfl
  · exact written_of (r := (write cfg id (run cfg ops)).2) (f := Ex.entries) (by decide +kernel)

end Verif.Writer
