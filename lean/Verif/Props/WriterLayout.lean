import Verif.Lemmas.Write
import Verif.Props.WriterTemplates

/-!
C02: the channel layout of a written file.
-/

namespace Verif.Writer

open Verif.Logk M

set_option linter.unusedSectionVars false

variable {V : Type} [Field V] [LinearOrder V]

/-! ### Specification -/

/-- every registration of a channel uses a name that is not registered yet -/
def Spec.freshNames (cfg : Cfg V) : State V → List (Op V) → Prop
  | _, [] => True
  | s, op :: ops => (∀ chan, Spec.addsChannel s chan op → s.channels.has chan = false) ∧
      Spec.freshNames cfg (step cfg op s).1 ops

/-- the ranges follow each other without gap or overlap from `a` to `b` -/
def Spec.tiles : Nat → List (Nat × Nat) → Nat → Prop
  | a, [], b => a = b
  | a, r :: l, b => r.1 = a ∧ r.1 ≤ r.2 ∧ Spec.tiles r.2 l b

/-- element `i` of an array, an array of length 1 standing for all elements -/
def Spec.elem {α : Type} (l : List α) (i : Nat) (d : α) : α := l.getD (if l.length = 1 then 0 else i) d

/-- content of bin `i` of a template in the written file -/
def Spec.content (n : Norm V) (i : Nat) : V :=
  match n with
  | .dense l => Spec.elem l i 0
  | .csr .. => n.at i

/-- sparse templates have each bin at most once and only bins of their channel -/
def Spec.csrInRange (s : State V) : Prop :=
  ∀ chan nc proc size l, s.norm.get? chan = some nc → nc.get? proc = some (.csr size l) →
    (l.map (·.1)).Nodup ∧ ∀ n, s.nbinschan.get? chan = some n → ∀ e ∈ l, e.1 < n

/-! ### Invariant of histories with distinct names -/

structure LayInv (s : State V) : Prop where
  sorted : s.channels.Pairwise fun a b => a.2.masked = true → b.2.masked = true
  size : s.nbinschan.Perm (s.channels.map fun kc => (kc.1, prod (dims kc.2.flow kc.2.axes)))
  nodup : (Dict.keys s.channels).Nodup

theorem merge_of_disjoint {κ ν : Type} [DecidableEq κ] (d e : Dict κ ν) (hn : (Dict.keys e).Nodup)
    (hd : ∀ k ∈ Dict.keys e, k ∉ Dict.keys d) : Dict.merge d e = d ++ e := by
  unfold Dict.merge
  induction e generalizing d with
  | nil => simp
  | cons x e ih =>
    simp only [Dict.keys, List.map_cons, List.nodup_cons, List.mem_cons, forall_eq_or_imp] at hn hd
    rw [List.foldl_cons, Dict.set_of_not_mem _ _ _ hd.1, ih _ hn.2]
    · simp
    · intro k hk hk'
      simp only [Dict.keys, List.map_append, List.map_cons, List.map_nil, List.mem_append, List.mem_singleton] at hk'
      rcases hk' with hk' | rfl
      · exact hd.2 k hk hk'
      · exact hn.1 hk

theorem insertChannel_fresh (ch : Dict String Chan) (name : String) (c : Chan) (hf : name ∉ Dict.keys ch)
    (hn : (Dict.keys ch).Nodup) :
    insertChannel ch name c = if c.masked then ch ++ [(name, c)]
      else (ch.filter fun kv => !kv.2.masked) ++ [(name, c)] ++ ch.filter fun kv => kv.2.masked := by
  have hsub : ∀ q : String × Chan → Bool, ∀ k ∈ Dict.keys (ch.filter q), k ∈ Dict.keys ch := by
    intro q k hk
    simp only [Dict.keys, List.mem_map, List.mem_filter] at hk ⊢
    obtain ⟨x, hx, rfl⟩ := hk
    exact ⟨x, hx.1, rfl⟩
  have hnd : ∀ q : String × Chan → Bool, (Dict.keys (ch.filter q)).Nodup := fun q =>
    hn.sublist (List.Sublist.map _ List.filter_sublist)
  unfold insertChannel
  split
  · rw [Dict.set_of_not_mem _ _ _ hf]
  · rw [Dict.set_of_not_mem (ch.filter fun kv => !kv.2.masked) _ _ fun h => hf (hsub _ _ h), merge_of_disjoint _ _ (hnd _)]
    intro k hk hk'
    have hkk := hsub _ _ hk
    simp only [Dict.keys, List.map_append, List.map_cons, List.map_nil, List.mem_append, List.mem_singleton] at hk'
    rcases hk' with hk' | rfl
    · simp only [Dict.keys, List.mem_map, List.mem_filter] at hk hk'
      obtain ⟨⟨k1, c1⟩, ⟨h1, m1⟩, rfl⟩ := hk
      obtain ⟨⟨k2, c2⟩, ⟨h2, m2⟩, e⟩ := hk'
      dsimp only at e m1 m2
      subst e
      have e1 := Dict.get?_of_mem _ _ _ hn h1
      have e2 := Dict.get?_of_mem _ _ _ hn h2
      rw [e1] at e2; cases e2
      rw [m1] at m2; cases m2
    · exact hf hkk

theorem layInv_channel (s : State V) (hs : LayInv s) (name : String) (c : Chan) (hf : s.channels.has name = false) :
    (insertChannel s.channels name c).Pairwise (fun a b => a.2.masked = true → b.2.masked = true) ∧
    (s.nbinschan.set name (prod (dims c.flow c.axes))).Perm
      ((insertChannel s.channels name c).map fun kc => (kc.1, prod (dims kc.2.flow kc.2.axes))) ∧
    (Dict.keys (insertChannel s.channels name c)).Nodup := by
  have hnk : name ∉ Dict.keys s.channels := by rw [Dict.mem_keys_iff_has, hf]; simp
  have hnb : name ∉ Dict.keys s.nbinschan := by
    intro h
    have : name ∈ s.nbinschan.map Prod.fst := h
    rw [(hs.size.map Prod.fst).mem_iff, List.map_map] at this
    exact hnk this
  have hperm : (insertChannel s.channels name c).Perm (s.channels ++ [(name, c)]) := by
    rw [insertChannel_fresh _ _ _ hnk hs.nodup]
    split
    · exact .refl _
    · have h1 : ((s.channels.filter fun kv => !kv.2.masked) ++ s.channels.filter fun kv => kv.2.masked).Perm
          s.channels := by
        have := List.filter_append_perm (fun kv : String × Chan => !kv.2.masked) s.channels
        simpa using this
      calc _ = (s.channels.filter fun kv => !kv.2.masked) ++ ([(name, c)] ++ s.channels.filter fun kv => kv.2.masked) := by
              rw [List.append_assoc]
        _ |>.Perm ((s.channels.filter fun kv => !kv.2.masked) ++ ((s.channels.filter fun kv => kv.2.masked) ++ [(name, c)])) :=
              List.Perm.append_left _ List.perm_append_comm
        _ |>.Perm _ := by rw [← List.append_assoc]; exact h1.append_right _
  refine ⟨?_, ?_, ?_⟩
  · rw [insertChannel_fresh _ _ _ hnk hs.nodup]
    split
    · rename_i hm
      rw [List.pairwise_append]
      exact ⟨hs.sorted, by simp, fun a _ b hb _ => by rw [List.mem_singleton.1 hb]; exact hm⟩
    · rename_i hm
      rw [List.pairwise_append, List.pairwise_append]
      refine ⟨⟨hs.sorted.sublist List.filter_sublist, by simp, ?_⟩, hs.sorted.sublist List.filter_sublist, ?_⟩
      · intro a ha _ _ h
        rw [List.mem_filter] at ha
        rw [h] at ha; simp at ha
      · intro a _ b hb _
        exact (List.mem_filter.1 hb).2
  · rw [Dict.set_of_not_mem _ _ _ hnb]
    refine ((hperm.map _).trans ?_).symm
    rw [List.map_append]
    exact (hs.size.append_right _).symm
  · have := hperm.map Prod.fst
    unfold Dict.keys
    rw [this.nodup_iff, List.map_append, List.nodup_append]
    refine ⟨hs.nodup, by simp, ?_⟩
    intro a ha b hb
    simp only [List.map_cons, List.map_nil, List.mem_singleton] at hb
    rintro rfl
    subst hb
    exact hnk ha

theorem layInv_step (cfg : Cfg V) (op : Op V) (s : State V) (hs : LayInv s)
    (hf : ∀ chan, Spec.addsChannel s chan op → s.channels.has chan = false) : LayInv (step cfg op s).1 := by
  have key : ∀ {m : M V Unit}, Keeps (fun s : State V => (s.channels, s.nbinschan)) m → LayInv (m s).1 := fun hm => by
    have := hm.run s
    simp only [Prod.mk.injEq] at this
    exact ⟨by rw [this.1]; exact hs.1, by rw [this.1, this.2]; exact hs.2, by rw [this.1]; exact hs.3⟩
  have kc : ∀ {m : M V Unit}, Keeps core m → Keeps (fun s : State V => (s.channels, s.nbinschan)) m := fun hm =>
    keeps_of_core hm _ fun s t e => by
      have := congrArg (fun c : Core V => (c.channels, c.nbinschan)) e
      exact this
  cases op with
  | dataCov c => exact key ⟨fun _ => rfl⟩
  | pseudo h name c => exact key (keeps_addPseudo _ (fun _ _ _ => rfl) ..)
  | data h c vars => exact key (keeps_addData _ (fun _ _ _ => rfl) ..)
  | process h name c sig vars => exact key (keeps_addProcess _ (fun _ _ _ _ _ _ _ => rfl) ..)
  | syst x name proc c k m sy t d o => exact key (kc (keeps_addSystematic ..))
  | normSyst name procs c u t sy o => exact key (kc (keeps_addNormSystematic ..))
  | write it => exact key (Keeps.bind (keeps_write _ (fun _ _ => rfl) ..) fun _ => Keeps.pure _)
  | channel axes nm m f =>
    simp only [step, addChannel, raiseIf_bind]
    split
    · exact hs
    · rw [read_bind]
      obtain ⟨h1, h2, h3⟩ := layInv_channel s hs (nm.getD s!"ch{s.channels.length}") ⟨axes, m, f⟩ (hf _ rfl)
      exact ⟨h1, h2, h3⟩

theorem layInv_run (cfg : Cfg V) (ops : List (Op V)) (hf : Spec.freshNames cfg {} ops) : LayInv (run cfg ops) := by
  have : ∀ (ops : List (Op V)) (s : State V), LayInv s → Spec.freshNames cfg s ops → LayInv (runOps cfg s ops) := by
    intro ops
    induction ops with
    | nil => exact fun s hs _ => hs
    | cons op ops ih => exact fun s hs h => ih _ (layInv_step cfg op s hs h.1) h.2
  exact this ops {} ⟨by simp, by simp, by simp [Dict.keys]⟩ hf

/-! ### Sizes -/

/-- number of bins of a channel -/
def chSize (c : Chan) : Nat := prod (dims c.flow c.axes)

theorem LayInv.get {s : State V} (hs : LayInv s) {name : String} {c : Chan} (h : (name, c) ∈ s.channels) :
    s.nbinschan.get? name = some (chSize c) := by
  refine Dict.get?_of_mem _ _ _ ?_ ?_
  · have := (hs.size.map Prod.fst).nodup_iff
    rw [List.map_map] at this
    exact this.2 hs.nodup
  · rw [hs.size.mem_iff, List.mem_map]
    exact ⟨(name, c), h, rfl⟩

theorem reader_eq {nb : Dict String Nat} : ∀ {ch : Dict String Chan} {k : Nat} {lay : List Slot},
    layoutFrom nb k ch = .ok lay → (∀ n c, (n, c) ∈ ch → nb.get? n = some (chSize c)) →
      readerFrom k ch = lay.map fun sl => (sl.name, sl.start, sl.start + sl.n) := by
  intro ch
  induction ch with
  | nil => intro k lay h _; cases h; rfl
  | cons x rest ih =>
    intro k lay h hn
    obtain ⟨name, c⟩ := x
    obtain ⟨n, l, h1, h2, rfl⟩ := layoutFrom_cons h
    have : n = chSize c := by
      have := hn name c (by simp)
      rw [h1] at this; exact Option.some.inj this
    subst this
    simp only [readerFrom, List.map_cons, List.cons.injEq]
    refine ⟨rfl, ih h2 fun n c hc => hn n c (by simp [hc])⟩

theorem reader_tiles {nb : Dict String Nat} : ∀ {ch : Dict String Chan} {k : Nat} {lay : List Slot},
    layoutFrom nb k ch = .ok lay →
      Spec.tiles k (lay.map fun sl => (sl.start, sl.start + sl.n)) (k + (lay.map (·.n)).sum) := by
  intro ch
  induction ch with
  | nil => intro k lay h; cases h; simp [Spec.tiles]
  | cons x rest ih =>
    intro k lay h
    obtain ⟨name, c⟩ := x
    obtain ⟨n, l, h1, h2, rfl⟩ := layoutFrom_cons h
    refine ⟨rfl, by dsimp only; omega, ?_⟩
    simp only [List.map_cons, List.sum_cons]
    rw [← Nat.add_assoc]
    exact ih h2

/-- bins of the unmasked slots -/
def unmaskedSum (lay : List Slot) : Nat := (lay.map fun sl => if sl.chan.masked then 0 else sl.n).sum

theorem layout_masked {nb : Dict String Nat} : ∀ {ch : Dict String Chan} {k : Nat} {lay : List Slot},
    layoutFrom nb k ch = .ok lay → ch.Pairwise (fun a b => a.2.masked = true → b.2.masked = true) →
      ∀ sl ∈ lay, (sl.chan.masked = false → sl.start + sl.n ≤ k + unmaskedSum lay) ∧
        (sl.chan.masked = true → k + unmaskedSum lay ≤ sl.start) := by
  intro ch
  induction ch with
  | nil => intro k lay h _ sl hsl; cases h; cases hsl
  | cons x rest ih =>
    intro k lay h hp sl hsl
    obtain ⟨name, c⟩ := x
    obtain ⟨n, l, h1, h2, rfl⟩ := layoutFrom_cons h
    rw [List.pairwise_cons] at hp
    have ih' := ih h2 hp.2
    have hb := layoutFrom_bounds h2
    have hU : unmaskedSum (⟨name, c, k, n⟩ :: l) = (if c.masked then 0 else n) + unmaskedSum l := by
      simp [unmaskedSum]
    cases hm : c.masked with
    | false =>
      rw [hU, hm]
      simp only [Bool.false_eq_true, if_false]
      rcases List.mem_cons.1 hsl with rfl | hsl
      · exact ⟨fun _ => by dsimp only; omega, fun h => by dsimp only at h; rw [hm] at h; cases h⟩
      · have := ih' sl hsl
        exact ⟨fun h => by have := this.1 h; omega, fun h => by have := this.2 h; omega⟩
    | true =>
      have hall : ∀ sl ∈ l, sl.chan.masked = true := by
        intro sl hsl
        have : (sl.name, sl.chan) ∈ rest := by rw [← hb.2.2.2.1]; exact List.mem_map.2 ⟨sl, hsl, rfl⟩
        exact hp.1 _ this hm
      have h0 : unmaskedSum l = 0 := by
        unfold unmaskedSum
        rw [List.map_congr_left (g := fun _ => 0) fun sl hsl => by simp [hall sl hsl]]
        simp
      rw [hU, hm, h0]
      simp only [if_true]
      rcases List.mem_cons.1 hsl with rfl | hsl
      · exact ⟨fun h => (by dsimp only at h; rw [hm] at h; cases h), fun _ => by dsimp only; omega⟩
      · have hk := (hb.1 sl hsl).1
        exact ⟨fun h => (by rw [hall sl hsl] at h; cases h), fun _ => by omega⟩

theorem nbinsOf_eq (channels : Dict String Chan) : ∀ {nb : Dict String Nat} {m : Nat}, nbinsOf channels nb = .ok m →
    m = (nb.map fun e => match channels.get? e.1 with
      | some c => if c.masked then 0 else e.2
      | none => 0).sum := by
  intro nb
  induction nb with
  | nil => intro m h; cases h; rfl
  | cons x nb ih =>
    intro m h
    obtain ⟨c, v⟩ := x
    unfold nbinsOf at h
    split at h
    · cases h
    · rename_i ch hch
      split at h
      · cases h
      · rename_i m' hm'
        cases h
        rw [ih hm']
        simp [hch]

/-- sizes of the written file in terms of the layout -/
theorem layInv_sizes {s : State V} (hs : LayInv s) {lay : List Slot} (hl : layoutFrom s.nbinschan 0 s.channels = .ok lay)
    {m : Nat} (hm : nbinsOf s.channels s.nbinschan = .ok m) :
    nbinsFull s.nbinschan = (lay.map (·.n)).sum ∧ m = unmaskedSum lay := by
  obtain ⟨_, _, _, hch, hnb⟩ := layoutFrom_bounds hl
  have hn : ∀ sl ∈ lay, sl.n = chSize sl.chan := by
    intro sl hsl
    have h1 : (sl.name, sl.chan) ∈ s.channels := by rw [← hch]; exact List.mem_map.2 ⟨sl, hsl, rfl⟩
    have := hs.get h1
    rw [hnb sl hsl] at this
    exact Option.some.inj this
  have hg : ∀ sl ∈ lay, s.channels.get? sl.name = some sl.chan := fun sl hsl =>
    Dict.get?_of_mem _ _ _ hs.nodup (by rw [← hch]; exact List.mem_map.2 ⟨sl, hsl, rfl⟩)
  constructor
  · unfold nbinsFull
    rw [(hs.size.map Prod.snd).sum_eq, List.map_map]
    conv_lhs => rw [← hch]
    rw [List.map_map]
    congr 1
    apply List.map_congr_left
    intro sl hsl
    exact (hn sl hsl).symm
  · rw [nbinsOf_eq _ hm, (hs.size.map _).sum_eq, List.map_map]
    conv_lhs =>
      rw [show s.channels.map _ = (lay.map fun sl => (sl.name, sl.chan)).map _ from by rw [hch]]
    rw [List.map_map]
    unfold unmaskedSum
    congr 1
    apply List.map_congr_left
    intro sl hsl
    simp only [Function.comp_apply, hg sl hsl]
    rw [hn sl hsl]
    rfl

/-! ### Placement -/

theorem assign_apply {α : Type} {N start n : Nat} {f g : Nat → α} {l : List α} (h : assign N f start n l = .ok g)
    (hN : start + n ≤ N) (d : α) (i : Nat) :
    g i = if start ≤ i ∧ i < start + n then Spec.elem l (i - start) d else f i := by
  unfold assign at h
  have h1 : min start N = start := by omega
  have h2 : min (start + n) N = start + n := by omega
  simp only [h1, h2] at h
  split at h
  · rename_i hl
    cases h
    dsimp only
    split
    · rename_i hi
      have hlt : i - start < l.length := by omega
      unfold Spec.elem
      have : (if l.length = 1 then 0 else i - start) = i - start := by split <;> omega
      rw [this]
      rw [List.getD_eq_getElem?_getD, List.getD_eq_getElem?_getD, List.getElem?_eq_getElem hlt]
      rfl
    · rfl
  · split at h
    · cases h
      dsimp only
      split <;> rfl
    · cases h

theorem assignCol_apply {α : Type} {N start n col : Nat} {f g : Nat → Nat → α} {l : List α}
    (h : assignCol N f col start n l = .ok g) (hN : start + n ≤ N) (d : α) (b p : Nat) :
    g b p = if p = col ∧ start ≤ b ∧ b < start + n then Spec.elem l (b - start) d else f b p := by
  unfold assignCol at h
  cases ha : assign N (fun b => f b col) start n l with
  | error e => rw [ha] at h; cases h
  | ok g' =>
    rw [ha] at h
    cases h
    dsimp only
    rw [assign_apply ha hN d b]
    by_cases hp : p = col
    · subst hp; simp
    · simp [hp]

theorem scatterCol_apply {N start col : Nat} {l : List (Nat × V)} (hnd : (l.map (·.1)).Nodup) :
    ∀ {f g : Nat → Nat → V}, scatterCol N f col start l = .ok g → ∀ b p,
      g b p = if p = col ∧ start ≤ b then ((l.find? fun e => e.1 == b - start).map (·.2)).getD (f b p) else f b p := by
  induction l with
  | nil => intro f g h b p; cases h; simp
  | cons x l ih =>
    intro f g h b p
    rw [List.map_cons, List.nodup_cons] at hnd
    unfold scatterCol loop at h
    split at h
    · rename_i f' hf'
      split at hf'
      · cases hf'
        have := ih hnd.2 h b p
        rw [this]
        by_cases hc : p = col ∧ start ≤ b
        · simp only [hc, and_self, if_true, true_and]
          rw [List.find?_cons]
          by_cases hx : x.1 = b - start
          · have h0 : l.find? (fun e => e.1 == b - start) = none := by
              rw [List.find?_eq_none]
              intro e he hei
              exact hnd.1 (List.mem_map.2 ⟨e, he, (eq_of_beq hei).trans hx.symm⟩)
            rw [h0]
            have : b = start + x.1 := by omega
            simp [this]
          · have h1 : ¬ b = start + x.1 := by omega
            have h2 : (x.1 == b - start) = false := by simp [hx]
            simp [h2, h1]
        · simp only [hc, if_false]
          rw [if_neg]
          rintro ⟨rfl, h2⟩
          exact hc ⟨rfl, by omega⟩
      · cases hf'
    · cases h

theorem fillNormDense_sumw {N : Nat} {cells : List (Cell V)} {r : Nat → Nat → V} (h : fillNormDense N cells = .ok r) :
    fillSumw N cells = .ok r := by
  unfold fillNormDense at h
  unfold fillSumw
  generalize (fun _ _ => (0 : V)) = f0 at h ⊢
  induction cells generalizing f0 with
  | nil => exact h
  | cons c cells ih =>
    unfold loop at h ⊢
    cases hn : c.norm with
    | csr size l => rw [hn] at h; cases h
    | dense l =>
      rw [hn] at h
      dsimp only at h ⊢
      cases ha : assignCol N f0 c.iproc c.start c.n l with
      | error e => rw [ha] at h; cases h
      | ok g => rw [ha] at h; exact ih g h

/-- C02 (with pairwise distinct channel names): for every written file, let `R` be the ranges that `FitInputData` computes
from the stored channel information.  They list the registered channels, follow each other without gap or overlap and
cover the bin axis; fitted channels lie below `nbins`, masked ones above; and the nominal yields, variances and data of
each channel are stored exactly in its range. -/
theorem c02_layout_partial (cfg : Cfg V) (ops : List (Op V)) (hf : Spec.freshNames cfg {} ops)
    (iter : List String → List String) (t : Tensor V) (hw : (write cfg iter (run cfg ops)).2 = .ok t)
    (hcsr : Spec.csrInRange (run cfg ops)) :
    let s := run cfg ops
    let R := readerFrom 0 t.channelInfo
    R.map (·.1) = Dict.keys s.channels ∧
    Spec.tiles 0 (R.map (·.2)) t.nbinsfull ∧
    (∀ name a b, (name, a, b) ∈ R → ∀ c, s.channels.get? name = some c →
      (c.masked = false → b ≤ t.nbins) ∧ (c.masked = true → t.nbins ≤ a)) ∧
    (∀ name a b, (name, a, b) ∈ R → ∀ ip proc, t.procs[ip]? = some proc → ∀ i, i < b - a →
      match Spec.template s name proc with
      | some (n, w) => t.sumw (a + i) ip = Spec.content n i ∧ t.sumw2 (a + i) ip = Spec.elem w i 0
      | none => t.sumw (a + i) ip = 0 ∧ t.sumw2 (a + i) ip = 0) ∧
    (∀ name a b, (name, a, b) ∈ R → ∀ c, s.channels.get? name = some c → c.masked = false →
      ∃ l v, s.dataObs.get? name = some l ∧ s.dataVar.get? name = some v ∧ ∀ i, i < b - a →
        t.dataObs (a + i) = Spec.elem l i (.fin 0) ∧ t.dataVar (a + i) = Spec.elem v i (.fin 0)) ∧
    (∀ norm logk, t.body = .dense norm logk → norm = t.sumw) := by
  intro s R
  have hs : LayInv s := layInv_run cfg ops hf
  obtain ⟨lay, cells, W⟩ := write_ok hw
  obtain ⟨hb, hpw, hcov, hch, hnb⟩ := layoutFrom_bounds W.layout
  obtain ⟨hN, hn⟩ := layInv_sizes hs W.layout W.nbins
  have hR : R = lay.map fun sl => (sl.name, sl.start, sl.start + sl.n) := by
    show readerFrom 0 t.channelInfo = _
    rw [W.channelInfo]
    exact reader_eq W.layout fun n c hc => hs.get hc
  have hmem : ∀ name a b, (name, a, b) ∈ R → ∃ sl ∈ lay, sl.name = name ∧ sl.start = a ∧ b = sl.start + sl.n := by
    intro name a b h
    rw [hR] at h
    obtain ⟨sl, hsl, he⟩ := List.mem_map.1 h
    simp only [Prod.mk.injEq] at he
    exact ⟨sl, hsl, he.1, he.2.1, he.2.2.symm⟩
  have hslc : ∀ sl ∈ lay, s.channels.get? sl.name = some sl.chan := fun sl hsl =>
    Dict.get?_of_mem _ _ _ hs.nodup (by
      have : (sl.name, sl.chan) ∈ lay.map fun sl => (sl.name, sl.chan) := List.mem_map.2 ⟨sl, hsl, rfl⟩
      rw [hch] at this; exact this)
  have hslN : ∀ sl ∈ lay, sl.start + sl.n ≤ t.nbinsfull := by
    intro sl hsl
    have := (hb sl hsl).2
    rw [W.nbinsfull, hN]; omega
  have hmask := layout_masked W.layout hs.sorted
  refine ⟨?_, ?_, ?_, ?_, ?_, ?_⟩
  · rw [hR, List.map_map]
    conv_rhs => rw [← hch]
    simp [Dict.keys, Function.comp_def]
  · rw [hR, List.map_map, W.nbinsfull, hN]
    have := reader_tiles W.layout
    rw [Nat.zero_add] at this
    exact this
  · intro name a b h c hc
    obtain ⟨sl, hsl, rfl, rfl, rfl⟩ := hmem name a b h
    rw [hslc sl hsl] at hc; cases hc
    have := hmask sl hsl
    rw [Nat.zero_add, ← hn] at this
    exact this
  · intro name a b h ip proc hproc i hi
    obtain ⟨sl, hsl, rfl, rfl, rfl⟩ := hmem name a b h
    have hi' : i < sl.n := by omega
    have hcells := mem_cellsOf W.isCells
    -- what a cell contributes at this place
    have hcellN : ∀ c ∈ cells, c.start + c.n ≤ t.nbinsfull := by
      intro c hc
      obtain ⟨sl', hsl', _, e2, e3⟩ := ((hcells c).1 hc).slot
      rw [← e2, ← e3]; exact hslN sl' hsl'
    have hcellcsr : ∀ c ∈ cells, ∀ size l, c.norm = .csr size l → (l.map (·.1)).Nodup ∧ ∀ e ∈ l, e.1 < c.n := by
      intro c hc size l hcl
      obtain ⟨nc, h1, h2⟩ := ((hcells c).1 hc).norm
      obtain ⟨sl', hsl', e1, e2, e3⟩ := ((hcells c).1 hc).slot
      rw [hcl] at h2
      obtain ⟨h3, h4⟩ := hcsr c.chan nc c.proc size l h1 h2
      exact ⟨h3, h4 c.n (by rw [← e1, ← e3]; exact hnb sl' hsl')⟩
    let has : Norm V → Nat → Bool := fun n j => match n with
      | .dense _ => true
      | .csr _ l => (l.find? fun e => e.1 == j).isSome
    let cov : Cell V → Prop := fun c => ip = c.iproc ∧ c.start ≤ sl.start + i ∧ sl.start + i < c.start + c.n
    let cov1 : Cell V → Prop := fun c => cov c ∧ has c.norm (sl.start + i - c.start) = true
    have hd : DecidablePred cov := fun c => inferInstanceAs (Decidable (_ ∧ _ ∧ _))
    have hd1 : DecidablePred cov1 := fun c => inferInstanceAs (Decidable (_ ∧ _))
    have obs1 := loop_obs (fun f : Nat → Nat → V => f (sl.start + i) ip) cov1
      (fun c => Spec.content c.norm (sl.start + i - c.start)) (l := cells)
      (fun f c f' hc hb => by
        cases hcn : c.norm with
        | dense l =>
          simp only [hcn] at hb
          rw [assignCol_apply hb (hcellN c hc) 0]
          have : cov1 c ↔ cov c := ⟨fun h => h.1, fun h => ⟨h, by rw [hcn]⟩⟩
          by_cases h : cov c
          · rw [if_pos h, if_pos (this.2 h)]; rfl
          · rw [if_neg h, if_neg fun h' => h (this.1 h')]
        | csr size l =>
          simp only [hcn] at hb
          obtain ⟨h1, h2⟩ := hcellcsr c hc size l hcn
          rw [scatterCol_apply h1 hb]
          cases hfd : l.find? (fun e => e.1 == sl.start + i - c.start) with
          | some e =>
            have hlt := h2 e (List.mem_of_find?_eq_some hfd)
            have heq : e.1 = sl.start + i - c.start := by simpa using List.find?_some hfd
            by_cases hp : ip = c.iproc ∧ c.start ≤ sl.start + i
            · rw [if_pos hp, if_pos (show cov1 c from ⟨⟨hp.1, hp.2, by omega⟩, by simp only [has, hcn, hfd]; rfl⟩)]
              simp [Spec.content, Norm.at, hfd]
            · rw [if_neg hp, if_neg (show ¬ cov1 c from fun hcv => hp ⟨hcv.1.1, hcv.1.2.1⟩)]
          | none =>
            rw [if_neg (show ¬ cov1 c from fun hcv => by have := hcv.2; simp only [has, hcn, hfd] at this; cases this)]
            split <;> rfl) W.sumw
    have obs2 := loop_obs (fun f : Nat → Nat → V => f (sl.start + i) ip) cov
      (fun c => Spec.elem c.sumw2 (sl.start + i - c.start) 0) (l := cells)
      (fun f c f' hc hb => by
        have := assignCol_apply hb (hcellN c hc) 0 (sl.start + i) ip
        by_cases h : cov c
        · rw [if_pos h]; rw [if_pos h] at this; exact this
        · rw [if_neg h]; rw [if_neg h] at this; exact this) W.sumw2
    have huniq : ∀ c ∈ cells, cov c → c.chan = sl.name ∧ c.proc = proc ∧ c.start = sl.start := by
      intro c hc hcv
      have hic := (hcells c).1 hc
      obtain ⟨sl', hsl', e1, e2, e3⟩ := hic.slot
      have : sl' = sl := layout_unique hpw hsl' hsl (i := sl.start + i)
        (by rw [e2, e3]; exact ⟨hcv.2.1, hcv.2.2⟩) ⟨by omega, by omega⟩
      subst this
      refine ⟨e1.symm, ?_, e2.symm⟩
      have := hic.proc
      rw [← hcv.1, hproc] at this
      exact (Option.some.inj this).symm
    cases htm : Spec.template s sl.name proc with
    | none =>
      have hno : ∀ c ∈ cells, ¬ cov c := by
        intro c hc hcv
        obtain ⟨h1, h2, _⟩ := huniq c hc hcv
        have hic := (hcells c).1 hc
        obtain ⟨nc, hn1, hn2⟩ := hic.norm
        obtain ⟨wc, hw1, hw2⟩ := hic.sumw2
        rw [h1] at hn1 hw1
        rw [h2] at hn2 hw2
        have : Spec.template s sl.name proc = some (c.norm, c.sumw2) := template_eq_some.2 ⟨nc, wc, hn1, hw1, hn2, hw2⟩
        rw [htm] at this; cases this
      exact ⟨obs1.1 fun c hc h => hno c hc h.1, obs2.1 hno⟩
    | some x =>
      obtain ⟨n, w⟩ := x
      have hcw : ∀ c ∈ cells, cov c → c.norm = n ∧ c.sumw2 = w := by
        intro c hc hcv
        obtain ⟨h1, h2, _⟩ := huniq c hc hcv
        have hic := (hcells c).1 hc
        obtain ⟨nc, hn1, hn2⟩ := hic.norm
        obtain ⟨wc, hw1, hw2⟩ := hic.sumw2
        rw [h1] at hn1 hw1
        rw [h2] at hn2 hw2
        have : Spec.template s sl.name proc = some (c.norm, c.sumw2) := template_eq_some.2 ⟨nc, wc, hn1, hw1, hn2, hw2⟩
        rw [htm] at this
        simp only [Option.some.injEq, Prod.mk.injEq] at this
        exact ⟨this.1.symm, this.2.symm⟩
      have hex : ∃ c ∈ cells, cov c := by
        obtain ⟨nc, wc, hn1, hw1, hn2, hw2⟩ := template_eq_some.1 htm
        obtain ⟨a, ha⟩ := cell_exists W.isCells hsl hproc hn1 hn2
        exact ⟨a, ha.1, ha.2.1.symm, by rw [ha.2.2.1]; omega, by rw [ha.2.2.1, ha.2.2.2]; omega⟩
      have hval : ∀ c ∈ cells, cov c → sl.start + i - c.start = i := by
        intro c hc hcv
        rw [(huniq c hc hcv).2.2]; omega
      refine ⟨?_, obs2.2 _ hex fun c hc hcv => by rw [(hcw c hc hcv).2, hval c hc hcv]⟩
      obtain ⟨c, hc, hcv⟩ := hex
      by_cases hh : has n i = true
      · exact obs1.2 _ ⟨c, hc, hcv, by rw [(hcw c hc hcv).1, hval c hc hcv]; exact hh⟩
          fun c hc hcv => by rw [(hcw c hc hcv.1).1, hval c hc hcv.1]
      · have h0 := obs1.1 fun c hc hcv => hh (by
          have := hcv.2
          rw [(hcw c hc hcv.1).1, hval c hc hcv.1] at this; exact this)
        rw [h0]
        cases hn' : n with
        | dense l => rw [hn'] at hh; exact absurd rfl hh
        | csr size l =>
          rw [hn'] at hh
          simp only [has, Bool.not_eq_true, Option.isSome_eq_false_iff, Option.isNone_iff_eq_none] at hh
          simp [Spec.content, Norm.at, hh]
  · intro name a b h c hc hm
    obtain ⟨sl, hsl, rfl, rfl, rfl⟩ := hmem name a b h
    rw [hslc sl hsl] at hc; cases hc
    have hd : ∀ (d : Dict String (List (FVal V))) (r : Nat → FVal V), fillData t.nbins d lay = .ok r →
        ∃ l, d.get? sl.name = some l ∧ ∀ i, i < sl.n → r (sl.start + i) = Spec.elem l i (.fin 0) := by
      intro d r hr
      obtain ⟨f1, f2, hf⟩ := loop_body_ok hr sl hsl
      rw [hm] at hf
      simp only [Bool.false_eq_true, if_false] at hf
      cases hl : d.get? sl.name with
      | none => rw [hl] at hf; cases hf
      | some l =>
        refine ⟨l, rfl, fun i hi => ?_⟩
        have hbd : ∀ sl ∈ lay, sl.chan.masked = false → sl.start + sl.n ≤ t.nbins := by
          intro sl' hsl' hm'
          have := (hmask sl' hsl').1 hm'
          rw [hn]; omega
        refine (loop_obs (fun f : Nat → FVal V => f (sl.start + i))
          (fun c : Slot => c.chan.masked = false ∧ c.start ≤ sl.start + i ∧ sl.start + i < c.start + c.n)
          (fun c => Spec.elem ((d.get? c.name).getD []) (sl.start + i - c.start) (.fin 0)) (l := lay) ?_ hr).2 _ ?_ ?_
        · intro f c f' hc hb
          cases hmc : c.chan.masked with
          | true => rw [hmc] at hb; cases hb; simp
          | false =>
            rw [hmc] at hb
            simp only [Bool.false_eq_true, if_false] at hb
            cases hlc : d.get? c.name with
            | none => rw [hlc] at hb; cases hb
            | some lc =>
              rw [hlc] at hb
              rw [assign_apply hb (hbd c hc hmc) (.fin 0)]
              simp
        · exact ⟨sl, hsl, hm, by omega, by omega⟩
        · intro c hc hcv
          have : c = sl := layout_unique hpw hc hsl hcv.2 ⟨by omega, by omega⟩
          subst this
          rw [hl, Option.getD_some]
          congr 1
          omega
    obtain ⟨l, h1, h2⟩ := hd _ _ W.obs
    obtain ⟨v, h3, h4⟩ := hd _ _ W.var
    exact ⟨l, v, h1, h3, fun i hi => ⟨h2 i (by omega), h4 i (by omega)⟩⟩
  · intro norm logk hbody
    have hb := W.body
    rw [hbody] at hb
    unfold fillBody at hb
    split at hb
    · cases hfs : fillSparse t.nbinsfull t.procs.length t.systs s.symmetric cells with
      | error e => rw [hfs] at hb; cases hb
      | ok o => rw [hfs] at hb; cases hb
    · split at hb
      · rename_i nm lk h1 h2
        cases hb
        have := fillNormDense_sumw h1
        rw [W.sumw] at this
        exact (Except.ok.inj this).symm
      · cases hb
      · cases hb

/-- facts about the file written in a concrete case -/
theorem written_of {V α : Type} {r : Res (Tensor V)} {f : Tensor V → α} {v : α}
    (h : (match r with
      | .ok t => some (f t)
      | .error _ => none) = some v) : ∃ t, r = .ok t ∧ f t = v := by
  cases r with
  | error e => cases h
  | ok t => exact ⟨t, rfl, Option.some.inj h⟩

/-- The code violates C02 when a channel name is used again, first way: registering a fitted channel again as masked leaves
it in its place, so a fitted channel comes after a masked one and its bins lie outside the first `nbins` rows. -/
theorem c02_order_violated : ∃ (cfg : Cfg ℚ) (ops : List (Op ℚ)) (t : Tensor ℚ) (a b : Nat) (c : Chan),
    (write cfg id (run cfg ops)).2 = .ok t ∧ ("b", a, b) ∈ readerFrom 0 t.channelInfo ∧
    t.channelInfo.get? "b" = some c ∧ c.masked = false ∧ t.nbins < b := by
  let ops : List (Op ℚ) := [.channel [Ex.ax 2] (some "a") false false, .channel [Ex.ax 1] (some "b") false false,
    .data (Ex.h [5]) "b" none, .channel [Ex.ax 2] (some "a") true false]
  obtain ⟨t, h1, h2⟩ := written_of (r := (write Ex.cfg id (run Ex.cfg ops)).2)
    (f := fun t => (readerFrom 0 t.channelInfo, t.channelInfo, t.nbins))
    (v := ([("a", 0, 2), ("b", 2, 3)], [("a", ⟨[Ex.ax 2], true, false⟩), ("b", ⟨[Ex.ax 1], false, false⟩)], 1))
    (by decide +kernel)
  simp only [Prod.mk.injEq] at h2
  exact ⟨_, _, t, 2, 3, _, h1, by rw [h2.1]; simp, by rw [h2.2.1]; rfl, rfl, by rw [h2.2.2]; omega⟩

/-- Second way: registering a masked channel again as fitted keeps the old axes but the new size, so the ranges computed
on reading are not those the writer used. -/
theorem c02_reader_violated : ∃ (cfg : Cfg ℚ) (ops : List (Op ℚ)) (t : Tensor ℚ),
    (write cfg id (run cfg ops)).2 = .ok t ∧ ¬ Spec.tiles 0 ((readerFrom 0 t.channelInfo).map (·.2)) t.nbinsfull := by
  let ops : List (Op ℚ) := [.channel [Ex.ax 2] (some "a") true false, .channel [Ex.ax 3] (some "a") false false]
  obtain ⟨t, h1, h2⟩ := written_of (r := (write Ex.cfg id (run Ex.cfg ops)).2)
    (f := fun t => (readerFrom 0 t.channelInfo, t.nbinsfull)) (v := ([("a", 0, 2)], 3)) (by decide +kernel)
  simp only [Prod.mk.injEq] at h2
  refine ⟨Ex.cfg, ops, t, h1, ?_⟩
  rw [h2.1, h2.2]
  simp [Spec.tiles]

/-- the hypotheses of `c02_layout_partial` are met: a masked channel registered before a fitted one -/
example :
    let ops : List (Op ℚ) := [.channel [Ex.ax 2] (some "m") true false, .channel [Ex.ax 3] (some "f") false false,
      .process (Ex.h [1, 2]) "p" "m" false none, .process (Ex.h [3, 4, 5]) "p" "f" false none,
      .data (Ex.h [3, 3, 3]) "f" none]
    Spec.freshNames Ex.cfg {} ops ∧ Spec.csrInRange (run Ex.cfg ops) ∧ (write Ex.cfg id (run Ex.cfg ops)).2.isOk = true ∧
      readerFrom 0 (run Ex.cfg ops).channels = [("f", 0, 3), ("m", 3, 5)] := by
  refine ⟨?_, ?_, by decide +kernel, by decide +kernel⟩
  · simp only [Spec.freshNames, Spec.addsChannel, Option.getD_some, forall_eq', false_imp_iff, implies_true,
      and_true]
    decide +kernel
  · intro chan nc proc size l h1 h2
    exfalso
    have h3 : (run Ex.cfg [.channel [Ex.ax 2] (some "m") true false, .channel [Ex.ax 3] (some "f") false false,
      .process (Ex.h [1, 2]) "p" "m" false none, .process (Ex.h [3, 4, 5]) "p" "f" false none,
      .data (Ex.h [3, 3, 3]) "f" none]).norm = [("m", [("p", .dense [1, 2])]), ("f", [("p", .dense [3, 4, 5])])] := by
      decide +kernel
    have h4 := Dict.mem_of_get? _ _ _ h1
    have h5 := Dict.mem_of_get? _ _ _ h2
    rw [h3] at h4
    simp only [List.mem_cons, Prod.mk.injEq, List.not_mem_nil, or_false] at h4
    rcases h4 with ⟨_, rfl⟩ | ⟨_, rfl⟩ <;> simp at h5

end Verif.Writer
