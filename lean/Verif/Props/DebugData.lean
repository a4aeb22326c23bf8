import Verif.Model.DebugData
import Verif.Props.Merge

/-! C81: queries and report of the input checker. -/

namespace Verif.DebugData

open Verif.Merge Verif.Writer Verif.Logk

noncomputable section

/-- position `i` of the list of names is among the chosen ones -/
def Spec.chosen (all : List String) (sel : Option (List String)) (i : Nat) : Prop :=
  i < all.length ∧ ∀ l, sel = some l → ∃ n ∈ l, all[i]? = some n

/-- a channel is among the chosen ones -/
def Spec.chosenChannel (I : In) (sel : Option (List String)) (k : Block) : Prop :=
  k ∈ I.blocks ∧ ∀ l, sel = some l → k.name ∈ l

/-- systematic `j` changes the prediction of process `p` in a bin of the channel -/
def Spec.effect (I : In) (k : Block) (p j : Nat) : Prop :=
  ∃ i, i < k.n ∧ (I.template true (k.start + i) p j ≠ I.norm (k.start + i) p ∨ I.template false (k.start + i) p j ≠ I.norm (k.start + i) p)

/-- What the writer guarantees: names are distinct, and empty bins have no variation (tensorwriter.py:1594). -/
structure Spec.Regular (I : In) : Prop where
  type : I.st ≠ .other
  procs : I.t.procs.Nodup
  systs : I.t.systs.Nodup
  channels : (I.t.channelInfo.map (·.1)).Nodup
  empty : ∀ b p i j, I.norm b p = 0 → I.logk b p i j = 0

/-! ### selections -/

theorem mapM_ok {α β : Type} {f : α → Res β} : ∀ {l : List α} {r : List β}, l.mapM f = .ok r →
    ∀ x, x ∈ r ↔ ∃ n ∈ l, f n = .ok x := by
  intro l
  induction l with
  | nil =>
    intro r h x
    rw [List.mapM_nil] at h
    cases h
    simp
  | cons a l ih =>
    intro r h x
    rw [List.mapM_cons] at h
    cases hf : f a with
    | error e => rw [hf] at h; exact nomatch h
    | ok y =>
      rw [hf] at h
      cases hl : l.mapM f with
      | error e => rw [hl] at h; exact nomatch h
      | ok r' =>
        rw [hl] at h
        cases h
        rw [List.mem_cons, ih hl]
        constructor
        · rintro (rfl | ⟨n, hn, hx⟩)
          · exact ⟨a, List.mem_cons_self, hf⟩
          · exact ⟨n, List.mem_cons_of_mem _ hn, hx⟩
        · rintro ⟨n, hn, hx⟩
          rcases List.mem_cons.1 hn with rfl | hn
          · rw [hf] at hx; exact .inl (Except.ok.inj hx).symm
          · exact .inr ⟨n, hn, hx⟩

theorem mapM_isOk {α β : Type} {f : α → Res β} : ∀ {l : List α}, (∃ r, l.mapM f = .ok r) ↔ ∀ n ∈ l, ∃ x, f n = .ok x := by
  intro l
  induction l with
  | nil => exact ⟨fun _ _ h => absurd h List.not_mem_nil, fun _ => ⟨[], rfl⟩⟩
  | cons a l ih =>
    rw [List.mapM_cons]
    constructor
    · rintro ⟨r, h⟩ n hn
      cases hf : f a with
      | error e => rw [hf] at h; exact nomatch h
      | ok y =>
        rw [hf] at h
        rcases List.mem_cons.1 hn with rfl | hn
        · exact ⟨y, hf⟩
        · cases hl : l.mapM f with
          | error e => rw [hl] at h; exact nomatch h
          | ok r' => exact ih.1 ⟨r', hl⟩ n hn
    · intro h
      obtain ⟨y, hy⟩ := h a List.mem_cons_self
      obtain ⟨r, hr⟩ := ih.2 fun n hn => h n (List.mem_cons_of_mem _ hn)
      exact ⟨y :: r, by rw [hy, hr]; rfl⟩

theorem idxOf?_iff {all : List String} (hn : all.Nodup) (n : String) (i : Nat) : all.idxOf? n = some i ↔ all[i]? = some n := by
  rw [List.idxOf?, List.findIdx?_eq_some_iff_getElem]
  constructor
  · rintro ⟨h, h1, -⟩
    rw [List.getElem?_eq_getElem h]
    simpa using h1
  · intro h
    obtain ⟨hi, he⟩ := List.getElem?_eq_some_iff.1 h
    refine ⟨hi, by simpa using he, fun j hj => ?_⟩
    simp only [beq_iff_eq]
    intro e
    have := (List.Nodup.getElem_inj_iff hn (hi := by omega) (hj := hi)).1 (e.trans he.symm)
    omega

theorem idxsOf_mem {all : List String} (hn : all.Nodup) {sel : Option (List String)} {r : List Nat} (h : idxsOf all sel = .ok r) (i : Nat) :
    i ∈ r ↔ Spec.chosen all sel i := by
  cases sel with
  | none =>
    cases h
    simp [Spec.chosen]
  | some l =>
    rw [mapM_ok (f := idxOne all) (l := l) h]
    unfold Spec.chosen idxOne
    constructor
    · rintro ⟨n, hnl, hx⟩
      split at hx
      · rename_i i' he
        cases hx
        rw [idxOf?_iff hn] at he
        exact ⟨(List.getElem?_eq_some_iff.1 he).1, fun l' hl' => Option.some.inj hl' ▸ ⟨n, hnl, he⟩⟩
      · exact nomatch hx
    · rintro ⟨-, h2⟩
      obtain ⟨n, hnl, he⟩ := h2 l rfl
      refine ⟨n, hnl, ?_⟩
      rw [(idxOf?_iff hn n i).2 he]

theorem idxsOf_isOk {all : List String} {sel : Option (List String)} :
    (∃ r, idxsOf all sel = .ok r) ↔ ∀ l, sel = some l → ∀ n ∈ l, n ∈ all := by
  cases sel with
  | none => exact ⟨fun _ _ h => (nomatch h), fun _ => ⟨_, rfl⟩⟩
  | some l =>
    rw [show (∃ r, idxsOf all (some l) = .ok r) ↔ ∃ r, l.mapM (idxOne all) = .ok r from Iff.rfl, mapM_isOk]
    unfold idxOne
    constructor
    · intro h l' hl' n hn
      cases hl'
      obtain ⟨x, hx⟩ := h n hn
      split at hx
      · rename_i i he
        by_contra hc
        rw [List.idxOf?_eq_none_iff.2 hc] at he
        exact nomatch he
      · exact nomatch hx
    · intro h n hn
      have := h l rfl n hn
      cases he : all.idxOf? n with
      | none => exact absurd this (List.idxOf?_eq_none_iff.1 he)
      | some i => exact ⟨i, rfl⟩

theorem blocks_names (I : In) : I.blocks.map (·.name) = I.t.channelInfo.map (·.1) := by
  unfold In.blocks
  have : ∀ (L : Dict String Chan) (s : Nat), (blocksFrom s L).map (·.name) = L.map (·.1) := by
    intro L
    induction L with
    | nil => intro s; rfl
    | cons e L ih =>
      intro s
      obtain ⟨n, c⟩ := e
      simp only [blocksFrom, List.map_cons, ih]
  exact this _ _

theorem find_block {l : List Block} (hn : (l.map (·.name)).Nodup) (n : String) (k : Block) :
    (l.find? fun k => k.name == n) = some k ↔ k ∈ l ∧ k.name = n := by
  constructor
  · intro h
    exact ⟨List.mem_of_find?_eq_some h, by simpa using List.find?_some h⟩
  · rintro ⟨hk, rfl⟩
    induction l with
    | nil => exact absurd hk List.not_mem_nil
    | cons a l ih =>
      rw [List.map_cons, List.nodup_cons] at hn
      rw [List.find?_cons]
      rcases List.mem_cons.1 hk with rfl | hk
      · simp
      · have : (a.name == k.name) = false := by
          simpa using fun e => hn.1 (List.mem_map.2 ⟨k, hk, e.symm⟩)
        rw [this]
        exact ih hn.2 hk

theorem blocksOf_mem {I : In} (hr : Spec.Regular I) {sel : Option (List String)} {r : List Block} (h : blocksOf I sel = .ok r)
    (k : Block) : k ∈ r ↔ Spec.chosenChannel I sel k := by
  have hn : (I.blocks.map (·.name)).Nodup := by rw [blocks_names]; exact hr.channels
  cases sel with
  | none =>
    cases h
    simp [Spec.chosenChannel]
  | some l =>
    rw [mapM_ok (f := blockOne I) (l := l) h]
    unfold Spec.chosenChannel blockOne
    constructor
    · rintro ⟨n, hnl, hx⟩
      split at hx
      · rename_i k' he
        cases hx
        rw [find_block hn] at he
        exact ⟨he.1, fun l' hl' => Option.some.inj hl' ▸ he.2 ▸ hnl⟩
      · exact nomatch hx
    · rintro ⟨h1, h2⟩
      refine ⟨k.name, h2 l rfl, ?_⟩
      rw [(find_block hn k.name k).2 ⟨h1, rfl⟩]

theorem blocksOf_isOk {I : In} {sel : Option (List String)} :
    (∃ r, blocksOf I sel = .ok r) ↔ ∀ l, sel = some l → ∀ n ∈ l, n ∈ I.t.channelInfo.map (·.1) := by
  rw [← blocks_names]
  cases sel with
  | none => exact ⟨fun _ _ h => (nomatch h), fun _ => ⟨_, rfl⟩⟩
  | some l =>
    rw [show (∃ r, blocksOf I (some l) = .ok r) ↔ ∃ r, l.mapM (blockOne I) = .ok r from Iff.rfl, mapM_isOk]
    unfold blockOne
    constructor
    · intro h l' hl' n hn
      cases hl'
      obtain ⟨x, hx⟩ := h n hn
      split at hx
      · rename_i k he
        exact List.mem_map.2 ⟨k, List.mem_of_find?_eq_some he, by simpa using List.find?_some he⟩
      · exact nomatch hx
    · intro h n hn
      obtain ⟨k, hk, e⟩ := List.mem_map.1 (h l rfl n hn)
      cases he : I.blocks.find? fun k => k.name == n with
      | none =>
        rw [List.find?_eq_none] at he
        exact absurd (by simpa using e) (he k hk)
      | some k => exact ⟨k, rfl⟩

theorem pickNames_sublist (all : List String) (q : Nat → Bool) : (pickNames all q).Sublist all := by
  have := (List.filter_sublist (p := fun m : String × Nat => q m.2) (l := all.zipIdx)).map (·.1)
  rwa [List.zipIdx_map_fst] at this

theorem pickNames_mem {all : List String} (hn : all.Nodup) (q : Nat → Bool) (j : Nat) (n : String) (h : all[j]? = some n) :
    n ∈ pickNames all q ↔ q j = true := by
  unfold pickNames
  simp only [List.mem_map, List.mem_filter, Prod.exists]
  constructor
  · rintro ⟨_, i, ⟨hi, hq⟩, rfl⟩
    rw [List.mem_zipIdx_iff_getElem?] at hi
    obtain ⟨h1, e1⟩ := List.getElem?_eq_some_iff.1 hi
    obtain ⟨h2, e2⟩ := List.getElem?_eq_some_iff.1 h
    have := (List.Nodup.getElem_inj_iff hn (hi := h1) (hj := h2)).1 (e1.trans e2.symm)
    dsimp only at this
    rwa [this] at hq
  · intro hq
    exact ⟨n, j, ⟨List.mem_zipIdx_iff_getElem?.2 h, hq⟩, rfl⟩

/-! ### effects -/

theorem varied_ne {st : SystType} (hst : st ≠ .other) {v N : ℝ} (h : N = 0 → v = 0) : varied Real.exp st v N ≠ N ↔ v ≠ 0 := by
  cases st with
  | other => exact absurd rfl hst
  | normal => simp [varied]
  | logNormal =>
    unfold varied
    dsimp only
    constructor
    · rintro h1 rfl
      simp at h1
    · intro hv he
      have hN : N ≠ 0 := fun e => hv (h e)
      have : Real.exp v = 1 := by
        have := mul_right_cancel₀ hN (he.trans (one_mul N).symm)
        exact this
      exact hv (Real.exp_eq_one_iff _ |>.1 this)

theorem active_iff {I : In} (hr : Spec.Regular I) (k : Block) (p j : Nat) :
    active I.t I.logk k p j = true ↔ Spec.effect I k p j := by
  unfold active Spec.effect
  rw [List.any_eq_true]
  refine exists_congr fun i => ?_
  rw [List.mem_range]
  refine and_congr_right fun _ => ?_
  have h0 := hr.empty (k.start + i) p
  have hu : I.norm (k.start + i) p = 0 → upVar I.t I.logk (k.start + i) p j = 0 := fun e => by
    unfold upVar; rw [h0 0 j e, h0 1 j e]; simp
  have hd : I.norm (k.start + i) p = 0 → downVar I.t I.logk (k.start + i) p j = 0 := fun e => by
    unfold downVar; rw [h0 0 j e, h0 1 j e]; simp
  unfold In.template
  rw [if_pos rfl, if_neg (by simp), varied_ne hr.type hu, varied_ne hr.type hd]
  unfold varies upVar downVar
  by_cases hs : I.t.symmetric = true
  · simp [hs]
  · simp only [hs, if_false, Bool.false_eq_true, Bool.or_eq_true, decide_eq_true_eq, abs_pos]
    generalize I.logk (k.start + i) p 0 j = a
    generalize I.logk (k.start + i) p 1 j = c
    constructor
    · intro h
      by_contra hc
      push Not at hc
      obtain ⟨h1, h2⟩ := hc
      have ha : a = 0 := by linarith
      have hb : c = 0 := by linarith
      rcases h with h | h
      · exact h ha
      · exact h hb
    · intro h
      by_contra hc
      push Not at hc
      obtain ⟨rfl, rfl⟩ := hc
      simp at h

/-- C81: the systematics said to vary the chosen processes in the chosen channels are those that do, in the order of the
file; the question fails exactly for unknown names. -/
theorem c81_systs {I : In} (hr : Spec.Regular I) (channels procs : Option (List String)) :
    ((∃ l, nonzeroSysts I channels procs = .ok l) ↔
      (∀ l, channels = some l → ∀ n ∈ l, n ∈ I.t.channelInfo.map (·.1)) ∧ ∀ l, procs = some l → ∀ n ∈ l, n ∈ I.t.procs) ∧
    ∀ l, nonzeroSysts I channels procs = .ok l → l.Sublist I.t.systs ∧ ∀ j n, I.t.systs[j]? = some n →
      (n ∈ l ↔ ∃ k p, Spec.chosenChannel I channels k ∧ Spec.chosen I.t.procs procs p ∧ Spec.effect I k p j) := by
  rw [← blocksOf_isOk, ← idxsOf_isOk]
  unfold nonzeroSysts
  cases hk : blocksOf I channels with
  | error e =>
    exact ⟨⟨fun ⟨_, h⟩ => (nomatch h), fun ⟨⟨_, h⟩, _⟩ => (nomatch h)⟩, fun _ h => nomatch h⟩
  | ok ks =>
    cases hp : idxsOf I.t.procs procs with
    | error e => exact ⟨⟨fun ⟨_, h⟩ => (nomatch h), fun ⟨_, ⟨_, h⟩⟩ => (nomatch h)⟩, fun _ h => nomatch h⟩
    | ok ps =>
      refine ⟨⟨fun _ => ⟨⟨_, rfl⟩, ⟨_, rfl⟩⟩, fun _ => ⟨_, rfl⟩⟩, fun l h => ?_⟩
      cases h
      refine ⟨pickNames_sublist _ _, fun j n hj => ?_⟩
      rw [pickNames_mem hr.systs _ j n hj]
      simp only [List.any_eq_true, active_iff hr, blocksOf_mem hr hk, idxsOf_mem hr.procs hp]
      exact ⟨fun ⟨k, h1, p, h2, h3⟩ => ⟨k, p, h1, h2, h3⟩, fun ⟨k, p, h1, h2, h3⟩ => ⟨k, h1, p, h2, h3⟩⟩

/-- C81: likewise for the processes that the chosen systematics vary in the chosen channels. -/
theorem c81_procs {I : In} (hr : Spec.Regular I) (channels systs : Option (List String)) :
    ((∃ l, procsForNonzeroSysts I channels systs = .ok l) ↔
      (∀ l, channels = some l → ∀ n ∈ l, n ∈ I.t.channelInfo.map (·.1)) ∧ ∀ l, systs = some l → ∀ n ∈ l, n ∈ I.t.systs) ∧
    ∀ l, procsForNonzeroSysts I channels systs = .ok l → l.Sublist I.t.procs ∧ ∀ p n, I.t.procs[p]? = some n →
      (n ∈ l ↔ ∃ k j, Spec.chosenChannel I channels k ∧ Spec.chosen I.t.systs systs j ∧ Spec.effect I k p j) := by
  rw [← blocksOf_isOk, ← idxsOf_isOk]
  unfold procsForNonzeroSysts
  cases hk : blocksOf I channels with
  | error e =>
    exact ⟨⟨fun ⟨_, h⟩ => (nomatch h), fun ⟨⟨_, h⟩, _⟩ => (nomatch h)⟩, fun _ h => nomatch h⟩
  | ok ks =>
    cases hp : idxsOf I.t.systs systs with
    | error e => exact ⟨⟨fun ⟨_, h⟩ => (nomatch h), fun ⟨_, ⟨_, h⟩⟩ => (nomatch h)⟩, fun _ h => nomatch h⟩
    | ok js =>
      refine ⟨⟨fun _ => ⟨⟨_, rfl⟩, ⟨_, rfl⟩⟩, fun _ => ⟨_, rfl⟩⟩, fun l h => ?_⟩
      cases h
      refine ⟨pickNames_sublist _ _, fun p n hj => ?_⟩
      rw [pickNames_mem hr.procs _ p n hj]
      simp only [List.any_eq_true, active_iff hr, blocksOf_mem hr hk, idxsOf_mem hr.systs hp]
      exact ⟨fun ⟨k, h1, j, h2, h3⟩ => ⟨k, j, h1, h2, h3⟩, fun ⟨k, j, h1, h2, h3⟩ => ⟨k, h1, j, h2, h3⟩⟩

/-- C81: likewise for the channels in which the chosen systematics vary the chosen processes. -/
theorem c81_channels {I : In} (hr : Spec.Regular I) (procs systs : Option (List String)) :
    ((∃ l, channelsForNonzeroSysts I procs systs = .ok l) ↔
      (∀ l, procs = some l → ∀ n ∈ l, n ∈ I.t.procs) ∧ ∀ l, systs = some l → ∀ n ∈ l, n ∈ I.t.systs) ∧
    ∀ l, channelsForNonzeroSysts I procs systs = .ok l → l.Sublist (I.t.channelInfo.map (·.1)) ∧
      ∀ n, n ∈ l ↔ ∃ k ∈ I.blocks, k.name = n ∧ ∃ p j, Spec.chosen I.t.procs procs p ∧ Spec.chosen I.t.systs systs j ∧ Spec.effect I k p j := by
  rw [← idxsOf_isOk, ← idxsOf_isOk]
  unfold channelsForNonzeroSysts
  cases hk : idxsOf I.t.procs procs with
  | error e =>
    exact ⟨⟨fun ⟨_, h⟩ => (nomatch h), fun ⟨⟨_, h⟩, _⟩ => (nomatch h)⟩, fun _ h => nomatch h⟩
  | ok ps =>
    cases hp : idxsOf I.t.systs systs with
    | error e => exact ⟨⟨fun ⟨_, h⟩ => (nomatch h), fun ⟨_, ⟨_, h⟩⟩ => (nomatch h)⟩, fun _ h => nomatch h⟩
    | ok js =>
      refine ⟨⟨fun _ => ⟨⟨_, rfl⟩, ⟨_, rfl⟩⟩, fun _ => ⟨_, rfl⟩⟩, fun l h => ?_⟩
      cases h
      refine ⟨?_, fun n => ?_⟩
      · rw [← blocks_names]
        exact List.filter_sublist.map _
      · simp only [List.mem_map, List.mem_filter, List.any_eq_true, active_iff hr, idxsOf_mem hr.procs hk, idxsOf_mem hr.systs hp]
        exact ⟨fun ⟨k, ⟨h1, p, h2, j, h3, h4⟩, e⟩ => ⟨k, h1, e, p, j, h2, h3, h4⟩,
          fun ⟨k, h1, e, p, j, h2, h3, h4⟩ => ⟨k, ⟨h1, p, h2, j, h3, h4⟩, e⟩⟩

/-! ### the report -/

/-- What the input must fulfil to pass. -/
structure Spec.Fine (I : In) : Prop where
  data : ∀ k ∈ I.blocks, k.chan.masked = false → (slice k I.data).sum ≠ 0 ∧ ∀ i < k.n, 10 ≤ I.data (k.start + i)
  yield : ∀ k ∈ I.blocks, ∀ i < k.n, 1 ≤ I.total (k.start + i) ∧ Real.sqrt (I.totalVar (k.start + i)) ≤ I.total (k.start + i)
  norm : ∀ k ∈ I.blocks, ∀ p < I.t.procs.length, (slice k fun b => I.norm b p).sum ≠ 0
  systs : ∀ j < I.t.systs.length, ∃ k ∈ I.blocks, ∃ p < I.t.procs.length, Spec.effect I k p j
  procs : ∀ p < I.t.procs.length, ∃ k ∈ I.blocks, ∃ j < I.t.systs.length, Spec.effect I k p j
  /-- no down variation below half, no up variation above twice the nominal prediction -/
  moderate : ∀ k ∈ I.blocks, ∀ p < I.t.procs.length, ∀ j < I.t.systs.length, ∀ i < k.n, 0 < I.norm (k.start + i) p →
    I.norm (k.start + i) p / 2 ≤ I.template false (k.start + i) p j ∧
      I.template true (k.start + i) p j ≤ 2 * I.norm (k.start + i) p

theorem ifAny_nil {α : Type} {l : List α} {f : List α → Issue} : ifAny l f = [] ↔ l = [] := by
  unfold ifAny
  cases l <;> simp

theorem binsWhere_nil {k : Block} {q : Nat → Prop} [DecidablePred q] : binsWhere k q = [] ↔ ∀ i < k.n, ¬ q (k.start + i) := by
  unfold binsWhere
  simp [List.filter_eq_nil_iff]

theorem pickNames_nil {all : List String} {q : Nat → Bool} : pickNames all q = [] ↔ ∀ i < all.length, q i = false := by
  unfold pickNames
  rw [List.map_eq_nil_iff, List.filter_eq_nil_iff]
  constructor
  · intro h i hi
    have := h (all[i], i) (List.mem_zipIdx_iff_getElem?.2 (List.getElem?_eq_getElem hi))
    simpa using this
  · rintro h ⟨n, i⟩ hm
    have := h i (List.getElem?_eq_some_iff.1 (List.mem_zipIdx_iff_getElem?.1 hm)).1
    simpa using this

theorem zeroSysts_eq {I : In} (hr : Spec.Regular I) : ∃ l, zeroSystsIssues I = .ok l ∧
    (l = [] ↔ ∀ j < I.t.systs.length, ∃ k ∈ I.blocks, ∃ p < I.t.procs.length, Spec.effect I k p j) := by
  obtain ⟨h1, h2⟩ := c81_systs hr none none
  obtain ⟨nz, hnz⟩ := h1.2 ⟨fun _ h => (nomatch h), fun _ h => nomatch h⟩
  unfold zeroSystsIssues
  rw [hnz]
  refine ⟨_, rfl, ?_⟩
  rw [ifAny_nil, List.filter_eq_nil_iff]
  have hmem := (h2 nz hnz).2
  constructor
  · intro h j hj
    have := h _ (List.getElem_mem hj)
    simp only [List.contains_eq_mem, Bool.not_eq_true', decide_eq_false_iff_not, not_not] at this
    obtain ⟨k, p, hk, hp, he⟩ := (hmem j _ (List.getElem?_eq_getElem hj)).1 this
    exact ⟨k, hk.1, p, hp.1, he⟩
  · intro h n hn
    obtain ⟨j, hj, rfl⟩ := List.getElem_of_mem hn
    obtain ⟨k, hk, p, hp, he⟩ := h j hj
    have := (hmem j _ (List.getElem?_eq_getElem hj)).2
      ⟨k, p, ⟨hk, fun _ h => nomatch h⟩, ⟨hp, fun _ h => nomatch h⟩, he⟩
    simpa using this

theorem mapM_eq {α β : Type} {f : α → Res β} {g : α → β} : ∀ {l : List α}, (∀ x ∈ l, f x = .ok (g x)) → l.mapM f = .ok (l.map g) := by
  intro l
  induction l with
  | nil => intro _; rfl
  | cons a l ih =>
    intro h
    rw [List.mapM_cons, h a List.mem_cons_self, ih fun x hx => h x (List.mem_cons_of_mem _ hx)]
    rfl

theorem noSysts_eq {I : In} (hr : Spec.Regular I) : ∃ l, noSystsIssues I = .ok l ∧
    (l = [] ↔ ∀ p < I.t.procs.length, ∃ k ∈ I.blocks, ∃ j < I.t.systs.length, Spec.effect I k p j) := by
  have hq : ∀ n ∈ I.t.procs, ∃ chs, channelsForNonzeroSysts I (some [n]) none = .ok chs ∧
      (chs = [] ↔ ¬ ∃ p, I.t.procs[p]? = some n ∧ ∃ k ∈ I.blocks, ∃ j < I.t.systs.length, Spec.effect I k p j) := by
    intro n hn
    obtain ⟨h1, h2⟩ := c81_channels hr (some [n]) none
    obtain ⟨chs, hc⟩ := h1.2 ⟨fun l hl m hm => by cases hl; rw [List.mem_singleton.1 hm]; exact hn, fun _ h => nomatch h⟩
    refine ⟨chs, hc, ?_⟩
    have hm := (h2 chs hc).2
    constructor
    · rintro rfl ⟨p, hp, k, hk, j, hj, he⟩
      exact absurd ((hm k.name).2 ⟨k, hk, rfl, p, j, ⟨(List.getElem?_eq_some_iff.1 hp).1, fun l hl => ⟨n, by cases hl; exact List.mem_cons_self, hp⟩⟩,
        ⟨hj, fun _ h => nomatch h⟩, he⟩) List.not_mem_nil
    · intro h
      by_contra hne
      obtain ⟨c, hcm⟩ := List.exists_mem_of_ne_nil _ hne
      obtain ⟨k, hk, -, p, j, hp, hj, he⟩ := (hm c).1 hcm
      obtain ⟨m, hm1, hm2⟩ := hp.2 [n] rfl
      rw [List.mem_singleton.1 hm1] at hm2
      exact h ⟨p, hm2, k, hk, j, hj.1, he⟩
  choose! chs hc1 hc2 using hq
  unfold noSystsIssues
  rw [mapM_eq (g := fun p => (p, (chs p).isEmpty)) fun x hx => by rw [hc1 x hx]; rfl]
  refine ⟨_, rfl, ?_⟩
  rw [ifAny_nil, List.map_eq_nil_iff, List.filter_eq_nil_iff]
  constructor
  · intro h p hp
    have := h (I.t.procs[p], _) (List.mem_map.2 ⟨_, List.getElem_mem hp, rfl⟩)
    simp only [List.isEmpty_iff, hc2 _ (List.getElem_mem hp), not_not] at this
    obtain ⟨p', hp', hrest⟩ := this
    obtain ⟨h1, e1⟩ := List.getElem?_eq_some_iff.1 hp'
    have := (List.Nodup.getElem_inj_iff hr.procs (hi := h1) (hj := hp)).1 e1
    rwa [this] at hrest
  · rintro h e he
    obtain ⟨n, hn, rfl⟩ := List.mem_map.1 he
    simp only [List.isEmpty_iff, hc2 n hn, not_not]
    obtain ⟨p, hp, rfl⟩ := List.getElem_of_mem hn
    exact ⟨p, List.getElem?_eq_getElem hp, h p hp⟩

theorem extreme_nil {I : In} {sel : List Block} : extremeIssues I sel = [] ↔ ∀ k ∈ sel, ∀ p < I.t.procs.length,
    ∀ j < I.t.systs.length, isExtreme I k p j = false := by
  unfold extremeIssues
  rw [ifAny_nil, List.flatMap_eq_nil_iff]
  refine forall₂_congr fun k _ => ?_
  rw [List.flatMap_eq_nil_iff]
  simp only [List.map_eq_nil_iff, pickNames_nil]
  constructor
  · intro h p hp j hj
    exact h (I.t.systs[j], j) (List.mem_zipIdx_iff_getElem?.2 (List.getElem?_eq_getElem hj)) p hp
  · rintro h ⟨n, j⟩ hm p hp
    exact h p hp j (List.getElem?_eq_some_iff.1 (List.mem_zipIdx_iff_getElem?.1 hm)).1

theorem isExtreme_false {I : In} {k : Block} {p j : Nat} : isExtreme I k p j = false ↔ ∀ i < k.n, 0 < I.norm (k.start + i) p →
    I.norm (k.start + i) p / 2 ≤ I.template false (k.start + i) p j ∧
      I.template true (k.start + i) p j ≤ 2 * I.norm (k.start + i) p := by
  unfold isExtreme
  rw [List.any_eq_false]
  simp only [List.mem_range, decide_eq_true_eq, not_and, not_or, not_lt]
  refine forall₃_congr fun i _ hpos => ?_
  rw [le_div_iff₀ hpos, div_le_iff₀ hpos]
  constructor <;> rintro ⟨h1, h2⟩ <;> constructor <;> linarith

theorem relUnc_iff {v y : ℝ} (hy : 1 ≤ y) : ¬ relUncHigh v y ↔ Real.sqrt v ≤ y := by
  unfold relUncHigh
  have h0 : 0 < y := by linarith
  rw [if_neg h0.ne', lt_div_iff₀ h0, one_mul]
  constructor
  · intro h
    by_cases hv : 0 ≤ v
    · exact not_lt.1 fun hh => h ⟨hv, hh⟩
    · rw [Real.sqrt_eq_zero_of_nonpos (le_of_not_ge hv)]
      exact h0.le
  · rintro h ⟨-, h'⟩
    exact absurd h (not_le.2 h')

/-- C81: the checker says that an input passes exactly if it is fine (missing: variations that are extreme in the other
direction, see `c81_extreme_violated`). -/
theorem c81_passes_partial {I : In} (hr : Spec.Regular I) : report I none = some (.ok []) ↔ Spec.Fine I := by
  obtain ⟨z, hz, hz'⟩ := zeroSysts_eq hr
  obtain ⟨n, hn, hn'⟩ := noSysts_eq hr
  have hsel : (I.blocks.filter fun _ => true) = I.blocks := List.filter_true _
  have hrep : report I none = some (.ok (emptyDataIssues I I.blocks ++ lowDataIssues I I.blocks ++ lowYieldIssues I I.blocks ++
      highUncIssues I I.blocks ++ zeroNormIssues I I.blocks ++ z ++ n ++ extremeIssues I I.blocks)) := by
    unfold report
    rw [if_neg fun h => hr.type h.1]
    simp only [hsel, hz, hn]
    rfl
  rw [hrep]
  simp only [Option.some.injEq, Except.ok.injEq, List.append_eq_nil_iff, hz', hn', extreme_nil, isExtreme_false]
  have e1 : emptyDataIssues I I.blocks = [] ↔ ∀ k ∈ I.blocks, k.chan.masked = false → (slice k I.data).sum ≠ 0 := by
    unfold emptyDataIssues
    rw [ifAny_nil, List.map_eq_nil_iff, List.filter_eq_nil_iff]
    simp
  have e2 : lowDataIssues I I.blocks = [] ↔ ∀ k ∈ I.blocks, k.chan.masked = false → ∀ i < k.n, 10 ≤ I.data (k.start + i) := by
    unfold lowDataIssues
    rw [List.flatMap_eq_nil_iff]
    refine forall₂_congr fun k _ => ?_
    cases k.chan.masked <;> simp [ifAny_nil, binsWhere_nil]
  have e3 : lowYieldIssues I I.blocks = [] ↔ ∀ k ∈ I.blocks, ∀ i < k.n, 1 ≤ I.total (k.start + i) := by
    unfold lowYieldIssues
    rw [List.flatMap_eq_nil_iff]
    simp [ifAny_nil, binsWhere_nil]
  have e4 : highUncIssues I I.blocks = [] ↔ ∀ k ∈ I.blocks, ∀ i < k.n, ¬ relUncHigh (I.totalVar (k.start + i)) (I.total (k.start + i)) := by
    unfold highUncIssues
    rw [List.flatMap_eq_nil_iff]
    simp only [ifAny_nil, binsWhere_nil]
  have e5 : zeroNormIssues I I.blocks = [] ↔ ∀ k ∈ I.blocks, ∀ p < I.t.procs.length, (slice k fun b => I.norm b p).sum ≠ 0 := by
    unfold zeroNormIssues
    rw [ifAny_nil, List.filter_eq_nil_iff]
    simp only [List.mem_map, forall_exists_index, and_imp, forall_apply_eq_imp_iff₂, Bool.not_eq_true', Bool.not_eq_false,
      List.isEmpty_iff, pickNames_nil, decide_eq_false_iff_not, ne_eq]
  rw [e1, e2, e3, e4, e5]
  constructor
  · rintro ⟨⟨⟨⟨⟨⟨⟨h1, h2⟩, h3⟩, h4⟩, h5⟩, h6⟩, h7⟩, h8⟩
    exact ⟨fun k hk hm => ⟨h1 k hk hm, h2 k hk hm⟩, fun k hk i hi => ⟨h3 k hk i hi, (relUnc_iff (h3 k hk i hi)).1 (h4 k hk i hi)⟩,
      h5, h6, h7, h8⟩
  · rintro ⟨h1, h2, h3, h4, h5, h6⟩
    exact ⟨⟨⟨⟨⟨⟨⟨fun k hk hm => (h1 k hk hm).1, fun k hk hm => (h1 k hk hm).2⟩, fun k hk i hi => (h2 k hk i hi).1⟩,
      fun k hk i hi => (relUnc_iff (h2 k hk i hi).1).2 (h2 k hk i hi).2⟩, h3⟩, h4⟩, h5⟩, h6⟩

/-- C81 does not hold for the number of bins with few data in the message: it is the number of axes of the channel. -/
theorem c81_count_violated (I : In) (sel : List Block) (k : Block) (hk : k ∈ sel) (hm : k.chan.masked = false)
    (bins : List Nat) (hb : bins = (List.range k.n).filter fun i => I.data (k.start + i) < 10) (hne : bins ≠ [])
    (hlen : bins.length ≠ k.chan.axes.length) : ∃ count, Issue.lowData k.name count bins ∈ lowDataIssues I sel ∧ count ≠ bins.length := by
  refine ⟨k.chan.axes.length, List.mem_flatMap.2 ⟨k, hk, ?_⟩, fun e => hlen e.symm⟩
  rw [if_neg (by rw [hm]; simp)]
  have hb' : binsWhere k (fun b => I.data b < 10) = bins := by
    rw [hb]
    unfold binsWhere
    congr
  unfold ifAny
  rw [hb', if_neg (by simpa using hne)]
  exact List.mem_singleton.2 rfl

/-- C81 does not hold for extreme variations whose up template is the smaller one: whatever its size, it is not found. -/
theorem c81_extreme_violated (I : In) (hs : I.t.symmetric = true) (ht : I.st = .logNormal) (k : Block) (p j : Nat)
    (hneg : ∀ i < k.n, I.logk (k.start + i) p 0 j ≤ 0) : isExtreme I k p j = false ∧
      ∀ c : ℝ, 0 < c → c < 1 → (∀ i < k.n, I.logk (k.start + i) p 0 j = Real.log c) → ∀ i < k.n,
        I.template true (k.start + i) p j = c * I.norm (k.start + i) p ∧
          I.template false (k.start + i) p j = c⁻¹ * I.norm (k.start + i) p := by
  have tu : ∀ i, I.template true (k.start + i) p j = Real.exp (I.logk (k.start + i) p 0 j) * I.norm (k.start + i) p := fun i => by
    unfold In.template varied upVar
    rw [ht, hs]; rfl
  have td : ∀ i, I.template false (k.start + i) p j = Real.exp (-I.logk (k.start + i) p 0 j) * I.norm (k.start + i) p := fun i => by
    unfold In.template varied downVar
    rw [ht, hs]; rfl
  refine ⟨isExtreme_false.2 fun i hi hpos => ?_, fun c hc _ he i hi => ?_⟩
  · rw [tu, td]
    have h1 : Real.exp (I.logk (k.start + i) p 0 j) ≤ 1 := Real.exp_le_one_iff.2 (hneg i hi)
    have h2 : 1 ≤ Real.exp (-I.logk (k.start + i) p 0 j) := Real.one_le_exp (by linarith [hneg i hi])
    constructor <;> nlinarith
  · rw [tu, td, he i hi, Real.exp_neg, Real.exp_log hc]
    exact ⟨rfl, rfl⟩

/-- C81 does not hold for files with a channel that keeps its flow bins: the slices of all later channels are misplaced,
so that queries and report are about bins of other channels. -/
theorem c81_flow_violated (I : In) (n₁ n₂ : String) (c₁ c₂ : Chan) (rest : Dict String Chan)
    (h : I.t.channelInfo = (n₁, c₁) :: (n₂, c₂) :: rest) (hf : prod (dims c₁.flow c₁.axes) ≠ prod (dims false c₁.axes)) :
    ∃ k ∈ I.blocks, k.name = n₂ ∧ k.start ≠ prod (dims c₁.flow c₁.axes) := by
  refine ⟨⟨n₂, c₂, 0 + prod (dims false c₁.axes), prod (dims false c₂.axes)⟩, ?_, rfl, ?_⟩
  · unfold In.blocks
    rw [h]
    exact List.mem_cons_of_mem _ List.mem_cons_self
  · simpa using fun e => hf e.symm

namespace Ex

/-- one channel of two bins, 20 ± 3 events each, one process and one systematic of ± 1 -/
def I : In where
  t := (Merge.Ex.input .normal "a" ["p"] ["m"] [] true (fun _ _ => 20) (fun _ _ => 9) fun _ _ _ _ => 1).tensor
  st := .normal
  norm := fun _ _ => 20
  logk := fun _ _ _ _ => 1
  data := fun b => 30 - 25 * b

theorem blocks : I.blocks = [⟨"a", ⟨[Writer.Ex.ax 2], false, false⟩, 0, 2⟩] := rfl

theorem regular : Spec.Regular I :=
  ⟨fun h => (nomatch h), by decide, by decide, by decide, fun _ _ _ _ h => absurd h (by norm_num [I])⟩

/-- the same with enough data in both bins -/
def J : In := { I with data := fun _ => 30 }

theorem effect : Spec.effect J ⟨"a", ⟨[Writer.Ex.ax 2], false, false⟩, 0, 2⟩ 0 0 :=
  ⟨0, by decide, .inl (by simp [In.template, varied, J, I, upVar, Merge.Ex.input])⟩

/-- it passes -/
example : Spec.Fine J := by
  have hb : J.blocks = [⟨"a", ⟨[Writer.Ex.ax 2], false, false⟩, 0, 2⟩] := rfl
  have hp : J.t.procs = ["p"] := rfl
  have hs : J.t.systs = ["m"] := rfl
  have h9 : Real.sqrt 9 = 3 := by
    rw [show (9 : ℝ) = 3 ^ 2 by norm_num]
    exact Real.sqrt_sq (by norm_num)
  constructor <;> simp only [hb, hp, hs, List.mem_singleton, forall_eq, exists_eq_left, List.length_singleton, Nat.lt_one_iff]
  · refine fun _ => ⟨?_, fun i _ => ?_⟩ <;> norm_num [slice, J, List.range_succ]
  · intro i _
    have e1 : J.total (0 + i) = 20 := by simp [In.total, J, I, Merge.Ex.input]
    have e2 : J.totalVar (0 + i) = 9 := by simp [In.totalVar, J, I, Merge.Ex.input]
    rw [e1, e2, h9]
    norm_num
  · norm_num [slice, J, I, List.range_succ]
  · exact effect
  · exact effect
  · intro i _ _
    norm_num [In.template, varied, J, I, upVar, downVar, Merge.Ex.input]

/-- a single bin with few data in a channel of one axis: the message happens to be right; with two such bins it is not -/
example : ((List.range 2).filter fun i => ({ I with data := fun _ => 5 } : In).data (0 + i) < 10).length ≠ [Writer.Ex.ax 2].length := by
  norm_num [List.range_succ]

end Ex

end

end Verif.DebugData
