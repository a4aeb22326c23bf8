import Verif.Model.BetaVar
import Verif.Lemmas.Tables
import Verif.Lemmas.Batched
import Verif.Props.WriterLayout

/-! Facts about the variations correlated between channels: the source ranges, the stored blocks. -/

namespace Verif.BetaVar

open Verif.Logk Verif.Writer M

set_option linter.unusedSectionVars false

variable {V : Type} [Field V] [LinearOrder V]

/-! ### One call of the writer -/

/-- a call either registers a channel, or keeps channels and templates -/
theorem step_cases (cfg : Cfg V) (op : Op V) (s : State V) :
    (∃ axes nm m f, op = .channel axes nm m f ∧ (f && !m) = false ∧
      (step cfg op s).1.channels = insertChannel s.channels (nm.getD s!"ch{s.channels.length}") ⟨axes, m, f⟩ ∧
      (step cfg op s).1.nbinschan = s.nbinschan.set (nm.getD s!"ch{s.channels.length}") (prod (dims f axes)) ∧
      (step cfg op s).1.norm = s.norm.set (nm.getD s!"ch{s.channels.length}") []) ∨
    ((∀ b : BState V, resetBeta op s b = b) ∧ (step cfg op s).1.channels = s.channels ∧
      (step cfg op s).1.nbinschan = s.nbinschan ∧
      ∀ chan name x, Writer.Spec.at2 s.norm chan name = some x →
        Writer.Spec.at2 (step cfg op s).1.norm chan name = some x) := by
  have key : ∀ {m : M V Unit}, Keeps (fun s : State V => (s.channels, s.nbinschan, s.norm)) m →
      (m s).1.channels = s.channels ∧ (m s).1.nbinschan = s.nbinschan ∧
      ∀ chan name x, Writer.Spec.at2 s.norm chan name = some x → Writer.Spec.at2 (m s).1.norm chan name = some x := fun hm => by
    have := hm.run s
    simp only [Prod.mk.injEq] at this
    exact ⟨this.1, this.2.1, fun c n x h => by rw [this.2.2]; exact h⟩
  have kc : ∀ {m : M V Unit}, Keeps core m → Keeps (fun s : State V => (s.channels, s.nbinschan, s.norm)) m := fun hm =>
    keeps_of_core hm _ fun s t e => by
      have := congrArg (fun c : Core V => (c.channels, c.nbinschan, c.norm)) e
      exact this
  cases op with
  | dataCov c => exact .inr ⟨fun _ => rfl, key ⟨fun _ => rfl⟩⟩
  | pseudo h name c => exact .inr ⟨fun _ => rfl, key (keeps_addPseudo _ (fun _ _ _ => rfl) ..)⟩
  | data h c vars => exact .inr ⟨fun _ => rfl, key (keeps_addData _ (fun _ _ _ => rfl) ..)⟩
  | syst x name proc c k m sy t d o => exact .inr ⟨fun _ => rfl, key (kc (keeps_addSystematic ..))⟩
  | normSyst name procs c u t sy o => exact .inr ⟨fun _ => rfl, key (kc (keeps_addNormSystematic ..))⟩
  | write it =>
    exact .inr ⟨fun _ => rfl, key (Keeps.bind (keeps_write _ (fun _ _ => rfl) ..) fun _ => Keeps.pure _)⟩
  | process h nm c sig vars =>
    refine .inr ⟨fun _ => rfl, ?_⟩
    have k2 : Keeps (fun s : State V => (s.channels, s.nbinschan)) (step cfg (.process h nm c sig vars)) :=
      keeps_addProcess _ (fun _ _ _ _ _ _ _ => rfl) ..
    have h2 := k2.run s
    simp only [Prod.mk.injEq] at h2
    refine ⟨h2.1, h2.2, ?_⟩
    simp only [step]
    intro chan name x hx
    rcases addProcess_cases cfg h nm c sig vars s with
      ⟨s', e, e1, e2, _⟩ | ⟨ch, nc', wc', n, w, _, hn', hh, hw', _, _, e1, e2, _⟩
    · rw [e, e1]; exact hx
    · rw [e1]
      unfold Writer.Spec.at2 at hx ⊢
      by_cases hc : c = chan
      · subst hc
        rw [hn', Option.bind_some] at hx
        have hnm : nm ≠ name := by
          rintro rfl
          rw [Dict.has_eq_false_iff, hx] at hh; cases hh
        simp only [Dict.get?_set, if_true, Option.bind_some, if_neg hnm]
        exact hx
      · rw [Dict.get?_set_ne _ _ hc]; exact hx
  | channel axes nm m f =>
    cases hfm : (f && !m) with
    | false =>
      refine .inl ⟨axes, nm, m, f, rfl, hfm, ?_⟩
      simp only [step, addChannel, raiseIf_bind, hfm, Bool.false_eq_true, if_false]
      rw [read_bind]
      exact ⟨rfl, rfl, rfl⟩
    | true =>
      refine .inr ⟨fun b => by simp only [resetBeta, hfm, if_true], ?_⟩
      simp only [step, addChannel, raiseIf_bind, hfm, if_true]
      exact ⟨trivial, trivial, fun _ _ _ h => h⟩

theorem mem_insertChannel {ch : Dict String Chan} {name : String} {c : Chan} (hf : name ∉ Dict.keys ch)
    (hn : (Dict.keys ch).Nodup) (e : String × Chan) :
    e ∈ insertChannel ch name c ↔ e ∈ ch ∨ e = (name, c) := by
  rw [insertChannel_fresh _ _ _ hf hn]
  split
  · simp
  · simp only [List.mem_append, List.mem_filter, List.mem_singleton]
    constructor
    · rintro ((h | h) | h)
      · exact .inl h.1
      · exact .inr h
      · exact .inl h.1
    · rintro (h | h)
      · cases hm : e.2.masked with
        | true => exact .inr ⟨h, rfl⟩
        | false => exact .inl (.inl ⟨h, by simp⟩)
      · exact .inl (.inr h)

/-- a registered channel stays as it is -/
theorem get_insertChannel {ch : Dict String Chan} {name : String} {c : Chan} (hf : name ∉ Dict.keys ch)
    (hn : (Dict.keys ch).Nodup) (hn' : (Dict.keys (insertChannel ch name c)).Nodup) (x : String) :
    (insertChannel ch name c).get? x = if name = x then some c else ch.get? x := by
  split_ifs with h
  · subst h
    exact Dict.get?_of_mem _ _ _ hn' ((mem_insertChannel hf hn _).2 (.inr rfl))
  · cases hg : ch.get? x with
    | some c' =>
      exact Dict.get?_of_mem _ _ _ hn' ((mem_insertChannel hf hn _).2 (.inl (Dict.mem_of_get? _ _ _ hg)))
    | none =>
      rw [Dict.get?_eq_none_iff]
      intro hk
      obtain ⟨v, hv⟩ := (Dict.mem_keys_iff _ _).1 hk
      rcases (mem_insertChannel hf hn _).1 (Dict.mem_of_get? _ _ _ hv) with h1 | h1
      · rw [Dict.get?_of_mem _ _ _ hn h1] at hg; cases hg
      · simp only [Prod.mk.injEq] at h1; exact h h1.1.symm

/-! ### The fitted channels keep their order -/

/-- the name is that of a fitted channel -/
def unm (ch : Dict String Chan) (n : String) : Bool := match ch.get? n with
  | some c => !c.masked
  | none => false

/-- bins in the order of registration and channels in the order of the file agree on the fitted channels -/
def Ord (s : State V) : Prop :=
  s.nbinschan.filter (fun e => unm s.channels e.1) =
    (s.channels.filter fun e => !e.2.masked).map fun e => (e.1, chSize e.2)

theorem ord_step (cfg : Cfg V) (op : Op V) (s : State V) (hs : LayInv s) (ho : Ord s)
    (hf : ∀ chan, Writer.Spec.addsChannel s chan op → s.channels.has chan = false) : Ord (step cfg op s).1 := by
  have hL := layInv_step cfg op s hs hf
  rcases step_cases cfg op s with ⟨axes, nm, m, f, rfl, hfm, h1, h2, -⟩ | ⟨-, h1, h2, -⟩
  · have hnew := hf _ rfl
    set name := nm.getD s!"ch{s.channels.length}" with hname
    have hnk : name ∉ Dict.keys s.channels := by rw [Dict.mem_keys_iff_has, hnew]; simp
    have hnb : name ∉ Dict.keys s.nbinschan := by
      intro h
      have : name ∈ s.nbinschan.map Prod.fst := h
      rw [(hs.size.map Prod.fst).mem_iff, List.map_map] at this
      exact hnk this
    have hn' := hL.nodup
    rw [h1] at hn'
    unfold Ord at ho ⊢
    rw [h1, h2, Dict.set_of_not_mem _ _ _ hnb, List.filter_append]
    have hold : (s.nbinschan.filter fun e => unm (insertChannel s.channels name ⟨axes, m, f⟩) e.1) =
        s.nbinschan.filter fun e => unm s.channels e.1 := by
      refine List.filter_congr fun e he => ?_
      have : name ≠ e.1 := by
        rintro h
        exact hnb (h ▸ List.mem_map_of_mem he)
      unfold unm
      rw [get_insertChannel hnk hs.nodup hn', if_neg this]
    rw [hold, ho]
    have hone : unm (insertChannel s.channels name ⟨axes, m, f⟩) name = !m := by
      unfold unm
      rw [get_insertChannel hnk hs.nodup hn', if_pos rfl]
    rw [insertChannel_fresh _ _ _ hnk hs.nodup] at hone ⊢
    cases m with
    | true =>
      simp only [if_true, Bool.not_true] at hone ⊢
      rw [List.filter_append]
      simp [hone]
    | false =>
      simp only [Bool.false_eq_true, if_false, Bool.not_false] at hone ⊢
      simp only [List.filter_append, List.filter_filter, List.map_append, hone, List.filter_cons, List.filter_nil, if_true,
        Bool.not_false, List.map_cons, List.map_nil, Bool.and_self]
      have : (s.channels.filter fun e => !e.2.masked && e.2.masked) = [] := by simp
      rw [this]
      simp [chSize]
  · unfold Ord at ho ⊢
    rw [h1, h2]; exact ho

theorem ord_runOps (cfg : Cfg V) (ops : List (Op V)) : ∀ s : State V, LayInv s → Ord s → Writer.Spec.freshNames cfg s ops →
    LayInv (runOps cfg s ops) ∧ Ord (runOps cfg s ops) := by
  induction ops with
  | nil => exact fun s h1 h2 _ => ⟨h1, h2⟩
  | cons op ops ih => exact fun s h1 h2 h => ih _ (layInv_step cfg op s h1 h.1) (ord_step cfg op s h1 h2 h.1) h.2

theorem split_sorted {ch : Dict String Chan} (h : ch.Pairwise fun a b => a.2.masked = true → b.2.masked = true) :
    ch = (ch.filter fun e => !e.2.masked) ++ ch.filter fun e => e.2.masked := by
  induction ch with
  | nil => rfl
  | cons x l ih =>
    rw [List.pairwise_cons] at h
    cases hm : x.2.masked with
    | false =>
      rw [List.filter_cons, List.filter_cons]
      simp only [hm, Bool.not_false, if_true, Bool.false_eq_true, if_false, List.cons_append]
      rw [← ih h.2]
    | true =>
      rw [List.filter_cons, List.filter_cons]
      simp only [hm, Bool.not_true, if_true, Bool.false_eq_true, if_false]
      have h1 : (l.filter fun e => !e.2.masked) = [] := by
        rw [List.filter_eq_nil_iff]; intro e he; simp [h.1 e he hm]
      have h2 : (l.filter fun e => e.2.masked) = l := by
        rw [List.filter_eq_self]; intro e he; exact h.1 e he hm
      rw [h1, h2]; rfl

theorem readerFrom_append (l r : Dict String Chan) (k : Nat) :
    ∃ k', readerFrom k (l ++ r) = readerFrom k l ++ readerFrom k' r := by
  induction l generalizing k with
  | nil => exact ⟨k, rfl⟩
  | cons x l ih =>
    obtain ⟨n, c⟩ := x
    simp only [List.cons_append, readerFrom]
    obtain ⟨k', h⟩ := ih (k + prod (dims c.flow c.axes))
    exact ⟨k', by rw [h]⟩

/-- masked channels do not matter for the source range -/
theorem srcRange_filter {ch : Dict String Chan} {src : String} {nb : Dict String Nat} {k : Nat} {r : Nat × Nat}
    (h : srcRange ch src k nb = .ok r) : srcRange ch src k (nb.filter fun e => unm ch e.1) = .ok r := by
  induction nb generalizing k with
  | nil => exact h
  | cons x l ih =>
    obtain ⟨n, w⟩ := x
    unfold srcRange at h
    cases hg : ch.get? n with
    | none => rw [hg] at h; cases h
    | some c =>
      rw [hg] at h
      dsimp only at h
      rw [List.filter_cons]
      cases hm : c.masked with
      | true =>
        rw [if_pos hm] at h
        have : unm ch n = false := by simp [unm, hg, hm]
        simp only [this, Bool.false_eq_true, if_false]
        exact ih h
      | false =>
        rw [if_neg (by simp [hm])] at h
        have : unm ch n = true := by simp [unm, hg, hm]
        simp only [this, if_true]
        unfold srcRange
        rw [hg]
        dsimp only
        rw [if_neg (by simp [hm])]
        split_ifs at h ⊢ with hs
        · exact h
        · exact ih h

theorem srcRange_reader {ch : Dict String Chan} {src : String} : ∀ {U : Dict String Chan} {k : Nat} {r : Nat × Nat},
    (∀ e ∈ U, ch.get? e.1 = some e.2 ∧ e.2.masked = false) →
    srcRange ch src k (U.map fun e => (e.1, chSize e.2)) = .ok r →
      (src, r.1, r.2) ∈ readerFrom k U ∧ ∃ c, ch.get? src = some c ∧ c.masked = false := by
  intro U
  induction U with
  | nil => intro k r _ h; cases h
  | cons x l ih =>
    intro k r hU h
    obtain ⟨n, c⟩ := x
    obtain ⟨hc, hm⟩ := hU (n, c) (by simp)
    dsimp only at hc hm
    rw [List.map_cons] at h
    unfold srcRange at h
    rw [hc] at h
    dsimp only at h
    rw [if_neg (by simp [hm])] at h
    simp only [readerFrom, List.mem_cons]
    by_cases hs : n = src
    · rw [if_pos hs] at h
      cases h
      exact ⟨.inl (by rw [hs]; rfl), c, by rw [← hs]; exact hc, hm⟩
    · rw [if_neg hs] at h
      obtain ⟨h1, h2⟩ := ih (fun e he => hU e (by simp [he])) h
      exact ⟨.inr h1, h2⟩

/-- the source range is the range of the source channel in the file; a source is a fitted channel -/
theorem srcRange_sound {s : State V} (hs : LayInv s) (ho : Ord s) {src : String} {r : Nat × Nat}
    (h : srcRange s.channels src 0 s.nbinschan = .ok r) :
    (src, r.1, r.2) ∈ readerFrom 0 s.channels ∧ ∃ c, s.channels.get? src = some c ∧ c.masked = false := by
  have h1 := srcRange_filter h
  rw [ho] at h1
  obtain ⟨h2, h3⟩ := srcRange_reader (fun e he => by
    rw [List.mem_filter] at he
    exact ⟨Dict.get?_of_mem _ _ _ hs.nodup he.1, by simpa using he.2⟩) h1
  refine ⟨?_, h3⟩
  obtain ⟨k', hk⟩ := readerFrom_append (s.channels.filter fun e => !e.2.masked) (s.channels.filter fun e => e.2.masked) 0
  rw [← split_sorted hs.sorted] at hk
  rw [hk]
  exact List.mem_append_left _ h2

/-! ### The loop of assignments -/

/-- the point lies in the block of a task -/
def covers (s : State V) (t : BTask V) (i j p : Nat) : Prop :=
  ∃ r, srcRange s.channels t.src 0 s.nbinschan = .ok r ∧ p = t.ip ∧ (t.start ≤ i ∧ i < t.start + t.n) ∧
    (r.1 ≤ j ∧ j < r.1 + (r.2 - r.1))

/-- what an assignment puts at a point of its block -/
def value (t : BTask V) (c i j : Nat) : V :=
  (t.rows.getD (if t.rows.length = 1 then 0 else i - t.start) []).getD
    (if (t.rows.headD []).length = 1 then 0 else j - c) 0

/-- the shape of the rows fits the block (with broadcasting) -/
def fits (t : BTask V) (w : Nat) : Prop :=
  (t.rows.length = t.n ∨ t.rows.length = 1) ∧ ((t.rows.headD []).length = w ∨ (t.rows.headD []).length = 1)

theorem betaBody_ok {s : State V} {f g : Nat → Nat → Nat → V} {t : BTask V} (h : betaBody s f t = .ok g) :
    ∃ r, srcRange s.channels t.src 0 s.nbinschan = .ok r ∧ fits t (r.2 - r.1) ∧
      ∀ i j p, (covers s t i j p → g i j p = value t r.1 i j) ∧ (¬ covers s t i j p → g i j p = f i j p) := by
  unfold betaBody at h
  split at h
  · cases h
  · rename_i r hr
    unfold assignBlock at h
    dsimp only at h
    split at h
    · rename_i hfit
      cases h
      refine ⟨r, hr, hfit, fun i j p => ⟨?_, ?_⟩⟩
      · rintro ⟨r', hr', hc⟩
        rw [hr] at hr'; cases hr'
        dsimp only
        rw [if_pos hc]; rfl
      · intro hc
        dsimp only
        rw [if_neg fun hc' => hc ⟨r, hr, hc'⟩]
    · cases h

theorem loop_tasks {s : State V} {f g : Nat → Nat → Nat → V} {ts : List (BTask V)}
    (h : loop (betaBody s) f ts = .ok g) :
    (∀ t ∈ ts, ∃ r, srcRange s.channels t.src 0 s.nbinschan = .ok r ∧ fits t (r.2 - r.1)) ∧
    ∀ i j p, ((∀ t ∈ ts, ¬ covers s t i j p) → g i j p = f i j p) ∧
      ∀ v, (∀ t ∈ ts, covers s t i j p → ∀ r, srcRange s.channels t.src 0 s.nbinschan = .ok r → value t r.1 i j = v) →
        ((∃ t ∈ ts, covers s t i j p) ∨ f i j p = v) → g i j p = v := by
  induction ts generalizing f with
  | nil => cases h; exact ⟨by simp, fun i j p => ⟨fun _ => rfl, fun v _ hv => by simpa using hv⟩⟩
  | cons t ts ih =>
    unfold loop at h
    split at h
    · rename_i f' hf
      obtain ⟨r, hr, hfit, hval⟩ := betaBody_ok hf
      obtain ⟨h1, h2⟩ := ih h
      refine ⟨?_, fun i j p => ⟨?_, ?_⟩⟩
      · intro t' ht'
        rcases List.mem_cons.1 ht' with rfl | ht'
        · exact ⟨r, hr, hfit⟩
        · exact h1 t' ht'
      · intro hn
        rw [(h2 i j p).1 fun t' ht' => hn t' (by simp [ht'])]
        exact (hval i j p).2 (hn t (by simp))
      · intro v hv hex
        refine (h2 i j p).2 v (fun t' ht' => hv t' (by simp [ht'])) ?_
        by_cases hc : covers s t i j p
        · exact .inr (((hval i j p).1 hc).trans (hv t (by simp) hc r hr))
        · rcases hex with ⟨t', ht', hc'⟩ | hex
          · rcases List.mem_cons.1 ht' with rfl | ht'
            · exact absurd hc' hc
            · exact .inl ⟨t', ht', hc'⟩
          · exact .inr (((hval i j p).2 hc).trans hex)
    · cases h

theorem mem_betaTasks {s : State V} {b : BState V} {procs : List String} {lay : List Slot} {t : BTask V} :
    t ∈ betaTasks s b procs lay ↔ ∃ sl ∈ lay, ∃ p, procs[t.ip]? = some p ∧
      (Writer.Spec.at2 s.norm sl.name p).isSome ∧ (∃ d, (t.src, d) ∈ (b.dict.get? sl.name).getD [] ∧
        d.get? p = some t.rows) ∧ t.start = sl.start ∧ t.n = sl.n := by
  unfold betaTasks
  simp only [List.mem_flatMap]
  constructor
  · rintro ⟨sl, hsl, p, hp, ht⟩
    have hp' := List.mem_zipIdx_iff_getElem?.1 hp
    split at ht
    · rename_i hn
      obtain ⟨e, he, ht⟩ := List.mem_flatMap.1 ht
      split at ht
      · rename_i rows hrows
        rw [List.mem_singleton] at ht
        subst ht
        exact ⟨sl, hsl, p.1, hp', hn, ⟨e.2, he, hrows⟩, rfl, rfl⟩
      · cases ht
    · cases ht
  · rintro ⟨sl, hsl, p, hp, hn, ⟨d, hd, hr⟩, h1, h2⟩
    refine ⟨sl, hsl, (p, t.ip), List.mem_zipIdx_iff_getElem?.2 hp, ?_⟩
    have hn' : ((s.norm.get? sl.name).bind (·.get? p)).isSome := hn
    rw [if_pos hn', List.mem_flatMap]
    refine ⟨_, hd, ?_⟩
    rw [hr, List.mem_singleton]
    cases t
    simp_all

end Verif.BetaVar
