import Verif.Lemmas.Origin
import Verif.Model.CardFile
import Verif.Props.Shapes
import Verif.Props.WriterVariation

/-! The calls of the converter of datacards, and histories of calls that name each channel once. -/

namespace Verif.CardFile

open Verif.Writer Verif.Datacard

variable {V H : Type}

/-! ### nominal histograms -/

theorem processCalls_iff {env : Env V H} {c : Card V} {bin : String} {ps : List String} {calls : List (Call V H)}
    (h : processCalls env c bin ps = .ok calls) : ∀ x ∈ calls, ∃ p ∈ ps, ∃ t, nominal env c p bin = .ok t ∧
      ((p = "data_obs" ∧ (x = .channel t bin ∨ x = .data t bin)) ∨
        (p ≠ "data_obs" ∧ x = .process t p bin (decide ((Dict.get? c.indices p).getD 0 ≤ 0)))) := by
  induction ps generalizing calls with
  | nil => intro x hx; rw [← Except.ok.inj h] at hx; cases hx
  | cons q qs ih =>
    rw [processCalls] at h
    obtain ⟨t, ht, h⟩ := Datacard.bind_ok h
    obtain ⟨r, hr, h⟩ := Datacard.map_ok h
    intro x hx
    rw [← h, List.mem_append] at hx
    rcases hx with hx | hx
    · refine ⟨q, List.mem_cons_self, t, ht, ?_⟩
      split at hx
      · rename_i hq
        refine .inl ⟨hq, ?_⟩
        simpa using hx
      · rename_i hq
        exact .inr ⟨hq, List.mem_singleton.1 hx⟩
    · obtain ⟨p, hp, rest⟩ := ih hr x hx
      exact ⟨p, List.mem_cons_of_mem _ hp, rest⟩

theorem nominalCalls_iff {env : Env V H} {c : Card V} {bs : List String} {calls : List (Call V H)}
    (h : nominalCalls env c bs = .ok calls) : ∀ x ∈ calls, ∃ b ∈ bs, ∃ d, Dict.get? c.binMap b = some d ∧
      ∃ p ∈ "data_obs" :: Dict.keys d, ∃ t, nominal env c p b = .ok t ∧
      ((p = "data_obs" ∧ (x = .channel t b ∨ x = .data t b)) ∨
        (p ≠ "data_obs" ∧ x = .process t p b (decide ((Dict.get? c.indices p).getD 0 ≤ 0)))) := by
  induction bs generalizing calls with
  | nil => intro x hx; rw [← Except.ok.inj h] at hx; cases hx
  | cons b' bs ih =>
    rw [nominalCalls] at h
    obtain ⟨d, hd, h⟩ := Datacard.bind_ok h
    obtain ⟨r, hr, h⟩ := Datacard.bind_ok h
    obtain ⟨r', hr', h⟩ := Datacard.map_ok h
    intro x hx
    rw [← h, List.mem_append] at hx
    rcases hx with hx | hx
    · refine ⟨b', List.mem_cons_self, d, ?_, processCalls_iff hr x hx⟩
      rw [Dict.get] at hd
      split at hd
      · rename_i v hv
        rw [hv, Except.ok.inj hd]
      · cases hd
    · obtain ⟨b, hb, rest⟩ := ih hr' x hx
      exact ⟨b, List.mem_cons_of_mem _ hb, rest⟩

/-- the channel a call registers -/
def chanOf : Call V H → Option String
  | .channel _ b => some b
  | _ => none

theorem processCalls_chans {env : Env V H} {c : Card V} {bin : String} {ps : List String} {calls : List (Call V H)}
    (h : processCalls env c bin ps = .ok calls) : calls.filterMap chanOf = (ps.filter (· = "data_obs")).map fun _ => bin := by
  induction ps generalizing calls with
  | nil => rw [← Except.ok.inj h]; rfl
  | cons q qs ih =>
    rw [processCalls] at h
    obtain ⟨t, ht, h⟩ := Datacard.bind_ok h
    obtain ⟨r, hr, h⟩ := Datacard.map_ok h
    rw [← h, List.filterMap_append, ih hr]
    split
    · rename_i hq; simp [chanOf, hq]
    · rename_i hq; simp [chanOf, hq]

theorem nominalCalls_chans {env : Env V H} {c : Card V} {bs : List String} {calls : List (Call V H)}
    (h : nominalCalls env c bs = .ok calls) (hno : ∀ b ∈ bs, ∀ d, Dict.get? c.binMap b = some d → "data_obs" ∉ Dict.keys d) :
    calls.filterMap chanOf = bs := by
  induction bs generalizing calls with
  | nil => rw [← Except.ok.inj h]; rfl
  | cons b' bs ih =>
    rw [nominalCalls] at h
    obtain ⟨d, hd, h⟩ := Datacard.bind_ok h
    obtain ⟨r, hr, h⟩ := Datacard.bind_ok h
    obtain ⟨r', hr', h⟩ := Datacard.map_ok h
    have hd' : Dict.get? c.binMap b' = some d := by
      rw [Dict.get] at hd
      split at hd
      · rename_i v hv
        rw [hv, Except.ok.inj hd]
      · cases hd
    rw [← h, List.filterMap_append, ih hr' fun b hb => hno b (List.mem_cons_of_mem _ hb), processCalls_chans hr]
    have : (Dict.keys d).filter (· = "data_obs") = [] := by
      rw [List.filter_eq_nil_iff]
      intro x hx
      have := hno b' List.mem_cons_self d hd'
      simp only [decide_eq_true_eq]
      rintro rfl
      exact this hx
    simp [this]

/-! ### systematics -/

/-- names of the nuisances a pair of histograms is booked under -/
def pairNames (symm : Symm) (name : String) : List String :=
  if symm = .linear ∨ symm = .quadratic then [name ++ "SymAvg", name ++ "SymDiff"] else [name]

/-- (nuisance, bin, process) of a call -/
def cells (symm : Symm) : Call V H → List (String × String × String)
  | .norm name ps b _ _ => ps.map fun p => (name, b, p)
  | .syst _ _ name p b _ _ => (pairNames symm name).map fun m => (m, b, p)
  | _ => []

/-- the entries of a row -/
theorem effectCalls_cells {f : String → String → String → Res (Call V H)} {d : Dict (String × String) String} {calls : List (Call V H)}
    {symm : Symm} {ns : List String} (h : effectCalls f d = .ok calls)
    (hf : ∀ b p e x, ((b, p), e) ∈ d → ¬ (e = "-" ∨ e = "0") → f b p e = .ok x → cells symm x = ns.map fun m => (m, b, p)) :
    calls.flatMap (cells symm) = (d.filter fun e => ¬ (e.2 = "-" ∨ e.2 = "0")).flatMap fun e => ns.map fun m => (m, e.1.1, e.1.2) := by
  induction d generalizing calls with
  | nil => rw [← Except.ok.inj h]; rfl
  | cons a d ih =>
    obtain ⟨⟨b, p⟩, e⟩ := a
    rw [effectCalls] at h
    have hf' : ∀ b p e x, ((b, p), e) ∈ d → ¬ (e = "-" ∨ e = "0") → f b p e = .ok x → cells symm x = ns.map fun m => (m, b, p) :=
      fun b p e x hm => hf b p e x (List.mem_cons_of_mem _ hm)
    split at h
    · rename_i hs
      rw [List.filter_cons_of_neg (by simpa using fun h1 => hs.resolve_left h1)]
      exact ih h hf'
    · rename_i hs
      obtain ⟨x, hx, h⟩ := Datacard.bind_ok h
      obtain ⟨r, hr, h⟩ := Datacard.map_ok h
      rw [List.filter_cons_of_pos (by simpa [not_or] using hs), ← h, List.flatMap_cons, List.flatMap_cons, ih hr hf',
        hf b p e x List.mem_cons_self hs hx]

theorem systCalls_only {env : Env V H} {c : Card V} {ss : List Syst} {calls : List (Call V H)} (h : systCalls env c ss = .ok calls) :
    ∀ x ∈ calls, ∃ s ∈ ss, ∃ b p e, ((b, p), e) ∈ s.effects ∧ ¬ (e = "-" ∨ e = "0") ∧
      ((s.type ∈ ["shape", "shapeN", "shape?", "shapeU"] ∧ shapeCall env c s.name s.type p b e = .ok x) ∨
        (s.type ∈ ["lnN", "lnU"] ∧ normCall env s.name p b e = .ok x)) := by
  have key : ∀ {f : String → String → String → Res (Call V H)} {d : Dict (String × String) String} {r : List (Call V H)},
      effectCalls f d = .ok r → ∀ x ∈ r, ∃ b p e, ((b, p), e) ∈ d ∧ ¬ (e = "-" ∨ e = "0") ∧ f b p e = .ok x := by
    intro f d
    induction d with
    | nil => intro r h x hx; rw [← Except.ok.inj h] at hx; cases hx
    | cons a d ih =>
      intro r h x hx
      obtain ⟨⟨b', p'⟩, e'⟩ := a
      rw [effectCalls] at h
      split at h
      · obtain ⟨b, p, e, hm, rest⟩ := ih h x hx
        exact ⟨b, p, e, List.mem_cons_of_mem _ hm, rest⟩
      · rename_i hs
        obtain ⟨y, hy, h⟩ := Datacard.bind_ok h
        obtain ⟨r', hr, h⟩ := Datacard.map_ok h
        rw [← h] at hx
        rcases List.mem_cons.1 hx with rfl | hx
        · exact ⟨b', p', e', List.mem_cons_self, hs, hy⟩
        · obtain ⟨b, p, e, hm, rest⟩ := ih hr x hx
          exact ⟨b, p, e, List.mem_cons_of_mem _ hm, rest⟩
  induction ss generalizing calls with
  | nil => intro x hx; rw [← Except.ok.inj h] at hx; cases hx
  | cons s ss ih =>
    rw [systCalls] at h
    obtain ⟨r, hr, h⟩ := Datacard.bind_ok h
    obtain ⟨r', hr', h⟩ := Datacard.map_ok h
    intro x hx
    rw [← h, List.mem_append] at hx
    rcases hx with hx | hx
    · by_cases h1 : s.type ∈ ["shape", "shapeN", "shape?", "shapeU"]
      · rw [if_pos h1] at hr
        obtain ⟨b, p, e, hm, hs, hf⟩ := key hr x hx
        exact ⟨s, List.mem_cons_self, b, p, e, hm, hs, .inl ⟨h1, hf⟩⟩
      · rw [if_neg h1] at hr
        by_cases h2 : s.type ∈ ["lnN", "lnU"]
        · rw [if_pos h2] at hr
          obtain ⟨b, p, e, hm, hs, hf⟩ := key hr x hx
          exact ⟨s, List.mem_cons_self, b, p, e, hm, hs, .inr ⟨h2, hf⟩⟩
        · rw [if_neg h2] at hr
          rw [← Except.ok.inj hr] at hx; cases hx
    · obtain ⟨s', hs', rest⟩ := ih hr' x hx
      exact ⟨s', List.mem_cons_of_mem _ hs', rest⟩

theorem normCall_ne {env : Env V H} {name p b e : String} {h : H} {b' : String} (hx : normCall env name p b e = .ok (.channel h b')) : False := by
  unfold normCall at hx
  split at hx
  · split at hx
    · obtain ⟨_, _, hx⟩ := Datacard.bind_ok hx
      obtain ⟨_, _, hx⟩ := Datacard.map_ok hx
      cases hx
    · cases hx
  · obtain ⟨_, _, hx⟩ := Datacard.map_ok hx
    cases hx

/-! ### calls and operations -/

theorem callOps_forall {symm : Symm} {calls : List (Call V (Hist V))} {ops : List (Op V)} (h : callOps symm calls = .ok ops) :
    List.Forall₂ (fun x o => callOp symm x = .ok o) calls ops := by
  induction calls generalizing ops with
  | nil => rw [← Except.ok.inj h]; exact .nil
  | cons x xs ih =>
    rw [callOps] at h
    obtain ⟨o, ho, h⟩ := Datacard.bind_ok h
    obtain ⟨r, hr, h⟩ := Datacard.map_ok h
    rw [← h]
    exact .cons ho (ih hr)

theorem forall₂_left {α β : Type} {R : α → β → Prop} {l : List α} {m : List β} (h : List.Forall₂ R l m) : ∀ x ∈ l, ∃ y ∈ m, R x y := by
  induction h with
  | nil => intro x hx; cases hx
  | cons h _ ih =>
    intro x hx
    rcases List.mem_cons.1 hx with rfl | hx
    · exact ⟨_, List.mem_cons_self, h⟩
    · obtain ⟨y, hy, hr⟩ := ih x hx
      exact ⟨y, List.mem_cons_of_mem _ hy, hr⟩

theorem forall₂_right {α β : Type} {R : α → β → Prop} {l : List α} {m : List β} (h : List.Forall₂ R l m) : ∀ y ∈ m, ∃ x ∈ l, R x y := by
  induction h with
  | nil => intro x hx; cases hx
  | cons h _ ih =>
    intro x hx
    rcases List.mem_cons.1 hx with rfl | hx
    · exact ⟨_, List.mem_cons_self, h⟩
    · obtain ⟨y, hy, hr⟩ := ih x hx
      exact ⟨y, List.mem_cons_of_mem _ hy, hr⟩

theorem runAll_ok [Field V] [LinearOrder V] {cfg : Cfg V} {ops : List (Op V)} : ∀ {s s' : State V}, runAll cfg s ops = .ok s' →
    Writer.Spec.allOk cfg s ops ∧ s' = runOps cfg s ops := by
  induction ops with
  | nil => intro s s' h; exact ⟨trivial, (Except.ok.inj h).symm⟩
  | cons op ops ih =>
    intro s s' h
    rw [runAll] at h
    rcases hst : step cfg op s with ⟨s1, r⟩
    rw [hst] at h
    cases r with
    | error e => cases h
    | ok u =>
      obtain ⟨h1, h2⟩ := ih h
      have e1 : s1 = (step cfg op s).1 := by rw [hst]
      refine ⟨⟨by rw [hst], e1 ▸ h1⟩, ?_⟩
      rw [h2, e1]
      rfl

/-- the channel an operation registers -/
def opChan : Op V → Option String
  | .channel _ (some b) _ _ => some b
  | _ => none

theorem fresh_of [Field V] [LinearOrder V] {cfg : Cfg V} {ops : List (Op V)} (hn : ∀ a m f, Op.channel a none m f ∉ ops)
    (hnd : (ops.filterMap opChan).Nodup) : ∀ {s : State V}, LayInv s → (∀ b ∈ ops.filterMap opChan, s.channels.has b = false) →
    Writer.Spec.freshNames cfg s ops := by
  induction ops with
  | nil => intro s _ _; trivial
  | cons op ops ih =>
    intro s hl hs
    have h1 : ∀ chan, Writer.Spec.addsChannel s chan op → s.channels.has chan = false := by
      intro chan hc
      cases op with
      | channel a nm m f =>
        cases nm with
        | none => exact absurd List.mem_cons_self (hn a m f)
        | some b =>
          have : b = chan := hc
          subst this
          exact hs _ (by simp [opChan])
      | _ => exact hc.elim
    have hn' : ∀ a m f, Op.channel a none m f ∉ ops := fun a m f h => hn a m f (List.mem_cons_of_mem _ h)
    have hnd' : (ops.filterMap opChan).Nodup := by
      rw [List.filterMap_cons] at hnd
      split at hnd
      · exact hnd
      · exact (List.nodup_cons.1 hnd).2
    refine ⟨h1, ih hn' hnd' (layInv_step cfg op s hl h1) fun b hb => ?_⟩
    by_contra hc
    rw [Bool.not_eq_false, Dict.has_iff] at hc
    obtain ⟨v, hv⟩ := hc
    rcases channel_step_origin op s hl h1 hv with h | h | ⟨a, m, f, h⟩
    · have h2 := hs b (by
        rw [List.filterMap_cons]
        split
        · exact hb
        · exact List.mem_cons_of_mem _ hb)
      rw [(Dict.has_iff _ _).2 ⟨v, h⟩] at h2
      cases h2
    · subst h
      rw [List.filterMap_cons] at hnd
      simp only [opChan] at hnd
      exact (List.nodup_cons.1 hnd).1 hb
    · subst h
      exact hn a m f List.mem_cons_self

theorem fitting_of [Field V] [LinearOrder V] {cfg : Cfg V} {ops : List (Op V)} : ∀ {s : State V},
    (∀ l op r, ops = l ++ op :: r → Writer.Spec.fitsOp (runOps cfg s l) op) → Writer.Spec.fitting cfg s ops := by
  induction ops with
  | nil => intro s _; trivial
  | cons op ops ih =>
    intro s h
    refine ⟨h [] op ops rfl, ih fun l o r e => ?_⟩
    exact h (op :: l) o r (by rw [e]; rfl)

end Verif.CardFile
