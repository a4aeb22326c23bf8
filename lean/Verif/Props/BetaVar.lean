import Verif.Lemmas.BetaVar
import Verif.Props.Merge

/-!
C77: template variations of a masked channel correlated with the statistical nuisance parameters of a fitted channel.
-/

namespace Verif.BetaVar

open Verif.Logk Verif.Writer M

set_option linter.unusedSectionVars false

variable {V : Type} [Field V] [LinearOrder V]

/-! ### Specification -/

/-- the ordinary calls of a history -/
def Spec.ordinary (ops : List (BOp V)) : List (Op V) :=
  ops.filterMap fun o => match o with
    | .op o => some o
    | .beta .. => none

/-- position of the axis with a name -/
def Spec.axisPos (h : BHist V) (n : Option String) : Nat := (h.axes.map (·.name)).idxOf n

/-- the sizes along the axes of the histogram that the destination (first) and the source (then) have -/
def Spec.sizes (h : BHist V) (cd cs : Chan) : List Nat :=
  dims cd.flow ((cd.axes ++ cs.axes).map fun a => Batched.axisAt h.axes (Spec.axisPos h a.name))

/-- Which registrations are accepted: dense output, known channels, a masked destination with a template of that process,
and a histogram that has all axes of both channels (all with different names) and whose bins can be shared evenly among
those of the template. -/
def Spec.accepts (cfg : Cfg V) (s : State V) (h : BHist V) (proc src dest : String) : Prop :=
  cfg.sparse = false ∧ ∃ cs cd l, s.channels.get? src = some cs ∧ s.channels.get? dest = some cd ∧ cd.masked = true ∧
    Writer.Spec.at2 s.norm dest proc = some (.dense l) ∧
    (∀ a ∈ cd.axes ++ cs.axes, a.name ∈ h.axes.map (·.name)) ∧ ((cd.axes ++ cs.axes).map (·.name)).Nodup ∧
    l ≠ [] ∧ l.length ∣ (Spec.sizes h cd cs).prod

open Classical in
/-- the histogram of the last accepted registration for (destination, source, process) -/
noncomputable def Spec.registered (cfg : Cfg V) (dest src proc : String) :
    State V → List (BOp V) → Option (BHist V) → Option (BHist V)
  | _, [], acc => acc
  | s, .op o :: r, acc => Spec.registered cfg dest src proc (step cfg o s).1 r acc
  | s, .beta h p c d :: r, acc =>
    Spec.registered cfg dest src proc s r
      (if p = proc ∧ c = src ∧ d = dest ∧ Spec.accepts cfg s h p c d then some h else acc)

/-- total content of the cells, flow included, at given positions (with-flow layout) along the axes of a list -/
def Spec.total (h : BHist V) (axes : List Axis) (m : List Nat) : V :=
  (((Grid.grid (dims true h.axes)).filter fun idx =>
    decide (axes.map (fun a => idx.getD (Spec.axisPos h a.name) 0) = m)).map h.content).sum

/-- position of bin `i` of a channel in the with-flow layout of its axes -/
def Spec.cell (flow : Bool) (axes : List Axis) (i : List Nat) : List Nat :=
  List.zipWith (fun a i => if flow then i else i + a.off) axes i

/-- the histogram has the axes of both channels, and the axes of the source have no flow bins if those of the
destination are kept -/
def Spec.matches (h : BHist V) (cd cs : Chan) : Prop :=
  (∀ a ∈ cd.axes ++ cs.axes, Batched.axisAt h.axes (Spec.axisPos h a.name) = a) ∧
  (cd.flow = true → ∀ a ∈ cs.axes, a.under = false ∧ a.over = false)

/-! ### Registration -/

theorem projectValues_length (h : BHist V) (cd cs : Chan) :
    (projectValues h (((cd.axes ++ cs.axes).map (·.name)).map fun n => (h.axes.map (·.name)).idxOf n) cd.flow).length =
      (Spec.sizes h cd cs).prod := by
  unfold projectValues Spec.sizes Spec.axisPos
  dsimp only
  rw [List.length_map, List.length_range, Batched.prod_eq, List.map_map, List.map_map]
  rfl

/-- the block stored for a histogram -/
def block (h : BHist V) (cd cs : Chan) (L : Nat) : List (List V) :=
  rowsOf L (projectValues h (((cd.axes ++ cs.axes).map (·.name)).map fun n => (h.axes.map (·.name)).idxOf n) cd.flow)

/-- the dictionary after an accepted registration -/
def stored (b : BState V) (dest src proc : String) (rows : List (List V)) : BState V :=
  let d := (b.dict.get? dest).getD []
  let e := (d.get? src).getD []
  ⟨b.dict.set dest (d.set src (e.set proc rows)), true⟩

theorem addBeta_ok_iff (cfg : Cfg V) (h : BHist V) (proc src dest : String) (s : State V) (b b' : BState V) :
    addBeta cfg h proc src dest s b = .ok b' ↔ cfg.sparse = false ∧ ∃ cs cd l, s.channels.get? src = some cs ∧
      s.channels.get? dest = some cd ∧ cd.masked = true ∧ Writer.Spec.at2 s.norm dest proc = some (.dense l) ∧
      (∀ a ∈ cd.axes ++ cs.axes, a.name ∈ h.axes.map (·.name)) ∧ ((cd.axes ++ cs.axes).map (·.name)).Nodup ∧
      l ≠ [] ∧ l.length ∣ (Spec.sizes h cd cs).prod ∧ b' = stored b dest src proc (block h cd cs l.length) := by
  unfold addBeta
  cases hsp : cfg.sparse with
  | true => simp
  | false =>
    simp only [Bool.false_eq_true, if_false, true_and]
    cases hcs : s.channels.get? src with
    | none => simp
    | some cs =>
      cases hcd : s.channels.get? dest with
      | none => simp
      | some cd =>
        dsimp only
        cases hm : cd.masked with
        | false => simp [hm]
        | true =>
          simp only [Bool.not_true, Bool.false_eq_true, if_false]
          have hat : (s.norm.get? dest).bind (·.get? proc) = Writer.Spec.at2 s.norm dest proc := rfl
          rw [hat]
          cases hn : Writer.Spec.at2 s.norm dest proc with
          | none => simp
          | some x =>
            cases x with
            | csr n l => simp
            | dense l =>
              dsimp only
              have hany : ((cs.axes ++ cd.axes).any fun a => decide (a.name ∉ h.axes.map (·.name))) = true ↔
                  ¬ ∀ a ∈ cd.axes ++ cs.axes, a.name ∈ h.axes.map (·.name) := by
                simp only [List.any_eq_true, decide_eq_true_eq, List.mem_append, not_forall, exists_prop]
                constructor
                · rintro ⟨a, ha, hn⟩; exact ⟨a, ha.symm, hn⟩
                · rintro ⟨a, ha, hn⟩; exact ⟨a, ha.symm, hn⟩
              by_cases h1 : ∀ a ∈ cd.axes ++ cs.axes, a.name ∈ h.axes.map (·.name)
              · rw [if_neg fun hh => (hany.1 hh) h1]
                by_cases h2 : ((cd.axes ++ cs.axes).map (·.name)).Nodup
                · rw [if_neg (not_not.2 h2), projectValues_length]
                  by_cases h3 : l.length = 0 ∨ (Spec.sizes h cd cs).prod % l.length ≠ 0
                  · rw [if_pos h3]
                    constructor
                    · intro hh; cases hh
                    · rintro ⟨cs', cd', l', e1, e2, _, e3, _, _, h4, h5, _⟩
                      cases e1; cases e2; cases e3
                      rcases h3 with h3 | h3
                      · exact absurd (List.length_eq_zero_iff.1 h3) h4
                      · exact absurd (Nat.mod_eq_zero_of_dvd h5) h3
                  · rw [if_neg h3]
                    rw [not_or, not_not] at h3
                    constructor
                    · intro hh
                      cases hh
                      exact ⟨cs, cd, l, rfl, rfl, hm, rfl, h1, h2, fun h => h3.1 (by rw [h]; rfl),
                        Nat.dvd_of_mod_eq_zero h3.2, rfl⟩
                    · rintro ⟨cs', cd', l', e1, e2, _, e3, _, _, h4, h5, rfl⟩
                      cases e1; cases e2; cases e3
                      rfl
                · rw [if_pos h2]
                  constructor
                  · intro hh; cases hh
                  · rintro ⟨cs', cd', l', e1, e2, _, e3, _, h4, _⟩
                    cases e1; cases e2; exact absurd h4 h2
              · rw [if_pos (hany.2 h1)]
                constructor
                · intro hh; cases hh
                · rintro ⟨cs', cd', l', e1, e2, _, e3, h4, _⟩
                  cases e1; cases e2; exact absurd h4 h1

theorem stored_at (b : BState V) (dest src proc : String) (rows : List (List V)) (d c p : String) :
    Writer.Spec.at3 (stored b dest src proc rows).dict d c p =
      if d = dest ∧ c = src ∧ p = proc then some rows else Writer.Spec.at3 b.dict d c p := by
  unfold stored Writer.Spec.at3 Writer.Spec.at2
  dsimp only
  by_cases h1 : dest = d
  · subst h1
    simp only [Dict.get?_set, if_true, Option.bind_some, true_and]
    by_cases h2 : src = c
    · subst h2
      simp only [if_true, Option.bind_some, Dict.get?_set, true_and]
      by_cases h3 : proc = p
      · subst h3; simp
      · rw [if_neg h3, if_neg fun h => h3 h.symm]
        cases b.dict.get? dest with
        | none => simp
        | some x => cases hx : x.get? src <;> simp [hx]
    · rw [if_neg h2, if_neg fun h => h2 h.1.symm]
      cases b.dict.get? dest <;> simp
  · rw [Dict.get?_set_ne _ _ h1, if_neg fun h => h1 h.1.symm]

/-- C77, registration: the call succeeds exactly for the accepted registrations, and replaces the entry of its
(destination, source, process) only. -/
theorem c77_accepts (cfg : Cfg V) (h : BHist V) (proc src dest : String) (s : State V) (b : BState V) :
    ((∃ b', addBeta cfg h proc src dest s b = .ok b') ↔ Spec.accepts cfg s h proc src dest) ∧
    ∀ b', addBeta cfg h proc src dest s b = .ok b' →
      b'.has = true ∧ (∃ rows, Writer.Spec.at3 b'.dict dest src proc = some rows) ∧
      ∀ d c p, (d, c, p) ≠ (dest, src, proc) → Writer.Spec.at3 b'.dict d c p = Writer.Spec.at3 b.dict d c p := by
  refine ⟨⟨?_, ?_⟩, ?_⟩
  · rintro ⟨b', hb⟩
    obtain ⟨h0, cs, cd, l, h1, h2, h3, h4, h5, h6, h7, h8, -⟩ := (addBeta_ok_iff ..).1 hb
    exact ⟨h0, cs, cd, l, h1, h2, h3, h4, h5, h6, h7, h8⟩
  · rintro ⟨h0, cs, cd, l, h1, h2, h3, h4, h5, h6, h7, h8⟩
    exact ⟨_, (addBeta_ok_iff ..).2 ⟨h0, cs, cd, l, h1, h2, h3, h4, h5, h6, h7, h8, rfl⟩⟩
  · intro b' hb
    obtain ⟨h0, cs, cd, l, h1, h2, h3, h4, h5, h6, h7, h8, rfl⟩ := (addBeta_ok_iff ..).1 hb
    refine ⟨rfl, ⟨_, by rw [stored_at, if_pos ⟨rfl, rfl, rfl⟩]⟩, fun d c p hne => ?_⟩
    rw [stored_at, if_neg]
    rintro ⟨rfl, rfl, rfl⟩
    exact hne rfl

/-! ### Histories -/

/-- what the dictionaries say about one (destination, source, process) -/
structure Holds (dest src proc : String) (s : State V) (b : BState V) (acc : Option (BHist V)) : Prop where
  absent : acc = none → Writer.Spec.at3 b.dict dest src proc = none
  present : ∀ h, acc = some h → b.has = true ∧ ∃ cs cd L, s.channels.get? src = some cs ∧ s.channels.get? dest = some cd ∧
    cd.masked = true ∧ (Writer.Spec.at2 s.norm dest proc).isSome ∧
    (∀ a ∈ cd.axes ++ cs.axes, a.name ∈ h.axes.map (·.name)) ∧ ((cd.axes ++ cs.axes).map (·.name)).Nodup ∧
    0 < L ∧ L ∣ (Spec.sizes h cd cs).prod ∧
    Writer.Spec.at3 b.dict dest src proc = some (block h cd cs L)
  nodup : ∀ d, b.dict.get? dest = some d → (Dict.keys d).Nodup

theorem holds_op (cfg : Cfg V) (dest src proc : String) (o : Op V) (s : State V) (b : BState V) (acc : Option (BHist V))
    (hs : LayInv s) (hf : ∀ chan, Writer.Spec.addsChannel s chan o → s.channels.has chan = false)
    (h : Holds dest src proc s b acc) : Holds dest src proc (step cfg o s).1 (resetBeta o s b) acc := by
  have hL := layInv_step cfg o s hs hf
  rcases step_cases cfg o s with ⟨axes, nm, m, f, rfl, hfm, h1, h2, h3⟩ | ⟨h0, h1, h2, h3⟩
  · have hnew := hf _ rfl
    set name := nm.getD s!"ch{s.channels.length}" with hname
    have hnk : name ∉ Dict.keys s.channels := by rw [Dict.mem_keys_iff_has, hnew]; simp
    have hn' := hL.nodup
    rw [h1] at hn'
    have hr : resetBeta (.channel axes nm m f) s b = { b with dict := b.dict.set name [] } := by
      simp only [resetBeta, hfm, Bool.false_eq_true, if_false, ← hname]
    rw [hr]
    have hat : name ≠ dest → Writer.Spec.at3 (b.dict.set name []) dest src proc = Writer.Spec.at3 b.dict dest src proc := by
      intro hne
      unfold Writer.Spec.at3 Writer.Spec.at2
      rw [Dict.get?_set_ne _ _ hne]
    refine ⟨fun ha => ?_, fun x ha => ?_, fun d hd => ?_⟩
    · dsimp only
      by_cases hne : name = dest
      · subst hne
        unfold Writer.Spec.at3 Writer.Spec.at2
        simp
      · rw [hat hne]; exact h.absent ha
    · obtain ⟨g0, cs, cd, L, g1, g2, g3, g4, g5, g6, g7, g8, g9⟩ := h.present x ha
      have hne : ∀ {y c}, s.channels.get? y = some c → name ≠ y := by
        intro y c hy e
        rw [e, Dict.has_eq_false_iff, hy] at hnew; cases hnew
      refine ⟨g0, cs, cd, L, ?_, ?_, g3, ?_, g5, g6, g7, g8, ?_⟩
      · rw [h1, get_insertChannel hnk hs.nodup hn', if_neg (hne g1)]; exact g1
      · rw [h1, get_insertChannel hnk hs.nodup hn', if_neg (hne g2)]; exact g2
      · rw [h3]; unfold Writer.Spec.at2 at g4 ⊢; rw [Dict.get?_set_ne _ _ (hne g2)]; exact g4
      · dsimp only; rw [hat (hne g2)]; exact g9
    · dsimp only at hd
      rw [Dict.get?_set] at hd
      split at hd
      · cases hd; simp [Dict.keys]
      · exact h.nodup d hd
  · rw [h0]
    refine ⟨h.absent, fun x ha => ?_, h.nodup⟩
    obtain ⟨g0, cs, cd, L, g1, g2, g3, g4, g5⟩ := h.present x ha
    refine ⟨g0, cs, cd, L, by rw [h1]; exact g1, by rw [h1]; exact g2, g3, ?_, g5⟩
    obtain ⟨y, hy⟩ := Option.isSome_iff_exists.1 g4
    rw [h3 _ _ _ hy]; rfl

theorem run_registered (cfg : Cfg V) (dest src proc : String) (ops : List (BOp V)) : ∀ (s : State V) (b : BState V)
    (acc : Option (BHist V)), LayInv s → Ord s → Writer.Spec.freshNames cfg s (Spec.ordinary ops) → Holds dest src proc s b acc →
    let x := ops.foldl (bstep cfg) (s, b)
    x.1 = runOps cfg s (Spec.ordinary ops) ∧ LayInv x.1 ∧ Ord x.1 ∧
      Holds dest src proc x.1 x.2 (Spec.registered cfg dest src proc s ops acc) := by
  induction ops with
  | nil => exact fun s b acc h1 h2 _ h3 => ⟨rfl, h1, h2, h3⟩
  | cons o ops ih =>
    intro s b acc h1 h2 hf h3
    cases o with
    | op o =>
      have hf' : Writer.Spec.freshNames cfg s (o :: Spec.ordinary ops) := hf
      exact ih _ _ acc (layInv_step cfg o s h1 hf'.1) (ord_step cfg o s h1 h2 hf'.1) hf'.2
        (holds_op cfg dest src proc o s b acc h1 hf'.1 h3)
    | beta h p c d =>
      have hf' : Writer.Spec.freshNames cfg s (Spec.ordinary ops) := hf
      rw [List.foldl_cons]
      unfold Spec.registered
      have hacc := (c77_accepts cfg h p c d s b).1
      cases hb : addBeta cfg h p c d s b with
      | error e =>
        have hn : ¬ Spec.accepts cfg s h p c d := by
          rw [← hacc, hb]; rintro ⟨_, h⟩; cases h
        have hbs : bstep cfg (s, b) (.beta h p c d) = (s, b) := by simp only [bstep, hb]
        rw [hbs, if_neg fun hh => hn hh.2.2.2]
        exact ih s b acc h1 h2 hf' h3
      | ok b' =>
        have hbs : bstep cfg (s, b) (.beta h p c d) = (s, b') := by simp only [bstep, hb]
        have hy : Spec.accepts cfg s h p c d := hacc.1 ⟨b', hb⟩
        rw [hbs]
        refine ih s b' _ h1 h2 hf' ?_
        obtain ⟨g0, cs, cd, l, g1, g2, g3, g4, g5, g6, g7, g8, rfl⟩ := (addBeta_ok_iff ..).1 hb
        have hnd : ∀ x, (stored b d c p (block h cd cs l.length)).dict.get? dest = some x → (Dict.keys x).Nodup := by
          intro x hx
          unfold stored at hx
          dsimp only at hx
          rw [Dict.get?_set] at hx
          split at hx
          · rename_i hd
            subst hd
            cases hx
            refine Dict.nodup_keys_set _ _ _ ?_
            cases hg : b.dict.get? d with
            | none => simp [Dict.keys]
            | some y => exact h3.nodup y hg
          · exact h3.nodup x hx
        by_cases hc : p = proc ∧ c = src ∧ d = dest
        · obtain ⟨rfl, rfl, rfl⟩ := hc
          rw [if_pos ⟨rfl, rfl, rfl, hy⟩]
          refine ⟨(nomatch ·), ?_, hnd⟩
          intro x hx
          cases hx
          exact ⟨rfl, cs, cd, l.length, g1, g2, g3, by rw [g4]; rfl, g5, g6, List.length_pos_iff.2 g7, g8,
            by rw [stored_at, if_pos ⟨rfl, rfl, rfl⟩]⟩
        · rw [if_neg fun hh => hc ⟨hh.1, hh.2.1, hh.2.2.1⟩]
          have hat : Writer.Spec.at3 (stored b d c p (block h cd cs l.length)).dict dest src proc =
              Writer.Spec.at3 b.dict dest src proc := by
            rw [stored_at, if_neg]
            rintro ⟨rfl, rfl, rfl⟩; exact hc ⟨rfl, rfl, rfl⟩
          refine ⟨fun ha => hat.trans (h3.absent ha), fun x hx => ?_, hnd⟩
          obtain ⟨_, cs', cd', L, r⟩ := h3.present x hx
          exact ⟨rfl, cs', cd', L, by rw [hat]; exact r⟩

/-! ### The written block -/

theorem ravel_append (s r i j : List Nat) (h : i.length = s.length) :
    Grid.ravel (s ++ r) (i ++ j) = Grid.ravel s i * r.prod + Grid.ravel r j := by
  induction s generalizing i with
  | nil => cases i with
    | nil => simp [Grid.ravel]
    | cons => simp at h
  | cons n s ih =>
    cases i with
    | nil => simp at h
    | cons x i =>
      simp only [List.cons_append, Grid.ravel, List.prod_append]
      rw [ih i (by simpa using h)]
      ring

theorem mem_grid_append {s r i j : List Nat} (hi : i ∈ Grid.grid s) (hj : j ∈ Grid.grid r) : i ++ j ∈ Grid.grid (s ++ r) := by
  rw [Grid.mem_grid] at *
  exact List.rel_append hi hj

theorem rowsOf_get (n : Nat) (l : List V) (i j : Nat) (hi : i < n) (hj : j < l.length / n) :
    ((rowsOf n l).getD i []).getD j 0 = l.getD (i * (l.length / n) + j) 0 := by
  unfold rowsOf
  simp [List.getD_eq_getElem?_getD, hi, hj]

theorem rowsOf_length (n : Nat) (l : List V) : (rowsOf n l).length = n := by simp [rowsOf]

theorem rowsOf_head (n : Nat) (l : List V) (hn : 0 < n) : ((rowsOf n l).headD []).length = l.length / n := by
  unfold rowsOf
  obtain ⟨m, rfl⟩ : ∃ m, n = m + 1 := ⟨n - 1, by omega⟩
  rw [List.range_succ_eq_map]
  simp

theorem sizes_matches {h : BHist V} {cd cs : Chan} (hm : Spec.matches h cd cs) :
    Spec.sizes h cd cs = dims cd.flow cd.axes ++ dims false cs.axes := by
  unfold Spec.sizes
  have h1 : ((cd.axes ++ cs.axes).map fun a => Batched.axisAt h.axes (Spec.axisPos h a.name)) = cd.axes ++ cs.axes := by
    conv_rhs => rw [← List.map_id (cd.axes ++ cs.axes)]
    exact List.map_congr_left hm.1
  rw [h1]
  unfold dims
  rw [List.map_append]
  congr 1
  refine List.map_congr_left fun a ha => ?_
  cases hf : cd.flow with
  | false => rfl
  | true =>
    obtain ⟨h1, h2⟩ := hm.2 hf a ha
    simp [Axis.extent, Axis.off, h1, h2]

theorem cell_matches {h : BHist V} {cd cs : Chan} (hm : Spec.matches h cd cs) (j : List Nat) :
    List.zipWith (fun a i => if cd.flow then i else i + a.off) cs.axes j = Spec.cell false cs.axes j := by
  unfold Spec.cell
  cases hf : cd.flow with
  | false => rfl
  | true =>
    have h2 := hm.2 hf
    clear hm hf
    generalize cs.axes = l at h2
    induction l generalizing j with
    | nil => rfl
    | cons a l ih =>
      cases j with
      | nil => rfl
      | cons x j =>
        simp only [List.zipWith_cons_cons]
        congr 1
        · simp [Axis.off, (h2 a (by simp)).1]
        · exact ih j fun a ha => h2 a (by simp [ha])

/-- the values of a matching histogram in the order of the block -/
theorem values_matches {h : BHist V} {cd cs : Chan} (hm : Spec.matches h cd cs) {i j : List Nat}
    (hi : i ∈ Grid.grid (dims cd.flow cd.axes)) (hj : j ∈ Grid.grid (dims false cs.axes)) :
    (projectValues h (((cd.axes ++ cs.axes).map (·.name)).map fun n => (h.axes.map (·.name)).idxOf n) cd.flow).getD
      (Writer.ravel (dims cd.flow cd.axes) i * (dims false cs.axes).prod + Writer.ravel (dims false cs.axes) j) 0 =
    Spec.total h (cd.axes ++ cs.axes) (Spec.cell cd.flow cd.axes i ++ Spec.cell false cs.axes j) := by
  have hax : (((cd.axes ++ cs.axes).map (·.name)).map fun n => (h.axes.map (·.name)).idxOf n).map (Batched.axisAt h.axes) =
      cd.axes ++ cs.axes := by
    rw [List.map_map, List.map_map]
    conv_rhs => rw [← List.map_id (cd.axes ++ cs.axes)]
    exact List.map_congr_left hm.1
  have hsz : dims cd.flow (cd.axes ++ cs.axes) = dims cd.flow cd.axes ++ dims false cs.axes := by
    have := sizes_matches hm
    unfold Spec.sizes at this
    rw [← this]
    congr 1
    conv_lhs => rw [← List.map_id (cd.axes ++ cs.axes)]
    exact List.map_congr_left fun a ha => (hm.1 a ha).symm
  have hk : Writer.ravel (dims cd.flow cd.axes) i * (dims false cs.axes).prod + Writer.ravel (dims false cs.axes) j =
      Writer.ravel (dims cd.flow cd.axes ++ dims false cs.axes) (i ++ j) := by
    rw [Batched.ravel_eq, Batched.ravel_eq, Batched.ravel_eq, ravel_append _ _ _ _ (Grid.length_of_mem_grid hi)]
  have hmem := mem_grid_append hi hj
  have hlt := Batched.ravel_lt' hmem
  unfold projectValues
  dsimp only
  rw [hax, hsz, hk, List.getD_eq_getElem?_getD, List.getElem?_map, List.getElem?_range hlt, Option.map_some,
    Option.getD_some, Batched.unravel_ravel hmem, List.zipWith_append
      (by rw [Grid.length_of_mem_grid hi]; simp [dims]), cell_matches hm]
  unfold projectCell Spec.total
  simp only [List.map_map]
  rfl

/-- two slots of a layout that share a bin are the same -/
theorem slot_unique {lay : List Slot} (h : lay.Pairwise fun a b => a.start + a.n ≤ b.start) {x y : Slot} (hx : x ∈ lay)
    (hy : y ∈ lay) {k : Nat} (h1 : x.start ≤ k ∧ k < x.start + x.n) (h2 : y.start ≤ k ∧ k < y.start + y.n) : x = y := by
  induction lay with
  | nil => cases hx
  | cons z l ih =>
    rw [List.pairwise_cons] at h
    rcases List.mem_cons.1 hx with hx | hx <;> rcases List.mem_cons.1 hy with hy | hy
    · rw [hx, hy]
    · have := h.1 y hy; subst hx; omega
    · have := h.1 x hx; subst hy; omega
    · exact ih h.2 hx hy

theorem shape_eq {L m n w : Nat} (h : L * m = n * w) (hn : 0 < n) (hw : 0 < w) (h1 : L = n ∨ L = 1) (h2 : m = w ∨ m = 1) :
    L = n ∧ m = w := by
  rcases h1 with rfl | rfl
  · exact ⟨rfl, Nat.eq_of_mul_eq_mul_left hn h⟩
  · rw [Nat.one_mul] at h
    rcases h2 with rfl | rfl
    · have : n = 1 := by
        rcases Nat.lt_or_ge n 2 with h3 | h3
        · omega
        · have := Nat.mul_le_mul_right m h3; omega
      exact ⟨this.symm, rfl⟩
    · have := mul_eq_one.1 h.symm
      exact ⟨this.1.symm, this.2.symm⟩

/-- C77, the file.  For every history of calls with distinct channel names that ends in a written file, and every
destination, source (both at their ranges in the file) and process: the block of the last accepted registration holds,
bin by bin of the destination and of the source, the total content of the histogram in the cells with those bins (all
other axes summed, their flow bins included), when the histogram has the axes of both channels; without a registration
the block is zero.  The source is a fitted channel. -/
theorem c77_written_partial (cfg : Cfg V) (ops : List (BOp V)) (hf : Writer.Spec.freshNames cfg {} (Spec.ordinary ops))
    (iter : List String → List String) (t : Tensor V) (B : Option (Nat → Nat → Nat → V))
    (hw : writeBeta cfg iter (brun cfg ops) = .ok (t, B)) :
    let s := run cfg (Spec.ordinary ops)
    let R := readerFrom 0 t.channelInfo
    ∀ dest a b src a' b', (dest, a, b) ∈ R → (src, a', b') ∈ R → ∀ cd cs, s.channels.get? dest = some cd →
      s.channels.get? src = some cs → ∀ (ip : Nat) proc, t.procs[ip]? = some proc →
      match Spec.registered cfg dest src proc {} ops none with
      | none => ∀ f, B = some f → ∀ i, i < b - a → ∀ j, j < b' - a' → f (a + i) (a' + j) ip = 0
      | some h => ∃ f, B = some f ∧ cd.masked = true ∧ cs.masked = false ∧ (Spec.matches h cd cs →
          ∀ i ∈ Grid.grid (dims cd.flow cd.axes), ∀ j ∈ Grid.grid (dims false cs.axes),
            f (a + Writer.ravel (dims cd.flow cd.axes) i) (a' + Writer.ravel (dims false cs.axes) j) ip =
              Spec.total h (cd.axes ++ cs.axes) (Spec.cell cd.flow cd.axes i ++ Spec.cell false cs.axes j)) := by
  intro s R dest a b src a' b' hd hs cd cs hcd hcs ip proc hip
  have hL0 : LayInv ({} : State V) := ⟨by simp, by simp, by simp [Dict.keys]⟩
  obtain ⟨e0, hL, hO, hH⟩ := run_registered cfg dest src proc ops {} {} none hL0 (by simp [Ord])
    hf ⟨fun _ => rfl, fun _ h => (by cases h), fun _ h => (by cases h)⟩
  have e1 : (brun cfg ops).1 = s := e0
  have hflow := Merge.flow_run cfg (Spec.ordinary ops) hf
  change Holds dest src proc (brun cfg ops).1 (brun cfg ops).2 _ at hH
  change LayInv (brun cfg ops).1 at hL
  change Ord (brun cfg ops).1 at hO
  generalize hx : brun cfg ops = x at hw e1 hH hL hO
  obtain ⟨s0, b0⟩ := x
  dsimp only at e1 hH hL hO
  subst e1
  unfold writeBeta at hw
  dsimp only at hw
  split at hw
  · cases hw
  · rename_i t' ht'
    obtain ⟨lay, cells, W⟩ := write_ok ht'
    obtain ⟨hb, hpw, hcov, hch, hnb⟩ := layoutFrom_bounds W.layout
    have htt : t' = t := by
      split at hw
      · cases hw; rfl
      · split at hw
        · cases hw
        · split at hw
          · cases hw
          · cases hw; rfl
    subst htt
    have hR : R = lay.map fun sl => (sl.name, sl.start, sl.start + sl.n) := by
      show readerFrom 0 t'.channelInfo = _
      rw [W.channelInfo]
      exact reader_eq W.layout fun n c hc => hL.get hc
    have hR' : readerFrom 0 s.channels = R := by
      show _ = readerFrom 0 t'.channelInfo
      rw [W.channelInfo]
    have hmem : ∀ name a b, (name, a, b) ∈ R → ∃ sl ∈ lay, sl.name = name ∧ sl.start = a ∧ b = sl.start + sl.n := by
      intro name a b h
      rw [hR] at h
      obtain ⟨sl, hsl, he⟩ := List.mem_map.1 h
      simp only [Prod.mk.injEq] at he
      exact ⟨sl, hsl, he.1, he.2.1, he.2.2.symm⟩
    obtain ⟨sd, hsd, rfl, rfl, rfl⟩ := hmem _ _ _ hd
    obtain ⟨ss, hss, rfl, rfl, rfl⟩ := hmem _ _ _ hs
    have hsize : ∀ sl ∈ lay, ∀ c, s.channels.get? sl.name = some c → sl.n = chSize c := by
      intro sl hsl c hc
      have h1 := hL.get (Dict.mem_of_get? _ _ _ hc)
      rw [hnb sl hsl] at h1
      exact Option.some.inj h1
    cases hhas : b0.has with
    | false =>
      rw [hhas] at hw
      simp only [Bool.not_false, if_true] at hw
      cases hw
      split
      · intro f hf; cases hf
      · rename_i h hreg
        have := (hH.present h hreg).1
        rw [hhas] at this; cases this
    | true =>
      rw [hhas] at hw
      simp only [Bool.not_true, Bool.false_eq_true, if_false] at hw
      rw [W.layout] at hw
      dsimp only at hw
      split at hw
      · cases hw
      · rename_i f hloop
        cases hw
        obtain ⟨hT, hV⟩ := loop_tasks hloop
        -- a task that covers a point of the block carries the registered rows
        have huniq : ∀ τ ∈ betaTasks s b0 t'.procs lay, ∀ i j, i < sd.n → j < ss.n →
            covers s τ (sd.start + i) (ss.start + j) ip →
              Writer.Spec.at3 b0.dict sd.name ss.name proc = some τ.rows ∧ τ.src = ss.name ∧ τ.start = sd.start ∧
              τ.n = sd.n ∧ ∀ r, srcRange s.channels τ.src 0 s.nbinschan = .ok r → r.1 = ss.start ∧ r.2 = ss.start + ss.n := by
          intro τ hτ i j hi hj hc
          obtain ⟨sl, hsl, p, hp, hn, ⟨d, hdm, hrows⟩, h1, h2⟩ := mem_betaTasks.1 hτ
          obtain ⟨r, hr, hip', hrow, hcol⟩ := hc
          have hsl' : sl = sd := slot_unique hpw hsl hsd (k := sd.start + i) (by omega) (by omega)
          subst hsl'
          have hpp : p = proc := by
            rw [← hip', hip] at hp; exact (Option.some.inj hp).symm
          subst hpp
          obtain ⟨hr1, -⟩ := srcRange_sound hL hO hr
          rw [hR'] at hr1
          obtain ⟨sl', hsl', hnm, hst, hen⟩ := hmem _ _ _ hr1
          have : sl' = ss := slot_unique hpw hsl' hss (k := ss.start + j) (by omega) (by omega)
          subst this
          have hd' : ∃ x, b0.dict.get? sl.name = some x ∧ (τ.src, d) ∈ x := by
            cases hg : b0.dict.get? sl.name with
            | none => rw [hg] at hdm; simp at hdm
            | some x => rw [hg] at hdm; exact ⟨x, rfl, hdm⟩
          obtain ⟨x, hx1, hx2⟩ := hd'
          refine ⟨?_, hnm.symm, h1, h2, ?_⟩
          · unfold Writer.Spec.at3 Writer.Spec.at2
            rw [hx1, Option.bind_some, hnm, Dict.get?_of_mem _ _ _ (hH.nodup x hx1) hx2, Option.bind_some, hrows]
          · intro r' hr'
            rw [hr] at hr'; cases hr'
            exact ⟨hst.symm, by rw [hen]⟩
        split
        · rename_i hreg
          intro f' hf' i hi j hj
          cases hf'
          refine (hV _ _ _).1 fun τ hτ hc => ?_
          have := (huniq τ hτ i j (by omega) (by omega) hc).1
          rw [hH.absent hreg] at this; cases this
        · rename_i h hreg
          obtain ⟨-, cs, cd', L, g1, g2, g3, g4, g5, g6, g7, g8, g9⟩ := hH.present h hreg
          rw [hcs] at g1; cases g1
          rw [hcd] at g2; cases g2
          -- the task of the registration
          obtain ⟨x, hx1, d, hx2, hd3⟩ : ∃ x, b0.dict.get? sd.name = some x ∧ ∃ d, x.get? ss.name = some d ∧
              d.get? proc = some (block h cd cs L) := by
            unfold Writer.Spec.at3 Writer.Spec.at2 at g9
            cases hg : b0.dict.get? sd.name with
            | none => rw [hg] at g9; cases g9
            | some x =>
              rw [hg, Option.bind_some] at g9
              cases hg' : x.get? ss.name with
              | none => rw [hg'] at g9; cases g9
              | some d => rw [hg', Option.bind_some] at g9; exact ⟨x, rfl, d, hg', g9⟩
          have hτ : (⟨sd.start, sd.n, ss.name, ip, block h cd cs L⟩ : BTask V) ∈ betaTasks s b0 t'.procs lay :=
            mem_betaTasks.2 ⟨sd, hsd, proc, hip, g4, ⟨d, by rw [hx1]; exact Dict.mem_of_get? _ _ _ hx2, hd3⟩, rfl, rfl⟩
          obtain ⟨r, hr, hfit⟩ := hT _ hτ
          dsimp only at hr
          obtain ⟨hr1, c', hc', hm'⟩ := srcRange_sound hL hO hr
          rw [hcs] at hc'; cases hc'
          refine ⟨f, rfl, g3, hm', fun hmat i hi j hj => ?_⟩
          have hnd : sd.n = (dims cd.flow cd.axes).prod := hsize sd hsd cd hcd
          have hfl : cs.flow = false := hflow _ (Dict.mem_of_get? _ _ _ hcs) hm'
          have hns : ss.n = (dims false cs.axes).prod := by
            rw [hsize ss hss cs hcs, chSize, hfl]; rfl
          have hi' : Writer.ravel (dims cd.flow cd.axes) i < sd.n := by rw [hnd]; exact Batched.ravel_lt' hi
          have hj' : Writer.ravel (dims false cs.axes) j < ss.n := by rw [hns]; exact Batched.ravel_lt' hj
          have hrr : r.1 = ss.start ∧ r.2 = ss.start + ss.n := by
            rw [hR'] at hr1
            obtain ⟨sl', hsl', hnm, hst, hen⟩ := hmem _ _ _ hr1
            have : sl' = ss := by
              have hn1 : (lay.map fun sl : Slot => sl.name).Nodup := by
                have := hL.nodup
                rw [← hch] at this
                unfold Dict.keys at this
                rw [List.map_map] at this
                exact this
              exact List.inj_on_of_nodup_map hn1 hsl' hss hnm
            subst this
            exact ⟨hst.symm, by rw [hen]⟩
          have hlen : (projectValues h (((cd.axes ++ cs.axes).map (·.name)).map fun n => (h.axes.map (·.name)).idxOf n)
              cd.flow).length = sd.n * ss.n := by
            rw [projectValues_length, sizes_matches hmat, List.prod_append, hnd, hns]
          obtain ⟨hLn, hmw⟩ : L = sd.n ∧ sd.n * ss.n / L = ss.n := by
            have hdvd : L ∣ sd.n * ss.n := by
              rw [← hlen, projectValues_length]; exact g8
            refine shape_eq (Nat.mul_div_cancel' hdvd) (by omega) (by omega) ?_ ?_
            · have := hfit.1
              dsimp only [block] at this
              rw [rowsOf_length] at this
              exact this
            · have := hfit.2
              dsimp only [block] at this
              rw [rowsOf_head _ _ g7, hlen, hrr.1, hrr.2] at this
              simpa using this
          have hval : ∀ τ ∈ betaTasks s b0 t'.procs lay,
              covers s τ (sd.start + Writer.ravel (dims cd.flow cd.axes) i) (ss.start + Writer.ravel (dims false cs.axes) j) ip →
              ∀ r, srcRange s.channels τ.src 0 s.nbinschan = .ok r →
                value τ r.1 (sd.start + Writer.ravel (dims cd.flow cd.axes) i)
                  (ss.start + Writer.ravel (dims false cs.axes) j) =
                Spec.total h (cd.axes ++ cs.axes) (Spec.cell cd.flow cd.axes i ++ Spec.cell false cs.axes j) := by
            intro τ hτ' hc r' hr'
            obtain ⟨hrows, hsrc, hst, hn, hrg⟩ := huniq τ hτ' _ _ hi' hj' hc
            rw [g9] at hrows
            have hrows : τ.rows = block h cd cs L := (Option.some.inj hrows).symm
            unfold value
            rw [hrows, hst, (hrg r' hr').1]
            have hb1 : (block h cd cs L).length = L := rowsOf_length ..
            have hb2 : ((block h cd cs L).headD []).length = ss.n := by
              unfold block
              rw [rowsOf_head _ _ g7, hlen, hmw]
            rw [hb1, hb2, Nat.add_sub_cancel_left, Nat.add_sub_cancel_left]
            have hif : (if L = 1 then 0 else Writer.ravel (dims cd.flow cd.axes) i) = Writer.ravel (dims cd.flow cd.axes) i := by
              split_ifs with h1
              · omega
              · rfl
            have hjf : (if ss.n = 1 then 0 else Writer.ravel (dims false cs.axes) j) = Writer.ravel (dims false cs.axes) j := by
              split_ifs with h1
              · omega
              · rfl
            rw [hif, hjf]
            unfold block
            rw [rowsOf_get _ _ _ _ (by rw [hLn]; exact hi') (by rw [hlen, hmw]; exact hj'), hlen, hmw, hns]
            exact values_matches hmat hi hj
          refine (hV _ _ _).2 _ hval (.inl ⟨_, hτ, r, hr, rfl, ⟨?_, ?_⟩, ?_, ?_⟩)
          · dsimp only; omega
          · dsimp only; omega
          · rw [hrr.1]; omega
          · rw [hrr.1, hrr.2]; omega

/-! ### The prediction -/

/-- β of one fitted bin and process moved by `z` standard deviations of its constraint, all others at 1 -/
noncomputable def Spec.pull (f : Fit) (j p : Nat) (z : ℝ) : Nat → Nat → ℝ :=
  fun j' p' => if j' = j ∧ p' = p then 1 + z / √(f.k j p) else 1

open Classical in
/-- C77, the prediction: with all β at 1 the yields are those of the parameters alone; moving β of a fitted bin `j` and
process `p` by `z` standard deviations moves the yield of the same process in any other bin `i` with a positive nominal
yield by `z` times the variation, relative to nominal; other processes and bins without variation for `j` stay; without
variations in the file, or when only the fitted bins are computed, every yield is that of the bin's own β. -/
theorem c77_fit (f : Fit) (B : Nat → Nat → Nat → ℝ) (hB : f.betavar = some B) :
    (∀ i p, f.pred true (fun _ _ => 1) i p = f.norm i p) ∧
    (∀ j p z, j < f.nbins → ¬ f.masked j p → 0 < f.k j p → ∀ i, i ≠ j →
      (0 < f.n0 i p → f.pred true (Spec.pull f j p z) i p = f.norm i p * (1 + z * B i j p / f.n0 i p)) ∧
      (0 < f.n0 i p → f.norm i p = f.n0 i p → f.pred true (Spec.pull f j p z) i p = f.n0 i p + z * B i j p) ∧
      (B i j p = 0 → f.pred true (Spec.pull f j p z) i p = f.norm i p) ∧
      ∀ q, q ≠ p → f.pred true (Spec.pull f j p z) i q = f.norm i q) ∧
    (∀ β i p, (∀ j, j < f.nbins → B i j p = 0) → f.pred true β i p = if f.masked i p then f.norm i p else β i p * f.norm i p) ∧
    (∀ β i p, f.pred false β i p = if f.masked i p then f.norm i p else β i p * f.norm i p) := by
  have hvar0 : ∀ β i p, f.var B β i p = 0 → f.varied true β i p = f.norm i p := by
    intro β i p h
    unfold Fit.varied
    rw [hB]
    simp [h]
  have hpred : ∀ β i p, f.var B β i p = 0 → f.pred true β i p = if f.masked i p then f.norm i p else β i p * f.norm i p := by
    intro β i p h
    unfold Fit.pred
    rw [hvar0 β i p h]
  have hpull : ∀ j p z, j < f.nbins → ¬ f.masked j p → 0 < f.k j p → ∀ i q,
      f.var B (Spec.pull f j p z) i q = if q = p then z * B i j p else 0 := by
    intro j p z hj hm hk i q
    unfold Fit.var
    split_ifs with hq
    · subst hq
      rw [Finset.sum_eq_single j]
      · unfold Fit.dbeta Spec.pull
        rw [if_neg hm, if_pos ⟨rfl, rfl⟩]
        have : √(f.k j q) ≠ 0 := (Real.sqrt_pos.2 hk).ne'
        field_simp
        ring
      · intro j' _ hne
        have h1 : Spec.pull f j q z j' q = 1 := if_neg fun h => hne h.1
        unfold Fit.dbeta
        rw [h1]
        simp
      · intro h; exact absurd (Finset.mem_range.2 hj) h
    · refine Finset.sum_eq_zero fun j' _ => ?_
      have h1 : Spec.pull f j p z j' q = 1 := if_neg fun h => hq h.2
      unfold Fit.dbeta
      rw [h1]
      simp
  refine ⟨?_, ?_, ?_, ?_⟩
  · intro i p
    rw [hpred]
    · simp
    · unfold Fit.var Fit.dbeta; simp
  · intro j p z hj hm hk i hij
    have hown : ∀ q, Spec.pull f j p z i q = 1 := fun q => by
      unfold Spec.pull; rw [if_neg fun h => hij h.1]
    have h1 : 0 < f.n0 i p → f.pred true (Spec.pull f j p z) i p = f.norm i p * (1 + z * B i j p / f.n0 i p) := by
      intro hn
      have hv : f.varied true (Spec.pull f j p z) i p = f.norm i p * (1 + z * B i j p / f.n0 i p) := by
        unfold Fit.varied
        rw [hB]
        simp only [if_true, if_pos hn]
        rw [hpull j p z hj hm hk, if_pos rfl]
      unfold Fit.pred
      rw [hv, hown]
      split_ifs
      · rfl
      · rw [one_mul]
    refine ⟨h1, ?_, ?_, ?_⟩
    · intro hn he
      rw [h1 hn, he]
      field_simp
    · intro h0
      rw [hpred _ _ _ (by rw [hpull j p z hj hm hk, if_pos rfl, h0, mul_zero]), hown]
      split_ifs <;> simp
    · intro q hq
      rw [hpred _ _ _ (by rw [hpull j p z hj hm hk, if_neg hq]), hown]
      split_ifs <;> simp
  · intro β i p h
    refine hpred _ _ _ ?_
    unfold Fit.var
    exact Finset.sum_eq_zero fun j hj => by rw [h j (Finset.mem_range.1 hj), zero_mul]
  · intro β i p
    have : f.varied false β i p = f.norm i p := by
      unfold Fit.varied; rw [hB]; simp
    unfold Fit.pred
    rw [this]

/-- where the channels of a written file lie -/
theorem written_ranges {cfg : Cfg V} {iter : List String → List String} {s : State V} (hs : LayInv s) {t : Tensor V}
    (hw : (write cfg iter s).2 = .ok t) {name : String} {a b : Nat} (h : (name, a, b) ∈ readerFrom 0 t.channelInfo)
    {c : Chan} (hc : s.channels.get? name = some c) :
    b = a + chSize c ∧ (c.masked = false → b ≤ t.nbins) ∧ (c.masked = true → t.nbins ≤ a) := by
  obtain ⟨lay, cells, W⟩ := write_ok hw
  obtain ⟨hb, hpw, hcov, hch, hnb⟩ := layoutFrom_bounds W.layout
  rw [W.channelInfo, reader_eq W.layout fun n c hc => hs.get hc] at h
  obtain ⟨sl, hsl, he⟩ := List.mem_map.1 h
  simp only [Prod.mk.injEq] at he
  obtain ⟨rfl, rfl, rfl⟩ := he
  have hsc : sl.chan = c := by
    have h1 : (sl.name, sl.chan) ∈ s.channels := by rw [← hch]; exact List.mem_map.2 ⟨sl, hsl, rfl⟩
    rw [Dict.get?_of_mem _ _ _ hs.nodup h1] at hc
    exact Option.some.inj hc
  subst hsc
  have hm := layout_masked W.layout hs.sorted sl hsl
  rw [Nat.zero_add, ← (layInv_sizes hs W.layout W.nbins).2] at hm
  refine ⟨?_, hm⟩
  have h1 := hs.get (Dict.mem_of_get? _ _ _ hc)
  rw [hnb sl hsl] at h1
  rw [Option.some.inj h1]

/-- C77, from the registration to the fit: a fit of the written file in mode "full" with nominal parameters.  When β of
bin `j` of the source channel (for the process of the registration) moves by `z` standard deviations, the predicted yield
of that process in bin `i` of the destination moves by `z` times the content of the registered histogram at (`i`, `j`);
the other processes stay. -/
theorem c77_end_to_end_partial (cfg : Cfg ℝ) (ops : List (BOp ℝ))
    (hf : Writer.Spec.freshNames cfg {} (Spec.ordinary ops)) (iter : List String → List String) (t : Tensor ℝ)
    (B : Option (Nat → Nat → Nat → ℝ)) (hw : writeBeta cfg iter (brun cfg ops) = .ok (t, B))
    (f : Fit) (hfB : f.betavar = B) (hfn : f.nbins = t.nbins) (hnom : f.norm = f.n0)
    (dest src proc : String) (h : BHist ℝ) (hreg : Spec.registered cfg dest src proc {} ops none = some h)
    (a b a' b' : Nat) (hd : (dest, a, b) ∈ readerFrom 0 t.channelInfo) (hs : (src, a', b') ∈ readerFrom 0 t.channelInfo)
    (cd cs : Chan) (hcd : (run cfg (Spec.ordinary ops)).channels.get? dest = some cd)
    (hcs : (run cfg (Spec.ordinary ops)).channels.get? src = some cs) (hm : Spec.matches h cd cs)
    (ip : Nat) (hip : t.procs[ip]? = some proc)
    (i j : List Nat) (hi : i ∈ Grid.grid (dims cd.flow cd.axes)) (hj : j ∈ Grid.grid (dims false cs.axes)) (z : ℝ) :
    let I := a + Writer.ravel (dims cd.flow cd.axes) i
    let J := a' + Writer.ravel (dims false cs.axes) j
    ¬ f.masked J ip → 0 < f.k J ip → 0 < f.n0 I ip →
      f.pred true (Spec.pull f J ip z) I ip =
        f.n0 I ip + z * Spec.total h (cd.axes ++ cs.axes) (Spec.cell cd.flow cd.axes i ++ Spec.cell false cs.axes j) ∧
      ∀ q, q ≠ ip → f.pred true (Spec.pull f J ip z) I q = f.n0 I q := by
  intro I J h1 h2 h3
  have hmain := c77_written_partial cfg ops hf iter t B hw dest a b src a' b' hd hs cd cs hcd hcs ip proc hip
  rw [hreg] at hmain
  obtain ⟨B', rfl, hmd, hms, hval⟩ := hmain
  have hs0 : LayInv (run cfg (Spec.ordinary ops)) := layInv_run cfg _ hf
  have hL0 : LayInv ({} : State ℝ) := ⟨by simp, by simp, by simp [Dict.keys]⟩
  have hw' : (write cfg iter (run cfg (Spec.ordinary ops))).2 = .ok t := by
    obtain ⟨e0, -⟩ := run_registered cfg dest src proc ops {} {} none hL0 (by simp [Ord])
      hf ⟨fun _ => rfl, fun _ h => (by cases h), fun _ h => (by cases h)⟩
    have e1 : (brun cfg ops).1 = run cfg (Spec.ordinary ops) := e0
    rw [← e1]
    unfold writeBeta at hw
    split at hw
    · cases hw
    · rename_i t' ht'
      rw [ht']
      split at hw
      · cases hw
      · split at hw
        · cases hw
        · split at hw
          · cases hw
          · cases hw; rfl
  obtain ⟨-, -, hD⟩ := written_ranges hs0 hw' hd hcd
  obtain ⟨hb', hS, -⟩ := written_ranges hs0 hw' hs hcs
  have hfl : cs.flow = false := Merge.flow_run cfg _ hf _ (Dict.mem_of_get? _ _ _ hcs) hms
  have hJ : J < t.nbins := by
    have := Batched.ravel_lt' hj
    have h5 := hS hms
    have h6 : chSize cs = prod (dims false cs.axes) := by rw [chSize, hfl]
    omega
  have hI : t.nbins ≤ I := by have := hD hmd; omega
  obtain ⟨-, hfit, -, -⟩ := c77_fit f B' hfB
  obtain ⟨-, r1, -, r2⟩ := hfit J ip z (by rw [hfn]; exact hJ) h1 h2 I (by omega)
  rw [← hval hm i hi j hj]
  exact ⟨r1 h3 (by rw [hnom]), fun q hq => by rw [r2 q hq, hnom]⟩

/-! ### Concrete histories -/

namespace Ex

/-- an axis with a name and `n` bins, with or without flow bins -/
def ax (name : String) (n : Nat) (flow : Bool := false) : Axis := ⟨some name, n, n, flow, flow, none⟩

/-- fitted channel "a" with 2 bins along "x", masked channel "m" with 3 bins along "y", one process in both -/
def base (flow : Bool) : List (BOp ℚ) :=
  [.op (.channel [ax "y" 3] (some "m") true flow), .op (.channel [ax "x" 2 flow] (some "a") false false),
    .op (.process (Writer.Ex.h [5, 6]) "p" "a" true none), .op (.process (Writer.Ex.h [2, 4, 8]) "p" "m" true none),
    .op (.data (Writer.Ex.h [9, 9]) "a" none)]

/-- a histogram along "x", "z" and "y" with content 100 x + 10 z + y at each cell -/
def h (nx ny : Nat) (flow : Bool) : BHist ℚ :=
  ⟨[ax "x" nx flow, ax "z" 2, ax "y" ny], fun i => 100 * i.getD 0 0 + 10 * i.getD 1 0 + i.getD 2 0⟩

/-- the file: dimensions and the variations of process 0, rows `n`, columns `m` -/
def view (n m : Nat) (r : Res (Tensor ℚ × Option (Nat → Nat → Nat → ℚ))) : Option (List (String × Nat × Nat) × List (List ℚ)) :=
  match r with
  | .ok (t, some f) => some (readerFrom 0 t.channelInfo, (List.range n).map fun i => (List.range m).map fun j => f i j 0)
  | _ => none

end Ex

/-- The hypotheses of `c77_written_partial` are met: the masked channel is registered first and comes last in the file;
the second registration replaces the first; the axis "z" is summed. -/
example : Writer.Spec.freshNames Writer.Ex.cfg {} (Spec.ordinary (Ex.base false ++
      [.beta (Ex.h 2 3 true) "p" "a" "m", .beta (Ex.h 2 3 false) "p" "a" "m"])) ∧
    Ex.view 5 2 (writeBeta Writer.Ex.cfg id (brun Writer.Ex.cfg (Ex.base false ++
      [.beta (Ex.h 2 3 true) "p" "a" "m", .beta (Ex.h 2 3 false) "p" "a" "m"]))) =
    some ([("a", 0, 2), ("m", 2, 5)], [[0, 0], [0, 0], [10, 210], [12, 212], [14, 214]]) := by
  refine ⟨?_, by decide +kernel⟩
  simp only [Ex.base, List.cons_append, List.nil_append, Spec.ordinary, List.filterMap_cons, List.filterMap_nil,
    Writer.Spec.freshNames, Writer.Spec.addsChannel, Option.getD_some, forall_eq', false_imp_iff, implies_true, and_true]
  exact ⟨rfl, by decide +kernel⟩

/-- and the histogram matches the channels -/
example : Spec.matches (Ex.h 2 3 false) ⟨[Ex.ax "y" 3], true, false⟩ ⟨[Ex.ax "x" 2], false, false⟩ := by
  refine ⟨?_, fun h => by cases h⟩
  decide +kernel

/-- a fit to which `c77_fit` applies -/
example : ∃ f : Fit, ∃ B, f.betavar = some B ∧ f.nbins = 1 ∧ ¬ f.masked 0 0 ∧ 0 < f.k 0 0 ∧ 0 < f.n0 1 0 ∧
    f.pred true (Spec.pull f 0 0 2) 1 0 = 4 + 2 * 3 := by
  let f : Fit := ⟨1, fun _ _ => 4, fun _ _ => 4, fun _ _ => False, fun _ _ => 9, some fun _ _ _ => 3⟩
  refine ⟨f, fun _ _ _ => 3, rfl, rfl, id, by norm_num [f], by norm_num [f], ?_⟩
  obtain ⟨-, h, -⟩ := c77_fit f _ rfl
  have := ((h 0 0 2 (by norm_num [f]) id (by norm_num [f]) 1 (by norm_num)).2.1 (by norm_num [f]) rfl)
  exact this

/-- The code violates C77 (flow bins): a registration for a destination that keeps its flow bins is accepted, but when the
axes of the source have flow bins too, these are read as well and the file cannot be written. -/
theorem c77_flow_violated : ∃ (cfg : Cfg ℚ) (ops : List (BOp ℚ)) (h : BHist ℚ),
    Spec.accepts cfg (brun cfg ops).1 h "p" "a" "m" ∧
    (∃ x, writeBeta cfg id (brun cfg ops) = .ok x) ∧
    writeBeta cfg id (brun cfg (ops ++ [.beta h "p" "a" "m"])) = .error .value := by
  have key : ∀ {r : Res (BState ℚ)}, r.toOption.isSome = true → ∃ b', r = .ok b' := by
    intro r hr
    cases r with
    | error e => cases hr
    | ok b => exact ⟨b, rfl⟩
  refine ⟨Writer.Ex.cfg, Ex.base true, Ex.h 2 3 true, ?_, ?_, ?_⟩
  · rw [← (c77_accepts Writer.Ex.cfg (Ex.h 2 3 true) "p" "a" "m" (brun Writer.Ex.cfg (Ex.base true)).1 {}).1]
    exact key (by decide +kernel)
  · have : (writeBeta Writer.Ex.cfg id (brun Writer.Ex.cfg (Ex.base true))).toOption.isSome = true := by decide +kernel
    cases hr : writeBeta Writer.Ex.cfg id (brun Writer.Ex.cfg (Ex.base true)) with
    | error e => rw [hr] at this; cases this
    | ok b => exact ⟨b, rfl⟩
  · have : (match writeBeta Writer.Ex.cfg id (brun Writer.Ex.cfg (Ex.base true ++ [.beta (Ex.h 2 3 true) "p" "a" "m"])) with
      | .error e => some e
      | .ok _ => none) = some .value := by decide +kernel
    split at this
    · rename_i e he
      rw [he, Option.some.inj this]
    · cases this

/-- The code violates C77 (binning): only the names of the axes are compared, so a histogram whose axes have other numbers
of bins is accepted when the total number fits, and its contents land in other bins than theirs: here (bin 1 of "m", bin 0
of "a") holds the content of (bin 0 of "y", bin 2 of "x"). -/
theorem c77_binning_violated : ∃ (cfg : Cfg ℚ) (ops : List (BOp ℚ)) (h : BHist ℚ) (t : Tensor ℚ) (f : Nat → Nat → Nat → ℚ),
    Writer.Spec.freshNames cfg {} (Spec.ordinary ops) ∧ Spec.accepts cfg (brun cfg ops).1 h "p" "a" "m" ∧
    writeBeta cfg id (brun cfg (ops ++ [.beta h "p" "a" "m"])) = .ok (t, some f) ∧
    ("a", 0, 2) ∈ readerFrom 0 t.channelInfo ∧ ("m", 2, 5) ∈ readerFrom 0 t.channelInfo ∧
    (h.axes.map (·.name) = [some "x", some "z", some "y"]) ∧
    f (2 + 1) 0 0 = Spec.total h [Ex.ax "y" 3, Ex.ax "x" 2] [0, 2] ∧
    f (2 + 1) 0 0 ≠ Spec.total h [Ex.ax "y" 3, Ex.ax "x" 2] [1, 0] := by
  have hw : Ex.view 5 2 (writeBeta Writer.Ex.cfg id (brun Writer.Ex.cfg (Ex.base false ++
      [.beta (Ex.h 3 2 false) "p" "a" "m"]))) =
      some ([("a", 0, 2), ("m", 2, 5)], [[0, 0], [0, 0], [10, 210], [410, 12], [212, 412]]) := by decide +kernel
  unfold Ex.view at hw
  split at hw
  · rename_i t f he
    have h1 := Option.some.inj hw
    simp only [Prod.mk.injEq] at h1
    have h2 : f 3 0 0 = 410 := by
      have := h1.2
      simp only [List.range_succ, List.range_zero, List.nil_append, List.cons_append, List.map_cons, List.map_nil,
        List.cons.injEq, and_true] at this
      exact this.2.2.2.1.1
    refine ⟨Writer.Ex.cfg, Ex.base false, Ex.h 3 2 false, t, f, ?_, ?_, he, by rw [h1.1]; simp, by rw [h1.1]; simp, rfl, ?_, ?_⟩
    · simp only [Ex.base, Spec.ordinary, List.filterMap_cons, List.filterMap_nil,
        Writer.Spec.freshNames, Writer.Spec.addsChannel, Option.getD_some, forall_eq', false_imp_iff, implies_true, and_true]
      exact ⟨rfl, by decide +kernel⟩
    · rw [← (c77_accepts Writer.Ex.cfg (Ex.h 3 2 false) "p" "a" "m" (brun Writer.Ex.cfg (Ex.base false)).1 {}).1]
      have : (addBeta Writer.Ex.cfg (Ex.h 3 2 false) "p" "a" "m" (brun Writer.Ex.cfg (Ex.base false)).1 {}).toOption.isSome =
        true := by decide +kernel
      cases hr : addBeta Writer.Ex.cfg (Ex.h 3 2 false) "p" "a" "m" (brun Writer.Ex.cfg (Ex.base false)).1 {} with
      | error e => rw [hr] at this; cases this
      | ok b => exact ⟨b, rfl⟩
    · rw [h2]; decide +kernel
    · rw [h2]; decide +kernel
  · cases hw

/-- The code violates C77 (additive type): with the type "normal-additive" (and in mode "lite") the variations of the file
are silently ignored, the prediction of a bin depends on its own β only. -/
theorem c77_additive_violated : ∃ (f : Fit) (B : Nat → Nat → Nat → ℝ), f.betavar = some B ∧ B 1 0 0 ≠ 0 ∧
    0 < f.nbins ∧ ¬ f.masked 0 0 ∧ 0 < f.n0 1 0 ∧
    (∀ varbeta z, f.predAdditive varbeta (fun j p => if j = 0 ∧ p = 0 then z else 0) 1 0 = f.norm 1 0) ∧
    ∃ z, f.pred true (Spec.pull f 0 0 z) 1 0 ≠ f.norm 1 0 := by
  let f : Fit := ⟨1, fun _ _ => 4, fun _ _ => 4, fun _ _ => False, fun _ _ => 9, some fun _ _ _ => 3⟩
  refine ⟨f, fun _ _ _ => 3, rfl, by norm_num, by norm_num [f], id, by norm_num [f], ?_, 1, ?_⟩
  · intro v z
    unfold Fit.predAdditive
    simp
  · obtain ⟨-, h, -⟩ := c77_fit f _ rfl
    rw [((h 0 0 1 (by norm_num [f]) id (by norm_num [f]) 1 (by norm_num)).2.1 (by norm_num [f]) rfl)]
    norm_num [f]

end Verif.BetaVar
