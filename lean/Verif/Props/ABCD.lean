import Verif.Lemmas.ABCD
import Mathlib.Algebra.Field.Basic
import Mathlib.Algebra.Order.Field.Rat
import Mathlib.Tactic.Ring
import Mathlib.Tactic.FieldSimp
import Mathlib.Tactic.NormNum

/-!
C47 ABCD background models.
-/

namespace Verif.ABCD

open Verif.ParamModels Verif.Grid

variable {V : Type}

/-! ### specification -/

namespace Spec

/-- The cell `i` of the channel has the chosen bin number on every axis for which one was chosen. -/
def Chosen (axes : List (Axis V)) (sel : Sel) (i : List Nat) : Prop :=
  ∀ s ∈ sel, ∀ (k : Nat) (a : Axis V), axes[k]? = some a → a.name = s.1 → i[k]?.map Int.ofNat = some s.2

/-- `L` lists the chosen cells of the channel, each once, in row-major order. -/
structure Cells (axes : List (Axis V)) (sel : Sel) (L : List (List Nat)) : Prop where
  mem : ∀ i, i ∈ L ↔ List.Forall₂ (fun k (a : Axis V) => k < a.size) i axes ∧ Chosen axes sel i
  nodup : L.Nodup
  order : L.Pairwise fun i j => ravel (sizes axes) i < ravel (sizes axes) j

/-- the name of the parameter of one cell -/
def cellName (proc ch : String) (axes : List (Axis V)) (i : List Nat) : String :=
  proc ++ "_" ++ ch ++ "_" ++ cellLabel axes i

/-- the bin of the tensor that holds cell `i` of channel `c` -/
def bin (c : Chan V) (i : List Nat) : Nat := c.start + ravel c.shape i

end Spec

open Spec

/-! ### bins and names of a region -/

theorem mem_grid_sizes {axes : List (Axis V)} {i : List Nat} :
    i ∈ grid (sizes axes) ↔ List.Forall₂ (fun k (a : Axis V) => k < a.size) i axes := by
  rw [mem_grid]; unfold sizes; rw [List.forall₂_map_right_iff]

theorem grid_pairwise (s : List Nat) : (grid s).Pairwise fun i j => ravel s i < ravel s j := by
  have := map_ravel_grid s
  have h2 : ((grid s).map (ravel s)).Pairwise (· < ·) := by rw [this]; exact List.pairwise_lt_range
  exact List.pairwise_map.1 h2

/-- The bins returned for a region are the chosen cells, each once and in row-major order, and the parameter names of
the region are the names of the same cells in the same order. -/
theorem c47_region (c : Chan V) (proc ch : String) (sel : Sel) (hn : (c.axes.map (·.name)).Nodup)
    (hk : sel.keys.Nodup) (hpos : ∀ s ∈ sel, 0 ≤ s.2) (bins : List Nat) (h : localIndices c sel = .ok bins) :
    ∃ L, Cells c.axes sel L ∧ bins = L.map (fun i => c.start + ravel (sizes c.axes) i) ∧
      buildNames proc ch c.axes sel = L.map (cellName proc ch c.axes) := by
  unfold localIndices at h
  split at h
  · exact nomatch h
  · rename_i sl hsl
    split at h
    · exact nomatch h
    · rename_i cs hcs
      cases h
      obtain ⟨hlen, hval⟩ := slices_spec c.axes hn sel hk _ sl (by simp) hsl
      have hnone : ∀ (k : Nat) (a : Axis V), c.axes[k]? = some a → sl[k]? = some (sel.get? a.name) := by
        intro k a ha
        rw [hval k a ha]
        cases sel.get? a.name with
        | some v => rfl
        | none =>
          have : k < c.axes.length := (List.getElem?_eq_some_iff.1 ha).1
          simp [this]
      have hpos' : ∀ v, some v ∈ sl → 0 ≤ v := by
        intro v hv
        obtain ⟨k, hk'⟩ := List.getElem?_of_mem hv
        have hlt : k < c.axes.length := hlen ▸ (List.getElem?_eq_some_iff.1 hk').1
        have := hnone k _ (List.getElem?_eq_getElem hlt)
        rw [hk'] at this
        exact hpos _ (Dict.mem_of_get? _ _ _ (Option.some.inj this).symm)
      have hls : sl.length = (sizes c.axes).length := by rw [hlen]; simp [sizes]
      have hcell := cells_eq_filter _ _ _ hls hpos' hcs
      have hch : ∀ i ∈ grid (sizes c.axes), hit sl i = true ↔ Chosen c.axes sel i := by
        intro i hi
        have hil : sl.length = i.length := by rw [length_of_mem_grid hi]; exact hls
        rw [hit_iff sl i hil]
        constructor
        · intro H s hs k a ha han
          refine H k s.2 ?_
          rw [hnone k a ha, han, Dict.get?_of_mem sel s.1 s.2 hk hs]
        · intro H k v hv
          have hlt : k < c.axes.length := hlen ▸ (List.getElem?_eq_some_iff.1 hv).1
          have ha := List.getElem?_eq_getElem hlt
          rw [hnone k _ ha] at hv
          exact H _ (Dict.mem_of_get? _ _ _ (Option.some.inj hv)) k _ ha rfl
      refine ⟨(grid (sizes c.axes)).filter (hit sl), ⟨fun i => ?_, (nodup_grid _).filter _,
        (grid_pairwise _).filter _⟩, by rw [hcell], ?_⟩
      · rw [List.mem_filter, ← mem_grid_sizes]
        exact ⟨fun h => ⟨h.1, (hch i h.1).1 h.2⟩, fun h => ⟨h.1, (hch i h.1).2 h.2⟩⟩
      · unfold buildNames
        congr 1
        apply List.filter_congr
        intro i hi
        have hil : i.length = c.axes.length := by rw [length_of_mem_grid hi]; simp [sizes]
        rw [Bool.eq_iff_iff, hch i hi, List.all_eq_true]
        constructor
        · intro H s hs k a ha han
          have := H s hs
          rw [← han, axPos_eq hn ha] at this
          simp only [decide_eq_true_eq] at this
          have hlt : k < i.length := by rw [hil]; exact (List.getElem?_eq_some_iff.1 ha).1
          rw [List.getD_eq_getElem?_getD, List.getElem?_eq_getElem hlt] at this
          rw [List.getElem?_eq_getElem hlt, ← this]; rfl
        · intro H s hs
          split
          · rfl
          · rename_i k hp
            obtain ⟨a, ha, han⟩ := axPos_some hp
            have := H s hs k a ha han
            have hlt : k < i.length := by rw [hil]; exact (List.getElem?_eq_some_iff.1 ha).1
            rw [List.getElem?_eq_getElem hlt] at this
            rw [List.getD_eq_getElem?_getD, List.getElem?_eq_getElem hlt]
            simpa using this

/-- A selection is accepted exactly if every axis name exists and every bin number lies in the axis, counted from the
front or from the back. -/
theorem c47_region_ok_iff (c : Chan V) (sel : Sel) (hn : (c.axes.map (·.name)).Nodup) (hk : sel.keys.Nodup) :
    (∃ bins, localIndices c sel = .ok bins) ↔
      ∀ s ∈ sel, ∃ a ∈ c.axes, a.name = s.1 ∧ -(a.size : Int) ≤ s.2 ∧ s.2 < a.size := by
  have hs := slices_ok_iff c.axes sel (List.replicate c.axes.length none)
  unfold localIndices
  constructor
  · rintro ⟨bins, h⟩ s hs'
    split at h
    · exact nomatch h
    · rename_i sl hsl
      split at h
      · exact nomatch h
      · rename_i cs hcs
        obtain ⟨hlen, hval⟩ := slices_spec c.axes hn sel hk _ sl (by simp) hsl
        obtain ⟨a, ha, han⟩ := hs.1 ⟨sl, hsl⟩ s hs'
        obtain ⟨k, hka⟩ := List.getElem?_of_mem ha
        have h1 := hval k a hka
        rw [han, Dict.get?_of_mem sel s.1 s.2 hk hs'] at h1
        have := (allChoices_ok_iff (sizes c.axes) sl (by rw [hlen]; simp [sizes])).1 ⟨cs, hcs⟩ k a.size s.2
          (by unfold sizes; rw [List.getElem?_map, hka]; rfl) h1
        exact ⟨a, ha, han, this⟩
  · intro H
    obtain ⟨sl, hsl⟩ := hs.2 fun s hs' => by obtain ⟨a, ha, han, -⟩ := H s hs'; exact ⟨a, ha, han⟩
    rw [hsl]
    obtain ⟨hlen, hval⟩ := slices_spec c.axes hn sel hk _ sl (by simp) hsl
    obtain ⟨cs, hcs⟩ := (allChoices_ok_iff (sizes c.axes) sl (by rw [hlen]; simp [sizes])).2 (by
      intro k n v hkn hkv
      unfold sizes at hkn
      rw [List.getElem?_map, Option.map_eq_some_iff] at hkn
      obtain ⟨a, ha, rfl⟩ := hkn
      have h1 := hval k a ha
      rw [hkv] at h1
      have hlt : k < c.axes.length := (List.getElem?_eq_some_iff.1 ha).1
      cases hg : sel.get? a.name with
      | none => rw [hg] at h1; simp [hlt] at h1
      | some w =>
        rw [hg] at h1
        obtain ⟨a', ha', han', hb⟩ := H _ (Dict.mem_of_get? _ _ _ hg)
        obtain ⟨k', hk'⟩ := List.getElem?_of_mem ha'
        have := axes_name_inj hn hk' ha han'
        subst this
        rw [ha] at hk'; cases hk'
        cases h1; exact hb)
    simp only [hcs]
    exact ⟨_, rfl⟩

/-- In a channel without flow bins the returned indices are the bins of the chosen cells. -/
theorem c47_bins_partial (c : Chan V) (hf : c.flow = false) (i : List Nat) :
    c.start + ravel (sizes c.axes) i = bin c i := by
  unfold bin Chan.shape sizes; simp [hf]

/-- Two selections of one channel with different bins on some axis have no bin in common. -/
theorem c47_disjoint (c : Chan V) (sel sel' : Sel) (hn : (c.axes.map (·.name)).Nodup) (hk : sel.keys.Nodup)
    (hk' : sel'.keys.Nodup) (hpos : ∀ s ∈ sel, 0 ≤ s.2) (hpos' : ∀ s ∈ sel', 0 ≤ s.2) {bins bins' : List Nat}
    (h : localIndices c sel = .ok bins) (h' : localIndices c sel' = .ok bins')
    {n : String} {v v' : Int} (hv : (n, v) ∈ sel) (hv' : (n, v') ∈ sel') (hne : v ≠ v') :
    ∀ b ∈ bins, b ∉ bins' := by
  obtain ⟨L, hL, rfl, -⟩ := c47_region c "" "" sel hn hk hpos bins h
  obtain ⟨L', hL', rfl, -⟩ := c47_region c "" "" sel' hn hk' hpos' bins' h'
  intro b hb hb'
  obtain ⟨i, hi, rfl⟩ := List.mem_map.1 hb
  obtain ⟨i', hi', he⟩ := List.mem_map.1 hb'
  obtain ⟨g, hc⟩ := (hL.mem i).1 hi
  obtain ⟨g', hc'⟩ := (hL'.mem i').1 hi'
  have : i' = i := ravel_inj (mem_grid_sizes.2 g') (mem_grid_sizes.2 g) (by omega)
  subst this
  obtain ⟨a, ha, han, -⟩ := (c47_region_ok_iff c sel hn hk).1 ⟨_, h⟩ _ hv
  obtain ⟨k, hka⟩ := List.getElem?_of_mem ha
  have e1 := hc _ hv k a hka han
  have e2 := hc' _ hv' k a hka han
  rw [e1] at e2
  exact hne (Option.some.inj e2)

/-- A region never contains a bin twice. -/
theorem c47_region_nodup (c : Chan V) (sel : Sel) (hn : (c.axes.map (·.name)).Nodup) (hk : sel.keys.Nodup)
    (hpos : ∀ s ∈ sel, 0 ≤ s.2) {bins : List Nat} (h : localIndices c sel = .ok bins) : bins.Nodup := by
  obtain ⟨L, hL, rfl, -⟩ := c47_region c "" "" sel hn hk hpos bins h
  refine (List.nodup_map_iff_inj_on hL.nodup).2 fun i hi j hj he => ?_
  exact ravel_inj (mem_grid_sizes.2 ((hL.mem i).1 hi).1) (mem_grid_sizes.2 ((hL.mem j).1 hj).1) (by omega)

/-! ### four regions -/

theorem zip4_getElem? (f : V → V → V → V → V) {a b c d : List V} {i : Nat} {x y z w : V} (ha : a[i]? = some x)
    (hb : b[i]? = some y) (hc : c[i]? = some z) (hd : d[i]? = some w) : (zip4 f a b c d)[i]? = some (f x y z w) := by
  unfold zip4
  simp [List.getElem?_zipWith, List.zip, ha, hb, hc, hd]

theorem zip3_getElem? (f : V → V → V → V) {a b c : List V} {i : Nat} {x y z : V} (ha : a[i]? = some x)
    (hb : b[i]? = some y) (hc : c[i]? = some z) : (zip3 f a b c)[i]? = some (f x y z) := by
  unfold zip3
  simp [List.getElem?_zipWith, List.zip, ha, hb, hc]

theorem gather_spec {inp : InData V} {p : Nat} {idx : List Nat} {l : List V} (h : gather inp p idx = .ok l) :
    (∀ b ∈ idx, b < inp.nbinsfull) ∧ ∀ (i b : Nat), idx[i]? = some b → l[i]? = some (inp.norm b p) := by
  unfold gather at h
  split_ifs at h with h1
  cases h
  simp only [List.any_eq_true, decide_eq_true_eq, not_exists, not_and, not_le] at h1
  exact ⟨h1, fun i b hi => by rw [List.getElem?_map, hi]; rfl⟩

/-- What the constructor stores. -/
structure Built [Field V] [DecidableEq V] (inp : InData V) (proc : String) (rA rB rC rD : Region) (yc : Bool)
    (m : Model V) : Prop where
  proc_mem : proc ∈ inp.procs
  procIdx : m.proc = inp.procs.idxOf proc
  corr : m.yieldCorr = yc
  A : getGlobalIndices inp.chans rA = .ok m.A.bins
  B : getGlobalIndices inp.chans rB = .ok m.B.bins
  C : getGlobalIndices inp.chans rC = .ok m.C.bins
  D : getGlobalIndices inp.chans rD = .ok m.D.bins
  lA : m.A.bins.length = m.n
  lB : m.B.bins.length = m.n
  lC : m.C.bins.length = m.n
  lD : m.D.bins.length = m.n
  bound : ∀ b, b ∈ m.A.bins ∨ b ∈ m.B.bins ∨ b ∈ m.C.bins ∨ b ∈ m.D.bins → b < inp.nbinsfull
  active : ∀ r, r = m.A ∨ r = m.B ∨ r = m.C ∨ r = m.D → (r.active = true ↔ ∀ b ∈ r.bins, b < inp.nbins)
  mc : ∀ (i a b c d : Nat), m.A.bins[i]? = some a → m.B.bins[i]? = some b → m.C.bins[i]? = some c →
    m.D.bins[i]? = some d →
    m.mcFactor[i]? = some (mcFactor (inp.norm a m.proc) (inp.norm b m.proc) (inp.norm c m.proc) (inp.norm d m.proc))
  mcLen : m.mcFactor.length = m.n
  params : m.params = regionNames inp proc rA ++ regionNames inp proc rB ++ regionNames inp proc rC

theorem abcdInit_built [Field V] [DecidableEq V] {inp : InData V} {proc : String} {rA rB rC rD : Region} {yc : Bool}
    {m : Model V} (h : abcdInit inp proc rA rB rC rD yc = .ok m) : Built inp proc rA rB rC rD yc m := by
  unfold abcdInit at h
  split_ifs at h with hp
  extract_lets p at h
  split at h
  · exact nomatch h
  rename_i iA hA
  split at h
  · exact nomatch h
  rename_i iB hB
  split at h
  · exact nomatch h
  rename_i iC hC
  split at h
  · exact nomatch h
  rename_i iD hD
  split_ifs at h with hlen
  split at h
  · rename_i a b c d ga gb gc gd
    cases h
    obtain ⟨bA, vA⟩ := gather_spec ga
    obtain ⟨bB, vB⟩ := gather_spec gb
    obtain ⟨bC, vC⟩ := gather_spec gc
    obtain ⟨bD, vD⟩ := gather_spec gd
    have len : ∀ {idx : List Nat} {l : List V}, gather inp p idx = .ok l → l.length = idx.length := by
      intro idx l hg
      unfold gather at hg
      split_ifs at hg
      cases hg; simp
    refine ⟨by simpa using hp, rfl, rfl, hA, hB, hC, hD, rfl, by simp [mkReg]; omega, by simp [mkReg]; omega,
      by simp [mkReg]; omega, ?_, ?_, ?_, ?_, rfl⟩
    · simp only [mkReg]
      rintro x (hx | hx | hx | hx)
      exacts [bA x hx, bB x hx, bC x hx, bD x hx]
    · rintro r (rfl | rfl | rfl | rfl) <;> simp [mkReg]
    · intro i x y z w hx hy hz hw
      exact zip4_getElem? _ (vA i x hx) (vB i y hy) (vC i z hz) (vD i w hw)
    · simp only [zip4, List.length_zipWith, List.length_zip, len ga, len gb, len gc, len gd]
      omega
  · exact nomatch h

theorem slice_getElem? {l : List V} {i s t : Nat} (h : s + i < t) : (slice l s t)[i]? = l[s + i]? := by
  unfold slice
  rw [List.getElem?_take, if_pos (by omega), List.getElem?_drop]

theorem sq_slice_length [Field V] {l : List V} {n s t k : Nat} (h : l.length = k * n) (h1 : s + n = t)
    (h2 : t ≤ k * n) : ((slice l s t).map (· ^ 2)).length = n := by
  unfold slice; simp; omega

/-- Rates of the four regions: squares of the parameters in A, B, C, one for every other bin and process, and in D the
value for which `rate_A · rate_C = rate_B · rate_D` (on the yields when the yield correction is requested).  Restricted
to disjoint regions, non-vanishing parameters of region B and, for the yield correction, non-vanishing templates in
B and D. -/
theorem c47_relation_partial [Field V] [DecidableEq V] {inp : InData V} {proc : String} {rA rB rC rD : Region}
    {yc : Bool} {m : Model V} (h : abcdInit inp proc rA rB rC rD yc = .ok m) {x : List V} {full : Bool} {r : Rates V}
    (hr : abcdCompute inp m x full = .ok r)
    (hdis : (m.A.bins ++ m.B.bins ++ m.C.bins ++ m.D.bins).Nodup) :
    (∀ b q, (q ≠ inp.procs.idxOf proc ∨ (b ∉ m.A.bins ∧ b ∉ m.B.bins ∧ b ∉ m.C.bins ∧ b ∉ m.D.bins)) →
      r.val b q = 1) ∧
    (∀ (i b : Nat), m.A.bins[i]? = some b → (full || m.A.active) = true → x[i]?.map (· ^ 2) = some (r.val b m.proc)) ∧
    (∀ (i b : Nat), m.B.bins[i]? = some b → (full || m.B.active) = true →
      x[m.n + i]?.map (· ^ 2) = some (r.val b m.proc)) ∧
    (∀ (i b : Nat), m.C.bins[i]? = some b → (full || m.C.active) = true →
      x[2 * m.n + i]?.map (· ^ 2) = some (r.val b m.proc)) ∧
    ((full || (m.A.active && m.B.active && m.C.active && m.D.active)) = true →
      ∀ (i a b c d : Nat), m.A.bins[i]? = some a → m.B.bins[i]? = some b → m.C.bins[i]? = some c →
      m.D.bins[i]? = some d → x[m.n + i]? ≠ some 0 →
      (yc = false → r.val a m.proc * r.val c m.proc = r.val b m.proc * r.val d m.proc) ∧
      (yc = true → inp.norm b m.proc ≠ 0 → inp.norm d m.proc ≠ 0 →
        (inp.norm a m.proc * r.val a m.proc) * (inp.norm c m.proc * r.val c m.proc) =
        (inp.norm b m.proc * r.val b m.proc) * (inp.norm d m.proc * r.val d m.proc))) := by
  have B := abcdInit_built h
  unfold abcdCompute at hr
  split_ifs at hr with hx
  push Not at hx
  have la := B.lA; have lb := B.lB; have lc := B.lC; have ld := B.lD; have lm := B.mcLen
  extract_lets a b c at hr
  have ha : a = (slice x 0 m.n).map (· ^ 2) := rfl
  have hb : b = (slice x m.n (2 * m.n)).map (· ^ 2) := rfl
  have hc : c = (slice x (2 * m.n) (3 * m.n)).map (· ^ 2) := rfl
  clear_value a b c
  have l1 : a.length = m.n := by rw [ha]; unfold slice; simp; omega
  have l2 : b.length = m.n := by rw [hb]; unfold slice; simp; omega
  have l3 : c.length = m.n := by rw [hc]; unfold slice; simp; omega
  have l4 : (dVals m a b c).length = m.n := by
    unfold dVals zip3; split_ifs <;> simp [l1, l2, l3, lm]
  obtain ⟨s1, s2, s3, s4⟩ := place_spec hr (by
    intro e he
    simp only [List.mem_cons, List.not_mem_nil, or_false] at he
    rcases he with rfl | rfl | rfl | rfl <;> simp only [la, lb, lc, ld, l1, l2, l3, l4])
  have s4 := s4 (by simpa [List.append_assoc] using hdis)
  have ga : ∀ i, i < m.n → a[i]? = x[i]?.map (· ^ 2) := fun i hi => by
    rw [ha, List.getElem?_map, slice_getElem? (by omega)]; simp
  have gb : ∀ i, i < m.n → b[i]? = x[m.n + i]?.map (· ^ 2) := fun i hi => by
    rw [hb, List.getElem?_map, slice_getElem? (by omega)]
  have gc : ∀ i, i < m.n → c[i]? = x[2 * m.n + i]?.map (· ^ 2) := fun i hi => by
    rw [hc, List.getElem?_map, slice_getElem? (by omega)]
  have lt : ∀ {r : Reg} {i k : Nat}, r.bins.length = m.n → r.bins[i]? = some k → i < m.n := fun hl hk => by
    rw [← hl]; exact (List.getElem?_eq_some_iff.1 hk).1
  refine ⟨fun k q hk => s3 k q ?_, fun i k hk hact => ?_, fun i k hk hact => ?_, fun i k hk hact => ?_,
    fun hact i kA kB kC kD hA hB hC hD hne => ?_⟩
  · rcases hk with hk | ⟨h1, h2, h3, h4⟩
    · exact .inl (by rw [B.procIdx]; exact hk)
    · right
      intro e he _
      simp only [List.mem_cons, List.not_mem_nil, or_false] at he
      rcases he with rfl | rfl | rfl | rfl <;> assumption
  · rw [← ga i (lt la hk)]; exact s4 (m.A, a) (by simp) hact i k hk
  · rw [← gb i (lt lb hk)]; exact s4 (m.B, b) (by simp) hact i k hk
  · rw [← gc i (lt lc hk)]; exact s4 (m.C, c) (by simp) hact i k hk
  · have act : ∀ q : Reg, q = m.A ∨ q = m.B ∨ q = m.C ∨ q = m.D → (full || q.active) = true := by
      clear * - hact
      intro q hq
      rw [Bool.or_eq_true] at hact ⊢
      rcases hact with h | h
      · exact .inl h
      · simp only [Bool.and_eq_true] at h
        rcases hq with rfl | rfl | rfl | rfl
        exacts [.inr h.1.1.1, .inr h.1.1.2, .inr h.1.2, .inr h.2]
    have eA := s4 (m.A, a) (by simp) (act _ (by simp)) i kA hA
    have eB := s4 (m.B, b) (by simp) (act _ (by simp)) i kB hB
    have eC := s4 (m.C, c) (by simp) (act _ (by simp)) i kC hC
    have eD := s4 (m.D, dVals m a b c) (by simp) (act _ (by simp)) i kD hD
    dsimp only at eA eB eC eD
    have hb0 : r.val kB m.proc ≠ 0 := by
      rw [gb i (lt lb hB), Option.map_eq_some_iff] at eB
      obtain ⟨v, hv, he⟩ := eB
      rw [← he]
      exact pow_ne_zero 2 fun h0 => hne (h0 ▸ hv)
    have hd := zip3_getElem? dVal eA eB eC
    constructor
    · intro hyc
      have : dVals m a b c = zip3 dVal a b c := by unfold dVals; rw [B.corr, hyc]; rfl
      rw [this, hd] at eD
      have := Option.some.inj eD
      rw [← this]
      unfold dVal safeTiny
      rw [if_neg hb0]
      field_simp
    · intro hyc nb nd
      have : dVals m a b c = List.zipWith (· * ·) (zip3 dVal a b c) m.mcFactor := by
        unfold dVals; rw [B.corr, hyc]; rfl
      rw [this, List.getElem?_zipWith, hd, B.mc i kA kB kC kD hA hB hC hD] at eD
      have := Option.some.inj eD
      rw [← this]
      unfold dVal safeTiny mcFactor safe1
      rw [if_neg hb0, if_neg nb, if_neg nd]
      field_simp

/-- Every accepted model can be evaluated for every parameter vector of its length. -/
theorem c47_evaluates [Field V] [DecidableEq V] {inp : InData V} {proc : String} {rA rB rC rD : Region}
    {yc : Bool} {m : Model V} (h : abcdInit inp proc rA rB rC rD yc = .ok m) (x : List V) (full : Bool) :
    (∃ r, abcdCompute inp m x full = .ok r) ↔ x.length = 3 * m.n := by
  have B := abcdInit_built h
  unfold abcdCompute
  split_ifs with hx
  · simp [hx]
  push Not at hx
  simp only [hx, iff_true]
  have la := B.lA; have lb := B.lB; have lc := B.lC; have ld := B.lD; have lm := B.mcLen
  refine place_ok (by rw [B.procIdx]; exact List.idxOf_lt_length_iff.2 B.proc_mem) ?_ ?_
  · intro e he
    simp only [List.mem_cons, List.not_mem_nil, or_false] at he
    rcases he with rfl | rfl | rfl | rfl
    · unfold slice; simp; omega
    · unfold slice; simp; omega
    · unfold slice; simp; omega
    · unfold dVals zip3 slice; split_ifs <;> simp <;> omega
  · intro e he hact k hk
    simp only [List.mem_cons, List.not_mem_nil, or_false] at he
    have hb : ∀ r : Reg, r = m.A ∨ r = m.B ∨ r = m.C ∨ r = m.D → (full || r.active) = true → k ∈ r.bins →
        k < if full then inp.nbinsfull else inp.nbins := by
      intro r hr ha hk
      cases full with
      | true =>
        refine B.bound k ?_
        rcases hr with rfl | rfl | rfl | rfl <;> simp [hk]
      | false => exact (B.active r hr).1 (by simpa using ha) k hk
    rcases he with rfl | rfl | rfl | rfl
    exacts [hb m.A (by simp) hact hk, hb m.B (by simp) hact hk, hb m.C (by simp) hact hk, hb m.D (by simp) hact hk]

/-- Without yield correction the default values give rate one in every bin. -/
theorem c47_default [Field V] [DecidableEq V] {inp : InData V} {proc : String} {rA rB rC rD : Region}
    {m : Model V} (h : abcdInit inp proc rA rB rC rD false = .ok m) {full : Bool} {r : Rates V}
    (hr : abcdCompute inp m (abcdDefault m) full = .ok r)
    (hdis : (m.A.bins ++ m.B.bins ++ m.C.bins ++ m.D.bins).Nodup) (b q : Nat) : r.val b q = 1 := by
  have B := abcdInit_built h
  unfold abcdCompute at hr
  split_ifs at hr with hx
  push Not at hx
  have la := B.lA; have lb := B.lB; have lc := B.lC; have ld := B.lD
  have e1 : ∀ s t, t ≤ 3 * m.n → s + m.n = t →
      (slice (abcdDefault m) s t).map (· ^ 2) = List.replicate m.n (1 : V) := by
    intro s t ht hs
    unfold slice abcdDefault
    rw [List.drop_replicate, List.take_replicate, List.map_replicate]
    simp; omega
  rw [e1 0 m.n (by omega) (by omega), e1 m.n (2 * m.n) (by omega) (by omega),
    e1 (2 * m.n) (3 * m.n) (by omega) (by omega)] at hr
  have e2 : dVals m (List.replicate m.n 1) (List.replicate m.n 1) (List.replicate m.n 1) = List.replicate m.n (1 : V) := by
    unfold dVals; rw [B.corr]
    apply List.ext_getElem?
    intro i
    by_cases hi : i < m.n
    · have hg : (List.replicate m.n (1 : V))[i]? = some 1 := by simp [hi]
      simp only [Bool.false_eq_true, if_false]
      rw [zip3_getElem? dVal hg hg hg, hg]
      simp [dVal, safeTiny]
    · rw [List.getElem?_eq_none (by simp [zip3]; omega), List.getElem?_eq_none (by simp; omega)]
  dsimp only at hr
  rw [e2] at hr
  obtain ⟨s1, s2, s3, s4⟩ := place_spec hr (by
    intro e he
    simp only [List.mem_cons, List.not_mem_nil, or_false] at he
    rcases he with rfl | rfl | rfl | rfl <;> simp [la, lb, lc, ld])
  have s4 := s4 (by simpa [List.append_assoc] using hdis)
  by_cases hq : q = m.proc ∧ ∃ e ∈ [(m.A, List.replicate m.n (1 : V)), (m.B, List.replicate m.n (1 : V)),
      (m.C, List.replicate m.n (1 : V)), (m.D, List.replicate m.n (1 : V))], (full || e.1.active) = true ∧ b ∈ e.1.bins
  · obtain ⟨rfl, e, he, hact, hb⟩ := hq
    obtain ⟨i, hi⟩ := List.getElem?_of_mem hb
    have := s4 e he hact i b hi
    have h2 : e.2 = List.replicate m.n 1 := by
      simp only [List.mem_cons, List.not_mem_nil, or_false] at he
      rcases he with rfl | rfl | rfl | rfl <;> rfl
    rw [h2, List.getElem?_replicate] at this
    split_ifs at this
    exact (Option.some.inj this).symm
  · refine s3 b q ?_
    by_cases hq' : q = m.proc
    · right; intro e he hact hb; exact hq ⟨hq', e, he, hact, hb⟩
    · exact .inl hq'

/-- The parameters are named after the bins they scale: entry `i` of region A, B, C is the name of the cell whose bin is
the `i`-th of the region.  Restricted to bin numbers counted from the front. -/
theorem c47_names_partial [Field V] [DecidableEq V] {inp : InData V} {proc : String} {rD : Region} {yc : Bool}
    {m : Model V} {chA chB chC : String} {selA selB selC : Sel} {cA cB cC : Chan V}
    (h : abcdInit inp proc [(chA, selA)] [(chB, selB)] [(chC, selC)] rD yc = .ok m)
    (gA : inp.chans.get? chA = some cA) (gB : inp.chans.get? chB = some cB) (gC : inp.chans.get? chC = some cC)
    (hn : ∀ c, c = cA ∨ c = cB ∨ c = cC → (c.axes.map (·.name)).Nodup)
    (hk : ∀ s, s = selA ∨ s = selB ∨ s = selC → (Dict.keys s).Nodup)
    (hpos : ∀ s, s = selA ∨ s = selB ∨ s = selC → ∀ e ∈ s, 0 ≤ e.2) :
    ∃ LA LB LC, Cells cA.axes selA LA ∧ Cells cB.axes selB LB ∧ Cells cC.axes selC LC ∧
      m.A.bins = LA.map (fun i => cA.start + ravel (sizes cA.axes) i) ∧
      m.B.bins = LB.map (fun i => cB.start + ravel (sizes cB.axes) i) ∧
      m.C.bins = LC.map (fun i => cC.start + ravel (sizes cC.axes) i) ∧
      LA.length = m.n ∧ LB.length = m.n ∧ LC.length = m.n ∧ m.params.length = 3 * m.n ∧
      m.params = LA.map (cellName proc chA cA.axes) ++ LB.map (cellName proc chB cB.axes) ++
        LC.map (cellName proc chC cC.axes) := by
  have B := abcdInit_built h
  have hA := B.A; have hB := B.B; have hC := B.C
  have hp := B.params
  simp only [getGlobalIndices, gA, gB, gC] at hA hB hC
  simp only [regionNames, gA, gB, gC] at hp
  obtain ⟨LA, a1, a2, a3⟩ := c47_region cA proc chA selA (hn _ (by simp)) (hk _ (by simp)) (hpos _ (by simp)) _ hA
  obtain ⟨LB, b1, b2, b3⟩ := c47_region cB proc chB selB (hn _ (by simp)) (hk _ (by simp)) (hpos _ (by simp)) _ hB
  obtain ⟨LC, c1, c2, c3⟩ := c47_region cC proc chC selC (hn _ (by simp)) (hk _ (by simp)) (hpos _ (by simp)) _ hC
  rw [a3, b3, c3] at hp
  have la := B.lA; have lb := B.lB; have lc := B.lC
  rw [a2, List.length_map] at la
  rw [b2, List.length_map] at lb
  rw [c2, List.length_map] at lc
  exact ⟨LA, LB, LC, a1, b1, c1, a2, b2, c2, la, lb, lc, by rw [hp]; simp; omega, hp⟩

/-! ### six regions -/

theorem zip5_getElem? (f : V → V → V → V → V → V) {a b c d e : List V} {i : Nat} {x y z w u : V} (ha : a[i]? = some x)
    (hb : b[i]? = some y) (hc : c[i]? = some z) (hd : d[i]? = some w) (he : e[i]? = some u) :
    (zip5 f a b c d e)[i]? = some (f x y z w u) := by
  unfold zip5
  simp [List.getElem?_zipWith, List.zip, ha, hb, hc, hd, he]

theorem zip6_getElem? (f : V → V → V → V → V → V → V) {a b c d e g : List V} {i : Nat} {x y z w u v : V}
    (ha : a[i]? = some x) (hb : b[i]? = some y) (hc : c[i]? = some z) (hd : d[i]? = some w) (he : e[i]? = some u)
    (hg : g[i]? = some v) : (zip6 f a b c d e g)[i]? = some (f x y z w u v) := by
  unfold zip6
  simp [List.getElem?_zipWith, List.zip, ha, hb, hc, hd, he, hg]

/-- What the constructor of the six-region model stores. -/
structure XBuilt [Field V] [DecidableEq V] (inp : InData V) (proc : String) (rA rB rC rD rAx rBx : Region) (yc : Bool)
    (m : XModel V) : Prop where
  proc_mem : proc ∈ inp.procs
  procIdx : m.proc = inp.procs.idxOf proc
  corr : m.yieldCorr = yc
  A : getGlobalIndices inp.chans rA = .ok m.A.bins
  B : getGlobalIndices inp.chans rB = .ok m.B.bins
  C : getGlobalIndices inp.chans rC = .ok m.C.bins
  D : getGlobalIndices inp.chans rD = .ok m.D.bins
  Ax : getGlobalIndices inp.chans rAx = .ok m.Ax.bins
  Bx : getGlobalIndices inp.chans rBx = .ok m.Bx.bins
  lA : m.A.bins.length = m.n
  lB : m.B.bins.length = m.n
  lC : m.C.bins.length = m.n
  lD : m.D.bins.length = m.n
  lAx : m.Ax.bins.length = m.n
  lBx : m.Bx.bins.length = m.n
  mc : ∀ (i a b c d ax bx : Nat), m.A.bins[i]? = some a → m.B.bins[i]? = some b → m.C.bins[i]? = some c →
    m.D.bins[i]? = some d → m.Ax.bins[i]? = some ax → m.Bx.bins[i]? = some bx →
    m.mcFactor[i]? = some (xmcFactor (inp.norm a m.proc) (inp.norm b m.proc) (inp.norm c m.proc) (inp.norm d m.proc)
      (inp.norm ax m.proc) (inp.norm bx m.proc))
  mcLen : m.mcFactor.length = m.n

theorem xInit_built [Field V] [DecidableEq V] {inp : InData V} {proc : String} {rA rB rC rD rAx rBx : Region}
    {yc : Bool} {m : XModel V} (h : xInit inp proc rA rB rC rD rAx rBx yc = .ok m) :
    XBuilt inp proc rA rB rC rD rAx rBx yc m := by
  unfold xInit at h
  split_ifs at h with hp
  extract_lets p at h
  split at h
  · exact nomatch h
  rename_i iA hA
  split at h
  · exact nomatch h
  rename_i iB hB
  split at h
  · exact nomatch h
  rename_i iC hC
  split at h
  · exact nomatch h
  rename_i iD hD
  split at h
  · exact nomatch h
  rename_i iAx hAx
  split at h
  · exact nomatch h
  rename_i iBx hBx
  split_ifs at h with hlen
  split at h
  · rename_i a b c d ax bx ga gb gc gd gax gbx
    cases h
    have len : ∀ {idx : List Nat} {l : List V}, gather inp p idx = .ok l → l.length = idx.length := by
      intro idx l hg
      unfold gather at hg
      split_ifs at hg
      cases hg; simp
    refine ⟨by simpa using hp, rfl, rfl, hA, hB, hC, hD, hAx, hBx, rfl, by simp [mkReg]; omega, by simp [mkReg]; omega,
      by simp [mkReg]; omega, by simp [mkReg]; omega, by simp [mkReg]; omega, ?_, ?_⟩
    · intro i x y z w u v hx hy hz hw hu hv
      exact zip6_getElem? _ ((gather_spec ga).2 i x hx) ((gather_spec gb).2 i y hy) ((gather_spec gc).2 i z hz)
        ((gather_spec gd).2 i w hw) ((gather_spec gax).2 i u hu) ((gather_spec gbx).2 i v hv)
    · simp only [zip6, List.length_zipWith, List.length_zip, len ga, len gb, len gc, len gd, len gax, len gbx]
      omega
  · exact nomatch h

/-- The six-region model: the rate in D solves `rate_D · rate_Bx · rate_A² = rate_C · rate_Ax · rate_B²` (on the yields
with yield correction), squares of the parameters elsewhere in the regions, and one outside. -/
theorem c47_extended_partial [Field V] [DecidableEq V] {inp : InData V} {proc : String}
    {rA rB rC rD rAx rBx : Region} {yc : Bool} {m : XModel V} (h : xInit inp proc rA rB rC rD rAx rBx yc = .ok m)
    {x : List V} {full : Bool} {r : Rates V} (hr : xCompute inp m x full = .ok r)
    (hdis : (m.A.bins ++ m.B.bins ++ m.C.bins ++ m.D.bins ++ m.Ax.bins ++ m.Bx.bins).Nodup)
    (hact : (full || (m.A.active && m.B.active && m.C.active && m.D.active && m.Ax.active && m.Bx.active)) = true) :
    (∀ b q, (q ≠ inp.procs.idxOf proc ∨ (b ∉ m.A.bins ∧ b ∉ m.B.bins ∧ b ∉ m.C.bins ∧ b ∉ m.D.bins ∧
      b ∉ m.Ax.bins ∧ b ∉ m.Bx.bins)) → r.val b q = 1) ∧
    ∀ (i a b c d ax bx : Nat), m.A.bins[i]? = some a → m.B.bins[i]? = some b → m.C.bins[i]? = some c →
      m.D.bins[i]? = some d → m.Ax.bins[i]? = some ax → m.Bx.bins[i]? = some bx →
      x[i]?.map (· ^ 2) = some (r.val a m.proc) ∧ x[m.n + i]?.map (· ^ 2) = some (r.val b m.proc) ∧
      x[2 * m.n + i]?.map (· ^ 2) = some (r.val c m.proc) ∧ x[3 * m.n + i]?.map (· ^ 2) = some (r.val ax m.proc) ∧
      x[4 * m.n + i]?.map (· ^ 2) = some (r.val bx m.proc) ∧
      (x[i]? ≠ some 0 → x[4 * m.n + i]? ≠ some 0 →
        (yc = false → r.val d m.proc * r.val bx m.proc * r.val a m.proc ^ 2 =
          r.val c m.proc * r.val ax m.proc * r.val b m.proc ^ 2) ∧
        (yc = true → inp.norm a m.proc ≠ 0 → inp.norm bx m.proc ≠ 0 → inp.norm d m.proc ≠ 0 →
          (inp.norm d m.proc * r.val d m.proc) * (inp.norm bx m.proc * r.val bx m.proc) *
            (inp.norm a m.proc * r.val a m.proc) ^ 2 =
          (inp.norm c m.proc * r.val c m.proc) * (inp.norm ax m.proc * r.val ax m.proc) *
            (inp.norm b m.proc * r.val b m.proc) ^ 2)) := by
  have B := xInit_built h
  unfold xCompute at hr
  split_ifs at hr with hx
  push Not at hx
  have la := B.lA; have lb := B.lB; have lc := B.lC; have ld := B.lD; have lax := B.lAx; have lbx := B.lBx
  have lm := B.mcLen
  extract_lets a b c ax bx at hr
  have ha : a = (slice x 0 m.n).map (· ^ 2) := rfl
  have hb : b = (slice x m.n (2 * m.n)).map (· ^ 2) := rfl
  have hc : c = (slice x (2 * m.n) (3 * m.n)).map (· ^ 2) := rfl
  have hax : ax = (slice x (3 * m.n) (4 * m.n)).map (· ^ 2) := rfl
  have hbx : bx = (slice x (4 * m.n) (5 * m.n)).map (· ^ 2) := rfl
  clear_value a b c ax bx
  have l1 : a.length = m.n := by rw [ha]; exact sq_slice_length hx (by clear * -; omega) (by clear * -; omega)
  have l2 : b.length = m.n := by rw [hb]; exact sq_slice_length hx (by clear * -; omega) (by clear * -; omega)
  have l3 : c.length = m.n := by rw [hc]; exact sq_slice_length hx (by clear * -; omega) (by clear * -; omega)
  have l5 : ax.length = m.n := by rw [hax]; exact sq_slice_length hx (by clear * -; omega) (by clear * -; omega)
  have l6 : bx.length = m.n := by rw [hbx]; exact sq_slice_length hx (by clear * -; omega) (by clear * -; omega)
  have l4 : (xdVals m a b c ax bx).length = m.n := by
    unfold xdVals zip5; split_ifs <;> simp [l1, l2, l3, l5, l6, lm]
  obtain ⟨s1, s2, s3, s4⟩ := place_spec hr (by
    intro e he
    simp only [List.mem_cons, List.not_mem_nil, or_false] at he
    rcases he with rfl | rfl | rfl | rfl | rfl | rfl <;>
      simp only [la, lb, lc, ld, lax, lbx, l1, l2, l3, l4, l5, l6])
  have s4 := s4 (by simpa [List.append_assoc] using hdis)
  have ga : ∀ i, i < m.n → a[i]? = x[i]?.map (· ^ 2) := fun i hi => by
    rw [ha, List.getElem?_map, slice_getElem? (by clear * - hi; omega)]; simp
  have gb : ∀ i, i < m.n → b[i]? = x[m.n + i]?.map (· ^ 2) := fun i hi => by
    rw [hb, List.getElem?_map, slice_getElem? (by clear * - hi; omega)]
  have gc : ∀ i, i < m.n → c[i]? = x[2 * m.n + i]?.map (· ^ 2) := fun i hi => by
    rw [hc, List.getElem?_map, slice_getElem? (by clear * - hi; omega)]
  have gax : ∀ i, i < m.n → ax[i]? = x[3 * m.n + i]?.map (· ^ 2) := fun i hi => by
    rw [hax, List.getElem?_map, slice_getElem? (by clear * - hi; omega)]
  have gbx : ∀ i, i < m.n → bx[i]? = x[4 * m.n + i]?.map (· ^ 2) := fun i hi => by
    rw [hbx, List.getElem?_map, slice_getElem? (by clear * - hi; omega)]
  refine ⟨fun k q hk => s3 k q ?_, fun i kA kB kC kD kX kY hA hB hC hD hX hY => ?_⟩
  · rcases hk with hk | ⟨h1, h2, h3, h4, h5, h6⟩
    · exact .inl (by rw [B.procIdx]; exact hk)
    · right
      intro e he _
      simp only [List.mem_cons, List.not_mem_nil, or_false] at he
      rcases he with rfl | rfl | rfl | rfl | rfl | rfl <;> assumption
  · have act : ∀ q : Reg, q = m.A ∨ q = m.B ∨ q = m.C ∨ q = m.D ∨ q = m.Ax ∨ q = m.Bx → (full || q.active) = true := by
      clear * - hact
      intro q hq
      rw [Bool.or_eq_true] at hact ⊢
      rcases hact with h | h
      · exact .inl h
      · simp only [Bool.and_eq_true] at h
        rcases hq with rfl | rfl | rfl | rfl | rfl | rfl
        exacts [.inr h.1.1.1.1.1, .inr h.1.1.1.1.2, .inr h.1.1.1.2, .inr h.1.1.2, .inr h.1.2, .inr h.2]
    have hi : i < m.n := by rw [← la]; exact (List.getElem?_eq_some_iff.1 hA).1
    have eA := s4 (m.A, a) (by simp) (act _ (by simp)) i kA hA
    have eB := s4 (m.B, b) (by simp) (act _ (by simp)) i kB hB
    have eC := s4 (m.C, c) (by simp) (act _ (by simp)) i kC hC
    have eD := s4 (m.D, xdVals m a b c ax bx) (by simp) (act _ (by simp)) i kD hD
    have eX := s4 (m.Ax, ax) (by simp) (act _ (by simp)) i kX hX
    have eY := s4 (m.Bx, bx) (by simp) (act _ (by simp)) i kY hY
    dsimp only at eA eB eC eD eX eY
    refine ⟨by rw [← ga i hi]; exact eA, by rw [← gb i hi]; exact eB, by rw [← gc i hi]; exact eC,
      by rw [← gax i hi]; exact eX, by rw [← gbx i hi]; exact eY, fun hna hny => ?_⟩
    have ha0 : r.val kA m.proc ≠ 0 := by
      have := eA
      rw [ga i hi, Option.map_eq_some_iff] at this
      obtain ⟨v, hv, he⟩ := this
      rw [← he]
      exact pow_ne_zero 2 fun h0 => hna (h0 ▸ hv)
    have hy0 : r.val kY m.proc ≠ 0 := by
      have := eY
      rw [gbx i hi, Option.map_eq_some_iff] at this
      obtain ⟨v, hv, he⟩ := this
      rw [← he]
      exact pow_ne_zero 2 fun h0 => hny (h0 ▸ hv)
    have hd := zip5_getElem? xdVal eA eB eC eX eY
    constructor
    · intro hyc
      have : xdVals m a b c ax bx = zip5 xdVal a b c ax bx := by unfold xdVals; rw [B.corr, hyc]; rfl
      rw [this, hd] at eD
      have := Option.some.inj eD
      rw [← this]
      unfold xdVal safeTiny
      rw [if_neg ha0, if_neg hy0]
      field_simp
    · intro hyc na nbx nd
      have : xdVals m a b c ax bx = List.zipWith (· * ·) (zip5 xdVal a b c ax bx) m.mcFactor := by
        unfold xdVals; rw [B.corr, hyc]; rfl
      rw [this, List.getElem?_zipWith, hd, B.mc i kA kB kC kD kX kY hA hB hC hD hX hY] at eD
      have := Option.some.inj eD
      rw [← this]
      unfold xdVal safeTiny xmcFactor safe1
      rw [if_neg ha0, if_neg hy0, if_neg na, if_neg nbx, if_neg nd]
      field_simp

/-! ### wrappers in the mt × relIso plane -/

/-- The wrapper takes the last two mt bins and the first two relIso bins of the channel; a channel with at least two bins
on both axes is accepted (given the templates cover it) and its four regions are disjoint. -/
theorem c47_isomt [Field V] [DecidableEq V] {inp : InData V} {proc ch : String} {yc : Bool} {m : Model V}
    {c : Chan V} (h : abcdIsoMT inp proc ch yc = .ok m) (hc : inp.chans.get? ch = some c)
    (hn : (c.axes.map (·.name)).Nodup) :
    ∃ mt ∈ c.axes, mt.name = "mt" ∧ 2 ≤ mt.size ∧
      Built inp proc [(ch, [("relIso", 1), ("mt", (mt.size : Int) - 2)])] [(ch, [("relIso", 0), ("mt", (mt.size : Int) - 2)])]
        [(ch, [("relIso", 1), ("mt", (mt.size : Int) - 1)])] [(ch, [("relIso", 0), ("mt", (mt.size : Int) - 1)])] yc m ∧
      (m.A.bins ++ m.B.bins ++ m.C.bins ++ m.D.bins).Nodup := by
  unfold abcdIsoMT isomtRegions at h
  rw [hc] at h
  dsimp only at h
  cases hm : c.axes.find? fun a => decide (a.name = "mt") with
  | none => rw [hm] at h; exact nomatch h
  | some mt =>
    cases hi : c.axes.find? fun a => decide (a.name = "relIso") with
    | none => rw [hm, hi] at h; exact nomatch h
    | some iso =>
      rw [hm, hi] at h
      dsimp only at h
      split_ifs at h with hlt
      have B := abcdInit_built h
      refine ⟨mt, List.mem_of_find?_eq_some hm, by simpa using List.find?_some hm, by omega, B, ?_⟩
      have gA := B.A; have gB := B.B; have gC := B.C; have gD := B.D
      simp only [isoReg, getGlobalIndices, hc] at gA gB gC gD
      have pos : ∀ (v w : Int), 0 ≤ v → 0 ≤ w → ∀ s ∈ ([("relIso", v), ("mt", w)] : Sel), 0 ≤ s.2 := by
        intro v w hv hw s hs
        simp only [List.mem_cons, List.not_mem_nil, or_false] at hs
        rcases hs with rfl | rfl <;> assumption
      have keys : ∀ (v w : Int), (Dict.keys ([("relIso", v), ("mt", w)] : Sel)).Nodup := by
        intro v w; simp [Dict.keys]
      have nd : ∀ {v w : Int} {bins : List Nat}, 0 ≤ v → 0 ≤ w →
          localIndices c [("relIso", v), ("mt", w)] = .ok bins → bins.Nodup := fun hv hw hb =>
        c47_region_nodup c _ hn (keys _ _) (pos _ _ hv hw) hb
      have dj : ∀ {v w v' w' : Int} {bins bins' : List Nat}, 0 ≤ v → 0 ≤ w → 0 ≤ v' → 0 ≤ w' →
          (v ≠ v' ∨ w ≠ w') → localIndices c [("relIso", v), ("mt", w)] = .ok bins →
          localIndices c [("relIso", v'), ("mt", w')] = .ok bins' → ∀ b ∈ bins, b ∉ bins' := by
        intro v w v' w' bins bins' hv hw hv' hw' hne hb hb'
        rcases hne with hne | hne
        · exact c47_disjoint c _ _ hn (keys _ _) (keys _ _) (pos _ _ hv hw) (pos _ _ hv' hw') hb hb'
            (n := "relIso") (by simp) (by simp) hne
        · exact c47_disjoint c _ _ hn (keys _ _) (keys _ _) (pos _ _ hv hw) (pos _ _ hv' hw') hb hb'
            (n := "mt") (by simp) (by simp) hne
      have z0 : (0 : Int) ≤ 0 := le_refl _
      have z1 : (0 : Int) ≤ 1 := by omega
      have m2 : (0 : Int) ≤ mt.size - 2 := by omega
      have m1 : (0 : Int) ≤ mt.size - 1 := by omega
      have dAB := dj z1 m2 z0 m2 (.inl (by omega)) gA gB
      have dAC := dj z1 m2 z1 m1 (.inr (by omega)) gA gC
      have dAD := dj z1 m2 z0 m1 (.inl (by omega)) gA gD
      have dBC := dj z0 m2 z1 m1 (.inl (by omega)) gB gC
      have dBD := dj z0 m2 z0 m1 (.inr (by omega)) gB gD
      have dCD := dj z1 m1 z0 m1 (.inl (by omega)) gC gD
      simp only [List.append_assoc, List.nodup_append, List.mem_append]
      refine ⟨nd z1 m2 gA, ⟨nd z0 m2 gB, ⟨nd z1 m1 gC, nd z0 m1 gD, ?_⟩, ?_⟩, ?_⟩
      · intro a ha b hb hab; subst hab; exact dCD a ha hb
      · rintro a ha b (hb | hb) hab <;> subst hab
        exacts [dBC a ha hb, dBD a ha hb]
      · rintro a ha b (hb | hb | hb) hab <;> subst hab
        exacts [dAB a ha hb, dAC a ha hb, dAD a ha hb]

/-! ### a case, and violations -/

namespace Ex

/-- one channel with axes x (3 bins), relIso (2) and mt (3), two processes -/
def chan : Chan ℚ := ⟨[⟨"x", 3, 3, [], []⟩, ⟨"relIso", 2, 2, [], []⟩, ⟨"mt", 3, 3, [], []⟩], 4, false, false⟩
def inp : InData ℚ :=
  ⟨["sig", "fake"], [("first", ⟨[⟨"y", 4, 4, [], []⟩], 0, false, false⟩), ("ch", chan)], 22, 22, fun b p => b + p + 1⟩

def run (yc : Bool) (x : List ℚ) : Option (List Nat × List String × List ℚ) :=
  (abcdIsoMT inp "fake" "ch" yc).toOption.bind fun m =>
    (abcdCompute inp m x false).toOption.map fun r => (m.D.bins, m.params, (List.range 22).map fun b => r.val b 1)

example : run false [1, 2, 3, 1, 2, 1, 1, 1, 2] =
    some ([6, 12, 18],
      ["fake_ch_x0_relIso1_mt1", "fake_ch_x1_relIso1_mt1", "fake_ch_x2_relIso1_mt1",
       "fake_ch_x0_relIso0_mt1", "fake_ch_x1_relIso0_mt1", "fake_ch_x2_relIso0_mt1",
       "fake_ch_x0_relIso1_mt2", "fake_ch_x1_relIso1_mt2", "fake_ch_x2_relIso1_mt2"],
      [1, 1, 1, 1, 1, 1, 1, 1, 1, 1, 1, 4, 1, 1, 4, 1, 1, 1, 36, 1, 9, 4]) := by decide +kernel
example : (chan.axes.map (·.name)).Nodup := by decide
example : run true [1, 2, 3, 1, 2, 1, 1, 1, 2] ≠ run false [1, 2, 3, 1, 2, 1, 1, 1, 2] := by decide +kernel

/-- regions taken as bin numbers on one axis -/
def reg (k : Int) : Region := [("first", [("y", k)])]

end Ex

/-- When the parameter of region B vanishes, the code divides by `1e-10` instead, and the relation fails. -/
theorem c47_zero_denominator_violated :
    ∃ (inp : InData ℚ) (m : Model ℚ) (x : List ℚ) (r : Rates ℚ) (a b c d : Nat),
      abcdInit inp "fake" (Ex.reg 0) (Ex.reg 1) (Ex.reg 2) (Ex.reg 3) false = .ok m ∧
      (m.A.bins ++ m.B.bins ++ m.C.bins ++ m.D.bins).Nodup ∧ abcdCompute inp m x true = .ok r ∧
      m.A.bins[0]? = some a ∧ m.B.bins[0]? = some b ∧ m.C.bins[0]? = some c ∧ m.D.bins[0]? = some d ∧
      r.val a m.proc * r.val c m.proc ≠ r.val b m.proc * r.val d m.proc := by
  refine ⟨Ex.inp, _, [1, 0, 1], _, 0, 1, 2, 3, rfl, by decide, rfl, rfl, rfl, rfl, rfl, ?_⟩
  decide +kernel

/-- When the template of region D is empty, the yield correction cannot restore the relation. -/
theorem c47_empty_template_violated :
    ∃ (inp : InData ℚ) (m : Model ℚ) (x : List ℚ) (r : Rates ℚ) (a b c d : Nat),
      abcdInit inp "fake" (Ex.reg 0) (Ex.reg 1) (Ex.reg 2) (Ex.reg 3) true = .ok m ∧
      (m.A.bins ++ m.B.bins ++ m.C.bins ++ m.D.bins).Nodup ∧ abcdCompute inp m x true = .ok r ∧
      m.A.bins[0]? = some a ∧ m.B.bins[0]? = some b ∧ m.C.bins[0]? = some c ∧ m.D.bins[0]? = some d ∧
      (∀ v ∈ x, v ≠ 0) ∧
      (inp.norm a m.proc * r.val a m.proc) * (inp.norm c m.proc * r.val c m.proc) ≠
        (inp.norm b m.proc * r.val b m.proc) * (inp.norm d m.proc * r.val d m.proc) := by
  refine ⟨{ Ex.inp with norm := fun b _ => if b = 3 then 0 else 1 }, _, [1, 1, 1], _, 0, 1, 2, 3, rfl, by decide, rfl,
    rfl, rfl, rfl, rfl, by decide +kernel, ?_⟩
  decide +kernel

/-- A bin number counted from the back selects bins but yields no parameter name: the model has three parameters and only
two names. -/
theorem c47_negative_index_violated :
    ∃ (inp : InData ℚ) (m : Model ℚ),
      abcdInit inp "fake" (Ex.reg (-4)) (Ex.reg 1) (Ex.reg 2) (Ex.reg 3) false = .ok m ∧
      m.A.bins = [0] ∧ (abcdDefault m).length = 3 ∧ m.params.length = 2 := by
  refine ⟨Ex.inp, _, rfl, by decide +kernel, by decide +kernel, by decide +kernel⟩

/-- In a channel stored with flow bins the sizes without flow are used, so that the indices are those of other bins. -/
theorem c47_flow_violated :
    ∃ (c : Chan ℚ) (sel : Sel) (bins : List Nat), localIndices c sel = .ok bins ∧ (c.axes.map (·.name)).Nodup ∧
      ∃ L, Cells c.axes sel L ∧ bins ≠ L.map (bin c) := by
  have h : localIndices (⟨[⟨"x", 2, 4, [], []⟩, ⟨"y", 2, 4, [], []⟩], 0, true, false⟩ : Chan ℚ) [("x", 1), ("y", 1)] = .ok [3] := rfl
  have hn : ((⟨[⟨"x", 2, 4, [], []⟩, ⟨"y", 2, 4, [], []⟩], 0, true, false⟩ : Chan ℚ).axes.map (·.name)).Nodup := by decide
  refine ⟨_, _, _, h, hn, ?_⟩
  obtain ⟨L, hL, hb, -⟩ := c47_region _ "" "" _ hn (by decide) (by decide) _ h
  refine ⟨L, hL, ?_⟩
  cases L with
  | nil => simp at hb
  | cons i L =>
    cases L with
    | cons => simp at hb
    | nil =>
      obtain ⟨g, hc⟩ := (hL.mem i).1 (by simp)
      cases g with
      | cons h1 g => cases g with
        | cons h2 g => cases g with
          | nil =>
            have e1 := hc ("x", 1) (by simp) 0 _ rfl rfl
            have e2 := hc ("y", 1) (by simp) 1 _ rfl rfl
            simp at e1 e2
            subst_vars
            simp [bin, Chan.shape, ravel]
end Verif.ABCD
