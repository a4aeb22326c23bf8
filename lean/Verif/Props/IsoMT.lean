import Verif.Props.ABCD

/-
C47: the six-region wrapper in the mt × relIso plane.
-/

namespace Verif.ABCD

variable {V : Type}

/-- C47.  The extended wrapper takes the last three mt bins and the first two relIso bins of the channel: signal,
sideband and far sideband in mt; a channel with fewer than three mt bins is refused; the six regions are disjoint. -/
theorem c47_isomt_extended [Field V] [DecidableEq V] {inp : InData V} {proc ch : String} {yc : Bool} {c : Chan V}
    (hc : inp.chans.get? ch = some c) (hn : (c.axes.map (·.name)).Nodup) :
    (∀ mt ∈ c.axes, mt.name = "mt" → mt.size < 3 → ∃ e, xIsoMT inp proc ch yc = .error e) ∧
    ∀ m, xIsoMT inp proc ch yc = .ok m →
    ∃ mt ∈ c.axes, mt.name = "mt" ∧ 3 ≤ mt.size ∧
      XBuilt inp proc [(ch, [("relIso", 1), ("mt", (mt.size : Int) - 2)])] [(ch, [("relIso", 0), ("mt", (mt.size : Int) - 2)])]
        [(ch, [("relIso", 1), ("mt", (mt.size : Int) - 1)])] [(ch, [("relIso", 0), ("mt", (mt.size : Int) - 1)])]
        [(ch, [("relIso", 1), ("mt", (mt.size : Int) - 3)])] [(ch, [("relIso", 0), ("mt", (mt.size : Int) - 3)])] yc m ∧
      (m.A.bins ++ m.B.bins ++ m.C.bins ++ m.D.bins ++ m.Ax.bins ++ m.Bx.bins).Nodup := by
  constructor
  · intro mt hmt hname hsz
    unfold xIsoMT isomtRegions
    rw [hc]
    dsimp only
    cases hm : c.axes.find? fun a => decide (a.name = "mt") with
    | none => exact ⟨_, rfl⟩
    | some mt' =>
      have : mt' = mt := List.inj_on_of_nodup_map hn (List.mem_of_find?_eq_some hm) hmt
        ((by simpa using List.find?_some hm : mt'.name = "mt").trans hname.symm)
      subst this
      cases hi : c.axes.find? fun a => decide (a.name = "relIso") with
      | none => exact ⟨_, rfl⟩
      | some iso =>
        refine ⟨.value, ?_⟩
        dsimp only
        rw [if_pos (by omega)]
  · intro m h
    unfold xIsoMT isomtRegions at h
    rw [hc] at h
    dsimp only at h
    cases hm : c.axes.find? fun a => decide (a.name = "mt") with
    | none => rw [hm] at h; exact nomatch h
    | some mt =>
      cases hi : c.axes.find? fun a => decide (a.name = "relIso") with
      | none => rw [hm, hi] at h; exact nomatch h
      | some iso =>
        rw [hm, hi] at h
        dsimp only at h
        split_ifs at h with hlt
        have B := xInit_built h
        refine ⟨mt, List.mem_of_find?_eq_some hm, by simpa using List.find?_some hm, by omega, B, ?_⟩
        have gA := B.A; have gB := B.B; have gC := B.C; have gD := B.D; have gX := B.Ax; have gY := B.Bx
        simp only [isoReg, getGlobalIndices, hc] at gA gB gC gD gX gY
        have pos : ∀ (v w : Int), 0 ≤ v → 0 ≤ w → ∀ s ∈ ([("relIso", v), ("mt", w)] : Sel), 0 ≤ s.2 := by
          intro v w hv hw s hs
          simp only [List.mem_cons, List.not_mem_nil, or_false] at hs
          rcases hs with rfl | rfl <;> assumption
        have keys : ∀ (v w : Int), (Dict.keys ([("relIso", v), ("mt", w)] : Sel)).Nodup := by
          intro v w; simp [Dict.keys]
        have nd : ∀ {v w : Int} {bins : List Nat}, 0 ≤ v → 0 ≤ w →
            localIndices c [("relIso", v), ("mt", w)] = .ok bins → bins.Nodup := fun hv hw hb =>
          c47_region_nodup c _ hn (keys _ _) (pos _ _ hv hw) hb
        have dj : ∀ {v w v' w' : Int} {bins bins' : List Nat}, 0 ≤ v → 0 ≤ w → 0 ≤ v' → 0 ≤ w' →
            (v ≠ v' ∨ w ≠ w') → localIndices c [("relIso", v), ("mt", w)] = .ok bins →
            localIndices c [("relIso", v'), ("mt", w')] = .ok bins' → ∀ b ∈ bins, b ∉ bins' := by
          intro v w v' w' bins bins' hv hw hv' hw' hne hb hb'
          rcases hne with hne | hne
          · exact c47_disjoint c _ _ hn (keys _ _) (keys _ _) (pos _ _ hv hw) (pos _ _ hv' hw') hb hb'
              (n := "relIso") (by simp) (by simp) hne
          · exact c47_disjoint c _ _ hn (keys _ _) (keys _ _) (pos _ _ hv hw) (pos _ _ hv' hw') hb hb'
              (n := "mt") (by simp) (by simp) hne
        have z0 : (0 : Int) ≤ 0 := le_refl _
        have z1 : (0 : Int) ≤ 1 := by omega
        have m3 : (0 : Int) ≤ mt.size - 3 := by omega
        have m2 : (0 : Int) ≤ mt.size - 2 := by omega
        have m1 : (0 : Int) ≤ mt.size - 1 := by omega
        have dAB := dj z1 m2 z0 m2 (.inl (by omega)) gA gB
        have dAC := dj z1 m2 z1 m1 (.inr (by omega)) gA gC
        have dAD := dj z1 m2 z0 m1 (.inl (by omega)) gA gD
        have dBC := dj z0 m2 z1 m1 (.inl (by omega)) gB gC
        have dBD := dj z0 m2 z0 m1 (.inr (by omega)) gB gD
        have dCD := dj z1 m1 z0 m1 (.inl (by omega)) gC gD
        have dAX := dj z1 m2 z1 m3 (.inr (by omega)) gA gX
        have dAY := dj z1 m2 z0 m3 (.inl (by omega)) gA gY
        have dBX := dj z0 m2 z1 m3 (.inl (by omega)) gB gX
        have dBY := dj z0 m2 z0 m3 (.inr (by omega)) gB gY
        have dCX := dj z1 m1 z1 m3 (.inr (by omega)) gC gX
        have dCY := dj z1 m1 z0 m3 (.inl (by omega)) gC gY
        have dDX := dj z0 m1 z1 m3 (.inl (by omega)) gD gX
        have dDY := dj z0 m1 z0 m3 (.inr (by omega)) gD gY
        have dXY := dj z1 m3 z0 m3 (.inl (by omega)) gX gY
        simp only [List.append_assoc, List.nodup_append, List.mem_append]
        refine ⟨nd z1 m2 gA, ⟨nd z0 m2 gB, ⟨nd z1 m1 gC, ⟨nd z0 m1 gD, ⟨nd z1 m3 gX, nd z0 m3 gY, ?_⟩, ?_⟩, ?_⟩, ?_⟩, ?_⟩
        · intro a ha b hb hab; subst hab; exact dXY a ha hb
        · rintro a ha b (hb | hb) hab <;> subst hab
          exacts [dDX a ha hb, dDY a ha hb]
        · rintro a ha b (hb | hb | hb) hab <;> subst hab
          exacts [dCD a ha hb, dCX a ha hb, dCY a ha hb]
        · rintro a ha b (hb | hb | hb | hb) hab <;> subst hab
          exacts [dBC a ha hb, dBD a ha hb, dBX a ha hb, dBY a ha hb]
        · rintro a ha b (hb | hb | hb | hb | hb) hab <;> subst hab
          exacts [dAB a ha hb, dAC a ha hb, dAD a ha hb, dAX a ha hb, dAY a ha hb]

/-- the channel of the example of the four-region wrapper has three mt bins and is accepted -/
example : ((xIsoMT Ex.inp "fake" "ch" false).toOption.map fun m => (m.A.bins, m.D.bins, m.Ax.bins)) =
    some ([8, 14, 20], [6, 12, 18], [7, 13, 19]) := by decide +kernel

end Verif.ABCD
