import Verif.Model.ResultFile
import Verif.Lemmas.Py
import Verif.Props.CovPlot

/-
C87: the results file (rabbit/workspace.py): path, nested results, groups, histograms with flow bins.
-/

namespace Verif.ResultFile

open Verif.Grid

/-! ## specification -/

namespace Spec

/-- the postfix as part of the name of the file -/
def post : Option (List Char) → List Char
  | none => []
  | some q => '_' :: q

/-- names of objects: not those of the dictionaries of mappings and channels -/
def Name (key : String) : Prop := key ≠ "mappings" ∧ key ≠ "channels"

/-- the object stored last for a mapping, channel and name -/
def last {α : Type} (l : List (Dump α)) (m c : Option String) (key : String) : Option α :=
  (l.reverse.find? fun x => decide (x.mapping = m ∧ x.channel = c ∧ x.key = key)).map (·.obj)

end Spec

/-! ## path -/

theorem rsplit_eq (c : Char) (a b : List Char) (h : c ∉ b) : rsplit c (a ++ c :: b) = some (a, b) := by
  unfold rsplit
  rw [if_pos (by simp), List.reverse_append, List.reverse_cons, List.append_assoc]
  have h1 : ∀ x ∈ b.reverse, (decide (x ≠ c)) = true := fun x hx => by
    rw [decide_eq_true_eq]
    rintro rfl
    exact h (List.mem_reverse.1 hx)
  rw [List.dropWhile_append_of_pos h1, List.takeWhile_append_of_pos h1]
  simp

theorem join_append (dir name s : List Char) (h : name ≠ []) : joinPath dir (name ++ s) = joinPath dir name ++ s := by
  unfold joinPath
  rcases name with _ | ⟨x, name⟩
  · exact absurd rfl h
  · rw [List.cons_append, List.head?_cons, List.head?_cons]
    split
    · rfl
    · split <;> simp

/-- C87.  Name of the file without a dot: the extension is added, the postfix is before it. -/
theorem c87_path (outdir outname : List Char) (suffix : Option (List Char)) (hne : outname ≠ []) (hd : '.' ∉ outname) :
    filePath outdir outname suffix = .ok (joinPath outdir (outname ++ Spec.post suffix ++ ".hdf5".toList)) := by
  unfold filePath
  dsimp only
  rw [if_neg hd, List.append_assoc, join_append outdir outname _ hne]
  rcases suffix with _ | q
  · simp [Spec.post]
  · show (match rsplit '.' (joinPath outdir outname ++ '.' :: "hdf5".toList) with | none => _ | some (a, b) => _) = _
    rw [rsplit_eq '.' _ _ (by decide +kernel)]
    show Except.ok (_ ++ '_' :: q ++ _) = Except.ok (_ ++ ('_' :: q ++ _))
    rw [List.append_assoc]
    rfl

/-- C87.  Name of the file with an extension: it is kept, the postfix is before it. -/
theorem c87_path_ext (outdir base ext : List Char) (suffix : Option (List Char)) (hne : base ≠ []) (he : '.' ∉ ext) :
    filePath outdir (base ++ '.' :: ext) suffix = .ok (joinPath outdir (base ++ Spec.post suffix ++ '.' :: ext)) := by
  unfold filePath
  dsimp only
  rw [if_pos (by simp), join_append outdir base _ hne, List.append_assoc, join_append outdir base _ hne]
  rcases suffix with _ | q
  · rfl
  · show (match rsplit '.' (joinPath outdir base ++ '.' :: ext) with | none => _ | some (a, b) => _) = _
    rw [rsplit_eq '.' _ _ he]
    show Except.ok (_ ++ '_' :: q ++ _) = Except.ok (_ ++ ('_' :: q ++ _))
    rw [List.append_assoc]

theorem dirname_eq (a b : List Char) (h : '/' ∉ b) : dirname (a ++ '/' :: b) = a := by
  unfold dirname
  rw [rsplit_eq '/' a b h]
  rfl

/-- C87.  The directory of the file is the one that is made before, for names whose part after the last slash has a dot or no part of which has one. -/
theorem c87_dir (outdir d base ext : List Char) (suffix : Option (List Char)) (hd : d ≠ []) (hs : '/' ∉ base) (hs' : '/' ∉ ext) (he : '.' ∉ ext)
    (hq : ∀ q, suffix = some q → '/' ∉ q) :
    (∃ p, filePath outdir (d ++ '/' :: base ++ '.' :: ext) suffix = .ok p ∧ dirname p = madeDir outdir (d ++ '/' :: base ++ '.' :: ext)) ∧
    ('.' ∉ d → '.' ∉ base → ∃ p, filePath outdir (d ++ '/' :: base) suffix = .ok p ∧ dirname p = madeDir outdir (d ++ '/' :: base)) := by
  have hne : d ++ '/' :: base ≠ [] := by simp
  have hp : '/' ∉ Spec.post suffix := by
    rcases suffix with _ | q
    · simp [Spec.post]
    · have := hq q rfl
      simp [Spec.post, this]
  have e1 : ∀ e, d ++ '/' :: base ++ Spec.post suffix ++ e = d ++ '/' :: (base ++ Spec.post suffix ++ e) := by simp
  have e2 : d ++ '/' :: base ++ '.' :: ext = d ++ '/' :: (base ++ '.' :: ext) := by simp
  refine ⟨⟨_, c87_path_ext outdir (d ++ '/' :: base) ext suffix hne he, ?_⟩, fun h1 h2 => ⟨_, c87_path outdir (d ++ '/' :: base) suffix hne ?_, ?_⟩⟩
  · unfold madeDir
    rw [e1, e2, join_append outdir d _ hd, join_append outdir d _ hd, dirname_eq _ _ (by simp [hs, hs', hp]), dirname_eq _ _ (by simp [hs, hs'])]
  · simp [h1, h2]
  · unfold madeDir
    have hx : '/' ∉ ".hdf5".toList := by decide +kernel
    generalize ".hdf5".toList = x at hx
    rw [e1, join_append outdir d _ hd, join_append outdir d _ hd, dirname_eq _ _ (by simp [hs, hp, hx]), dirname_eq _ _ hs]

/-- C87 fails for names with a dot in a directory only (`v1.2/fit`): no extension is added, and the postfix is put into the name of the directory, which
is another one than that made before. -/
theorem c87_path_violated (outdir d1 d2 f q : List Char) (hne : d1 ≠ []) (h2 : '.' ∉ d2) (hf : '.' ∉ f) :
    filePath outdir (d1 ++ '.' :: d2 ++ '/' :: f) none = .ok (joinPath outdir (d1 ++ '.' :: d2 ++ '/' :: f)) ∧
    filePath outdir (d1 ++ '.' :: d2 ++ '/' :: f) (some q) = .ok (joinPath outdir (d1 ++ '_' :: q ++ '.' :: d2 ++ '/' :: f)) ∧
    ('/' ∉ f → madeDir outdir (d1 ++ '.' :: d2 ++ '/' :: f) = joinPath outdir (d1 ++ '.' :: d2) ∧
      dirname (joinPath outdir (d1 ++ '_' :: q ++ '.' :: d2 ++ '/' :: f)) = joinPath outdir (d1 ++ '_' :: q ++ '.' :: d2) ∧
      joinPath outdir (d1 ++ '_' :: q ++ '.' :: d2) ≠ joinPath outdir (d1 ++ '.' :: d2)) := by
  have e : d1 ++ '.' :: d2 ++ '/' :: f = d1 ++ '.' :: (d2 ++ '/' :: f) := by simp
  have hd : '.' ∉ d2 ++ '/' :: f := by simp [h2, hf]
  have a1 := c87_path_ext outdir d1 (d2 ++ '/' :: f) none hne hd
  have a2 := c87_path_ext outdir d1 (d2 ++ '/' :: f) (some q) hne hd
  refine ⟨?_, ?_, fun hs => ⟨?_, ?_, ?_⟩⟩
  · rw [e, a1]
    simp [Spec.post]
  · rw [e, a2]
    simp [Spec.post]
  · unfold madeDir
    rw [join_append outdir _ ('/' :: f) (by simp), dirname_eq _ _ hs]
  · rw [join_append outdir _ ('/' :: f) (by simp), dirname_eq _ _ hs]
  · intro h
    have hl := congrArg List.length h
    rw [List.append_assoc, join_append outdir d1 _ hne, join_append outdir d1 _ hne] at hl
    simp at hl
    omega

/-! ## results -/

variable {α : Type}

theorem lookup_nil (q : List String) (key : String) : lookup q key ([] : Dict String (Node α)) = none := by
  cases q <;> rfl

theorem lookup_dumpAt (p : List String) (key : String) (x : α) (d d' : Dict String (Node α)) (h : dumpAt p key x d = .ok d') :
    lookup p key d' = some x := by
  induction p generalizing d d' with
  | nil =>
    cases h
    unfold lookup
    rw [Dict.get?_set_self]
  | cons k p ih =>
    unfold dumpAt at h
    split at h
    · obtain ⟨s, h1, rfl⟩ := CovPlot.map_ok h
      unfold lookup
      rw [Dict.get?_set_self]
      exact ih _ _ h1
    · obtain ⟨s, h1, rfl⟩ := CovPlot.map_ok h
      unfold lookup
      rw [Dict.get?_set_self]
      exact ih _ _ h1
    · cases h

theorem lookup_dumpAt_ne (p : List String) (key : String) (x : α) (d d' : Dict String (Node α)) (h : dumpAt p key x d = .ok d') (q : List String)
    (key' : String) (hq : ¬ (p ++ [key]).IsPrefix (q ++ [key'])) : lookup q key' d' = lookup q key' d := by
  induction p generalizing d d' q with
  | nil =>
    cases h
    rcases q with _ | ⟨k, q⟩
    · have : key ≠ key' := by
        rintro rfl
        exact hq (List.prefix_refl _)
      unfold lookup
      rw [Dict.get?_set_ne _ _ this]
    · have : key ≠ k := by
        rintro rfl
        exact hq ⟨q ++ [key'], rfl⟩
      unfold lookup
      rw [Dict.get?_set_ne _ _ this]
  | cons k p ih =>
    have key0 : ∀ s s', dumpAt p key x s = .ok s' → (∀ q, lookup q key' s = match Dict.get? d k with | some (.dict s) => lookup q key' s | _ => none) →
        (Dict.get? d k = none ∨ ∃ s, Dict.get? d k = some (.dict s)) → lookup q key' (Dict.set d k (.dict s')) = lookup q key' d := by
      intro s s' h1 h2 h3
      rcases q with _ | ⟨k', q⟩
      · unfold lookup
        rw [Dict.get?_set]
        by_cases hk : k = key'
        · rw [if_pos hk]
          subst hk
          rcases h3 with h3 | ⟨s0, h3⟩
          · rw [h3]
          · rw [h3]
        · rw [if_neg hk]
      · unfold lookup
        rw [Dict.get?_set]
        by_cases hk : k = k'
        · rw [if_pos hk]
          subst hk
          dsimp only
          rw [ih s s' h1 q (fun hp => hq (List.cons_prefix_cons.2 ⟨rfl, hp⟩)), h2 q]
          rfl
        · rw [if_neg hk]
    unfold dumpAt at h
    split at h
    · rename_i hg
      obtain ⟨s, h1, rfl⟩ := CovPlot.map_ok h
      exact key0 [] s h1 (fun q => by rw [hg, lookup_nil]) (Or.inl hg)
    · rename_i s0 hg
      obtain ⟨s, h1, rfl⟩ := CovPlot.map_ok h
      exact key0 s0 s h1 (fun q => by rw [hg]) (Or.inr ⟨s0, hg⟩)
    · cases h

theorem dumpAt_ok (p : List String) (key : String) (x : α) (d : Dict String (Node α))
    (h : ∀ q k r, p = q ++ k :: r → lookup q k d = none) : ∃ d', dumpAt p key x d = .ok d' := by
  induction p generalizing d with
  | nil => exact ⟨_, rfl⟩
  | cons k p ih =>
    unfold dumpAt
    split
    · obtain ⟨s, hs⟩ := ih [] fun q k r _ => lookup_nil q k
      exact ⟨_, by rw [hs]; rfl⟩
    · rename_i s0 hg
      obtain ⟨s, hs⟩ := ih s0 fun q k' r hp => by
        have := h (k :: q) k' r (by rw [hp]; rfl)
        unfold lookup at this
        rwa [hg] at this
      exact ⟨_, by rw [hs]; rfl⟩
    · rename_i y hg
      have := h [] k p rfl
      unfold lookup at this
      rw [hg] at this
      cases this

/-- places are told apart by mapping, channel and name -/
theorem place_prefix (m c m' c' : Option String) (key key' : String) (hk : Spec.Name key)
    (h : (place m c ++ [key]).IsPrefix (place m' c' ++ [key'])) : m = m' ∧ c = c' ∧ key = key' := by
  obtain ⟨h1, h2⟩ := hk
  rcases m with _ | m <;> rcases c with _ | c <;> rcases m' with _ | m' <;> rcases c' with _ | c' <;>
    simp only [place, List.nil_append, List.cons_append, List.append_nil, List.cons_prefix_cons, List.prefix_nil, List.nil_prefix, reduceCtorEq, and_true, and_false,
      h1, h2, false_and, String.reduceEq] at h <;> simp_all

/-- only proper places have objects -/
def Inv (d : Dict String (Node α)) : Prop := ∀ q k, lookup q k d ≠ none → Spec.Name k ∧ ∃ m c, q = place m c

theorem dumpObj_spec (d : Dict String (Node α)) (hd : Inv d) (x : Dump α) (hx : Spec.Name x.key) :
    ∃ d', dumpObj d x = .ok d' ∧ Inv d' ∧ ∀ m c key, Spec.Name key →
      lookup (place m c) key d' = if x.mapping = m ∧ x.channel = c ∧ x.key = key then some x.obj else lookup (place m c) key d := by
  obtain ⟨d', h⟩ := dumpAt_ok (place x.mapping x.channel) x.key x.obj d (by
    intro q k r hp
    by_contra hc
    obtain ⟨hk, m, c, rfl⟩ := hd q k hc
    have := place_prefix m c x.mapping x.channel k x.key hk ⟨r ++ [x.key], by rw [hp]; simp⟩
    obtain ⟨rfl, rfl, _⟩ := this
    have hl := congrArg List.length hp
    simp at hl)
  refine ⟨d', h, ?_, ?_⟩
  · intro q k hq
    by_cases hp : (place x.mapping x.channel ++ [x.key]).IsPrefix (q ++ [k])
    · by_cases he : q ++ [k] = place x.mapping x.channel ++ [x.key]
      · obtain ⟨e1, e2⟩ := List.append_inj' he rfl
        refine ⟨?_, _, _, e1⟩
        simp only [List.cons.injEq, and_true] at e2
        rw [e2]
        exact hx
      · exfalso
        apply hq
        have hs := lookup_dumpAt _ _ _ _ _ h
        obtain ⟨r, hr⟩ := hp
        have hr' : r ≠ [] := by
          rintro rfl
          rw [List.append_nil] at hr
          exact he hr.symm
        obtain ⟨r', z, rfl⟩ := List.eq_nil_or_concat r |>.resolve_left hr' 
        rw [List.concat_eq_append, ← List.append_assoc] at hr
        obtain ⟨e1, _⟩ := List.append_inj' hr rfl
        rw [← e1]
        clear hq hr e1 he
        generalize place x.mapping x.channel = p at hs
        clear h
        induction p generalizing d' with
        | nil =>
          unfold lookup at hs
          show lookup (x.key :: r') k d' = none
          unfold lookup
          split at hs
          · rename_i hg
            rw [hg]
          · cases hs
        | cons y p ih =>
          unfold lookup at hs
          show lookup (y :: (p ++ [x.key] ++ r')) k d' = none
          unfold lookup
          split at hs
          · exact ih _ hs
          · cases hs
    · rw [lookup_dumpAt_ne _ _ _ _ _ h q k hp] at hq
      exact hd q k hq
  · intro m c key hk
    split
    · rename_i he
      obtain ⟨rfl, rfl, rfl⟩ := he
      exact lookup_dumpAt _ _ _ _ _ h
    · rename_i he
      refine lookup_dumpAt_ne _ _ _ _ _ h _ _ fun hp => he ?_
      exact place_prefix _ _ _ _ _ _ hx hp

theorem dumps_spec (l : List (Dump α)) (hl : ∀ x ∈ l, Spec.Name x.key) (d : Dict String (Node α)) (hd : Inv d) :
    ∃ d', l.foldlM dumpObj d = .ok d' ∧ Inv d' ∧ ∀ m c key, Spec.Name key →
      lookup (place m c) key d' = (Spec.last l m c key).or (lookup (place m c) key d) := by
  induction l generalizing d with
  | nil => exact ⟨d, rfl, hd, fun _ _ _ _ => rfl⟩
  | cons x l ih =>
    obtain ⟨d1, h1, h2, h3⟩ := dumpObj_spec d hd x (hl x (by simp))
    obtain ⟨d2, g1, g2, g3⟩ := ih (fun y hy => hl y (List.mem_cons_of_mem _ hy)) d1 h2
    refine ⟨d2, ?_, g2, fun m c key hk => ?_⟩
    · rw [List.foldlM_cons, h1]
      exact g1
    · rw [g3 m c key hk, h3 m c key hk]
      unfold Spec.last
      rw [List.reverse_cons, List.find?_append]
      cases (l.reverse.find? fun x => decide (x.mapping = m ∧ x.channel = c ∧ x.key = key)) with
      | some y => rfl
      | none =>
        show _ = Option.or (Option.map _ (Option.or none (List.find? _ [x]))) _
        rw [Option.none_or, List.find?_singleton]
        split
        · rename_i he
          rw [if_pos (by simpa using he)]
          try rfl
        · rename_i he
          rw [if_neg (by simpa using he)]
          try rfl

theorem inv_nil : Inv ([] : Dict String (Node α)) := fun q k h => absurd (lookup_nil q k) h

/-- C87.  Whatever is stored, in any order, for any mappings and channels, is found again under its mapping, channel and name (the last one of
each), and nothing else is; storing never fails. -/
theorem c87_stored (l : List (Dump α)) (hl : ∀ x ∈ l, Spec.Name x.key) :
    ∃ d, l.foldlM dumpObj [] = .ok d ∧ ∀ m c key, Spec.Name key → lookup (place m c) key d = Spec.last l m c key := by
  obtain ⟨d, h1, _, h2⟩ := dumps_spec l hl [] inv_nil
  refine ⟨d, h1, fun m c key hk => ?_⟩
  rw [h2 m c key hk, lookup_nil, Option.or_none]

theorem writeGroup_spec (w : Ws α) (hw : w.results = []) (g : String × List (Dump α)) (hg : ∀ x ∈ g.2, Spec.Name x.key) (hn : Dict.get? w.groups g.1 = none) :
    ∃ d, writeGroup w g = .ok ⟨Dict.set w.groups g.1 d, []⟩ ∧ ∀ m c key, Spec.Name key → lookup (place m c) key d = Spec.last g.2 m c key := by
  obtain ⟨d, h1, h2⟩ := c87_stored g.2 hg
  refine ⟨d, ?_, h2⟩
  unfold writeGroup
  rw [hw, h1]
  show flush _ g.1 = _
  unfold flush
  rw [if_neg (by rw [(Dict.has_eq_false_iff _ _).2 hn]; simp)]

/-- C87.  The results of several fits are kept apart: every group has the objects stored for it, and none of those stored before. -/
theorem c87_groups (gs : List (String × List (Dump α))) (hg : ∀ g ∈ gs, ∀ x ∈ g.2, Spec.Name x.key) (hnd : (gs.map (·.1)).Nodup) :
    ∃ w, gs.foldlM writeGroup {} = .ok w ∧ ∀ g ∈ gs, ∃ d, Dict.get? w.groups g.1 = some d ∧
      ∀ m c key, Spec.Name key → lookup (place m c) key d = Spec.last g.2 m c key := by
  suffices H : ∀ (gs : List (String × List (Dump α))) (w : Ws α), w.results = [] → (∀ g ∈ gs, ∀ x ∈ g.2, Spec.Name x.key) → (gs.map (·.1)).Nodup →
      (∀ g ∈ gs, Dict.get? w.groups g.1 = none) → ∃ w', gs.foldlM writeGroup w = .ok w' ∧
      (∀ k, k ∉ gs.map (·.1) → Dict.get? w'.groups k = Dict.get? w.groups k) ∧ ∀ g ∈ gs, ∃ d, Dict.get? w'.groups g.1 = some d ∧
      ∀ m c key, Spec.Name key → lookup (place m c) key d = Spec.last g.2 m c key by
    obtain ⟨w, h1, _, h2⟩ := H gs {} rfl hg hnd fun _ _ => rfl
    exact ⟨w, h1, h2⟩
  intro gs
  induction gs with
  | nil => exact fun w _ _ _ _ => ⟨w, rfl, fun _ _ => rfl, fun _ h => by cases h⟩
  | cons g gs ih =>
    intro w hw hg hnd hn
    rw [List.map_cons, List.nodup_cons] at hnd
    obtain ⟨d, h1, h2⟩ := writeGroup_spec w hw g (hg g (by simp)) (hn g (by simp))
    obtain ⟨w', g1, g2, g3⟩ := ih ⟨Dict.set w.groups g.1 d, []⟩ rfl (fun g' h' => hg g' (List.mem_cons_of_mem _ h')) hnd.2 (by
      intro g' h'
      show Dict.get? (Dict.set _ _ _) _ = _
      rw [Dict.get?_set_ne]
      · exact hn g' (List.mem_cons_of_mem _ h')
      · intro he
        exact hnd.1 (List.mem_map.2 ⟨g', h', he.symm⟩))
    refine ⟨w', ?_, ?_, ?_⟩
    · rw [List.foldlM_cons, h1]
      exact g1
    · intro k hk
      rw [List.map_cons, List.mem_cons, not_or] at hk
      rw [g2 k hk.2]
      show Dict.get? (Dict.set _ _ _) _ = _
      rw [Dict.get?_set_ne _ _ (Ne.symm hk.1)]
    · intro g' h'
      rcases List.mem_cons.1 h' with rfl | h'
      · refine ⟨d, ?_, h2⟩
        rw [g2 _ hnd.1]
        exact Dict.get?_set_self _ _ _
      · exact g3 g' h'

/-- C87.  A group that was written already is refused; the results in it stay. -/
theorem c87_twice (w : Ws α) (g : String) (h : Dict.has w.groups g = true) : flush w g = .error .value := if_pos h

/-! ## histograms with flow bins -/

section
variable {V : Type} [Zero V] [One V]

omit [Zero V] in
theorem foldOnes (L : List (HAxis × Nat)) (hL : (L.map (·.2)).Nodup) (t : Tensor V) (hb : ∀ p ∈ L, p.2 < t.shape.length) :
    let r := L.foldl (fun t a => if a.1.category then concatOnes t a.2 else t) t
    r.shape.length = t.shape.length ∧
    (∀ k, k < t.shape.length → r.shape.getD k 0 = t.shape.getD k 0 + if ∃ p ∈ L, p.1.category = true ∧ p.2 = k then 1 else 0) ∧
    ∀ ix, r.val ix = if ∀ p ∈ L, p.1.category = true → ix.getD p.2 0 < t.shape.getD p.2 0 then t.val ix else 1 := by
  induction L generalizing t with
  | nil => simp
  | cons p L ih =>
    rw [List.map_cons, List.nodup_cons] at hL
    intro r
    by_cases hc : p.1.category = true
    · have hlen : (concatOnes t p.2).shape.length = t.shape.length := by simp [concatOnes]
      obtain ⟨h1, h2, h3⟩ := ih hL.2 (concatOnes t p.2) (fun q hq => by rw [hlen]; exact hb q (List.mem_cons_of_mem _ hq))
      have hr : r = L.foldl (fun t a => if a.1.category then concatOnes t a.2 else t) (concatOnes t p.2) := by
        show List.foldl _ t (p :: L) = _
        rw [List.foldl_cons, if_pos hc]
      rw [hr]
      have hp2 := hb p (by simp)
      have hget : ∀ k, k < t.shape.length → (concatOnes t p.2).shape.getD k 0 = t.shape.getD k 0 + if p.2 = k then 1 else 0 := by
        intro k hk
        show (t.shape.set p.2 (t.shape.getD p.2 0 + 1)).getD k 0 = _
        rw [List.getD_eq_getElem?_getD, List.getElem?_set]
        by_cases hpk : p.2 = k
        · rw [if_pos hpk, if_pos hpk, if_pos hp2, hpk]
          rfl
        · rw [if_neg hpk, if_neg hpk, List.getD_eq_getElem?_getD]
          rfl
      refine ⟨by rw [h1, hlen], fun k hk => ?_, fun ix => ?_⟩
      · rw [h2 k (by rw [hlen]; exact hk), hget k hk, Nat.add_assoc]
        congr 1
        by_cases hpk : p.2 = k
        · have hno : ¬ ∃ q ∈ L, q.1.category = true ∧ q.2 = k := by
            rintro ⟨q, hq, _, rfl⟩
            exact hL.1 (List.mem_map.2 ⟨q, hq, hpk.symm⟩)
          rw [if_pos hpk, if_neg hno, if_pos ⟨p, by simp, hc, hpk⟩]
        · rw [if_neg hpk, Nat.zero_add]
          refine if_congr ?_ rfl rfl
          constructor
          · rintro ⟨q, hq, h⟩
            exact ⟨q, List.mem_cons_of_mem _ hq, h⟩
          · rintro ⟨q, hq, hqc, hqk⟩
            rcases List.mem_cons.1 hq with rfl | hq
            · exact absurd hqk hpk
            · exact ⟨q, hq, hqc, hqk⟩
      · rw [h3 ix]
        have hiff : (∀ q ∈ L, q.1.category = true → ix.getD q.2 0 < (concatOnes t p.2).shape.getD q.2 0) ↔
            ∀ q ∈ L, q.1.category = true → ix.getD q.2 0 < t.shape.getD q.2 0 := by
          refine forall_congr' fun q => forall_congr' fun hq => forall_congr' fun _ => ?_
          rw [hget q.2 (hb q (List.mem_cons_of_mem _ hq)), if_neg fun h => hL.1 (List.mem_map.2 ⟨q, hq, h.symm⟩), Nat.add_zero]
        rw [if_congr hiff rfl rfl]
        show (if _ then (if ix.getD p.2 0 < t.shape.getD p.2 0 then t.val ix else 1) else 1) = _
        rw [← ite_and]
        refine if_congr ?_ rfl rfl
        rw [List.forall_mem_cons]
        exact ⟨fun ⟨a, b⟩ => ⟨fun _ => b, a⟩, fun ⟨a, b⟩ => ⟨b, a hc⟩⟩
    · obtain ⟨h1, h2, h3⟩ := ih hL.2 t (fun q hq => hb q (List.mem_cons_of_mem _ hq))
      have hr : r = L.foldl (fun t a => if a.1.category then concatOnes t a.2 else t) t := by
        show List.foldl _ t (p :: L) = _
        rw [List.foldl_cons, if_neg hc]
      rw [hr]
      refine ⟨h1, fun k hk => ?_, fun ix => ?_⟩
      · rw [h2 k hk]
        congr 1
        refine if_congr ?_ rfl rfl
        constructor
        · rintro ⟨q, hq, h⟩
          exact ⟨q, List.mem_cons_of_mem _ hq, h⟩
        · rintro ⟨q, hq, hqc, hqk⟩
          rcases List.mem_cons.1 hq with rfl | hq
          · exact absurd hqc hc
          · exact ⟨q, hq, hqc, hqk⟩
      · rw [h3 ix]
        refine if_congr ?_ rfl rfl
        rw [List.forall_mem_cons]
        exact ⟨fun h => ⟨fun h' => absurd h' hc, h⟩, fun h => h.2⟩

/-- the sizes in which the values are arranged -/
def inner (axes : List HAxis) : List Nat := axes.map fun a => if a.category then a.size else a.extent

open Classical in
/-- what `fillFlow` does -/
theorem fillFlow_spec (axes : List HAxis) (values : List V) (hl : values.length = (inner axes).prod) (r : Tensor V)
    (hr : r = axes.zipIdx.foldl (fun t a => if a.1.category then concatOnes t a.2 else t) ⟨inner axes, fun i => values.getD (ravel (inner axes) i) 0⟩) :
    fillFlow axes values = (if r.shape = axes.map (·.extent) then .ok r else .error .value) ∧
    r.shape = axes.map (fun a => if a.category then a.size + 1 else a.extent) ∧
    ∀ ix, r.val ix = if ∀ k a, axes[k]? = some a → a.category = true → ix.getD k 0 < a.size then values.getD (ravel (inner axes) ix) 0 else 1 := by
  have hlen : (inner axes).length = axes.length := by simp [inner]
  have hget : ∀ (k : Nat) (a : HAxis), axes[k]? = some a → (inner axes).getD k 0 = if a.category then a.size else a.extent := by
    intro k a h
    rw [List.getD_eq_getElem?_getD, inner, List.getElem?_map, h]
    rfl
  have hmem : ∀ p : HAxis × Nat, p ∈ axes.zipIdx ↔ axes[p.2]? = some p.1 := by
    rintro ⟨a, k⟩
    exact List.mem_zipIdx_iff_getElem?
  obtain ⟨h1, h2, h3⟩ := foldOnes axes.zipIdx (by rw [List.zipIdx_map_snd]; exact List.nodup_range') (⟨inner axes, fun i => values.getD (ravel (inner axes) i) 0⟩ : Tensor V) (by
    intro p hp
    rw [hmem] at hp
    show p.2 < (inner axes).length
    rw [hlen]
    exact (List.getElem?_eq_some_iff.1 hp).1)
  rw [← hr] at h1 h2 h3
  refine ⟨?_, ?_, ?_⟩
  · unfold fillFlow
    show ((if values.length = (inner axes).prod then _ else _ : Res (Tensor V))).bind _ = _
    rw [if_pos hl, hr]
    rfl
  · refine List.ext_getElem? fun k => ?_
    by_cases hk : k < axes.length
    · have hk' : k < r.shape.length := by rw [h1]; show k < (inner axes).length; rw [hlen]; exact hk
      have := h2 k (by show k < (inner axes).length; rw [hlen]; exact hk)
      rw [List.getD_eq_getElem?_getD, List.getElem?_eq_getElem hk', Option.getD_some] at this
      rw [List.getElem?_eq_getElem hk', this, List.getElem?_map, List.getElem?_eq_getElem hk]
      show some ((inner axes).getD k 0 + _) = some (if axes[k].category then axes[k].size + 1 else axes[k].extent)
      rw [hget k axes[k] (List.getElem?_eq_getElem hk)]
      congr 1
      by_cases hc : axes[k].category = true
      · rw [if_pos hc, if_pos hc, if_pos ⟨(axes[k], k), (hmem _).2 (List.getElem?_eq_getElem hk), hc, rfl⟩]
      · have hno : ¬ ∃ p ∈ axes.zipIdx, p.1.category = true ∧ p.2 = k := by
          rintro ⟨p, hp, hpc, rfl⟩
          rw [hmem, List.getElem?_eq_getElem hk] at hp
          rw [Option.some.inj hp] at hc
          exact hc hpc
        rw [if_neg hc, if_neg hc, if_neg hno, Nat.add_zero]
    · rw [List.getElem?_eq_none (by rw [h1]; show (inner axes).length ≤ k; omega), List.getElem?_eq_none (by simp; omega)]
  · intro ix
    rw [h3 ix]
    refine if_congr ?_ rfl rfl
    constructor
    · intro h k a hk hc
      have := h (a, k) ((hmem _).2 hk) hc
      have e : (inner axes).getD k 0 = a.size := by rw [hget k a hk, if_pos hc]
      rwa [← e]
    · rintro h ⟨a, k⟩ hp hc
      rw [hmem] at hp
      have e : (inner axes).getD k 0 = a.size := by rw [hget k a hp, if_pos hc]
      show _ < (inner axes).getD k 0
      rw [e]
      exact h k a hp hc

omit [One V] in
theorem flatten_getD (l : List (List V)) (m r c : Nat) (hm : ∀ x ∈ l, x.length = m) (hr : r < l.length) (hc : c < m) :
    l.flatten.getD (r * m + c) 0 = (l.getD r []).getD c 0 := by
  induction l generalizing r with
  | nil => simp at hr
  | cons x l ih =>
    have hx := hm x (by simp)
    rw [List.flatten_cons]
    rcases r with _ | r
    · rw [Nat.zero_mul, Nat.zero_add, List.getD_eq_getElem?_getD, List.getElem?_append_left (by omega)]
      rfl
    · rw [List.getD_eq_getElem?_getD, List.getElem?_append_right (by rw [hx]; nlinarith), hx]
      have : (r + 1) * m + c - m = r * m + c := by
        rw [Nat.add_mul, Nat.one_mul]
        omega
      rw [this, ← List.getD_eq_getElem?_getD, ih r (fun y hy => hm y (List.mem_cons_of_mem _ hy)) (by simpa using hr)]
      rfl

/-- C87.  Channel with flow bins, none of its axes of names: the histogram with all flow bins has, in every bin of the channel and at every entry of
the further axes (processes, sources of impacts, variations), the value of that bin and entry.  The overflow of the further axes of names has ones. -/
theorem c87_flow (axes extra : List HAxis) (values : List (List V)) (start : Nat) (hax : ∀ a ∈ axes, a.category = false)
    (hex : ∀ a ∈ extra, a.extent = if a.category then a.size + 1 else a.size)
    (hrow : ∀ x ∈ values, x.length = (extra.map (·.size)).prod) (hlen : start + (axes.map (·.extent)).prod ≤ values.length) :
    ∃ t, channelHist axes extra values start = .ok t ∧ t.shape = (axes ++ extra).map (·.extent) ∧
      (∀ i ∈ grid (axes.map (·.extent)), ∀ e ∈ grid (extra.map (·.size)),
        t.val (i ++ e) = (values.getD (start + ravel (axes.map (·.extent)) i) []).getD (ravel (extra.map (·.size)) e) 0) ∧
      ∀ i ∈ grid (axes.map (·.extent)), ∀ e ∈ grid (extra.map (·.extent)), e ∉ grid (extra.map (·.size)) → t.val (i ++ e) = 1 := by
  have hin1 : inner axes = axes.map (·.extent) := List.map_congr_left fun a ha => by rw [hax a ha]; simp
  have hin2 : inner extra = extra.map (·.size) := List.map_congr_left fun a ha => by
    have := hex a ha
    cases hc : a.category
    · rw [hc] at this
      simpa using this
    · simp
  have hin : inner (axes ++ extra) = axes.map (·.extent) ++ extra.map (·.size) := by
    rw [← hin1, ← hin2]
    exact List.map_append
  set n := (axes.map (·.extent)).prod with hn
  set m := (extra.map (·.size)).prod with hm
  set rows := (values.take (start + n)).drop start with hrows
  have hrl : rows.length = n := by
    rw [hrows, List.length_drop, List.length_take]
    omega
  have hrm : ∀ x ∈ rows, x.length = m := fun x hx => hrow x (List.mem_of_mem_take (List.mem_of_mem_drop hx))
  have hfl : ∀ l : List (List V), (∀ x ∈ l, x.length = m) → l.flatten.length = l.length * m := by
    intro l hl
    induction l with
    | nil => simp
    | cons x l ih =>
      rw [List.flatten_cons, List.length_append, ih fun y hy => hl y (List.mem_cons_of_mem _ hy), hl x (by simp), List.length_cons]
      ring
  have hl : rows.flatten.length = (inner (axes ++ extra)).prod := by
    rw [hfl rows hrm, hrl, hin, List.prod_append]
  obtain ⟨h1, h2, h3⟩ := fillFlow_spec (axes ++ extra) rows.flatten hl _ rfl
  have hsh : (axes ++ extra).map (fun a => if a.category then a.size + 1 else a.extent) = (axes ++ extra).map (·.extent) := by
    refine List.map_congr_left fun a ha => ?_
    rcases List.mem_append.1 ha with ha | ha
    · rw [hax a ha]
      simp
    · have := hex a ha
      cases hc : a.category
      · simp
      · rw [hc] at this
        simpa using this.symm
  have hrow' : ∀ r, r < n → rows.getD r [] = values.getD (start + r) [] := by
    intro r hr
    rw [List.getD_eq_getElem?_getD, List.getD_eq_getElem?_getD, hrows, List.getElem?_drop, List.getElem?_take_of_lt (by omega)]
  have hcond : ∀ i ∈ grid (axes.map (·.extent)), ∀ e ∈ grid (extra.map (·.extent)),
      (∀ k a, (axes ++ extra)[k]? = some a → a.category = true → (i ++ e).getD k 0 < a.size) ↔ e ∈ grid (extra.map (·.size)) := by
    intro i hi e he
    have li : i.length = axes.length := by simpa using length_of_mem_grid hi
    have le : e.length = extra.length := by simpa using length_of_mem_grid he
    rw [mem_grid, List.forall₂_iff_get] at he
    obtain ⟨_, he⟩ := he
    constructor
    · intro h
      rw [mem_grid, List.forall₂_iff_get]
      refine ⟨by simpa using le, fun k hk1 hk2 => ?_⟩
      have hk : k < extra.length := by omega
      have hek := he k hk1 (by simpa using hk)
      simp only [List.get_eq_getElem, List.getElem_map] at hek ⊢
      by_cases hc : extra[k].category = true
      · have := h (axes.length + k) extra[k] (by rw [List.getElem?_append_right (by omega), Nat.add_sub_cancel_left, List.getElem?_eq_getElem hk]) hc
        rw [List.getD_eq_getElem?_getD, List.getElem?_append_right (by omega), li, Nat.add_sub_cancel_left, List.getElem?_eq_getElem hk1] at this
        exact this
      · have hx := hex extra[k] (List.getElem_mem hk)
        rw [if_neg hc] at hx
        rw [← hx]
        exact hek
    · intro h k a hk hc
      rw [mem_grid, List.forall₂_iff_get] at h
      obtain ⟨_, h⟩ := h
      by_cases hka : k < axes.length
      · rw [List.getElem?_append_left hka, List.getElem?_eq_getElem hka] at hk
        cases hk
        rw [hax _ (List.getElem_mem hka)] at hc
        cases hc
      · rw [List.getElem?_append_right (by omega)] at hk
        obtain ⟨hk1, hk2⟩ := List.getElem?_eq_some_iff.1 hk
        rw [List.getD_eq_getElem?_getD, List.getElem?_append_right (by omega), li, List.getElem?_eq_getElem (by omega)]
        have := h (k - axes.length) (by omega) (by simpa using hk1)
        simp only [List.get_eq_getElem, List.getElem_map, hk2] at this
        exact this
  have hsub : ∀ e ∈ grid (extra.map (·.size)), e ∈ grid (extra.map (·.extent)) := by
    intro e he
    rw [mem_grid] at he ⊢
    rw [List.forall₂_map_right_iff] at he ⊢
    have hle : ∀ a ∈ extra, a.size ≤ a.extent := fun a ha => by
      rw [hex a ha]
      split <;> omega
    clear hex hrow hl hin2 hin hm hrm hfl h1 h2 h3 hsh hcond
    induction he with
    | nil => exact .nil
    | cons h _ ih => exact .cons (lt_of_lt_of_le h (hle _ (by simp))) (ih fun a ha => hle a (List.mem_cons_of_mem _ ha))
  generalize hr : (axes ++ extra).zipIdx.foldl (fun t a => if a.1.category then concatOnes t a.2 else t)
    (⟨inner (axes ++ extra), fun i => rows.flatten.getD (ravel (inner (axes ++ extra)) i) 0⟩ : Tensor V) = r at h1 h2 h3
  refine ⟨r, ?_, ?_, ?_, ?_⟩
  · unfold channelHist
    show fillFlow (axes ++ extra) rows.flatten = _
    rw [h1, if_pos (by rw [h2, hsh])]
  · rw [h2, hsh]
  · intro i hi e he
    rw [h3, if_pos ((hcond i hi e (hsub e he)).2 he), hin, CovPlot.ravel_append _ _ _ _ (length_of_mem_grid hi), ← hm,
      flatten_getD rows m _ _ hrm (by rw [hrl]; exact ravel_lt hi) (ravel_lt he), hrow' _ (ravel_lt hi)]
  · intro i hi e he hn
    rw [h3, if_neg fun h => hn ((hcond i hi e he).1 h)]

theorem prod_inner_le (axes : List HAxis) (h : ∀ a ∈ axes, a.extent = if a.category then a.size + 1 else a.size) :
    (inner axes).prod ≤ (axes.map (·.extent)).prod := by
  induction axes with
  | nil => simp [inner]
  | cons a l ih =>
    have := ih fun b hb => h b (List.mem_cons_of_mem _ hb)
    have ha := h a (by simp)
    show (if a.category then a.size else a.extent) * (inner l).prod ≤ a.extent * _
    refine Nat.mul_le_mul ?_ this
    split <;> simp_all

theorem prod_inner_lt (axes : List HAxis) (h : ∀ a ∈ axes, a.extent = if a.category then a.size + 1 else a.size)
    (hpos : ∀ a ∈ axes, 0 < a.extent) (hc : ∃ a ∈ axes, a.category = true) : (inner axes).prod < (axes.map (·.extent)).prod := by
  induction axes with
  | nil => simp at hc
  | cons a l ih =>
    have hle := prod_inner_le l fun b hb => h b (List.mem_cons_of_mem _ hb)
    have ha := h a (by simp)
    have hp : 0 < (l.map (·.extent)).prod := List.prod_pos (by
      intro x hx
      obtain ⟨b, hb, rfl⟩ := List.mem_map.1 hx
      exact hpos b (List.mem_cons_of_mem _ hb))
    show (if a.category then a.size else a.extent) * (inner l).prod < a.extent * (l.map (·.extent)).prod
    by_cases hca : a.category = true
    · rw [if_pos hca] at ha ⊢
      rw [ha]
      exact Nat.mul_lt_mul_of_lt_of_le (Nat.lt_succ_self _) hle hp
    · rw [if_neg hca]
      have := ih (fun b hb => h b (List.mem_cons_of_mem _ hb)) (fun b hb => hpos b (List.mem_cons_of_mem _ hb)) (by
        obtain ⟨b, hb, hbc⟩ := hc
        rcases List.mem_cons.1 hb with rfl | hb
        · exact absurd hbc hca
        · exact ⟨b, hb, hbc⟩)
      exact Nat.mul_lt_mul_of_pos_left this (hpos a (by simp))

/-- C87 fails for a channel that has flow bins and an axis of names: the channel's rows include the overflow of the axis, the histogram is filled as if
they did not, so the numbers do not fit and nothing is stored. -/
theorem c87_category_violated (axes extra : List HAxis) (values : List (List V)) (start : Nat)
    (hax : ∀ a ∈ axes, a.extent = if a.category then a.size + 1 else a.size) (hpos : ∀ a ∈ axes, 0 < a.extent)
    (hc : ∃ a ∈ axes, a.category = true) (hex : ∀ a ∈ extra, 0 < a.size ∧ a.extent = if a.category then a.size + 1 else a.size)
    (hrow : ∀ x ∈ values, x.length = (extra.map (·.size)).prod) (hlen : start + (axes.map (·.extent)).prod ≤ values.length) :
    channelHist axes extra values start = .error .value := by
  have hin2 : inner extra = extra.map (·.size) := List.map_congr_left fun a ha => by
    have := (hex a ha).2
    cases hc : a.category
    · rw [hc] at this
      simpa using this
    · simp
  have hm : 0 < (extra.map (·.size)).prod := List.prod_pos (by
    intro x hx
    obtain ⟨b, hb, rfl⟩ := List.mem_map.1 hx
    exact (hex b hb).1)
  have hfl : ∀ l : List (List V), (∀ x ∈ l, x.length = (extra.map (·.size)).prod) → l.flatten.length = l.length * (extra.map (·.size)).prod := by
    intro l hl
    induction l with
    | nil => simp
    | cons x l ih =>
      rw [List.flatten_cons, List.length_append, ih fun y hy => hl y (List.mem_cons_of_mem _ hy), hl x (by simp), List.length_cons]
      ring
  have hne : (((values.take (start + (axes.map (·.extent)).prod)).drop start).flatten).length ≠ (inner (axes ++ extra)).prod := by
    rw [hfl _ fun x hx => hrow x (List.mem_of_mem_take (List.mem_of_mem_drop hx)), List.length_drop, List.length_take]
    have e : min (start + (axes.map (·.extent)).prod) values.length - start = (axes.map (·.extent)).prod := by omega
    have e2 : inner (axes ++ extra) = inner axes ++ inner extra := List.map_append
    rw [e, e2, List.prod_append, hin2]
    exact (Nat.mul_lt_mul_of_pos_right (prod_inner_lt axes hax hpos hc) hm).ne'
  unfold channelHist fillFlow
  show ((if _ = (inner (axes ++ extra)).prod then _ else _ : Res (Tensor V))).bind _ = _
  rw [if_neg hne]
  rfl

end

/-! ## examples -/

namespace Ex87

/-- default name, with and without a postfix -/
example : filePath "out".toList "fitresults".toList none = .ok "out/fitresults.hdf5".toList := by
  rw [c87_path _ _ _ (by decide +kernel) (by decide +kernel)]
  decide +kernel

example : filePath "out".toList "fitresults".toList (some "toy".toList) = .ok "out/fitresults_toy.hdf5".toList := by
  rw [c87_path _ _ _ (by decide +kernel) (by decide +kernel)]
  decide +kernel

/-- name with an extension, absolute name -/
example : filePath "out/".toList "run/fit.h5".toList (some "toy".toList) = .ok "out/run/fit_toy.h5".toList := by
  rw [show "run/fit.h5".toList = "run/fit".toList ++ '.' :: "h5".toList by decide +kernel, c87_path_ext _ _ _ _ (by decide +kernel) (by decide +kernel)]
  decide +kernel

example : filePath "out".toList "/data/fit".toList (some "toy".toList) = .ok "/data/fit_toy.hdf5".toList := by
  rw [c87_path _ _ _ (by decide +kernel) (by decide +kernel)]
  decide +kernel

/-- the directory that is made -/
example : ∃ p, filePath "out".toList ("run".toList ++ '/' :: "fit".toList) (some "toy".toList) = .ok p ∧
    dirname p = madeDir "out".toList ("run".toList ++ '/' :: "fit".toList) :=
  (c87_dir "out".toList "run".toList "fit".toList "h5".toList (some "toy".toList) (by decide +kernel) (by decide +kernel) (by decide +kernel)
    (by decide +kernel) (by
      intro q hq
      cases hq
      decide +kernel)).2 (by decide +kernel) (by decide +kernel)

/-- `-o out --outname v1.2/fit`: the file has no extension; with a postfix the directory `out/v1_toy.2` is meant, which is not made -/
example : filePath "out".toList ("v1".toList ++ '.' :: "2".toList ++ '/' :: "fit".toList) (some "toy".toList) = .ok "out/v1_toy.2/fit".toList ∧
    madeDir "out".toList ("v1".toList ++ '.' :: "2".toList ++ '/' :: "fit".toList) = "out/v1.2".toList := by
  obtain ⟨_, h2, h3⟩ := c87_path_violated "out".toList "v1".toList "2".toList "fit".toList "toy".toList (by decide +kernel) (by decide +kernel) (by decide +kernel)
  rw [h2, (h3 (by decide +kernel)).1]
  exact ⟨by decide +kernel, by decide +kernel⟩

def dumps : List (Dump Nat) :=
  [⟨none, none, "nll", 1⟩, ⟨some "Project ch0 x", none, "chi2", 2⟩, ⟨some "Project ch0 x", some "ch0", "hist_prefit", 3⟩,
    ⟨some "BaseMapping", some "ch0", "hist_prefit", 4⟩, ⟨none, none, "nll", 5⟩]

theorem named : ∀ x ∈ dumps, Spec.Name x.key := by
  unfold Spec.Name dumps
  decide +kernel

example : ∃ d, dumps.foldlM dumpObj [] = .ok d ∧ lookup (place none none) "nll" d = some 5 ∧
    lookup (place (some "Project ch0 x") (some "ch0")) "hist_prefit" d = some 3 ∧
    lookup (place (some "BaseMapping") none) "chi2" d = none := by
  obtain ⟨d, h1, h2⟩ := c87_stored dumps named
  exact ⟨d, h1, (h2 _ _ _ (by unfold Spec.Name; decide +kernel)).trans (by decide +kernel), (h2 _ _ _ (by unfold Spec.Name; decide +kernel)).trans (by decide +kernel),
    (h2 _ _ _ (by unfold Spec.Name; decide +kernel)).trans (by decide +kernel)⟩

example : ∃ w, [("results", dumps), ("results_asimov", [⟨none, none, "nll", 7⟩])].foldlM writeGroup {} = .ok w ∧
    ∃ d, Dict.get? w.groups "results_asimov" = some d ∧ lookup (place none none) "nll" d = some 7 ∧ lookup (place (some "BaseMapping") (some "ch0")) "hist_prefit" d = none := by
  obtain ⟨w, h1, h2⟩ := c87_groups [("results", dumps), ("results_asimov", [⟨none, none, "nll", 7⟩])] (by
    intro g hg x hx
    rcases List.mem_cons.1 hg with rfl | hg
    · exact named x hx
    · obtain rfl := List.mem_singleton.1 hg
      obtain rfl := List.mem_singleton.1 hx
      unfold Spec.Name
      decide +kernel) (by decide +kernel)
  obtain ⟨d, h3, h4⟩ := h2 ("results_asimov", [⟨none, none, "nll", 7⟩]) (by simp)
  exact ⟨w, h1, d, h3, (h4 _ _ _ (by unfold Spec.Name; decide +kernel)).trans (by decide +kernel), (h4 _ _ _ (by unfold Spec.Name; decide +kernel)).trans (by decide +kernel)⟩

/-- two pseudo-data sets of the same name: the second group is rejected -/
example : flush (⟨[("results", [])], [("nll", .leaf 3)]⟩ : Ws Nat) "results" = .error .value := c87_twice _ _ (by decide +kernel)

/-- one axis with under- and overflow, two processes, second channel of the file -/
def ax : List HAxis := [⟨1, 3, false⟩]
def procs : List HAxis := [⟨2, 3, true⟩]
def vals : List (List Int) := [[1, 2], [3, 4], [5, 6], [7, 8]]

example : ∃ t, channelHist ax procs vals 1 = .ok t ∧ t.shape = [3, 3] ∧ t.val [0, 1] = 4 ∧ t.val [2, 0] = 7 ∧ t.val [1, 2] = 1 := by
  obtain ⟨t, h1, h2, h3, h4⟩ := c87_flow ax procs vals 1 (by decide) (by decide) (by decide) (by decide)
  exact ⟨t, h1, h2, (h3 [0] (by decide) [1] (by decide)).trans (by decide), (h3 [2] (by decide) [0] (by decide)).trans (by decide),
    h4 [1] (by decide) [2] (by decide) (by decide)⟩

/-- an axis of two names in the channel -/
example : channelHist [⟨2, 3, true⟩] procs vals 1 = .error .value :=
  c87_category_violated _ _ _ _ (by decide) (by decide) ⟨_, List.mem_singleton.2 rfl, rfl⟩ (by decide) (by decide) (by decide)

end Ex87

end Verif.ResultFile
