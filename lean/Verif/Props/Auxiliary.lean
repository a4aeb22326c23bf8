import Verif.Model.Auxiliary
import Verif.Props.Storage
import Mathlib.Data.List.Induction

/-! C80: auxiliary bundles survive writing and reading. -/

namespace Verif.Auxiliary

open Verif.Storage

variable {α : Type}

/-- a value after the round trip -/
def Spec.back : Val α → Out α
  | .arr t a => .arr t a
  | .strArr _ l => .strs l
  | .bytesArr _ l => .strs l
  | .list l => .strs l

/-- the values that the module documents: numeric arrays and (non-empty) one-dimensional lists of strings, without NUL -/
def Spec.Good : Val α → Prop
  | .arr _ _ => True
  | .strArr s l => s = [l.length] ∧ ∀ t ∈ l, '\x00' ∉ t.toList
  | .bytesArr _ _ => False
  | .list l => l ≠ [] ∧ ∀ t ∈ l, '\x00' ∉ t.toList

/-- a name that is one component of a path of the file -/
def Spec.Simple (n : String) : Prop := '/' ∉ n.toList ∧ n ≠ "" ∧ n ≠ "."

/-- a bundle that the module documents, with the distinct keys of a dictionary -/
structure Spec.GoodBundle (b : Bundle α) : Prop where
  name : Spec.Simple b.name
  keys : ∀ kv ∈ b.datasets, Spec.Simple kv.1 ∧ Spec.Good kv.2
  nodup : (b.datasets.map (·.1)).Nodup

/-- the dictionary that should be read for a bundle -/
def Spec.content (b : Bundle α) : List (String × Out α) := b.datasets.map fun kv => (kv.1, Spec.back kv.2)

theorem splitOn_not_mem {c : Char} {l : List Char} (h : c ∉ l) : Datacard.splitOn c l = [l] := by
  induction l with
  | nil => rfl
  | cons x l ih =>
    rw [List.mem_cons, not_or] at h
    unfold Datacard.splitOn
    rw [if_neg (fun e => h.1 e.symm), ih h.2]

theorem comps_simple {n : String} (h : Spec.Simple n) : comps n = [n] := by
  unfold comps Datacard.splitStr
  rw [splitOn_not_mem h.1]
  simp [h.2.1, h.2.2]

theorem stripNul_eq {s : String} (h : '\x00' ∉ s.toList) : stripNul s = s := by
  unfold stripNul
  have : s.toList.reverse.dropWhile (· == '\x00') = s.toList.reverse := by
    cases hr : s.toList.reverse with
    | nil => rfl
    | cons c l =>
      refine List.dropWhile_cons_of_neg ?_
      have : c ∈ s.toList := by rw [← List.mem_reverse, hr]; exact List.mem_cons_self
      simpa using fun e : c = '\x00' => h (e ▸ this)
  rw [this, List.reverse_reverse, String.ofList_toList]

theorem textDset_ok {l : List String} (h : ∀ t ∈ l, '\x00' ∉ t.toList) : textDset (α := α) l = .ok (.text l) := by
  unfold textDset
  rw [if_neg]
  simpa using h

theorem encode_good (p : Fmt α) (hz : ∀ a, p.isZero a = true → a = p.zero) {v : Val α} (h : Spec.Good v) :
    ∃ d, encode p v = .ok d ∧ decode (.dset d) = .ok (Spec.back v) := by
  cases v with
  | arr t a =>
    exact ⟨_, rfl, congrArg (fun x => Except.ok (Out.arr t x)) (c13_roundtrip_exact p.isZero p.zero hz _ _ a)⟩
  | strArr s l => exact ⟨_, textDset_ok h.2, rfl⟩
  | bytesArr s l => exact h.elim
  | list l =>
    cases l with
    | nil => exact (h.1 rfl).elim
    | cons s l =>
      have e : (s :: l).map stripNul = s :: l := 
        (List.map_congr_left fun t ht => stripNul_eq (h.2 t ht)).trans (List.map_id'' (fun _ => rfl) _)
      refine ⟨.text (s :: l), ?_, rfl⟩
      unfold encode asarray
      dsimp only
      rw [e]
      exact textDset_ok h.2

/-- the stored dataset of a value -/
def enc (p : Fmt α) (v : Val α) : Stored α := match encode p v with
  | .ok d => d
  | .error _ => .text []

theorem enc_good (p : Fmt α) (hz : ∀ a, p.isZero a = true → a = p.zero) {v : Val α} (h : Spec.Good v) :
    encode p v = .ok (enc p v) ∧ decode (.dset (enc p v)) = .ok (Spec.back v) := by
  obtain ⟨d, h1, h2⟩ := encode_good p hz h
  unfold enc
  rw [h1]
  exact ⟨rfl, h2⟩

/-- the objects of one bundle -/
def nodes (p : Fmt α) (b : Bundle α) : Tree α :=
  ([b.name], .group) :: b.datasets.map fun kv => ([b.name, kv.1], .dset (enc p kv.2))

theorem find_append (t u : Tree α) (q : List String) : find (t ++ u) q = (find t q).or (find u q) := by
  unfold find
  induction t with
  | nil => simp
  | cons e t ih =>
    obtain ⟨a, o⟩ := e
    simp only [List.cons_append, List.lookup_cons]
    split
    · simp
    · exact ih

theorem find_none {t : Tree α} {q : List String} (h : ∀ e ∈ t, e.1 ≠ q) : find t q = none := by
  unfold find
  rw [List.lookup_eq_none_iff]
  intro e he
  simpa using fun hh => h e he hh.symm

theorem create_top {t : Tree α} {n : String} {o : Obj α} (h : find t [n] = none) : create t [n] o = .ok (t ++ [([n], o)]) := by
  unfold create
  rw [if_neg (by simp)]
  simp [mkParents, h]

theorem create_member {t : Tree α} {n k : String} {o : Obj α} (hg : find t [n] = some .group) (h : find t [n, k] = none) :
    create t [n, k] o = .ok (t ++ [([n, k], o)]) := by
  unfold create
  rw [if_neg (by simp)]
  simp [mkParents, hg, h]

theorem writeDatasets_good (p : Fmt α) (hz : ∀ a, p.isZero a = true → a = p.zero) (n : String) (l : List (String × Val α)) (t : Tree α)
    (hl : ∀ kv ∈ l, Spec.Simple kv.1 ∧ Spec.Good kv.2) (hn : (l.map (·.1)).Nodup) (hg : find t [n] = some .group)
    (hf : ∀ kv ∈ l, find t [n, kv.1] = none) :
    writeDatasets p [n] l t = .ok (t ++ l.map fun kv => ([n, kv.1], .dset (enc p kv.2))) := by
  induction l generalizing t with
  | nil => simp [writeDatasets]
  | cons kv l ih =>
    obtain ⟨k, v⟩ := kv
    obtain ⟨hs, hv⟩ := hl (k, v) List.mem_cons_self
    replace hs := comps_simple hs
    dsimp only at hs hv
    rw [List.map_cons, List.nodup_cons] at hn
    unfold writeDatasets
    rw [(enc_good p hz hv).1]
    dsimp only
    rw [hs, if_neg (by simp), List.singleton_append, create_member hg (hf (k, v) List.mem_cons_self)]
    dsimp only
    rw [ih _ (fun kv h => hl kv (List.mem_cons_of_mem _ h)) hn.2 (by rw [find_append, hg]; rfl) fun kv h => by
      rw [find_append, hf kv (List.mem_cons_of_mem _ h), Option.none_or]
      refine find_none fun e he => ?_
      rw [List.mem_singleton.1 he]
      rintro hh
      simp only [List.cons.injEq, and_true, true_and] at hh
      exact hn.1 (List.mem_map.2 ⟨kv, h, hh.symm⟩)]
    simp

theorem nodes_head {p : Fmt α} {b : Bundle α} {e : List String × Obj α} (h : e ∈ nodes p b) : e.1.head? = some b.name := by
  unfold nodes at h
  rcases List.mem_cons.1 h with rfl | h
  · rfl
  · obtain ⟨kv, -, rfl⟩ := List.mem_map.1 h
    rfl

theorem writeBundles_good (p : Fmt α) (hz : ∀ a, p.isZero a = true → a = p.zero) (bs : List (Bundle α)) (t : Tree α)
    (hb : ∀ b ∈ bs, Spec.GoodBundle b) (hn : (bs.map (·.name)).Nodup)
    (hf : ∀ b ∈ bs, ∀ e ∈ t, e.1.head? ≠ some b.name) :
    writeBundles p bs t = .ok (t ++ bs.flatMap (nodes p)) := by
  induction bs generalizing t with
  | nil => simp [writeBundles]
  | cons b bs ih =>
    have g := hb b List.mem_cons_self
    have hs : comps b.name = [b.name] := comps_simple g.name
    rw [List.map_cons, List.nodup_cons] at hn
    have h0 := hf b List.mem_cons_self
    unfold writeBundles
    rw [hs, create_top (find_none fun e he hh => h0 e he (by rw [hh]; rfl))]
    dsimp only
    rw [writeDatasets_good p hz b.name b.datasets _ g.keys g.nodup ?_ ?_]
    · dsimp only
      rw [List.append_assoc, List.singleton_append]
      change writeBundles p bs (t ++ nodes p b) = _
      rw [ih (t ++ nodes p b) (fun b h => hb b (List.mem_cons_of_mem _ h)) hn.2 ?_]
      · rw [List.append_assoc, List.flatMap_cons]
      · intro b' hb' e he
        rcases List.mem_append.1 he with he | he
        · exact hf b' (List.mem_cons_of_mem _ hb') e he
        · rw [nodes_head he]
          intro hh
          exact hn.1 (List.mem_map.2 ⟨b', hb', (Option.some.inj hh).symm⟩)
    · rw [find_append, find_none fun e he hh => h0 e he (by rw [hh]; rfl)]
      simp [find]
    · intro kv _
      rw [find_append, find_none fun e he hh => h0 e he (by rw [hh]; rfl)]
      simp [find, List.lookup]

theorem members_append (t u : Tree α) (g : List String) : members (t ++ u) g = members t g ++ members u g :=
  List.filterMap_append

theorem members_nodes_top (p : Fmt α) (b : Bundle α) : members (nodes p b) [] = [(b.name, .group)] := by
  unfold members nodes
  simp [List.filterMap_map]

theorem members_nodes (p : Fmt α) (b : Bundle α) (n : String) : members (nodes p b) [n] =
    if b.name = n then b.datasets.map fun kv => (kv.1, .dset (enc p kv.2)) else [] := by
  unfold members nodes
  split_ifs with h
  · simp [List.filterMap_map, h]
  · simp [List.filterMap_map, h]

theorem members_top (p : Fmt α) (bs : List (Bundle α)) :
    members (bs.flatMap (nodes p)) [] = bs.map fun b => (b.name, .group) := by
  induction bs with
  | nil => rfl
  | cons b bs ih => rw [List.flatMap_cons, members_append, members_nodes_top, ih]; rfl

theorem members_none (p : Fmt α) (bs : List (Bundle α)) (n : String) (h : n ∉ bs.map (·.name)) :
    members (bs.flatMap (nodes p)) [n] = [] := by
  induction bs with
  | nil => rfl
  | cons b bs ih =>
    rw [List.map_cons, List.mem_cons, not_or] at h
    rw [List.flatMap_cons, members_append, members_nodes, if_neg (fun e => h.1 e.symm), ih h.2]; rfl

theorem members_bundle (p : Fmt α) (bs : List (Bundle α)) (hn : (bs.map (·.name)).Nodup) (b : Bundle α) (hb : b ∈ bs) :
    members (bs.flatMap (nodes p)) [b.name] = b.datasets.map fun kv => (kv.1, .dset (enc p kv.2)) := by
  induction bs with
  | nil => exact absurd hb List.not_mem_nil
  | cons c bs ih =>
    rw [List.map_cons, List.nodup_cons] at hn
    rw [List.flatMap_cons, members_append, members_nodes]
    rcases List.mem_cons.1 hb with rfl | hb
    · rw [if_pos rfl, members_none p bs _ hn.1, List.append_nil]
    · rw [if_neg (fun e => hn.1 (List.mem_map.2 ⟨b, hb, e.symm⟩)), ih hn.2 hb]; rfl

theorem decodeAll_good (p : Fmt α) (hz : ∀ a, p.isZero a = true → a = p.zero) (l : List (String × Val α)) (h : ∀ kv ∈ l, Spec.Good kv.2) :
    decodeAll (l.map fun kv => (kv.1, .dset (enc p kv.2))) = .ok (l.map fun kv => (kv.1, Spec.back kv.2)) := by
  induction l with
  | nil => rfl
  | cons kv l ih =>
    simp only [List.map_cons, decodeAll]
    rw [(enc_good p hz (h kv List.mem_cons_self)).2, ih fun kv h' => h kv (List.mem_cons_of_mem _ h')]

theorem readBundles_good (p : Fmt α) (hz : ∀ a, p.isZero a = true → a = p.zero) (t : Tree α) (bs : List (Bundle α))
    (hm : ∀ b ∈ bs, members t [b.name] = b.datasets.map fun kv => (kv.1, .dset (enc p kv.2)))
    (hb : ∀ b ∈ bs, Spec.GoodBundle b) :
    readBundles t (bs.map fun b => (b.name, .group)) = .ok (bs.map fun b => (b.name, Spec.content b)) := by
  induction bs with
  | nil => rfl
  | cons b bs ih =>
    simp only [List.map_cons, readBundles]
    rw [hm b List.mem_cons_self, decodeAll_good p hz _ fun kv h => ((hb b List.mem_cons_self).keys kv h).2,
      ih (fun b h => hm b (List.mem_cons_of_mem _ h)) fun b h => hb b (List.mem_cons_of_mem _ h)]
    rfl

/-- C80, guard: whatever is called, the bundles of the writer have distinct names; the first one of a name stays. -/
theorem c80_names (bs : List (Bundle α)) :
    ((addAll bs).map (·.name)).Nodup ∧ (∀ b ∈ addAll bs, b ∈ bs) ∧
      ∀ n, (addAll bs).find? (·.name == n) = bs.find? (·.name == n) := by
  unfold addAll
  induction bs using List.reverseRecOn with
  | nil => exact ⟨List.nodup_nil, fun _ h => h, fun _ => rfl⟩
  | append_singleton bs b ih =>
    obtain ⟨h1, h2, h3⟩ := ih
    rw [List.foldl_append]
    generalize List.foldl _ [] bs = aux at *
    simp only [List.foldl_cons, List.foldl_nil, addAuxiliary]
    split_ifs with h
    · dsimp only
      refine ⟨h1, fun a ha => List.mem_append_left _ (h2 a ha), fun n => ?_⟩
      rw [List.find?_append, ← h3 n]
      by_cases hn : b.name = n
      · obtain ⟨a, ha, e⟩ := List.any_eq_true.1 h
        have : (aux.find? (·.name == n)).isSome := by
          rw [List.find?_isSome]
          exact ⟨a, ha, by rw [← hn]; exact e⟩
        obtain ⟨y, hy⟩ := Option.isSome_iff_exists.1 this
        rw [hy]; rfl
      · simp [hn]
    · dsimp only
      have hnot : b.name ∉ aux.map (·.name) := by
        intro hm
        obtain ⟨a, ha, e⟩ := List.mem_map.1 hm
        exact h (List.any_eq_true.2 ⟨a, ha, by rw [e]; exact beq_self_eq_true _⟩)
      refine ⟨?_, fun a ha => ?_, fun n => ?_⟩
      · rw [List.map_append, List.nodup_append]
        refine ⟨h1, by simp, fun x hx y hy => ?_⟩
        simp only [List.map_cons, List.map_nil, List.mem_singleton] at hy
        exact fun e => hnot (hy ▸ e ▸ hx)
      · rcases List.mem_append.1 ha with ha | ha
        · exact List.mem_append_left _ (h2 a ha)
        · exact List.mem_append_right _ ha
      · rw [List.find?_append, List.find?_append, h3 n]

theorem lookup_map_find (bs : List (Bundle α)) (n : String) {β : Type} (g : Bundle α → β) :
    (bs.map fun b => (b.name, g b)).lookup n = (bs.find? (·.name == n)).map g := by
  induction bs with
  | nil => rfl
  | cons b bs ih =>
    simp only [List.map_cons, List.lookup_cons, List.find?_cons]
    by_cases h : b.name = n
    · subst h; simp
    · have h' : (n == b.name) = false := by simpa using fun e => h e.symm
      have h'' : (b.name == n) = false := by simpa using h
      rw [h', h'', ih]

/-- C80: whatever bundles are handed to the writer, the file can be written and read, and under each name the arrays and
lists of the first bundle of that name are found, nothing else (partial: names with `/`, negative zeros, empty lists,
`bytes` and arrays of strings with more than one dimension, see below). -/
theorem c80_roundtrip_partial (p : Fmt α) (hz : ∀ a, p.isZero a = true → a = p.zero) (bs : List (Bundle α))
    (hb : ∀ b ∈ bs, Spec.GoodBundle b) :
    ∃ file out, writeGroup p (addAll bs) = .ok file ∧ readGroup file = .ok out ∧ (out.map (·.1)).Nodup ∧
      ∀ n, out.lookup n = (bs.find? (·.name == n)).map Spec.content := by
  obtain ⟨h1, h2, h3⟩ := c80_names bs
  have hb' : ∀ b ∈ addAll bs, Spec.GoodBundle b := fun b h => hb b (h2 b h)
  have key : ∃ file, writeGroup p (addAll bs) = .ok file ∧
      readGroup file = .ok ((addAll bs).map fun b => (b.name, Spec.content b)) := by
    generalize addAll bs = aux at *
    unfold writeGroup
    cases aux with
    | nil => exact ⟨none, rfl, rfl⟩
    | cons a aux =>
      rw [if_neg (by simp), writeBundles_good p hz _ [] hb' h1 (fun _ _ _ h => absurd h List.not_mem_nil)]
      refine ⟨_, rfl, ?_⟩
      rw [List.nil_append]
      change readBundles _ (members _ []) = _
      rw [members_top]
      exact readBundles_good p hz _ _ (fun b h => members_bundle p _ h1 b h) hb'
  obtain ⟨file, k1, k2⟩ := key
  refine ⟨file, _, k1, k2, ?_, fun n => ?_⟩
  · rw [List.map_map]
    exact h1
  · rw [lookup_map_find, h3]

/-- C80 does not hold for numbers that count as zero without being the stored zero (-0.0): "bit-for-bit" fails. -/
theorem c80_bits_violated (p : Fmt α) (x : α) (h0 : p.isZero x = true) (hx : x ≠ p.zero) (t : String) :
    ∃ d o, encode p (.arr t ⟨[1], [x]⟩) = .ok d ∧ decode (.dset d) = .ok o ∧ o = .arr t ⟨[1], [p.zero]⟩ ∧
      o ≠ Spec.back (.arr t ⟨[1], [x]⟩) := by
  have hc : chunkSize 1 (p.esize t) p.maxChunk = 1 := by unfold chunkSize; simp
  have : maketensor (writeFlatInChunks p.isZero p.zero (p.esize t) p.maxChunk ⟨[1], [x]⟩) = ⟨[1], [p.zero]⟩ := by
    unfold writeFlatInChunks
    simp [hc, offsets, writeLoop, h0, maketensor]
  refine ⟨_, _, rfl, rfl, by rw [this], ?_⟩
  rw [this]
  unfold Spec.back
  simpa using fun h => hx h.symm

/-- C80 does not hold for an empty list of strings: an empty array of floats is read. -/
theorem c80_empty_violated (p : Fmt α) : ∃ d, encode p (.list []) = .ok d ∧
    decode (.dset d) = .ok (.arr "float64" ⟨[0], []⟩) ∧ (Spec.back (.list []) : Out α) = .strs [] := by
  refine ⟨_, rfl, ?_, rfl⟩
  simp [decode, writeFlatInChunks, maketensor, offsets, chunkSize, writeLoop]

/-- C80 does not hold for arrays of `bytes`, which the writer accepts as strings: the representation is read, not the
text. -/
theorem c80_bytes_violated (p : Fmt α) (s : String) (hs : '\x00' ∉ s.toList) : ∃ d, encode p (.bytesArr [1] [s]) = .ok d ∧
    decode (.dset d) = .ok (.strs ["b'" ++ s ++ "'"]) ∧ "b'" ++ s ++ "'" ≠ s := by
  refine ⟨.text ["b'" ++ s ++ "'"], textDset_ok ?_, rfl, fun h => ?_⟩
  · simpa using hs
  · have := congrArg String.length h
    simp [String.length_append] at this
    have e : "b'".length = 2 := by decide +kernel
    have e' : "'".length = 1 := by decide +kernel
    omega

theorem encode_strArr (p : Fmt α) (s : List Nat) (l : List String) (h : ∀ t ∈ l, '\x00' ∉ t.toList) :
    encode p (.strArr s l) = .ok (.text l) := textDset_ok h

/-- C80 does not hold for arrays of strings of more than one dimension: arrays of different shape, (1, 2) and (2, 1) for
example, are stored alike, so no reader can tell them apart. -/
theorem c80_shape_violated (p : Fmt α) (s s' : List Nat) (l : List String) (h : ∀ t ∈ l, '\x00' ∉ t.toList) :
    encode p (.strArr s l) = encode p (.strArr s' l) ∧ ∃ d, encode p (.strArr s l) = .ok d := by
  rw [encode_strArr p s l h, encode_strArr p s' l h]
  exact ⟨rfl, _, rfl⟩

theorem mem_of_find {t : Tree α} {q : List String} {o : Obj α} (h : find t q = some o) : (q, o) ∈ t := by
  unfold find at h
  induction t with
  | nil => exact nomatch h
  | cons e t ih =>
    obtain ⟨a, o'⟩ := e
    rw [List.lookup_cons] at h
    by_cases ha : q = a
    · subst ha
      rw [beq_self_eq_true] at h
      rw [Option.some.inj h]
      exact List.mem_cons_self
    · rw [show (q == a) = false by simpa using ha] at h
      exact List.mem_cons_of_mem _ (ih h)

theorem mkParents_ok {t t' : Tree α} {ps : List (List String)} (h : mkParents t ps = .ok t') :
    t ⊆ t' ∧ ∀ q ∈ ps, (q, Obj.group) ∈ t' := by
  induction ps generalizing t with
  | nil => cases h; exact ⟨fun _ h => h, fun _ h => absurd h List.not_mem_nil⟩
  | cons p ps ih =>
    unfold mkParents at h
    split at h
    · obtain ⟨h1, h2⟩ := ih h
      refine ⟨fun e he => h1 (List.mem_append_left _ he), fun q hq => ?_⟩
      rcases List.mem_cons.1 hq with rfl | hq
      · exact h1 (List.mem_append_right _ List.mem_cons_self)
      · exact h2 q hq
    · rename_i hf
      obtain ⟨h1, h2⟩ := ih h
      refine ⟨h1, fun q hq => ?_⟩
      rcases List.mem_cons.1 hq with rfl | hq
      · exact h1 (mem_of_find hf)
      · exact h2 q hq
    · exact nomatch h

theorem create_ok {t t' : Tree α} {path : List String} {o : Obj α} (h : create t path o = .ok t') :
    t ⊆ t' ∧ (path, o) ∈ t' ∧ ∀ q, q ≠ [] → q <+: path → q ≠ path → (q, Obj.group) ∈ t' := by
  unfold create at h
  split_ifs at h with hp
  cases hm : mkParents t ((List.range (path.length - 1)).map fun i => path.take (i + 1)) with
  | error e => rw [hm] at h; exact nomatch h
  | ok t₁ =>
    rw [hm] at h
    dsimp only at h
    split at h
    · exact nomatch h
    cases h
    obtain ⟨h1, h2⟩ := mkParents_ok hm
    refine ⟨fun e he => List.mem_append_left _ (h1 he), List.mem_append_right _ List.mem_cons_self, fun q hq hpre hne => ?_⟩
    refine List.mem_append_left _ (h2 q ?_)
    have h1 := hpre.length_le
    have h2 : q.length ≠ path.length := fun e => hne (hpre.eq_of_length e)
    have h3 := List.length_pos_iff.2 hq
    refine List.mem_map.2 ⟨q.length - 1, List.mem_range.2 (by omega), ?_⟩
    rw [Nat.sub_add_cancel h3]
    exact (List.prefix_iff_eq_take.1 hpre).symm

theorem writeDatasets_ok {p : Fmt α} {g : List String} {l : List (String × Val α)} {t t' : Tree α}
    (h : writeDatasets p g l t = .ok t') : t ⊆ t' ∧ ∀ kv ∈ l, ∃ t₁ t₂ d, create t₁ (g ++ comps kv.1) (.dset d) = .ok t₂ ∧ t₂ ⊆ t' := by
  induction l generalizing t with
  | nil => cases h; exact ⟨fun _ h => h, fun _ h => absurd h List.not_mem_nil⟩
  | cons kv l ih =>
    obtain ⟨k, v⟩ := kv
    unfold writeDatasets at h
    split at h
    · exact nomatch h
    rename_i d hd
    split at h
    · exact nomatch h
    rename_i t₂ hc
    split_ifs at hc with h0
    obtain ⟨h1, h2⟩ := ih h
    refine ⟨fun e he => h1 ((create_ok hc).1 he), fun kv hkv => ?_⟩
    rcases List.mem_cons.1 hkv with rfl | hkv
    · exact ⟨t, t₂, d, hc, h1⟩
    · exact h2 kv hkv

theorem writeBundles_ok {p : Fmt α} {bs : List (Bundle α)} {t t' : Tree α} (h : writeBundles p bs t = .ok t') :
    t ⊆ t' ∧ ∀ b ∈ bs, ∃ t₁ t₂ t₃, create t₁ (comps b.name) .group = .ok t₂ ∧
      writeDatasets p (comps b.name) b.datasets t₂ = .ok t₃ ∧ t₃ ⊆ t' := by
  induction bs generalizing t with
  | nil => cases h; exact ⟨fun _ h => h, fun _ h => absurd h List.not_mem_nil⟩
  | cons b bs ih =>
    unfold writeBundles at h
    split at h
    · exact nomatch h
    rename_i t₂ h2
    split at h
    · exact nomatch h
    rename_i t₃ h3
    obtain ⟨k1, k2⟩ := ih h
    refine ⟨fun e he => k1 ((writeDatasets_ok h3).1 ((create_ok h2).1 he)), fun c hc => ?_⟩
    rcases List.mem_cons.1 hc with rfl | hc
    · exact ⟨t, t₂, t₃, h2, h3, k1⟩
    · exact k2 c hc

theorem decodeAll_group {l : List (String × Obj α)} {k : String} (h : (k, Obj.group) ∈ l) : decodeAll l = .error .attr := by
  induction l with
  | nil => exact absurd h List.not_mem_nil
  | cons e l ih =>
    obtain ⟨k', o⟩ := e
    unfold decodeAll
    rcases List.mem_cons.1 h with h' | h'
    · rw [← (Prod.mk.inj h').2]; rfl
    · cases o with
      | group => rfl
      | dset d => cases d <;> simp only [decode, ih h']

theorem readBundles_group {t : Tree α} {l : List (String × Obj α)} {n : String} (h : (n, Obj.group) ∈ l)
    (hd : decodeAll (members t [n]) = .error .attr) : readBundles t l = .error .attr := by
  have hk : ∀ l : List (String × Obj α), decodeAll l = .error .attr ∨ ∃ r, decodeAll l = .ok r := by
    intro l
    induction l with
    | nil => exact .inr ⟨_, rfl⟩
    | cons e l ih =>
      obtain ⟨k, o⟩ := e
      unfold decodeAll
      cases o with
      | group => exact .inl rfl
      | dset d => cases d <;> rcases ih with ih | ⟨r, ih⟩ <;> simp [decode, ih]
  induction l with
  | nil => exact absurd h List.not_mem_nil
  | cons e l ih =>
    obtain ⟨m, o⟩ := e
    cases o with
    | dset d => rfl
    | group =>
      unfold readBundles
      rcases List.mem_cons.1 h with h | h
      · rw [← (Prod.mk.inj h).1, hd]
      · rcases hk (members t [m]) with e | ⟨r, e⟩
        · rw [e]
        · rw [e]
          dsimp only
          rw [ih h]

theorem read_group {t : Tree α} {x y : String} (h1 : ([x], Obj.group) ∈ t) (h2 : ([x, y], Obj.group) ∈ t) :
    readGroup (some t) = .error .attr := by
  refine readBundles_group (n := x) ?_ (decodeAll_group (k := y) ?_)
  · exact List.mem_filterMap.2 ⟨_, h1, by simp⟩
  · exact List.mem_filterMap.2 ⟨_, h2, by simp⟩

/-- C80 does not hold for names with `/`: if a name of a bundle, or a key of a bundle, has more than one component, the
file is written without complaint, and then cannot be read at all, not even for a fit that uses no auxiliary data. -/
theorem c80_slash_violated (p : Fmt α) (aux : List (Bundle α)) (file : Option (Tree α)) (hw : writeGroup p aux = .ok file)
    (b : Bundle α) (hb : b ∈ aux)
    (hs : 2 ≤ (comps b.name).length ∨ ((comps b.name).length = 1 ∧ ∃ kv ∈ b.datasets, 2 ≤ (comps kv.1).length)) :
    readGroup file = .error .attr := by
  unfold writeGroup at hw
  rw [if_neg (by cases aux <;> simp_all)] at hw
  split at hw
  · exact nomatch hw
  rename_i t ht
  cases hw
  obtain ⟨t₁, t₂, t₃, h1, h2, h3⟩ := (writeBundles_ok ht).2 b hb
  obtain ⟨-, g2, g3⟩ := create_ok h1
  obtain ⟨d1, d2⟩ := writeDatasets_ok h2
  rcases hs with hs | ⟨hs, ⟨k, v⟩, hkv, hk⟩
  · match hc : comps b.name, hs with
    | [x, y], _ =>
      rw [hc] at g2 g3
      exact read_group (h3 (d1 (g3 [x] (by simp) ⟨[y], rfl⟩ (by simp)))) (h3 (d1 g2))
    | x :: y :: z :: r, _ =>
      rw [hc] at g2 g3
      exact read_group (h3 (d1 (g3 [x] (by simp) ⟨y :: z :: r, rfl⟩ (by simp)))) (h3 (d1 (g3 [x, y] (by simp) ⟨z :: r, rfl⟩ (by simp))))
  · obtain ⟨x, hx⟩ := List.length_eq_one_iff.1 hs
    obtain ⟨u₁, u₂, d, hu, hsub⟩ := d2 (k, v) hkv
    rw [hx] at hu g2
    dsimp only at hk hu
    match hc : comps k, hk with
    | y :: z :: r, _ =>
      rw [hc] at hu
      exact read_group (h3 (d1 g2)) (h3 (hsub ((create_ok hu).2.2 [x, y] (by simp) ⟨z :: r, rfl⟩ (by simp))))

namespace Ex

/-- elements with two zeros -/
inductive Num where
  | zero | negZero | one
  deriving DecidableEq

def fmt : Fmt Bool := ⟨fun b => !b, false, fun _ => 1, 4⟩

def fmtNum : Fmt Num := ⟨fun b => b != .one, .zero, fun _ => 8, 1024⟩

def bundle : Bundle Bool := ⟨"response", [("matrix", .arr "bool" ⟨[2, 3], [true, false, false, true, true, false]⟩),
  ("axes", .list ["pt", "eta"])]⟩

example : ∀ a, fmt.isZero a = true → a = fmt.zero := by decide

example : Spec.GoodBundle bundle :=
  ⟨by unfold Spec.Simple; decide +kernel,
    by
      intro kv h
      simp only [bundle, List.mem_cons, List.not_mem_nil, or_false] at h
      rcases h with rfl | rfl
      · exact ⟨by unfold Spec.Simple; decide +kernel, trivial⟩
      · refine ⟨by unfold Spec.Simple; decide +kernel, by simp, ?_⟩
        decide +kernel,
    by decide +kernel⟩

example : fmtNum.isZero .negZero = true ∧ Num.negZero ≠ fmtNum.zero := by decide

/-- a name with two components; the file is written -/
example : 2 ≤ (comps "unfolding/response").length ∧
    ∃ file, writeGroup fmt [⟨"unfolding/response", [("axes", .list ["pt"])]⟩] = .ok file := by
  refine ⟨by decide +kernel, ?_⟩
  have h : comps "unfolding/response" = ["unfolding", "response"] := by decide +kernel
  have h' : comps "axes" = ["axes"] := by decide +kernel
  have h'' : encode fmt (.list ["pt"]) = .ok (.text ["pt"]) := by
    exact encode_strArr fmt [1] ["pt"] (by decide +kernel)
  simp [writeGroup, writeBundles, writeDatasets, h, h', h'', create, mkParents, find, List.lookup, List.range_succ]

end Ex

end Verif.Auxiliary
