import Verif.Lemmas.Write
import Verif.Lemmas.NaturalSort

/-! Helper lemmas: how the sets of nuisances evolve. -/

namespace Verif.Writer

open Verif.Logk M

set_option linter.unusedSectionVars false

variable {V : Type} [Field V] [LinearOrder V]

/-- one booking -/
structure Booking where
  name : String
  toCov : Bool
  o : SystOpts

/-- the sets of nuisances -/
structure Bk where
  standard : List String := []
  noConstraint : List String := []
  noi : List String := []
  groups : Dict String (List String) := []
  covariance : List String := []

def bk (s : State V) : Bk := ⟨s.standard, s.noConstraint, s.noi, s.groups, s.covariance⟩

def bookB (k : Bk) (b : Booking) : Bk :=
  { standard := if b.toCov || !b.o.constrained then k.standard else setAdd k.standard b.name
    noConstraint := if !b.toCov && !b.o.constrained then setAdd k.noConstraint b.name else k.noConstraint
    noi := if b.o.noi then setAdd k.noi b.name else k.noi
    groups := if b.toCov then k.groups
      else (b.o.groups.getD [b.name]).foldl (fun gs g => addToGroup gs g b.name) k.groups
    covariance := if b.toCov then setAdd k.covariance b.name else k.covariance }

/-- the statement only performs bookings of `R`, and all of `L` if it succeeds -/
structure Books {α : Type} (R : Booking → Prop) (L : List Booking) (m : M V α) : Prop where
  run : ∀ s, ∃ bs : List Booking, bk (m s).1 = bs.foldl bookB (bk s) ∧
    (∀ b ∈ bs, R b ∧ (b.toCov && b.o.noi) = false) ∧ ∀ a, (m s).2 = .ok a → ∀ b ∈ L, b ∈ bs

namespace Books
variable {α β : Type} {R : Booking → Prop} {L : List Booking}

theorem of_keeps {m : M V α} (h : Keeps bk m) : Books R [] m := ⟨fun s => ⟨[], h.run s, by simp, by simp⟩⟩

theorem raise (e : Err) : Books R L (M.raise e : M V α) := ⟨fun s => ⟨[], rfl, by simp, fun a h => by cases h⟩⟩

theorem bind' {L' : List Booking} {m : M V α} {f : α → M V β} (hm : Books R L m) (hf : ∀ s a, (m s).2 = .ok a →
    Books R L' (f a)) : Books R (L ++ L') (m >>= f) := by
  refine ⟨fun s => ?_⟩
  obtain ⟨bs, h1, h2, h3⟩ := hm.run s
  rw [bind_def]
  split
  · rename_i s' a he
    rw [he] at h1 h3
    obtain ⟨bs', h4, h5, h6⟩ := (hf s a (by rw [he])).run s'
    refine ⟨bs ++ bs', by rw [List.foldl_append, ← h1]; exact h4, fun b hb => ?_, fun x hx b hb => ?_⟩
    · rcases List.mem_append.1 hb with hb | hb
      · exact h2 b hb
      · exact h5 b hb
    · rw [List.mem_append]
      rcases List.mem_append.1 hb with hb | hb
      · exact .inl (h3 a rfl b hb)
      · exact .inr (h6 x hx b hb)
  · rename_i s' e he
    rw [he] at h1
    exact ⟨bs, h1, h2, fun x hx => by cases hx⟩

theorem bind {m : M V α} {f : α → M V β} (hm : Books R [] m) (hf : ∀ a, Books R L (f a)) : Books R L (m >>= f) :=
  bind' hm fun _ a _ => hf a

theorem bindL {m : M V α} {f : α → M V β} (hm : Books R L m) (hf : ∀ a, Books R [] (f a)) : Books R L (m >>= f) := by
  have := bind' hm fun _ a _ => hf a
  rwa [List.append_nil] at this

end Books

theorem bookSystematic_run (name : String) (toCov : Bool) (o : SystOpts) (s : State V) :
    (toCov && o.noi) = true ∧ bookSystematic name toCov o s = (s, .error .value) ∨
    (toCov && o.noi) = false ∧ (bookSystematic name toCov o s).2 = .ok () ∧
      bk (bookSystematic name toCov o s).1 = bookB (bk s) ⟨name, toCov, o⟩ := by
  unfold bookSystematic
  rw [raiseIf_bind]
  cases h : (toCov && o.noi) with
  | true => exact .inl ⟨rfl, by simp⟩
  | false =>
    refine .inr ⟨rfl, rfl, ?_⟩
    simp only [Bool.false_eq_true, if_false, modify_bind, M.modify]
    obtain ⟨noi, con, gr⟩ := o
    cases toCov <;> cases con <;> cases noi <;> rfl

theorem books_bookSystematic {R : Booking → Prop} (name : String) (toCov : Bool) (o : SystOpts) (h : R ⟨name, toCov, o⟩) :
    Books R [⟨name, toCov, o⟩] (bookSystematic name toCov o : M V Unit) := by
  refine ⟨fun s => ?_⟩
  rcases bookSystematic_run name toCov o s with ⟨_, he⟩ | ⟨h0, _, he⟩
  · exact ⟨[], by rw [he]; rfl, by simp, fun a ha => by rw [he] at ha; cases ha⟩
  · exact ⟨[_], he, by simpa using ⟨h, by simpa using h0⟩, by simp⟩

theorem keepsBk_bookLogk (cfg : Cfg V) (half : Bool) (logk : LogkIn V) (chan : String) (proc : Option String)
    (name : String) : Keeps bk (bookLogk cfg half logk chan proc name) := by
  unfold bookLogk
  cases proc <;> keeps <;> rfl

/-- names a call asks to book -/
def asymNames (symm : Symm) (name : String) : List String :=
  match symm with
  | .linear | .quadratic => [name ++ "SymDiff"]
  | _ => []

def avgName (symm : Symm) (name : String) : String :=
  match symm with
  | .linear | .quadratic => name ++ "SymAvg"
  | _ => name

theorem books_computeAsymSyst {R : Booking → Prop} (cfg : Cfg V) (up down : List V) (name : String)
    (proc : Option String) (chan : String) (symm : Symm) (toCov : Bool) (idx : Option (List Nat)) (o : SystOpts)
    (h : ∀ n ∈ asymNames symm name, R ⟨n, toCov, o⟩) :
    Books R ((asymNames symm name).map fun n => ⟨n, toCov, o⟩)
      (computeAsymSyst cfg up down name proc chan symm toCov idx o) := by
  unfold computeAsymSyst
  refine Books.bind (.of_keeps (Keeps.lift _)) fun avg => ?_
  cases symm with
  | conservative => exact .of_keeps (Keeps.pure _)
  | average => exact .of_keeps (Keeps.pure _)
  | linear =>
    exact Books.bind (.of_keeps (Keeps.lift _)) fun _ => Books.bind (.of_keeps (keepsBk_bookLogk ..)) fun _ =>
      Books.bindL (books_bookSystematic _ _ _ (h _ (by simp [asymNames]))) fun _ => .of_keeps (Keeps.pure _)
  | quadratic =>
    exact Books.bind (.of_keeps (Keeps.lift _)) fun _ => Books.bind (.of_keeps (keepsBk_bookLogk ..)) fun _ =>
      Books.bindL (books_bookSystematic _ _ _ (h _ (by simp [asymNames]))) fun _ => .of_keeps (Keeps.pure _)
  | none =>
    refine .of_keeps ?_
    keeps <;> first | exact keepsBk_bookLogk .. | rfl

/-- what a successful `_compute_asym_syst` returns -/
theorem computeAsymSyst_ok {cfg : Cfg V} {up down : List V} {name : String} {proc : Option String} {chan : String}
    {symm : Symm} {toCov : Bool} {idx : Option (List Nat)} {o : SystOpts} {s s' : State V} {r : List V × String}
    (h : computeAsymSyst cfg up down name proc chan symm toCov idx o s = (s', .ok r)) :
    r.2 = avgName symm name ∧
      zipB (fun u d => (computeAsym cfg.num symm u d).avg) up down = .ok r.1 ∧
      (proc = none → asymNames symm name = []) ∧
      ∀ n ∈ asymNames symm name, ∃ s1, (bookSystematic n toCov o s1) = (s', .ok ()) := by
  unfold computeAsymSyst at h
  obtain ⟨avg, ha, h⟩ := lift_bind_ok h
  cases symm with
  | conservative => cases h; exact ⟨rfl, ha, fun _ => rfl, by simp [asymNames]⟩
  | average => cases h; exact ⟨rfl, ha, fun _ => rfl, by simp [asymNames]⟩
  | none =>
    dsimp only at h
    rw [raiseIf_bind] at h
    split at h
    · cases h
    · rw [modify_bind] at h
      obtain ⟨hd, _, h⟩ := lift_bind_ok h
      obtain ⟨s1, _, _, h⟩ := bind_ok h
      cases h
      exact ⟨rfl, ha, fun _ => rfl, by simp [asymNames]⟩
  | linear | quadratic =>
    dsimp only at h
    obtain ⟨diff, _, h⟩ := lift_bind_ok h
    obtain ⟨s1, u1, h1, h⟩ := bind_ok h
    obtain ⟨s2, u2, h2, h⟩ := bind_ok h
    cases h
    refine ⟨rfl, ha, fun hp => ?_, fun n hn => ⟨s1, ?_⟩⟩
    · subst hp
      unfold bookLogk at h1
      rw [read_bind] at h1
      cases h1
    · simp only [asymNames, List.mem_singleton] at hn
      subst hn; exact h2

/-- names booked by `add_systematic` -/
def systNames (x : SystIn V) (symm : Symm) (name : String) : List String :=
  match x with
  | .single _ => [name]
  | .pair _ _ => asymNames symm name ++ [avgName symm name]

theorem books_addSystematic {R : Booking → Prop} (cfg : Cfg V) (x : SystIn V) (name proc chan : String) (kfac : V)
    (mirror : Bool) (symm : Symm) (toCov asDiff : Bool) (o : SystOpts)
    (h : ∀ n ∈ systNames x symm name, R ⟨n, toCov, o⟩) :
    Books R ((systNames x symm name).map fun n => ⟨n, toCov, o⟩)
      (addSystematic cfg x name proc chan kfac mirror symm toCov asDiff o) := by
  unfold addSystematic
  refine Books.bind (.of_keeps Keeps.read) fun s => Books.bind (.of_keeps (Keeps.lift _)) fun nc =>
    Books.bind (.of_keeps (Keeps.lift _)) fun norm => Books.bind (.of_keeps (Keeps.lift _)) fun c => ?_
  cases x with
  | single hh =>
    refine Books.bind (.of_keeps (Keeps.raiseIf _ _)) fun _ => ?_
    refine Books.bind (.of_keeps (Keeps.lift _)) fun _ => Books.bind (.of_keeps (Keeps.lift _)) fun _ =>
      Books.bind (.of_keeps (Keeps.lift _)) fun _ => Books.bind (.of_keeps (Keeps.lift _)) fun _ =>
      Books.bind (.of_keeps (keepsBk_bookLogk ..)) fun _ => books_bookSystematic _ _ _ (h _ (by simp [systNames]))
  | pair hu hd =>
    refine Books.bind (.of_keeps (Keeps.lift _)) fun _ => Books.bind (.of_keeps (Keeps.lift _)) fun _ =>
      Books.bind (.of_keeps (Keeps.lift _)) fun _ => Books.bind (.of_keeps (Keeps.lift _)) fun _ =>
      Books.bind (.of_keeps (Keeps.lift _)) fun _ => Books.bind (.of_keeps (Keeps.lift _)) fun _ =>
      Books.bind (.of_keeps (Keeps.lift _)) fun up => Books.bind (.of_keeps (Keeps.lift _)) fun dn => ?_
    simp only [systNames, List.map_append, List.map_cons, List.map_nil] at h ⊢
    refine Books.bind' (books_computeAsymSyst _ _ _ _ _ _ _ _ _ _ fun n hn => h n (List.mem_append.2 (.inl hn))) ?_
    intro s r hr
    have hr := (computeAsymSyst_ok (s' := (computeAsymSyst cfg up (dn.map fun v => -v) name (some proc) chan symm toCov
      norm.idx o s).1) (by rw [← hr])).1
    rw [hr]
    exact Books.bind (.of_keeps (keepsBk_bookLogk ..)) fun _ =>
      books_bookSystematic _ _ _ (h _ (List.mem_append.2 (.inr (by simp))))

theorem avgName_of_nil {symm : Symm} {name : String} (h : asymNames symm name = []) : avgName symm name = name := by
  cases symm <;> simp [asymNames] at h <;> rfl

/-- a normalisation systematic books nothing inside its loop -/
theorem keepsBk_normOne (cfg : Cfg V) (name chan : String) (toCov : Bool) (symm : Symm) (o : SystOpts)
    (varName p : String) (u : Unc V) : Keeps bk (normOne cfg name chan toCov symm o varName p u) := by
  unfold normOne
  refine Keeps.bind Keeps.read fun s => Keeps.bind (Keeps.lift _) fun nc => Keeps.bind (Keeps.lift _) fun norm => ?_
  dsimp only
  split
  · keeps; exact keepsBk_bookLogk ..
  · refine Keeps.bind (Keeps.lift _) fun up => Keeps.bind (Keeps.lift _) fun dn => Keeps.bind ?_ fun r =>
      Keeps.bind (keepsBk_bookLogk ..) fun _ => Keeps.pure _
    unfold computeAsymSyst
    refine Keeps.bind (Keeps.lift _) fun avg => ?_
    cases symm with
    | conservative => exact Keeps.pure _
    | average => exact Keeps.pure _
    | none => keeps <;> first | exact keepsBk_bookLogk .. | rfl
    | linear | quadratic =>
      refine Keeps.bind (Keeps.lift _) fun diff => ⟨fun s => ?_⟩
      unfold bookLogk
      rw [bind_def]
      rfl
  · exact Keeps.raise _

theorem keepsBk_normLoop (cfg : Cfg V) (name chan : String) (toCov : Bool) (symm : Symm) (o : SystOpts)
    (l : List (String × Unc V)) : ∀ varName, Keeps bk (normLoop cfg name chan toCov symm o varName l) := by
  induction l with
  | nil => exact fun v => Keeps.pure v
  | cons x l ih =>
    obtain ⟨p, u⟩ := x
    exact fun v => Keeps.bind (keepsBk_normOne ..) fun v' => ih v'

/-- the name booked by a successful normalisation systematic -/
theorem normOne_ok {cfg : Cfg V} {name chan : String} {toCov : Bool} {symm : Symm} {o : SystOpts} {varName p : String}
    {u : Unc V} {s s' : State V} {v : String} (h : normOne cfg name chan toCov symm o varName p u s = (s', .ok v))
    (hv : varName = name) : v = name := by
  unfold normOne at h
  rw [read_bind] at h
  obtain ⟨nc, _, h⟩ := lift_bind_ok h
  obtain ⟨norm, _, h⟩ := lift_bind_ok h
  dsimp only at h
  split at h
  · obtain ⟨lk, _, h⟩ := lift_bind_ok h
    obtain ⟨s1, _, _, h⟩ := bind_ok h
    cases h; exact hv
  · obtain ⟨up, _, h⟩ := lift_bind_ok h
    obtain ⟨dn, _, h⟩ := lift_bind_ok h
    obtain ⟨s1, r, h1, h⟩ := bind_ok h
    obtain ⟨s2, _, _, h⟩ := bind_ok h
    cases h
    have := computeAsymSyst_ok h1
    rw [this.1, avgName_of_nil (this.2.2.1 rfl)]
  · cases h

theorem normLoop_ok {cfg : Cfg V} {name chan : String} {toCov : Bool} {symm : Symm} {o : SystOpts}
    {l : List (String × Unc V)} : ∀ {varName v : String} {s s' : State V}, varName = name →
    normLoop cfg name chan toCov symm o varName l s = (s', .ok v) → v = name := by
  induction l with
  | nil => intro varName v s s' hv h; cases h; exact hv
  | cons x l ih =>
    intro varName v s s' hv h
    obtain ⟨p, u⟩ := x
    obtain ⟨s1, v1, h1, h⟩ := bind_ok h
    exact ih (normOne_ok h1 hv) h

theorem books_addNormSystematic {R : Booking → Prop} (cfg : Cfg V) (name : String) (procs : List String) (chan : String)
    (unc : List (Unc V)) (toCov : Bool) (symm : Symm) (o : SystOpts) (h : R ⟨name, toCov, o⟩) :
    Books R [⟨name, toCov, o⟩] (addNormSystematic cfg name procs chan unc toCov symm o) := by
  unfold addNormSystematic
  refine Books.bind (.of_keeps (Keeps.raiseIf _ _)) fun _ =>
    Books.bind' (L := []) (.of_keeps (keepsBk_normLoop ..)) fun s v hv => ?_
  have hv := normLoop_ok (s' := (normLoop cfg name chan toCov symm o name (procs.zip unc) s).1) rfl (by rw [← hv])
  subst hv
  exact books_bookSystematic _ _ _ h

/-! ### Effects of bookings -/

theorem mem_foldl_addToGroup (name : String) (l : List String) : ∀ (gs : Dict String (List String)) (g n : String),
    n ∈ ((l.foldl (fun gs g => addToGroup gs g name) gs).get? g).getD [] ↔
      n ∈ (gs.get? g).getD [] ∨ (g ∈ l ∧ n = name) := by
  induction l with
  | nil => simp
  | cons x l ih =>
    intro gs g n
    rw [List.foldl_cons, ih]
    unfold addToGroup
    rw [Dict.get?_set]
    by_cases hx : x = g
    · subst hx
      simp only [if_true, Option.getD_some, mem_setAdd, List.mem_cons, true_or, true_and]
      tauto
    · simp only [hx, if_false, List.mem_cons]
      have : ¬ g = x := fun h => hx h.symm
      tauto

theorem keys_foldl_addToGroup (name : String) (l : List String) : ∀ (gs : Dict String (List String)),
    (Dict.keys gs).Nodup → (Dict.keys (l.foldl (fun gs g => addToGroup gs g name) gs)).Nodup := by
  induction l with
  | nil => exact fun _ h => h
  | cons x l ih => exact fun gs h => ih _ (Dict.nodup_keys_set _ _ _ h)

theorem nodup_foldl_addToGroup (name : String) (l : List String) : ∀ (gs : Dict String (List String)),
    (∀ g m, gs.get? g = some m → m.Nodup ∧ m ≠ []) →
      ∀ g m, (l.foldl (fun gs g => addToGroup gs g name) gs).get? g = some m → m.Nodup ∧ m ≠ [] := by
  induction l with
  | nil => exact fun _ h => h
  | cons x l ih =>
    intro gs h
    refine ih _ fun g m hm => ?_
    unfold addToGroup at hm
    rw [Dict.get?_set] at hm
    split at hm
    · cases hm
      refine ⟨nodup_setAdd _ _ ?_, fun h0 => ?_⟩
      · cases hx : gs.get? x with
        | none => simp
        | some m => exact (h x m hx).1
      · have : name ∈ setAdd ((gs.get? x).getD []) name := by rw [mem_setAdd]; exact .inr rfl
        rw [h0] at this; cases this
    · exact h g m hm

/-- what the sets contain after a list of bookings -/
structure BkSpec (bs : List Booking) (k : Bk) : Prop where
  standard : ∀ n, n ∈ k.standard ↔ ∃ b ∈ bs, b.name = n ∧ b.toCov = false ∧ b.o.constrained = true
  noConstraint : ∀ n, n ∈ k.noConstraint ↔ ∃ b ∈ bs, b.name = n ∧ b.toCov = false ∧ b.o.constrained = false
  noi : ∀ n, n ∈ k.noi ↔ ∃ b ∈ bs, b.name = n ∧ b.o.noi = true
  covariance : ∀ n, n ∈ k.covariance ↔ ∃ b ∈ bs, b.name = n ∧ b.toCov = true
  groups : ∀ g n, n ∈ (k.groups.get? g).getD [] ↔ ∃ b ∈ bs, b.name = n ∧ b.toCov = false ∧ g ∈ b.o.groups.getD [b.name]
  nodup : k.standard.Nodup ∧ k.noConstraint.Nodup ∧ k.noi.Nodup ∧ k.covariance.Nodup ∧ (Dict.keys k.groups).Nodup
  members : ∀ g m, k.groups.get? g = some m → m.Nodup ∧ m ≠ []

theorem bkSpec_nil : BkSpec [] {} := by
  refine ⟨?_, ?_, ?_, ?_, ?_, ?_, ?_⟩ <;> simp [Dict.keys]

theorem bkSpec_snoc {bs : List Booking} {k : Bk} (h : BkSpec bs k) (b : Booking) : BkSpec (bs ++ [b]) (bookB k b) := by
  obtain ⟨n1, n2, n3, n4, n5⟩ := h.nodup
  refine ⟨?_, ?_, ?_, ?_, ?_, ⟨?_, ?_, ?_, ?_, ?_⟩, ?_⟩
  · intro n
    unfold bookB
    cases ht : b.toCov <;> cases hc : b.o.constrained <;>
      simp [ht, hc, mem_setAdd, h.standard, or_and_right, exists_or, @eq_comm _ n b.name]
  · intro n
    unfold bookB
    cases ht : b.toCov <;> cases hc : b.o.constrained <;>
      simp [ht, hc, mem_setAdd, h.noConstraint, or_and_right, exists_or, @eq_comm _ n b.name]
  · intro n
    unfold bookB
    cases hc : b.o.noi <;> simp [hc, mem_setAdd, h.noi, or_and_right, exists_or, @eq_comm _ n b.name]
  · intro n
    unfold bookB
    cases hc : b.toCov <;> simp [hc, mem_setAdd, h.covariance, or_and_right, exists_or, @eq_comm _ n b.name]
  · intro g n
    unfold bookB
    cases ht : b.toCov with
    | true => simp [ht, h.groups, or_and_right, exists_or]
    | false =>
      simp only [Bool.false_eq_true, if_false, mem_foldl_addToGroup, h.groups, List.mem_append, List.mem_singleton,
        or_and_right, exists_or, exists_eq_left, ht, true_and]
      constructor
      · rintro (h | ⟨h1, rfl⟩)
        · exact .inl h
        · exact .inr ⟨rfl, h1⟩
      · rintro (h | ⟨rfl, h1⟩)
        · exact .inl h
        · exact .inr ⟨h1, rfl⟩
  · unfold bookB; dsimp only; split <;> [exact n1; exact nodup_setAdd _ _ n1]
  · unfold bookB; dsimp only; split <;> [exact nodup_setAdd _ _ n2; exact n2]
  · unfold bookB; dsimp only; split <;> [exact nodup_setAdd _ _ n3; exact n3]
  · unfold bookB; dsimp only; split <;> [exact nodup_setAdd _ _ n4; exact n4]
  · unfold bookB; dsimp only; split <;> [exact n5; exact keys_foldl_addToGroup _ _ _ n5]
  · unfold bookB; dsimp only; split <;> [exact h.members; exact nodup_foldl_addToGroup _ _ _ h.members]

theorem bkSpec_foldl (bs' : List Booking) : ∀ {bs : List Booking} {k : Bk}, BkSpec bs k →
    BkSpec (bs ++ bs') (bs'.foldl bookB k) := by
  induction bs' with
  | nil => intro bs k h; simpa using h
  | cons b bs' ih =>
    intro bs k h
    rw [List.foldl_cons, show bs ++ b :: bs' = (bs ++ [b]) ++ bs' by simp]
    exact ih (bkSpec_snoc h b)

end Verif.Writer
