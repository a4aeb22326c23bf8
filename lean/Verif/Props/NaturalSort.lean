import Verif.Lemmas.NaturalSort

/-!
C04 (ordering part): natural sort of nuisance-parameter names.
-/

namespace Verif

/-- The decimal number written by a list of digits, most significant first (specification of `int`). -/
def Spec.decimal : List Char → Nat
  | [] => 0
  | c :: cs => (c.toNat - 48) * 10 ^ cs.length + Spec.decimal cs

private theorem digits_acc (ds : List Char) (acc : Nat) :
    ds.foldl (fun acc c => 10 * acc + (c.toNat - '0'.toNat)) acc = acc * 10 ^ ds.length + Spec.decimal ds := by
  induction ds generalizing acc with
  | nil => simp [Spec.decimal]
  | cons c cs ih =>
    rw [List.foldl_cons, ih]
    simp only [Spec.decimal, List.length_cons, Nat.pow_succ, Nat.add_mul]
    have : '0'.toNat = 48 := rfl
    rw [this]
    rw [show 10 * acc * 10 ^ cs.length = acc * (10 ^ cs.length * 10) by
      rw [Nat.mul_comm 10 acc, Nat.mul_assoc, Nat.mul_comm 10]]
    omega

/-- C04: the integer used in a key is the decimal value of the digit run. -/
theorem c04_digits_value (ds : List Char) : digitsToNat ds = Spec.decimal ds := by
  simpa [digitsToNat] using digits_acc ds 0

/-- C04: splitting loses no character, and alternates text runs without digits and non-empty runs of
digits, starting and ending with text: this is the shape that makes Python's comparison of two keys
safe. -/
theorem c04_split_roundtrip (s : List Char) : (splitDigits s).flatten = s ∧ Alt (splitDigits s) :=
  ⟨flatten_splitDigits s, alt_splitDigits s⟩

/-- C04: comparing the keys of two names never raises `TypeError`, whatever the names. -/
theorem c04_compare_never_raises (a b : String) :
    ∃ r, keyLt (naturalSortKey a) (naturalSortKey b) = some r :=
  Option.isSome_iff_exists.1 (keyLt_isSome (keyAlt_naturalSortKey a) (keyAlt_naturalSortKey b))

/-- C04: the result holds exactly the same names, and never has a larger key before a smaller one. -/
theorem c04_sorted (names : List String) :
    (naturalSort names).Perm names ∧
      (naturalSort names).Pairwise
        (fun a b => keyLt (naturalSortKey b) (naturalSortKey a) = some false) := by
  refine ⟨pySort_perm _, ?_⟩
  refine (pySort_pairwise nameLe_trans nameLe_total names).imp ?_
  intro a b h
  obtain ⟨r, hr⟩ := c04_compare_never_raises b a
  rw [hr]
  simp only [nameLe, hr] at h
  cases r <;> simp_all

/-- C04: names with pairwise different keys are put into one order that does not depend on the order in
which they are listed (insertion order, hash order of a set, ...). -/
theorem c04_order_independent (l₁ l₂ : List String) (hp : l₁.Perm l₂)
    (hk : ∀ a ∈ l₁, ∀ b ∈ l₁, naturalSortKey a = naturalSortKey b → a = b) :
    naturalSort l₁ = naturalSort l₂ := by
  have h1 := pySort_perm (le := nameLe) l₁
  have h2 := pySort_perm (le := nameLe) l₂
  refine List.Perm.eq_of_pairwise (le := fun a b => nameLe a b = true) ?_
    (pySort_pairwise nameLe_trans nameLe_total l₁)
    (pySort_pairwise nameLe_trans nameLe_total l₂)
    (h1.trans (hp.trans h2.symm))
  intro a b ha hb hab hba
  exact hk a (h1.mem_iff.1 ha) b (hp.mem_iff.2 (h2.mem_iff.1 hb)) (nameLe_antisymm hab hba)

example : ∀ a ∈ ["pdf10", "pdf9", "lumi"], ∀ b ∈ ["pdf10", "pdf9", "lumi"],
    naturalSortKey a = naturalSortKey b → a = b := by decide

example : naturalSort ["pdf10", "pdf9", "lumi"] = ["lumi", "pdf9", "pdf10"] := by
  rw [c04_order_independent _ ["lumi", "pdf9", "pdf10"] (by decide) (by decide)]
  exact pySort_of_pairwise (by decide)

/-- C04 (what does not hold): two different names with equal keys are left in the order in which they
are listed, so a set iterated in two different orders gives two different parameter orders. -/
theorem c04_ties_violated :
    ∃ l₁ l₂ : List String, l₁.Perm l₂ ∧ l₁.Nodup ∧ naturalSort l₁ ≠ naturalSort l₂ := by
  refine ⟨["a1", "a01"], ["a01", "a1"], List.Perm.swap _ _ _, by decide, ?_⟩
  have e1 : naturalSort ["a1", "a01"] = ["a1", "a01"] :=
    pySort_of_pairwise (by decide)
  have e2 : naturalSort ["a01", "a1"] = ["a01", "a1"] :=
    pySort_of_pairwise (by decide)
  rw [e1, e2]; decide

end Verif
