import Verif.Model.Py

/-
Natural sorting of names (rabbit/common.py:8-21).
-/

namespace Verif

/-- One element of a natural sort key: an `int` or a lower-cased `str`. -/
inductive Part where
  | txt (s : List Char)
  | num (n : Nat)
deriving DecidableEq, Repr

/-- `re.split(r"(\d+)", s)` of rabbit/common.py:10, as a scanner over the characters: returns the
leading maximal run of non-digits and then pairs (run of digits, run of non-digits), i.e. the parts of
the Python list in order.  Simplification: `\d`/`isdigit` are the ASCII digits. -/
def splitDigits : List Char → List (List Char)
  | [] => [[]]
  | c :: cs =>
    match splitDigits cs with
    -- `splitDigits` always returns text, digits, text, ..., so its head is a text run
    | t :: rest =>
      if c.isDigit then
        -- a digit in front of an empty text run extends the following digit run, if there is one
        match t, rest with
        | [], d :: rest' => [] :: (c :: d) :: rest'
        | t, rest => [] :: [c] :: t :: rest
      else (c :: t) :: rest
    | [] => []

/-- `int(part)` for a run of decimal digits. -/
def digitsToNat (ds : List Char) : Nat := ds.foldl (fun acc c => 10 * acc + (c.toNat - '0'.toNat)) 0

/-- `part.isdigit()`: non-empty and all digits. -/
def isDigits (p : List Char) : Bool := !p.isEmpty && p.all Char.isDigit

/-- `natural_sort_key` (rabbit/common.py:8-11).  Simplification: `str.lower` is ASCII lower-casing. -/
def naturalSortKey (s : String) : List Part :=
  (splitDigits s.toList).map fun p =>
    if isDigits p then .num (digitsToNat p) else .txt (p.map Char.toLower)

/-- Lexicographic `<` on character lists by code point (Python `str` comparison). -/
def charsLt : List Char → List Char → Bool
  | [], [] => false
  | [], _ :: _ => true
  | _ :: _, [] => false
  | a :: as, b :: bs => if a.toNat < b.toNat then true else if b.toNat < a.toNat then false else charsLt as bs

/-- Python `<` on two key lists: lexicographic, comparing `int` with `str` raises `TypeError`
(`none`).  Python first looks for the first position at which the elements differ (`==`). -/
def keyLt : List Part → List Part → Option Bool
  | [], [] => some false
  | [], _ :: _ => some true
  | _ :: _, [] => some false
  | .num a :: as, .num b :: bs => if a = b then keyLt as bs else some (decide (a < b))
  | .txt a :: as, .txt b :: bs => if a = b then keyLt as bs else some (charsLt a b)
  | .num _ :: _, .txt _ :: _ => none
  | .txt _ :: _, .num _ :: _ => none

/-- `a` may be placed before `b` by a stable sort: not `key b < key a` (comparison that raises is
mapped to `true` here; `Props/NaturalSort.lean` proves that it never raises on keys). -/
def nameLe (a b : String) : Bool := !((keyLt (naturalSortKey b) (naturalSortKey a)).getD false)

/-- `natural_sort` (rabbit/common.py:14-15): Python's `sorted` is a stable sort. -/
def naturalSort (names : List String) : List String := pySort nameLe names

/-- `natural_sort_dict` (rabbit/common.py:18-21). -/
def naturalSortDict {ν : Type _} (d : Dict String ν) : Dict String ν :=
  (naturalSort (Dict.keys d)).filterMap fun k => (Dict.get? d k).map fun v => (k, v)

/-- Python `sorted` on strings (code point order, total, so stability does not matter). -/
def sortedNames (names : List String) : List String :=
  pySort (fun a b => !(charsLt b.toList a.toList)) names

end Verif
