import Verif.Model.Py
import Mathlib.Algebra.Order.Field.Basic

/-
Per-bin variation arithmetic of the tensor writer: `get_logk` / `_get_logk_sparse`
(rabbit/tensorwriter.py:1504-1559) and `_compute_asym_syst` (315-387), element by element.

Numbers live in an ordered field `V`; `log`, the floor `logkepsilon = log(1e-3)` and `sqrt(3)` are parameters
so that the same definitions can be evaluated over the rationals and instantiated with the reals.
`clipSystVariations` is `False` and never changed (tensorwriter.py:34), so the clipping branches are dead.
The finiteness check of the varied template is modelled in the writer, which has explicit non-finite inputs.
-/

namespace Verif

inductive SystType where
  | logNormal | normal | other
  deriving DecidableEq, Repr

/-- modes of `symmetrize`; `none` also stands for any unknown string (tensorwriter.py:371) -/
inductive Symm where
  | conservative | average | linear | quadratic | none
  deriving DecidableEq, Repr

namespace Logk

variable {V : Type} [Field V] [LinearOrder V]

/-- The numerical constants and functions used by the writer. -/
structure Num (V : Type) where
  log : V → V
  /-- `logkepsilon` (tensorwriter.py:33) -/
  eps : V
  /-- `np.sqrt(3.0)` (tensorwriter.py:351) -/
  sqrt3 : V

/-- `get_logk` (tensorwriter.py:1504-1531) for one finite element -/
def getLogk (N : Num V) (t : SystType) (kfac syst norm : V) : Res V :=
  match t with
  | .logNormal => .ok (if 0 < norm * syst then kfac * N.log (syst / norm) else N.eps)
  | .normal => .ok (kfac * (syst - norm))
  | .other => .error .runtime

/-- What `_compute_asym_syst` produces for one element (tensorwriter.py:315-387): the returned average, the
average of the extra `SymDiff` nuisance, the half difference. -/
structure Asym (V : Type) where
  avg : V
  symDiff : Option V
  halfdiff : Option V

/-- `_compute_asym_syst` (tensorwriter.py:340-387), arithmetic part; `down` is the negated log-variation -/
def computeAsym (N : Num V) (m : Symm) (up down : V) : Asym V :=
  match m with
  | .conservative => ⟨if |down| < |up| then up else down, none, none⟩
  | .average => ⟨(1 / 2) * (up + down), none, none⟩
  | .linear => ⟨(1 / 2) * (up + down), some ((1 / 2) * 1 * (up - down)), none⟩
  | .quadratic => ⟨(1 / 2) * (up + down), some ((1 / 2) * N.sqrt3 * (up - down)), none⟩
  | .none => ⟨(1 / 2) * (up + down), none, some ((1 / 2) * (up - down))⟩

/-- `np.where(np.equal(norm, 0.0), 0.0, logk)` (tensorwriter.py:1594) -/
def maskNorm (norm logk : V) : V := if norm = 0 then 0 else logk

end Logk
end Verif
