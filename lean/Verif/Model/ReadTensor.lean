import Verif.Model.Write
import Verif.Model.Yields

/-
The tensors of a written file as the fitter sees them (rabbit/inputdata.py:74-118, 154-161).
Simplifications: the storage itself is in `Model/Storage.lean`; metadata are left out; a tensor is zero outside its shape, which nothing reads.
-/

namespace Verif.Writer

/-- sizes and flags (inputdata.py:111-116, 154, 161): `nbins` from the data, `nbinsfull` from the templates; a file is symmetric if it says so -/
def Tensor.shape (t : Tensor ℝ) (systType : SystType) : Yields.Shape :=
  ⟨t.nbins, t.nbinsfull, t.procs.length, t.systs.length, t.symmetric, systType == SystType.logNormal⟩

/-- dense tensors (inputdata.py:101-103) -/
noncomputable def readDense (t : Tensor ℝ) (norm : Nat → Nat → ℝ) (logk : Nat → Nat → Nat → Nat → ℝ) : Yields.Dense :=
  ⟨fun b p => if b < t.nbinsfull ∧ p < t.procs.length then norm b p else 0,
    fun b p k i => if b < t.nbinsfull ∧ p < t.procs.length then logk b p k i else 0⟩

/-- sparse tensors (inputdata.py:84-89) -/
def readSparse (out : SparseOut ℝ) : Yields.Sparse := ⟨out.norm, out.logk⟩

/-- expected yields from a file (fitter.py:1751-1794), with the branch chosen by what the file holds (inputdata.py:82) -/
noncomputable def Tensor.yields (t : Tensor ℝ) (systType : SystType) (full : Bool) (nparams : Nat) (rinit r : Yields.Rates) (θ : Nat → ℝ) :
    Res ((Nat → ℝ) × (Nat → Nat → ℝ)) := match t.body with
  | .dense norm logk => ((readDense t norm logk).scaled (t.shape systType) nparams rinit).compute (t.shape systType) full r θ
  | .sparse out => ((readSparse out).scaled (t.shape systType) nparams rinit).compute (t.shape systType) full r θ

end Verif.Writer
