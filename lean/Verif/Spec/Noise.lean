/-
Vocabulary for the statements about noise covariances: which standard deviation applies to which column.
-/
import Verif.Model.NoiseTransformation

namespace Verif.Spec
noncomputable section

/-- the standard deviation meant for column `j` -/
def sdAt : SdArg → Nat → ℝ
  | .pyFloat s, _ => s
  | .pyInt s, _ => s
  | .npScalar s, _ => s
  | .array ss, j => ss.getD j 0

/-- arguments the code handles for `n` columns: a float, a numpy scalar unless `n = 1`, one value per column -/
def ValidSd : SdArg → Nat → Prop
  | .pyFloat _, _ => True
  | .pyInt _, _ => False
  | .npScalar _, n => n ≠ 1
  | .array ss, n => ss.length = n

/-- position of sample `t` of variable `j` in the column-vectorised `T`-row data -/
def pos (T t j : Nat) : Nat := j * T + t

/-- the 2x2 covariance of sample `t` of variable `j` found in a `2N x 2N` matrix -/
def Reads (S : Arr2 ℝ) (N k : Nat) (re im cov : ℝ) : Prop :=
  S.get k k = re ∧ S.get (N + k) (N + k) = im ∧ S.get k (N + k) = cov ∧ S.get (N + k) k = cov

end
end Verif.Spec
