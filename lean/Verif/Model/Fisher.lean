/-
Model of `TotalLeastSquares.fisher_info`, `src/models/error_in_variable.py:53-127`. Exact arithmetic, CPU code path; sparse
matrices are represented by their entries. Division by zero (numpy: `inf`/`nan` with a warning) is not represented: theorems
assume non-zero denominators where they matter.
-/
import Verif.Model.Regression

namespace Verif
open Finset
noncomputable section

/-- `idxs`, error_in_variable.py:100 -/
def fisherIdxs (T n : Nat) : List Nat :=
  (List.range T).flatMap (fun k => (List.range (2 * n)).map (fun ii => ii * T + k))

/-- `perm`, error_in_variable.py:101: entry 1 at `(p, idxs[p])`. `coo_matrix` without a shape raises `ValueError` for empty
index arrays, and otherwise takes one more than the largest indices. -/
def fisherPerm (T n : Nat) : Except PyErr (Arr2 ℝ) :=
  if 2 * n * T = 0 then .error .valueError
  else .ok (Arr2.ofFn (2 * n * T) (2 * n * T) (fun p q => if (fisherIdxs T n).getD p 0 = q then 1 else 0))

/-- the covariances of the samples, error_in_variable.py:103-104 -/
def fisherSamples (T n : Nat) (perm xCov : Arr2 ℝ) (y : List ℝ) : Except PyErr (Arr2 ℝ) := do
  let bigy := (Arr2.eye T).kron (Arr2.ofFn y.length 1 (fun i _ => y.getD i 0))
  let pc ← perm.matmul xCov
  let pcp ← pc.matmul perm.T
  let k := pcp.kron (Arr2.eye n)
  let l ← bigy.T.matmul k
  l.matmul bigy

/-- the covariance of the residuals as computed by the code, error_in_variable.py:100-105 -/
def fisherW (x : Arr2 ℂ) (xCov zCov : Arr2 ℝ) (yMat : Arr2 ℂ) : Except PyErr (Arr2 ℝ) := do
  let T := x.r
  let n := x.c
  let y := makeRealVector (vectorizeMatrix yMat)
  let perm ← fisherPerm T n
  let ws ← fisherSamples T n perm xCov y
  let l ← perm.T.matmul ((Arr2.eye (2 * n)).kron ws)
  let m ← l.matmul perm
  Arr2.zipWith (fun a b => a + b) m zCov

/-- diagonal weights, error_in_variable.py:108-113: `w1i`, `w2i`, `w3i` as the lists of their diagonals.
`w2 * w1i` is a vector times a diagonal matrix, i.e. the entry-wise product. -/
def fisherWeights (m : Nat) (W : Arr2 ℝ) : List ℝ × List ℝ × List ℝ :=
  let w1 := fun k => W.get (m + k) (m + k)
  let w2 := fun k => W.get k (m + k)
  let w3 := fun k => W.get k k
  let w1i := fun k => 1 / (w1 k - w2 k * (w2 k / w3 k))
  ((List.range m).map w1i, (List.range m).map (fun k => -((w2 k * w1i k) / w3 k)),
    (List.range m).map (fun k => 1 / (w3 k - w2 k * (w2 k / w1 k))))

/-- `P.T @ diags(w) @ Q` -/
def sandwich (P : Arr2 ℝ) (w : List ℝ) (Q : Arr2 ℝ) : Except PyErr (Arr2 ℝ) := do
  let l ← P.T.matmul (Arr2.diag w)
  l.matmul Q

/-- the matrix `F`, error_in_variable.py:119-121 -/
def fisherF (x : Arr2 ℂ) (W : Arr2 ℝ) : Except PyErr (Arr2 ℝ) := do
  let (w1i, w2i, w3i) := fisherWeights (x.c * x.r) W
  let ar := (Arr2.eye x.c).kron (x.map Complex.re)
  let ai := (Arr2.eye x.c).kron (x.map Complex.im)
  let f1 ← sandwich ar w1i ar
  let f2 ← sandwich ar w2i ai
  let f3 ← sandwich ai w2i ar
  let f4 ← sandwich ai w3i ai
  Arr2.block f1 f2 f3 f4

/-- `TotalLeastSquares.fisher_info`, error_in_variable.py:53-127. With a missing covariance, lines 104 and 105 compute with
`None` and raise. `inv` is `np.linalg.inv`. -/
def fisherInfo (inv : Arr2 ℝ → Except PyErr (Arr2 ℝ)) (x : Arr2 ℂ) (xCov zCov : Option (Arr2 ℝ)) (yMat : Arr2 ℂ) :
    Except PyErr (Arr2 ℝ × Arr2 ℝ) :=
  match xCov, zCov with
  | some xCov, some zCov => do
    let W ← fisherW x xCov zCov yMat
    let F ← fisherF x W
    let c ← inv F
    pure (F, c)
  | _, _ => do
    let _ ← fisherPerm x.r x.c
    .error .typeError

end
end Verif
