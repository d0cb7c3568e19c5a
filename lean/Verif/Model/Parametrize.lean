/-
Model of the parametrisation of admittance matrices shared by the identification code:
`DT` (parameters to vectorised matrix), `E` (vectorised matrix to parameters) and the symmetrisation `DT @ E`.
-/
import Verif.Model.MatrixOps

namespace Verif
variable {α : Type}

/-- `DT` as built in src/identification/run.py:23-28, 46-48, 84-89, 162-167, 312-319, 391-398 (and run3ph.py:113-118,
163-171): `duplication_matrix(n) @ transformation_matrix(n)` in Laplacian mode, else `duplication_matrix(n)`. -/
def dtMatrix (α : Type) [Ring α] (laplacian : Bool) (n : Nat) : Except PyErr (Arr2 α) :=
  if laplacian then do
    let d ← duplicationMatrix α n
    let t ← transformationMatrix α n
    d.matmul t
  else duplicationMatrix α n

/-- `E` as built in the same places: `elimination_lap_matrix(n) @ elimination_sym_matrix(n)` in Laplacian mode,
else `elimination_sym_matrix(n)`. -/
def eMatrix (α : Type) [Field α] (laplacian : Bool) (n : Nat) : Except PyErr (Arr2 α) :=
  if laplacian then do
    let l ← eliminationLapMatrix α n
    let s ← eliminationSymMatrix α n
    l.matmul s
  else eliminationSymMatrix α n

/-- `unvectorize_matrix(DT @ E @ vectorize_matrix(y), (nodes, nodes))`, src/identification/run.py:30, 92 (run3ph.py:120).
`DT @ E @ v` is `(DT @ E) @ v`. -/
def symmetrize [Field α] (laplacian : Bool) (n : Nat) (y : Arr2 α) : Except PyErr (Arr2 α) := do
  let dt ← dtMatrix α laplacian n
  let e ← eMatrix α laplacian n
  let de ← dt.matmul e
  let v ← de.mulVec (vectorizeMatrix y)
  unvectorizeMatrix v (n, n)

end Verif
