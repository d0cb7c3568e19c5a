/-
Model of `Net.kron_reduction`, src/simulation/abstract_network.py:98-113.

Indices to eliminate are non-negative (as computed by both `reduce_network`s); negative ones are not modelled.
`np.linalg.pinv` is a parameter.
-/
import Verif.Py.Arr2
import Verif.Model.PySet
import Mathlib.Data.Complex.Basic

namespace Verif

/-- `a[rows, :][:, cols]` with integer index arrays -/
def Arr2.take {α : Type} [Zero α] (a : Arr2 α) (rows cols : List Nat) : Except PyErr (Arr2 α) :=
  if (∀ k ∈ rows, k < a.r) ∧ ∀ k ∈ cols, k < a.c then
    .ok (Arr2.ofFn rows.length cols.length (fun i j => a.get (rows.getD i 0) (cols.getD j 0)))
  else .error .indexError

/-- `kron_reduction(idx_tored, y_bus)` with `y_bus` given, src/simulation/abstract_network.py:102-105 -/
def kronReduction (pinv : Arr2 ℂ → Except PyErr (Arr2 ℂ)) (idx : List Nat) (y : Arr2 ℂ) : Except PyErr (Arr2 ℂ) := do
  let keep := PySet.complement y.r idx
  let a ← y.take keep keep
  let b ← y.take keep idx
  let m ← y.take idx idx
  let p ← pinv m
  let bp ← b.matmul p
  let c ← y.take idx keep
  let bpc ← bp.matmul c
  Arr2.zipWith (· - ·) a bpc

end Verif
