/-
Specifications for the matrix helpers: stacked triangles, symmetry, zero row sums. Independent of the model of
`matrix_operations.py`.
-/
import Verif.Py.Arr2

namespace Verif.Spec
open Finset
variable {α : Type}

/-- column-stacked lower triangle (with diagonal) of the leading `n`-by-`n` part -/
def vech [Zero α] (n : Nat) (M : Arr2 α) : List α :=
  (List.range n).flatMap (fun j => (List.range (n - j)).map (fun t => M.get (j + t) j))

/-- column-stacked strictly lower triangle -/
def vel [Zero α] (n : Nat) (M : Arr2 α) : List α :=
  (List.range n).flatMap (fun j => (List.range (n - 1 - j)).map (fun t => M.get (j + 1 + t) j))

/-- square of size `n` -/
def IsSquare [Zero α] (n : Nat) (M : Arr2 α) : Prop := M.r = n ∧ M.c = n

def IsSymm [Zero α] (M : Arr2 α) : Prop := M.r = M.c ∧ ∀ i j, M.get i j = M.get j i

/-- all rows sum to zero -/
def ZeroRowSums [AddCommMonoid α] (M : Arr2 α) : Prop := ∀ i, i < M.r → ∑ j ∈ range M.c, M.get i j = 0

/-- all columns sum to zero -/
def ZeroColSums [AddCommMonoid α] (M : Arr2 α) : Prop := ∀ j, j < M.c → ∑ i ∈ range M.r, M.get i j = 0

/-- symmetric with zero row sums -/
def IsLaplacian [AddCommMonoid α] (M : Arr2 α) : Prop := IsSymm M ∧ ZeroRowSums M

end Verif.Spec
