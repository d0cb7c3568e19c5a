/-
What the priors of the identification scripts mean: a list of l1 terms in the entries of an admittance matrix.
-/
import Verif.Lemmas.RegObjective

namespace Verif.Spec
open Finset
noncomputable section

/-- strictly lower-triangular positions, column by column: one per line of the network -/
def offPairs (n : Nat) : List (Nat × Nat) :=
  (List.range n).flatMap (fun j => (List.range (n - 1 - j)).map (fun t => (j + 1 + t, j)))

/-- symmetric part -/
def symPart (n : Nat) (y : Arr2 ℂ) : Arr2 ℂ := Arr2.ofFn n n (fun i j => (y.get i j + y.get j i) / 2)

/-- the parameters are the entries of the matrix, negated in Laplacian mode -/
def sgn (lap : Bool) : ℝ := if lap then -1 else 1

/-- real or imaginary part -/
def part (im : Bool) (z : ℂ) : ℝ := if im then z.im else z.re

/-- `p'` has the terms of `p` and then l1 terms with the given residuals (as functions of the parameter vector) -/
def Adds (p p' : Prior) (rs : List ℝ → List ℝ) : Prop :=
  Consistent p' ∧ p'.n = p.n ∧ p'.alpha = p.alpha ∧ ∃ ts, terms p' = terms p ++ ts ∧ (∀ t ∈ ts, t.order = 1) ∧
    ∀ x, ts.map (fun t => t.resid p.n x) = rs x

/-- `p` consists of l1 terms with the given residuals at the parameters of a symmetric matrix `Y` (every parameter vector
is that of a symmetric matrix) -/
def L1Prior (lap : Bool) (n : Nat) (p : Prior) (rs : Arr2 ℂ → List ℝ) : Prop :=
  Consistent p ∧ p.n = 2 * (offPairs n).length + (if lap then 0 else 2 * n) ∧ (∀ t ∈ terms p, t.order = 1) ∧
    ∀ Y, IsSquare n Y → IsSymm Y → (terms p).map (fun t => t.resid p.n (params lap n Y)) = rs Y

end
end Verif.Spec
