/-
Specification vocabulary for the uncertainty results: runs of the programs, eigendecompositions, standard deviations.
-/
import Verif.Model.PlotResults
import Verif.Model.Simulate
import Verif.Spec.Matrix
import Verif.Spec.Store

namespace Verif
namespace Spec
noncomputable section

/-- a run of one of the two programs that write results -/
inductive ProgRun
  | sim (w : SimWorld) (cf : SimConf) (a : SimArgs)
  | ident (ext : NumExt) (cf : IdConf) (sc : SimConf) (a : IdArgs)

/-- the network of a run -/
def ProgRun.network : ProgRun → String
  | .sim _ _ a => a.network
  | .ident _ _ _ a => a.network

/-- the files after a run, completed or not -/
def ProgRun.after (r : ProgRun) (st : Store) : Store :=
  match r with
  | .sim w cf a => (simulate w cf a st).store
  | .ident ext cf sc a => (identify ext cf sc a st).store

/-- a decomposition of a covariance matrix: nonnegative eigenvalues, orthonormal eigenvectors in the columns -/
structure Eigen (N : Nat) (c : Arr2 ℝ) (w : List ℝ) (v : Arr2 ℝ) : Prop where
  square : IsSquare N c
  values : w.length = N
  vectors : IsSquare N v
  nonneg : ∀ k, k < N → 0 ≤ w.getD k 0
  orthonormal : ∀ a b, a < N → b < N → ∑ k ∈ Finset.range N, v.get k a * v.get k b = if a = b then 1 else 0
  eigen : ∀ i b, i < N → b < N → ∑ k ∈ Finset.range N, c.get i k * v.get k b = w.getD b 0 * v.get i b

/-- standard deviation of the complex entry `(i, j)` of a random `n × n` matrix, given the covariance matrix of the real and imaginary
parts of its column-major vectorization -/
def sdEntry (n : Nat) (c : Arr2 ℝ) (i j : Nat) : ℝ :=
  Real.sqrt (c.get (j * n + i) (j * n + i) + c.get (n * n + (j * n + i)) (n * n + (j * n + i)))

end
end Spec
end Verif
