/-
Vocabulary for the error-in-variables regression: weighted misfit of voltages and currents.
-/
import Verif.Py.Arr2
import Mathlib.Analysis.Complex.Basic

namespace Verif.Spec
open Finset
noncomputable section

/-- real parts, column after column, followed by the imaginary parts -/
def stackReal (D : Arr2 ℂ) : List ℝ :=
  ((List.range D.c).flatMap (fun j => (List.range D.r).map (fun i => (D.get i j).re))) ++
  ((List.range D.c).flatMap (fun j => (List.range D.r).map (fun i => (D.get i j).im)))

/-- quadratic form `vᵀ W v` -/
def wquad (W : Arr2 ℝ) (v : List ℝ) : ℝ := ∑ i ∈ range W.r, ∑ j ∈ range W.c, v.getD i 0 * W.get i j * v.getD j 0

/-- residual of the currents for corrected voltages: `z - (x - D) Y` -/
def residual (x z Y D : Arr2 ℂ) : Arr2 ℂ :=
  Arr2.ofFn z.r z.c (fun i j => z.get i j - ∑ k ∈ range x.c, (x.get i k - D.get i k) * Y.get k j)

/-- weighted misfit of currents and voltages -/
def eivCost (xW zW : Arr2 ℝ) (x z Y D : Arr2 ℂ) : ℝ :=
  wquad zW (stackReal (residual x z Y D)) + wquad xW (stackReal D)

/-- symmetric positive semi-definite weights of size `m` -/
structure IsWeight (m : Nat) (W : Arr2 ℝ) : Prop where
  rows : W.r = m
  cols : W.c = m
  symm : ∀ i j, W.get i j = W.get j i
  psd : ∀ v : List ℝ, 0 ≤ wquad W v

end
end Verif.Spec
