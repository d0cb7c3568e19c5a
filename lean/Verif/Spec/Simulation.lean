/-
Specification of the simulated measurements.
-/
import Verif.Py.Arr2
import Mathlib.Analysis.SpecialFunctions.Trigonometric.Angle
import Mathlib.Analysis.SpecialFunctions.Complex.Arg

namespace Verif.Spec
noncomputable section

/-- `x` has magnitude `m` and angle `deg` degrees; a negative magnitude points the other way -/
def Polar (x : ℂ) (m deg : ℝ) : Prop := ‖x‖ = |m| ∧ (0 < m → (x.arg : Real.Angle) = ((deg * Real.pi / 180 : ℝ) : Real.Angle)) ∧
  (m < 0 → (x.arg : Real.Angle) = ((deg * Real.pi / 180 + Real.pi : ℝ) : Real.Angle))

/-- `i = v · y` row by row -/
def OhmRows (v y i : Arr2 ℂ) : Prop :=
  i.r = v.r ∧ i.c = y.c ∧ ∀ t < v.r, ∀ j < y.c, i.get t j = ∑ k ∈ Finset.range v.c, v.get t k * y.get k j

/-- third root of unity of the symmetrical components -/
def alpha : ℂ := Complex.exp (2 * Real.pi * Complex.I / 3)

end
end Verif.Spec
