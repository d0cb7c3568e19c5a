/-
Specification vocabulary for noise in Cartesian coordinates.
-/
import Verif.Py.Arr2
import Mathlib.Algebra.BigOperators.Group.Finset.Basic
import Mathlib.Analysis.Complex.Basic

namespace Verif
namespace Spec
open Finset
noncomputable section

/-- real or imaginary part -/
def realPart (re : Bool) (x : ℂ) : ℝ := if re then x.re else x.im

/-- mean absolute value of a part of column `j` -/
def meanAbs (re : Bool) (x : Arr2 ℂ) (j : Nat) : ℝ := (∑ t ∈ range x.r, |realPart re (x.get t j)|) / x.r

/-- the entries of an array, with their two parts -/
abbrev Parts (x : Arr2 ℂ) : Type := Bool × Fin x.r × Fin x.c

/-- error of a part of an entry -/
def errorOf (x noisy : Arr2 ℂ) (e : Parts x) : ℝ := realPart e.1 (noisy.get e.2.1 e.2.2) - realPart e.1 (x.get e.2.1 e.2.2)

end
end Spec
end Verif
