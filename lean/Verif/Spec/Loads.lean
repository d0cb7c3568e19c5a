/-
Specification of load profiles.
-/
import Verif.Py.Arr2
import Mathlib.Data.Real.Basic

namespace Verif.Spec
noncomputable section

/-- rows `s, …, s + len - 1` for each `s` of the list, one block after the other -/
def weekRows (skip : List Nat) (len : Nat) : List Nat := skip.flatMap (fun s => List.range' s len)

/-- `v` is the 90th percentile of the values: with the values in increasing order, the point at 9/10 of the way from the first to
the last one, on the straight line between its neighbours -/
def Percentile90 (col : List ℝ) (v : ℝ) : Prop :=
  ∃ s : List ℝ, s.Perm col ∧ s.Pairwise (· ≤ ·) ∧
    let m := 9 * (col.length - 1)
    let w : ℝ := ((m % 10 : Nat) : ℝ) / 10
    v = (1 - w) * s.getD (m / 10) 0 + w * s.getD (m / 10 + 1) 0

/-- `v` is the mean over the `c` households of the 90th percentile of the magnitude of their profile over the given rows, in MW -/
def MeanPercentile (file : Arr2 ℝ) (rows : List Nat) (v : ℝ) : Prop :=
  ∃ u : Nat → ℝ, (∀ h < file.c, Percentile90 (rows.map (fun t => |file.get t h / 1000000|)) (u h)) ∧
    v = (∑ h ∈ Finset.range file.c, u h) / file.c

/-- the column `load` is the sum of the profiles (in MW) of the households `hs`, over the given rows -/
def SumOfHouseholds (file : Arr2 ℝ) (rows : List Nat) (hs : List Nat) (load : Nat → ℝ) : Prop :=
  (∀ h ∈ hs, h < file.c) ∧ ∀ t < rows.length, load t = (hs.map (fun h => file.get (rows.getD t 0) h)).sum / 1000000

/-- `n` is `x` rounded to the nearest integer, halves to the even one -/
def Rounds (x : ℝ) (n : Int) : Prop := |x - n| < 1 / 2 ∨ |x - n| = 1 / 2 ∧ Even n

/-- `x` lies between `a` and `b` -/
def Between (x a b : ℝ) : Prop := min a b ≤ x ∧ x ≤ max a b

end
end Verif.Spec
