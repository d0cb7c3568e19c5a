/-
The sampled errors of `eiv_fim`, src/identification/run.py:512-516. `np.random.multivariate_normal` is a parameter `draw`, whose rows
are the samples; the division by `np.linalg.norm(y) = 0` is `nan` in numpy and `0` here.
-/
import Verif.Model.Identification

namespace Verif
noncomputable section

/-- `np.linalg.norm` of a vector -/
def norm2 (v : List ℝ) : ℝ := Real.sqrt (v.map (fun t => t ^ 2)).sum

/-- `np.mean` of a vector -/
def npMean (v : List ℝ) : ℝ := v.sum / v.length

/-- `np.std` of a vector -/
def npStd (v : List ℝ) : ℝ := Real.sqrt (npMean (v.map (fun t => (t - npMean v) ^ 2)))

/-- `np.linalg.norm(samples - y[None, :], axis=1)`, run.py:515 -/
def sampleNorms (samples : Arr2 ℝ) (y : List ℝ) : List ℝ :=
  (List.range samples.r).map (fun k => norm2 ((List.range y.length).map (fun j => samples.get k j - y.getD j 0)))

/-- `err_std`, run.py:512-515 -/
def errSpread (draw : List ℝ → Arr2 ℝ → Nat → Arr2 ℝ) (y : List ℝ) (cov : Arr2 ℝ) (n : Nat) : ℝ :=
  npStd (sampleNorms (draw y cov n) y) / norm2 y

end
end Verif
