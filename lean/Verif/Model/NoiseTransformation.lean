/-
Model of `src/models/noise_transformation.py` (exact arithmetic; sparse results denote arrays).
-/
import Verif.Py.Arr2
import Verif.Model.MatrixOps
import Mathlib.Analysis.SpecialFunctions.Trigonometric.Basic
import Mathlib.Analysis.SpecialFunctions.Complex.Arg
import Mathlib.Analysis.Complex.Trigonometric

namespace Verif
open Finset
noncomputable section

/-- What can be passed as `sd_magnitude`: a Python float, a Python int, a numpy scalar (or 0-d array), a 1-D array. -/
inductive SdArg
  | pyFloat (s : ℝ)
  | pyInt (s : Int)
  | npScalar (s : ℝ)
  | array (ss : List ℝ)

/-- entry-wise formulas for (var real, var imag, cov) as functions of magnitude, phase, `m_var`, `f_var` -/
structure PolarCov where
  re : ℝ → ℝ → ℝ → ℝ → ℝ
  im : ℝ → ℝ → ℝ → ℝ → ℝ
  cov : ℝ → ℝ → ℝ → ℝ → ℝ

open Real in
/-- `exact_noise_covariance`, per-column branch, src/models/noise_transformation.py:45-51 -/
def exactCol : PolarCov where
  re m f mv fv := m ^ 2 * exp (-fv) * (cos f ^ 2 * (cosh fv - 1) + sin f ^ 2 * sinh fv)
    + mv * exp (-fv) * (cos f ^ 2 * cosh fv + sin f ^ 2 * sinh fv)
  im m f mv fv := m ^ 2 * exp (-fv) * (sin f ^ 2 * (cosh fv - 1) + cos f ^ 2 * sinh fv)
    + mv * exp (-fv) * (sin f ^ 2 * cosh fv + cos f ^ 2 * sinh fv)
  cov m f mv fv := sin f * cos f * exp (-2 * fv) * (mv + m ^ 2 * (1 - exp fv))

open Real in
/-- `exact_noise_covariance`, common branch, src/models/noise_transformation.py:72-78 -/
def exactAll : PolarCov where
  re m f mv fv := m ^ 2 * exp (-fv) * (cos f ^ 2 * (cosh fv - 1) + sin f ^ 2 * sinh fv)
    + mv * exp (-fv) * (cos f ^ 2 * cosh fv + sin f ^ 2 * sinh fv)
  im m f mv fv := m ^ 2 * exp (-fv) * (sin f ^ 2 * (cosh fv - 1) + cos f ^ 2 * sinh fv)
    + mv * exp (-fv) * (sin f ^ 2 * cosh fv + cos f ^ 2 * sinh fv)
  cov m f mv fv := sin f * cos f * exp (-2 * fv) * (mv + m ^ 2 * (1 - exp fv))

open Real in
/-- `naive_noise_covariance`, per-column branch, src/models/noise_transformation.py:120-122 -/
def naiveCol : PolarCov where
  re m f mv fv := (cos f ^ 2) * mv + (m ^ 2) * (sin f ^ 2) * fv
  im m f mv fv := (sin f ^ 2) * mv + (m ^ 2) * (cos f ^ 2) * fv
  cov m f mv fv := sin f * cos f * (mv - (m ^ 2) * fv)

open Real in
/-- `naive_noise_covariance`, common branch, src/models/noise_transformation.py:143-145 -/
def naiveAll : PolarCov where
  re m f mv fv := (cos f ^ 2) * mv + (m ^ 2) * (sin f ^ 2) * fv
  im m f mv fv := (sin f ^ 2) * mv + (m ^ 2) * (cos f ^ 2) * fv
  cov m f mv fv := sin f * cos f * (mv - (m ^ 2) * fv)

open Real in
/-- `average_true_var_real`, `average_true_var_imag`, `average_true_cov`,
src/models/noise_transformation.py:164-186, 189-211, 214-233 -/
def averageCov : PolarCov where
  re m f mv fv :=
    (m ^ 2) * exp (-2 * fv) * ((cos f ^ 2) * (cosh (2 * fv) - cosh fv) + (sin f ^ 2) * (sinh (2 * fv) - sinh fv))
    + mv * exp (-2 * fv) * ((cos f ^ 2) * (2 * cosh (2 * fv) - cosh fv) + (sin f ^ 2) * (2 * sinh (2 * fv) - sinh fv))
  im m f mv fv :=
    (m ^ 2) * exp (-2 * fv) * ((sin f ^ 2) * (cosh (2 * fv) - cosh fv) + (cos f ^ 2) * (sinh (2 * fv) - sinh fv))
    + mv * exp (-2 * fv) * ((sin f ^ 2) * (2 * cosh (2 * fv) - cosh fv) + (cos f ^ 2) * (2 * sinh (2 * fv) - sinh fv))
  cov m f mv fv := sin f * cos f * exp (-4 * fv) * (mv + (m ^ 2 + mv) * (1 - exp fv))

/-- the three diagonals computed by the per-column branch (lines 32-57, 107-128, 251-266): column `i` uses
`sd_magnitude[i]`, then `vectorize_matrix` -/
def colDiag (F : ℝ → ℝ → ℝ → ℝ → ℝ) (M : Arr2 ℂ) (ss : List ℝ) (sdp : ℝ) : List ℝ :=
  vectorizeMatrix (Arr2.ofFn M.r M.c (fun t i =>
    F ‖M.get t i‖ (Complex.arg (M.get t i)) (ss.getD i 0 ^ 2) (sdp ^ 2)))

/-- the three diagonals computed by the common branch (lines 60-78, 131-145, 269-279) -/
def allDiag (F : ℝ → ℝ → ℝ → ℝ → ℝ) (M : Arr2 ℂ) (s sdp : ℝ) : List ℝ :=
  (vectorizeMatrix M).map (fun z => F ‖z‖ (Complex.arg z) (s ^ 2) (sdp ^ 2))

/-- the inversion of the blocks, lines 81-85, 148-154, 282-288 (`np.divide` by zero is inf/nan in numpy, `0` here) -/
def invertDiag (re im cov : List ℝ) : List ℝ × List ℝ × List ℝ :=
  let z := re.zip (im.zip cov)
  let reInv := z.map (fun t => 1 / (t.1 - t.2.2 * (t.2.2 / t.2.1)))
  let imInv := z.map (fun t => 1 / (t.2.1 - t.2.2 * (t.2.2 / t.1)))
  let covInv := (z.zip reInv).map (fun t => -(t.1.2.2 * t.2 / t.1.2.1))
  (reInv, imInv, covInv)

/-- `sparse.bmat([[diags(re), diags(cov)], [diags(cov), diags(im)]])`, lines 88-92, 157-161, 291-295 -/
def covBlock (re im cov : List ℝ) : Except PyErr (Arr2 ℝ) :=
  Arr2.block (Arr2.diag re) (Arr2.diag cov) (Arr2.diag cov) (Arr2.diag im)

/-- The common text of `exact_noise_covariance` (20-92), `naive_noise_covariance` (95-161) and
`average_true_noise_covariance` (noise_transformation.py:236-295): `Fc` is the formula of the per-column branch, `Fa` of the other one.
`type(sd) is not float and sd.size == measurement.shape[1]` raises `AttributeError` for a Python int (no `.size`);
a numpy scalar has size 1 and cannot be indexed (`IndexError`). Simplifications: an empty array with at least one column
is reported as `ValueError`; `sd_phase` is a float. -/
def noiseCovariance (Fc Fa : PolarCov) (M : Arr2 ℂ) (sd : SdArg) (sdp : ℝ) (inverted : Bool) :
    Except PyErr (Arr2 ℝ) := do
  let d ← match sd with
    | .pyFloat s => (.ok (allDiag Fa.re M s sdp, allDiag Fa.im M s sdp, allDiag Fa.cov M s sdp) :
        Except PyErr (List ℝ × List ℝ × List ℝ))
    | .pyInt _ => .error .attributeError
    | .npScalar s =>
      if 1 = M.c then .error .indexError
      else .ok (allDiag Fa.re M s sdp, allDiag Fa.im M s sdp, allDiag Fa.cov M s sdp)
    | .array ss =>
      if ss.length = M.c then .ok (colDiag Fc.re M ss sdp, colDiag Fc.im M ss sdp, colDiag Fc.cov M ss sdp)
      else match ss with
        | [] => .error .valueError
        | s :: _ => .ok (allDiag Fa.re M s sdp, allDiag Fa.im M s sdp, allDiag Fa.cov M s sdp)
  let d := if inverted then invertDiag d.1 d.2.1 d.2.2 else d
  covBlock d.1 d.2.1 d.2.2

def exactNoiseCovariance := noiseCovariance exactCol exactAll
def naiveNoiseCovariance := noiseCovariance naiveCol naiveAll
def averageTrueNoiseCovariance := noiseCovariance averageCov averageCov

end
end Verif
