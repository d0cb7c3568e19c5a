/-
Gaussian expectations used by C24, C25.
-/
import Mathlib.Probability.Distributions.Gaussian.Real
import Mathlib.Probability.Moments.Covariance
import Mathlib.Probability.Independence.Integration

namespace Verif
open MeasureTheory ProbabilityTheory
open scoped NNReal

theorem integral_cos_sin_gaussian (μ : ℝ) (v : ℝ≥0) (t : ℝ) :
    (∫ x, Real.cos (t * x) ∂gaussianReal μ v = Real.cos (t * μ) * Real.exp (-(v * t ^ 2 / 2))) ∧
    (∫ x, Real.sin (t * x) ∂gaussianReal μ v = Real.sin (t * μ) * Real.exp (-(v * t ^ 2 / 2))) := by
  have h := charFun_gaussianReal (μ := μ) (v := v) t
  rw [charFun_apply_real] at h
  have hi : Integrable (fun x : ℝ => Complex.exp (t * x * Complex.I)) (gaussianReal μ v) := by
    apply Integrable.of_bound (C := 1)
    · fun_prop
    · refine Filter.Eventually.of_forall (fun x => ?_)
      rw [← Complex.ofReal_mul, Complex.norm_exp_ofReal_mul_I]
  have e : Complex.exp (t * μ * Complex.I - v * t ^ 2 / 2) =
      (Real.exp (-(v * t ^ 2 / 2)) : ℂ) * Complex.exp ((t * μ : ℝ) * Complex.I) := by
    rw [Complex.ofReal_exp, ← Complex.exp_add]
    congr 1
    push_cast
    ring
  rw [e] at h
  constructor
  · have hr := congrArg Complex.re h
    rw [← RCLike.re_eq_complex_re, ← integral_re hi] at hr
    simp only [RCLike.re_eq_complex_re, Complex.re_ofReal_mul, Complex.exp_ofReal_mul_I_re] at hr
    rw [mul_comm (Real.cos _), ← hr]
    congr 1
    funext x
    rw [← Complex.ofReal_mul, Complex.exp_ofReal_mul_I_re]
  · have hr := congrArg Complex.im h
    rw [← RCLike.im_eq_complex_im, ← integral_im hi] at hr
    simp only [RCLike.im_eq_complex_im, Complex.im_ofReal_mul, Complex.exp_ofReal_mul_I_im] at hr
    rw [mul_comm (Real.sin _), ← hr]
    congr 1
    funext x
    rw [← Complex.ofReal_mul, Complex.exp_ofReal_mul_I_im]

theorem integrable_cos (μ : ℝ) (v : ℝ≥0) (t : ℝ) : Integrable (fun x => Real.cos (t * x)) (gaussianReal μ v) := by
  apply Integrable.of_bound (C := 1) (by fun_prop)
  exact Filter.Eventually.of_forall (fun x => by simpa using Real.abs_cos_le_one (t * x))

theorem integral_cos (μ : ℝ) (v : ℝ≥0) : ∫ x, Real.cos x ∂gaussianReal μ v = Real.cos μ * Real.exp (-(v / 2)) := by
  have := (integral_cos_sin_gaussian μ v 1).1
  simpa using this

theorem integral_sin (μ : ℝ) (v : ℝ≥0) : ∫ x, Real.sin x ∂gaussianReal μ v = Real.sin μ * Real.exp (-(v / 2)) := by
  have := (integral_cos_sin_gaussian μ v 1).2
  simpa using this

theorem integral_cos_sq (μ : ℝ) (v : ℝ≥0) :
    ∫ x, Real.cos x ^ 2 ∂gaussianReal μ v = 1 / 2 + Real.cos (2 * μ) * Real.exp (-(2 * v)) / 2 := by
  have h := (integral_cos_sin_gaussian μ v 2).1
  have e : ∀ x : ℝ, Real.cos x ^ 2 = 1 / 2 + Real.cos (2 * x) / 2 := fun x => Real.cos_sq x
  simp_rw [e]
  rw [integral_add (integrable_const _) ((integrable_cos μ v 2).div_const 2), integral_div _ (fun x => Real.cos (2 * x)), h]
  simp only [integral_const, probReal_univ, smul_eq_mul, one_mul]
  rw [show -((v:ℝ) * 2 ^ 2 / 2) = -(2 * v) by ring]

theorem integral_sin_sq (μ : ℝ) (v : ℝ≥0) :
    ∫ x, Real.sin x ^ 2 ∂gaussianReal μ v = 1 / 2 - Real.cos (2 * μ) * Real.exp (-(2 * v)) / 2 := by
  have h := (integral_cos_sin_gaussian μ v 2).1
  have e : ∀ x : ℝ, Real.sin x ^ 2 = 1 / 2 - Real.cos (2 * x) / 2 := fun x => Real.sin_sq_eq_half_sub x
  simp_rw [e]
  rw [integral_sub (integrable_const _) ((integrable_cos μ v 2).div_const 2), integral_div _ (fun x => Real.cos (2 * x)), h]
  simp only [integral_const, probReal_univ, smul_eq_mul, one_mul]
  rw [show -((v:ℝ) * 2 ^ 2 / 2) = -(2 * v) by ring]

theorem integral_sin_cos (μ : ℝ) (v : ℝ≥0) :
    ∫ x, Real.sin x * Real.cos x ∂gaussianReal μ v = Real.sin μ * Real.cos μ * Real.exp (-(2 * v)) := by
  have h := (integral_cos_sin_gaussian μ v 2).2
  have e : ∀ x : ℝ, Real.sin x * Real.cos x = Real.sin (2 * x) / 2 := fun x => by rw [Real.sin_two_mul]; ring
  simp_rw [e]
  rw [integral_div, h]
  ring_nf

theorem integral_sq (μ : ℝ) (v : ℝ≥0) : ∫ x, x ^ 2 ∂gaussianReal μ v = μ ^ 2 + v := by
  have h := variance_eq_sub (memLp_id_gaussianReal' (μ := μ) (v := v) 2 (by simp))
  rw [variance_id_gaussianReal] at h
  simp only [id_eq, integral_id_gaussianReal, Pi.pow_apply] at h
  linarith

end Verif
