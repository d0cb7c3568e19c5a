import Verif.Lemmas.Gaussian
import Verif.Model.NoiseTransformation

namespace Verif
open MeasureTheory ProbabilityTheory
open scoped NNReal

section
variable {Ω : Type} [MeasurableSpace Ω] {P : Measure Ω} [IsProbabilityMeasure P] {A B : Ω → ℝ}
  {m f : ℝ} {s v : ℝ≥0}

theorem law_prod (hA : HasLaw A (gaussianReal m s) P) (hB : HasLaw B (gaussianReal f v) P) (hi : A ⟂ᵢ[P] B)
    {g h : ℝ → ℝ} (hg : Continuous g) (hh : Continuous h) :
    ∫ ω, g (A ω) * h (B ω) ∂P = (∫ x, g x ∂gaussianReal m s) * ∫ x, h x ∂gaussianReal f v := by
  rw [hi.integral_fun_comp_mul_comp hA.aemeasurable hB.aemeasurable hg.aestronglyMeasurable
    hh.aestronglyMeasurable]
  have h1 := hA.integral_comp (f := g) hg.aestronglyMeasurable
  have h2 := hB.integral_comp (f := h) hh.aestronglyMeasurable
  rw [← h1, ← h2]
  rfl

theorem memLp_polar (hA : HasLaw A (gaussianReal m s) P) (hB : HasLaw B (gaussianReal f v) P)
    {h : ℝ → ℝ} (hh : Continuous h) (hb : ∀ x, |h x| ≤ 1) : MemLp (fun ω => A ω * h (B ω)) 2 P := by
  have h1 : MemLp A 2 P := by
    have := memLp_id_gaussianReal' (μ := m) (v := s) 2 (by simp)
    rw [← hA.map_eq] at this
    exact this.comp_of_map hA.aemeasurable
  refine h1.of_le ?_ (Filter.Eventually.of_forall fun ω => ?_)
  · exact (hA.aemeasurable.mul (hh.measurable.comp_aemeasurable hB.aemeasurable)).aestronglyMeasurable
  · rw [norm_mul]
    exact mul_le_of_le_one_right (norm_nonneg _) (hb _)

theorem cov_polar (hA : HasLaw A (gaussianReal m s) P) (hB : HasLaw B (gaussianReal f v) P) (hi : A ⟂ᵢ[P] B)
    {h k : ℝ → ℝ} (hh : Continuous h) (hb : ∀ x, |h x| ≤ 1) (hk : Continuous k) (hc : ∀ x, |k x| ≤ 1) :
    cov[fun ω => A ω * h (B ω), fun ω => A ω * k (B ω); P] =
      (m ^ 2 + s) * (∫ x, h x * k x ∂gaussianReal f v)
        - (m * ∫ x, h x ∂gaussianReal f v) * (m * ∫ x, k x ∂gaussianReal f v) := by
  rw [covariance_eq_sub (memLp_polar hA hB hh hb) (memLp_polar hA hB hk hc)]
  have h1 := law_prod hA hB hi (g := fun x => x ^ 2) (h := fun x => h x * k x) (by fun_prop) (by fun_prop)
  have h2 := law_prod hA hB hi (g := fun x => x) (h := h) (by fun_prop) hh
  have h3 := law_prod hA hB hi (g := fun x => x) (h := k) (by fun_prop) hk
  rw [integral_sq] at h1
  rw [show ∫ x, x ∂gaussianReal m s = m from integral_id_gaussianReal] at h2 h3
  rw [h2, h3, ← h1]
  congr 2
  funext ω
  simp only [Pi.mul_apply]
  ring

theorem sincos_abs_le (x : ℝ) : |Real.sin x * Real.cos x| ≤ 1 := by
  rw [abs_mul]
  have := Real.abs_sin_le_one x
  have := Real.abs_cos_le_one x
  nlinarith [abs_nonneg (Real.sin x), abs_nonneg (Real.cos x)]

theorem cov_re_re (hA : HasLaw A (gaussianReal m s) P) (hB : HasLaw B (gaussianReal f v) P) (hi : A ⟂ᵢ[P] B) :
    cov[fun ω => A ω * Real.cos (B ω), fun ω => A ω * Real.cos (B ω); P] = exactAll.re m f s v := by
  rw [cov_polar hA hB hi Real.continuous_cos Real.abs_cos_le_one Real.continuous_cos Real.abs_cos_le_one]
  simp_rw [← sq]
  rw [integral_cos_sq, integral_cos]
  simp only [exactAll, Real.cosh_eq, Real.sinh_eq, Real.cos_two_mul]
  have e2 : Real.exp (-(2 * (v:ℝ))) = Real.exp (-v) * Real.exp (-v) := by rw [← Real.exp_add]; ring_nf
  have e1 : Real.exp (-(v:ℝ)) = Real.exp (-(v / 2)) * Real.exp (-(v / 2)) := by rw [← Real.exp_add]; ring_nf
  have e0 : Real.exp (-(v:ℝ)) * Real.exp v = 1 := by rw [← Real.exp_add]; simp
  have hsc := Real.sin_sq_add_cos_sq f
  have hs : Real.sin f ^ 2 = 1 - Real.cos f ^ 2 := by linarith
  rw [hs, e2, mul_pow, mul_pow, show Real.exp (-(v / 2 : ℝ)) ^ 2 = Real.exp (-v) by rw [e1]; ring]
  linear_combination (-(1/2)) * (m ^ 2 + s) * e0

theorem cov_im_im (hA : HasLaw A (gaussianReal m s) P) (hB : HasLaw B (gaussianReal f v) P) (hi : A ⟂ᵢ[P] B) :
    cov[fun ω => A ω * Real.sin (B ω), fun ω => A ω * Real.sin (B ω); P] = exactAll.im m f s v := by
  rw [cov_polar hA hB hi Real.continuous_sin Real.abs_sin_le_one Real.continuous_sin Real.abs_sin_le_one]
  simp_rw [← sq]
  rw [integral_sin_sq, integral_sin]
  simp only [exactAll, Real.cosh_eq, Real.sinh_eq, Real.cos_two_mul]
  have e2 : Real.exp (-(2 * (v:ℝ))) = Real.exp (-v) * Real.exp (-v) := by rw [← Real.exp_add]; ring_nf
  have e1 : Real.exp (-(v:ℝ)) = Real.exp (-(v / 2)) * Real.exp (-(v / 2)) := by rw [← Real.exp_add]; ring_nf
  have e0 : Real.exp (-(v:ℝ)) * Real.exp v = 1 := by rw [← Real.exp_add]; simp
  have hsc := Real.sin_sq_add_cos_sq f
  have hs : Real.sin f ^ 2 = 1 - Real.cos f ^ 2 := by linarith
  rw [mul_pow, mul_pow, hs, e2, show Real.exp (-(v / 2 : ℝ)) ^ 2 = Real.exp (-v) by rw [e1]; ring]
  linear_combination (-(1/2)) * (m ^ 2 + s) * e0

theorem cov_re_im (hA : HasLaw A (gaussianReal m s) P) (hB : HasLaw B (gaussianReal f v) P) (hi : A ⟂ᵢ[P] B) :
    cov[fun ω => A ω * Real.cos (B ω), fun ω => A ω * Real.sin (B ω); P] = exactAll.cov m f s v := by
  rw [cov_polar hA hB hi Real.continuous_cos Real.abs_cos_le_one Real.continuous_sin Real.abs_sin_le_one]
  simp_rw [mul_comm (Real.cos _) (Real.sin _)]
  rw [integral_sin_cos, integral_cos, integral_sin]
  simp only [exactAll]
  have e2 : Real.exp (-(2 * (v:ℝ))) = Real.exp (-v) * Real.exp (-v) := by rw [← Real.exp_add]; ring_nf
  have e2' : Real.exp (-2 * (v:ℝ)) = Real.exp (-v) * Real.exp (-v) := by rw [← Real.exp_add]; ring_nf
  have e1 : Real.exp (-(v:ℝ)) = Real.exp (-(v / 2)) * Real.exp (-(v / 2)) := by rw [← Real.exp_add]; ring_nf
  have e0 : Real.exp (-(v:ℝ)) * Real.exp v = 1 := by rw [← Real.exp_add]; simp
  rw [e2, e2']
  linear_combination (m ^ 2 * Real.sin f * Real.cos f) * e1 + (m ^ 2 * Real.sin f * Real.cos f * Real.exp (-v)) * e0

theorem mean_affine (hA : HasLaw A (gaussianReal m s) P) (hB : HasLaw B (gaussianReal f v) P) (hi : A ⟂ᵢ[P] B)
    {h k : ℝ → ℝ} (hh : Continuous h) (hk : Continuous k) {C : ℝ} (hC : 0 < C) (hb : ∀ x, |h x| ≤ C)
    (hc : ∀ x, |k x| ≤ C) :
    ∫ ω, (A ω ^ 2 * h (B ω) + k (B ω)) ∂P =
      (m ^ 2 + s) * (∫ x, h x ∂gaussianReal f v) + ∫ x, k x ∂gaussianReal f v := by
  have i1 : Integrable (fun ω => A ω ^ 2 * h (B ω)) P := by
    have a1 := memLp_polar hA hB (h := fun _ => 1) (by fun_prop) (by simp)
    have a2 := memLp_polar hA hB (h := fun x => h x / C) (by fun_prop)
      (fun x => by rw [abs_div, abs_of_pos hC, div_le_one hC]; exact hb x)
    have a3 := (a1.integrable_mul a2).const_mul C
    refine a3.congr (Filter.Eventually.of_forall fun ω => ?_)
    simp only [Pi.mul_apply]
    field_simp
  have i2 : Integrable (fun ω => k (B ω)) P := by
    refine Integrable.of_bound (C := C) (hk.measurable.comp_aemeasurable hB.aemeasurable).aestronglyMeasurable ?_
    exact Filter.Eventually.of_forall fun ω => hc _
  rw [integral_add i1 i2, law_prod hA hB hi (g := fun x => x ^ 2) (by fun_prop) hh, integral_sq]
  congr 1
  exact hB.integral_comp (f := k) hk.aestronglyMeasurable

theorem integral_trig (a b : ℝ) : ∫ x, (a * Real.cos x ^ 2 + b * Real.sin x ^ 2) ∂gaussianReal f v =
    a * (1 / 2 + Real.cos (2 * f) * Real.exp (-(2 * v)) / 2)
      + b * (1 / 2 - Real.cos (2 * f) * Real.exp (-(2 * v)) / 2) := by
  have i1 : Integrable (fun x : ℝ => a * Real.cos x ^ 2) (gaussianReal f v) := by
    refine (Integrable.of_bound (C := 1) (by fun_prop) (Filter.Eventually.of_forall fun x => ?_)).const_mul a
    rw [Real.norm_eq_abs, abs_pow]
    exact pow_le_one₀ (abs_nonneg _) (Real.abs_cos_le_one x)
  have i2 : Integrable (fun x : ℝ => b * Real.sin x ^ 2) (gaussianReal f v) := by
    refine (Integrable.of_bound (C := 1) (by fun_prop) (Filter.Eventually.of_forall fun x => ?_)).const_mul b
    rw [Real.norm_eq_abs, abs_pow]
    exact pow_le_one₀ (abs_nonneg _) (Real.abs_sin_le_one x)
  rw [integral_add i1 i2, integral_const_mul, integral_const_mul, integral_cos_sq, integral_sin_sq]

theorem trig_bound (a b : ℝ) (x : ℝ) : |a * Real.cos x ^ 2 + b * Real.sin x ^ 2| ≤ |a| + |b| := by
  refine (abs_add_le _ _).trans (add_le_add ?_ ?_) <;> rw [abs_mul, abs_pow]
  · exact mul_le_of_le_one_right (abs_nonneg _) (pow_le_one₀ (abs_nonneg _) (Real.abs_cos_le_one x))
  · exact mul_le_of_le_one_right (abs_nonneg _) (pow_le_one₀ (abs_nonneg _) (Real.abs_sin_le_one x))

theorem mean_trig (hA : HasLaw A (gaussianReal m s) P) (hB : HasLaw B (gaussianReal f v) P) (hi : A ⟂ᵢ[P] B)
    (a b c d : ℝ) :
    ∫ ω, (A ω ^ 2 * (a * Real.cos (B ω) ^ 2 + b * Real.sin (B ω) ^ 2)
        + (c * Real.cos (B ω) ^ 2 + d * Real.sin (B ω) ^ 2)) ∂P =
      (m ^ 2 + s) * (a * (1 / 2 + Real.cos (2 * f) * Real.exp (-(2 * v)) / 2)
        + b * (1 / 2 - Real.cos (2 * f) * Real.exp (-(2 * v)) / 2))
      + (c * (1 / 2 + Real.cos (2 * f) * Real.exp (-(2 * v)) / 2)
        + d * (1 / 2 - Real.cos (2 * f) * Real.exp (-(2 * v)) / 2)) := by
  rw [mean_affine hA hB hi (h := fun x => a * Real.cos x ^ 2 + b * Real.sin x ^ 2)
    (k := fun x => c * Real.cos x ^ 2 + d * Real.sin x ^ 2) (by fun_prop) (by fun_prop)
    (C := |a| + |b| + |c| + |d| + 1) (by positivity)
    (fun x => (trig_bound a b x).trans (by linarith [abs_nonneg c, abs_nonneg d]))
    (fun x => (trig_bound c d x).trans (by linarith [abs_nonneg a, abs_nonneg b])), integral_trig, integral_trig]

theorem mean_exact_re (hA : HasLaw A (gaussianReal m s) P) (hB : HasLaw B (gaussianReal f v) P) (hi : A ⟂ᵢ[P] B) :
    ∫ ω, exactAll.re (A ω) (B ω) s v ∂P = averageCov.re m f s v := by
  have h := mean_trig hA hB hi (Real.exp (-v) * (Real.cosh v - 1)) (Real.exp (-v) * Real.sinh v)
    (s * Real.exp (-v) * Real.cosh v) (s * Real.exp (-v) * Real.sinh v)
  have e : ∀ ω, exactAll.re (A ω) (B ω) s v = (A ω ^ 2 * (Real.exp (-v) * (Real.cosh v - 1) * Real.cos (B ω) ^ 2
        + Real.exp (-v) * Real.sinh v * Real.sin (B ω) ^ 2)
        + (s * Real.exp (-v) * Real.cosh v * Real.cos (B ω) ^ 2
          + s * Real.exp (-v) * Real.sinh v * Real.sin (B ω) ^ 2)) := fun ω => by
    simp only [exactAll]; ring
  simp_rw [e, h]
  simp only [averageCov, Real.cosh_eq, Real.sinh_eq, Real.cos_two_mul]
  have e2 : Real.exp (-(2 * (v:ℝ))) = Real.exp (-v) * Real.exp (-v) := by rw [← Real.exp_add]; ring_nf
  have e2' : Real.exp (-2 * (v:ℝ)) = Real.exp (-v) * Real.exp (-v) := by rw [← Real.exp_add]; ring_nf
  have e3 : Real.exp (2 * (v:ℝ)) = Real.exp v * Real.exp v := by rw [← Real.exp_add]; ring_nf
  have e0 : Real.exp (v:ℝ) = (Real.exp (-(v:ℝ)))⁻¹ := by rw [← Real.exp_neg]; simp
  have hs : Real.sin f ^ 2 = 1 - Real.cos f ^ 2 := by linarith [Real.sin_sq_add_cos_sq f]
  have hp := Real.exp_pos (-(v:ℝ))
  rw [e2, e2', e3, e0, hs]
  field_simp
  ring

theorem mean_exact_im (hA : HasLaw A (gaussianReal m s) P) (hB : HasLaw B (gaussianReal f v) P) (hi : A ⟂ᵢ[P] B) :
    ∫ ω, exactAll.im (A ω) (B ω) s v ∂P = averageCov.im m f s v := by
  have h := mean_trig hA hB hi (Real.exp (-v) * Real.sinh v) (Real.exp (-v) * (Real.cosh v - 1))
    (s * Real.exp (-v) * Real.sinh v) (s * Real.exp (-v) * Real.cosh v)
  have e : ∀ ω, exactAll.im (A ω) (B ω) s v = (A ω ^ 2 * (Real.exp (-v) * Real.sinh v * Real.cos (B ω) ^ 2
        + Real.exp (-v) * (Real.cosh v - 1) * Real.sin (B ω) ^ 2)
        + (s * Real.exp (-v) * Real.sinh v * Real.cos (B ω) ^ 2
          + s * Real.exp (-v) * Real.cosh v * Real.sin (B ω) ^ 2)) := fun ω => by
    simp only [exactAll]; ring
  simp_rw [e, h]
  simp only [averageCov, Real.cosh_eq, Real.sinh_eq, Real.cos_two_mul]
  have e2 : Real.exp (-(2 * (v:ℝ))) = Real.exp (-v) * Real.exp (-v) := by rw [← Real.exp_add]; ring_nf
  have e2' : Real.exp (-2 * (v:ℝ)) = Real.exp (-v) * Real.exp (-v) := by rw [← Real.exp_add]; ring_nf
  have e3 : Real.exp (2 * (v:ℝ)) = Real.exp v * Real.exp v := by rw [← Real.exp_add]; ring_nf
  have e0 : Real.exp (v:ℝ) = (Real.exp (-(v:ℝ)))⁻¹ := by rw [← Real.exp_neg]; simp
  have hs : Real.sin f ^ 2 = 1 - Real.cos f ^ 2 := by linarith [Real.sin_sq_add_cos_sq f]
  have hp := Real.exp_pos (-(v:ℝ))
  rw [e2, e2', e3, e0, hs]
  field_simp
  ring

theorem mean_exact_cov (hA : HasLaw A (gaussianReal m s) P) (hB : HasLaw B (gaussianReal f v) P) (hi : A ⟂ᵢ[P] B) :
    ∫ ω, exactAll.cov (A ω) (B ω) s v ∂P = averageCov.cov m f s v := by
  have bd : ∀ a x : ℝ, |a * (Real.sin x * Real.cos x)| ≤ |a| := fun a x => by
    rw [abs_mul]
    exact mul_le_of_le_one_right (abs_nonneg _) (sincos_abs_le x)
  have h := mean_affine hA hB hi
    (h := fun x => Real.exp (-2 * v) * (1 - Real.exp v) * (Real.sin x * Real.cos x))
    (k := fun x => Real.exp (-2 * v) * s * (Real.sin x * Real.cos x)) (by fun_prop) (by fun_prop)
    (C := |Real.exp (-2 * v) * (1 - Real.exp v)| + |Real.exp (-2 * v) * s| + 1) (by positivity)
    (fun x => (bd _ x).trans (by linarith [abs_nonneg (Real.exp (-2 * v) * s)]))
    (fun x => (bd _ x).trans (by linarith [abs_nonneg (Real.exp (-2 * v) * (1 - Real.exp v))]))
  have e : ∀ ω, exactAll.cov (A ω) (B ω) s v =
      A ω ^ 2 * (Real.exp (-2 * v) * (1 - Real.exp v) * (Real.sin (B ω) * Real.cos (B ω)))
        + Real.exp (-2 * v) * s * (Real.sin (B ω) * Real.cos (B ω)) := fun ω => by
    simp only [exactAll]; ring
  simp_rw [e, h, integral_const_mul, integral_sin_cos]
  simp only [averageCov]
  have e2 : Real.exp (-(2 * (v:ℝ))) = Real.exp (-2 * v) := by ring_nf
  have e4 : Real.exp (-4 * (v:ℝ)) = Real.exp (-2 * v) * Real.exp (-2 * v) := by rw [← Real.exp_add]; ring_nf
  rw [e2, e4]
  ring

end
end Verif
