/-
The scalar inequality behind the iteratively reweighted least squares: the weighted square majorises the smoothed penalty.
-/
import Mathlib.Analysis.SpecialFunctions.Trigonometric.DerivHyp
import Mathlib.Analysis.SpecialFunctions.Log.Deriv
import Mathlib.Analysis.SpecialFunctions.Pow.Real

namespace Verif
noncomputable section

/-- smoothed penalty: a smoothed `2|r|` for order 1, `r²/(1+α)` for order 2 -/
def Spec.smooth (α order r : ℝ) : ℝ := if order = 2 then r ^ 2 / (1 + α) else 2 * (|r| - α * Real.log (1 + |r| / α))

theorem two_log_ge {s : ℝ} (h0 : 0 < s) (h1 : s ≤ 1) : s - 1 / s ≤ 2 * Real.log s := by
  have hL : 0 ≤ -Real.log s := by have := Real.log_nonpos h0.le h1; linarith
  have h := Real.self_le_sinh_iff.2 hL
  rw [Real.sinh_eq, neg_neg, Real.exp_neg, Real.exp_log h0] at h
  rw [one_div]
  linarith

theorem major_aux {α p q : ℝ} (hα : 0 < α) (hp : α ≤ p) (hq : α ≤ q) :
    2 * (q - p) - 2 * α * (Real.log q - Real.log p) ≤ (q - p) * (q + p - 2 * α) / p := by
  have hp0 : 0 < p := by linarith
  have hq0 : 0 < q := by linarith
  have hlog : Real.log q - Real.log p = Real.log (q / p) := (Real.log_div hq0.ne' hp0.ne').symm
  rw [hlog, le_div_iff₀ hp0]
  set s := q / p with hs
  have hqs : q = s * p := by rw [hs]; field_simp
  have hs0 : 0 < s := div_pos hq0 hp0
  -- p²(s-1)² ≥ 2 α p (s - 1 - log s)
  suffices h : 2 * α * (s - 1 - Real.log s) ≤ p * (s - 1) ^ 2 by
    rw [hqs]; nlinarith
  have hnn : 0 ≤ s - 1 - Real.log s := by have := Real.log_le_sub_one_of_pos hs0; linarith
  rcases le_or_gt 1 s with h1 | h1
  · have h2 := Real.le_log_one_add_of_nonneg (x := s - 1) (by linarith)
    rw [show 1 + (s - 1) = s by ring, show s - 1 + 2 = s + 1 by ring] at h2
    have h3 : s - 1 - Real.log s ≤ (s - 1) ^ 2 / (s + 1) := by
      have : s - 1 - 2 * (s - 1) / (s + 1) = (s - 1) ^ 2 / (s + 1) := by field_simp; ring
      linarith
    have h4 : (s - 1) ^ 2 / (s + 1) ≤ (s - 1) ^ 2 / 2 := by
      apply div_le_div_of_nonneg_left (sq_nonneg _) (by norm_num) (by linarith)
    nlinarith [sq_nonneg (s - 1)]
  · have h2 := two_log_ge hs0 h1.le
    have h3 : 2 * s * (s - 1 - Real.log s) ≤ (s - 1) ^ 2 := by
      have : s * (s - 1 / s) ≤ s * (2 * Real.log s) := mul_le_mul_of_nonneg_left h2 hs0.le
      have e : s * (s - 1 / s) = s ^ 2 - 1 := by field_simp
      nlinarith
    have h4 : α ≤ s * p := by rw [← hqs]; exact hq
    nlinarith [mul_le_mul_of_nonneg_right h4 hnn]

/-- majorisation: replacing the penalty by the square weighted at `r` overestimates every change -/
theorem smooth_major {α order : ℝ} (hα : 0 < α) (ho : order = 1 ∨ order = 2) (r r' : ℝ) :
    Spec.smooth α order r' - Spec.smooth α order r ≤ (r' ^ 2 - r ^ 2) / (|r| ^ ((2 : ℝ) - order) + α) := by
  rcases ho with rfl | rfl
  · have e : (2 : ℝ) - 1 = 1 := by norm_num
    unfold Spec.smooth
    rw [if_neg (by norm_num), if_neg (by norm_num), e, Real.rpow_one]
    have h := major_aux hα (p := α + |r|) (q := α + |r'|) (by linarith [abs_nonneg r]) (by linarith [abs_nonneg r'])
    have l1 : Real.log (1 + |r| / α) = Real.log (α + |r|) - Real.log α := by
      rw [← Real.log_div (by positivity) hα.ne']; congr 1; field_simp
    have l2 : Real.log (1 + |r'| / α) = Real.log (α + |r'|) - Real.log α := by
      rw [← Real.log_div (by positivity) hα.ne']; congr 1; field_simp
    have e2 : (α + |r'| - (α + |r|)) * (α + |r'| + (α + |r|) - 2 * α) / (α + |r|) = (r' ^ 2 - r ^ 2) / (|r| + α) := by
      rw [← sq_abs r, ← sq_abs r', add_comm α |r|]; congr 1; ring
    rw [← e2, l1, l2]
    linarith
  · have e : (2 : ℝ) - 2 = 0 := by norm_num
    unfold Spec.smooth
    rw [if_pos rfl, if_pos rfl, e, Real.rpow_zero, ← sub_div]

end
end Verif
