/-
Frobenius size of matrices: triangle inequality, products, action on vectors, symmetric part.
-/
import Verif.Lemmas.Perturb
import Verif.Lemmas.ToMat
import Mathlib.Analysis.Matrix.Normed

namespace Verif
open Finset Matrix
noncomputable section

/-- size of a matrix: root of the sum of the squared moduli of its entries -/
def Spec.size (A : Arr2 ℂ) : ℝ := Real.sqrt (∑ i ∈ range A.r, ∑ j ∈ range A.c, ‖A.get i j‖ ^ 2)

/-- the same for matrices of the library -/
def fsize {m n : Nat} (A : Matrix (Fin m) (Fin n) ℂ) : ℝ := Real.sqrt (∑ i, ∑ j, ‖A i j‖ ^ 2)

theorem fsize_nonneg {m n : Nat} (A : Matrix (Fin m) (Fin n) ℂ) : 0 ≤ fsize A := Real.sqrt_nonneg _

theorem fsize_sq {m n : Nat} (A : Matrix (Fin m) (Fin n) ℂ) : fsize A ^ 2 = ∑ i, ∑ j, ‖A i j‖ ^ 2 :=
  Real.sq_sqrt (Finset.sum_nonneg fun _ _ => Finset.sum_nonneg fun _ _ => sq_nonneg _)

theorem size_fsize {A : Arr2 ℂ} {m n : Nat} (hr : A.r = m) (hc : A.c = n) : Spec.size A = fsize (A.toMat m n) := by
  subst hr hc
  unfold Spec.size fsize
  congr 1
  rw [← Fin.sum_univ_eq_sum_range (fun i => ∑ j ∈ range A.c, ‖A.get i j‖ ^ 2) A.r]
  refine Finset.sum_congr rfl fun i _ => ?_
  rw [← Fin.sum_univ_eq_sum_range (fun j => ‖A.get i j‖ ^ 2) A.c]
  rfl

section
attribute [local instance] Matrix.frobeniusNormedAddCommGroup

theorem fsize_norm {m n : Nat} (A : Matrix (Fin m) (Fin n) ℂ) : fsize A = ‖A‖ := by
  rw [Matrix.frobenius_norm_def]
  unfold fsize
  rw [Real.sqrt_eq_rpow]
  congr 1
  refine Finset.sum_congr rfl fun i _ => Finset.sum_congr rfl fun j _ => ?_
  rw [← Real.rpow_natCast]
  norm_num

theorem fsize_add_le {m n : Nat} (A B : Matrix (Fin m) (Fin n) ℂ) : fsize (A + B) ≤ fsize A + fsize B := by
  rw [fsize_norm, fsize_norm, fsize_norm]; exact norm_add_le A B

theorem fsize_sub_le {m n : Nat} (A B : Matrix (Fin m) (Fin n) ℂ) : fsize (A - B) ≤ fsize A + fsize B := by
  rw [fsize_norm, fsize_norm, fsize_norm]; exact norm_sub_le A B

theorem fsize_mul_le {l m n : Nat} (A : Matrix (Fin l) (Fin m) ℂ) (B : Matrix (Fin m) (Fin n) ℂ) :
    fsize (A * B) ≤ fsize A * fsize B := by
  rw [fsize_norm, fsize_norm, fsize_norm]; exact Matrix.frobenius_norm_mul A B

end

theorem fsize_transpose {m n : Nat} (A : Matrix (Fin m) (Fin n) ℂ) : fsize A.transpose = fsize A := by
  unfold fsize
  rw [Finset.sum_comm]
  rfl

/-- the images of the axes give the size -/
theorem fsize_cols {m n : Nat} (A : Matrix (Fin m) (Fin n) ℂ) :
    fsize A ^ 2 = ∑ j, Spec.len (A.mulVec (Pi.single j 1)) ^ 2 := by
  rw [fsize_sq, Finset.sum_comm]
  refine Finset.sum_congr rfl fun j _ => ?_
  rw [len_sq]
  refine Finset.sum_congr rfl fun i _ => ?_
  rw [Matrix.mulVec_single_one]
  rfl

/-- two matrices side by side lengthen vectors at most by their size -/
theorem side_len_le {T n m : Nat} (A : Matrix (Fin T) (Fin n) ℂ) (B : Matrix (Fin T) (Fin m) ℂ) (p : Fin n → ℂ) (q : Fin m → ℂ) :
    Spec.len (A.mulVec p + B.mulVec q) ≤ Real.sqrt (fsize A ^ 2 + fsize B ^ 2) * Spec.len (Fin.append p q) := by
  have h0 : 0 ≤ fsize A ^ 2 + fsize B ^ 2 := by positivity
  refine (pow_le_pow_iff_left₀ (len_nonneg _) (mul_nonneg (Real.sqrt_nonneg _) (len_nonneg _)) two_ne_zero).1 ?_
  rw [mul_pow, Real.sq_sqrt h0, len_sq, len_append, len_sq p, len_sq q, fsize_sq, fsize_sq, ← Finset.sum_add_distrib, Finset.sum_mul]
  refine Finset.sum_le_sum fun i _ => ?_
  have h1 : ‖(A.mulVec p + B.mulVec q) i‖ ≤ ∑ j, ‖A i j‖ * ‖p j‖ + ∑ j, ‖B i j‖ * ‖q j‖ := by
    rw [Pi.add_apply]
    refine (norm_add_le _ _).trans (add_le_add ?_ ?_)
    · exact (norm_sum_le Finset.univ fun j => A i j * p j).trans (Finset.sum_le_sum fun j _ => (norm_mul (A i j) (p j)).le)
    · exact (norm_sum_le Finset.univ fun j => B i j * q j).trans (Finset.sum_le_sum fun j _ => (norm_mul (B i j) (q j)).le)
  have hA := Finset.sum_mul_sq_le_sq_mul_sq Finset.univ (fun j => ‖A i j‖) (fun j => ‖p j‖)
  have hB := Finset.sum_mul_sq_le_sq_mul_sq Finset.univ (fun j => ‖B i j‖) (fun j => ‖q j‖)
  have nA : 0 ≤ ∑ j, ‖A i j‖ ^ 2 := Finset.sum_nonneg fun _ _ => sq_nonneg _
  have nB : 0 ≤ ∑ j, ‖B i j‖ ^ 2 := Finset.sum_nonneg fun _ _ => sq_nonneg _
  have np : 0 ≤ ∑ j, ‖p j‖ ^ 2 := Finset.sum_nonneg fun _ _ => sq_nonneg _
  have nq : 0 ≤ ∑ j, ‖q j‖ ^ 2 := Finset.sum_nonneg fun _ _ => sq_nonneg _
  have na : 0 ≤ ∑ j, ‖A i j‖ * ‖p j‖ := Finset.sum_nonneg fun _ _ => by positivity
  have nb : 0 ≤ ∑ j, ‖B i j‖ * ‖q j‖ := Finset.sum_nonneg fun _ _ => by positivity
  generalize (∑ j, ‖A i j‖ * ‖p j‖) = a at *
  generalize (∑ j, ‖B i j‖ * ‖q j‖) = b at *
  generalize (∑ j, ‖A i j‖ ^ 2) = u at *
  generalize (∑ j, ‖B i j‖ ^ 2) = v at *
  generalize (∑ j, ‖p j‖ ^ 2) = s at *
  generalize (∑ j, ‖q j‖ ^ 2) = t at *
  have h2 : ‖(A.mulVec p + B.mulVec q) i‖ ^ 2 ≤ (a + b) ^ 2 := pow_le_pow_left₀ (norm_nonneg _) h1 2
  refine h2.trans ?_
  have h3 : 2 * (a * b) ≤ u * t + v * s := by
    have h4 : (a * b) ^ 2 ≤ (u * t) * (v * s) := by
      calc (a * b) ^ 2 = a ^ 2 * b ^ 2 := by ring
        _ ≤ (u * s) * (v * t) := mul_le_mul hA hB (sq_nonneg _) (mul_nonneg nA np)
        _ = (u * t) * (v * s) := by ring
    have h5 : (2 * (a * b)) ^ 2 ≤ (u * t + v * s) ^ 2 := by nlinarith [sq_nonneg (u * t - v * s)]
    exact (pow_le_pow_iff_left₀ (by positivity) (by positivity) two_ne_zero).1 h5
  nlinarith

/-- adding `b` to one side of a right triangle lengthens the hypotenuse by at most `b` -/
theorem hypot_add_le {a b t : ℝ} (ha : 0 ≤ a) (hb : 0 ≤ b) :
    Real.sqrt ((a + b) ^ 2 + t ^ 2) ≤ Real.sqrt (a ^ 2 + t ^ 2) + b := by
  have h1 : a ≤ Real.sqrt (a ^ 2 + t ^ 2) := Real.le_sqrt_of_sq_le (by nlinarith [sq_nonneg t])
  have h2 := Real.sq_sqrt (show 0 ≤ a ^ 2 + t ^ 2 by positivity)
  rw [Real.sqrt_le_iff]
  refine ⟨by positivity, ?_⟩
  nlinarith

end
end Verif
