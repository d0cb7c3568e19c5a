/-
Conjugate transposes and stacked blocks as Mathlib matrices; an inverse meeting its contract.
-/
import Verif.Spec.LinAlg
import Mathlib.LinearAlgebra.Matrix.Trace
import Mathlib.LinearAlgebra.Matrix.ToLinearEquiv
import Mathlib.LinearAlgebra.FiniteDimensional.Lemmas

namespace Verif
open Matrix Finset
noncomputable section

theorem toMat_conjT (r c : Nat) (A : Arr2 ℂ) : (conjT A).toMat r c = (A.toMat c r)ᴴ := by
  ext i j
  rw [conjTranspose_apply]
  show (conjT A).get i j = star (A.get j i)
  unfold conjT
  rw [Arr2.ofFn_get']
  split
  · rfl
  · rename_i h
    rw [A.oob j i (fun h' => h h'.symm), star_zero]

theorem hstack_ok {x z : Arr2 ℂ} (h : x.r = z.r) : ∃ m, hstack x z = .ok m ∧ m.r = x.r ∧ m.c = x.c + z.c ∧
    (∀ i j, i < x.r → j < x.c → m.get i j = x.get i j) ∧
    (∀ i j, i < x.r → j < z.c → m.get i (x.c + j) = z.get i j) := by
  refine ⟨Arr2.ofFn x.r (x.c + z.c) (fun i j => if j < x.c then x.get i j else z.get i (j - x.c)),
    by unfold hstack; rw [if_pos h], rfl, rfl, ?_, ?_⟩
  · intro i j hi hj
    rw [Arr2.ofFn_get _ hi (by omega), if_pos hj]
  · intro i j hi hj
    rw [Arr2.ofFn_get _ hi (by omega), if_neg (by omega), Nat.add_sub_cancel_left]

theorem vstack_ok {x z : Arr2 ℂ} (h : x.c = z.c) : ∃ m, vstack x z = .ok m ∧ m.r = x.r + z.r ∧ m.c = x.c ∧
    (∀ i j, i < x.r → j < x.c → m.get i j = x.get i j) ∧
    (∀ i j, i < z.r → j < x.c → m.get (x.r + i) j = z.get i j) := by
  refine ⟨Arr2.ofFn (x.r + z.r) x.c (fun i j => if i < x.r then x.get i j else z.get (i - x.r) j),
    by unfold vstack; rw [if_pos h], rfl, rfl, ?_, ?_⟩
  · intro i j hi hj
    rw [Arr2.ofFn_get _ (by omega) hj, if_pos hi]
  · intro i j hi hj
    rw [Arr2.ofFn_get _ (by omega) hj, if_neg (by omega), Nat.add_sub_cancel_left]

/-- squared Frobenius norm as a trace -/
theorem trace_normSq {m n : Nat} (M : Matrix (Fin m) (Fin n) ℂ) :
    (Mᴴ * M).trace = ((∑ j, ∑ i, Complex.normSq (M i j) : ℝ) : ℂ) := by
  rw [trace]
  push_cast
  apply Finset.sum_congr rfl
  intro j _
  rw [diag_apply, mul_apply]
  apply Finset.sum_congr rfl
  intro i _
  rw [conjTranspose_apply, Complex.normSq_eq_conj_mul_self]; rfl

/-- Pythagoras for orthogonal residuals -/
theorem frob_pythagoras {m n : Nat} (R W : Matrix (Fin m) (Fin n) ℂ) (h : Wᴴ * R = 0) :
    ∑ j, ∑ i, Complex.normSq ((R + W) i j) =
      ∑ j, ∑ i, Complex.normSq (R i j) + ∑ j, ∑ i, Complex.normSq (W i j) := by
  have h' : Rᴴ * W = 0 := by
    have := congrArg conjTranspose h
    rwa [conjTranspose_mul, conjTranspose_conjTranspose, conjTranspose_zero] at this
  have e : ((R + W)ᴴ * (R + W)).trace = (Rᴴ * R).trace + (Wᴴ * W).trace := by
    rw [conjTranspose_add, Matrix.add_mul, Matrix.mul_add, Matrix.mul_add, h, h', add_zero, zero_add, trace_add]
  rw [trace_normSq, trace_normSq, trace_normSq] at e
  exact_mod_cast e

/-- a concrete inverse: raises on singular and on non-square matrices -/
def exactInv (A : Arr2 ℂ) : Except PyErr (Arr2 ℂ) := by
  classical
  exact if A.r = A.c ∧ IsUnit (A.toMat A.r A.r).det then .ok (Arr2.ofMat (A.toMat A.r A.r)⁻¹) else .error .linAlgError

theorem exactInv_contract : Spec.InvContract exactInv := by
  intro n A B hA hB h
  obtain ⟨hr, hc⟩ := hA
  have hu : IsUnit (A.toMat n n).det := by
    have : (A.toMat n n).det * (B.toMat n n).det = 1 := by rw [← det_mul, h, det_one]
    exact IsUnit.of_mul_eq_one _ this
  unfold exactInv
  subst hr
  rw [if_pos ⟨hc.symm, hu⟩]
  congr 1
  refine Arr2.toMat_inj (r := A.r) (c := A.r) ⟨rfl, rfl⟩ hB ?_
  rw [Arr2.toMat_ofMat]
  exact Matrix.inv_eq_right_inv h

/-- kernel-free square matrices have an inverse array -/
theorem exists_inverse {n : Nat} (A : Matrix (Fin n) (Fin n) ℂ) (h : ∀ v, A.mulVec v = 0 → v = 0) :
    A * A⁻¹ = 1 := by
  apply Matrix.mul_nonsing_inv
  rw [isUnit_iff_ne_zero]
  intro hd
  obtain ⟨v, hv, hv0⟩ := Matrix.exists_mulVec_eq_zero_iff.2 hd
  exact hv (h v hv0)

/-- the trailing right singular vectors of `X G` are in the kernel of `G` -/
theorem svd_null {T n m : Nat} (X : Matrix (Fin T) (Fin n) ℂ) (G : Matrix (Fin n) (Fin (n + m)) ℂ)
    (hX : ∀ v, X.mulVec v = 0 → v = 0) (Vh : Matrix (Fin (n + m)) (Fin (n + m)) ℂ) (hV : Vh * Vhᴴ = 1)
    (U : Matrix (Fin T) (Fin T) ℂ) (hU : Uᴴ * U = 1) (s : ℕ → ℝ) (hs : ∀ k, 0 ≤ s k) (ha : Antitone s)
    (S : Matrix (Fin T) (Fin (n + m)) ℂ) (hS : ∀ i j, S i j = if (i : ℕ) = j then (s i : ℂ) else 0)
    (h : X * G = U * S * Vh) (i : Fin n) (j : Fin (n + m)) (hj : n ≤ j) : (G * Vhᴴ) i j = 0 := by
  have hXG : X * (G * Vhᴴ) = U * S := by
    rw [← Matrix.mul_assoc, h, Matrix.mul_assoc, hV, Matrix.mul_one]
  have hcol : ∀ t, S t j = 0 := by
    intro t
    rw [hS]
    split
    · rename_i htj
      by_contra hne
      have hpos : 0 < s j := lt_of_le_of_ne (hs _) (fun h0 => hne (by rw [htj, ← h0]; simp))
      have hle : n + 1 ≤ n + m := by have := j.2; omega
      let N : Matrix (Fin n) (Fin (n + 1)) ℂ := (G * Vhᴴ).submatrix id (Fin.castLE hle)
      have hker : LinearMap.ker N.mulVecLin ≠ ⊥ := LinearMap.ker_ne_bot_of_finrank_lt (by simp)
      obtain ⟨c, hc, hc0⟩ := Submodule.exists_mem_ne_zero_of_ne_bot hker
      rw [LinearMap.mem_ker, mulVecLin_apply] at hc
      have hXN : X * N = U * S.submatrix id (Fin.castLE hle) := by
        ext a b
        exact congrFun (congrFun hXG a) (Fin.castLE hle b)
      have hz : (S.submatrix id (Fin.castLE hle)).mulVec c = 0 := by
        have : (Uᴴ * (X * N)).mulVec c = 0 := by
          rw [← mulVec_mulVec, ← mulVec_mulVec, hc, mulVec_zero, mulVec_zero]
        rw [hXN, ← Matrix.mul_assoc, hU, Matrix.one_mul] at this
        exact this
      apply hc0
      funext k
      have hk : (k : ℕ) < T := by have := k.2; have := t.2; omega
      have := congrFun hz ⟨k, hk⟩
      simp only [mulVec, dotProduct, submatrix_apply, id] at this
      rw [Finset.sum_eq_single k] at this
      · rw [hS, if_pos (by simp)] at this
        have hsk : 0 < s k := lt_of_lt_of_le hpos (ha (by have := k.2; omega))
        have hne' : ((s k : ℝ) : ℂ) ≠ 0 := by exact_mod_cast hsk.ne'
        exact (mul_eq_zero.1 this).resolve_left hne'
      · intro l _ hl
        rw [hS, if_neg (by simpa [Fin.ext_iff] using fun h' => hl (Fin.ext h'.symm)), zero_mul]
      · intro h'; exact absurd (Finset.mem_univ _) h'
    · rfl
  have hv : X.mulVec (fun k => (G * Vhᴴ) k j) = 0 := by
    funext t
    have := congrFun (congrFun hXG t) j
    rw [mul_apply] at this
    show ∑ k, X t k * (G * Vhᴴ) k j = 0
    rw [this, mul_apply]
    exact Finset.sum_eq_zero (fun k _ => by rw [hcol, mul_zero])
  exact congrFun (hX _ hv) i

/-- the blocks of the right singular vectors of `[X, X Y]` -/
theorem svd_blocks {n m : Nat} (Y : Matrix (Fin n) (Fin m) ℂ) (V : Matrix (Fin (n + m)) (Fin (n + m)) ℂ)
    (W : Matrix (Fin (n + m)) (Fin (n + m)) ℂ) (hW : W * V = 1) (G : Matrix (Fin n) (Fin (n + m)) ℂ)
    (hG1 : ∀ i k, G i (Fin.castAdd m k) = if i = k then 1 else 0) (hG2 : ∀ i k, G i (Fin.natAdd n k) = Y i k)
    (h : ∀ i (j : Fin (n + m)), n ≤ (j : ℕ) → (G * V) i j = 0)
    (Vxy : Matrix (Fin n) (Fin m) ℂ) (hxy : ∀ i j, Vxy i j = V (Fin.castAdd m i) (Fin.natAdd n j))
    (Vyy : Matrix (Fin m) (Fin m) ℂ) (hyy : ∀ i j, Vyy i j = V (Fin.natAdd n i) (Fin.natAdd n j)) :
    Vxy = -(Y * Vyy) ∧ ∀ w, Vyy.mulVec w = 0 → w = 0 := by
  have h1 : Vxy = -(Y * Vyy) := by
    ext i l
    have := h i (Fin.natAdd n l) (by simp)
    rw [mul_apply, Fin.sum_univ_add] at this
    simp only [hG1, hG2, ite_mul, one_mul, zero_mul, Finset.sum_ite_eq, Finset.mem_univ, if_true] at this
    rw [neg_apply, mul_apply, hxy]
    simp only [hyy]
    exact eq_neg_of_add_eq_zero_left this
  refine ⟨h1, fun w hw => ?_⟩
  have hz : V.mulVec (Fin.append 0 w) = 0 := by
    funext i
    show ∑ k, V i k * Fin.append 0 w k = 0
    rw [Fin.sum_univ_add]
    simp only [Fin.append_left, Fin.append_right, Pi.zero_apply, mul_zero, Finset.sum_const_zero, zero_add]
    refine Fin.addCases (fun a => ?_) (fun a => ?_) i
    · have : Vxy.mulVec w = 0 := by rw [h1, neg_mulVec, ← mulVec_mulVec, hw, mulVec_zero, neg_zero]
      have := congrFun this a
      simp only [mulVec, dotProduct, hxy] at this
      exact this
    · have := congrFun hw a
      simp only [mulVec, dotProduct, hyy] at this
      exact this
  have : Fin.append (0 : Fin n → ℂ) w = 0 := by
    have h2 := congrArg W.mulVec hz
    rwa [mulVec_mulVec, hW, one_mulVec, mulVec_zero] at h2
  funext l
  have := congrFun this (Fin.natAdd n l)
  rwa [Fin.append_right] at this

end
end Verif
