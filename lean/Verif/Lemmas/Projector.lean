/-
Linear algebra of the projector on the power-flow equations.
-/
import Verif.Lemmas.ComplexMat
import Mathlib.LinearAlgebra.Matrix.DotProduct
import Mathlib.LinearAlgebra.Matrix.Hermitian
import Mathlib.Analysis.Complex.Order

namespace Verif
open Matrix Finset
open scoped ComplexOrder
noncomputable section

/-- `NᴴN` has no kernel when the last rows of `N` are `-I` -/
theorem gram_kernel {m n : Nat} (N : Matrix (Fin m) (Fin n) ℂ) (hN : ∀ v, N.mulVec v = 0 → v = 0) (v : Fin n → ℂ)
    (h : (Nᴴ * N).mulVec v = 0) : v = 0 := by
  apply hN
  have h1 : star (N.mulVec v) ⬝ᵥ N.mulVec v = 0 := by
    rw [star_mulVec, ← dotProduct_mulVec, mulVec_mulVec, h, dotProduct_zero]
  exact dotProduct_star_self_eq_zero.1 h1

theorem proj_props {m n : Nat} (N : Matrix (Fin m) (Fin n) ℂ) (hN : ∀ v, N.mulVec v = 0 → v = 0)
    (P : Matrix (Fin m) (Fin m) ℂ) (hP : P = 1 - N * (Nᴴ * N)⁻¹ * Nᴴ) :
    P * N = 0 ∧ Pᴴ = P ∧ P * P = P ∧ (∀ {T : Nat} (W : Matrix (Fin T) (Fin m) ℂ), W * N = 0 → W * P = W) := by
  have hG := exists_inverse (Nᴴ * N) (gram_kernel N hN)
  have hG' : (Nᴴ * N)⁻¹ * (Nᴴ * N) = 1 := by
    apply Matrix.nonsing_inv_mul
    exact IsUnit.of_mul_eq_one _ (by rw [← det_mul, hG, det_one])
  have h1 : P * N = 0 := by
    rw [hP, Matrix.sub_mul, Matrix.one_mul, Matrix.mul_assoc, Matrix.mul_assoc, hG', Matrix.mul_one, sub_self]
  have h2 : Pᴴ = P := by
    rw [hP, conjTranspose_sub, conjTranspose_one, conjTranspose_mul, conjTranspose_mul, conjTranspose_conjTranspose,
      conjTranspose_nonsing_inv, conjTranspose_mul, conjTranspose_conjTranspose, Matrix.mul_assoc]
  refine ⟨h1, h2, ?_, ?_⟩
  · have : Nᴴ * P = 0 := by
      have := congrArg conjTranspose h1
      rwa [conjTranspose_mul, h2, conjTranspose_zero] at this
    have e : P * P = (1 - N * (Nᴴ * N)⁻¹ * Nᴴ) * P := by rw [← hP]
    rw [e, Matrix.sub_mul, Matrix.one_mul, Matrix.mul_assoc, this, Matrix.mul_zero, sub_zero]
  · intro T W hW
    rw [hP, Matrix.mul_sub, Matrix.mul_one, ← Matrix.mul_assoc, ← Matrix.mul_assoc, hW, Matrix.zero_mul, Matrix.zero_mul,
      sub_zero]

/-- projected rows are the nearest rows in the kernel -/
theorem proj_nearest {m n T : Nat} (N : Matrix (Fin m) (Fin n) ℂ) (hN : ∀ v, N.mulVec v = 0 → v = 0)
    (P : Matrix (Fin m) (Fin m) ℂ) (hP : P = 1 - N * (Nᴴ * N)⁻¹ * Nᴴ) (W W' : Matrix (Fin T) (Fin m) ℂ) (hW' : W' * N = 0) :
    ∑ i, ∑ j, Complex.normSq ((W - W * P) i j) ≤ ∑ i, ∑ j, Complex.normSq ((W - W') i j) := by
  obtain ⟨_, hH, hI, hK⟩ := proj_props N hN P hP
  have h := frob_pythagoras ((W - W * P)ᴴ) ((W * P - W')ᴴ) (by
    rw [conjTranspose_conjTranspose, ← conjTranspose_conjTranspose (W * P - W'), ← conjTranspose_mul]
    have : (W - W * P) * (W * P - W')ᴴ = 0 := by
      have e : W * P - W' = (W - W') * P := by rw [Matrix.sub_mul, hK W' hW']
      rw [e, conjTranspose_mul, hH, Matrix.sub_mul, Matrix.mul_assoc W P, ← Matrix.mul_assoc P P, hI, sub_self]
    rw [this, conjTranspose_zero])
  rw [← conjTranspose_add, sub_add_sub_cancel] at h
  have e : ∀ M : Matrix (Fin T) (Fin m) ℂ, ∑ j, ∑ i, Complex.normSq (Mᴴ i j) = ∑ i, ∑ j, Complex.normSq (M i j) := by
    intro M
    apply Finset.sum_congr rfl; intro i _
    apply Finset.sum_congr rfl; intro j _
    rw [conjTranspose_apply]
    exact Complex.normSq_conj _
  rw [e, e, e] at h
  rw [h]
  have : 0 ≤ ∑ i, ∑ j, Complex.normSq ((W * P - W') i j) :=
    Finset.sum_nonneg (fun _ _ => Finset.sum_nonneg (fun _ _ => Complex.normSq_nonneg _))
  linarith

/-- the projector of the code -/
theorem projector_ok {inv : Arr2 ℂ → Except PyErr (Arr2 ℂ)} (hinv : Spec.InvContract inv) (n : Nat) (Y : Arr2 ℂ)
    (hY : Spec.IsSquare n Y) :
    ∃ (p : Arr2 ℂ) (N : Matrix (Fin (n + n)) (Fin n) ℂ), projector inv n Y = .ok p ∧ p.r = n + n ∧ p.c = n + n ∧
      (∀ i j, N (Fin.castAdd n i) j = Y.get i j) ∧ (∀ i j, N (Fin.natAdd n i) j = if i = j then -1 else 0) ∧
      (∀ v, N.mulVec v = 0 → v = 0) ∧ p.toMat (n + n) (n + n) = 1 - N * (Nᴴ * N)⁻¹ * Nᴴ := by
  obtain ⟨ns, hns, h1, h2, h3, h4⟩ := vstack_ok (x := Y) (z := (Arr2.eye n).map (fun t => -t)) (by rw [hY.2]; rfl)
  have hr : ns.r = n + n := by rw [h1, hY.1]; rfl
  have hc : ns.c = n := by rw [h2, hY.2]
  have e1 : ∀ (i j : Fin n), ns.toMat (n + n) n (Fin.castAdd n i) j = Y.get i j := by
    intro i j
    exact h3 i j (by rw [hY.1]; exact i.2) (by rw [hY.2]; exact j.2)
  have e2 : ∀ (i j : Fin n), ns.toMat (n + n) n (Fin.natAdd n i) j = if i = j then -1 else 0 := by
    intro i j
    have := h4 i j i.2 (by rw [hY.2]; exact j.2)
    rw [hY.1] at this
    show ns.get (n + i) j = _
    rw [this]
    show (Arr2.ofFn n n (fun i j => -((Arr2.eye n : Arr2 ℂ).get i j))).get i j = _
    rw [Arr2.ofFn_get _ i.2 j.2, Arr2.eye, Arr2.ofFn_get _ i.2 j.2]
    by_cases h : i = j
    · subst h; simp
    · rw [if_neg h, if_neg (fun h' => h (Fin.ext h')), neg_zero]
  have hker : ∀ v, (ns.toMat (n + n) n).mulVec v = 0 → v = 0 := by
    intro v hv
    funext i
    have := congrFun hv (Fin.natAdd n i)
    simp only [mulVec, dotProduct, e2, ite_mul, neg_mul, one_mul, zero_mul, Finset.sum_ite_eq, Finset.mem_univ, if_true] at this
    simpa using this
  obtain ⟨g, hg, gr, gc, gm⟩ := Arr2.matmul_mat (A := conjT ns) (B := ns) (m := n) (k := n + n) (n := n)
    ⟨hc, hr⟩ ⟨hr, hc⟩
  rw [toMat_conjT] at gm
  have hgi : inv g = .ok (Arr2.ofMat (g.toMat n n)⁻¹) := by
    refine hinv n g _ ⟨gr, gc⟩ ⟨rfl, rfl⟩ ?_
    rw [Arr2.toMat_ofMat]
    apply exists_inverse
    rw [gm]
    exact gram_kernel _ hker
  obtain ⟨m1, hm1, m1r, m1c, m1m⟩ := Arr2.matmul_mat (A := ns) (B := Arr2.ofMat (g.toMat n n)⁻¹) (m := n + n) (k := n) (n := n)
    ⟨hr, hc⟩ ⟨rfl, rfl⟩
  obtain ⟨m2, hm2, m2r, m2c, m2m⟩ := Arr2.matmul_mat (A := m1) (B := conjT ns) (m := n + n) (k := n) (n := n + n)
    ⟨m1r, m1c⟩ ⟨hc, hr⟩
  obtain ⟨p, hp, pr, pc, pm⟩ := Arr2.zipWith_mat (fun a b : ℂ => a - b) (A := Arr2.eye (2 * n)) (B := m2) (m := n + n)
    (n := n + n) ⟨two_mul n, two_mul n⟩ ⟨m2r, m2c⟩
  refine ⟨p, ns.toMat (n + n) n, ?_, pr, pc, e1, e2, hker, ?_⟩
  · simp only [projector, hns, hg, hgi, hm1, hm2, bind, Except.bind]
    exact hp
  · rw [pm, m2m, m1m, Arr2.toMat_ofMat, gm, toMat_conjT]
    have : (Arr2.eye (2 * n) : Arr2 ℂ).toMat (n + n) (n + n) = 1 := by
      rw [two_mul]; exact Arr2.toMat_eye (n + n)
    rw [this]; rfl

end
end Verif
