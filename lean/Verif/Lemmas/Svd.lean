/-
Every complex matrix has a full singular value decomposition.
-/
import Verif.Spec.LinAlg
import Mathlib.Analysis.InnerProductSpace.Spectrum
import Mathlib.Analysis.InnerProductSpace.PiL2
import Mathlib.Analysis.InnerProductSpace.Adjoint
import Mathlib.LinearAlgebra.UnitaryGroup

namespace Verif
open Matrix Module
noncomputable section

/-- singular vectors: orthonormal bases of both spaces, with the images of the second a decreasing multiple of the first -/
theorem singular_bases {T N : Nat} (A : EuclideanSpace ℂ (Fin N) →ₗ[ℂ] EuclideanSpace ℂ (Fin T)) :
    ∃ (u : OrthonormalBasis (Fin T) ℂ (EuclideanSpace ℂ (Fin T))) (v : OrthonormalBasis (Fin N) ℂ (EuclideanSpace ℂ (Fin N)))
      (s : ℕ → ℝ), (∀ k, 0 ≤ s k) ∧ Antitone s ∧
      ∀ k : Fin N, A (v k) = if h : (k : ℕ) < T then (s k : ℂ) • u ⟨k, h⟩ else 0 := by
  have hs : (LinearMap.adjoint A ∘ₗ A).IsSymmetric := by
    intro x y
    simp [LinearMap.adjoint_inner_left, LinearMap.adjoint_inner_right]
  have hN : finrank ℂ (EuclideanSpace ℂ (Fin N)) = N := by simp
  have hT : finrank ℂ (EuclideanSpace ℂ (Fin T)) = T := by simp
  set v := hs.eigenvectorBasis hN with hv
  set l := hs.eigenvalues hN with hl
  have hanti : Antitone l := hs.eigenvalues_antitone hN
  have hin : ∀ i j, inner ℂ (A (v i)) (A (v j)) = if i = j then (l j : ℂ) else 0 := by
    intro i j
    rw [← LinearMap.adjoint_inner_right]
    have : LinearMap.adjoint A (A (v j)) = (l j : ℂ) • v j := hs.apply_eigenvectorBasis hN j
    rw [this, inner_smul_right, orthonormal_iff_ite.1 v.orthonormal i j]
    split <;> simp
  have hnn : ∀ k, 0 ≤ l k := by
    intro k
    have := hin k k
    rw [if_pos rfl, inner_self_eq_norm_sq_to_K] at this
    have h2 : ((‖A (v k)‖ ^ 2 : ℝ) : ℂ) = (l k : ℂ) := by push_cast; exact this
    have h3 : ‖A (v k)‖ ^ 2 = l k := by exact_mod_cast h2
    rw [← h3]; positivity
  have hzero : ∀ k, l k = 0 → A (v k) = 0 := by
    intro k hk
    have := hin k k
    rw [if_pos rfl, hk] at this
    exact inner_self_eq_zero.1 (by rw [this]; simp)
  -- normalised images
  set n : Fin N → EuclideanSpace ℂ (Fin T) := fun k => ((Real.sqrt (l k))⁻¹ : ℂ) • A (v k) with hn
  have hort : Orthonormal ℂ (fun k : {k : Fin N // l k ≠ 0} => n k) := by
    rw [orthonormal_iff_ite]
    rintro ⟨i, hi⟩ ⟨j, hj⟩
    simp only [hn, inner_smul_left, inner_smul_right, hin, Subtype.mk.injEq]
    split
    · rename_i hij
      subst hij
      have h1 : (Real.sqrt (l i) : ℂ) ≠ 0 := by
        have : Real.sqrt (l i) ≠ 0 := Real.sqrt_ne_zero'.2 (lt_of_le_of_ne (hnn i) (Ne.symm hi))
        exact_mod_cast this
      have h2 : (l i : ℂ) = (Real.sqrt (l i) : ℂ) * (Real.sqrt (l i) : ℂ) := by
        rw [← Complex.ofReal_mul, Real.mul_self_sqrt (hnn i)]
      rw [h2, map_inv₀, Complex.conj_ofReal]
      field_simp
    · simp
  have hcard : Fintype.card {k : Fin N // l k ≠ 0} ≤ T := by
    have := hort.linearIndependent.fintype_card_le_finrank
    rwa [hT] at this
  have hpos : ∀ k : Fin N, l k ≠ 0 → (k : ℕ) < T := by
    intro k hk
    have : Fintype.card (Fin (k + 1)) ≤ Fintype.card {k : Fin N // l k ≠ 0} := by
      refine Fintype.card_le_of_injective (fun i => ⟨⟨i, by omega⟩, ?_⟩) ?_
      · intro h0
        have := hanti (show (⟨i, by omega⟩ : Fin N) ≤ k from by rw [Fin.le_def]; simp; omega)
        exact hk (le_antisymm (by rw [← h0]; exact this) (hnn k))
      · intro i j hij
        simp only [Subtype.mk.injEq, Fin.mk.injEq] at hij
        exact Fin.ext hij
    rw [Fintype.card_fin] at this
    omega
  -- extension to a basis
  set w : Fin T → EuclideanSpace ℂ (Fin T) := fun i => if h : (i : ℕ) < N then n ⟨i, h⟩ else 0 with hw
  set S : Set (Fin T) := {i | ∃ h : (i : ℕ) < N, l ⟨i, h⟩ ≠ 0} with hS
  have hortS : Orthonormal ℂ (S.restrict w) := by
    have : S.restrict w = fun i : S => n ⟨i.1, i.2.choose⟩ := by
      funext i
      show w i.1 = _
      simp only [hw]
      rw [dif_pos i.2.choose]
    rw [this]
    exact hort.comp (fun i : S => ⟨⟨i.1, i.2.choose⟩, i.2.choose_spec⟩) (by
      intro i j hij
      simp only [Subtype.mk.injEq, Fin.mk.injEq] at hij
      exact Subtype.ext (Fin.ext hij))
  obtain ⟨u, hu⟩ := hortS.exists_orthonormalBasis_extension_of_card_eq (by rw [hT, Fintype.card_fin])
  refine ⟨u, v, fun k => if h : k < N then Real.sqrt (l ⟨k, h⟩) else 0, ?_, ?_, ?_⟩
  · intro k
    dsimp only
    split
    · exact Real.sqrt_nonneg _
    · exact le_rfl
  · intro i j hij
    dsimp only
    split
    · rename_i hj
      rw [dif_pos (lt_of_le_of_lt hij hj)]
      exact Real.sqrt_le_sqrt (hanti (by rw [Fin.le_def]; exact hij))
    · split
      · exact Real.sqrt_nonneg _
      · exact le_rfl
  · intro k
    dsimp only
    rw [dif_pos k.2]
    by_cases hk : l k = 0
    · rw [hzero k hk]
      split
      · have : l ⟨k, k.2⟩ = 0 := hk
        rw [this]; simp
      · rfl
    · rw [dif_pos (hpos k hk), hu ⟨k, hpos k hk⟩ ⟨k.2, hk⟩]
      simp only [hw, Fin.eta, Fin.is_lt, dif_pos, hn]
      rw [smul_smul, mul_inv_cancel₀, one_smul]
      have : Real.sqrt (l k) ≠ 0 := Real.sqrt_ne_zero'.2 (lt_of_le_of_ne (hnn k) (Ne.symm hk))
      exact_mod_cast this

/-- every matrix has a full singular value decomposition -/
theorem svd_exists {T N : Nat} (M : Matrix (Fin T) (Fin N) ℂ) :
    ∃ (u : Matrix (Fin T) (Fin T) ℂ) (vh : Matrix (Fin N) (Fin N) ℂ) (s : ℕ → ℝ), uᴴ * u = 1 ∧ vh * vhᴴ = 1 ∧ (∀ k, 0 ≤ s k) ∧
      Antitone s ∧ M = u * (Matrix.of fun (i : Fin T) (j : Fin N) => if (i : ℕ) = j then (s i : ℂ) else 0) * vh := by
  obtain ⟨u, v, s, h0, h1, h2⟩ := singular_bases (Matrix.toEuclideanLin M)
  set U : Matrix (Fin T) (Fin T) ℂ := Matrix.of fun i j => u j i with hU
  set V : Matrix (Fin N) (Fin N) ℂ := Matrix.of fun i j => v j i with hV
  have hort : ∀ {n : Nat} (b : OrthonormalBasis (Fin n) ℂ (EuclideanSpace ℂ (Fin n))),
      (Matrix.of fun i j => b j i : Matrix (Fin n) (Fin n) ℂ)ᴴ * (Matrix.of fun i j => b j i) = 1 := by
    intro n b
    ext i j
    have := orthonormal_iff_ite.1 b.orthonormal i j
    rw [Matrix.mul_apply, Matrix.one_apply, ← this]
    simp [PiLp.inner_apply, mul_comm]
  have hVV : V * Vᴴ = 1 := mul_eq_one_comm.1 (hort v)
  refine ⟨U, Vᴴ, s, hort u, by rw [conjTranspose_conjTranspose]; exact hort v, h0, h1, ?_⟩
  have key : M * V = U * (Matrix.of fun (i : Fin T) (j : Fin N) => if (i : ℕ) = j then (s i : ℂ) else 0) := by
    ext i j
    have hj := congrArg (fun x : EuclideanSpace ℂ (Fin T) => x i) (h2 j)
    simp only [Matrix.toLpLin_apply, Matrix.mulVec, dotProduct] at hj
    rw [Matrix.mul_apply, Matrix.mul_apply]
    refine hj.trans ?_
    by_cases hlt : (j : ℕ) < T
    · rw [dif_pos hlt, Finset.sum_eq_single ⟨j, hlt⟩]
      · simp [hU, mul_comm]
      · intro k _ hk
        rw [Matrix.of_apply, if_neg, mul_zero]
        exact fun h => hk (Fin.ext h)
      · simp
    · rw [dif_neg hlt, Finset.sum_eq_zero]
      · rfl
      · intro k _
        rw [Matrix.of_apply, if_neg (by omega), mul_zero]
  rw [← key, Matrix.mul_assoc, hVV, Matrix.mul_one]

/-- an exact decomposition -/
def exactSvd (m : Arr2 ℂ) : Except PyErr (Arr2 ℂ) := .ok (Arr2.ofMat (svd_exists (m.toMat m.r m.c)).choose_spec.choose)

theorem exactSvd_contract : Spec.SvdContract exactSvd := by
  intro m
  refine ⟨_, rfl, ?_⟩
  obtain ⟨s, h1, h2, h3, h4, h5⟩ := (svd_exists (m.toMat m.r m.c)).choose_spec.choose_spec
  refine ⟨rfl, rfl, rfl, rfl, ?_, _, s, h1, h3, h4, ?_⟩
  · rw [Arr2.toMat_ofMat]; exact h2
  · rw [Arr2.toMat_ofMat]; exact h5

end
end Verif
