/-
Perturbation of singular value decompositions: what remains of the trailing right singular vectors of `X [I Y]` when noise
is added.
-/
import Verif.Lemmas.ComplexMat
import Verif.Spec.LinAlg
import Mathlib.Analysis.InnerProductSpace.PiL2

namespace Verif
open Matrix Finset
noncomputable section

theorem len_norm {n : Nat} (v : Fin n → ℂ) : Spec.len v = ‖(WithLp.toLp 2 v : EuclideanSpace ℂ (Fin n))‖ := by
  rw [EuclideanSpace.norm_eq]; rfl

theorem len_nonneg {n : Nat} (v : Fin n → ℂ) : 0 ≤ Spec.len v := Real.sqrt_nonneg _

theorem len_sq {n : Nat} (v : Fin n → ℂ) : Spec.len v ^ 2 = ∑ i, ‖v i‖ ^ 2 :=
  Real.sq_sqrt (Finset.sum_nonneg fun _ _ => sq_nonneg _)

theorem len_add_le {n : Nat} (v w : Fin n → ℂ) : Spec.len (v + w) ≤ Spec.len v + Spec.len w := by
  rw [len_norm, len_norm, len_norm, WithLp.toLp_add]
  exact norm_add_le _ _

theorem len_neg {n : Nat} (v : Fin n → ℂ) : Spec.len (-v) = Spec.len v := by
  unfold Spec.len; simp

theorem len_sub_le {n : Nat} (v w : Fin n → ℂ) : Spec.len (v - w) ≤ Spec.len v + Spec.len w := by
  rw [sub_eq_add_neg]
  exact (len_add_le _ _).trans (by rw [len_neg])

theorem len_eq_zero {n : Nat} {v : Fin n → ℂ} : Spec.len v = 0 ↔ v = 0 := by
  rw [len_norm, norm_eq_zero]
  constructor
  · intro h; exact congrArg WithLp.ofLp h
  · intro h; rw [h]; rfl

theorem len_zero (n : Nat) : Spec.len (0 : Fin n → ℂ) = 0 := len_eq_zero.2 rfl

theorem len_pos {n : Nat} {v : Fin n → ℂ} (h : v ≠ 0) : 0 < Spec.len v :=
  lt_of_le_of_ne (len_nonneg v) (fun h0 => h (len_eq_zero.1 h0.symm))

theorem len_append {n m : Nat} (v : Fin n → ℂ) (w : Fin m → ℂ) :
    Spec.len (Fin.append v w) ^ 2 = Spec.len v ^ 2 + Spec.len w ^ 2 := by
  rw [len_sq, len_sq, len_sq, Fin.sum_univ_add]
  simp

theorem len_star {n : Nat} (v : Fin n → ℂ) : ((Spec.len v ^ 2 : ℝ) : ℂ) = star v ⬝ᵥ v := by
  rw [len_sq, dotProduct, Complex.ofReal_sum]
  refine Finset.sum_congr rfl fun i _ => ?_
  rw [Pi.star_apply, Complex.ofReal_pow, ← Complex.conj_mul']
  rfl

/-- matrices with orthonormal columns keep lengths -/
theorem len_isometry {m n : Nat} (U : Matrix (Fin m) (Fin n) ℂ) (hU : Uᴴ * U = 1) (v : Fin n → ℂ) :
    Spec.len (U.mulVec v) = Spec.len v := by
  have h : Spec.len (U.mulVec v) ^ 2 = Spec.len v ^ 2 := by
    have : ((Spec.len (U.mulVec v) ^ 2 : ℝ) : ℂ) = ((Spec.len v ^ 2 : ℝ) : ℂ) := by
      rw [len_star, len_star, star_mulVec, ← dotProduct_mulVec, mulVec_mulVec, hU, one_mulVec]
    exact_mod_cast this
  exact (pow_left_inj₀ (len_nonneg _) (len_nonneg _) two_ne_zero).1 h

/-- squared entry of a vector, zero beyond its end -/
def entrySq {N : Nat} (v : Fin N → ℂ) (i : ℕ) : ℝ := if h : i < N then ‖v ⟨i, h⟩‖ ^ 2 else 0

theorem entrySq_nonneg {N : Nat} (v : Fin N → ℂ) (i : ℕ) : 0 ≤ entrySq v i := by
  unfold entrySq; split
  · exact sq_nonneg _
  · exact le_refl _

theorem entrySq_sum {N : Nat} (v : Fin N → ℂ) : ∑ i ∈ range N, entrySq v i = Spec.len v ^ 2 := by
  rw [len_sq, ← Fin.sum_univ_eq_sum_range]
  refine Finset.sum_congr rfl fun i _ => ?_
  unfold entrySq
  rw [dif_pos i.2]

/-- length after stretching each coordinate -/
theorem diag_len {T N : Nat} (s : ℕ → ℝ) (S : Matrix (Fin T) (Fin N) ℂ)
    (hS : ∀ i j, S i j = if (i : ℕ) = j then (s i : ℂ) else 0) (v : Fin N → ℂ) :
    Spec.len (S.mulVec v) ^ 2 = ∑ i ∈ range T, s i ^ 2 * entrySq v i := by
  rw [len_sq, ← Fin.sum_univ_eq_sum_range]
  refine Finset.sum_congr rfl fun i _ => ?_
  have : S.mulVec v i = if h : (i : ℕ) < N then (s i : ℂ) * v ⟨i, h⟩ else 0 := by
    show ∑ j, S i j * v j = _
    split
    · rename_i h
      rw [Finset.sum_eq_single ⟨i, h⟩]
      · rw [hS, if_pos rfl]
      · intro j _ hj
        rw [hS, if_neg, zero_mul]
        intro h'
        exact hj (Fin.ext h'.symm)
      · intro h'; exact absurd (Finset.mem_univ _) h'
    · rename_i h
      refine Finset.sum_eq_zero fun j _ => ?_
      rw [hS, if_neg, zero_mul]
      intro h'
      exact h (h' ▸ j.2)
  rw [this]
  unfold entrySq
  split
  · rw [norm_mul, mul_pow, Complex.norm_real, Real.norm_eq_abs, sq_abs]
  · simp

/-- The part of `X₀ G + E` along its trailing right singular vectors is no longer than the noise `E` allows. -/
theorem trailing_le {T n m : Nat} (X0 : Matrix (Fin T) (Fin n) ℂ) (G : Matrix (Fin n) (Fin (n + m)) ℂ)
    (E : Matrix (Fin T) (Fin (n + m)) ℂ) {ε : ℝ} (hε : 0 ≤ ε) (hE : ∀ v, Spec.len (E.mulVec v) ≤ ε * Spec.len v)
    (Vh : Matrix (Fin (n + m)) (Fin (n + m)) ℂ) (hV : Vh * Vhᴴ = 1)
    (U : Matrix (Fin T) (Fin T) ℂ) (hU : Uᴴ * U = 1) (s : ℕ → ℝ) (hs : ∀ k, 0 ≤ s k) (ha : Antitone s)
    (S : Matrix (Fin T) (Fin (n + m)) ℂ) (hS : ∀ i j, S i j = if (i : ℕ) = j then (s i : ℂ) else 0)
    {M : Matrix (Fin T) (Fin (n + m)) ℂ} (hM : M = X0 * G + E) (h : M = U * S * Vh) (w : Fin m → ℂ) :
    Spec.len (M.mulVec (Vhᴴ.mulVec (Fin.append 0 w))) ≤ ε * Spec.len w := by
  have hlen : ∀ q, Spec.len (M.mulVec (Vhᴴ.mulVec q)) = Spec.len (S.mulVec q) := by
    intro q
    rw [mulVec_mulVec, h, Matrix.mul_assoc, hV, Matrix.mul_one, ← mulVec_mulVec, len_isometry U hU]
  rw [hlen]
  have hw : Spec.len (Fin.append (0 : Fin n → ℂ) w) ^ 2 = Spec.len w ^ 2 := by
    rw [len_append, len_zero]; ring
  have h0 : ∀ i, i < n → entrySq (Fin.append (0 : Fin n → ℂ) w) i = 0 := by
    intro i hi
    unfold entrySq
    rw [dif_pos (by omega)]
    have : (⟨i, by omega⟩ : Fin (n + m)) = Fin.castAdd m ⟨i, hi⟩ := rfl
    rw [this, Fin.append_left]
    simp
  have hsub : ∑ i ∈ range T, entrySq (Fin.append (0 : Fin n → ℂ) w) i ≤ Spec.len w ^ 2 := by
    rw [← hw, ← entrySq_sum]
    rcases Nat.le_total T (n + m) with hT | hT
    · exact Finset.sum_le_sum_of_subset_of_nonneg (Finset.range_mono hT) (fun i _ _ => entrySq_nonneg _ _)
    · refine le_of_eq (Finset.sum_subset (Finset.range_mono hT) ?_).symm
      intro i _ hi
      unfold entrySq
      rw [dif_neg (fun h => hi (Finset.mem_range.2 h))]
  refine (pow_le_pow_iff_left₀ (len_nonneg _) (mul_nonneg hε (len_nonneg _)) two_ne_zero).1 ?_
  rw [diag_len s S hS, mul_pow]
  by_cases hb : n < T ∧ 0 < m
  · obtain ⟨hT, hm⟩ := hb
    have hle : n + 1 ≤ n + m := by omega
    let N : Matrix (Fin n) (Fin (n + 1)) ℂ := (G * Vhᴴ).submatrix id (Fin.castLE hle)
    have hker : LinearMap.ker N.mulVecLin ≠ ⊥ := LinearMap.ker_ne_bot_of_finrank_lt (by simp)
    obtain ⟨c, hc, hc0⟩ := Submodule.exists_mem_ne_zero_of_ne_bot hker
    rw [LinearMap.mem_ker, mulVecLin_apply] at hc
    set q : Fin (n + m) → ℂ := fun j => if h : (j : ℕ) < n + 1 then c ⟨j, h⟩ else 0 with hq
    have hsum : ∀ f : Fin (n + m) → ℂ, ∑ j, f j * q j = ∑ j, f (Fin.castLE hle j) * c j := by
      intro f
      symm
      refine Finset.sum_bij_ne_zero (fun j _ _ => Fin.castLE hle j) (fun _ _ _ => Finset.mem_univ _) ?_ ?_ ?_
      · intro a _ _ b _ _ hab
        exact Fin.castLE_injective hle hab
      · intro j _ hj
        have hj1 : (j : ℕ) < n + 1 := by
          by_contra hjn
          exact hj (by simp only [hq, dif_neg hjn, mul_zero])
        refine ⟨⟨j, hj1⟩, Finset.mem_univ _, ?_, rfl⟩
        have hj2 := hj
        simp only [hq, dif_pos hj1] at hj2
        exact hj2
      · intro j _ _
        have : q (Fin.castLE hle j) = c j := by
          have hj1 : ((Fin.castLE hle j : Fin (n + m)) : ℕ) < n + 1 := j.2
          simp only [hq, dif_pos hj1]
          rfl
        rw [this]
    have hGq : (G * Vhᴴ).mulVec q = 0 := by
      rw [← hc]
      funext i
      exact hsum _
    have hq0 : q ≠ 0 := by
      intro h
      apply hc0
      funext j
      have := congrFun h (Fin.castLE hle j)
      have hj1 : ((Fin.castLE hle j : Fin (n + m)) : ℕ) < n + 1 := j.2
      simp only [hq, dif_pos hj1] at this
      exact this
    have hME : M.mulVec (Vhᴴ.mulVec q) = E.mulVec (Vhᴴ.mulVec q) := by
      rw [hM, add_mulVec, show (X0 * G).mulVec (Vhᴴ.mulVec q) = X0.mulVec ((G * Vhᴴ).mulVec q) by
        rw [mulVec_mulVec, mulVec_mulVec, Matrix.mul_assoc], hGq, mulVec_zero, zero_add]
    have hVq : Spec.len (Vhᴴ.mulVec q) = Spec.len q := len_isometry _ (by rw [conjTranspose_conjTranspose, hV]) q
    have h1 : Spec.len (S.mulVec q) ≤ ε * Spec.len q := by
      rw [← hlen, hME, ← hVq]; exact hE _
    have h2 : (s n * Spec.len q) ^ 2 ≤ Spec.len (S.mulVec q) ^ 2 := by
      rw [diag_len s S hS, mul_pow, ← entrySq_sum, Finset.mul_sum]
      have hz : ∀ i, ¬ i < n + 1 → entrySq q i = 0 := by
        intro i hi
        unfold entrySq
        split
        · simp only [hq, dif_neg hi]
          simp
        · rfl
      have e1 : ∑ i ∈ range (n + m), s n ^ 2 * entrySq q i = ∑ i ∈ range (n + 1), s n ^ 2 * entrySq q i := by
        refine (Finset.sum_subset (Finset.range_mono hle) ?_).symm
        intro i _ hi
        rw [hz i (fun h => hi (Finset.mem_range.2 h)), mul_zero]
      rw [e1]
      have e2 : ∑ i ∈ range (n + 1), s i ^ 2 * entrySq q i ≤ ∑ i ∈ range T, s i ^ 2 * entrySq q i :=
        Finset.sum_le_sum_of_subset_of_nonneg (Finset.range_mono hT) (fun i _ _ => mul_nonneg (sq_nonneg _) (entrySq_nonneg _ _))
      refine le_trans (Finset.sum_le_sum fun i hi => ?_) e2
      refine mul_le_mul_of_nonneg_right ?_ (entrySq_nonneg _ _)
      exact pow_le_pow_left₀ (hs n) (ha (by have := Finset.mem_range.1 hi; omega)) 2
    have hsn : s n ≤ ε := by
      have h3 := (pow_le_pow_iff_left₀ (mul_nonneg (hs n) (len_nonneg q)) (len_nonneg _) two_ne_zero).1 h2
      exact le_of_mul_le_mul_right (h3.trans h1) (len_pos hq0)
    refine le_trans ?_ (mul_le_mul_of_nonneg_left hsub (sq_nonneg ε))
    rw [Finset.mul_sum]
    refine Finset.sum_le_sum fun i _ => ?_
    by_cases hi : i < n
    · rw [h0 i hi]; simp
    · refine mul_le_mul_of_nonneg_right ?_ (entrySq_nonneg _ _)
      exact pow_le_pow_left₀ (hs i) ((ha (by omega)).trans hsn) 2
  · have : ∀ i ∈ range T, s i ^ 2 * entrySq (Fin.append (0 : Fin n → ℂ) w) i = 0 := by
      intro i hi
      have hi := Finset.mem_range.1 hi
      by_cases hin : i < n
      · rw [h0 i hin, mul_zero]
      · have hm : m = 0 := by omega
        unfold entrySq
        rw [dif_neg (by omega), mul_zero]
    rw [Finset.sum_eq_zero this]
    positivity

/-- The lower right block of the right singular vectors is invertible if the noise is smaller than the smallest singular value of
the leading columns. -/
theorem trailing_injective {T n m : Nat} (M : Matrix (Fin T) (Fin (n + m)) ℂ) (X : Matrix (Fin T) (Fin n) ℂ)
    (hX : ∀ i k, M i (Fin.castAdd m k) = X i k) {ε σ : ℝ} (hεσ : ε < σ) (hσ : ∀ v, σ * Spec.len v ≤ Spec.len (X.mulVec v))
    (V : Matrix (Fin (n + m)) (Fin (n + m)) ℂ) (hV : Vᴴ * V = 1)
    (hle : ∀ w : Fin m → ℂ, Spec.len (M.mulVec (V.mulVec (Fin.append 0 w))) ≤ ε * Spec.len w)
    (Vyy : Matrix (Fin m) (Fin m) ℂ) (hyy : ∀ i j, Vyy i j = V (Fin.natAdd n i) (Fin.natAdd n j))
    (w : Fin m → ℂ) (hw : Vyy.mulVec w = 0) : w = 0 := by
  set p : Fin n → ℂ := fun a => V.mulVec (Fin.append 0 w) (Fin.castAdd m a) with hp
  have hu : V.mulVec (Fin.append 0 w) = Fin.append p 0 := by
    funext i
    refine Fin.addCases (fun a => ?_) (fun a => ?_) i
    · rw [Fin.append_left]
    · rw [Fin.append_right]
      have := congrFun hw a
      simp only [mulVec, dotProduct, hyy] at this
      show ∑ k, V (Fin.natAdd n a) k * Fin.append 0 w k = 0
      rw [Fin.sum_univ_add]
      simpa only [Fin.append_left, Fin.append_right, Pi.zero_apply, mul_zero, Finset.sum_const_zero, zero_add] using this
  have hMp : M.mulVec (Fin.append p 0) = X.mulVec p := by
    funext i
    show ∑ k, M i k * Fin.append p 0 k = ∑ k, X i k * p k
    rw [Fin.sum_univ_add]
    simp only [Fin.append_left, Fin.append_right, Pi.zero_apply, mul_zero, Finset.sum_const_zero, add_zero, hX]
  have hlw : Spec.len p ^ 2 = Spec.len w ^ 2 := by
    have h1 := congrArg (fun t => Spec.len t ^ 2) hu
    simp only [len_isometry V hV, len_append, len_zero] at h1
    linarith
  have hlw' : Spec.len p = Spec.len w := (pow_left_inj₀ (len_nonneg _) (len_nonneg _) two_ne_zero).1 hlw
  have h2 := hle w
  rw [hu, hMp] at h2
  have h3 := hσ p
  rw [hlw'] at h3
  by_contra hne
  have := len_pos hne
  nlinarith

end
end Verif
