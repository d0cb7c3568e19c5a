/-
Smallest corrections that make a matrix annihilate a subspace of given dimension (the argument of Eckart, Young and Ky Fan).
-/
import Verif.Lemmas.ComplexMat
import Mathlib.LinearAlgebra.Matrix.Trace
import Mathlib.LinearAlgebra.Matrix.PosDef

namespace Verif
open Matrix Finset
open scoped ComplexOrder
noncomputable section

/-- sum of squared moduli -/
def frob {m n : Nat} (A : Matrix (Fin m) (Fin n) ℂ) : ℝ := ∑ i, ∑ j, Complex.normSq (A i j)

theorem frob_nonneg {m n : Nat} (A : Matrix (Fin m) (Fin n) ℂ) : 0 ≤ frob A :=
  Finset.sum_nonneg fun _ _ => Finset.sum_nonneg fun _ _ => Complex.normSq_nonneg _

theorem frob_neg {m n : Nat} (A : Matrix (Fin m) (Fin n) ℂ) : frob (-A) = frob A := by
  simp [frob]

theorem frob_trace {m n : Nat} (A : Matrix (Fin m) (Fin n) ℂ) : ((frob A : ℝ) : ℂ) = trace (Aᴴ * A) := by
  simp only [frob, trace, diag_apply, mul_apply, conjTranspose_apply]
  rw [Finset.sum_comm]
  push_cast
  refine Finset.sum_congr rfl fun j _ => Finset.sum_congr rfl fun i _ => ?_
  rw [Complex.normSq_eq_conj_mul_self]; rfl

/-- the part of a matrix that acts on a subspace is not larger than the matrix -/
theorem frob_mul_projection {m n : Nat} (A : Matrix (Fin m) (Fin n) ℂ) (P : Matrix (Fin n) (Fin n) ℂ) (hH : Pᴴ = P) (hP : P * P = P) :
    frob A = frob (A * P) + frob (A * (1 - P)) := by
  have h : ((frob A : ℝ) : ℂ) = ((frob (A * P) + frob (A * (1 - P)) : ℝ) : ℂ) := by
    have h1 : ∀ Q : Matrix (Fin n) (Fin n) ℂ, Qᴴ = Q → Q * Q = Q → trace ((A * Q)ᴴ * (A * Q)) = trace (Aᴴ * A * Q) := by
      intro Q h1 h2
      rw [conjTranspose_mul, h1, Matrix.mul_assoc, trace_mul_comm, Matrix.mul_assoc, Matrix.mul_assoc, h2, ← Matrix.mul_assoc]
    rw [Complex.ofReal_add, frob_trace, frob_trace, frob_trace, h1 P hH hP, h1 (1 - P), ← trace_add, ← Matrix.mul_add]
    · simp
    · rw [conjTranspose_sub, conjTranspose_one, hH]
    · rw [Matrix.sub_mul, Matrix.mul_sub, Matrix.mul_sub, hP]; simp
  exact_mod_cast h

/-- isometries on the left do not change the size -/
theorem frob_unitary_mul {m n : Nat} (U : Matrix (Fin m) (Fin m) ℂ) (hU : Uᴴ * U = 1) (A : Matrix (Fin m) (Fin n) ℂ) :
    frob (U * A) = frob A := by
  have h : ((frob (U * A) : ℝ) : ℂ) = ((frob A : ℝ) : ℂ) := by
    rw [frob_trace, frob_trace, conjTranspose_mul, Matrix.mul_assoc, ← Matrix.mul_assoc Uᴴ, hU, Matrix.one_mul]
  exact_mod_cast h

/-- isometries on the right do not change the size -/
theorem frob_mul_unitary {m n : Nat} (A : Matrix (Fin m) (Fin n) ℂ) (V : Matrix (Fin n) (Fin n) ℂ) (hV : V * Vᴴ = 1) :
    frob (A * V) = frob A := by
  have h : ((frob (A * V) : ℝ) : ℂ) = ((frob A : ℝ) : ℂ) := by
    rw [frob_trace, frob_trace, trace_mul_comm, conjTranspose_mul, ← Matrix.mul_assoc, Matrix.mul_assoc A, hV, Matrix.mul_one,
      trace_mul_comm]
  exact_mod_cast h

/-- weights of an orthogonal projection along a basis: squared row lengths -/
theorem projection_row {n : Nat} (R : Matrix (Fin n) (Fin n) ℂ) (hH : Rᴴ = R) (hR : R * R = R) (k : Fin n) :
    ∑ j, Complex.normSq (R k j) = (R k k).re ∧ (R k k).re ≤ 1 := by
  have h1 : ((∑ j, Complex.normSq (R k j) : ℝ) : ℂ) = R k k := by
    conv_rhs => rw [← hR, mul_apply]
    push_cast
    refine Finset.sum_congr rfl fun j _ => ?_
    have : R j k = star (R k j) := by
      conv_lhs => rw [← hH]
      rfl
    rw [this, ← Complex.mul_conj]; rfl
  have h2 : ∑ j, Complex.normSq (R k j) = (R k k).re := by rw [← h1, Complex.ofReal_re]
  refine ⟨h2, ?_⟩
  have h3 : Complex.normSq (R k k) ≤ ∑ j, Complex.normSq (R k j) :=
    Finset.single_le_sum (f := fun j => Complex.normSq (R k j)) (fun _ _ => Complex.normSq_nonneg _) (Finset.mem_univ k)
  rw [h2, Complex.normSq_apply] at h3
  nlinarith [mul_self_nonneg (R k k).im, mul_self_nonneg ((R k k).re - 1)]

/-- a weighted sum of a decreasing sequence with weights in `[0, 1]` that add up to the number `m` of last terms is at least the sum of
these; `gap` says when it is larger -/
theorem weighted_tail {n m : Nat} (d : Fin (n + m) → ℝ) (hd : Antitone d) (w : Fin (n + m) → ℝ) (h0 : ∀ k, 0 ≤ w k)
    (h1 : ∀ k, w k ≤ 1) (hw : ∑ k, w k = m) :
    ∑ k : Fin m, d (Fin.natAdd n k) ≤ ∑ k, d k * w k ∧
    ((∀ (i : Fin n) (j : Fin m), d (Fin.natAdd n j) < d (Fin.castAdd m i)) →
      ∑ k : Fin m, d (Fin.natAdd n k) = ∑ k, d k * w k → ∀ i : Fin n, w (Fin.castAdd m i) = 0) := by
  rw [Fin.sum_univ_add] at hw
  rw [Fin.sum_univ_add (fun k => d k * w k)]
  rcases Nat.eq_zero_or_pos m with hm | hm
  · subst hm
    simp only [Finset.univ_eq_empty, Finset.sum_empty, add_zero, Nat.cast_zero] at hw ⊢
    have hz : ∀ i : Fin n, w (Fin.castAdd 0 i) = 0 := fun i =>
      (Finset.sum_eq_zero_iff_of_nonneg (fun i _ => h0 _)).1 hw i (Finset.mem_univ i)
    refine ⟨le_of_eq (Finset.sum_eq_zero fun i _ => by rw [hz]; ring).symm, fun _ _ i => hz i⟩
  · set c : ℝ := d (Fin.natAdd n ⟨0, hm⟩) with hc
    have e : (∑ i : Fin n, d (Fin.castAdd m i) * w (Fin.castAdd m i) + ∑ j : Fin m, d (Fin.natAdd n j) * w (Fin.natAdd n j)) -
        ∑ k : Fin m, d (Fin.natAdd n k) = ∑ i : Fin n, (d (Fin.castAdd m i) - c) * w (Fin.castAdd m i) +
          ∑ j : Fin m, (c - d (Fin.natAdd n j)) * (1 - w (Fin.natAdd n j)) := by
      have e1 : ∑ i : Fin n, (d (Fin.castAdd m i) - c) * w (Fin.castAdd m i) =
          ∑ i : Fin n, d (Fin.castAdd m i) * w (Fin.castAdd m i) - c * ∑ i : Fin n, w (Fin.castAdd m i) := by
        rw [Finset.mul_sum, ← Finset.sum_sub_distrib]
        exact Finset.sum_congr rfl fun i _ => by ring
      have e2 : ∑ j : Fin m, (c - d (Fin.natAdd n j)) * (1 - w (Fin.natAdd n j)) =
          c * m - c * ∑ j : Fin m, w (Fin.natAdd n j) - ∑ j : Fin m, d (Fin.natAdd n j) +
            ∑ j : Fin m, d (Fin.natAdd n j) * w (Fin.natAdd n j) := by
        have : c * (m : ℝ) = ∑ _j : Fin m, c := by simp [mul_comm]
        rw [this, Finset.mul_sum, ← Finset.sum_sub_distrib, ← Finset.sum_sub_distrib, ← Finset.sum_add_distrib]
        exact Finset.sum_congr rfl fun i _ => by ring
      rw [e1, e2, ← hw]; ring
    have p1 : ∀ i : Fin n, 0 ≤ (d (Fin.castAdd m i) - c) * w (Fin.castAdd m i) := fun i =>
      mul_nonneg (sub_nonneg.2 (hd (by rw [Fin.le_def]; simp))) (h0 _)
    have p2 : ∀ j : Fin m, 0 ≤ (c - d (Fin.natAdd n j)) * (1 - w (Fin.natAdd n j)) := fun j =>
      mul_nonneg (sub_nonneg.2 (hd (by rw [Fin.le_def]; simp))) (sub_nonneg.2 (h1 _))
    have q1 := Finset.sum_nonneg fun i (_ : i ∈ Finset.univ) => p1 i
    have q2 := Finset.sum_nonneg fun i (_ : i ∈ Finset.univ) => p2 i
    refine ⟨by linarith, fun hgap heq i => ?_⟩
    have z1 : ∑ i : Fin n, (d (Fin.castAdd m i) - c) * w (Fin.castAdd m i) = 0 := by linarith
    have z2 := (Finset.sum_eq_zero_iff_of_nonneg (fun i _ => p1 i)).1 z1 i (Finset.mem_univ i)
    rcases mul_eq_zero.1 z2 with h | h
    · exact absurd h (sub_ne_zero.2 (hgap i ⟨0, hm⟩).ne')
    · exact h

/-- the orthogonal projection onto the columns of a matrix with linearly independent columns -/
theorem exists_projection {N m : Nat} (W : Matrix (Fin N) (Fin m) ℂ) (hW : ∀ v, W.mulVec v = 0 → v = 0) :
    ∃ P : Matrix (Fin N) (Fin N) ℂ, Pᴴ = P ∧ P * P = P ∧ P * W = W ∧ trace P = m ∧ ∃ G : Matrix (Fin m) (Fin N) ℂ, P = W * G := by
  have hinv : (Wᴴ * W) * (Wᴴ * W)⁻¹ = 1 := by
    apply exists_inverse
    intro v hv
    apply hW
    have h1 : star (W.mulVec v) ⬝ᵥ W.mulVec v = 0 := by
      rw [star_mulVec, dotProduct_mulVec, vecMul_vecMul, ← dotProduct_mulVec, hv, dotProduct_zero]
    exact dotProduct_star_self_eq_zero.1 h1
  have hinv' : (Wᴴ * W)⁻¹ * (Wᴴ * W) = 1 := mul_eq_one_comm.1 hinv
  have hH : ((Wᴴ * W)⁻¹)ᴴ = (Wᴴ * W)⁻¹ := by
    rw [conjTranspose_nonsing_inv, conjTranspose_mul, conjTranspose_conjTranspose]
  have hk : (Wᴴ * W)⁻¹ * Wᴴ * W = 1 := by rw [Matrix.mul_assoc, hinv']
  refine ⟨W * ((Wᴴ * W)⁻¹ * Wᴴ), ?_, ?_, ?_, ?_, _, rfl⟩
  · rw [conjTranspose_mul, conjTranspose_mul, conjTranspose_conjTranspose, hH, Matrix.mul_assoc]
  · rw [Matrix.mul_assoc, ← Matrix.mul_assoc _ W, hk, Matrix.one_mul]
  · rw [Matrix.mul_assoc, hk, Matrix.mul_one]
  · rw [trace_mul_comm, hk, trace_one, Fintype.card_fin]

/-- squares of the singular values of a matrix with `T` rows -/
def sqValue (T : Nat) (s : ℕ → ℝ) (k : ℕ) : ℝ := if k < T then s k ^ 2 else 0

theorem sqValue_antitone (T : Nat) {s : ℕ → ℝ} (h0 : ∀ k, 0 ≤ s k) (hs : Antitone s) : Antitone (sqValue T s) := by
  intro i j hij
  unfold sqValue
  split_ifs with h1 h2
  · exact pow_le_pow_left₀ (h0 j) (hs hij) 2
  · omega
  · positivity
  · exact le_rfl

/-- size of the action on a subspace, by singular values -/
theorem frob_svd {T N : Nat} {M : Matrix (Fin T) (Fin N) ℂ} {u : Matrix (Fin T) (Fin T) ℂ} {Vh : Matrix (Fin N) (Fin N) ℂ} {s : ℕ → ℝ}
    (hu : uᴴ * u = 1) (hV : Vh * Vhᴴ = 1)
    (hM : M = u * (Matrix.of fun (i : Fin T) (j : Fin N) => if (i : ℕ) = j then (s i : ℂ) else 0) * Vh)
    (P : Matrix (Fin N) (Fin N) ℂ) (hH : Pᴴ = P) (hP : P * P = P) :
    frob (M * P) = ∑ k : Fin N, sqValue T s k * ((Vh * P * Vhᴴ) k k).re ∧
      (Vh * P * Vhᴴ)ᴴ = Vh * P * Vhᴴ ∧ (Vh * P * Vhᴴ) * (Vh * P * Vhᴴ) = Vh * P * Vhᴴ := by
  have hV' : Vhᴴ * Vh = 1 := mul_eq_one_comm.1 hV
  set S := (Matrix.of fun (i : Fin T) (j : Fin N) => if (i : ℕ) = j then (s i : ℂ) else 0) with hS
  set R := Vh * P * Vhᴴ with hR
  have r1 : Rᴴ = R := by
    rw [hR, conjTranspose_mul, conjTranspose_mul, conjTranspose_conjTranspose, hH, Matrix.mul_assoc]
  have r2 : R * R = R := by
    rw [hR, Matrix.mul_assoc, ← Matrix.mul_assoc Vhᴴ, ← Matrix.mul_assoc Vhᴴ, hV', Matrix.one_mul, ← Matrix.mul_assoc,
      Matrix.mul_assoc Vh, hP]
  refine ⟨?_, r1, r2⟩
  have e : frob (M * P) = frob (S * R) := by
    rw [← frob_mul_unitary (M * P) Vhᴴ (by rw [conjTranspose_conjTranspose, hV']), hM, ← frob_unitary_mul u hu (S * R), hR]
    simp only [Matrix.mul_assoc]
  rw [e]
  have row : ∀ i : Fin T, ∑ j, Complex.normSq ((S * R) i j) =
      if h : (i : ℕ) < N then s i ^ 2 * (R ⟨i, h⟩ ⟨i, h⟩).re else 0 := by
    intro i
    split
    · rename_i h
      rw [← (projection_row R r1 r2 ⟨i, h⟩).1, Finset.mul_sum]
      refine Finset.sum_congr rfl fun j _ => ?_
      rw [mul_apply, Finset.sum_eq_single ⟨i, h⟩]
      · simp [hS, Complex.normSq_mul, Complex.normSq_ofReal, sq]
      · intro k _ hk
        rw [hS, Matrix.of_apply, if_neg (fun h' => hk (Fin.ext h'.symm)), zero_mul]
      · simp
    · rename_i h
      refine Finset.sum_eq_zero fun j _ => ?_
      rw [mul_apply, Finset.sum_eq_zero, map_zero]
      intro k _
      rw [hS, Matrix.of_apply, if_neg (fun h' : (i : ℕ) = k => h (by rw [h']; exact k.2)), zero_mul]
  unfold frob
  simp only [row]
  set g : ℕ → ℝ := fun k => if h : k < N then s k ^ 2 * (R ⟨k, h⟩ ⟨k, h⟩).re else 0 with hg
  have a1 : ∑ i : Fin T, (if h : (i : ℕ) < N then s i ^ 2 * (R ⟨i, h⟩ ⟨i, h⟩).re else 0) = ∑ k ∈ range T, g k :=
    Fin.sum_univ_eq_sum_range g T
  have a2 : ∑ k : Fin N, sqValue T s k * (R k k).re = ∑ k ∈ range N, if k < T then g k else 0 := by
    rw [← Fin.sum_univ_eq_sum_range (fun k => if k < T then g k else 0) N]
    refine Finset.sum_congr rfl fun k _ => ?_
    unfold sqValue
    simp only [hg]
    rw [dif_pos k.2]
    split <;> simp
  rw [a1, a2, ← Finset.sum_filter]
  have a3 : ∑ k ∈ range T, g k = ∑ k ∈ (range T).filter (· < N), g k := by
    rw [Finset.sum_filter]
    refine Finset.sum_congr rfl fun k _ => ?_
    split
    · rfl
    · rename_i h; simp only [hg]; rw [dif_neg h]
  rw [a3]
  refine Finset.sum_congr ?_ fun _ _ => rfl
  ext k
  simp only [Finset.mem_filter, Finset.mem_range]
  exact and_comm

/-- corrections that make a matrix vanish on the columns of `W` are at least as large as the last singular values; those that attain
this, when there is a gap, make it vanish only on the last singular vectors -/
theorem correction_bound {T n m : Nat} {M D : Matrix (Fin T) (Fin (n + m)) ℂ} {u : Matrix (Fin T) (Fin T) ℂ}
    {Vh : Matrix (Fin (n + m)) (Fin (n + m)) ℂ} {s : ℕ → ℝ} (hu : uᴴ * u = 1) (hV : Vh * Vhᴴ = 1) (h0 : ∀ k, 0 ≤ s k)
    (hs : Antitone s)
    (hM : M = u * (Matrix.of fun (i : Fin T) (j : Fin (n + m)) => if (i : ℕ) = j then (s i : ℂ) else 0) * Vh)
    {W : Matrix (Fin (n + m)) (Fin m) ℂ} (hW : ∀ v, W.mulVec v = 0 → v = 0) (hD : (M + D) * W = 0) :
    ∑ k : Fin m, sqValue T s (n + k) ≤ frob D ∧
    ((∀ (i : Fin n) (j : Fin m), sqValue T s (n + j) < sqValue T s i) → frob D = ∑ k : Fin m, sqValue T s (n + k) →
      ∀ (i : Fin n) (j : Fin m), (Vh * W) (Fin.castAdd m i) j = 0) := by
  obtain ⟨P, p1, p2, p3, p4, G, p5⟩ := exists_projection W hW
  have hDP : D * P = -(M * P) := by
    have : (M + D) * P = 0 := by rw [p5, ← Matrix.mul_assoc, hD, Matrix.zero_mul]
    rw [Matrix.add_mul] at this
    exact eq_neg_of_add_eq_zero_right this
  have hle : frob (M * P) ≤ frob D := by
    rw [frob_mul_projection D P p1 p2, hDP, frob_neg]
    exact le_add_of_nonneg_right (frob_nonneg _)
  obtain ⟨e, r1, r2⟩ := frob_svd hu hV hM P p1 p2
  set R := Vh * P * Vhᴴ with hR
  have hV' : Vhᴴ * Vh = 1 := mul_eq_one_comm.1 hV
  have htr : ∑ k, (R k k).re = m := by
    have h1 : trace R = m := by rw [hR, trace_mul_comm, ← Matrix.mul_assoc, hV', Matrix.one_mul, p4]
    have h2 : (trace R).re = m := by rw [h1]; simp
    rw [← h2, trace, Complex.re_sum]; rfl
  obtain ⟨b1, b2⟩ := weighted_tail (n := n) (m := m) (fun k => sqValue T s k)
    (fun i j hij => sqValue_antitone T h0 hs hij) (fun k => (R k k).re)
    (fun k => by rw [← (projection_row R r1 r2 k).1]; exact Finset.sum_nonneg fun _ _ => Complex.normSq_nonneg _)
    (fun k => (projection_row R r1 r2 k).2) htr
  simp only [Fin.val_natAdd, Fin.val_castAdd] at b1 b2
  rw [← e] at b1 b2
  refine ⟨b1.trans hle, fun hgap heq i j => ?_⟩
  have hz := b2 hgap (le_antisymm b1 (hle.trans heq.le)) i
  have hrow : ∀ l, R (Fin.castAdd m i) l = 0 := by
    intro l
    have h1 := (projection_row R r1 r2 (Fin.castAdd m i)).1
    rw [hz] at h1
    exact Complex.normSq_eq_zero.1 ((Finset.sum_eq_zero_iff_of_nonneg (fun _ _ => Complex.normSq_nonneg _)).1 h1 l (Finset.mem_univ l))
  have hVW : Vh * W = R * (Vh * W) := by
    rw [hR, Matrix.mul_assoc, ← Matrix.mul_assoc Vhᴴ, hV', Matrix.one_mul, Matrix.mul_assoc, p3]
  rw [hVW, mul_apply]
  exact Finset.sum_eq_zero fun l _ => by rw [hrow, zero_mul]

/-- the projection onto the last singular vectors -/
theorem tail_projection {T n m : Nat} {M : Matrix (Fin T) (Fin (n + m)) ℂ} {u : Matrix (Fin T) (Fin T) ℂ}
    {Vh : Matrix (Fin (n + m)) (Fin (n + m)) ℂ} {s : ℕ → ℝ} (hu : uᴴ * u = 1) (hV : Vh * Vhᴴ = 1)
    (hM : M = u * (Matrix.of fun (i : Fin T) (j : Fin (n + m)) => if (i : ℕ) = j then (s i : ℂ) else 0) * Vh) :
    ∃ P : Matrix (Fin (n + m)) (Fin (n + m)) ℂ, Pᴴ = P ∧ P * P = P ∧ trace P = m ∧
      (∀ {l : Nat} (W : Matrix (Fin (n + m)) (Fin l) ℂ), (∀ (i : Fin n) j, (Vh * W) (Fin.castAdd m i) j = 0) → P * W = W) ∧
      frob (M * P) = ∑ k : Fin m, sqValue T s (n + k) := by
  have hV' : Vhᴴ * Vh = 1 := mul_eq_one_comm.1 hV
  set K : Matrix (Fin (n + m)) (Fin (n + m)) ℂ := Matrix.diagonal (Fin.append (fun _ : Fin n => 0) (fun _ : Fin m => 1)) with hK
  have k1 : Kᴴ = K := by
    rw [hK, diagonal_conjTranspose]
    congr 1
    funext i
    refine Fin.addCases (fun a => ?_) (fun a => ?_) i <;> simp
  have k2 : K * K = K := by
    rw [hK, diagonal_mul_diagonal]
    congr 1
    funext i
    refine Fin.addCases (fun a => ?_) (fun a => ?_) i <;> simp
  set P := Vhᴴ * K * Vh with hP
  have p1 : Pᴴ = P := by
    rw [hP, conjTranspose_mul, conjTranspose_mul, conjTranspose_conjTranspose, k1, Matrix.mul_assoc]
  have p2 : P * P = P := by
    rw [hP, Matrix.mul_assoc, ← Matrix.mul_assoc Vh, ← Matrix.mul_assoc Vh, hV, Matrix.one_mul, ← Matrix.mul_assoc,
      Matrix.mul_assoc Vhᴴ, k2]
  refine ⟨P, p1, p2, ?_, ?_, ?_⟩
  · rw [hP, trace_mul_comm, ← Matrix.mul_assoc, hV, Matrix.one_mul, hK, trace_diagonal, Fin.sum_univ_add]
    simp
  · intro l W hW
    have : K * (Vh * W) = Vh * W := by
      ext i j
      rw [hK, diagonal_mul]
      refine Fin.addCases (fun a => ?_) (fun a => ?_) i
      · rw [hW a j, mul_zero]
      · simp
    rw [hP, Matrix.mul_assoc, Matrix.mul_assoc, this, ← Matrix.mul_assoc, hV', Matrix.one_mul]
  · obtain ⟨e, -, -⟩ := frob_svd hu hV hM P p1 p2
    have hR : Vh * P * Vhᴴ = K := by
      rw [hP, ← Matrix.mul_assoc, ← Matrix.mul_assoc, hV, Matrix.one_mul, Matrix.mul_assoc, hV, Matrix.mul_one]
    rw [e, hR, Fin.sum_univ_add]
    simp [hK]

/-- removing the last singular vectors is a correction of this size -/
theorem correction_attained {T n m : Nat} {M : Matrix (Fin T) (Fin (n + m)) ℂ} {u : Matrix (Fin T) (Fin T) ℂ}
    {Vh : Matrix (Fin (n + m)) (Fin (n + m)) ℂ} {s : ℕ → ℝ} (hu : uᴴ * u = 1) (hV : Vh * Vhᴴ = 1)
    (hM : M = u * (Matrix.of fun (i : Fin T) (j : Fin (n + m)) => if (i : ℕ) = j then (s i : ℂ) else 0) * Vh)
    {W : Matrix (Fin (n + m)) (Fin m) ℂ} (hW : ∀ (i : Fin n) (j : Fin m), (Vh * W) (Fin.castAdd m i) j = 0) :
    ∃ D : Matrix (Fin T) (Fin (n + m)) ℂ, (M + D) * W = 0 ∧ frob D = ∑ k : Fin m, sqValue T s (n + k) := by
  obtain ⟨P, -, -, -, p3, p4⟩ := tail_projection hu hV hM
  refine ⟨-(M * P), ?_, by rw [frob_neg, p4]⟩
  rw [Matrix.add_mul, Matrix.neg_mul, Matrix.mul_assoc, p3 W hW, add_neg_cancel]

/-- if the Gram matrix of the data is that of other data plus a multiple of the identity, projections of rank `m` add `m` times it -/
theorem frob_gram {T T0 N m : Nat} {M : Matrix (Fin T) (Fin N) ℂ} {M0 : Matrix (Fin T0) (Fin N) ℂ} {c : ℝ}
    (h : Mᴴ * M = M0ᴴ * M0 + (c : ℂ) • 1) {P : Matrix (Fin N) (Fin N) ℂ} (hH : Pᴴ = P) (hP : P * P = P) (ht : trace P = m) :
    frob (M * P) = frob (M0 * P) + c * m := by
  have h1 : ∀ {r : Nat} (A : Matrix (Fin r) (Fin N) ℂ), trace ((A * P)ᴴ * (A * P)) = trace (Aᴴ * A * P) := by
    intro r A
    rw [conjTranspose_mul, hH, Matrix.mul_assoc, trace_mul_comm, Matrix.mul_assoc, Matrix.mul_assoc, hP, ← Matrix.mul_assoc]
  have e : ((frob (M * P) : ℝ) : ℂ) = ((frob (M0 * P) + c * m : ℝ) : ℂ) := by
    rw [frob_trace, h1, h, Matrix.add_mul, trace_add, Matrix.smul_mul, Matrix.one_mul, trace_smul, ht, Complex.ofReal_add, frob_trace, h1]
    simp
  exact_mod_cast e

theorem frob_eq_zero {m n : Nat} {A : Matrix (Fin m) (Fin n) ℂ} (h : frob A = 0) : A = 0 := by
  ext i j
  have h1 := (Finset.sum_eq_zero_iff_of_nonneg (fun i _ => Finset.sum_nonneg fun j _ => Complex.normSq_nonneg (A i j))).1 h i (Finset.mem_univ i)
  exact Complex.normSq_eq_zero.1 ((Finset.sum_eq_zero_iff_of_nonneg (fun j _ => Complex.normSq_nonneg (A i j))).1 h1 j (Finset.mem_univ j))

/-- with such a Gram matrix the last singular vectors are in the kernel of the other data, if that has dimension `m` at least -/
theorem gram_tail {T T0 n m : Nat} {M : Matrix (Fin T) (Fin (n + m)) ℂ} {M0 : Matrix (Fin T0) (Fin (n + m)) ℂ} {c : ℝ}
    (h : Mᴴ * M = M0ᴴ * M0 + (c : ℂ) • 1) {u : Matrix (Fin T) (Fin T) ℂ}
    {Vh : Matrix (Fin (n + m)) (Fin (n + m)) ℂ} {s : ℕ → ℝ} (hu : uᴴ * u = 1) (hV : Vh * Vhᴴ = 1) (h0 : ∀ k, 0 ≤ s k)
    (hs : Antitone s)
    (hM : M = u * (Matrix.of fun (i : Fin T) (j : Fin (n + m)) => if (i : ℕ) = j then (s i : ℂ) else 0) * Vh)
    {W : Matrix (Fin (n + m)) (Fin m) ℂ} (hW : ∀ v, W.mulVec v = 0 → v = 0) (hMW : M0 * W = 0) (t : Fin T0) (j : Fin m) :
    (M0 * Vhᴴ) t (Fin.natAdd n j) = 0 := by
  obtain ⟨Q, q1, q2, q3, q4, G, q5⟩ := exists_projection W hW
  have hQ : frob (M * Q) = c * m := by
    rw [frob_gram h q1 q2 q4, q5, ← Matrix.mul_assoc, hMW, Matrix.zero_mul]
    simp [frob]
  have hle : ∑ k : Fin m, sqValue T s (n + k) ≤ c * m := by
    rw [← hQ, ← frob_neg]
    exact (correction_bound hu hV h0 hs hM (D := -(M * Q)) hW (by
      rw [Matrix.add_mul, Matrix.neg_mul, Matrix.mul_assoc, q3, add_neg_cancel])).1
  obtain ⟨P, p1, p2, pt, p3, p4⟩ := tail_projection hu hV hM
  have hz : frob (M0 * P) = 0 := by
    have := frob_gram h p1 p2 pt
    rw [p4] at this
    exact le_antisymm (by linarith) (frob_nonneg _)
  have hMP := frob_eq_zero hz
  set W2 : Matrix (Fin (n + m)) (Fin m) ℂ := fun i j => Vhᴴ i (Fin.natAdd n j) with hW2
  have hPW : P * W2 = W2 := p3 W2 (fun i j => by
    have h6 : (Vh * W2) (Fin.castAdd m i) j = (Vh * Vhᴴ) (Fin.castAdd m i) (Fin.natAdd n j) := rfl
    rw [h6, hV, one_apply, if_neg]
    intro h
    have := congrArg Fin.val h
    simp at this
    omega)
  have h7 : (M0 * Vhᴴ) t (Fin.natAdd n j) = (M0 * W2) t j := rfl
  rw [h7, ← hPW, ← Matrix.mul_assoc, hMP, Matrix.zero_mul]
  rfl

end
end Verif
