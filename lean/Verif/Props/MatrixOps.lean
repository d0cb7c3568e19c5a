/-
Property theorems C01 - C11 and C82 (`src/models/matrix_operations.py`).
-/
import Verif.Lemmas.Parametrize
import Verif.Lemmas.Undelete
import Mathlib.Data.Complex.BigOperators
import Mathlib.Tactic.NormNum
import Mathlib.Tactic.IntervalCases

namespace Verif
open Finset
variable {α : Type}

/-! ### C01 vectorisation -/

/-- C01: unvectorising the vectorisation with the original shape returns the matrix. -/
theorem C01_unvec_vec [Zero α] (m : Arr2 α) : unvectorizeMatrix (vectorizeMatrix m) (m.r, m.c) = .ok m := by
  unfold unvectorizeMatrix
  rw [if_pos (by rw [vec_length]; exact Nat.mul_comm _ _)]
  congr 1
  refine Arr2.ext' rfl rfl ?_
  intro i j hi hj
  exact (Arr2.ofFn_get _ hi hj).trans (vec_getD m hi hj)

/-- C01: a vector with `rows * cols` entries is recovered, and the matrix has the requested shape. -/
theorem C01_vec_unvec [Zero α] (v : List α) (r c : Nat) (h : v.length = r * c) :
    ∃ m, unvectorizeMatrix v (r, c) = .ok m ∧ m.r = r ∧ m.c = c ∧ vectorizeMatrix m = v := by
  refine ⟨Arr2.ofFn r c (fun i j => v.getD (j * r + i) 0), by simp only [unvectorizeMatrix, if_pos h],
    rfl, rfl, ?_⟩
  refine vec_ext (r := r) (c := c) (by rw [vec_length]; rfl) (by rw [h, Nat.mul_comm]) ?_
  intro i j hi hj
  have := vec_getD (Arr2.ofFn r c (fun i j => v.getD (j * r + i) 0)) (i := i) (j := j) hi hj
  rw [Arr2.ofFn_get _ hi hj] at this
  exact this

/-- C01: any other number of entries raises. -/
theorem C01_unvec_error [Zero α] (v : List α) (r c : Nat) (h : v.length ≠ r * c) :
    unvectorizeMatrix v (r, c) = .error .valueError := by
  simp only [unvectorizeMatrix, if_neg h]

/-- C01 (meaning): entry `(i, j)` is at position `j * rows + i` of the vectorisation. -/
theorem C01_vec_entry [Zero α] (m : Arr2 α) (i j : Nat) (hi : i < m.r) (hj : j < m.c) :
    (vectorizeMatrix m)[j * m.r + i]? = some (m.get i j) := by
  unfold vectorizeMatrix
  have := getElem?_flatMap_range m.c (fun _ => m.r) (fun j i => m.get i j) j i hj hi
  simpa using this

example : (vectorizeMatrix (Arr2.ofFn 2 3 (fun i j => (10 * i + j : ℤ)))) = [0, 10, 1, 11, 2, 12] := by decide

/-! ### C82 GPU variant -/

/-- C82: transposing and flattening in C order is the column-major flatten. -/
theorem C82_gpu_vectorize [Zero α] (m : Arr2 α) : gpuVectorizeMatrix m = vectorizeMatrix m := by
  unfold gpuVectorizeMatrix flattenC vectorizeMatrix Arr2.T
  simp only [Arr2.ofFn_r, Arr2.ofFn_c]
  apply List.flatMap_congr
  intro j hj
  apply List.map_congr_left
  intro i hi
  rw [List.mem_range] at hi hj
  exact Arr2.ofFn_get _ hj hi

/-! ### C02, C03, C05 real/complex conversions -/

theorem makeComplexVector_even (v : List ℝ) (k : Nat) (h : v.length = 2 * k) :
    makeComplexVector v = .ok (List.zipWith (fun a b : ℝ => (a : ℂ) + Complex.I * (b : ℂ)) (v.take k) (v.drop k)) := by
  unfold makeComplexVector broadcast1
  have hk : v.length / 2 = k := by omega
  simp only [hk]
  rw [if_pos (by simp; omega)]

/-- C02: stacking then unstacking is the identity on complex vectors. -/
theorem C02_complex_of_real (v : List ℂ) : makeComplexVector (makeRealVector v) = .ok v := by
  rw [makeComplexVector_even _ v.length (by simp [makeRealVector]; omega)]
  congr 1
  unfold makeRealVector
  rw [List.take_left' (by simp), List.drop_left' (by simp), List.zipWith_map_left, List.zipWith_map_right]
  apply List.ext_getElem
  · simp
  · intro k h1 h2
    simp only [List.getElem_zipWith]
    rw [mul_comm]
    exact Complex.re_add_im _

/-- C02: unstacking then stacking is the identity on real vectors of even length. -/
theorem C02_real_of_complex (w : List ℝ) (h : Even w.length) :
    ∃ v, makeComplexVector w = .ok v ∧ v.length * 2 = w.length ∧ makeRealVector v = w := by
  obtain ⟨k, hk⟩ := h
  refine ⟨_, makeComplexVector_even w k (by omega), by simp; omega, ?_⟩
  unfold makeRealVector
  conv_rhs => rw [← List.take_append_drop k w]
  congr 1
  · apply List.ext_getElem
    · simp; omega
    · intro i h1 h2; simp
  · apply List.ext_getElem
    · simp; omega
    · intro i h1 h2; simp

example : Even ([1, 2, 3, 4] : List ℝ).length := by decide

/-- C03 (exact domain): the call raises exactly for the odd lengths from 5 on. -/
theorem C03_odd_rejected_partial (w : List ℝ) :
    makeComplexVector w = .error .valueError ↔ (Odd w.length ∧ 5 ≤ w.length) := by
  rcases Nat.even_or_odd w.length with he | ho
  · obtain ⟨v, hv, _⟩ := C02_real_of_complex w he
    constructor
    · intro h; rw [hv] at h; cases h
    · rintro ⟨h, _⟩; exact absurd he (Nat.not_even_iff_odd.2 h)
  · constructor
    · intro h
      refine ⟨ho, ?_⟩
      by_contra hlt
      obtain ⟨k, hk⟩ := ho
      rcases k with _ | _ | k
      · match w, hk with
        | [a], _ => simp [makeComplexVector, broadcast1] at h
      · match w, hk with
        | [a, b, c], _ => simp [makeComplexVector, broadcast1] at h
      · omega
    · rintro ⟨_, h5⟩
      obtain ⟨k, hk⟩ := ho
      unfold makeComplexVector broadcast1
      have hk2 : w.length / 2 = k := by omega
      simp only [hk2]
      rw [if_neg (by simp; omega)]
      have h1 : (w.take k).length = k := by simp; omega
      have h2 : (w.drop k).length = k + 1 := by simp; omega
      generalize ha : w.take k = a at h1
      generalize hb : w.drop k = b at h2
      split
      · rename_i hne; simp at h1; omega
      · simp at h2; omega
      · rfl

/-- C03 is violated: lengths 1 and 3 silently return a result (the imaginary part is lost resp. the real part is
duplicated). -/
theorem C03_odd_rejected_violated (a b c : ℝ) :
    makeComplexVector [a] = .ok [] ∧
    makeComplexVector [a, b, c] = .ok [(a : ℂ) + Complex.I * b, (a : ℂ) + Complex.I * c] := by
  constructor <;> simp [makeComplexVector, broadcast1]

/-- C05 is violated: `make_complex_matrix` raises `TypeError` on every input, because `shape/2` is a float. -/
theorem C05_make_complex_matrix_violated (m : Arr2 ℝ) : makeComplexMatrix m = .error .typeError := rfl

/-! ### C04 block form -/

theorem realMat_get (A : Arr2 ℂ) {i k : Nat} (hi : i < A.r) (hk : k < A.c) :
    (makeRealMatrix A).get i k = (A.get i k).re ∧
    (makeRealMatrix A).get i (A.c + k) = -(A.get i k).im ∧
    (makeRealMatrix A).get (A.r + i) k = (A.get i k).im ∧
    (makeRealMatrix A).get (A.r + i) (A.c + k) = (A.get i k).re := by
  unfold makeRealMatrix
  refine ⟨?_, ?_, ?_, ?_⟩
  · rw [Arr2.ofFn_get _ (by omega) (by omega), if_pos hi, if_pos hk]
  · rw [Arr2.ofFn_get _ (by omega) (by omega), if_pos hi, if_neg (by omega), Nat.add_sub_cancel_left]
  · rw [Arr2.ofFn_get _ (by omega) (by omega), if_neg (by omega), if_pos hk, Nat.add_sub_cancel_left]
  · rw [Arr2.ofFn_get _ (by omega) (by omega), if_neg (by omega), if_neg (by omega),
      Nat.add_sub_cancel_left, Nat.add_sub_cancel_left]

/-- C05 but for the division: with an integer division of the sizes the expression of `make_complex_matrix` reads the matrix back from its
block form, so the true division is its only fault. -/
theorem C05_division_partial (M : Arr2 ℂ) : complexBySlices (fun n => .int (n / 2)) (makeRealMatrix M) = .ok M := by
  have hb : ∀ k : ℕ, pySlice (k + k) (((k + k : ℕ) : Int) / 2) = k := by
    intro k
    have : ((k + k : ℕ) : Int) / 2 = k := by omega
    rw [this]
    unfold pySlice
    rw [if_neg (by omega)]
    simp
  have hr : (makeRealMatrix M).r = M.r + M.r := rfl
  have hc : (makeRealMatrix M).c = M.c + M.c := rfl
  simp only [complexBySlices, sliceBound, hr, hc, hb, Bind.bind, Except.bind]
  unfold Arr2.zipWith
  rw [if_pos (by simp [slice2, Arr2.map])]
  refine congrArg Except.ok (Arr2.ext' ?_ ?_ fun i j hi hj => ?_)
  · simp [slice2, Arr2.map]
  · simp [slice2, Arr2.map]
  · have hi : i < M.r := by simpa [slice2, Arr2.map] using hi
    have hj : j < M.c := by simpa [slice2, Arr2.map] using hj
    obtain ⟨h1, -, h3, -⟩ := realMat_get M hi hj
    simp only [slice2, Arr2.map, Arr2.ofFn_get', Nat.sub_zero, Nat.add_sub_cancel, Nat.zero_add, hi, hj, and_self, if_true, h1, h3,
      Arr2.ofFn]
    rw [mul_comm]
    exact Complex.re_add_im _

/-- the same matrix, of two rows and three columns, is read back but for the division -/
example : complexBySlices (fun n => .int (n / 2)) (makeRealMatrix (Arr2.ofFn 2 3 (fun i j => (i : ℂ) + j * Complex.I))) =
    .ok (Arr2.ofFn 2 3 (fun i j => (i : ℂ) + j * Complex.I)) := C05_division_partial _

/-- entry-wise principle for block forms -/
theorem realMat_ext (M : Arr2 ℝ) (C : Arr2 ℂ) (hr : M.r = C.r + C.r) (hc : M.c = C.c + C.c)
    (h : ∀ i j, i < C.r → j < C.c → M.get i j = (C.get i j).re ∧ M.get i (C.c + j) = -(C.get i j).im ∧
      M.get (C.r + i) j = (C.get i j).im ∧ M.get (C.r + i) (C.c + j) = (C.get i j).re) :
    M = makeRealMatrix C := by
  refine Arr2.ext' hr hc ?_
  intro i j hi hj
  by_cases h1 : i < C.r <;> by_cases h2 : j < C.c
  · rw [(h i j h1 h2).1, (realMat_get C h1 h2).1]
  · obtain ⟨j', rfl⟩ : ∃ j', j = C.c + j' := ⟨j - C.c, by omega⟩
    rw [(h i j' h1 (by omega)).2.1, (realMat_get C h1 (by omega)).2.1]
  · obtain ⟨i', rfl⟩ : ∃ i', i = C.r + i' := ⟨i - C.r, by omega⟩
    rw [(h i' j (by omega) h2).2.2.1, (realMat_get C (by omega) h2).2.2.1]
  · obtain ⟨i', rfl⟩ : ∃ i', i = C.r + i' := ⟨i - C.r, by omega⟩
    obtain ⟨j', rfl⟩ : ∃ j', j = C.c + j' := ⟨j - C.c, by omega⟩
    rw [(h i' j' (by omega) (by omega)).2.2.2, (realMat_get C (by omega) (by omega)).2.2.2]

theorem realMat_mul_aux (A B : Arr2 ℂ) (h : A.c = B.r) (i j : Nat) (hi : i < A.r) (hj : j < B.c) :
    (∑ k ∈ range (A.c + A.c), (makeRealMatrix A).get i k * (makeRealMatrix B).get k j
        = (∑ k ∈ range A.c, A.get i k * B.get k j).re) ∧
    (∑ k ∈ range (A.c + A.c), (makeRealMatrix A).get i k * (makeRealMatrix B).get k (B.c + j)
        = - (∑ k ∈ range A.c, A.get i k * B.get k j).im) ∧
    (∑ k ∈ range (A.c + A.c), (makeRealMatrix A).get (A.r + i) k * (makeRealMatrix B).get k j
        = (∑ k ∈ range A.c, A.get i k * B.get k j).im) ∧
    (∑ k ∈ range (A.c + A.c), (makeRealMatrix A).get (A.r + i) k * (makeRealMatrix B).get k (B.c + j)
        = (∑ k ∈ range A.c, A.get i k * B.get k j).re) := by
  simp only [Complex.re_sum, Complex.im_sum]
  refine ⟨?_, ?_, ?_, ?_⟩
  all_goals
    rw [Finset.sum_range_add, ← Finset.sum_add_distrib]
    try rw [← Finset.sum_neg_distrib]
    apply Finset.sum_congr rfl
    intro k hk
    rw [Finset.mem_range] at hk
    obtain ⟨a1, a2, a3, a4⟩ := realMat_get A hi hk
    obtain ⟨b1, b2, b3, b4⟩ := realMat_get B (show k < B.r by omega) hj
    rw [← h] at b3 b4
    simp only [a1, a2, a3, a4, b1, b2, b3, b4, Complex.mul_re, Complex.mul_im]
    ring

/-- C04: the block form of a product is the product of the block forms (same shape errors). -/
theorem C04_mul (A B C : Arr2 ℂ) (h : A.matmul B = .ok C) :
    (makeRealMatrix A).matmul (makeRealMatrix B) = .ok (makeRealMatrix C) := by
  unfold Arr2.matmul at h
  split at h
  · rename_i hc
    have hC := (Except.ok.inj h).symm
    rw [Arr2.matmul_ok _ _ (by simp [makeRealMatrix, hc])]
    congr 1
    have hCr : C.r = A.r := by rw [hC]; rfl
    have hCc : C.c = B.c := by rw [hC]; rfl
    refine realMat_ext _ C (by rw [hCr]; rfl) (by rw [hCc]; rfl) ?_
    intro i j hi hj
    rw [hCr] at hi; rw [hCc] at hj
    have hCg : C.get i j = ∑ k ∈ range A.c, A.get i k * B.get k j := by rw [hC]; exact Arr2.ofFn_get _ hi hj
    rw [hCg, hCr, hCc]
    obtain ⟨e1, e2, e3, e4⟩ := realMat_mul_aux A B hc i j hi hj
    have hR : (makeRealMatrix A).r = A.r + A.r := rfl
    have hCo : (makeRealMatrix B).c = B.c + B.c := rfl
    refine ⟨?_, ?_, ?_, ?_⟩
    · rw [Arr2.ofFn_get _ (by omega) (by omega)]; exact e1
    · rw [Arr2.ofFn_get _ (by omega) (by omega)]; exact e2
    · rw [Arr2.ofFn_get _ (by omega) (by omega)]; exact e3
    · rw [Arr2.ofFn_get _ (by omega) (by omega)]; exact e4
  · cases h

/-- C04: multiplying the stacked vector by the block form is stacking the complex product. -/
theorem C04_mulVec (A : Arr2 ℂ) (v w : List ℂ) (h : A.mulVec v = .ok w) :
    (makeRealMatrix A).mulVec (makeRealVector v) = .ok (makeRealVector w) := by
  unfold Arr2.mulVec at h
  split at h
  · rename_i hc
    cases h
    have hre : ∀ k, (v.map Complex.re).getD k 0 = (v.getD k 0).re := by
      intro k; simp [List.getD_eq_getElem?_getD]; cases v[k]? <;> simp
    have him : ∀ k, (v.map Complex.im).getD k 0 = (v.getD k 0).im := by
      intro k; simp [List.getD_eq_getElem?_getD]; cases v[k]? <;> simp
    have hL : ∀ k, k < A.c → (makeRealVector v).getD k 0 = (v.getD k 0).re := by
      intro k hk
      rw [← hre]; unfold makeRealVector
      simp only [List.getD_eq_getElem?_getD]
      rw [List.getElem?_append_left (by simp; omega)]
    have hR : ∀ k, (makeRealVector v).getD (A.c + k) 0 = (v.getD k 0).im := by
      intro k
      rw [← him]; unfold makeRealVector
      simp only [List.getD_eq_getElem?_getD]
      rw [List.getElem?_append_right (by simp; omega)]
      simp [hc]
    unfold Arr2.mulVec
    rw [if_pos (by simp [makeRealMatrix, makeRealVector]; omega)]
    congr 1
    have hcc : (makeRealMatrix A).c = A.c + A.c := rfl
    have hrr : (makeRealMatrix A).r = A.r + A.r := rfl
    rw [hcc, hrr, List.range_add, List.map_append]
    unfold makeRealVector
    simp only [List.map_map]
    congr 1
    · apply List.map_congr_left
      intro i hi
      rw [List.mem_range] at hi
      simp only [Function.comp, Complex.re_sum]
      rw [Finset.sum_range_add, ← Finset.sum_add_distrib]
      apply Finset.sum_congr rfl
      intro k hk
      rw [Finset.mem_range] at hk
      have e1 := hL k hk
      have e2 := hR k
      unfold makeRealVector at e1 e2
      rw [e1, e2]
      unfold makeRealMatrix
      rw [Arr2.ofFn_get _ (by omega) (by omega), Arr2.ofFn_get _ (by omega) (by omega), if_pos hi, if_pos hk,
        if_pos hi, if_neg (by omega), Nat.add_sub_cancel_left, Complex.mul_re]
      ring
    · apply List.map_congr_left
      intro i hi
      rw [List.mem_range] at hi
      simp only [Function.comp, Complex.im_sum]
      rw [Finset.sum_range_add, ← Finset.sum_add_distrib]
      apply Finset.sum_congr rfl
      intro k hk
      rw [Finset.mem_range] at hk
      have e1 := hL k hk
      have e2 := hR k
      unfold makeRealVector at e1 e2
      rw [e1, e2]
      unfold makeRealMatrix
      rw [Arr2.ofFn_get _ (by omega) (by omega), Arr2.ofFn_get _ (by omega) (by omega), if_neg (by omega),
        if_pos hk, if_neg (by omega), if_neg (by omega), Nat.add_sub_cancel_left, Nat.add_sub_cancel_left,
        Complex.mul_im]
      ring
  · cases h

/-- C04: the block form is additive. -/
theorem C04_add (A B C : Arr2 ℂ) (h : Arr2.zipWith (· + ·) A B = .ok C) :
    Arr2.zipWith (· + ·) (makeRealMatrix A) (makeRealMatrix B) = .ok (makeRealMatrix C) := by
  unfold Arr2.zipWith at h
  split at h
  · rename_i hs
    have hC := (Except.ok.inj h).symm
    have hCr : C.r = A.r := by rw [hC]; rfl
    have hCc : C.c = A.c := by rw [hC]; rfl
    unfold Arr2.zipWith
    rw [if_pos ⟨by simp [makeRealMatrix, hs.1], by simp [makeRealMatrix, hs.2]⟩]
    congr 1
    refine realMat_ext _ C (by rw [hCr]; rfl) (by rw [hCc]; rfl) ?_
    intro i j hi hj
    rw [hCr] at hi; rw [hCc] at hj
    have hCg : C.get i j = A.get i j + B.get i j := by rw [hC]; exact Arr2.ofFn_get _ hi hj
    obtain ⟨a1, a2, a3, a4⟩ := realMat_get A hi hj
    obtain ⟨b1, b2, b3, b4⟩ := realMat_get B (show i < B.r by omega) (show j < B.c by omega)
    rw [← hs.1] at b3 b4
    rw [← hs.2] at b2 b4
    have hR : (makeRealMatrix A).r = A.r + A.r := rfl
    have hCo : (makeRealMatrix A).c = A.c + A.c := rfl
    rw [hCg, hCr, hCc, Complex.add_re, Complex.add_im]
    refine ⟨?_, ?_, ?_, ?_⟩
    · rw [Arr2.ofFn_get _ (by omega) (by omega), a1, b1]
    · rw [Arr2.ofFn_get _ (by omega) (by omega), a2, b2]; ring
    · rw [Arr2.ofFn_get _ (by omega) (by omega), a3, b3]
    · rw [Arr2.ofFn_get _ (by omega) (by omega), a4, b4]
  · cases h

/-- C04: the block form determines the matrix, shape included. -/
theorem C04_injective (A B : Arr2 ℂ) (h : makeRealMatrix A = makeRealMatrix B) : A = B := by
  have hr : A.r + A.r = B.r + B.r := congrArg Arr2.r h
  have hc : A.c + A.c = B.c + B.c := congrArg Arr2.c h
  refine Arr2.ext' (by omega) (by omega) ?_
  intro i j hi hj
  have e1 : (makeRealMatrix A).get i j = (makeRealMatrix B).get i j := by rw [h]
  have e2 : (makeRealMatrix A).get (A.r + i) j = (makeRealMatrix B).get (A.r + i) j := by rw [h]
  unfold makeRealMatrix at e1 e2
  rw [Arr2.ofFn_get _ (by omega) (by omega), Arr2.ofFn_get _ (by omega) (by omega),
    if_pos hi, if_pos hj, if_pos (by omega), if_pos (by omega)] at e1
  rw [Arr2.ofFn_get _ (by omega) (by omega), Arr2.ofFn_get _ (by omega) (by omega),
    if_neg (by omega), if_pos hj, if_neg (by omega), if_pos (by omega), Nat.add_sub_cancel_left,
    show A.r + i - B.r = i by omega] at e2
  exact Complex.ext e1 e2

/-- hypotheses of `C04_mul` are satisfiable by a non-square product -/
example : ∃ C, (Arr2.ofFn 2 3 (fun i j => (i + j * Complex.I : ℂ))).matmul (Arr2.ofFn 3 1 (fun _ _ => 1)) = .ok C :=
  ⟨_, Arr2.matmul_ok _ _ rfl⟩

/-! ### C06 - C10 duplication, transformation, elimination -/

/-- C06: the call succeeds for every `n` and `D · vech(M) = vec(M)` for every symmetric `M`. -/
theorem C06_duplication [NonAssocSemiring α] (n : Nat) (M : Arr2 α) (hsq : Spec.IsSquare n M) (hM : Spec.IsSymm M) :
    ∃ D, duplicationMatrix α n = .ok D ∧ D.mulVec (Spec.vech n M) = .ok (vectorizeMatrix M) := by
  obtain ⟨D, hD, ⟨hr, hc⟩, hg⟩ := duplication_closed (α := α) n
  refine ⟨D, hD, ?_⟩
  obtain ⟨w, hw, hl, hwg⟩ := dup_mulVec n D hc hr hg (Spec.vech n M) (vech_length n M)
  rw [hw]; congr 1
  obtain ⟨h1, h2⟩ := hsq
  refine vec_ext (r := n) (c := n) (by rw [hl, pow_two]) (by rw [vec_length, h1, h2]) ?_
  intro i j hi hj
  rw [hwg j i hj hi]
  have hv := vec_getD M (i := i) (j := j) (by omega) (by omega)
  rw [h1] at hv
  rw [hv]
  rcases le_total j i with h | h
  · rw [symPos_comm, vech_getD n M h hi]
  · rw [vech_getD n M h hj, hM.2 i j]

/-- C06: shape, and every row holds exactly one `1` and otherwise `0`. -/
theorem C06_rows [Zero α] [One α] (n : Nat) :
    ∃ D : Arr2 α, duplicationMatrix α n = .ok D ∧ D.r = n ^ 2 ∧ D.c = n * (n + 1) / 2 ∧
      ∀ k, k < n ^ 2 → ∃ u, u < D.c ∧ D.get k u = 1 ∧ ∀ u', u' ≠ u → D.get k u' = 0 := by
  obtain ⟨D, hD, ⟨hr, hc⟩, hg⟩ := duplication_closed (α := α) n
  refine ⟨D, hD, hr, hc, fun k hk => ?_⟩
  obtain ⟨a, b, ha, hb, rfl⟩ := pair_decomp (m := n) (n := n) (k := k) (by rw [← pow_two]; exact hk)
  refine ⟨symPos n a b, by rw [hc]; exact symPos_lt ha hb, by rw [hg a b _ ha hb, if_pos rfl], ?_⟩
  intro u' hu'
  rw [hg a b _ ha hb, if_neg hu']

/-- C07: `E · vec(M)` is the stacked lower triangle of `(M + Mᵀ)/2`, for every square `M`. -/
theorem C07_elimination_sym [Field α] [CharZero α] (n : Nat) (M : Arr2 α) (hsq : Spec.IsSquare n M) :
    ∃ E, eliminationSymMatrix α n = .ok E ∧
      E.mulVec (vectorizeMatrix M) =
        .ok (Spec.vech n (Arr2.ofFn n n (fun i j => (M.get i j + M.get j i) / 2))) := by
  obtain ⟨E, hE, ⟨hr, hc⟩, hg⟩ := eliminationSym_closed (α := α) n
  refine ⟨E, hE, ?_⟩
  obtain ⟨h1, h2⟩ := hsq
  obtain ⟨w, hw, hl, hwg⟩ := elimSym_mulVec n E hr hc hg (vectorizeMatrix M) (by rw [vec_length, h1, h2, pow_two])
  rw [hw]; congr 1
  refine vech_ext hl (vech_length n _) ?_
  intro a b hb ha
  rw [hwg a b ha (by omega), vech_getD n _ hb ha, Arr2.ofFn_get _ ha (by omega)]
  have e1 := vec_getD M (i := b) (j := a) (by omega) (by omega)
  have e2 := vec_getD M (i := a) (j := b) (by omega) (by omega)
  rw [h1] at e1 e2
  rw [e1, e2, add_comm]

/-- C07: left inverse of the duplication matrix. -/
theorem C07_left_inverse [Field α] [CharZero α] (n : Nat) (v : List α) (hv : v.length = n * (n + 1) / 2) :
    ∃ D E w, duplicationMatrix α n = .ok D ∧ eliminationSymMatrix α n = .ok E ∧
      D.mulVec v = .ok w ∧ E.mulVec w = .ok v := by
  obtain ⟨D, hD, ⟨hr, hc⟩, hg⟩ := duplication_closed (α := α) n
  obtain ⟨E, hE, ⟨hEr, hEc⟩, hEg⟩ := eliminationSym_closed (α := α) n
  obtain ⟨w, hw, hl, hwg⟩ := dup_mulVec n D hc hr hg v hv
  obtain ⟨z, hz, hzl, hzg⟩ := elimSym_mulVec n E hEr hEc hEg w hl
  refine ⟨D, E, w, hD, hE, hw, ?_⟩
  rw [hz]; congr 1
  refine vech_ext hzl hv ?_
  intro a b hb ha
  rw [hzg a b ha (by omega), hwg a b ha (by omega), hwg b a (by omega) ha, symPos_comm n b a]
  ring

/-- C07: the divisor of every row is 1 or 2, so no division by zero occurs. -/
theorem C07_no_division_by_zero [Field α] [CharZero α] (n : Nat) (D : Arr2 α) (hD : duplicationMatrix α n = .ok D) :
    ∀ s ∈ D.T.rowSums, s = 1 ∨ s = 2 := by
  obtain ⟨D', hD', ⟨hr, hc⟩, hg⟩ := duplication_closed (α := α) n
  rw [hD] at hD'; cases hD'
  intro s hs
  unfold Arr2.rowSums at hs
  rw [List.mem_map] at hs
  obtain ⟨u, hu, rfl⟩ := hs
  rw [List.mem_range] at hu
  have hu' : u < n * (n + 1) / 2 := by rw [← hc]; exact hu
  obtain ⟨a, b, hba, ha, hsu, _⟩ := exists_symPos n u hu'
  have hTc : D.T.c = n ^ 2 := hr
  have : ∑ k ∈ range D.T.c, D.T.get u k = if a = b then 1 else 2 := by
    rw [hTc, sum_range_sq, ← symPos_count (α := α) ha (show b < n by omega), hsu]
    apply Finset.sum_congr rfl; intro p hp
    apply Finset.sum_congr rfl; intro q hq
    rw [Finset.mem_range] at hp hq
    unfold Arr2.T
    rw [Arr2.ofFn_get _ (by omega) (by rw [hr]; exact pair_index_lt hp hq), hg p q _ hp hq]
  rw [this]
  by_cases h : a = b
  · left; rw [if_pos h]
  · right; rw [if_neg h]

/-- C08: `T · (-strict lower triangle) = vech(M)` for every symmetric `M` with zero row sums. -/
theorem C08_transformation [Ring α] (n : Nat) (M : Arr2 α) (hsq : Spec.IsSquare n M) (hM : Spec.IsLaplacian M) :
    ∃ A, transformationMatrix α n = .ok A ∧ A.mulVec ((Spec.vel n M).map (fun x => -x)) = .ok (Spec.vech n M) := by
  obtain ⟨A, hA, ⟨hr, hc⟩, hg⟩ := transformation_closed (α := α) n
  refine ⟨A, hA, ?_⟩
  obtain ⟨h1, h2⟩ := hsq
  obtain ⟨hsym, hz⟩ := hM
  have hneg : ∀ k, ((Spec.vel n M).map (fun x => -x)).getD k 0 = -(Spec.vel n M).getD k 0 := by
    intro k; simp [List.getD_eq_getElem?_getD]; cases (Spec.vel n M)[k]? <;> simp
  obtain ⟨w, hw, hl, hoff, hdiag⟩ := trans_mulVec n A hr hc hg ((Spec.vel n M).map (fun x => -x))
    (by rw [List.length_map]; exact vel_length n M)
  rw [hw]; congr 1
  refine vech_ext hl (vech_length n M) ?_
  intro a b hb ha
  rw [vech_getD n M hb ha]
  rcases Nat.lt_or_ge b a with h | h
  · rw [hoff a b ha (by omega) (by omega), hneg, vel_getD n M h ha, neg_neg]
  · have : a = b := by omega
    subst this
    rw [hdiag a ha]
    have e : ∀ x ∈ (range n).erase a, ((Spec.vel n M).map (fun x => -x)).getD (offPos n a x) 0 = - M.get a x := by
      intro x hx
      rw [Finset.mem_erase, Finset.mem_range] at hx
      rw [hneg]
      rcases lt_or_gt_of_ne hx.1 with h | h
      · rw [vel_getD n M h ha]
      · rw [offPos_comm, vel_getD n M h hx.2, hsym.2 x a]
    rw [Finset.sum_congr rfl e, Finset.sum_neg_distrib]
    have hz' := hz a (by omega)
    rw [h2, ← Finset.add_sum_erase _ _ (Finset.mem_range.2 ha)] at hz'
    exact (eq_neg_of_add_eq_zero_left hz').symm

/-- C09: left inverse of the transformation matrix. -/
theorem C09_left_inverse [Ring α] (n : Nat) (v : List α) (hv : v.length = n * (n - 1) / 2) :
    ∃ A E w, transformationMatrix α n = .ok A ∧ eliminationLapMatrix α n = .ok E ∧
      A.mulVec v = .ok w ∧ E.mulVec w = .ok v := by
  obtain ⟨A, hA, ⟨hr, hc⟩, hg⟩ := transformation_closed (α := α) n
  obtain ⟨E, hE, ⟨hEr, hEc⟩, hEg⟩ := eliminationLap_closed (α := α) n
  obtain ⟨w, hw, hl, hoff, _⟩ := trans_mulVec n A hr hc hg v hv
  obtain ⟨z, hz, hzl, hzg⟩ := elimLap_mulVec n E hEr hEc hEg w hl
  refine ⟨A, E, w, hA, hE, hw, ?_⟩
  rw [hz]; congr 1
  refine vel_ext hzl hv ?_
  intro a b hb ha
  rw [hzg a b hb ha, hoff a b ha (by omega) (by omega), neg_neg]

/-- C09: it drops the diagonal positions of a stacked lower triangle and negates the rest. -/
theorem C09_drops_diagonal [Ring α] (n : Nat) (M : Arr2 α) :
    ∃ E, eliminationLapMatrix α n = .ok E ∧ E.mulVec (Spec.vech n M) = .ok ((Spec.vel n M).map (fun x => -x)) := by
  obtain ⟨E, hE, ⟨hEr, hEc⟩, hEg⟩ := eliminationLap_closed (α := α) n
  obtain ⟨z, hz, hzl, hzg⟩ := elimLap_mulVec n E hEr hEc hEg (Spec.vech n M) (vech_length n M)
  refine ⟨E, hE, ?_⟩
  rw [hz]; congr 1
  refine vel_ext hzl (by rw [List.length_map]; exact vel_length n M) ?_
  intro a b hb ha
  rw [hzg a b hb ha, vech_getD n M hb.le ha]
  have : ∀ k, ((Spec.vel n M).map (fun x => -x)).getD k 0 = -(Spec.vel n M).getD k 0 := by
    intro k; simp [List.getD_eq_getElem?_getD]; cases (Spec.vel n M)[k]? <;> simp
  rw [this, vel_getD n M hb ha]

/-- a symmetric Laplacian matrix to which C06-C09 apply -/
example : Spec.IsSquare 2 (Arr2.ofFn 2 2 (fun i j => if i = j then (3 : ℚ) else -3)) ∧
    Spec.IsLaplacian (Arr2.ofFn 2 2 (fun i j => if i = j then (3 : ℚ) else -3)) := by
  refine ⟨⟨rfl, rfl⟩, ⟨rfl, ?_⟩, ?_⟩
  · intro i j
    simp only [Arr2.ofFn_get']
    by_cases h : i = j
    · subst h; rfl
    · have : j ≠ i := fun h' => h h'.symm
      simp [h, this, and_comm]
  · intro i hi
    have hi' : i < 2 := hi
    interval_cases i <;> simp [Finset.sum_range_succ, Arr2.ofFn_get']

/-- specification of the projection on admissible matrices: symmetric part, and in Laplacian mode the diagonal is
minus the sum of the other entries of the row -/
def Spec.projection [Field α] (lap : Bool) (n : Nat) (M : Arr2 α) : Arr2 α :=
  Arr2.ofFn n n (fun i j =>
    if lap = true ∧ i = j then - ∑ x ∈ (range n).erase i, (M.get i x + M.get x i) / 2
    else (M.get i j + M.get j i) / 2)

/-- admissible admittance matrices -/
def Spec.Admissible [Field α] (lap : Bool) (M : Arr2 α) : Prop :=
  Spec.IsSymm M ∧ (lap = true → Spec.ZeroRowSums M)

/-- C10: the symmetrisation succeeds on every square matrix and is the projection of the specification. -/
theorem C10_projection [Field α] [CharZero α] (lap : Bool) (n : Nat) (M : Arr2 α) (hsq : Spec.IsSquare n M) :
    symmetrize lap n M = .ok (Spec.projection lap n M) := by
  obtain ⟨m, hm, hr, hc, hoff, hdiag⟩ := symmetrize_closed lap n M hsq
  rw [hm]; congr 1
  refine Arr2.ext' hr hc ?_
  intro i j hi hj
  rw [hr] at hi; rw [hc] at hj
  unfold Spec.projection
  rw [Arr2.ofFn_get _ hi hj]
  by_cases h : lap = true ∧ i = j
  · obtain ⟨h1, rfl⟩ := h
    rw [if_pos ⟨h1, rfl⟩, hdiag h1 i hi]
  · rw [if_neg h]
    refine hoff i j hi hj ?_
    by_cases hl : lap = true
    · right; intro hij; exact h ⟨hl, hij⟩
    · left; simpa using hl

/-- C10: the result is always admissible. -/
theorem C10_admissible [Field α] [CharZero α] (lap : Bool) (n : Nat) (M : Arr2 α) (hsq : Spec.IsSquare n M) :
    ∃ P, symmetrize lap n M = .ok P ∧ Spec.IsSquare n P ∧ Spec.Admissible lap P := by
  refine ⟨_, C10_projection lap n M hsq, ⟨rfl, rfl⟩, ⟨rfl, ?_⟩, ?_⟩
  · intro i j
    unfold Spec.projection
    simp only [Arr2.ofFn_get']
    by_cases h : i < n ∧ j < n
    · rw [if_pos h, if_pos h.symm]
      by_cases hij : i = j
      · subst hij; rfl
      · rw [if_neg (by tauto), if_neg (by rintro ⟨_, h'⟩; exact hij h'.symm), add_comm]
    · rw [if_neg h, if_neg (by tauto)]
  · intro hl i hi
    have hi' : i < n := hi
    have hc : (Spec.projection lap n M).c = n := rfl
    rw [hc, ← Finset.add_sum_erase _ _ (Finset.mem_range.2 hi')]
    have e0 : (Spec.projection lap n M).get i i = - ∑ x ∈ (range n).erase i, (M.get i x + M.get x i) / 2 := by
      unfold Spec.projection
      rw [Arr2.ofFn_get _ hi' hi', if_pos ⟨hl, rfl⟩]
    have e1 : ∀ x ∈ (range n).erase i, (Spec.projection lap n M).get i x = (M.get i x + M.get x i) / 2 := by
      intro x hx
      rw [Finset.mem_erase, Finset.mem_range] at hx
      unfold Spec.projection
      rw [Arr2.ofFn_get _ hi' hx.2, if_neg (by rintro ⟨_, h⟩; exact hx.1 h.symm)]
    rw [e0, Finset.sum_congr rfl e1, neg_add_cancel]

/-- C10: a matrix is left unchanged exactly when it is admissible. -/
theorem C10_fixed_iff [Field α] [CharZero α] (lap : Bool) (n : Nat) (M : Arr2 α) (hsq : Spec.IsSquare n M) :
    symmetrize lap n M = .ok M ↔ Spec.Admissible lap M := by
  constructor
  · intro h
    obtain ⟨P, hP, _, hadm⟩ := C10_admissible lap n M hsq
    rw [h] at hP; cases hP; exact hadm
  · rintro ⟨hsym, hz⟩
    rw [C10_projection lap n M hsq]; congr 1
    refine Arr2.ext' hsq.1.symm hsq.2.symm ?_
    intro i j hi hj
    have hi' : i < n := hi
    have hj' : j < n := hj
    unfold Spec.projection
    rw [Arr2.ofFn_get _ hi' hj']
    have half : ∀ a b, (M.get a b + M.get b a) / 2 = M.get a b := by
      intro a b; rw [hsym.2 b a]; ring
    by_cases h : lap = true ∧ i = j
    · obtain ⟨h1, rfl⟩ := h
      rw [if_pos ⟨h1, rfl⟩]
      simp only [half]
      have := hz h1 i (by rw [hsq.1]; exact hi')
      rw [hsq.2, ← Finset.add_sum_erase _ _ (Finset.mem_range.2 hi')] at this
      exact (eq_neg_of_add_eq_zero_left this).symm
    · rw [if_neg h, half]

/-- C10: applying it twice is applying it once. -/
theorem C10_idempotent [Field α] [CharZero α] (lap : Bool) (n : Nat) (M : Arr2 α) (hsq : Spec.IsSquare n M) :
    ∃ P, symmetrize lap n M = .ok P ∧ symmetrize lap n P = .ok P := by
  obtain ⟨P, hP, hPsq, hadm⟩ := C10_admissible lap n M hsq
  exact ⟨P, hP, (C10_fixed_iff lap n P hPsq).2 hadm⟩

/-- the projection is not trivial: a non-symmetric matrix is moved -/
example : ¬ Spec.Admissible true (Arr2.ofFn 2 2 (fun i j => (i + 2 * j : ℚ))) := by
  rintro ⟨⟨_, h⟩, _⟩
  have := h 0 1
  norm_num [Arr2.ofFn_get'] at this

/-! ### C11 undelete -/

/-- positions as Python integers -/
def toIdx (idx : List Nat) : List Int := idx.map (fun k : Nat => (k : Int))

/-- C11: deleting the inserted rows gives the original matrix back. -/
theorem C11_delete_undelete [Zero α] (m : Arr2 α) (idx : List Nat) (hn : idx.Nodup)
    (hb : ∀ k ∈ idx, k < m.r + idx.length) :
    (undelete m (toIdx idx) 0).deleteRows idx = .ok m := by
  obtain ⟨hr, hc, hg⟩ := undelete_closed m idx hn hb
  unfold toIdx
  unfold Arr2.deleteRows
  rw [if_pos (by rw [hr]; exact hb)]
  congr 1
  have hlen := keepIdx_length (m.r + idx.length) idx hn hb
  refine Arr2.ext' (by rw [Arr2.ofFn_r, hr]; omega) (by rw [Arr2.ofFn_c, hc]) ?_
  intro i j hi hj
  refine (Arr2.ofFn_get _ hi hj).trans ?_
  rw [Arr2.ofFn_r, hr] at hi
  rw [hr]
  obtain ⟨hp1, hp2, hp3⟩ := keepIdx_rank (m.r + idx.length) idx hn i hi
  rw [hg _ j hp1, if_neg hp2, hp3]

/-- C11: shape, and the rows at the given positions are zero. -/
theorem C11_zero_rows [Zero α] (m : Arr2 α) (idx : List Nat) (hn : idx.Nodup)
    (hb : ∀ k ∈ idx, k < m.r + idx.length) :
    (undelete m (toIdx idx) 0).r = m.r + idx.length ∧ (undelete m (toIdx idx) 0).c = m.c ∧
      ∀ k ∈ idx, ∀ j, (undelete m (toIdx idx) 0).get k j = 0 := by
  obtain ⟨hr, hc, hg⟩ := undelete_closed m idx hn hb
  refine ⟨hr, hc, fun k hk j => ?_⟩
  unfold toIdx
  rw [hg k j (hb k hk), if_pos hk]

/-- C11: deleting and re-inserting zeroes the deleted rows and changes nothing else. -/
theorem C11_undelete_delete [Zero α] (m : Arr2 α) (idx : List Nat) (hn : idx.Nodup) (hb : ∀ k ∈ idx, k < m.r) :
    ∃ d, m.deleteRows idx = .ok d ∧
      undelete d (toIdx idx) 0 = Arr2.ofFn m.r m.c (fun i j => if i ∈ idx then 0 else m.get i j) := by
  have hlen := keepIdx_length m.r idx hn hb
  let d : Arr2 α := Arr2.ofFn (Arr2.keepIdx m.r idx).length m.c
    (fun i j => m.get ((Arr2.keepIdx m.r idx).getD i 0) j)
  have hd : m.deleteRows idx = .ok d := by unfold Arr2.deleteRows; rw [if_pos hb]
  have hdr : d.r = (Arr2.keepIdx m.r idx).length := rfl
  obtain ⟨hr, hc, hg⟩ := undelete_closed d idx hn (by intro k hk; rw [hdr, hlen]; exact hb k hk)
  refine ⟨d, hd, ?_⟩
  unfold toIdx
  refine Arr2.ext' (by rw [hr, hdr, hlen]; rfl) (by rw [hc]; rfl) ?_
  intro i j hi hj
  rw [hr, hdr, hlen] at hi
  rw [hc] at hj
  have hj' : j < m.c := hj
  rw [hg i j (by rw [hdr, hlen]; exact hi), Arr2.ofFn_get _ hi hj']
  by_cases h : i ∈ idx
  · rw [if_pos h, if_pos h]
  · rw [if_neg h, if_neg h]
    have hk := keepIdx_at m.r idx hn i hi h
    obtain ⟨hk1, hk2⟩ := List.getElem?_eq_some_iff.1 hk
    have : d.get (i - (idx.filter (fun k => decide (k < i))).length) j =
        m.get ((Arr2.keepIdx m.r idx).getD (i - (idx.filter (fun k => decide (k < i))).length) 0) j :=
      Arr2.ofFn_get _ hk1 hj
    rw [this, List.getD_eq_getElem?_getD, hk]; rfl

/-- C11: the order of the positions is irrelevant (for any integers, even repeated or out of range). -/
theorem C11_order_irrelevant [Zero α] (m : Arr2 α) (idx idx' : List Int) (h : idx.Perm idx') (axis : Nat) :
    undelete m idx axis = undelete m idx' axis := by
  have hs : idx.mergeSort (fun a b => decide (a ≤ b)) = idx'.mergeSort (fun a b => decide (a ≤ b)) := by
    apply List.Perm.eq_of_pairwise (le := fun a b : Int => (decide (a ≤ b)) = true)
    · intro a b _ _ h1 h2; simp at h1 h2; omega
    · exact List.pairwise_mergeSort (by intro a b c; simp; omega) (by intro a b; simp; omega) idx
    · exact List.pairwise_mergeSort (by intro a b c; simp; omega) (by intro a b; simp; omega) idx'
    · exact (List.mergeSort_perm _ _).trans (h.trans (List.mergeSort_perm _ _).symm)
  unfold undelete
  rw [hs]

theorem insertZeroCol_eq [Zero α] (m : Arr2 α) (i : Int) : insertZeroCol m i = (insertZeroRow m.T i).T := by
  refine Arr2.ext' rfl rfl ?_
  intro p q hp hq
  have hp' : p < m.r := hp
  have hq' : q < m.c + 1 := hq
  rw [Arr2.T_get]
  unfold insertZeroCol insertZeroRow
  rw [Arr2.ofFn_get _ hp' hq']
  refine Eq.trans ?_ (Arr2.ofFn_get _ hq' hp').symm
  simp only [Arr2.T_get, Arr2.T_r]

/-- C11: along columns, `undelete` is the row version on the transpose. -/
theorem C11_columns [Zero α] (m : Arr2 α) (idx : List Int) :
    undelete m idx 1 = (undelete m.T idx 0).T := by
  unfold undelete
  simp only [if_true, one_ne_zero, if_false]
  generalize idx.mergeSort (fun a b => decide (a ≤ b)) = l
  induction l generalizing m with
  | nil => simp [Arr2.T_T]
  | cons i l ih =>
    simp only [List.foldl_cons]
    rw [ih, insertZeroCol_eq, Arr2.T_T]

/-- positions meeting the hypotheses, unsorted -/
example : ([3, 0, 2] : List Nat).Nodup ∧ ∀ k ∈ ([3, 0, 2] : List Nat), k < 2 + [3, 0, 2].length := by decide

end Verif
