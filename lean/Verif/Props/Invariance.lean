/-
C144: the least squares estimates do not depend on the order of the samples, the numbering of the nodes, and the reference angle of
each sample. The ordinary estimate follows any change of units, the total least squares estimate only a common one.
-/
import Verif.Props.IsotropicNoise
import Verif.Lemmas.Kron

namespace Verif
open Matrix Finset
noncomputable section

namespace Spec

/-- `x'` are the `T` measurements `x` of `n` nodes in another order `π`, with renumbered nodes `σ`, reference angles `θ` and unit `a` -/
structure Rewritten {T n : Nat} (x x' : Arr2 ℂ) (a : ℝ) (θ : Nat → ℂ) (π : Equiv.Perm (Fin T)) (σ : Equiv.Perm (Fin n)) : Prop where
  shape : x.r = T ∧ x.c = n
  shape' : x'.r = T ∧ x'.c = n
  entries : ∀ (t : Fin T) (k : Fin n), x'.get t k = a * θ t * x.get (π t) (σ k)

end Spec

theorem sqValue_gap {T n m : Nat} {s : ℕ → ℝ} (h0 : ∀ k, 0 ≤ s k) (hs : Antitone s)
    (h : ∀ i < n, (if n < T then s n else 0) < if i < T then s i else 0) (i : Fin n) (j : Fin m) :
    sqValue T s (n + j) < sqValue T s i := by
  have h1 := h i i.2
  have h2 : sqValue T s (n + j) ≤ sqValue T s n := sqValue_antitone T h0 hs (by omega)
  refine lt_of_le_of_lt h2 ?_
  have h3 : ∀ k, sqValue T s k = (if k < T then s k else 0) ^ 2 := by
    intro k; unfold sqValue; split <;> simp
  rw [h3, h3]
  refine pow_lt_pow_left₀ h1 ?_ two_ne_zero
  split
  · exact h0 _
  · exact le_rfl

/-- two matrices of independent columns that vanish on the first singular vectors have the same columns up to combinations -/
theorem same_span {n m : Nat} {Vh : Matrix (Fin (n + m)) (Fin (n + m)) ℂ} (hV : Vh * Vhᴴ = 1)
    {W W' : Matrix (Fin (n + m)) (Fin m) ℂ} (hW : ∀ v, W.mulVec v = 0 → v = 0)
    (h : ∀ (i : Fin n) (j : Fin m), (Vh * W) (Fin.castAdd m i) j = 0)
    (h' : ∀ (i : Fin n) (j : Fin m), (Vh * W') (Fin.castAdd m i) j = 0) : ∃ C : Matrix (Fin m) (Fin m) ℂ, W' = W * C := by
  have hV' : Vhᴴ * Vh = 1 := mul_eq_one_comm.1 hV
  set V2 : Matrix (Fin (n + m)) (Fin m) ℂ := fun i j => Vhᴴ i (Fin.natAdd n j) with hV2
  have coeff : ∀ Q : Matrix (Fin (n + m)) (Fin m) ℂ, (∀ (i : Fin n) (j : Fin m), (Vh * Q) (Fin.castAdd m i) j = 0) →
      Q = V2 * Matrix.of fun k j => (Vh * Q) (Fin.natAdd n k) j := by
    intro Q hQ
    ext i j
    have h10 : Q = Vhᴴ * (Vh * Q) := by rw [← Matrix.mul_assoc, hV', Matrix.one_mul]
    conv_lhs => rw [h10, mul_apply, Fin.sum_univ_add]
    rw [Finset.sum_eq_zero (fun k _ => by rw [hQ k j, mul_zero]), zero_add]
    rfl
  have e := coeff W h
  have e' := coeff W' h'
  set K : Matrix (Fin m) (Fin m) ℂ := Matrix.of fun k j => (Vh * W) (Fin.natAdd n k) j with hK
  set K' : Matrix (Fin m) (Fin m) ℂ := Matrix.of fun k j => (Vh * W') (Fin.natAdd n k) j with hK'
  have hKi : ∀ v, K.mulVec v = 0 → v = 0 := by
    intro v hv
    refine hW v ?_
    rw [e, ← mulVec_mulVec, hv, mulVec_zero]
  have hinv := exists_inverse _ hKi
  refine ⟨K⁻¹ * K', ?_⟩
  rw [e', e, Matrix.mul_assoc, ← Matrix.mul_assoc K, hinv, Matrix.one_mul]

/-- if some correction for `Y` is as small as the last singular values, and there is a gap, the fit returns `Y`, whichever decomposition it
uses -/
theorem tls_return {svdVh inv : Arr2 ℂ → Except PyErr (Arr2 ℂ)} (hsvd : Spec.SvdContract svdVh) (hinv : Spec.InvContract inv)
    {x z Y : Arr2 ℂ} (hr : x.r = z.r) (hY : Y.r = x.c ∧ Y.c = z.c)
    {u : Matrix (Fin x.r) (Fin x.r) ℂ} {Vh : Matrix (Fin (x.c + z.c)) (Fin (x.c + z.c)) ℂ} {s : ℕ → ℝ} (hu : uᴴ * u = 1)
    (hV : Vh * Vhᴴ = 1) (h0 : ∀ k, 0 ≤ s k) (hs : Antitone s)
    (hM : side x.r x.c z.c x z = u * (Matrix.of fun (i : Fin x.r) (j : Fin (x.c + z.c)) => if (i : ℕ) = j then (s i : ℂ) else 0) * Vh)
    (hgap : ∀ (i : Fin x.c) (j : Fin z.c), sqValue x.r s (x.c + j) < sqValue x.r s i)
    {D : Matrix (Fin x.r) (Fin (x.c + z.c)) ℂ} (hD : (side x.r x.c z.c x z + D) * overNegOne (Y.toMat x.c z.c) = 0)
    (hsize : frob D = ∑ k : Fin z.c, sqValue x.r s (x.c + k)) : tlsFit svdVh inv x z = .ok Y := by
  obtain ⟨xz, hxz, e1, e2, e3, e4⟩ := hstack_ok hr
  obtain ⟨vh, hvh, hsv⟩ := hsvd xz
  rw [e1, e2] at hsv
  obtain ⟨h1, h2, h3, h4, hun, u1, s1, hu1, hs01, hanti1, heq⟩ := hsv
  have hM1 : side x.r x.c z.c x z = xz.toMat x.r (x.c + z.c) := by
    ext t i
    refine Fin.addCases (fun a => ?_) (fun a => ?_) i
    · simp only [side, Fin.append_left]
      exact (e3 t a t.2 a.2).symm
    · simp only [side, Fin.append_right]
      exact (e4 t a t.2 a.2).symm
  have hM1 := hM1.trans heq
  refine tlsFit_of_null hinv hY hxz hvh h3 h4 hun ?_
  set V1 := vh.toMat (x.c + z.c) (x.c + z.c) with hV1
  set W1 : Matrix (Fin (x.c + z.c)) (Fin z.c) ℂ := fun i j => V1ᴴ i (Fin.natAdd x.c j) with hW1
  have hne : ∀ (i : Fin x.c) (j : Fin z.c), Fin.castAdd z.c i ≠ Fin.natAdd x.c j := by
    intro i j h
    have := congrArg Fin.val h
    simp at this
    omega
  have hVW : ∀ i j, (V1 * W1) i j = if i = Fin.natAdd x.c j then 1 else 0 := by
    intro i j
    have h6 : (V1 * W1) i j = (V1 * V1ᴴ) i (Fin.natAdd x.c j) := rfl
    rw [h6, hun, one_apply]
  have hW1i : ∀ v, W1.mulVec v = 0 → v = 0 := by
    intro v hv
    have h7 : (V1 * W1).mulVec v = 0 := by rw [← mulVec_mulVec, hv, mulVec_zero]
    funext l
    have h8 := congrFun h7 (Fin.natAdd x.c l)
    simp only [mulVec, dotProduct, hVW, Fin.natAdd_inj] at h8
    simpa using h8
  obtain ⟨D1, hD1, hsize1⟩ := correction_attained (W := W1) hu1 hun hM1 (fun i j => by rw [hVW, if_neg (hne i j)])
  have hle : frob D1 ≤ frob D := by
    rw [hsize1]
    exact (correction_bound hu1 hun hs01 hanti1 hM1 (overNegOne_inj _) hD).1
  obtain ⟨b1, b2⟩ := correction_bound hu hV h0 hs hM hW1i hD1
  have top1 := b2 hgap (le_antisymm (hle.trans hsize.le) b1)
  have top := (correction_bound hu hV h0 hs hM (overNegOne_inj _) hD).2 hgap hsize
  obtain ⟨C, hC⟩ := same_span hV (overNegOne_inj _) top top1
  intro i j
  have a1 : V1ᴴ (Fin.castAdd z.c i) (Fin.natAdd x.c j) = ∑ l : Fin z.c, Y.get i l * C l j := by
    have := congrFun (congrFun hC (Fin.castAdd z.c i)) j
    rw [mul_apply] at this
    simp only [overNegOne, Fin.append_left] at this
    exact this
  have a2 : ∀ l : Fin z.c, V1ᴴ (Fin.natAdd x.c l) (Fin.natAdd x.c j) = -C l j := by
    intro l
    have := congrFun (congrFun hC (Fin.natAdd x.c l)) j
    rw [mul_apply] at this
    simp only [overNegOne, Fin.append_right, ite_mul, neg_mul, one_mul, zero_mul, Finset.sum_ite_eq, Finset.mem_univ, if_true] at this
    exact this
  rw [a1]
  simp only [a2, mul_neg, Finset.sum_neg_distrib, add_neg_cancel]

theorem tls_return' {svdVh inv : Arr2 ℂ → Except PyErr (Arr2 ℂ)} (hsvd : Spec.SvdContract svdVh) (hinv : Spec.InvContract inv)
    {x z Y : Arr2 ℂ} {T n m : Nat} (hx : x.r = T ∧ x.c = n) (hz : z.r = T ∧ z.c = m) (hY : Y.r = n ∧ Y.c = m)
    {u : Matrix (Fin T) (Fin T) ℂ} {Vh : Matrix (Fin (n + m)) (Fin (n + m)) ℂ} {s : ℕ → ℝ} (hu : uᴴ * u = 1)
    (hV : Vh * Vhᴴ = 1) (h0 : ∀ k, 0 ≤ s k) (hs : Antitone s)
    (hM : side T n m x z = u * (Matrix.of fun (i : Fin T) (j : Fin (n + m)) => if (i : ℕ) = j then (s i : ℂ) else 0) * Vh)
    (hgap : ∀ (i : Fin n) (j : Fin m), sqValue T s (n + j) < sqValue T s i)
    {D : Matrix (Fin T) (Fin (n + m)) ℂ} (hD : (side T n m x z + D) * overNegOne (Y.toMat n m) = 0)
    (hsize : frob D = ∑ k : Fin m, sqValue T s (n + k)) : tlsFit svdVh inv x z = .ok Y := by
  obtain ⟨rfl, rfl⟩ := hx
  obtain ⟨hz1, rfl⟩ := hz
  exact tls_return hsvd hinv hz1.symm hY hu hV h0 hs hM hgap hD hsize

/-- unitary changes of samples, voltages and currents, and a common change of units, change the total least squares estimate accordingly -/
theorem tls_unitary {svdVh inv : Arr2 ℂ → Except PyErr (Arr2 ℂ)} (hsvd : Spec.SvdContract svdVh) (hinv : Spec.InvContract inv)
    (hsound : Spec.InvSound inv) {x z xz x' z' Y Y' : Arr2 ℂ} (h : tlsFit svdVh inv x z = .ok Y) (hxz : hstack x z = .ok xz)
    (hgap : Spec.SingularGap xz x.c) {a : ℝ} (ha : 0 < a) {U : Matrix (Fin x.r) (Fin x.r) ℂ} {R : Matrix (Fin x.c) (Fin x.c) ℂ}
    {S : Matrix (Fin z.c) (Fin z.c) ℂ} (hU : Uᴴ * U = 1) (hR : R * Rᴴ = 1) (hS : S * Sᴴ = 1)
    (hx' : x'.r = x.r ∧ x'.c = x.c) (hz' : z'.r = x.r ∧ z'.c = z.c) (hY' : Y'.r = x.c ∧ Y'.c = z.c)
    (hX : x'.toMat x.r x.c = (a : ℂ) • (U * x.toMat x.r x.c * R)) (hZ : z'.toMat x.r z.c = (a : ℂ) • (U * z.toMat x.r z.c * S))
    (hQ : Y'.toMat x.c z.c = Rᴴ * Y.toMat x.c z.c * S) : tlsFit svdVh inv x' z' = .ok Y' := by
  obtain ⟨hr, hshape, u1, Vh1, s1, hu1, hV1, h01, hanti1, hM1, htop1⟩ := tlsFit_vectors hsvd hsound h
  obtain ⟨xz', hxz', e1, e2, e3, e4⟩ := hstack_ok hr
  obtain rfl : xz = xz' := Except.ok.inj (hxz.symm.trans hxz')
  have hM : side x.r x.c z.c x z = xz.toMat x.r (x.c + z.c) := by
    ext t i
    refine Fin.addCases (fun a => ?_) (fun a => ?_) i
    · simp only [side, Fin.append_left]
      exact (e3 t a t.2 a.2).symm
    · simp only [side, Fin.append_right]
      exact (e4 t a t.2 a.2).symm
  unfold Spec.SingularGap at hgap
  rw [e1, e2] at hgap
  obtain ⟨u, Vh, s, hu, hV, h0, hs, heq, hgap⟩ := hgap
  rw [← hM] at heq
  -- a correction for `Y` of the size of the last singular values of this decomposition
  obtain ⟨D1, hD1, hsize1⟩ := correction_attained hu1 hV1 hM1 htop1
  set W : Matrix (Fin (x.c + z.c)) (Fin z.c) ℂ := fun i j => Vhᴴ i (Fin.natAdd x.c j) with hW
  have hVW : ∀ i j, (Vh * W) i j = if i = Fin.natAdd x.c j then 1 else 0 := by
    intro i j
    have h6 : (Vh * W) i j = (Vh * Vhᴴ) i (Fin.natAdd x.c j) := rfl
    rw [h6, hV, one_apply]
  have hne : ∀ (i : Fin x.c) (j : Fin z.c), Fin.castAdd z.c i ≠ Fin.natAdd x.c j := by
    intro i j h
    have := congrArg Fin.val h
    simp at this
    omega
  have hWi : ∀ v, W.mulVec v = 0 → v = 0 := by
    intro v hv
    have h7 : (Vh * W).mulVec v = 0 := by rw [← mulVec_mulVec, hv, mulVec_zero]
    funext l
    have h8 := congrFun h7 (Fin.natAdd x.c l)
    simp only [mulVec, dotProduct, hVW, Fin.natAdd_inj] at h8
    simpa using h8
  obtain ⟨D2, hD2, hsize2⟩ := correction_attained (W := W) hu hV heq (fun i j => by rw [hVW, if_neg (hne i j)])
  have hsize : frob D1 = ∑ k : Fin z.c, sqValue x.r s (x.c + k) := by
    refine le_antisymm ?_ (correction_bound hu hV h0 hs heq (overNegOne_inj _) hD1).1
    rw [hsize1, ← hsize2]
    exact (correction_bound hu1 hV1 h01 hanti1 hM1 hWi hD2).1
  -- the changed data
  set B : Matrix (Fin (x.c + z.c)) (Fin (x.c + z.c)) ℂ := Matrix.of fun i j =>
    Fin.addCases (fun k : Fin x.c => Fin.append (fun l => R k l) (fun _ : Fin z.c => 0) j)
      (fun k : Fin z.c => Fin.append (fun _ : Fin x.c => 0) (fun l => S k l) j) i with hB
  have hBB : B * Bᴴ = 1 := by
    ext i j
    rw [mul_apply, Fin.sum_univ_add, one_apply]
    simp only [hB, conjTranspose_apply, of_apply]
    refine Fin.addCases (fun k => ?_) (fun k => ?_) i <;> refine Fin.addCases (fun l => ?_) (fun l => ?_) j
    · simp only [Fin.addCases_left, Fin.append_left, Fin.append_right, zero_mul, Finset.sum_const_zero, add_zero, Fin.castAdd_inj]
      have := congrFun (congrFun hR k) l
      rwa [mul_apply, one_apply] at this
    · simp [hne]
    · simp [(hne _ _).symm]
    · simp only [Fin.addCases_right, Fin.append_left, Fin.append_right, zero_mul, Finset.sum_const_zero, zero_add, Fin.natAdd_inj]
      have := congrFun (congrFun hS k) l
      rwa [mul_apply, one_apply] at this
  have hM' : side x.r x.c z.c x' z' = (a : ℂ) • (U * side x.r x.c z.c x z * B) := by
    ext t i
    refine Fin.addCases (fun k => ?_) (fun k => ?_) i
    · rw [Matrix.smul_apply, mul_apply, Fin.sum_univ_add]
      simp only [hB, of_apply, Fin.addCases_left, Fin.addCases_right, Fin.append_left, mul_zero, Finset.sum_const_zero, add_zero]
      have := congrFun (congrFun hX t) k
      rw [Matrix.smul_apply, mul_apply] at this
      simp only [side, Fin.append_left]
      refine this.trans (congrArg _ (Finset.sum_congr rfl fun l _ => ?_))
      refine congrArg (· * R l k) ?_
      rw [mul_apply, mul_apply]
      refine (Finset.sum_congr rfl fun q _ => congrArg (U t q * ·) ?_)
      exact (Fin.append_left _ _ l).symm
    · rw [Matrix.smul_apply, mul_apply, Fin.sum_univ_add]
      simp only [hB, of_apply, Fin.addCases_left, Fin.addCases_right, Fin.append_right, mul_zero, Finset.sum_const_zero, zero_add]
      have := congrFun (congrFun hZ t) k
      rw [Matrix.smul_apply, mul_apply] at this
      simp only [side, Fin.append_right]
      refine this.trans (congrArg _ (Finset.sum_congr rfl fun l _ => ?_))
      refine congrArg (· * S l k) ?_
      rw [mul_apply, mul_apply]
      refine (Finset.sum_congr rfl fun q _ => congrArg (U t q * ·) ?_)
      exact (Fin.append_right _ _ l).symm
  have hBW : B * overNegOne (Y'.toMat x.c z.c) = overNegOne (Y.toMat x.c z.c) * S := by
    ext i j
    rw [mul_apply, mul_apply, Fin.sum_univ_add]
    simp only [hB, of_apply, overNegOne, Fin.append_left, Fin.append_right]
    refine Fin.addCases (fun k => ?_) (fun k => ?_) i
    · simp only [Fin.addCases_left, Fin.append_left, Fin.append_right, zero_mul, Finset.sum_const_zero, add_zero]
      have : (R * Y'.toMat x.c z.c) k j = (Y.toMat x.c z.c * S) k j := by
        rw [hQ, ← Matrix.mul_assoc, ← Matrix.mul_assoc, hR, Matrix.one_mul]
      rwa [mul_apply, mul_apply] at this
    · simp
  obtain ⟨p1, p2⟩ := hx'
  obtain ⟨p3, p4⟩ := hz'
  have hu' : (U * u)ᴴ * (U * u) = 1 := by
    rw [conjTranspose_mul, Matrix.mul_assoc, ← Matrix.mul_assoc Uᴴ, hU, Matrix.one_mul, hu]
  have hV' : (Vh * B) * (Vh * B)ᴴ = 1 := by
    rw [conjTranspose_mul, Matrix.mul_assoc, ← Matrix.mul_assoc B, hBB, Matrix.one_mul, hV]
  have hsq : ∀ k, sqValue x.r (fun k => a * s k) k = a ^ 2 * sqValue x.r s k := by
    intro k
    unfold sqValue
    split
    · ring
    · simp
  refine tls_return' hsvd hinv ⟨p1, p2⟩ ⟨p3, p4⟩ hY' hu' hV' (fun k => mul_nonneg ha.le (h0 k)) (fun i j hij => mul_le_mul_of_nonneg_left (hs hij) ha.le) ?_ ?_
    (D := (a : ℂ) • (U * D1 * B)) ?_ ?_
  · rw [hM', heq]
    have : (Matrix.of fun (i : Fin x.r) (j : Fin (x.c + z.c)) => if (i : ℕ) = j then ((a * s i : ℝ) : ℂ) else 0) =
        (a : ℂ) • Matrix.of fun (i : Fin x.r) (j : Fin (x.c + z.c)) => if (i : ℕ) = j then (s i : ℂ) else 0 := by
      ext i j
      simp only [of_apply, Matrix.smul_apply, smul_eq_mul]
      split <;> simp
    rw [this]
    simp only [Matrix.mul_smul, Matrix.smul_mul, Matrix.mul_assoc]
  · intro i j
    rw [hsq, hsq]
    exact mul_lt_mul_of_pos_left (sqValue_gap h0 hs hgap i j) (by positivity)
  · rw [hM', ← smul_add, Matrix.smul_mul, ← Matrix.add_mul, ← Matrix.mul_add, Matrix.mul_assoc, hBW, ← Matrix.mul_assoc, Matrix.mul_assoc U,
      hD1, Matrix.mul_zero, Matrix.zero_mul, smul_zero]
  · have hsm : ∀ A : Matrix (Fin x.r) (Fin (x.c + z.c)) ℂ, frob ((a : ℂ) • A) = a ^ 2 * frob A := by
      intro A
      unfold frob
      rw [Finset.mul_sum]
      refine Finset.sum_congr rfl fun i _ => ?_
      rw [Finset.mul_sum]
      refine Finset.sum_congr rfl fun j _ => ?_
      rw [Matrix.smul_apply, smul_eq_mul, map_mul, Complex.normSq_ofReal]
      ring
    rw [hsm, frob_mul_unitary _ _ hBB, frob_unitary_mul _ hU, hsize, Finset.mul_sum]
    exact Finset.sum_congr rfl fun k _ => (hsq _).symm

theorem pseudoInverse_mk {x p : Arr2 ℂ} {T n : Nat} (hx : x.r = T ∧ x.c = n) (hp : p.r = n ∧ p.c = T)
    (h1 : x.toMat T n * p.toMat n T * x.toMat T n = x.toMat T n) (h2 : p.toMat n T * x.toMat T n * p.toMat n T = p.toMat n T)
    (h3 : (x.toMat T n * p.toMat n T)ᴴ = x.toMat T n * p.toMat n T) (h4 : (p.toMat n T * x.toMat T n)ᴴ = p.toMat n T * x.toMat T n) :
    Spec.PseudoInverse x p := by
  obtain ⟨rfl, rfl⟩ := hx
  exact ⟨hp.1, hp.2, h1, h2, h3, h4⟩

/-- unitary changes and changes of both units change the ordinary least squares estimate accordingly -/
theorem ols_unitary {pinv : Arr2 ℂ → Except PyErr (Arr2 ℂ)} (hpinv : Spec.PinvContract pinv) {x z x' z' Y Y' : Arr2 ℂ}
    (h : complexRegressionFit pinv x z = .ok Y) {a b : ℝ} (ha : 0 < a) {U : Matrix (Fin x.r) (Fin x.r) ℂ}
    {R : Matrix (Fin x.c) (Fin x.c) ℂ} {S : Matrix (Fin z.c) (Fin z.c) ℂ} (hU : Uᴴ * U = 1) (hR : R * Rᴴ = 1)
    (hx' : x'.r = x.r ∧ x'.c = x.c) (hz' : z'.r = x.r ∧ z'.c = z.c) (hY' : Y'.r = x.c ∧ Y'.c = z.c)
    (hX : x'.toMat x.r x.c = (a : ℂ) • (U * x.toMat x.r x.c * R)) (hZ : z'.toMat x.r z.c = (b : ℂ) • (U * z.toMat x.r z.c * S))
    (hQ : Y'.toMat x.c z.c = ((b / a : ℝ) : ℂ) • (Rᴴ * Y.toMat x.c z.c * S)) : complexRegressionFit pinv x' z' = .ok Y' := by
  obtain ⟨p, hp, hpi⟩ := hpinv x
  obtain ⟨q, hq, hqi⟩ := hpinv x'
  have hY : p.matmul z = .ok Y := by
    simpa only [complexRegressionFit, hp, bind, Except.bind] using h
  obtain ⟨hpz, hYr, hYc, hYm⟩ := Arr2.matmul_inv hY
  have hU' : U * Uᴴ = 1 := mul_eq_one_comm.1 hU
  have hR' : Rᴴ * R = 1 := mul_eq_one_comm.1 hR
  have ha' : (a : ℂ) ≠ 0 := by exact_mod_cast ha.ne'
  obtain ⟨p1, p2⟩ := hx'
  set X := x.toMat x.r x.c with hXd
  set P := p.toMat x.c x.r with hPd
  have k1 : X * P * X = X := hpi.xpx
  have k2 : P * X * P = P := hpi.pxp
  have k3 : (X * P)ᴴ = X * P := hpi.herm_xp
  have k4 : (P * X)ᴴ = P * X := hpi.herm_px
  set N : Matrix (Fin x.c) (Fin x.r) ℂ := (a : ℂ)⁻¹ • (Rᴴ * P * Uᴴ) with hN
  have hXN : x'.toMat x.r x.c * N = U * (X * P) * Uᴴ := by
    rw [hX, hN, Matrix.smul_mul, Matrix.mul_smul, smul_smul, mul_inv_cancel₀ ha', one_smul]
    calc U * X * R * (Rᴴ * P * Uᴴ) = U * X * (R * Rᴴ) * P * Uᴴ := by simp only [Matrix.mul_assoc]
      _ = U * (X * P) * Uᴴ := by rw [hR, Matrix.mul_one]; simp only [Matrix.mul_assoc]
  have hNX : N * x'.toMat x.r x.c = Rᴴ * (P * X) * R := by
    rw [hX, hN, Matrix.smul_mul, Matrix.mul_smul, smul_smul, inv_mul_cancel₀ ha', one_smul]
    calc Rᴴ * P * Uᴴ * (U * X * R) = Rᴴ * P * (Uᴴ * U) * X * R := by simp only [Matrix.mul_assoc]
      _ = Rᴴ * (P * X) * R := by rw [hU, Matrix.mul_one]; simp only [Matrix.mul_assoc]
  have hqN : q = Arr2.ofMat N := by
    refine pseudoInverse_unique hqi ?_
    have c1 : x'.toMat x.r x.c * (Arr2.ofMat N).toMat x.c x.r * x'.toMat x.r x.c = x'.toMat x.r x.c := by
      rw [Arr2.toMat_ofMat, hXN, hX, Matrix.mul_smul]
      congr 1
      calc U * (X * P) * Uᴴ * (U * X * R) = U * (X * P) * (Uᴴ * U) * X * R := by simp only [Matrix.mul_assoc]
        _ = U * (X * P * X) * R := by rw [hU, Matrix.mul_one]; simp only [Matrix.mul_assoc]
        _ = U * X * R := by rw [k1]
    have c2 : (Arr2.ofMat N).toMat x.c x.r * x'.toMat x.r x.c * (Arr2.ofMat N).toMat x.c x.r = (Arr2.ofMat N).toMat x.c x.r := by
      rw [Arr2.toMat_ofMat, hNX, hN, Matrix.mul_smul]
      congr 1
      calc Rᴴ * (P * X) * R * (Rᴴ * P * Uᴴ) = Rᴴ * (P * X) * (R * Rᴴ) * P * Uᴴ := by simp only [Matrix.mul_assoc]
        _ = Rᴴ * (P * X * P) * Uᴴ := by rw [hR, Matrix.mul_one]; simp only [Matrix.mul_assoc]
        _ = Rᴴ * P * Uᴴ := by rw [k2]
    have c3 : (x'.toMat x.r x.c * (Arr2.ofMat N).toMat x.c x.r)ᴴ = x'.toMat x.r x.c * (Arr2.ofMat N).toMat x.c x.r := by
      rw [Arr2.toMat_ofMat, hXN, conjTranspose_mul, conjTranspose_mul, conjTranspose_conjTranspose, k3, ← Matrix.mul_assoc]
    have c4 : ((Arr2.ofMat N).toMat x.c x.r * x'.toMat x.r x.c)ᴴ = (Arr2.ofMat N).toMat x.c x.r * x'.toMat x.r x.c := by
      rw [Arr2.toMat_ofMat, hNX, conjTranspose_mul, conjTranspose_mul, conjTranspose_conjTranspose, k4, ← Matrix.mul_assoc]
    exact pseudoInverse_mk ⟨p1, p2⟩ ⟨rfl, rfl⟩ c1 c2 c3 c4
  obtain ⟨B, hB, hBr, hBc, hBm⟩ := Arr2.matmul_mat (A := q) (B := z') (m := x.c) (k := x.r) (n := z.c) (by rw [hqN]; exact ⟨rfl, rfl⟩) hz'
  have hBY : B = Y' := by
    refine Arr2.toMat_inj ⟨hBr, hBc⟩ hY' ?_
    rw [hBm, hqN, Arr2.toMat_ofMat, hZ, hQ]
    have hYm' : Y.toMat x.c z.c = P * z.toMat x.r z.c := by
      have := hYm x.c z.c
      rw [hpi.cols] at this
      exact this
    rw [hYm', hN, Matrix.smul_mul, Matrix.mul_smul, smul_smul]
    have : (a : ℂ)⁻¹ * (b : ℂ) = ((b / a : ℝ) : ℂ) := by push_cast; rw [div_eq_mul_inv, mul_comm]
    rw [this]
    congr 1
    calc Rᴴ * P * Uᴴ * (U * z.toMat x.r z.c * S) = Rᴴ * P * (Uᴴ * U) * z.toMat x.r z.c * S := by simp only [Matrix.mul_assoc]
      _ = Rᴴ * (P * z.toMat x.r z.c) * S := by rw [hU, Matrix.mul_one]; simp only [Matrix.mul_assoc]
  simp only [complexRegressionFit, hq, bind, Except.bind]
  rw [hB, hBY]

/-- the change of the samples -/
def mixing {T : Nat} (θ : Nat → ℂ) (π : Equiv.Perm (Fin T)) : Matrix (Fin T) (Fin T) ℂ :=
  Matrix.of fun t s => if π t = s then θ t else 0

/-- the change of the nodes -/
def renumbering {n : Nat} (σ : Equiv.Perm (Fin n)) : Matrix (Fin n) (Fin n) ℂ := Matrix.of fun k l => if k = σ l then 1 else 0

theorem mixing_unitary {T : Nat} {θ : Nat → ℂ} (hθ : ∀ t, Complex.normSq (θ t) = 1) (π : Equiv.Perm (Fin T)) :
    (mixing θ π)ᴴ * mixing θ π = 1 := by
  refine mul_eq_one_comm.1 ?_
  ext s t
  rw [mul_apply, one_apply]
  simp only [mixing, conjTranspose_apply, of_apply, ite_mul, zero_mul, Finset.sum_ite_eq, Finset.mem_univ, if_true]
  by_cases h : s = t
  · rw [h, if_pos rfl, if_pos rfl, Complex.star_def, Complex.mul_conj, hθ]; simp
  · rw [if_neg h, if_neg (fun h' => h (π.injective h'.symm)), star_zero, mul_zero]

theorem renumbering_unitary {n : Nat} (σ : Equiv.Perm (Fin n)) : renumbering σ * (renumbering σ)ᴴ = 1 := by
  refine mul_eq_one_comm.1 ?_
  ext k l
  rw [mul_apply, one_apply]
  simp only [renumbering, conjTranspose_apply, of_apply, mul_ite, mul_one, mul_zero, Finset.sum_ite_eq', Finset.mem_univ, if_true]
  by_cases h : k = l
  · simp [h]
  · rw [if_neg h, if_neg (fun h' => h (σ.injective h'.symm)), star_zero]

theorem rewritten_mat {T n : Nat} {x x' : Arr2 ℂ} {a : ℝ} {θ : Nat → ℂ} {π : Equiv.Perm (Fin T)} {σ : Equiv.Perm (Fin n)}
    (h : Spec.Rewritten x x' a θ π σ) : x'.toMat T n = (a : ℂ) • (mixing θ π * x.toMat T n * renumbering σ) := by
  ext t k
  rw [Matrix.smul_apply, mul_apply]
  simp only [renumbering, of_apply, mul_ite, mul_one, mul_zero, Finset.sum_ite_eq', Finset.mem_univ, if_true]
  rw [mul_apply]
  simp only [mixing, of_apply, ite_mul, zero_mul, Finset.sum_ite_eq, Finset.mem_univ, if_true, smul_eq_mul]
  refine (h.entries t k).trans ?_
  rw [mul_assoc]; rfl

theorem renumbered_mat {n : Nat} (Y : Arr2 ℂ) (σ : Equiv.Perm (Fin n)) (i j : Fin n) :
    ((renumbering σ)ᴴ * Y.toMat n n * renumbering σ) i j = Y.get (σ i) (σ j) := by
  rw [mul_apply]
  simp only [renumbering, of_apply, mul_ite, mul_one, mul_zero, Finset.sum_ite_eq', Finset.mem_univ, if_true]
  rw [mul_apply]
  simp only [conjTranspose_apply, of_apply, apply_ite star, star_one, star_zero, ite_mul, one_mul, zero_mul, Finset.sum_ite_eq', Finset.mem_univ, if_true]
  rfl

theorem ols_unitary' {pinv : Arr2 ℂ → Except PyErr (Arr2 ℂ)} (hpinv : Spec.PinvContract pinv) {x z x' z' Y Y' : Arr2 ℂ} {T n m : Nat}
    (hx : x.r = T ∧ x.c = n) (hz : z.c = m)
    (h : complexRegressionFit pinv x z = .ok Y) {a b : ℝ} (ha : 0 < a) {U : Matrix (Fin T) (Fin T) ℂ}
    {R : Matrix (Fin n) (Fin n) ℂ} {S : Matrix (Fin m) (Fin m) ℂ} (hU : Uᴴ * U = 1) (hR : R * Rᴴ = 1)
    (hx' : x'.r = T ∧ x'.c = n) (hz' : z'.r = T ∧ z'.c = m) (hY' : Y'.r = n ∧ Y'.c = m)
    (hX : x'.toMat T n = (a : ℂ) • (U * x.toMat T n * R)) (hZ : z'.toMat T m = (b : ℂ) • (U * z.toMat T m * S))
    (hQ : Y'.toMat n m = ((b / a : ℝ) : ℂ) • (Rᴴ * Y.toMat n m * S)) : complexRegressionFit pinv x' z' = .ok Y' := by
  obtain ⟨rfl, rfl⟩ := hx
  subst hz
  exact ols_unitary hpinv h ha hU hR hx' hz' hY' hX hZ hQ

theorem tls_unitary' {svdVh inv : Arr2 ℂ → Except PyErr (Arr2 ℂ)} (hsvd : Spec.SvdContract svdVh) (hinv : Spec.InvContract inv)
    (hsound : Spec.InvSound inv) {x z xz x' z' Y Y' : Arr2 ℂ} {T n m : Nat} (hx : x.r = T ∧ x.c = n) (hz : z.c = m)
    (h : tlsFit svdVh inv x z = .ok Y) (hxz : hstack x z = .ok xz)
    (hgap : Spec.SingularGap xz n) {a : ℝ} (ha : 0 < a) {U : Matrix (Fin T) (Fin T) ℂ} {R : Matrix (Fin n) (Fin n) ℂ}
    {S : Matrix (Fin m) (Fin m) ℂ} (hU : Uᴴ * U = 1) (hR : R * Rᴴ = 1) (hS : S * Sᴴ = 1)
    (hx' : x'.r = T ∧ x'.c = n) (hz' : z'.r = T ∧ z'.c = m) (hY' : Y'.r = n ∧ Y'.c = m)
    (hX : x'.toMat T n = (a : ℂ) • (U * x.toMat T n * R)) (hZ : z'.toMat T m = (a : ℂ) • (U * z.toMat T m * S))
    (hQ : Y'.toMat n m = Rᴴ * Y.toMat n m * S) : tlsFit svdVh inv x' z' = .ok Y' := by
  obtain ⟨rfl, rfl⟩ := hx
  subst hz
  exact tls_unitary hsvd hinv hsound h hxz hgap ha hU hR hS hx' hz' hY' hX hZ hQ

/-- C144, ordinary least squares: if voltages and currents are given in another order of the samples, with another numbering of the nodes,
other reference angles of the samples and in other units, the estimate is the same up to numbering and units. -/
theorem C144_ols {pinv : Arr2 ℂ → Except PyErr (Arr2 ℂ)} (hpinv : Spec.PinvContract pinv) {x z x' z' Y : Arr2 ℂ} {T n : Nat}
    {a b : ℝ} (ha : 0 < a) {θ : Nat → ℂ} (hθ : ∀ t, Complex.normSq (θ t) = 1) {π : Equiv.Perm (Fin T)} {σ : Equiv.Perm (Fin n)}
    (hx : Spec.Rewritten x x' a θ π σ) (hz : Spec.Rewritten z z' b θ π σ) (h : complexRegressionFit pinv x z = .ok Y) :
    ∃ Y', complexRegressionFit pinv x' z' = .ok Y' ∧ (Y'.r = n ∧ Y'.c = n) ∧
      ∀ i j : Fin n, Y'.get i j = ((b / a : ℝ) : ℂ) * Y.get (σ i) (σ j) := by
  refine ⟨Arr2.ofMat (Matrix.of fun i j : Fin n => ((b / a : ℝ) : ℂ) * Y.get (σ i) (σ j)), ?_, ⟨rfl, rfl⟩, fun i j => ?_⟩
  · refine ols_unitary' hpinv hx.shape hz.shape.2 h ha (mixing_unitary hθ π) (renumbering_unitary σ) hx.shape' hz.shape' ⟨rfl, rfl⟩
      (rewritten_mat hx) (rewritten_mat hz) ?_
    rw [Arr2.toMat_ofMat]
    ext i j
    rw [Matrix.smul_apply, renumbered_mat]
    rfl
  · exact congrFun (congrFun (Arr2.toMat_ofMat (Matrix.of fun i j : Fin n => ((b / a : ℝ) : ℂ) * Y.get (σ i) (σ j))) i) j

/-- C144, total least squares: the same for a common change of units, if there is a gap after the first `n` singular values of the data. -/
theorem C144_tls {svdVh inv : Arr2 ℂ → Except PyErr (Arr2 ℂ)} (hsvd : Spec.SvdContract svdVh) (hinv : Spec.InvContract inv)
    (hsound : Spec.InvSound inv) {x z xz x' z' Y : Arr2 ℂ} {T n : Nat}
    {a : ℝ} (ha : 0 < a) {θ : Nat → ℂ} (hθ : ∀ t, Complex.normSq (θ t) = 1) {π : Equiv.Perm (Fin T)} {σ : Equiv.Perm (Fin n)}
    (hx : Spec.Rewritten x x' a θ π σ) (hz : Spec.Rewritten z z' a θ π σ) (h : tlsFit svdVh inv x z = .ok Y)
    (hxz : hstack x z = .ok xz) (hgap : Spec.SingularGap xz n) :
    ∃ Y', tlsFit svdVh inv x' z' = .ok Y' ∧ (Y'.r = n ∧ Y'.c = n) ∧ ∀ i j : Fin n, Y'.get i j = Y.get (σ i) (σ j) := by
  refine ⟨Arr2.ofMat (Matrix.of fun i j : Fin n => Y.get (σ i) (σ j)), ?_, ⟨rfl, rfl⟩, fun i j => ?_⟩
  · refine tls_unitary' hsvd hinv hsound hx.shape hz.shape.2 h hxz hgap ha (mixing_unitary hθ π) (renumbering_unitary σ)
      (renumbering_unitary σ) hx.shape' hz.shape' ⟨rfl, rfl⟩ (rewritten_mat hx) (rewritten_mat hz) ?_
    rw [Arr2.toMat_ofMat]
    ext i j
    rw [renumbered_mat]
    rfl
  · exact congrFun (congrFun (Arr2.toMat_ofMat (Matrix.of fun i j : Fin n => Y.get (σ i) (σ j))) i) j

/-- the correction of one sample makes up for its misfit -/
theorem sample_bound {x z dx dz y : ℂ} (h : (x + dx) * y = z + dz) :
    Complex.normSq (z - x * y) ≤ (Complex.normSq dx + Complex.normSq dz) * (1 + Complex.normSq y) := by
  have e : z - x * y = dx * y - dz := by linear_combination -h
  rw [e]
  simp only [Complex.normSq_apply, Complex.sub_re, Complex.sub_im, Complex.mul_re, Complex.mul_im]
  nlinarith [sq_nonneg (dx.re + dz.re * y.re + dz.im * y.im), sq_nonneg (dx.im - dz.re * y.im + dz.im * y.re)]

/-- C144, units: the total least squares estimate of voltages 6, -4 and currents 8, 3 is 4/3, but if the unit of the currents is halved the
estimate does not double. -/
theorem C144_units {svdVh inv : Arr2 ℂ → Except PyErr (Arr2 ℂ)} (hsvd : Spec.SvdContract svdVh) (hinv : Spec.InvContract inv)
    (hsound : Spec.InvSound inv) :
    tlsFit svdVh inv (Arr2.ofFn 2 1 fun i _ => if i = 0 then 6 else -4) (Arr2.ofFn 2 1 fun i _ => if i = 0 then 8 else 3) =
        .ok (Arr2.ofFn 1 1 fun _ _ => 4 / 3) ∧
      tlsFit svdVh inv (Arr2.ofFn 2 1 fun i _ => if i = 0 then 6 else -4) (Arr2.ofFn 2 1 fun i _ => if i = 0 then 16 else 6) ≠
        .ok (Arr2.ofFn 1 1 fun _ _ => 8 / 3) := by
  constructor
  · refine tls_return' (T := 2) (n := 1) (m := 1) hsvd hinv ⟨rfl, rfl⟩ ⟨rfl, rfl⟩ ⟨rfl, rfl⟩ (u := 1)
      (Vh := Matrix.of fun (i j : Fin 2) => if i = 0 then (if j = 0 then 3 / 5 else 4 / 5) else (if j = 0 then -4 / 5 else 3 / 5))
      (s := fun k => if k = 0 then 10 else 5) ?_ ?_ ?_ ?_ ?_ ?_ (D := side 2 1 1 (Arr2.ofFn 2 1 fun i _ => if i = 0 then 0 else 4) (Arr2.ofFn 2 1 fun i _ => if i = 0 then 0 else -3)) ?_ ?_
    · rw [conjTranspose_one, Matrix.one_mul]
    · show (Matrix.of fun (i j : Fin 2) => if i = 0 then (if j = 0 then (3 / 5 : ℂ) else 4 / 5) else (if j = 0 then -4 / 5 else 3 / 5)) *
        (Matrix.of fun (i j : Fin 2) => if i = 0 then (if j = 0 then (3 / 5 : ℂ) else 4 / 5) else (if j = 0 then -4 / 5 else 3 / 5))ᴴ = 1
      ext i j
      rw [mul_apply, Fin.sum_univ_two]
      fin_cases i <;> fin_cases j <;> simp [Complex.ext_iff] <;> norm_num
    · intro k
      show 0 ≤ if k = 0 then (10 : ℝ) else 5
      split <;> norm_num
    · intro a b hab
      show (if b = 0 then (10 : ℝ) else 5) ≤ if a = 0 then 10 else 5
      split_ifs <;> first | omega | norm_num
    · have e : ∀ f : Matrix (Fin 2) (Fin 2) ℂ, f 0 0 = 6 → f 0 1 = 8 → f 1 0 = -4 → f 1 1 = 3 → f =
          (1 : Matrix (Fin 2) (Fin 2) ℂ) * (Matrix.of fun (i j : Fin 2) => if (i : ℕ) = j then ((if (i : ℕ) = 0 then (10 : ℝ) else 5 : ℝ) : ℂ) else 0) *
          (Matrix.of fun (i j : Fin 2) => if i = 0 then (if j = 0 then 3 / 5 else 4 / 5) else (if j = 0 then -4 / 5 else 3 / 5)) := by
        intro f h1 h2 h3 h4
        ext i j
        rw [Matrix.one_mul, mul_apply, Fin.sum_univ_two]
        simp only [of_apply]
        fin_cases i <;> fin_cases j <;> simp [h1, h2, h3, h4] <;> norm_num
      refine e (side 2 1 1 _ _) ?_ ?_ ?_ ?_
      · exact (Fin.append_left _ _ (0 : Fin 1)).trans (Arr2.ofFn_get _ (by norm_num) (by norm_num))
      · exact (Fin.append_right _ _ (0 : Fin 1)).trans (Arr2.ofFn_get _ (by norm_num) (by norm_num))
      · exact (Fin.append_left _ _ (0 : Fin 1)).trans ((Arr2.ofFn_get _ (by norm_num) (by norm_num)).trans (by simp))
      · exact (Fin.append_right _ _ (0 : Fin 1)).trans ((Arr2.ofFn_get _ (by norm_num) (by norm_num)).trans (by simp))
    · intro i j
      obtain rfl : i = 0 := Subsingleton.elim _ _
      obtain rfl : j = 0 := Subsingleton.elim _ _
      norm_num [sqValue]
    · have hY : (Arr2.ofFn 1 1 fun _ _ => (4 / 3 : ℂ)).get 0 0 = 4 / 3 := Arr2.ofFn_get _ (by norm_num) (by norm_num)
      ext t j
      obtain rfl : j = 0 := Subsingleton.elim _ _
      rw [Matrix.add_mul, Matrix.add_apply, side_mul, side_mul]
      fin_cases t <;> simp [Arr2.toMat, Arr2.ofFn_get'] <;> norm_num
    · refine (correctionSize_eq (x := Arr2.ofFn 2 1 fun _ _ => 0) (z := Arr2.ofFn 2 1 fun _ _ => 0)).symm.trans ?_
      norm_num [Spec.correctionSize, Finset.sum_range_succ, sqValue, Arr2.ofFn_get', Complex.normSq_apply]
  · intro h
    obtain ⟨-, dx, dz, hc, hmin⟩ := C142 hsvd hsound h
    have hx : ∀ i < 2, (Arr2.ofFn 2 1 fun i _ => if i = 0 then (6 : ℂ) else -4).get i 0 = if i = 0 then 6 else -4 :=
      fun i hi => Arr2.ofFn_get _ hi (by norm_num)
    have hz : ∀ i < 2, (Arr2.ofFn 2 1 fun i _ => if i = 0 then (16 : ℂ) else 6).get i 0 = if i = 0 then 16 else 6 :=
      fun i hi => Arr2.ofFn_get _ hi (by norm_num)
    have hsz : ∀ dx dz : Arr2 ℂ, Spec.correctionSize (Arr2.ofFn 2 1 fun i _ => if i = 0 then (6 : ℂ) else -4)
        (Arr2.ofFn 2 1 fun i _ => if i = 0 then (16 : ℂ) else 6) dx dz = Complex.normSq (dx.get 0 0) + Complex.normSq (dz.get 0 0) +
          (Complex.normSq (dx.get 1 0) + Complex.normSq (dz.get 1 0)) := by
      intro dx dz
      simp [Spec.correctionSize, Finset.sum_range_succ]
    have hY : ∀ q : ℂ, (Arr2.ofFn 1 1 fun _ _ => q).get 0 0 = q := fun q => Arr2.ofFn_get _ (by norm_num) (by norm_num)
    have c1 := hc 1 (by decide) 0 (by decide)
    simp only [Arr2.ofFn_c, Finset.sum_range_one, hx 1 (by norm_num), hz 1 (by norm_num), hY] at c1
    simp only [one_ne_zero, if_false] at c1
    have b1 := sample_bound c1
    have hm := hmin (Arr2.ofFn 2 1 fun i _ => if i = 0 then -3 / 5 else 27 / 5) (Arr2.ofFn 2 1 fun i _ => if i = 0 then 1 / 5 else -9 / 5)
      (Arr2.ofFn 1 1 fun _ _ => 3) (by
        intro t ht j hj
        obtain rfl : j = 0 := by simp only [Arr2.ofFn_c] at hj; omega
        have ht' : t = 0 ∨ t = 1 := by simp only [Arr2.ofFn_r] at ht; omega
        rcases ht' with rfl | rfl <;> simp [Arr2.ofFn_get'] <;> norm_num)
    rw [hsz, hsz] at hm
    have n1 := Complex.normSq_nonneg (dx.get 0 0)
    have n2 := Complex.normSq_nonneg (dz.get 0 0)
    simp [Arr2.ofFn_get', Complex.normSq_apply] at hm b1 n1 n2
    norm_num at hm b1
    linarith

/-- Concrete data meeting the hypotheses: the samples above exchanged, the second turned by 90 degrees, all in half the unit. -/
theorem demo_C144 : ∃ Y', tlsFit exactSvd exactInv (Arr2.ofFn 2 1 fun i _ => if i = 0 then -8 else 12 * Complex.I)
    (Arr2.ofFn 2 1 fun i _ => if i = 0 then 6 else 16 * Complex.I) = .ok Y' ∧ Y'.get 0 0 = 4 / 3 := by
  obtain ⟨xz, hxz, hgap⟩ := demo_C142_unique
  obtain ⟨Y', h1, -, h2⟩ := C144_tls (T := 2) (n := 1) (a := 2) (θ := fun t => if t = 0 then 1 else Complex.I) (π := Equiv.swap 0 1) (σ := 1)
    (x' := Arr2.ofFn 2 1 fun i _ => if i = 0 then -8 else 12 * Complex.I) (z' := Arr2.ofFn 2 1 fun i _ => if i = 0 then 6 else 16 * Complex.I)
    exactSvd_contract exactInv_contract exactInv_sound two_pos (fun t => by split <;> simp)
    ⟨⟨rfl, rfl⟩, ⟨rfl, rfl⟩, fun t k => by
      obtain rfl : k = 0 := Subsingleton.elim _ _
      fin_cases t <;> simp [Arr2.ofFn_get'] <;> ring⟩
    ⟨⟨rfl, rfl⟩, ⟨rfl, rfl⟩, fun t k => by
      obtain rfl : k = 0 := Subsingleton.elim _ _
      fin_cases t <;> simp [Arr2.ofFn_get'] <;> ring⟩
    (C144_units exactSvd_contract exactInv_contract exactInv_sound).1 hxz hgap
  refine ⟨Y', h1, (h2 0 0).trans ?_⟩
  exact Arr2.ofFn_get _ (by norm_num) (by norm_num)

end
end Verif
