/-
C147: the errors-in-variables fit does not depend on the order of the samples and their reference angles, if the weights are changed
accordingly; more generally on unitary combinations of the samples.
-/
import Verif.Props.LassoGram
import Verif.Lemmas.EivTotal
import Verif.Lemmas.Fit

namespace Verif
open Matrix Finset
noncomputable section

namespace Spec

/-- the samples of `X` combined by `U` -/
def mixed (U X : Arr2 ℂ) : Arr2 ℂ := Arr2.ofFn U.r X.c (fun i j => ∑ k ∈ range U.c, U.get i k * X.get k j)

/-- unitary combinations of `T` samples -/
structure UnitaryMix (T : Nat) (U : Arr2 ℂ) : Prop where
  rows : U.r = T
  cols : U.c = T
  unitary : ∀ i < T, ∀ j < T, ∑ k ∈ range T, star (U.get k i) * U.get k j = if i = j then 1 else 0

/-- `W'` weighs the combined samples as `W` weighs the samples -/
structure MixedWeight (T n : Nat) (U : Arr2 ℂ) (W W' : Arr2 ℝ) : Prop where
  weight : IsWeight (2 * (n * T)) W'
  same : ∀ D : Arr2 ℂ, D.r = T → D.c = n → wquad W' (stackReal (mixed U D)) = wquad W (stackReal D)

end Spec

theorem mixed_matmul {U X : Arr2 ℂ} (h : U.c = X.r) : U.matmul X = .ok (Spec.mixed U X) := Arr2.matmul_ok U X h

theorem kron_eye_mulVec_rect (U X : Arr2 ℂ) (n : Nat) (h : U.c = X.r) (hX : X.c = n) :
    ((Arr2.eye n).kron U).mulVec (vectorizeMatrix X) = .ok (vectorizeMatrix (Spec.mixed U X)) := by
  have hr : (Spec.mixed U X).r = U.r := rfl
  have hc : (Spec.mixed U X).c = n := hX
  obtain ⟨w, hw, hwl, hwg⟩ := Arr2.mulVec_ok ((Arr2.eye n).kron U) (vectorizeMatrix X)
    (by rw [vec_length, hX, ← h]; rfl)
  rw [hw]
  congr 1
  refine vec_ext (r := U.r) (c := n) hwl (by rw [vec_length, hr, hc]) ?_
  intro t a ht ha
  have hpos : a * U.r + t < n * U.r := by
    calc a * U.r + t < a * U.r + U.r := by omega
      _ = (a + 1) * U.r := by ring
      _ ≤ n * U.r := Nat.mul_le_mul_right _ ha
  have hv := vec_getD (Spec.mixed U X) (i := t) (j := a) ht (by omega)
  rw [hr] at hv
  rw [hwg _ hpos, hv, Spec.mixed, Arr2.ofFn_get _ ht (by omega)]
  have hkc : ((Arr2.eye n : Arr2 ℂ).kron U).c = n * U.c := rfl
  have hg : ∀ b k, b < n → k < U.c → ((Arr2.eye n : Arr2 ℂ).kron U).get (a * U.r + t) (b * U.c + k) =
      (if a = b then 1 else 0) * U.get t k := by
    intro b k hb hk
    rw [Arr2.kron_get (Arr2.eye n : Arr2 ℂ) U (i := a) (j := b) (i' := t) (j' := k) ha hb ht hk, Arr2.eye, Arr2.ofFn_get _ ha hb]
  rw [hkc, sum_range_mul']
  rw [Finset.sum_eq_single_of_mem a (Finset.mem_range.2 ha)]
  · apply Finset.sum_congr rfl
    intro k hk
    have hk := Finset.mem_range.1 hk
    have hv := vec_getD X (i := k) (j := a) (by omega) (by omega)
    rw [← h] at hv
    rw [hv, hg a k ha hk, if_pos rfl, one_mul]
  · intro b hb hne
    apply Finset.sum_eq_zero
    intro k hk
    rw [hg b k (Finset.mem_range.1 hb) (Finset.mem_range.1 hk), if_neg (fun h => hne h.symm), zero_mul, zero_mul]

/-- every real vector stacks an array -/
theorem exists_stack {T n : Nat} (v : Fin (2 * (n * T)) → ℝ) :
    ∃ D : Arr2 ℂ, D.r = T ∧ D.c = n ∧ toVec (2 * (n * T)) (Spec.stackReal D) = v := by
  obtain ⟨-, D, -, -, h1, h2, h3⟩ := unstack_ok (r := T) (c := n) (ofVec_length v)
  exact ⟨D, h1, h2, by rw [h3, toVec_ofVec]⟩

/-- matrices that act equally on all stacked arrays are equal -/
theorem mat_ext_stack {T n l : Nat} {A B : Matrix (Fin l) (Fin (2 * (n * T))) ℝ}
    (h : ∀ D : Arr2 ℂ, D.r = T → D.c = n → A.mulVec (toVec _ (Spec.stackReal D)) = B.mulVec (toVec _ (Spec.stackReal D))) : A = B := by
  refine Matrix.toLin'.injective (LinearMap.ext fun v => ?_)
  obtain ⟨D, h1, h2, h3⟩ := exists_stack v
  rw [Matrix.toLin'_apply, Matrix.toLin'_apply, ← h3]
  exact h D h1 h2

theorem stack_normSq {T n : Nat} (D : Arr2 ℂ) (hr : D.r = T) (hc : D.c = n) :
    toVec (2 * (n * T)) (Spec.stackReal D) ⬝ᵥ toVec (2 * (n * T)) (Spec.stackReal D) =
      ∑ j ∈ range n, ∑ i ∈ range T, Complex.normSq (D.get i j) := by
  have h0 := makeRealVector_dist (vectorizeMatrix D) (List.replicate (n * T) 0) (n * T) (by rw [vec_length, hr, hc]) (by simp)
  have hz : toVec (2 * (n * T)) (makeRealVector (List.replicate (n * T) (0 : ℂ))) = 0 := by
    have : makeRealVector (List.replicate (n * T) (0 : ℂ)) = List.replicate (2 * (n * T)) 0 := by
      unfold makeRealVector
      rw [List.map_replicate, List.map_replicate, two_mul, List.replicate_add]
      rfl
    rw [this, toVec_replicate_zero]
  rw [hz, sub_zero, stackReal_eq] at h0
  rw [h0, sum_range_mul']
  refine Finset.sum_congr rfl fun j hj => Finset.sum_congr rfl fun i hi => ?_
  have hi := Finset.mem_range.1 hi
  have hj := Finset.mem_range.1 hj
  have e1 := vec_getD D (i := i) (j := j) (by omega) (by omega)
  rw [hr] at e1
  rw [e1]
  congr 1
  simp only [List.getD, List.getElem?_replicate]
  split <;> simp

/-- the orthogonal matrix that combines the samples of stacked arrays -/
theorem exists_rotation {T n : Nat} {U : Arr2 ℂ} (hU : Spec.UnitaryMix T U) :
    ∃ R : Matrix (Fin (2 * (n * T))) (Fin (2 * (n * T))) ℝ, R.transpose * R = 1 ∧
      ∀ D : Arr2 ℂ, D.r = T → D.c = n →
        toVec (2 * (n * T)) (Spec.stackReal (Spec.mixed U D)) = R.mulVec (toVec (2 * (n * T)) (Spec.stackReal D)) := by
  have hact : ∀ D : Arr2 ℂ, D.r = T → D.c = n → toVec (2 * (n * T)) (Spec.stackReal (Spec.mixed U D)) =
      ((makeRealMatrix ((Arr2.eye n).kron U)).toMat (2 * (n * T)) (2 * (n * T))).mulVec (toVec (2 * (n * T)) (Spec.stackReal D)) := by
    intro D h1 h2
    have h3 := C04_mulVec _ _ _ (kron_eye_mulVec_rect U D n (hU.cols.trans h1.symm) h2)
    obtain ⟨k1, -, k3⟩ := Arr2.mulVec_inv h3
    have hcc : (makeRealMatrix ((Arr2.eye n).kron U)).c = 2 * (n * T) := by
      show n * U.c + n * U.c = _; rw [hU.cols]; ring
    rw [hcc] at k3
    rw [← stackReal_eq, ← stackReal_eq]
    exact k3 _
  refine ⟨_, ?_, hact⟩
  set R := (makeRealMatrix ((Arr2.eye n).kron U)).toMat (2 * (n * T)) (2 * (n * T)) with hR
  have hnorm : ∀ v, R.mulVec v ⬝ᵥ R.mulVec v = v ⬝ᵥ v := by
    intro v
    obtain ⟨D, h1, h2, h3⟩ := exists_stack v
    rw [← h3, ← hact D h1 h2, stack_normSq D h1 h2, stack_normSq (Spec.mixed U D) hU.rows h2]
    refine Finset.sum_congr rfl fun j hj => ?_
    have hj := Finset.mem_range.1 hj
    let M : Matrix (Fin T) (Fin T) ℂ := U.toMat T T
    let d : Fin T → ℂ := fun i => D.get i j
    have hM : Mᴴ * M = 1 := by
      ext i k
      rw [mul_apply, one_apply]
      have := hU.unitary i i.2 k k.2
      rw [← Fin.sum_univ_eq_sum_range (fun q => star (U.get q i) * U.get q k)] at this
      simp only [Fin.ext_iff]
      exact this
    have hsum : ∀ e : Fin T → ℂ, ((∑ i, Complex.normSq (e i) : ℝ) : ℂ) = star e ⬝ᵥ e := by
      intro e
      rw [Complex.ofReal_sum]
      refine Finset.sum_congr rfl fun i _ => ?_
      rw [Complex.normSq_eq_conj_mul_self]; rfl
    have hiso : ∑ i, Complex.normSq (M.mulVec d i) = ∑ i, Complex.normSq (d i) := by
      have : ((∑ i, Complex.normSq (M.mulVec d i) : ℝ) : ℂ) = ((∑ i, Complex.normSq (d i) : ℝ) : ℂ) := by
        rw [hsum, hsum, star_mulVec, ← dotProduct_mulVec, mulVec_mulVec, hM, one_mulVec]
      exact_mod_cast this
    rw [← Fin.sum_univ_eq_sum_range (fun i => Complex.normSq ((Spec.mixed U D).get i j)),
      ← Fin.sum_univ_eq_sum_range (fun i => Complex.normSq (D.get i j))]
    refine Eq.trans (Finset.sum_congr rfl fun i _ => ?_) hiso
    congr 1
    rw [Spec.mixed, Arr2.ofFn_get _ (by rw [hU.rows]; exact i.2) (by rw [h2]; exact hj), hU.cols,
      ← Fin.sum_univ_eq_sum_range (fun k => U.get i k * D.get k j)]
    rfl
  have h := (quad_determines (A := (1 : Matrix (Fin (2 * (n * T))) (Fin (2 * (n * T))) ℝ)) (b := 0) (A' := R) (b' := 0) fun v => by
    rw [one_mulVec, zero_sub, zero_sub, neg_dotProduct_neg, neg_dotProduct_neg, hnorm]).1
  rw [h, transpose_one, Matrix.one_mul]

/-- a symmetric matrix is determined by its quadratic form -/
theorem symm_determined {N : Nat} {S S' : Matrix (Fin N) (Fin N) ℝ} (hS : S.transpose = S) (hS' : S'.transpose = S')
    (h : ∀ v, v ⬝ᵥ S'.mulVec v = v ⬝ᵥ S.mulVec v) : S' = S := by
  have hs : ∀ {Q : Matrix (Fin N) (Fin N) ℝ}, Q.transpose = Q → ∀ u v, u ⬝ᵥ Q.mulVec v = v ⬝ᵥ Q.mulVec u := by
    intro Q hQ u v
    rw [dotProduct_mulVec, ← mulVec_transpose, hQ, dotProduct_comm]
  ext i j
  have h1 := h (Pi.single i 1 + Pi.single j 1)
  simp only [mulVec_add, dotProduct_add, add_dotProduct] at h1
  have := hs hS (Pi.single i 1) (Pi.single j 1)
  have := hs hS' (Pi.single i 1) (Pi.single j 1)
  have h2 : Pi.single i 1 ⬝ᵥ S'.mulVec (Pi.single j 1) = Pi.single i 1 ⬝ᵥ S.mulVec (Pi.single j 1) := by
    linarith [h (Pi.single i 1), h (Pi.single j 1)]
  simpa [mulVec_single_one] using h2

theorem weight_rotated {T n : Nat} {U : Arr2 ℂ} {W W' : Arr2 ℝ} (hW : Spec.IsWeight (2 * (n * T)) W) (h : Spec.MixedWeight T n U W W')
    {R : Matrix (Fin (2 * (n * T))) (Fin (2 * (n * T))) ℝ}
    (hR : ∀ D : Arr2 ℂ, D.r = T → D.c = n →
        toVec (2 * (n * T)) (Spec.stackReal (Spec.mixed U D)) = R.mulVec (toVec (2 * (n * T)) (Spec.stackReal D))) :
    R.transpose * W'.toMat _ _ * R = W.toMat _ _ := by
  obtain ⟨hs, -⟩ := IsWeight.mat hW
  obtain ⟨hs', -⟩ := IsWeight.mat h.weight
  refine symm_determined hs ?_ fun v => ?_
  · rw [transpose_mul, transpose_mul, transpose_transpose, hs', Matrix.mul_assoc]
  · obtain ⟨D, h1, h2, h3⟩ := exists_stack v
    have := h.same D h1 h2
    rw [wquad_eq ⟨h.weight.rows, h.weight.cols⟩, wquad_eq ⟨hW.rows, hW.cols⟩, hR D h1 h2, h3] at this
    rw [← this, Matrix.mul_assoc, ← mulVec_mulVec, ← mulVec_mulVec, dotProduct_mulVec, vecMul_transpose]

theorem mixed_mul (U X Y : Arr2 ℂ) (h : U.c = X.r) (h' : X.c = Y.r) :
    (Spec.mixed U X).matmul Y = .ok (Spec.mixed U (Arr2.ofFn X.r Y.c (X.mulGet Y))) := by
  rw [Arr2.matmul_ok _ _ (show (Spec.mixed U X).c = Y.r from h')]
  refine congrArg Except.ok (Arr2.ext' rfl rfl fun i j hi hj => ?_)
  have hi' : i < U.r := hi
  have hj' : j < Y.c := hj
  refine (Arr2.ofFn_get _ hi' hj').trans (Eq.trans ?_ (Arr2.ofFn_get _ hi' hj').symm)
  show ∑ k ∈ range X.c, (Arr2.ofFn U.r X.c fun i j => ∑ k ∈ range U.c, U.get i k * X.get k j).get i k * Y.get k j = _
  have e1 : ∀ k ∈ range X.c, (Arr2.ofFn U.r X.c fun i j => ∑ k ∈ range U.c, U.get i k * X.get k j).get i k * Y.get k j =
      ∑ q ∈ range U.c, U.get i q * X.get q k * Y.get k j := by
    intro k hk
    rw [Arr2.ofFn_get _ hi' (Finset.mem_range.1 hk), Finset.sum_mul]
  rw [Finset.sum_congr rfl e1, Finset.sum_comm]
  refine Finset.sum_congr rfl fun q hq => ?_
  rw [Arr2.ofFn_get _ (by rw [← h]; exact Finset.mem_range.1 hq) hj', Arr2.mulGet, Finset.mul_sum]
  exact Finset.sum_congr rfl fun k _ => by ring

theorem underlineY_commutes {T n : Nat} {U Y : Arr2 ℂ} (hU : Spec.UnitaryMix T U) (hY : Y.r = n ∧ Y.c = n) {u : Arr2 ℝ}
    (hu : underlineY T Y = .ok u) {R : Matrix (Fin (2 * (n * T))) (Fin (2 * (n * T))) ℝ}
    (hR : ∀ D : Arr2 ℂ, D.r = T → D.c = n →
        toVec (2 * (n * T)) (Spec.stackReal (Spec.mixed U D)) = R.mulVec (toVec (2 * (n * T)) (Spec.stackReal D))) :
    u.toMat _ _ * R = R * u.toMat _ _ := by
  obtain ⟨u', hu', hur, huc, hact⟩ := underlineY_spec T n Y hY
  rw [hu] at hu'; cases hu'
  refine mat_ext_stack fun D h1 h2 => ?_
  have hXY := Arr2.matmul_ok D Y.T (by rw [h2]; exact hY.2.symm)
  have a1 := hact D _ ⟨h1, h2⟩ hXY
  have a2 := hact (Spec.mixed U D) _ ⟨hU.rows, h2⟩ (mixed_mul U D Y.T (hU.cols.trans h1.symm) (h2.trans hY.2.symm))
  obtain ⟨-, -, b1⟩ := Arr2.mulVec_inv a1
  obtain ⟨-, -, b2⟩ := Arr2.mulVec_inv a2
  rw [huc] at b1 b2
  rw [← mulVec_mulVec, ← mulVec_mulVec, ← hR D h1 h2, ← b1, ← b2]
  exact hR _ h1 hY.1

theorem regressionMatrix_mixed {T n : Nat} {lap : Bool} {U D dt : Arr2 ℂ} (hU : Spec.UnitaryMix T U) (hdt : dtMatrix ℂ lap n = .ok dt)
    (hD : D.r = T ∧ D.c = n) {A A' : Arr2 ℝ} (hA : regressionMatrix n D dt = .ok A) (hA' : regressionMatrix n (Spec.mixed U D) dt = .ok A')
    {R : Matrix (Fin (2 * (n * T))) (Fin (2 * (n * T))) ℝ}
    (hR : ∀ D : Arr2 ℂ, D.r = T → D.c = n →
        toVec (2 * (n * T)) (Spec.stackReal (Spec.mixed U D)) = R.mulVec (toVec (2 * (n * T)) (Spec.stackReal D))) :
    A'.toMat (2 * (n * T)) (nReal lap n) = R * A.toMat (2 * (n * T)) (nReal lap n) := by
  obtain ⟨B, hB, hBr, hBc, hact⟩ := regressionMatrix_spec lap n hdt D hD.2
  rw [hA] at hB; cases hB
  obtain ⟨B', hB', hBr', hBc', hact'⟩ := regressionMatrix_spec lap n hdt (Spec.mixed U D) hD.2
  rw [hA'] at hB'; cases hB'
  refine Matrix.toLin'.injective (LinearMap.ext fun v => ?_)
  rw [Matrix.toLin'_apply, Matrix.toLin'_apply, ← mulVec_mulVec]
  obtain ⟨Y, -, -, -, -, -, hY⟩ := toMatrix_ok lap n hdt (ofVec_length v)
  have hsq := (toMatrix_admissible lap n hdt hY).1
  have a1 := hact _ Y _ (ofVec_length v) hY (Arr2.matmul_ok D Y (hD.2.trans hsq.1.symm))
  have a2 := hact' _ Y _ (ofVec_length v) hY (mixed_mul U D Y (hU.cols.trans hD.1.symm) (hD.2.trans hsq.1.symm))
  obtain ⟨-, -, b1⟩ := Arr2.mulVec_inv a1
  obtain ⟨-, -, b2⟩ := Arr2.mulVec_inv a2
  rw [hBc, toVec_ofVec] at b1
  rw [hBc', toVec_ofVec] at b2
  rw [← b1, ← b2, stackReal_eq, stackReal_eq]
  exact hR _ hD.1 hsq.2

theorem stack_inj {D D' : Arr2 ℂ} {T n : Nat} (h : D.r = T ∧ D.c = n) (h' : D'.r = T ∧ D'.c = n)
    (he : toVec (2 * (n * T)) (Spec.stackReal D) = toVec (2 * (n * T)) (Spec.stackReal D')) : D = D' := by
  refine vec_inj (h.1.trans h'.1.symm) (h.2.trans h'.2.symm) (makeRealVector_inj ?_)
  rw [stackReal_eq, stackReal_eq]
  exact toVec_inj (by rw [stackReal_length, h.1, h.2]) (by rw [stackReal_length, h'.1, h'.2]) he

set_option maxHeartbeats 1000000 in
/-- a weighted step on combined samples with accordingly changed weights is the step on the samples -/
theorem weightedStep_mixed {solve : Solver} (hex : Spec.Exact solve) (htot : Spec.Total solve) (cfg : RegConfig) {lap : Bool} {T n : Nat}
    {U x z dt : Arr2 ℂ} (hU : Spec.UnitaryMix T U) (hx : x.r = T ∧ x.c = n) (hz : z.r = T ∧ z.c = n)
    (hdt : dtMatrix ℂ lap n = .ok dt) {A A' : Arr2 ℝ} (hA : regressionMatrix n x dt = .ok A)
    (hA' : regressionMatrix n (Spec.mixed U x) dt = .ok A') {xW xW' zW zW' : Arr2 ℝ} (hxW : Spec.PosDef (2 * (n * T)) xW)
    (hxW' : Spec.MixedWeight T n U xW xW') (hzW : Spec.IsWeight (2 * (n * T)) zW) (hzW' : Spec.MixedWeight T n U zW zW')
    (s : FitState) (hs : Spec.IsSquare n s.yMat) :
    eivWeightedStep solve cfg (Spec.mixed U x) dt A' (Spec.stackReal (Spec.mixed U x)) (Spec.stackReal (Spec.mixed U z)) xW' zW' s =
      eivWeightedStep solve cfg x dt A (Spec.stackReal x) (Spec.stackReal z) xW zW s := by
  obtain ⟨R, hRR, hR⟩ := exists_rotation (n := n) hU
  have hRR' : R * R.transpose = 1 := mul_eq_one_comm.1 hRR
  have hWx := weight_rotated hxW.1 hxW' hR
  have hWz := weight_rotated hzW hzW' hR
  obtain ⟨zsym, zpsd⟩ := IsWeight.mat hzW
  obtain ⟨xsym, xpsd⟩ := IsWeight.mat hxW.1
  obtain ⟨u, hu, hur, huc, -⟩ := underlineY_spec T n s.yMat hs
  have hcom := underlineY_commutes hU hs hu hR
  have hmx : (Spec.mixed U x).r = T ∧ (Spec.mixed U x).c = n := ⟨hU.rows, hx.2⟩
  have hmz : (Spec.mixed U z).r = T ∧ (Spec.mixed U z).c = n := ⟨hU.rows, hz.2⟩
  have la : ∀ {D : Arr2 ℂ}, D.r = T ∧ D.c = n → (Spec.stackReal D).length = 2 * (n * T) := by
    intro D h; rw [stackReal_length, h.1, h.2]
  obtain ⟨sys, rhs, hc, hss, hrl, hsm, hrv⟩ := eivCorrection_system solve T hu ⟨hur, huc⟩ ⟨hxW.1.rows, hxW.1.cols⟩
    ⟨hzW.rows, hzW.cols⟩ (la hx) (la hz)
  obtain ⟨sys', rhs', hc', hss', hrl', hsm', hrv'⟩ := eivCorrection_system solve T hu ⟨hur, huc⟩ ⟨hxW'.weight.rows, hxW'.weight.cols⟩
    ⟨hzW'.weight.rows, hzW'.weight.cols⟩ (la hmx) (la hmz)
  set Wx := xW.toMat (2 * (n * T)) (2 * (n * T)) with hWxd
  set Wx' := xW'.toMat (2 * (n * T)) (2 * (n * T)) with hWxd'
  set Wz := zW.toMat (2 * (n * T)) (2 * (n * T)) with hWzd
  set Wz' := zW'.toMat (2 * (n * T)) (2 * (n * T)) with hWzd'
  set Q := u.toMat (2 * (n * T)) (2 * (n * T)) with hQ
  have hcomT : R.transpose * Q.transpose = Q.transpose * R.transpose := by rw [← transpose_mul, hcom, transpose_mul]
  have hSS : R.transpose * sys'.toMat (2 * (n * T)) (2 * (n * T)) * R = sys.toMat (2 * (n * T)) (2 * (n * T)) := by
    rw [hsm', hsm, Matrix.mul_add, Matrix.add_mul, hWx]
    congr 1
    calc R.transpose * (Q.transpose * Wz' * Q) * R = (R.transpose * Q.transpose) * Wz' * (Q * R) := by simp only [Matrix.mul_assoc]
      _ = Q.transpose * (R.transpose * Wz' * R) * Q := by rw [hcomT, hcom]; simp only [Matrix.mul_assoc]
      _ = _ := by rw [hWz]
  have hrr : R.transpose.mulVec (toVec (2 * (n * T)) rhs') = toVec (2 * (n * T)) rhs := by
    have e0 : ∀ a b : Fin (2 * (n * T)) → ℝ, Q.mulVec (R.mulVec a) - R.mulVec b = R.mulVec (Q.mulVec a - b) := by
      intro a b
      rw [mulVec_mulVec, hcom, ← mulVec_mulVec, mulVec_sub]
    rw [hrv, hrv', hR x hx.1 hx.2, hR z hz.1 hz.2, e0, mulVec_mulVec, mulVec_mulVec]
    refine congrArg (fun B : Matrix (Fin (2 * (n * T))) (Fin (2 * (n * T))) ℝ => B.mulVec _) ?_
    calc R.transpose * (Q.transpose * Wz') * R = (R.transpose * Q.transpose) * Wz' * R := by simp only [Matrix.mul_assoc]
      _ = Q.transpose * (R.transpose * Wz' * R) := by rw [hcomT]; simp only [Matrix.mul_assoc]
      _ = _ := by rw [hWz]
  have hpos : ∀ v : Fin (2 * (n * T)) → ℝ, v ⬝ᵥ (sys.toMat (2 * (n * T)) (2 * (n * T))).mulVec v = 0 → v = 0 := by
    intro v hv
    rw [hsm, wgram_quad] at hv
    have h1 := zpsd (Q.mulVec v)
    have h2 := xpsd v
    have h3 := hxW.2 (ofVec v) (ofVec_length v) (by
      rw [wquad_eq ⟨hxW.1.rows, hxW.1.cols⟩, toVec_ofVec]; linarith)
    have h4 := congrArg (toVec (2 * (n * T))) h3
    rwa [toVec_ofVec, toVec_replicate_zero] at h4
  have hpos' : ∀ v : Fin (2 * (n * T)) → ℝ, v ⬝ᵥ (sys'.toMat (2 * (n * T)) (2 * (n * T))).mulVec v = 0 → v = 0 := by
    intro v hv
    have h1 : R.transpose.mulVec v = 0 := by
      refine hpos _ ?_
      rw [← hSS, ← mulVec_mulVec, mulVec_mulVec _ R, hRR', one_mulVec, ← mulVec_mulVec, dotProduct_mulVec, vecMul_transpose,
        mulVec_mulVec, hRR', one_mulVec]
      exact hv
    have h2 := congrArg R.mulVec h1
    rwa [mulVec_mulVec, hRR', one_mulVec, mulVec_zero] at h2
  obtain ⟨da, hda⟩ := total_of_pos htot hss hrl hpos
  obtain ⟨da', hda'⟩ := total_of_pos htot hss' hrl' hpos'
  rw [hda] at hc
  rw [hda'] at hc'
  obtain ⟨e1, -, e3⟩ := Arr2.mulVec_inv (hex _ _ _ hda)
  obtain ⟨e1', -, e3'⟩ := Arr2.mulVec_inv (hex _ _ _ hda')
  rw [hss.2] at e1 e3
  rw [hss'.2] at e1' e3'
  have e3 := e3 (2 * (n * T))
  have e3' := e3' (2 * (n * T))
  have hrot : toVec (2 * (n * T)) da' = R.mulVec (toVec (2 * (n * T)) da) := by
    have h1 : R.transpose.mulVec (toVec (2 * (n * T)) da') - toVec (2 * (n * T)) da = 0 := by
      refine hpos _ ?_
      have : (sys.toMat (2 * (n * T)) (2 * (n * T))).mulVec (R.transpose.mulVec (toVec (2 * (n * T)) da') - toVec (2 * (n * T)) da) = 0 := by
        rw [mulVec_sub, ← e3, ← hSS, ← mulVec_mulVec, mulVec_mulVec _ R, hRR', one_mulVec, ← mulVec_mulVec, ← e3', hrr, sub_self]
      rw [this, dotProduct_zero]
    rw [← sub_eq_zero.1 h1, mulVec_mulVec, hRR', one_mulVec]
  obtain ⟨c, D, hcc, hD, hDr, hDc, hDs⟩ := unstack_ok (r := T) (c := n) e1.symm
  obtain ⟨c', D', hcc', hD', hDr', hDc', hDs'⟩ := unstack_ok (r := T) (c := n) e1'.symm
  obtain rfl : D' = Spec.mixed U D := stack_inj ⟨hDr', hDc'⟩ ⟨hU.rows, hDc⟩ (by rw [hDs', hrot, hR D hDr hDc, hDs])
  obtain ⟨A0, hA0, hAr, hAc, -⟩ := regressionMatrix_spec lap n hdt x hx.2
  rw [hA] at hA0; cases hA0
  obtain ⟨A0', hA0', hAr', hAc', -⟩ := regressionMatrix_spec lap n hdt (Spec.mixed U x) hmx.2
  rw [hA'] at hA0'; cases hA0'
  obtain ⟨dA, hdA, hdAr, hdAc, -⟩ := regressionMatrix_spec lap n hdt D hDc
  obtain ⟨dA', hdA', hdAr', hdAc', -⟩ := regressionMatrix_spec lap n hdt (Spec.mixed U D) hDc'
  have mA := regressionMatrix_mixed hU hdt hx hA hA' hR
  have mdA := regressionMatrix_mixed hU hdt ⟨hDr, hDc⟩ hdA hdA' hR
  rw [hx.1] at hAr
  rw [hmx.1] at hAr'
  rw [hDr] at hdAr
  rw [hDr'] at hdAr'
  set N := nReal lap n with hN
  obtain ⟨am, ham, amr, amc, amm⟩ := Arr2.zipWith_mat (fun p q : ℝ => p - q) (A := A) (B := dA) (m := (2 * (n * T))) (n := N) ⟨hAr, hAc⟩ ⟨hdAr, hdAc⟩
  obtain ⟨am', ham', amr', amc', amm'⟩ := Arr2.zipWith_mat (fun p q : ℝ => p - q) (A := A') (B := dA') (m := (2 * (n * T))) (n := N) ⟨hAr', hAc'⟩
    ⟨hdAr', hdAc'⟩
  have mam : am'.toMat (2 * (n * T)) N = R * am.toMat (2 * (n * T)) N := by
    have a1 : am.toMat (2 * (n * T)) N = A.toMat (2 * (n * T)) N - dA.toMat (2 * (n * T)) N := by rw [amm]; rfl
    have a2 : am'.toMat (2 * (n * T)) N = A'.toMat (2 * (n * T)) N - dA'.toMat (2 * (n * T)) N := by rw [amm']; rfl
    rw [a1, a2, mA, mdA, Matrix.mul_sub]
  obtain ⟨amw, hamw, amwr, amwc, amwm⟩ := Arr2.matmul_mat (A := am.T) (B := zW) (m := N) (k := (2 * (n * T))) (n := (2 * (n * T))) ⟨amc, amr⟩ ⟨hzW.rows, hzW.cols⟩
  obtain ⟨amw', hamw', amwr', amwc', amwm'⟩ := Arr2.matmul_mat (A := am'.T) (B := zW') (m := N) (k := (2 * (n * T))) (n := (2 * (n * T))) ⟨amc', amr'⟩
    ⟨hzW'.weight.rows, hzW'.weight.cols⟩
  rw [Arr2.toMat_T] at amwm amwm'
  have mamw : amw'.toMat N (2 * (n * T)) * R = amw.toMat N (2 * (n * T)) := by
    rw [amwm, amwm', mam, transpose_mul]
    calc (am.toMat (2 * (n * T)) N).transpose * R.transpose * Wz' * R = (am.toMat (2 * (n * T)) N).transpose * (R.transpose * Wz' * R) := by
          simp only [Matrix.mul_assoc]
      _ = _ := by rw [hWz]
  obtain ⟨q, hq, qr, qc, qm⟩ := Arr2.matmul_mat (A := amw) (B := am) (m := N) (k := (2 * (n * T))) (n := N) ⟨amwr, amwc⟩ ⟨amr, amc⟩
  obtain ⟨q', hq', qr', qc', qm'⟩ := Arr2.matmul_mat (A := amw') (B := am') (m := N) (k := (2 * (n * T))) (n := N) ⟨amwr', amwc'⟩ ⟨amr', amc'⟩
  obtain rfl : q' = q := Arr2.toMat_inj ⟨qr', qc'⟩ ⟨qr, qc⟩ (by rw [qm, qm', mam, ← Matrix.mul_assoc, mamw])
  obtain ⟨l, hlv, ll, lm⟩ := Arr2.mulVec_mat (A := amw) (v := Spec.stackReal z) ⟨amwr, amwc⟩ (la hz)
  obtain ⟨l', hlv', ll', lm'⟩ := Arr2.mulVec_mat (A := amw') (v := Spec.stackReal (Spec.mixed U z)) ⟨amwr', amwc'⟩ (la hmz)
  obtain rfl : l' = l := toVec_inj ll' ll (by rw [lm, lm', hR z hz.1 hz.2, mulVec_mulVec, mamw])
  have hform : ∀ {W W' : Arr2 ℝ}, W.r = (2 * (n * T)) ∧ W.c = (2 * (n * T)) → W'.r = (2 * (n * T)) ∧ W'.c = (2 * (n * T)) → R.transpose * W'.toMat (2 * (n * T)) (2 * (n * T)) * R = W.toMat (2 * (n * T)) (2 * (n * T)) →
      ∀ {v v' : List ℝ}, v.length = (2 * (n * T)) → v'.length = (2 * (n * T)) → toVec (2 * (n * T)) v' = R.mulVec (toVec (2 * (n * T)) v) →
      ∃ w w' r, W.mulVec v = .ok w ∧ W'.mulVec v' = .ok w' ∧ dotList v w = .ok r ∧ dotList v' w' = .ok r := by
    intro W W' hW hW' hrot v v' hv hv' hvv
    obtain ⟨w, hw, wl, wm⟩ := Arr2.mulVec_mat (A := W) (v := v) hW hv
    obtain ⟨w', hw', wl', wm'⟩ := Arr2.mulVec_mat (A := W') (v := v') hW' hv'
    refine ⟨w, w', _, hw, hw', dotList_ok hv wl, ?_⟩
    rw [dotList_ok hv' wl', wm, wm', hvv, ← hrot, Matrix.mul_assoc, ← mulVec_mulVec, ← mulVec_mulVec, dotProduct_mulVec _ R.transpose,
      vecMul_transpose]
  obtain ⟨wda, wda', c2, hwda, hwda', hc2, hc2'⟩ := hform ⟨hxW.1.rows, hxW.1.cols⟩ ⟨hxW'.weight.rows, hxW'.weight.cols⟩ hWx e1.symm e1'.symm hrot
  simp only [eivWeightedStep, hx.1, hx.2, hmx.1, hmx.2, hc, hc', hcc, hcc', hD, hD', hdA, hdA', ham, ham', hamw, hamw', hq, hq', hlv, hlv',
    hwda, hwda', hc2, hc2', bind, Except.bind, pure, Except.pure]
  cases addScaled cfg.lam q' s.M with
  | error e => rfl
  | ok sy =>
    dsimp only
    cases broadcast1 (fun p q => p + cfg.lam * q) l' s.mu with
    | error e => rfl
    | ok rh =>
      dsimp only
      cases solve sy rh with
      | error e => rfl
      | ok y =>
        dsimp only
        cases toMatrix n dt y with
        | error e => rfl
        | ok ym =>
          dsimp only
          cases cfg.prior.logDistribution y with
          | error e => rfl
          | ok q =>
            dsimp only
            by_cases hy : y.length = N
            · obtain ⟨ay, hay, ayl, aym⟩ := Arr2.mulVec_mat (A := am) (v := y) ⟨amr, amc⟩ hy
              obtain ⟨ay', hay', ayl', aym'⟩ := Arr2.mulVec_mat (A := am') (v := y) ⟨amr', amc'⟩ hy
              obtain ⟨db, hdb, dbl, dbm⟩ := broadcast1_mat (fun p q : ℝ => p - q) (u := Spec.stackReal z) (v := ay) (la hz) ayl
              obtain ⟨db', hdb', dbl', dbm'⟩ := broadcast1_mat (fun p q : ℝ => p - q) (u := Spec.stackReal (Spec.mixed U z)) (v := ay')
                (la hmz) ayl'
              have hdd : toVec (2 * (n * T)) db' = R.mulVec (toVec (2 * (n * T)) db) := by
                have d1 : toVec (2 * (n * T)) db = toVec (2 * (n * T)) (Spec.stackReal z) - toVec (2 * (n * T)) ay := by rw [dbm]; rfl
                have d2 : toVec (2 * (n * T)) db' = toVec (2 * (n * T)) (Spec.stackReal (Spec.mixed U z)) - toVec (2 * (n * T)) ay' := by rw [dbm']; rfl
                rw [d1, d2, hR z hz.1 hz.2, aym, aym', mam, ← mulVec_mulVec, mulVec_sub]
              obtain ⟨wdb, wdb', c1, hwdb, hwdb', hc1, hc1'⟩ := hform ⟨hzW.rows, hzW.cols⟩ ⟨hzW'.weight.rows, hzW'.weight.cols⟩ hWz dbl dbl' hdd
              simp only [hay, hay', hdb, hdb', hwdb, hwdb', hc1, hc1']
            · have e1 : am.mulVec y = .error .valueError := by
                unfold Arr2.mulVec; rw [if_neg (by rw [amc]; exact fun h => hy h.symm)]
              have e2 : am'.mulVec y = .error .valueError := by
                unfold Arr2.mulVec; rw [if_neg (by rw [amc']; exact fun h => hy h.symm)]
              simp only [e1, e2]

/-- loops whose steps agree on the states that occur -/
theorem fitLoop_congr_inv (cfg : RegConfig) {step step' : FitState → Except PyErr (FitState × ℝ)} (P : FitState → Prop)
    (h : ∀ s, P s → step' s = step s) (hP : ∀ s s' t, P s → step s = .ok (s', t) → P s') :
    ∀ k it s log, P s → fitLoop cfg step' k it s log = fitLoop cfg step k it s log := by
  intro k
  induction k with
  | zero => intro it s log _; rfl
  | succ k ih =>
    intro it s log hs
    unfold fitLoop
    rw [h s hs]
    cases hst : step s with
    | error e => rfl
    | ok r =>
      obtain ⟨s', t⟩ := r
      have hs' := hP s s' t hs hst
      simp only [ih _ _ _ hs']

/-- C147 for weights of both kinds: the fit of combined samples with accordingly changed weights is the fit of the samples. -/
theorem C147_body {solve : Solver} (hex : Spec.Exact solve) (htot : Spec.Total solve) (inv : Arr2 ℂ → Except PyErr (Arr2 ℂ))
    (cfg : RegConfig) {lap : Bool} (hdt : cfg.dt = dtMatrix ℂ lap) (obj : RegObj) {T n : Nat} {U x z yInit : Arr2 ℂ}
    (hU : Spec.UnitaryMix T U) (hx : x.r = T ∧ x.c = n) (hz : z.r = T ∧ z.c = n) (hy : Spec.IsSquare n yInit)
    {xW xW' zW zW' : Arr2 ℝ} (hxW : Spec.PosDef (2 * (n * T)) xW)
    (hxW' : Spec.MixedWeight T n U xW xW') (hzW : Spec.IsWeight (2 * (n * T)) zW) (hzW' : Spec.MixedWeight T n U zW zW') :
    eivBody solve inv cfg obj (Spec.mixed U x) (Spec.mixed U z) (some xW') (some zW') yInit =
      eivBody solve inv cfg obj x z (some xW) (some zW) yInit := by
  obtain ⟨dt, hdt', -⟩ := dt_closed (α := ℂ) lap n
  obtain ⟨A, hA, -⟩ := regressionMatrix_spec lap n hdt' x hx.2
  obtain ⟨A', hA', -⟩ := regressionMatrix_spec lap n hdt' (Spec.mixed U x) hx.2
  have hmx : (Spec.mixed U x).c = n := hx.2
  unfold eivBody
  simp only [hdt, hmx, hx.2, hdt', hA, hA', stackReal_eq, bind, Except.bind, pure, Except.pure]
  cases cfg.e n with
  | error e => rfl
  | ok e =>
    dsimp only
    cases toParams e yInit with
    | error e => rfl
    | ok y =>
      dsimp only
      cases cfg.prior.logDistribution y with
      | error e => rfl
      | ok q =>
        dsimp only
        rw [fitLoop_congr_inv cfg (fun s => Spec.IsSquare n s.yMat)
          (weightedStep_mixed hex htot cfg hU hx hz hdt' hA hA' hxW hxW' hzW hzW') ?_ _ _ _ _ hy]
        intro s s' t _ hst
        obtain ⟨y', hy'⟩ := eivWeightedStep_toMatrix hst
        rw [hx.2] at hy'
        exact (toMatrix_admissible lap n hdt' hy').1

/-- C147: the errors-in-variables fit of combined samples with accordingly changed voltage weights is the fit of the samples. The current
weights do not matter, since the code replaces them by the voltage weights. -/
theorem C147_fit {solve : Solver} (hex : Spec.Exact solve) (htot : Spec.Total solve) (inv : Arr2 ℂ → Except PyErr (Arr2 ℂ))
    (cfg : RegConfig) {lap : Bool} (hdt : cfg.dt = dtMatrix ℂ lap) (obj : RegObj) {T n : Nat} {U x z x' z' yInit : Arr2 ℂ}
    (hU : Spec.UnitaryMix T U) (hx : x.r = T ∧ x.c = n) (hz : z.r = T ∧ z.c = n) (hx' : U.matmul x = .ok x') (hz' : U.matmul z = .ok z')
    (hy : Spec.IsSquare n yInit) {xW xW' zW zW' : Arr2 ℝ} (hxW : Spec.PosDef (2 * (n * T)) xW) (hxW' : Spec.MixedWeight T n U xW xW') :
    eivFit solve inv cfg obj x' z' (some xW') (some zW') yInit = eivFit solve inv cfg obj x z (some xW) (some zW) yInit := by
  rw [mixed_matmul (hU.cols.trans hx.1.symm)] at hx'
  rw [mixed_matmul (hU.cols.trans hz.1.symm)] at hz'
  rw [← Except.ok.inj hx', ← Except.ok.inj hz']
  exact C147_body hex htot inv cfg hdt obj hU hx hz hy hxW hxW' hxW.1 hxW'

end
end Verif
