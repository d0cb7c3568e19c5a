/-
C29, C30: ordinary and total least squares (`ComplexRegression.fit`, `TotalLeastSquares.fit`).
-/
import Verif.Lemmas.ComplexMat
import Verif.Lemmas.RegObjective

namespace Verif
open Matrix Finset
open scoped ComplexOrder
noncomputable section

theorem misfit_mat {x z Y : Arr2 ℂ} : Spec.misfit x z Y =
    ∑ j : Fin z.c, ∑ i : Fin z.r, Complex.normSq ((z.toMat z.r z.c - x.toMat z.r x.c * Y.toMat x.c z.c) i j) := by
  unfold Spec.misfit
  rw [← Fin.sum_univ_eq_sum_range
    (fun j => ∑ i ∈ range z.r, Complex.normSq (z.get i j - ∑ k ∈ range x.c, x.get i k * Y.get k j)) z.c]
  apply Finset.sum_congr rfl
  intro j _
  rw [← Fin.sum_univ_eq_sum_range
    (fun i => Complex.normSq (z.get i j - ∑ k ∈ range x.c, x.get i k * Y.get k j)) z.r]
  apply Finset.sum_congr rfl
  intro i _
  rw [Matrix.sub_apply, mul_apply, ← Fin.sum_univ_eq_sum_range (fun k => x.get i k * Y.get k j) x.c]
  rfl

/-! ### C29 ordinary least squares -/

/-- C29, optimality: the fitted matrix minimises the squared misfit over all matrices -/
theorem C29_minimiser (pinv : Arr2 ℂ → Except PyErr (Arr2 ℂ)) (x z p : Arr2 ℂ) (hz : z.r = x.r) (hp : pinv x = .ok p)
    (hpi : Spec.PseudoInverse x p) :
    ∃ Y, complexRegressionFit pinv x z = .ok Y ∧ Y.r = x.c ∧ Y.c = z.c ∧
      ∀ Y', Spec.misfit x z Y ≤ Spec.misfit x z Y' := by
  obtain ⟨Y, hY, hYr, hYc, hYm⟩ := Arr2.matmul_mat (A := p) (B := z) (m := x.c) (k := x.r) (n := z.c) ⟨hpi.rows, hpi.cols⟩
    ⟨hz, rfl⟩
  refine ⟨Y, ?_, hYr, hYc, fun Y' => ?_⟩
  · simp only [complexRegressionFit, hp, bind, Except.bind]; exact hY
  · rw [misfit_mat, misfit_mat, hz]
    set X := x.toMat x.r x.c with hX
    set P := p.toMat x.c x.r with hP
    set Z := z.toMat x.r z.c with hZ
    set Q := Y'.toMat x.c z.c with hQ
    have horth : (X * (P * Z - Q))ᴴ * (Z - X * (P * Z)) = 0 := by
      have e : Xᴴ * (Z - X * (P * Z)) = 0 := by
        have h1 : Xᴴ * (1 - X * P) = 0 := by
          have h2 : ((1 - X * P) * X)ᴴ = 0 := by
            rw [Matrix.sub_mul, Matrix.one_mul, hpi.xpx, sub_self, conjTranspose_zero]
          rw [conjTranspose_mul, conjTranspose_sub, conjTranspose_one, hpi.herm_xp] at h2
          exact h2
        have h3 : Z - X * (P * Z) = (1 - X * P) * Z := by
          rw [Matrix.sub_mul, Matrix.one_mul, Matrix.mul_assoc]
        rw [h3, ← Matrix.mul_assoc, h1, Matrix.zero_mul]
      rw [conjTranspose_mul, Matrix.mul_assoc, e, Matrix.mul_zero]
    have := frob_pythagoras _ _ horth
    have e2 : Z - X * (P * Z) + X * (P * Z - Q) = Z - X * Q := by
      rw [Matrix.mul_sub]; abel
    rw [e2] at this
    rw [hYm, this]
    exact le_add_of_nonneg_right (Finset.sum_nonneg fun j _ => Finset.sum_nonneg fun i _ => Complex.normSq_nonneg _)

/-- C29, recovery: noise-free data with linearly independent columns give the true matrix -/
theorem C29_recovery (pinv : Arr2 ℂ → Except PyErr (Arr2 ℂ)) (x z p Y : Arr2 ℂ) (hp : pinv x = .ok p)
    (hpi : Spec.PseudoInverse x p) (hx : Spec.FullColumnRank x) (hz : x.matmul Y = .ok z) :
    complexRegressionFit pinv x z = .ok Y := by
  obtain ⟨hxY, hzr, hzc, hzm⟩ := Arr2.matmul_inv hz
  obtain ⟨Y', hY, hYr, hYc, hYm⟩ := Arr2.matmul_mat (A := p) (B := z) (m := x.c) (k := x.r) (n := z.c)
    ⟨hpi.rows, hpi.cols⟩ ⟨hzr, rfl⟩
  have : Y' = Y := by
    refine Arr2.toMat_inj (r := x.c) (c := z.c) ⟨hYr, hYc⟩ ⟨hxY.symm, hzc.symm⟩ ?_
    rw [hYm, hzm]
    set X := x.toMat x.r x.c
    set P := p.toMat x.c x.r
    set Q := Y.toMat x.c z.c
    have h0 : X * (P * (X * Q) - Q) = 0 := by
      rw [Matrix.mul_sub, ← Matrix.mul_assoc, ← Matrix.mul_assoc, hpi.xpx, sub_self]
    rw [← sub_eq_zero]
    ext i j
    have := hx (fun k => (P * (X * Q) - Q) k j) (by
      funext t
      have := congrFun (congrFun h0 t) j
      rw [mul_apply] at this
      exact this)
    exact congrFun this i
  simp only [complexRegressionFit, hp, bind, Except.bind]
  rw [hY, this]

/-- every matrix with linearly independent columns has a pseudo-inverse: the hypotheses of C29 can be met -/
theorem pseudoInverse_exists (x : Arr2 ℂ) (hx : Spec.FullColumnRank x) : ∃ p, Spec.PseudoInverse x p := by
  set X := x.toMat x.r x.c with hX
  have hinv : (Xᴴ * X) * (Xᴴ * X)⁻¹ = 1 := by
    apply exists_inverse
    intro v hv
    apply hx
    have h1 : star (X.mulVec v) ⬝ᵥ X.mulVec v = 0 := by
      rw [star_mulVec, dotProduct_mulVec, vecMul_vecMul, ← dotProduct_mulVec, hv, dotProduct_zero]
    exact dotProduct_star_self_eq_zero.1 h1
  have hinv' : (Xᴴ * X)⁻¹ * (Xᴴ * X) = 1 := mul_eq_one_comm.1 hinv
  have hH : ((Xᴴ * X)⁻¹)ᴴ = (Xᴴ * X)⁻¹ := by
    rw [conjTranspose_nonsing_inv, conjTranspose_mul, conjTranspose_conjTranspose]
  have hpx : (Xᴴ * X)⁻¹ * Xᴴ * X = 1 := by rw [Matrix.mul_assoc, hinv']
  refine ⟨Arr2.ofMat ((Xᴴ * X)⁻¹ * Xᴴ), rfl, rfl, ?_, ?_, ?_, ?_⟩
  · rw [Arr2.toMat_ofMat, ← hX, Matrix.mul_assoc, hpx, Matrix.mul_one]
  · rw [Arr2.toMat_ofMat, ← hX, hpx, Matrix.one_mul]
  · rw [Arr2.toMat_ofMat, ← hX, conjTranspose_mul, conjTranspose_mul, conjTranspose_conjTranspose, hH, Matrix.mul_assoc]
  · rw [Arr2.toMat_ofMat, ← hX, hpx, conjTranspose_one]

/-! ### C30 total least squares -/

theorem slice2_blocks (v : Arr2 ℂ) (n m : Nat) (hr : v.r = n + m) (hc : v.c = n + m) :
    ((slice2 v 0 (min n v.r) (min n v.c) v.c).r = n ∧ (slice2 v 0 (min n v.r) (min n v.c) v.c).c = m) ∧
    ((slice2 v (min n v.r) v.r (min n v.c) v.c).r = m ∧ (slice2 v (min n v.r) v.r (min n v.c) v.c).c = m) ∧
    (∀ i j, i < n → j < m → (slice2 v 0 (min n v.r) (min n v.c) v.c).get i j = v.get i (n + j)) ∧
    (∀ i j, i < m → j < m → (slice2 v (min n v.r) v.r (min n v.c) v.c).get i j = v.get (n + i) (n + j)) := by
  have e : min n (n + m) = n := Nat.min_eq_left (Nat.le_add_right _ _)
  rw [hr, hc, e]
  refine ⟨⟨Nat.sub_zero _, Nat.add_sub_cancel_left _ _⟩, ⟨Nat.add_sub_cancel_left _ _, Nat.add_sub_cancel_left _ _⟩, ?_, ?_⟩
  · intro i j hi hj
    unfold slice2
    rw [Arr2.ofFn_get _ (by omega) (by omega), Nat.zero_add]
  · intro i j hi hj
    unfold slice2
    rw [Arr2.ofFn_get _ (by omega) (by omega)]

/-- C30: noise-free data with linearly independent columns give the true matrix, for every singular value decomposition,
and the inversion is only applied to an invertible matrix (`InvContract` says nothing about others). -/
theorem C30_recovery (svdVh inv : Arr2 ℂ → Except PyErr (Arr2 ℂ)) (hinv : Spec.InvContract inv) (x z Y xz vh : Arr2 ℂ)
    (hx : Spec.FullColumnRank x) (hz : x.matmul Y = .ok z) (hxz : hstack x z = .ok xz) (hs : svdVh xz = .ok vh)
    (hsvd : Spec.IsSvdVh x.r (x.c + z.c) xz vh) : tlsFit svdVh inv x z = .ok Y := by
  obtain ⟨hxY, hzr, hzc, hzm⟩ := Arr2.matmul_inv hz
  obtain ⟨xz', hxz', hr, hc, hl, hrt⟩ := hstack_ok (x := x) (z := z) hzr.symm
  rw [hxz] at hxz'; cases hxz'
  obtain ⟨-, -, hvr, hvc, hun, u, s, huu, hs0, hanti, heq⟩ := hsvd
  have hx' : ∀ v, (x.toMat x.r x.c).mulVec v = 0 → v = 0 := hx
  have hzr := hzr
  generalize hT : x.r = T at *
  generalize hn : x.c = n at *
  generalize hm : z.c = m at *
  set X := x.toMat T n with hX
  set Q := Y.toMat n m with hQ
  set Vh := vh.toMat (n + m) (n + m) with hVh
  let G : Matrix (Fin n) (Fin (n + m)) ℂ := fun i => Fin.append (fun k => if i = k then 1 else 0) (fun k => Q i k)
  have hG1 : ∀ i k, G i (Fin.castAdd m k) = if i = k then 1 else 0 := fun i k => Fin.append_left _ _ _
  have hG2 : ∀ i k, G i (Fin.natAdd n k) = Q i k := fun i k => Fin.append_right _ _ _
  have hXG : X * G = xz.toMat T (n + m) := by
    ext i j
    rw [mul_apply]
    refine Fin.addCases (fun a => ?_) (fun a => ?_) j
    · simp only [hG1, mul_ite, mul_one, mul_zero, Finset.sum_ite_eq', Finset.mem_univ, if_true]
      exact (hl i a i.2 a.2).symm
    · simp only [hG2]
      have h1 : xz.toMat T (n + m) i (Fin.natAdd n a) = z.toMat T m i a := hrt i a i.2 a.2
      rw [h1, hzm T m, mul_apply]
  have hnull := svd_null X G hx' Vh hun u huu s hs0 hanti _ (fun i j => rfl) (hXG.trans heq)
  set v := conjT vh with hv
  have hvm : v.toMat (n + m) (n + m) = Vhᴴ := toMat_conjT _ _ _
  have hvr' : v.r = n + m := hvc
  have hvc' : v.c = n + m := hvr
  obtain ⟨sxy, syy, gxy', gyy'⟩ := slice2_blocks v n m hvr' hvc'
  generalize hvxy : slice2 v 0 (min n v.r) (min n v.c) v.c = vxy at *
  generalize hvyy : slice2 v (min n v.r) v.r (min n v.c) v.c = vyy at *
  have gxy : ∀ i j, vxy.toMat n m i j = Vhᴴ (Fin.castAdd m i) (Fin.natAdd n j) := by
    intro i j
    rw [← hvm]
    exact gxy' i j i.2 j.2
  have gyy : ∀ i j, vyy.toMat m m i j = Vhᴴ (Fin.natAdd n i) (Fin.natAdd n j) := by
    intro i j
    rw [← hvm]
    exact gyy' i j i.2 j.2
  obtain ⟨hb1, hb2⟩ := svd_blocks Q Vhᴴ Vh hun G hG1 hG2 hnull _ gxy _ gyy
  have hvi := exists_inverse _ hb2
  have hinvok : inv vyy = .ok (Arr2.ofMat (vyy.toMat m m)⁻¹) :=
    hinv m vyy _ syy ⟨rfl, rfl⟩ (by rw [Arr2.toMat_ofMat]; exact hvi)
  obtain ⟨B, hB, hBr, hBc, hBm⟩ := Arr2.matmul_mat (A := vxy.map (fun t => -t)) (B := Arr2.ofMat (vyy.toMat m m)⁻¹)
    (m := n) (k := m) (n := m) sxy ⟨rfl, rfl⟩
  have hBY : B = Y := by
    refine Arr2.toMat_inj (r := n) (c := m) ⟨hBr, hBc⟩ ⟨hxY.symm, hzc.symm⟩ ?_
    rw [hBm, Arr2.toMat_ofMat]
    have : (vxy.map (fun t => -t)).toMat n m = -vxy.toMat n m := by
      ext i j
      exact Arr2.ofFn_get _ (by rw [sxy.1]; exact i.2) (by rw [sxy.2]; exact j.2)
    rw [this, hb1, neg_neg, Matrix.mul_assoc, hvi, Matrix.mul_one]
  subst hn
  simp only [tlsFit, hxz, hs, bind, Except.bind, pure, Except.pure]
  rw [← hv, hvxy, hvyy, hinvok]
  simp only [hB, hBY]

/-- the hypotheses of C29 and C30 are met by one voltage sample 3 and one current sample 4: the fits give 4/3 -/
theorem demo_svd : Spec.IsSvdVh 1 2 (Arr2.ofFn 1 2 (fun _ j => if j = 0 then 3 else 4))
    (Arr2.ofFn 2 2 (fun i j => if i = 0 then (if j = 0 then 3 / 5 else 4 / 5) else (if j = 0 then -4 / 5 else 3 / 5))) := by
  refine ⟨rfl, rfl, rfl, rfl, ?_, 1, fun k => if k = 0 then 5 else 0, ?_, ?_, ?_, ?_⟩
  · ext i j
    rw [mul_apply, Fin.sum_univ_two]
    simp only [conjTranspose_apply, Arr2.toMat, Arr2.ofFn_get']
    fin_cases i <;> fin_cases j <;> simp [Complex.ext_iff] <;> norm_num
  · rw [conjTranspose_one, Matrix.one_mul]
  · intro k
    show 0 ≤ if k = 0 then (5 : ℝ) else 0
    split <;> norm_num
  · intro a b hab
    show (if b = 0 then (5 : ℝ) else 0) ≤ if a = 0 then 5 else 0
    split_ifs <;> first | omega | norm_num
  · ext i j
    rw [Matrix.one_mul, mul_apply, Fin.sum_univ_two]
    simp only [of_apply, Arr2.toMat, Arr2.ofFn_get']
    fin_cases i
    fin_cases j <;> simp <;> norm_num

example : ∃ (x z Y xz vh : Arr2 ℂ), Spec.FullColumnRank x ∧ x.matmul Y = .ok z ∧ hstack x z = .ok xz ∧
    Spec.IsSvdVh x.r (x.c + z.c) xz vh ∧ Y.get 0 0 = 4 / 3 := by
  refine ⟨Arr2.ofFn 1 1 (fun _ _ => 3), Arr2.ofFn 1 1 (fun _ _ => 4), Arr2.ofFn 1 1 (fun _ _ => 4 / 3), _, _,
    ?_, ?_, ?_, demo_svd, ?_⟩
  · intro v hv
    have hv' : ∀ w : Fin 1 → ℂ, (Arr2.toMat 1 1 (Arr2.ofFn 1 1 (fun _ _ => (3 : ℂ)))).mulVec w = 0 → w = 0 := by
      intro w hw
      funext i
      have := congrFun hw i
      fin_cases i
      simpa [mulVec, dotProduct, Arr2.toMat, Arr2.ofFn_get'] using this
    exact hv' v hv
  · rw [Arr2.matmul_ok _ _ rfl]
    congr 1
    refine Arr2.ext' rfl rfl ?_
    intro i j hi hj
    have hi : i < 1 := hi
    have hj : j < 1 := hj
    rw [Arr2.ofFn_get _ (by exact hi) (by exact hj), Arr2.ofFn_get _ hi hj, Arr2.mulGet]
    simp [Arr2.ofFn_get', hi, hj]
    norm_num
  · unfold hstack
    rw [if_pos (by rfl)]
    congr 1
    refine Arr2.ext' rfl rfl ?_
    intro i j hi hj
    have hi : i < 1 := hi
    have hj : j < 2 := hj
    interval_cases i; interval_cases j <;> simp [Arr2.ofFn_get']
  · simp [Arr2.ofFn_get']

end
end Verif
