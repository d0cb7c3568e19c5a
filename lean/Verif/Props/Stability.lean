/-
C117: ordinary and total least squares on noisy data: both are defined when the noise is small against the excitation, with error
bounds.
-/
import Verif.Lemmas.Perturb
import Verif.Lemmas.Svd
import Verif.Props.LeastSquares
import Verif.Spec.Kron

namespace Verif
open Matrix Finset
noncomputable section

theorem len_append_neg {n m : Nat} (v : Fin n → ℂ) (w : Fin m → ℂ) :
    Spec.len (Fin.append (-v) w) = Spec.len (Fin.append v w) := by
  refine (pow_left_inj₀ (len_nonneg _) (len_nonneg _) two_ne_zero).1 ?_
  rw [len_append, len_append, len_neg]

theorem len_append_zero {n m : Nat} (v : Fin n → ℂ) : Spec.len (Fin.append v (0 : Fin m → ℂ)) = Spec.len v := by
  refine (pow_left_inj₀ (len_nonneg _) (len_nonneg _) two_ne_zero).1 ?_
  rw [len_append, len_zero]; ring

theorem append_add' {n m : Nat} (v v' : Fin n → ℂ) (w w' : Fin m → ℂ) :
    Fin.append (v + v') (w + w') = Fin.append v w + Fin.append v' w' := by
  funext i
  refine Fin.addCases (fun a => ?_) (fun a => ?_) i <;> simp

/-- orthogonal projections do not lengthen -/
theorem len_projection {n : Nat} (Q : Matrix (Fin n) (Fin n) ℂ) (hH : Qᴴ = Q) (hQ : Q * Q = Q) (v : Fin n → ℂ) :
    Spec.len (Q.mulVec v) ≤ Spec.len v := by
  refine (pow_le_pow_iff_left₀ (len_nonneg _) (len_nonneg _) two_ne_zero).1 ?_
  have h : Spec.len v ^ 2 = Spec.len (Q.mulVec v) ^ 2 + Spec.len ((1 - Q).mulVec v) ^ 2 := by
    have : ((Spec.len v ^ 2 : ℝ) : ℂ) = ((Spec.len (Q.mulVec v) ^ 2 + Spec.len ((1 - Q).mulVec v) ^ 2 : ℝ) : ℂ) := by
      rw [Complex.ofReal_add, len_star, len_star, len_star, star_mulVec, star_mulVec, ← dotProduct_mulVec,
        ← dotProduct_mulVec, mulVec_mulVec, mulVec_mulVec, ← dotProduct_add, ← add_mulVec]
      have e : Qᴴ * Q + (1 - Q)ᴴ * (1 - Q) = 1 := by
        rw [conjTranspose_sub, conjTranspose_one, hH, Matrix.sub_mul, Matrix.mul_sub, Matrix.mul_sub, hQ]
        simp
      rw [e, one_mulVec]
    exact_mod_cast this
  rw [h]
  exact le_add_of_nonneg_right (sq_nonneg _)

/-- the measured voltages inherit the excitation of the exact ones, up to the noise -/
theorem noisy_excited {x z x0 z0 Y : Arr2 ℂ} {ε σ : ℝ} (h : Spec.Noisy x z x0 z0 Y ε) (hσ : Spec.AtLeast x0 σ)
    (v : Fin x0.c → ℂ) : (σ - ε) * Spec.len v ≤ Spec.len ((x.toMat x0.r x0.c).mulVec v) := by
  have h1 := h.2.2.2 v 0
  rw [mulVec_zero, add_zero, len_append_zero] at h1
  have h2 := hσ v
  have h3 : (x0.toMat x0.r x0.c).mulVec v = (x.toMat x0.r x0.c).mulVec v - (x.toMat x0.r x0.c - x0.toMat x0.r x0.c).mulVec v := by
    rw [sub_mulVec]; abel
  rw [h3] at h2
  have := len_sub_le ((x.toMat x0.r x0.c).mulVec v) ((x.toMat x0.r x0.c - x0.toMat x0.r x0.c).mulVec v)
  linarith

theorem noisy_fullColumnRank {x z x0 z0 Y : Arr2 ℂ} {ε σ : ℝ} (h : Spec.Noisy x z x0 z0 Y ε) (hσ : Spec.AtLeast x0 σ)
    (hεσ : ε < σ) : Spec.FullColumnRank x := by
  have h1 := noisy_excited h hσ
  obtain ⟨-, ⟨e1, e2⟩, -⟩ := h
  unfold Spec.FullColumnRank
  rw [e1, e2]
  intro v hv
  have h2 := h1 v
  rw [hv, len_zero] at h2
  by_contra hne
  have := len_pos hne
  nlinarith

/-- C117, ordinary least squares: the estimate exists and is close to the true matrix. -/
theorem C117_ols {pinv : Arr2 ℂ → Except PyErr (Arr2 ℂ)} (hpinv : Spec.PinvContract pinv) {x z x0 z0 Y : Arr2 ℂ} {ε σ : ℝ}
    (h : Spec.Noisy x z x0 z0 Y ε) (hσ : Spec.AtLeast x0 σ) (hεσ : ε < σ) :
    ∃ B, complexRegressionFit pinv x z = .ok B ∧ (B.r = Y.r ∧ B.c = Y.c) ∧ Spec.ErrorBound B Y (σ - ε) ε := by
  have hexc := noisy_excited h hσ
  have hrank := noisy_fullColumnRank h hσ hεσ
  obtain ⟨hz, ⟨e1, e2⟩, ⟨e3, e4⟩, hE⟩ := h
  obtain ⟨hxY, hzr, hzc, hzm⟩ := Arr2.matmul_inv hz
  obtain ⟨p, hp, hpi⟩ := hpinv x
  obtain ⟨B, hB, hBr, hBc, hBm⟩ := Arr2.matmul_mat (A := p) (B := z) (m := x.c) (k := x.r) (n := z.c) ⟨hpi.rows, hpi.cols⟩
    ⟨by rw [e3, hzr, e1], rfl⟩
  refine ⟨B, ?_, ⟨by rw [hBr, e2, hxY], by rw [hBc, e4, hzc]⟩, ?_⟩
  · simp only [complexRegressionFit, hp, bind, Except.bind]; exact hB
  intro q
  have hYr : Y.r = x0.c := hxY.symm
  have hYc : Y.c = z0.c := hzc.symm
  revert q
  rw [hYr, hYc]
  intro q
  have hzm' := hzm x0.r z0.c
  have e5 := hpi.xpx
  have e6 := hpi.pxp
  have e7 := hpi.herm_xp
  rw [e1, e2] at e5 e6 e7
  rw [e1, e2, e4] at hBm
  set X := x.toMat x0.r x0.c with hX
  set X0 := x0.toMat x0.r x0.c with hX0
  set Z := z.toMat x0.r z0.c with hZ
  set Q := Y.toMat x0.c z0.c with hQ
  set P := p.toMat x0.c x0.r with hP
  rw [hBm]
  have h1 : X.mulVec ((P * Z - Q).mulVec q) =
      (X * P).mulVec ((X - X0).mulVec (-(Q.mulVec q)) + (Z - z0.toMat x0.r z0.c).mulVec q) := by
    rw [hzm', mulVec_neg, sub_mulVec X, sub_mulVec Z, ← mulVec_mulVec q X0 Q]
    have e8 : -(X.mulVec (Q.mulVec q) - X0.mulVec (Q.mulVec q)) + (Z.mulVec q - X0.mulVec (Q.mulVec q)) =
        Z.mulVec q - X.mulVec (Q.mulVec q) := by abel
    rw [e8, mulVec_sub, sub_mulVec, mulVec_sub, mulVec_mulVec, mulVec_mulVec, mulVec_mulVec, mulVec_mulVec, ← Matrix.mul_assoc,
      ← Matrix.mul_assoc, e5]
  have h2 := hexc ((P * Z - Q).mulVec q)
  rw [h1] at h2
  refine h2.trans ((len_projection (X * P) e7 ?_ _).trans ?_)
  · rw [← Matrix.mul_assoc, e5]
  · have := hE (-(Q.mulVec q)) q
    rw [len_append_neg] at this
    exact this

/-- C117, total least squares: if the noise is less than half the excitation the estimate exists, for every singular value
decomposition, and is close to the true matrix. -/
theorem C117_tls {svdVh inv : Arr2 ℂ → Except PyErr (Arr2 ℂ)} (hsvd : Spec.SvdContract svdVh) (hinv : Spec.InvContract inv)
    {x z x0 z0 Y : Arr2 ℂ} {ε σ : ℝ} (h : Spec.Noisy x z x0 z0 Y ε) (hσ : Spec.AtLeast x0 σ) (hε : 0 ≤ ε) (hεσ : 2 * ε < σ) :
    ∃ B, tlsFit svdVh inv x z = .ok B ∧ (B.r = Y.r ∧ B.c = Y.c) ∧ Spec.ErrorBound B Y (σ - 2 * ε) (2 * ε) := by
  have hexc := noisy_excited h hσ
  obtain ⟨hz, ⟨e1, e2⟩, ⟨e3, e4⟩, hE⟩ := h
  obtain ⟨hxY, hzr, hzc, hzm⟩ := Arr2.matmul_inv hz
  have hYr : Y.r = x0.c := hxY.symm
  have hYc : Y.c = z0.c := hzc.symm
  obtain ⟨xz, hxz, hr, hc, hl, hrt⟩ := hstack_ok (x := x) (z := z) (by rw [e1, e3, hzr])
  obtain ⟨vh, hs, hvh⟩ := hsvd xz
  have hσ' : ∀ v, σ * Spec.len v ≤ Spec.len ((x0.toMat x0.r x0.c).mulVec v) := hσ
  have hzm' := hzm x0.r z0.c
  unfold Spec.ErrorBound
  rw [hYr, hYc]
  rw [hr, hc, e1, e2, e4] at hvh
  rw [e1, e2] at hl
  rw [e1, e2, e4] at hrt
  obtain ⟨-, -, hvr, hvc, hun, u, s, huu, hs0, hanti, heq⟩ := hvh
  have hzr' : z.r = x0.r := e3.trans hzr
  clear hσ hz hzm hxY hzc hYr hYc hr hc hzr
  generalize hT : x0.r = T at *
  generalize hn : x0.c = n at *
  generalize hm : z0.c = m at *
  set X := x.toMat T n with hX
  set X0 := x0.toMat T n with hX0
  set Z := z.toMat T m with hZ
  set Q := Y.toMat n m with hQ
  set M := xz.toMat T (n + m) with hM
  set Vh := vh.toMat (n + m) (n + m) with hVh
  let G : Matrix (Fin n) (Fin (n + m)) ℂ := fun i => Fin.append (fun k => if i = k then 1 else 0) (fun k => Q i k)
  have hG : ∀ a b, G.mulVec (Fin.append a b) = a + Q.mulVec b := by
    intro a b
    funext i
    show ∑ k, G i k * Fin.append a b k = _
    rw [Fin.sum_univ_add]
    simp only [G, Fin.append_left, Fin.append_right, ite_mul, one_mul, zero_mul, Finset.sum_ite_eq, Finset.mem_univ, if_true]
    rfl
  have hMa : ∀ a b, M.mulVec (Fin.append a b) = X.mulVec a + Z.mulVec b := by
    intro a b
    funext i
    show ∑ k, M i k * Fin.append a b k = _
    rw [Fin.sum_univ_add]
    simp only [Fin.append_left, Fin.append_right]
    rw [Pi.add_apply]
    congr 1
    · exact Finset.sum_congr rfl fun k _ => congrArg (· * a k) (hl i k i.2 k.2)
    · exact Finset.sum_congr rfl fun k _ => congrArg (· * b k) (hrt i k i.2 k.2)
  have hsplit : ∀ v : Fin (n + m) → ℂ, v = Fin.append (fun a => v (Fin.castAdd m a)) (fun a => v (Fin.natAdd n a)) := by
    intro v
    funext i
    refine Fin.addCases (fun a => ?_) (fun a => ?_) i <;> simp
  have hEE : ∀ v, Spec.len ((M - X0 * G).mulVec v) ≤ ε * Spec.len v := by
    intro v
    rw [hsplit v, sub_mulVec, ← mulVec_mulVec, hG, hMa]
    have := hE (fun a => v (Fin.castAdd m a)) (fun a => v (Fin.natAdd n a))
    refine le_trans (le_of_eq ?_) this
    congr 1
    rw [hzm', sub_mulVec, sub_mulVec, ← mulVec_mulVec, mulVec_add]
    abel
  have hle := trailing_le X0 G (M - X0 * G) hε hEE Vh hun u huu s hs0 hanti _ (fun i j => rfl) (by abel) heq
  set v := conjT vh with hv
  have hvm : v.toMat (n + m) (n + m) = Vhᴴ := toMat_conjT _ _ _
  have hvr' : v.r = n + m := hvc
  have hvc' : v.c = n + m := hvr
  obtain ⟨sxy, syy, gxy', gyy'⟩ := slice2_blocks v n m hvr' hvc'
  generalize hvxy : slice2 v 0 (min n v.r) (min n v.c) v.c = vxy at *
  generalize hvyy : slice2 v (min n v.r) v.r (min n v.c) v.c = vyy at *
  have gxy : ∀ i j, vxy.toMat n m i j = Vhᴴ (Fin.castAdd m i) (Fin.natAdd n j) := by
    intro i j
    rw [← hvm]
    exact gxy' i j i.2 j.2
  have gyy : ∀ i j, vyy.toMat m m i j = Vhᴴ (Fin.natAdd n i) (Fin.natAdd n j) := by
    intro i j
    rw [← hvm]
    exact gyy' i j i.2 j.2
  have hV1 : Vhᴴᴴ * Vhᴴ = 1 := by rw [conjTranspose_conjTranspose, hun]
  have hinj := trailing_injective M X (fun i k => hl i k i.2 k.2) (ε := ε) (σ := σ - ε) (by linarith) hexc Vhᴴ hV1 hle _ gyy
  have hvi := exists_inverse _ hinj
  have hinvok : inv vyy = .ok (Arr2.ofMat (vyy.toMat m m)⁻¹) :=
    hinv m vyy _ syy ⟨rfl, rfl⟩ (by rw [Arr2.toMat_ofMat]; exact hvi)
  obtain ⟨B, hB, hBr, hBc, hBm⟩ := Arr2.matmul_mat (A := vxy.map (fun t => -t)) (B := Arr2.ofMat (vyy.toMat m m)⁻¹)
    (m := n) (k := m) (n := m) sxy ⟨rfl, rfl⟩
  have hneg : (vxy.map (fun t => -t)).toMat n m = -vxy.toMat n m := by
    ext i j
    exact Arr2.ofFn_get _ (by rw [sxy.1]; exact i.2) (by rw [sxy.2]; exact j.2)
  rw [hneg, Arr2.toMat_ofMat] at hBm
  refine ⟨B, ?_, ⟨hBr, hBc⟩, fun q => ?_⟩
  · simp only [tlsFit, hxz, hs, bind, Except.bind, pure, Except.pure]
    rw [← hv, e2, hvxy, hvyy, hinvok]
    simp only [hB]
  set w := (vyy.toMat m m)⁻¹.mulVec q with hw
  have hBq : (B.toMat n m).mulVec q = -(vxy.toMat n m).mulVec w := by
    rw [hBm, ← mulVec_mulVec, neg_mulVec]
  have hqw : (vyy.toMat m m).mulVec w = q := by rw [hw, mulVec_mulVec, hvi, one_mulVec]
  have hVw : Vhᴴ.mulVec (Fin.append 0 w) = Fin.append (-(B.toMat n m).mulVec q) q := by
    rw [hBq, neg_neg]
    funext i
    show ∑ k, Vhᴴ i k * Fin.append 0 w k = _
    rw [Fin.sum_univ_add]
    simp only [Fin.append_left, Fin.append_right, Pi.zero_apply, mul_zero, Finset.sum_const_zero, zero_add]
    refine Fin.addCases (fun a => ?_) (fun a => ?_) i
    · rw [Fin.append_left]
      exact Finset.sum_congr rfl fun k _ => congrArg (· * w k) (gxy a k).symm
    · rw [Fin.append_right, ← hqw]
      exact Finset.sum_congr rfl fun k _ => congrArg (· * w k) (gyy a k).symm
  have hlw : Spec.len w = Spec.len (Fin.append ((B.toMat n m).mulVec q) q) := by
    rw [← len_append_neg, ← hVw, len_isometry _ hV1]
    refine (pow_left_inj₀ (len_nonneg _) (len_nonneg _) two_ne_zero).1 ?_
    rw [len_append, len_zero]; ring
  have h1 := hle w
  rw [hVw] at h1
  have h2 := hEE (Fin.append (-(B.toMat n m).mulVec q) q)
  rw [len_append_neg, ← hlw, sub_mulVec] at h2
  have h3 := hσ' ((B.toMat n m - Q).mulVec q)
  have h4 : X0.mulVec ((B.toMat n m - Q).mulVec q) =
      (M.mulVec (Fin.append (-(B.toMat n m).mulVec q) q) - (X0 * G).mulVec (Fin.append (-(B.toMat n m).mulVec q) q)) -
        M.mulVec (Fin.append (-(B.toMat n m).mulVec q) q) := by
    rw [← mulVec_mulVec _ X0 G, hG, sub_sub_cancel_left, ← mulVec_neg, sub_mulVec]
    congr 1
    abel
  rw [h4] at h3
  have h5 := h3.trans (len_sub_le _ _)
  have h6 : Spec.len (Fin.append ((B.toMat n m).mulVec q) q) ≤
      Spec.len (Fin.append (Q.mulVec q) q) + Spec.len ((B.toMat n m - Q).mulVec q) := by
    have e8 : Fin.append ((B.toMat n m).mulVec q) q = Fin.append (Q.mulVec q) q + Fin.append ((B.toMat n m - Q).mulVec q) 0 := by
      rw [← append_add', add_zero, sub_mulVec]
      congr 1
      abel
    rw [e8]
    refine (len_add_le _ _).trans ?_
    rw [len_append_zero]
  rw [← hlw] at h6
  nlinarith

/-- Concrete data meeting the hypotheses of C117: the excitation is 3, the error of the voltages is 1. -/
theorem demo_C117 : Spec.Noisy (Arr2.ofFn 2 1 fun i _ => if i = 0 then 3 else 1) (Arr2.ofFn 2 1 fun i _ => if i = 0 then 6 else 0)
      (Arr2.ofFn 2 1 fun i _ => if i = 0 then 3 else 0) (Arr2.ofFn 2 1 fun i _ => if i = 0 then 6 else 0)
      (Arr2.ofFn 1 1 fun _ _ => 2) 1 ∧
    Spec.AtLeast (Arr2.ofFn 2 1 fun i _ => if i = 0 then 3 else 0) 3 ∧ (2 * 1 : ℝ) < 3 := by
  have g : ∀ (f : Nat → Nat → ℂ) (i j), i < 2 → j < 1 → (Arr2.ofFn 2 1 f).get i j = f i j := fun f i j hi hj => Arr2.ofFn_get f hi hj
  refine ⟨⟨?_, ⟨rfl, rfl⟩, ⟨rfl, rfl⟩, ?_⟩, ?_, by norm_num⟩
  · rw [Arr2.matmul_ok _ _ rfl]
    congr 1
    refine Arr2.ext' rfl rfl ?_
    intro i j hi hj
    have hi : i < 2 := hi
    have hj : j < 1 := hj
    refine (Arr2.ofFn_get (r := 2) (c := 1) _ hi hj).trans ((?_ : _ = _).trans (g _ i j hi hj).symm)
    have h1 : (Arr2.ofFn 1 1 fun _ _ => (2 : ℂ)).get 0 j = 2 := Arr2.ofFn_get _ (by norm_num) hj
    show ((Arr2.ofFn 2 1 fun i _ => if i = 0 then (3 : ℂ) else 0).mulGet _ i j) = _
    rw [Arr2.mulGet, show (Arr2.ofFn 2 1 fun i _ => if i = 0 then (3 : ℂ) else 0).c = 1 from rfl]
    simp only [Finset.sum_range_one]
    rw [h1, g _ i 0 hi (by norm_num)]
    split <;> norm_num
  · intro (a : Fin 1 → ℂ) (b : Fin 1 → ℂ)
    rw [one_mul]
    have e : ∀ i : Fin 2, (((Arr2.ofFn 2 1 fun i _ => if i = 0 then (3 : ℂ) else 1).toMat 2 1 -
        (Arr2.ofFn 2 1 fun i _ => if i = 0 then (3 : ℂ) else 0).toMat 2 1).mulVec a +
        ((Arr2.ofFn 2 1 fun i _ => if i = 0 then (6 : ℂ) else 0).toMat 2 1 -
        (Arr2.ofFn 2 1 fun i _ => if i = 0 then (6 : ℂ) else 0).toMat 2 1).mulVec b) i = if i = 0 then 0 else a 0 := by
      intro i
      rw [sub_self, zero_mulVec, add_zero]
      show ∑ k : Fin 1, ((Arr2.ofFn 2 1 _).get i k - (Arr2.ofFn 2 1 _).get i k) * a k = _
      rw [Fin.sum_univ_one, g _ i _ i.2 (Fin.is_lt 0), g _ i _ i.2 (Fin.is_lt 0)]
      fin_cases i <;> simp
    have e2 := funext e
    refine le_trans (le_of_eq (congrArg Spec.len e2)) ?_
    show Spec.len (n := 2) (fun i => if i = 0 then 0 else a 0) ≤ Spec.len (n := 1 + 1) (Fin.append a b)
    unfold Spec.len
    apply Real.sqrt_le_sqrt
    have hb : ∑ i, ‖Fin.append a b i‖ ^ 2 = ‖a 0‖ ^ 2 + ‖b 0‖ ^ 2 := by
      rw [Fin.sum_univ_add]
      simp only [Fin.append_left, Fin.append_right]
      exact congrArg₂ _ (Fin.sum_univ_one _) (Fin.sum_univ_one _)
    rw [hb, Fin.sum_univ_two]
    simp
  · intro (v : Fin 1 → ℂ)
    have e : ∀ i : Fin 2, ((Arr2.ofFn 2 1 fun i _ => if i = 0 then (3 : ℂ) else 0).toMat 2 1).mulVec v i =
        if i = 0 then 3 * v 0 else 0 := by
      intro i
      show ∑ k : Fin 1, (Arr2.ofFn 2 1 _).get i k * v k = _
      rw [Fin.sum_univ_one, g _ i _ i.2 (Fin.is_lt 0)]
      fin_cases i <;> simp
    refine le_trans ?_ (le_of_eq (congrArg Spec.len (funext e)).symm)
    show 3 * Spec.len (n := 1) v ≤ Spec.len (n := 2) (fun i => if i = 0 then 3 * v 0 else 0)
    unfold Spec.len
    have h1 : ∑ i, ‖v i‖ ^ 2 = ‖v 0‖ ^ 2 := Fin.sum_univ_one _
    rw [h1, Fin.sum_univ_two]
    simp only [Fin.isValue, if_true, one_ne_zero, if_false, norm_zero, norm_mul]
    rw [Real.sqrt_sq (norm_nonneg _)]
    apply Real.le_sqrt_of_sq_le
    norm_num [mul_pow]

end
end Verif
