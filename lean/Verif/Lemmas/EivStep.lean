/-
One iteration of the weighted error-in-variables regression in terms of the matrices of the network.
-/
import Verif.Lemmas.Eiv
import Verif.Props.Regression

namespace Verif
open Finset Matrix
noncomputable section

theorem stackReal_getD (D : Arr2 ℂ) (k : Nat) (hk : k < 2 * (D.c * D.r)) : (Spec.stackReal D).getD k 0 =
    if k < D.c * D.r then (D.get (k % D.r) (k / D.r)).re
    else (D.get ((k - D.c * D.r) % D.r) ((k - D.c * D.r) / D.r)).im := by
  have hv : ∀ q, q < D.c * D.r → (vectorizeMatrix D).getD q 0 = D.get (q % D.r) (q / D.r) := by
    intro q hq
    have hr : 0 < D.r := by
      rcases Nat.eq_zero_or_pos D.r with h0 | h0
      · rw [h0] at hq; omega
      · exact h0
    have hd : q / D.r < D.c := Nat.div_lt_of_lt_mul (by rw [Nat.mul_comm]; exact hq)
    have := vec_getD D (i := q % D.r) (j := q / D.r) (Nat.mod_lt _ hr) hd
    rw [Nat.div_add_mod'] at this
    exact this
  have hl : (vectorizeMatrix D).length = D.c * D.r := vec_length D
  rw [← stackReal_eq]
  unfold makeRealVector
  rw [List.getD_eq_getElem?_getD]
  split
  · rename_i h
    rw [List.getElem?_append_left (by simpa [hl] using h), ← hv k h, List.getD_eq_getElem?_getD, List.getElem?_map]
    cases (vectorizeMatrix D)[k]? <;> simp
  · rename_i h
    rw [List.getElem?_append_right (by simp [hl]; omega), ← hv _ (by omega), List.getD_eq_getElem?_getD, List.getElem?_map]
    simp only [List.length_map, hl]
    cases (vectorizeMatrix D)[k - D.c * D.r]? <;> simp

theorem stack_sub {P Q R : Arr2 ℂ} {r c : Nat} (hP : P.r = r ∧ P.c = c) (hQ : Q.r = r ∧ Q.c = c) (hR : R.r = r ∧ R.c = c)
    (h : ∀ i j, i < r → j < c → R.get i j = P.get i j - Q.get i j) :
    toVec (2 * (c * r)) (Spec.stackReal R) = toVec (2 * (c * r)) (Spec.stackReal P) - toVec (2 * (c * r)) (Spec.stackReal Q) := by
  have h' : ∀ i j, R.get i j = P.get i j - Q.get i j := by
    intro i j
    by_cases hij : i < r ∧ j < c
    · exact h i j hij.1 hij.2
    · rw [R.oob i j (by rw [hR.1, hR.2]; exact hij), P.oob i j (by rw [hP.1, hP.2]; exact hij),
        Q.oob i j (by rw [hQ.1, hQ.2]; exact hij), sub_zero]
  funext k
  have hk := k.2
  show (Spec.stackReal R).getD k 0 = (Spec.stackReal P).getD k 0 - (Spec.stackReal Q).getD k 0
  rw [stackReal_getD R k (by rw [hR.1, hR.2]; exact hk), stackReal_getD P k (by rw [hP.1, hP.2]; exact hk),
    stackReal_getD Q k (by rw [hQ.1, hQ.2]; exact hk), hR.1, hR.2, hP.1, hP.2, hQ.1, hQ.2]
  split <;> rw [h'] <;> simp

/-- every real vector of the right length stacks a matrix, found by the code's conversions -/
theorem unstack_ok {d : List ℝ} {r c : Nat} (hd : d.length = 2 * (c * r)) :
    ∃ v D, makeComplexVector d = .ok v ∧ unvectorizeMatrix v (r, c) = .ok D ∧ D.r = r ∧ D.c = c ∧ Spec.stackReal D = d := by
  obtain ⟨v, hv, hvl, hvr⟩ := C02_real_of_complex d (by rw [hd]; exact even_two_mul _)
  obtain ⟨D, hD, h1, h2, h3⟩ := C01_vec_unvec v r c (by rw [Nat.mul_comm r c]; omega)
  exact ⟨v, D, hv, hD, h1, h2, by rw [← stackReal_eq, h3, hvr]⟩

/-- difference of two matrices -/
def Spec.diff (x D : Arr2 ℂ) : Arr2 ℂ := Arr2.ofFn x.r x.c (fun i j => x.get i j - D.get i j)

theorem diff_get {x D : Arr2 ℂ} (hr : D.r = x.r) (hc : D.c = x.c) (i j : Nat) :
    (Spec.diff x D).get i j = x.get i j - D.get i j := by
  unfold Spec.diff
  rw [Arr2.ofFn_get']
  split
  · rfl
  · rename_i h
    rw [x.oob i j h, D.oob i j (by rw [hr, hc]; exact h), sub_zero]

/-- the residual of the currents as seen by the operator of the code, which uses the transpose -/
theorem residual_operator {x z Y D : Arr2 ℂ} {n : Nat} (hx : x.c = n) (hz : z.r = x.r ∧ z.c = n) (hY : Spec.IsSquare n Y)
    (hD : D.r = x.r ∧ D.c = n) {u : Arr2 ℝ} (hus : u.r = 2 * (n * x.r) ∧ u.c = 2 * (n * x.r))
    (hu : ∀ X XY : Arr2 ℂ, X.r = x.r ∧ X.c = n → X.matmul Y.T = .ok XY →
        u.mulVec (Spec.stackReal X) = .ok (Spec.stackReal XY)) :
    toVec (2 * (n * x.r)) (Spec.stackReal (Spec.residual x z Y.T D)) =
      toVec (2 * (n * x.r)) (Spec.stackReal z) - (u.toMat (2 * (n * x.r)) (2 * (n * x.r))).mulVec
        (toVec (2 * (n * x.r)) (Spec.stackReal x) - toVec (2 * (n * x.r)) (Spec.stackReal D)) := by
  have hdr : D.r = x.r := hD.1
  have hdc : D.c = x.c := hD.2.trans hx.symm
  rw [← stack_sub (R := Spec.diff x D) (r := x.r) (c := n) ⟨rfl, hx⟩ hD ⟨rfl, hx⟩ (fun i j _ _ => diff_get hdr hdc i j)]
  have hm := Arr2.matmul_ok (Spec.diff x D) Y.T (by show x.c = Y.c; rw [hx, hY.2])
  have h1 := hu (Spec.diff x D) _ ⟨rfl, hx⟩ hm
  obtain ⟨_, _, h2⟩ := Arr2.mulVec_inv h1
  have h3 := h2 (2 * (n * x.r))
  rw [hus.2] at h3
  rw [← h3]
  refine stack_sub hz ⟨rfl, by show Y.r = n; exact hY.1⟩ ⟨hz.1, hz.2⟩ ?_
  intro i j hi hj
  unfold Spec.residual
  rw [Arr2.ofFn_get _ (by rw [hz.1]; exact hi) (by rw [hz.2]; exact hj),
    Arr2.ofFn_get (r := (Spec.diff x D).r) (c := Y.T.c) _ (by exact hi) (by show j < Y.r; rw [hY.1]; exact hj)]
  congr 1
  unfold Arr2.mulGet
  show _ = ∑ k ∈ range x.c, _
  apply Finset.sum_congr rfl
  intro k _
  rw [diff_get hdr hdc]

/-- the correction returned by the code minimises the weighted misfit for the transpose of the matrix -/
theorem correction_min_T {solve : Solver} (hex : Spec.Exact solve) {x z Y : Arr2 ℂ} {n : Nat} (hx : x.c = n)
    (hz : z.r = x.r ∧ z.c = n) (hY : Spec.IsSquare n Y) {xW zW : Arr2 ℝ}
    (hxW : Spec.IsWeight (2 * (n * x.r)) xW) (hzW : Spec.IsWeight (2 * (n * x.r)) zW) {da : List ℝ}
    (h : eivCorrection solve x.r xW zW Y (Spec.stackReal x) (Spec.stackReal z) = .ok da) :
    ∃ D, D.r = x.r ∧ D.c = n ∧ Spec.stackReal D = da ∧ da.length = 2 * (n * x.r) ∧
      ∀ D', D'.r = x.r → D'.c = n → Spec.eivCost xW zW x z Y.T D ≤ Spec.eivCost xW zW x z Y.T D' := by
  obtain ⟨u, hu, hur, huc, hact⟩ := underlineY_spec x.r n Y hY
  have ha : (Spec.stackReal x).length = 2 * (n * x.r) := by rw [stackReal_length, hx]
  have hb : (Spec.stackReal z).length = 2 * (n * x.r) := by rw [stackReal_length, hz.1, hz.2]
  obtain ⟨sys, rhs, hc, hss, hrl, hsm, hrv⟩ := eivCorrection_system solve x.r hu ⟨hur, huc⟩ ⟨hxW.rows, hxW.cols⟩
    ⟨hzW.rows, hzW.cols⟩ ha hb
  rw [hc] at h
  obtain ⟨h1, h2, h3⟩ := Arr2.mulVec_inv (hex _ _ _ h)
  have hdl : da.length = 2 * (n * x.r) := by rw [← h1, hss.2]
  obtain ⟨v, D, _, _, hDr, hDc, hDs⟩ := unstack_ok hdl
  refine ⟨D, hDr, hDc, hDs, hdl, fun D' hr' hc' => ?_⟩
  obtain ⟨zsym, zpsd⟩ := IsWeight.mat hzW
  obtain ⟨xsym, xpsd⟩ := IsWeight.mat hxW
  have h4 := h3 (2 * (n * x.r))
  rw [hss.2, hsm, hrv] at h4
  have hcost : ∀ E : Arr2 ℂ, E.r = x.r → E.c = n → Spec.eivCost xW zW x z Y.T E =
      toVec (2 * (n * x.r)) (Spec.stackReal E) ⬝ᵥ ((u.toMat (2 * (n * x.r)) (2 * (n * x.r))).transpose *
          zW.toMat (2 * (n * x.r)) (2 * (n * x.r)) * u.toMat (2 * (n * x.r)) (2 * (n * x.r)) +
          xW.toMat (2 * (n * x.r)) (2 * (n * x.r))).mulVec (toVec (2 * (n * x.r)) (Spec.stackReal E)) -
        2 * (((u.toMat (2 * (n * x.r)) (2 * (n * x.r))).transpose * zW.toMat (2 * (n * x.r)) (2 * (n * x.r))).mulVec
          ((u.toMat (2 * (n * x.r)) (2 * (n * x.r))).mulVec (toVec (2 * (n * x.r)) (Spec.stackReal x)) -
            toVec (2 * (n * x.r)) (Spec.stackReal z)) ⬝ᵥ toVec (2 * (n * x.r)) (Spec.stackReal E)) +
        ((u.toMat (2 * (n * x.r)) (2 * (n * x.r))).mulVec (toVec (2 * (n * x.r)) (Spec.stackReal x)) -
            toVec (2 * (n * x.r)) (Spec.stackReal z)) ⬝ᵥ (zW.toMat (2 * (n * x.r)) (2 * (n * x.r))).mulVec
          ((u.toMat (2 * (n * x.r)) (2 * (n * x.r))).mulVec (toVec (2 * (n * x.r)) (Spec.stackReal x)) -
            toVec (2 * (n * x.r)) (Spec.stackReal z)) := by
    intro E hEr hEc
    unfold Spec.eivCost
    rw [wquad_eq ⟨hzW.rows, hzW.cols⟩, wquad_eq ⟨hxW.rows, hxW.cols⟩,
      residual_operator hx hz hY ⟨hEr, hEc⟩ ⟨hur, huc⟩ hact]
    set U := u.toMat (2 * (n * x.r)) (2 * (n * x.r))
    set W := zW.toMat (2 * (n * x.r)) (2 * (n * x.r))
    set a := toVec (2 * (n * x.r)) (Spec.stackReal x)
    set b := toVec (2 * (n * x.r)) (Spec.stackReal z)
    set d := toVec (2 * (n * x.r)) (Spec.stackReal E)
    have e : b - U.mulVec (a - d) = -((U.mulVec a - b) - U.mulVec d) := by
      rw [mulVec_sub]; abel
    rw [e, mulVec_neg, neg_dotProduct, dotProduct_neg, neg_neg, wmisfit_expand U W zsym, wgram_quad]
    ring
  rw [hcost D hDr hDc, hcost D' hr' hc', hDs]
  have := quad_min _ (wgram_symm (u.toMat (2 * (n * x.r)) (2 * (n * x.r))) _ zsym _ xsym) (fun v => by
    rw [wgram_quad]; exact add_nonneg (zpsd _) (xpsd _)) h4.symm (toVec (2 * (n * x.r)) (Spec.stackReal D'))
  linarith

theorem transpose_symm {n : Nat} {Y : Arr2 ℂ} (hY : Spec.IsSquare n Y) (hsym : Spec.IsSymm Y) : Y.T = Y :=
  Arr2.ext' (hY.2.trans hY.1.symm) (hY.1.trans hY.2.symm) (fun i j _ _ => by rw [Arr2.T_get]; exact hsym.2 j i)

/-- the correction returned by the code minimises the weighted misfit, for a symmetric matrix -/
theorem correction_min {solve : Solver} (hex : Spec.Exact solve) {x z Y : Arr2 ℂ} {n : Nat} (hx : x.c = n)
    (hz : z.r = x.r ∧ z.c = n) (hY : Spec.IsSquare n Y) (hsym : Spec.IsSymm Y) {xW zW : Arr2 ℝ}
    (hxW : Spec.IsWeight (2 * (n * x.r)) xW) (hzW : Spec.IsWeight (2 * (n * x.r)) zW) {da : List ℝ}
    (h : eivCorrection solve x.r xW zW Y (Spec.stackReal x) (Spec.stackReal z) = .ok da) :
    ∃ D, D.r = x.r ∧ D.c = n ∧ Spec.stackReal D = da ∧ da.length = 2 * (n * x.r) ∧
      ∀ D', D'.r = x.r → D'.c = n → Spec.eivCost xW zW x z Y D ≤ Spec.eivCost xW zW x z Y D' := by
  have := correction_min_T hex hx hz hY hxW hzW h
  rwa [transpose_symm hY hsym] at this

/-- the residual of the currents as seen by the regression matrices -/
theorem residual_params {lap : Bool} {n : Nat} {dt : Arr2 ℂ} (hdt : dtMatrix ℂ lap n = .ok dt) {x z D : Arr2 ℂ}
    (hx : x.c = n) (hz : z.r = x.r ∧ z.c = n) (hD : D.r = x.r ∧ D.c = n) {A dA : Arr2 ℝ}
    (hA : regressionMatrix n x dt = .ok A) (hdA : regressionMatrix n D dt = .ok dA) {y : List ℝ} {Y : Arr2 ℂ}
    (hy : y.length = nReal lap n) (hY : toMatrix n dt y = .ok Y) :
    toVec (2 * (n * x.r)) (Spec.stackReal (Spec.residual x z Y D)) =
      toVec (2 * (n * x.r)) (Spec.stackReal z) - (A.toMat (2 * (n * x.r)) (nReal lap n) -
        dA.toMat (2 * (n * x.r)) (nReal lap n)).mulVec (toVec (nReal lap n) y) := by
  have hsq := (toMatrix_admissible lap n hdt hY).1
  have key : ∀ (w : Arr2 ℂ) (B : Arr2 ℝ), w.c = n → w.r = x.r → regressionMatrix n w dt = .ok B →
      (B.toMat (2 * (n * x.r)) (nReal lap n)).mulVec (toVec (nReal lap n) y) =
        toVec (2 * (n * x.r)) (Spec.stackReal (Arr2.ofFn w.r Y.c (w.mulGet Y))) := by
    intro w B hwc hwr hB
    obtain ⟨B', hB', hBr, hBc, hact⟩ := regressionMatrix_spec lap n hdt w hwc
    rw [hB] at hB'; cases hB'
    have h1 := hact y Y _ hy hY (Arr2.matmul_ok w Y (by rw [hwc, hsq.1]))
    obtain ⟨_, _, h3⟩ := Arr2.mulVec_inv h1
    have h4 := h3 (2 * (n * x.r))
    rw [hBc, stackReal_eq] at h4
    exact h4.symm
  rw [sub_mulVec, key x A hx rfl hA, key D dA hD.2 hD.1 hdA,
    ← stack_sub (P := Arr2.ofFn x.r Y.c (x.mulGet Y)) (Q := Arr2.ofFn D.r Y.c (D.mulGet Y))
      (R := Arr2.ofFn x.r n (fun i j => x.mulGet Y i j - D.mulGet Y i j)) (r := x.r) (c := n) ⟨rfl, hsq.2⟩
      ⟨hD.1, hsq.2⟩ ⟨rfl, rfl⟩ ?_]
  · refine stack_sub hz ⟨rfl, rfl⟩ ⟨hz.1, hz.2⟩ ?_
    intro i j hi hj
    unfold Spec.residual
    rw [Arr2.ofFn_get _ (by rw [hz.1]; exact hi) (by rw [hz.2]; exact hj), Arr2.ofFn_get _ hi hj]
    congr 1
    unfold Arr2.mulGet
    rw [hx, hD.2, ← Finset.sum_sub_distrib]
    apply Finset.sum_congr rfl
    intro k _; ring
  · intro i j hi hj
    rw [Arr2.ofFn_get _ hi hj, Arr2.ofFn_get _ hi (by rw [hsq.2]; exact hj),
      Arr2.ofFn_get _ (by rw [hD.1]; exact hi) (by rw [hsq.2]; exact hj)]

/-- quadratic model of the prior at `y`, evaluated at `v` -/
def Spec.model (p : Prior) (N : Nat) (y v : List ℝ) : ℝ :=
  ((Spec.terms p).map (fun t => (t.resid N v) ^ 2 / t.scale N p.alpha y)).sum

/-- one weighted iteration from any matrix: a correction that is optimal for its transpose, then optimal parameters, and the logged target -/
theorem eivStep_at_T {lap : Bool} {n : Nat} {cfg : RegConfig} {x z yInit : Arr2 ℂ} (h : FitSetup lap n cfg x z yInit)
    (hl : 0 ≤ cfg.lam) {xW zW : Arr2 ℝ} (hxW : Spec.IsWeight (2 * (n * x.r)) xW)
    (hzW : Spec.IsWeight (2 * (n * x.r)) zW) {solve : Solver} (hex : Spec.Exact solve) {dt : Arr2 ℂ}
    (hdt : dtMatrix ℂ lap n = .ok dt) {A : Arr2 ℝ} (hA : regressionMatrix n x dt = .ok A) {y : List ℝ} {s s' : FitState}
    {t : ℝ} (hs : StateAt cfg.prior (nReal lap n) y s) (hsq : Spec.IsSquare n s.yMat)
    (hstep : eivWeightedStep solve cfg x dt A (Spec.stackReal x) (Spec.stackReal z) xW zW s = .ok (s', t)) :
    ∃ D y', D.r = x.r ∧ D.c = n ∧
      (∀ D', D'.r = x.r → D'.c = n → Spec.eivCost xW zW x z s.yMat.T D ≤ Spec.eivCost xW zW x z s.yMat.T D') ∧
      StateAt cfg.prior (nReal lap n) y' s' ∧ toMatrix n dt y' = .ok s'.yMat ∧
      t = |Spec.eivCost xW zW x z s'.yMat D +
        cfg.lam * ((Spec.terms cfg.prior).map (fun q => q.scale (nReal lap n) cfg.prior.alpha y')).sum| ∧
      ∀ v V, v.length = nReal lap n → toMatrix n dt v = .ok V →
        Spec.eivCost xW zW x z s'.yMat D + cfg.lam * Spec.model cfg.prior (nReal lap n) y y' ≤
        Spec.eivCost xW zW x z V D + cfg.lam * Spec.model cfg.prior (nReal lap n) y v := by
  have hxc := h.xc
  subst hxc
  obtain ⟨hyl, hM, hmu⟩ := hs
  unfold eivWeightedStep at hstep
  obtain ⟨da, hda, hstep⟩ := Prior.bind_ok hstep
  obtain ⟨D, hDr, hDc, hDs, hdl, hDmin⟩ := correction_min_T hex rfl h.zs hsq hxW hzW hda
  obtain ⟨c, hc, hstep⟩ := Prior.bind_ok hstep
  obtain ⟨eqp, heqp, hstep⟩ := Prior.bind_ok hstep
  have hDe : eqp = D := by
    obtain ⟨c', D', hc', hD', hr', hc'', hs'⟩ := unstack_ok hdl
    rw [hc] at hc'; cases hc'
    rw [heqp] at hD'; cases hD'
    refine vec_inj (hr'.trans hDr.symm) (hc''.trans hDc.symm) (makeRealVector_inj ?_)
    rw [stackReal_eq, stackReal_eq, hs', hDs]
  subst hDe
  obtain ⟨dA, hdA, hstep⟩ := Prior.bind_ok hstep
  obtain ⟨am, ham, hstep⟩ := Prior.bind_ok hstep
  obtain ⟨amw, hamw, hstep⟩ := Prior.bind_ok hstep
  obtain ⟨q, hq, hstep⟩ := Prior.bind_ok hstep
  obtain ⟨sys, hsys, hstep⟩ := Prior.bind_ok hstep
  obtain ⟨l, hlv, hstep⟩ := Prior.bind_ok hstep
  obtain ⟨rhs, hrhs, hstep⟩ := Prior.bind_ok hstep
  obtain ⟨y', hy', hstep⟩ := Prior.bind_ok hstep
  obtain ⟨ym, hym, hstep⟩ := Prior.bind_ok hstep
  obtain ⟨lg, hlg, hstep⟩ := Prior.bind_ok hstep
  obtain ⟨ay, hay, hstep⟩ := Prior.bind_ok hstep
  obtain ⟨db, hdb, hstep⟩ := Prior.bind_ok hstep
  obtain ⟨wdb, hwdb, hstep⟩ := Prior.bind_ok hstep
  obtain ⟨c1, hc1, hstep⟩ := Prior.bind_ok hstep
  obtain ⟨wda, hwda, hstep⟩ := Prior.bind_ok hstep
  obtain ⟨c2, hc2, hstep⟩ := Prior.bind_ok hstep
  set n := x.c with hn
  set N := nReal lap n with hN
  set m := 2 * (n * x.r) with hm
  -- shapes and matrices
  obtain ⟨A', hA', hAr, hAc, _⟩ := regressionMatrix_spec lap n hdt x rfl
  rw [hA] at hA'; cases hA'
  obtain ⟨dA', hdA', hdAr, hdAc, _⟩ := regressionMatrix_spec lap n hdt eqp hDc
  rw [hdA] at hdA'; cases hdA'
  rw [hDr] at hdAr
  obtain ⟨am', ham', amr, amc, amm⟩ := Arr2.zipWith_mat (fun p q : ℝ => p - q) (A := A) (B := dA) (m := m) (n := N)
    ⟨hAr, hAc⟩ ⟨hdAr, hdAc⟩
  rw [ham] at ham'; cases ham'
  have amm' : am.toMat m N = A.toMat m N - dA.toMat m N := by rw [amm]; rfl
  obtain ⟨amw', hamw', amwr, amwc, amwm⟩ := Arr2.matmul_mat (A := am.T) (B := zW) (m := N) (k := m) (n := m) ⟨amc, amr⟩
    ⟨hzW.rows, hzW.cols⟩
  rw [hamw] at hamw'; cases hamw'
  rw [Arr2.toMat_T] at amwm
  obtain ⟨q', hq', qr, qc, qm⟩ := Arr2.matmul_mat (A := amw) (B := am) (m := N) (k := m) (n := N) ⟨amwr, amwc⟩ ⟨amr, amc⟩
  rw [hq] at hq'; cases hq'
  obtain ⟨sys', hsys', sysr, sysc, sysm⟩ := Arr2.zipWith_mat (fun a b => a + cfg.lam * b) (A := q) (B := s.M) (m := N)
    (n := N) ⟨qr, qc⟩ (by rw [hM]; exact ⟨rfl, rfl⟩)
  unfold addScaled at hsys
  rw [hsys] at hsys'; cases hsys'
  have hbl : (Spec.stackReal z).length = m := by rw [stackReal_length, h.zs.1, h.zs.2]
  obtain ⟨l', hl', ll, lm⟩ := Arr2.mulVec_mat (A := amw) (v := Spec.stackReal z) (m := N) (k := m) ⟨amwr, amwc⟩ hbl
  rw [hlv] at hl'; cases hl'
  have hmul : s.mu.length = N := by rw [hmu]; simp [Prior.linB]
  obtain ⟨rhs', hrhs', rl, rm⟩ := broadcast1_mat (fun p q => p + cfg.lam * q) (u := l) (v := s.mu) ll hmul
  rw [hrhs] at hrhs'; cases hrhs'
  obtain ⟨e1, e2, e3⟩ := Arr2.mulVec_inv (hex _ _ _ hy')
  have hy'l : y'.length = N := by rw [← e1, sysc]
  have e4 := e3 N
  rw [sysc] at e4
  have hlog := h.prior.log hy'l (nReal_ne_one lap n)
  rw [hlog] at hlg; cases hlg
  obtain ⟨ay', hay', ayl, aym⟩ := Arr2.mulVec_mat (A := am) (v := y') ⟨amr, amc⟩ hy'l
  rw [hay] at hay'; cases hay'
  obtain ⟨db', hdb', dbl, dbm⟩ := broadcast1_mat (fun p q : ℝ => p - q) (u := Spec.stackReal z) (v := ay) hbl ayl
  rw [hdb] at hdb'; cases hdb'
  obtain ⟨wdb', hwdb', wdbl, wdbm⟩ := Arr2.mulVec_mat (A := zW) (v := db) ⟨hzW.rows, hzW.cols⟩ dbl
  rw [hwdb] at hwdb'; cases hwdb'
  rw [dotList_ok dbl wdbl] at hc1; cases hc1
  obtain ⟨wda', hwda', wdal, wdam⟩ := Arr2.mulVec_mat (A := xW) (v := da) ⟨hxW.rows, hxW.cols⟩ hdl
  rw [hwda] at hwda'; cases hwda'
  rw [dotList_ok hdl wdal] at hc2; cases hc2
  cases hstep
  obtain ⟨zsym, zpsd⟩ := IsWeight.mat hzW
  obtain ⟨psym, ppsd, pquad, _⟩ := prior_matrix h.prior h.alpha hyl (nReal_ne_one lap n)
  have hres : ∀ v V, v.length = N → toMatrix n dt v = .ok V →
      toVec m (Spec.stackReal (Spec.residual x z V eqp)) =
        toVec m (Spec.stackReal z) - (am.toMat m N).mulVec (toVec N v) := by
    intro v V hv hV
    rw [amm']
    exact residual_params hdt rfl h.zs ⟨hDr, hDc⟩ hA hdA hv hV
  have hdbv : toVec m db = toVec m (Spec.stackReal z) - (am.toMat m N).mulVec (toVec N y') := by
    rw [dbm, aym]; rfl
  refine ⟨eqp, y', hDr, hDc, hDmin, ⟨hy'l, rfl, rfl⟩, hym, ?_, ?_⟩
  · unfold Spec.eivCost
    rw [wquad_eq ⟨hzW.rows, hzW.cols⟩, wquad_eq ⟨hxW.rows, hxW.cols⟩, hres y' ym hy'l hym, hDs, wdbm, wdam, hdbv]
    rfl
  · intro v V hv hV
    have hcost : ∀ w W, w.length = N → toMatrix n dt w = .ok W →
        Spec.eivCost xW zW x z W eqp + cfg.lam * Spec.model cfg.prior N y w =
        toVec N w ⬝ᵥ (((am.toMat m N).transpose * zW.toMat m m * am.toMat m N + cfg.lam • s.M.toMat N N).mulVec (toVec N w))
          - 2 * ((((am.toMat m N).transpose * zW.toMat m m).mulVec (toVec m (Spec.stackReal z)) + cfg.lam • toVec N s.mu)
            ⬝ᵥ toVec N w)
          + (toVec m (Spec.stackReal z) ⬝ᵥ (zW.toMat m m).mulVec (toVec m (Spec.stackReal z)) + Spec.wquad xW (Spec.stackReal eqp)
            + cfg.lam * ((Spec.terms cfg.prior).map (fun t => t.center ^ 2 / t.scale N cfg.prior.alpha y)).sum) := by
      intro w W hw hW
      unfold Spec.eivCost Spec.model
      rw [wquad_eq ⟨hzW.rows, hzW.cols⟩, hres w W hw hW, wmisfit_expand _ _ zsym, ← pquad w, wgram_quad, smul_mulVec,
        dotProduct_smul, add_dotProduct, smul_dotProduct, hM, hmu]
      simp only [smul_eq_mul]
      ring
    rw [hcost y' ym hy'l hym, hcost v V hv hV]
    have heq : ((am.toMat m N).transpose * zW.toMat m m * am.toMat m N + cfg.lam • s.M.toMat N N).mulVec (toVec N y') =
        ((am.toMat m N).transpose * zW.toMat m m).mulVec (toVec m (Spec.stackReal z)) + cfg.lam • toVec N s.mu := by
      have a1 : sys.toMat N N = (am.toMat m N).transpose * zW.toMat m m * am.toMat m N + cfg.lam • s.M.toMat N N := by
        rw [sysm, qm, amwm]; ext i j; simp
      rw [← a1, ← e4, rm, lm, amwm]
      ext i; simp
    have hsymS : (cfg.lam • s.M.toMat N N).transpose = cfg.lam • s.M.toMat N N := by
      rw [transpose_smul, hM, psym]
    have := quad_min _ (wgram_symm (am.toMat m N) _ zsym _ hsymS) (fun v => by
      rw [wgram_quad, smul_mulVec, dotProduct_smul, hM]
      exact add_nonneg (zpsd _) (mul_nonneg hl (ppsd v))) heq (toVec N v)
    linarith

/-- one weighted iteration: an optimal correction, then optimal parameters, and the logged target -/
theorem eivStep_at {lap : Bool} {n : Nat} {cfg : RegConfig} {x z yInit : Arr2 ℂ} (h : FitSetup lap n cfg x z yInit)
    (hl : 0 ≤ cfg.lam) {xW zW : Arr2 ℝ} (hxW : Spec.IsWeight (2 * (n * x.r)) xW)
    (hzW : Spec.IsWeight (2 * (n * x.r)) zW) {solve : Solver} (hex : Spec.Exact solve) {dt : Arr2 ℂ}
    (hdt : dtMatrix ℂ lap n = .ok dt) {A : Arr2 ℝ} (hA : regressionMatrix n x dt = .ok A) {y : List ℝ} {s s' : FitState}
    {t : ℝ} (hs : StateAt cfg.prior (nReal lap n) y s) (hsq : Spec.IsSquare n s.yMat) (hsym : Spec.IsSymm s.yMat)
    (hstep : eivWeightedStep solve cfg x dt A (Spec.stackReal x) (Spec.stackReal z) xW zW s = .ok (s', t)) :
    ∃ D y', D.r = x.r ∧ D.c = n ∧
      (∀ D', D'.r = x.r → D'.c = n → Spec.eivCost xW zW x z s.yMat D ≤ Spec.eivCost xW zW x z s.yMat D') ∧
      StateAt cfg.prior (nReal lap n) y' s' ∧ toMatrix n dt y' = .ok s'.yMat ∧
      t = |Spec.eivCost xW zW x z s'.yMat D +
        cfg.lam * ((Spec.terms cfg.prior).map (fun q => q.scale (nReal lap n) cfg.prior.alpha y')).sum| ∧
      ∀ v V, v.length = nReal lap n → toMatrix n dt v = .ok V →
        Spec.eivCost xW zW x z s'.yMat D + cfg.lam * Spec.model cfg.prior (nReal lap n) y y' ≤
        Spec.eivCost xW zW x z V D + cfg.lam * Spec.model cfg.prior (nReal lap n) y v := by
  have hT : s.yMat.T = s.yMat := transpose_symm hsq hsym
  obtain ⟨D, y', h1, h2, h3, h4⟩ := eivStep_at_T h hl hxW hzW hex hdt hA hs hsq hstep
  rw [hT] at h3
  exact ⟨D, y', h1, h2, h3, h4⟩

end
end Verif
