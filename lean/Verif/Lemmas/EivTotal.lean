/-
Set-up of the error-in-variables fit, success of its weighted iterations, and their trace over a whole fit.
-/
import Verif.Lemmas.EivStep

namespace Verif
open Finset Matrix
noncomputable section

theorem eivSetup_ok {lap : Bool} {n : Nat} {cfg : RegConfig} {x z yInit : Arr2 ℂ} (h : FitSetup lap n cfg x z yInit)
    (solve : Solver) (inv : Arr2 ℂ → Except PyErr (Arr2 ℂ)) :
    ∃ dt A y0 s, dtMatrix ℂ lap n = .ok dt ∧ regressionMatrix n x dt = .ok A ∧
      StateAt cfg.prior (nReal lap n) y0 s ∧ s.yMat = yInit ∧
      toMatrix n dt y0 = .ok (Spec.projection lap n yInit) ∧
      (∀ obj xW zW, eivBody solve inv cfg obj x z (some xW) (some zW) yInit = finishFit obj
        (fitLoop cfg (eivWeightedStep solve cfg x dt A (Spec.stackReal x) (Spec.stackReal z) xW zW) cfg.maxIter 0 s
          obj.iterations)) ∧
      (∀ obj xW zW, xW = none ∨ zW = none → eivBody solve inv cfg obj x z xW zW yInit = finishFit obj
        (fitLoop cfg (eivUnweightedStep solve inv cfg x z dt (Spec.stackReal z)) cfg.maxIter 0 s obj.iterations)) := by
  obtain ⟨dt, A, y0, s, hdt, hA, _, hst, hsy, hY0, _⟩ := setup_ok h solve
  obtain ⟨e, he, _⟩ := e_closed (α := ℂ) lap n
  obtain ⟨y1, hy1, hy1l, _⟩ := toParams_ok lap n hdt he h.init
  have hy : y1 = y0 := by
    have hs := C10_projection lap n yInit h.init
    have hy0' := hy1
    unfold toParams at hy0'
    obtain ⟨v, hv, hy0'⟩ := Prior.bind_ok hy0'
    cases hy0'
    obtain ⟨D, hD, hr, hc, _⟩ := dt_closed (α := ℂ) lap n
    rw [hD] at hdt; cases hdt
    obtain ⟨e', he', her, hec, _⟩ := e_closed (α := ℂ) lap n
    rw [he] at he'; cases he'
    obtain ⟨C, hC, _, _, hCv⟩ := Arr2.matmul_mulVec dt e (vectorizeMatrix yInit) v (by omega) hv
    simp only [symmetrize, hD, he, hC, hCv, bind, Except.bind] at hs
    refine toMatrix_inj lap n hD hy1l hst.1 (m := Spec.projection lap n yInit) ?_ hY0
    simp only [toMatrix, C02_complex_of_real, bind, Except.bind]
    exact hs
  subst hy
  have hlog := h.prior.log hy1l (nReal_ne_one lap n)
  have hse : s = ⟨yInit, Prior.quadA (nReal lap n) cfg.prior.alpha y1 (Spec.terms cfg.prior),
      Prior.linB (nReal lap n) cfg.prior.alpha y1 (Spec.terms cfg.prior)⟩ := by
    cases s
    obtain ⟨_, h1, h2⟩ := hst
    simp only at hsy h1 h2
    rw [hsy, h1, h2]
  refine ⟨dt, A, y1, s, hdt, hA, hst, hsy, hY0, ?_, ?_⟩
  · intro obj xW zW
    unfold eivBody
    simp only [h.dt, h.e, h.xc, hdt, he, hA, hy1, hlog, bind, Except.bind, pure, Except.pure, stackReal_eq, hse]
  · intro obj xW zW hw
    unfold eivBody
    simp only [h.dt, h.e, h.xc, hdt, he, hA, hy1, hlog, bind, Except.bind, pure, Except.pure, stackReal_eq, hse]
    rcases hw with rfl | rfl
    · cases zW <;> rfl
    · rfl

/-- kernel-freeness of a system from positivity of its quadratic form -/
theorem total_of_pos {solve : Solver} (htot : Spec.Total solve) {S : Arr2 ℝ} {r : List ℝ} {m : Nat}
    (hS : S.r = m ∧ S.c = m) (hr : r.length = m)
    (hpos : ∀ v : Fin m → ℝ, v ⬝ᵥ (S.toMat m m).mulVec v = 0 → v = 0) : ∃ y, solve S r = .ok y := by
  apply htot S r (by rw [hS.1, hr]) (by rw [hS.2, hr])
  intro v hv h0
  rw [hr] at hv h0 ⊢
  obtain ⟨_, _, h3⟩ := Arr2.mulVec_inv h0
  have h4 := h3 m
  rw [hS.2, toVec_replicate_zero] at h4
  apply toVec_inj hv (by simp)
  rw [toVec_replicate_zero]
  apply hpos
  rw [← h4, dotProduct_zero]

/-- positive definite weights -/
def Spec.PosDef (m : Nat) (W : Arr2 ℝ) : Prop :=
  Spec.IsWeight m W ∧ ∀ v : List ℝ, v.length = m → Spec.wquad W v = 0 → v = List.replicate m 0

/-- a prior whose rows leave no direction of the parameters free -/
def Spec.Spanning (p : Prior) (N : Nat) : Prop :=
  ∀ v : List ℝ, v.length = N → (∀ t ∈ Spec.terms p, Spec.dot N t.row v = 0) → v = List.replicate N 0

theorem stackReal_zeros (r c : Nat) : Spec.stackReal (Arr2.zeros r c) = List.replicate (2 * (c * r)) 0 := by
  refine List.eq_replicate_iff.2 ⟨stackReal_length _, fun b hb => ?_⟩
  unfold Spec.stackReal at hb
  simp only [List.mem_append, List.mem_flatMap, List.mem_map] at hb
  have h0 : ∀ i j, (Arr2.zeros r c : Arr2 ℂ).get i j = 0 := fun i j => by simp [Arr2.zeros, Arr2.ofFn_get']
  rcases hb with ⟨j, _, i, _, rfl⟩ | ⟨j, _, i, _, rfl⟩ <;> rw [h0] <;> rfl

/-- a weighted iteration cannot fail when the voltage weights are positive definite and the corrected voltages and the prior
leave no direction free -/
theorem eivStep_total_of {lap : Bool} {n : Nat} {cfg : RegConfig} {x z yInit : Arr2 ℂ} (h : FitSetup lap n cfg x z yInit)
    (hl : 0 ≤ cfg.lam) {xW zW : Arr2 ℝ}
    (hxW : Spec.PosDef (2 * (n * x.r)) xW) (hzW : Spec.IsWeight (2 * (n * x.r)) zW) {solve : Solver}
    (hex : Spec.Exact solve) (htot : Spec.Total solve) {dt : Arr2 ℂ}
    (hdt : dtMatrix ℂ lap n = .ok dt) {A : Arr2 ℝ} (hA : regressionMatrix n x dt = .ok A) {y : List ℝ} {s : FitState}
    (hs : StateAt cfg.prior (nReal lap n) y s) (hsq : Spec.IsSquare n s.yMat)
    (hreg : ∀ D v V, D.r = x.r → D.c = n →
      eivCorrection solve x.r xW zW s.yMat (Spec.stackReal x) (Spec.stackReal z) = .ok (Spec.stackReal D) →
      v.length = nReal lap n → toMatrix n dt v = .ok V →
      Spec.wquad zW (Spec.stackReal (Spec.residual x (Arr2.zeros x.r n) V D)) = 0 →
      (0 < cfg.lam → ∀ t ∈ Spec.terms cfg.prior, Spec.dot (nReal lap n) t.row v = 0) → v = List.replicate (nReal lap n) 0) :
    ∃ s' t y', eivWeightedStep solve cfg x dt A (Spec.stackReal x) (Spec.stackReal z) xW zW s = .ok (s', t) ∧
      StateAt cfg.prior (nReal lap n) y' s' := by
  have hxc := h.xc
  subst hxc
  obtain ⟨hyl, hM, hmu⟩ := hs
  obtain ⟨zsym, zpsd⟩ := IsWeight.mat hzW
  obtain ⟨xsym, xpsd⟩ := IsWeight.mat hxW.1
  obtain ⟨psym, ppsd, _, _⟩ := prior_matrix h.prior h.alpha hyl (nReal_ne_one lap x.c)
  have hbl : (Spec.stackReal z).length = 2 * (x.c * x.r) := by rw [stackReal_length, h.zs.1, h.zs.2]
  obtain ⟨u, hu, hur, huc, hact⟩ := underlineY_spec x.r x.c s.yMat hsq
  obtain ⟨sys, rhs, hc, hss, hrl, hsm, hrv⟩ := eivCorrection_system solve x.r hu ⟨hur, huc⟩ ⟨hxW.1.rows, hxW.1.cols⟩
    ⟨hzW.rows, hzW.cols⟩ (stackReal_length x) hbl
  obtain ⟨da, hda⟩ := total_of_pos htot hss hrl (by
    intro v hv
    rw [hsm, wgram_quad] at hv
    have h1 := zpsd ((u.toMat (2 * (x.c * x.r)) (2 * (x.c * x.r))).mulVec v)
    have h2 := xpsd v
    have h3 := hxW.2 (ofVec v) (ofVec_length v) (by
      rw [wquad_eq ⟨hxW.1.rows, hxW.1.cols⟩, toVec_ofVec]; linarith)
    have h4 := congrArg (toVec (2 * (x.c * x.r))) h3
    rwa [toVec_ofVec, toVec_replicate_zero] at h4)
  rw [hda] at hc
  obtain ⟨e1, e2, e3⟩ := Arr2.mulVec_inv (hex _ _ _ hda)
  have hdl : da.length = 2 * (x.c * x.r) := by rw [← e1, hss.2]
  obtain ⟨c, D, hc', hD, hDr, hDc, hDs⟩ := unstack_ok hdl
  obtain ⟨A', hA', hAr, hAc, _⟩ := regressionMatrix_spec lap x.c hdt x rfl
  rw [hA] at hA'; cases hA'
  obtain ⟨dA, hdA, hdAr, hdAc, _⟩ := regressionMatrix_spec lap x.c hdt D hDc
  rw [hDr] at hdAr
  obtain ⟨am, ham, amr, amc, amm⟩ := Arr2.zipWith_mat (fun p q : ℝ => p - q) (A := A) (B := dA) ⟨hAr, hAc⟩ ⟨hdAr, hdAc⟩
  obtain ⟨amw, hamw, amwr, amwc, amwm⟩ := Arr2.matmul_mat (A := am.T) (B := zW) ⟨amc, amr⟩ ⟨hzW.rows, hzW.cols⟩
  obtain ⟨q, hq, qr, qc, qm⟩ := Arr2.matmul_mat (A := amw) (B := am) ⟨amwr, amwc⟩ ⟨amr, amc⟩
  obtain ⟨sy2, hsy2, sr, sc, sm⟩ := Arr2.zipWith_mat (fun a b => a + cfg.lam * b) (A := q) (B := s.M) ⟨qr, qc⟩
    (by rw [hM]; exact ⟨rfl, rfl⟩)
  obtain ⟨l, hlv, ll, lm⟩ := Arr2.mulVec_mat (A := amw) (v := Spec.stackReal z) ⟨amwr, amwc⟩ hbl
  have hmul : s.mu.length = nReal lap x.c := by rw [hmu]; simp [Prior.linB]
  obtain ⟨rh2, hrh2, rl2, _⟩ := broadcast1_mat (fun p q => p + cfg.lam * q) (u := l) (v := s.mu) ll hmul
  obtain ⟨y', hy'⟩ := total_of_pos htot ⟨sr, sc⟩ rl2 (by
    intro v hv
    have a1 : sy2.toMat (nReal lap x.c) (nReal lap x.c) = (am.toMat (2 * (x.c * x.r)) (nReal lap x.c)).transpose *
        zW.toMat (2 * (x.c * x.r)) (2 * (x.c * x.r)) * am.toMat (2 * (x.c * x.r)) (nReal lap x.c) +
        cfg.lam • s.M.toMat (nReal lap x.c) (nReal lap x.c) := by
      rw [sm, qm, amwm, Arr2.toMat_T]; ext i j; simp
    rw [a1, wgram_quad, smul_mulVec, dotProduct_smul, hM, smul_eq_mul] at hv
    have h1 := zpsd ((am.toMat (2 * (x.c * x.r)) (nReal lap x.c)).mulVec v)
    have h2 := mul_nonneg hl (ppsd v)
    obtain ⟨V, _, _, _, _, _, hV⟩ := toMatrix_ok lap x.c hdt (ofVec_length v)
    have h5 := hreg D (ofVec v) V hDr hDc (by rw [hDs]; exact hc) (ofVec_length v) hV (by
        rw [wquad_eq ⟨hzW.rows, hzW.cols⟩, residual_params (z := Arr2.zeros x.r x.c) hdt rfl ⟨rfl, rfl⟩ ⟨hDr, hDc⟩ hA hdA (ofVec_length v) hV,
          toVec_ofVec, stackReal_zeros, toVec_replicate_zero, zero_sub, mulVec_neg, neg_dotProduct_neg]
        have : am.toMat (2 * (x.c * x.r)) (nReal lap x.c) = A.toMat _ _ - dA.toMat _ _ := by rw [amm]; rfl
        rw [← this]
        linarith) (fun hl => by
      have h3 := (mul_eq_zero.1 (le_antisymm (by linarith) h2)).resolve_left hl.ne'
      exact quad_zero h.prior h.alpha hyl (nReal_ne_one lap x.c) (ofVec v) (by rw [toVec_ofVec]; exact h3))
    have h5 := congrArg (toVec (nReal lap x.c)) h5
    rwa [toVec_ofVec, toVec_replicate_zero] at h5)
  obtain ⟨f1, f2, f3⟩ := Arr2.mulVec_inv (hex _ _ _ hy')
  have hy'l : y'.length = nReal lap x.c := by rw [← f1, sc]
  obtain ⟨ym, _, _, _, _, _, hym⟩ := toMatrix_ok lap x.c hdt hy'l
  have hlog := h.prior.log hy'l (nReal_ne_one lap x.c)
  obtain ⟨ay, hay, ayl, aym⟩ := Arr2.mulVec_mat (A := am) (v := y') ⟨amr, amc⟩ hy'l
  obtain ⟨db, hdb, dbl, dbm⟩ := broadcast1_mat (fun p q : ℝ => p - q) (u := Spec.stackReal z) (v := ay) hbl ayl
  obtain ⟨wdb, hwdb, wdbl, wdbm⟩ := Arr2.mulVec_mat (A := zW) (v := db) ⟨hzW.rows, hzW.cols⟩ dbl
  obtain ⟨wda, hwda, wdal, wdam⟩ := Arr2.mulVec_mat (A := xW) (v := da) ⟨hxW.1.rows, hxW.1.cols⟩ hdl
  simp only [eivWeightedStep, addScaled, hc, hc', hD, hdA, ham, hamw, hq, hsy2, hlv, hrh2, hy', hym, hlog, hay, hdb, hwdb,
    dotList_ok dbl wdbl, hwda, dotList_ok hdl wdal, bind, Except.bind, pure, Except.pure]
  exact ⟨_, _, y', rfl, ⟨hy'l, rfl, rfl⟩⟩

/-- a weighted iteration cannot fail when the voltage weights are positive definite and the prior leaves no direction
free -/
theorem eivStep_total {lap : Bool} {n : Nat} {cfg : RegConfig} {x z yInit : Arr2 ℂ} (h : FitSetup lap n cfg x z yInit)
    (hl : 0 < cfg.lam) (hsp : Spec.Spanning cfg.prior (nReal lap n)) {xW zW : Arr2 ℝ}
    (hxW : Spec.PosDef (2 * (n * x.r)) xW) (hzW : Spec.IsWeight (2 * (n * x.r)) zW) {solve : Solver}
    (hex : Spec.Exact solve) (htot : Spec.Total solve) {dt : Arr2 ℂ}
    (hdt : dtMatrix ℂ lap n = .ok dt) {A : Arr2 ℝ} (hA : regressionMatrix n x dt = .ok A) {y : List ℝ} {s : FitState}
    (hs : StateAt cfg.prior (nReal lap n) y s) (hsq : Spec.IsSquare n s.yMat) :
    ∃ s' t y', eivWeightedStep solve cfg x dt A (Spec.stackReal x) (Spec.stackReal z) xW zW s = .ok (s', t) ∧
      StateAt cfg.prior (nReal lap n) y' s' :=
  eivStep_total_of h hl.le hxW hzW hex htot hdt hA hs hsq fun _ v _ _ _ _ hv _ _ h0 => hsp v hv (h0 hl)

end
end Verif
