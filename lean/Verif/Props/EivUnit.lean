/-
C154, C155: the unweighted branch of `BayesianEIVRegression.fit` makes the iterations of the weighted branch with weight one on every
measurement, so that its limits are the critical points of that objective.
-/
import Verif.Props.EivCritical
import Verif.Props.EivUnweighted
import Verif.Props.EivSamples

namespace Verif
open Finset Matrix Filter Topology
noncomputable section

namespace Spec

/-- weight one for each of the `m` components -/
def unitWeights (m : Nat) : Arr2 ℝ := Arr2.ofFn m m (fun i j => if i = j then 1 else 0)

end Spec

theorem unit_posDef (m : Nat) : Spec.PosDef m (Spec.unitWeights m) := scaledEye_posDef m one_pos

theorem unit_mat (m : Nat) : (Spec.unitWeights m).toMat m m = 1 := by
  ext i j
  show (Spec.unitWeights m).get i j = _
  unfold Spec.unitWeights
  rw [Arr2.ofFn_get _ i.2 j.2, Matrix.one_apply]
  simp only [Fin.ext_iff]

theorem wquad_unit {T n : Nat} (D : Arr2 ℂ) (hr : D.r = T) (hc : D.c = n) :
    Spec.wquad (Spec.unitWeights (2 * (n * T))) (Spec.stackReal D) = ∑ j ∈ range n, ∑ i ∈ range T, Complex.normSq (D.get i j) := by
  rw [wquad_eq (m := 2 * (n * T)) ⟨rfl, rfl⟩, unit_mat, one_mulVec, stack_normSq D hr hc]

/-- with unit weights the misfit is the squared distance to the corrected voltages and the currents they imply -/
theorem eivCost_unit {x z Y D : Arr2 ℂ} {n : Nat} (hz : z.r = x.r ∧ z.c = n) (hD : D.r = x.r ∧ D.c = n) :
    Spec.eivCost (Spec.unitWeights (2 * (n * x.r))) (Spec.unitWeights (2 * (n * x.r))) x z Y D =
      ∑ j ∈ range n, ∑ i ∈ range x.r, (Complex.normSq (z.get i j - ∑ k ∈ range x.c, (x.get i k - D.get i k) * Y.get k j) +
        Complex.normSq (D.get i j)) := by
  unfold Spec.eivCost
  rw [wquad_unit D hD.1 hD.2, wquad_unit (Spec.residual x z Y D) hz.1 hz.2, ← Finset.sum_add_distrib]
  refine Finset.sum_congr rfl fun j hj => ?_
  rw [← Finset.sum_add_distrib]
  refine Finset.sum_congr rfl fun i hi => ?_
  unfold Spec.residual
  rw [Arr2.ofFn_get _ (by rw [hz.1]; exact Finset.mem_range.1 hi) (by rw [hz.2]; exact Finset.mem_range.1 hj)]

theorem normSq_mid (a b : ℂ) :
    Complex.normSq ((a + b) / 2) + Complex.normSq (a - b) / 4 = (Complex.normSq a + Complex.normSq b) / 2 := by
  simp only [Complex.normSq_apply]
  simp
  ring

/-- the misfit with unit weights has at most one minimiser -/
theorem unit_unique {x z Y D E : Arr2 ℂ} {n : Nat} (hx : x.c = n) (hz : z.r = x.r ∧ z.c = n) (hD : D.r = x.r ∧ D.c = n)
    (hE : E.r = x.r ∧ E.c = n)
    (h1 : ∀ D', D'.r = x.r → D'.c = n → Spec.eivCost (Spec.unitWeights (2 * (n * x.r))) (Spec.unitWeights (2 * (n * x.r))) x z Y D ≤
      Spec.eivCost (Spec.unitWeights (2 * (n * x.r))) (Spec.unitWeights (2 * (n * x.r))) x z Y D')
    (h2 : ∀ D', D'.r = x.r → D'.c = n → Spec.eivCost (Spec.unitWeights (2 * (n * x.r))) (Spec.unitWeights (2 * (n * x.r))) x z Y E ≤
      Spec.eivCost (Spec.unitWeights (2 * (n * x.r))) (Spec.unitWeights (2 * (n * x.r))) x z Y D') : D = E := by
  subst hx
  let M : Arr2 ℂ := Arr2.ofFn x.r x.c (fun i j => (D.get i j + E.get i j) / 2)
  have hM : M.r = x.r ∧ M.c = x.c := ⟨rfl, rfl⟩
  have m1 := h1 M rfl rfl
  have m2 := h2 M rfl rfl
  have hsum : Spec.eivCost (Spec.unitWeights (2 * (x.c * x.r))) (Spec.unitWeights (2 * (x.c * x.r))) x z Y M +
      (∑ j ∈ range x.c, ∑ i ∈ range x.r, Complex.normSq (D.get i j - E.get i j)) / 4 ≤
      (Spec.eivCost (Spec.unitWeights (2 * (x.c * x.r))) (Spec.unitWeights (2 * (x.c * x.r))) x z Y D +
        Spec.eivCost (Spec.unitWeights (2 * (x.c * x.r))) (Spec.unitWeights (2 * (x.c * x.r))) x z Y E) / 2 := by
    rw [eivCost_unit hz hM, eivCost_unit hz hD, eivCost_unit hz hE, ← Finset.sum_add_distrib, Finset.sum_div, Finset.sum_div,
      ← Finset.sum_add_distrib]
    refine Finset.sum_le_sum fun j hj => ?_
    rw [← Finset.sum_add_distrib, Finset.sum_div, Finset.sum_div, ← Finset.sum_add_distrib]
    refine Finset.sum_le_sum fun i hi => ?_
    have hi := Finset.mem_range.1 hi
    have hj := Finset.mem_range.1 hj
    have e1 : M.get i j = (D.get i j + E.get i j) / 2 := Arr2.ofFn_get _ hi hj
    have e2 : z.get i j - ∑ k ∈ range x.c, (x.get i k - M.get i k) * Y.get k j =
        ((z.get i j - ∑ k ∈ range x.c, (x.get i k - D.get i k) * Y.get k j) +
          (z.get i j - ∑ k ∈ range x.c, (x.get i k - E.get i k) * Y.get k j)) / 2 := by
      have : ∑ k ∈ range x.c, (x.get i k - M.get i k) * Y.get k j =
          (∑ k ∈ range x.c, (x.get i k - D.get i k) * Y.get k j + ∑ k ∈ range x.c, (x.get i k - E.get i k) * Y.get k j) / 2 := by
        rw [← Finset.sum_add_distrib, Finset.sum_div]
        refine Finset.sum_congr rfl fun k hk => ?_
        rw [show M.get i k = (D.get i k + E.get i k) / 2 from Arr2.ofFn_get _ hi (Finset.mem_range.1 hk)]
        ring
      rw [this]
      ring
    rw [e1, e2]
    have n1 := normSq_mid (D.get i j) (E.get i j)
    have n2 := normSq_mid (z.get i j - ∑ k ∈ range x.c, (x.get i k - D.get i k) * Y.get k j)
      (z.get i j - ∑ k ∈ range x.c, (x.get i k - E.get i k) * Y.get k j)
    have n3 := Complex.normSq_nonneg ((z.get i j - ∑ k ∈ range x.c, (x.get i k - D.get i k) * Y.get k j) -
      (z.get i j - ∑ k ∈ range x.c, (x.get i k - E.get i k) * Y.get k j))
    linarith
  have hnn : ∀ j i, 0 ≤ Complex.normSq (D.get i j - E.get i j) := fun _ _ => Complex.normSq_nonneg _
  have h0 : ∑ j ∈ range x.c, ∑ i ∈ range x.r, Complex.normSq (D.get i j - E.get i j) = 0 :=
    le_antisymm (by linarith) (Finset.sum_nonneg fun j _ => Finset.sum_nonneg fun i _ => hnn j i)
  refine Arr2.ext' (hD.1.trans hE.1.symm) (hD.2.trans hE.2.symm) fun i j hi hj => ?_
  have a1 := (Finset.sum_eq_zero_iff_of_nonneg (fun j _ => Finset.sum_nonneg fun i _ => hnn j i)).1 h0 j
    (Finset.mem_range.2 (by rw [← hD.2]; exact hj))
  have a2 := (Finset.sum_eq_zero_iff_of_nonneg (fun i _ => hnn j i)).1 a1 i (Finset.mem_range.2 (by rw [← hD.1]; exact hi))
  exact sub_eq_zero.1 (Complex.normSq_eq_zero.1 a2)

/-- the distance to the nearest consistent data is a minimal correction for unit weights -/
theorem nearest_min {x z Y xh zh : Arr2 ℂ} {n : Nat} (hx : x.c = n) (hz : z.r = x.r ∧ z.c = n) (hY : Spec.IsSquare n Y)
    (h : Spec.NearestConsistent n x z Y xh zh) (D' : Arr2 ℂ) (hr : D'.r = x.r) (hc : D'.c = n) :
    Spec.eivCost (Spec.unitWeights (2 * (n * x.r))) (Spec.unitWeights (2 * (n * x.r))) x z Y (Spec.diff x xh) ≤
      Spec.eivCost (Spec.unitWeights (2 * (n * x.r))) (Spec.unitWeights (2 * (n * x.r))) x z Y D' := by
  subst hx
  obtain ⟨hxr, hxc, hcons, hmin⟩ := h
  have key : ∀ w v : Arr2 ℂ, w.r = x.r → w.c = x.c → Spec.Consistent2 w v Y →
      Spec.eivCost (Spec.unitWeights (2 * (x.c * x.r))) (Spec.unitWeights (2 * (x.c * x.r))) x z Y (Spec.diff x w) =
        Spec.dist2 x w + Spec.dist2 z v := by
    intro w v hwr hwc hv
    rw [eivCost_unit (D := Spec.diff x w) hz ⟨rfl, rfl⟩]
    unfold Spec.dist2
    rw [hz.1, hz.2, ← Finset.sum_add_distrib, Finset.sum_comm]
    refine Finset.sum_congr rfl fun i hi => ?_
    rw [← Finset.sum_add_distrib]
    refine Finset.sum_congr rfl fun j hj => ?_
    have hi := Finset.mem_range.1 hi
    have hj := Finset.mem_range.1 hj
    have hm := Arr2.matmul_ok w Y (by rw [hwc, hY.1])
    unfold Spec.Consistent2 at hv
    rw [hm] at hv
    have hv := Except.ok.inj hv
    have e : v.get i j = ∑ k ∈ range x.c, w.get i k * Y.get k j := by
      rw [← hv, Arr2.ofFn_get _ (by rw [hwr]; exact hi) (by rw [hY.2]; exact hj)]
      unfold Arr2.mulGet
      rw [hwc]
    rw [diff_get hwr hwc, add_comm, e]
    congr 3
    refine Finset.sum_congr rfl fun k _ => ?_
    rw [diff_get hwr hwc, sub_sub_cancel]
  have hDD : D' = Spec.diff x (Spec.diff x D') := by
    refine Arr2.ext' hr hc fun i j hi hj => ?_
    rw [diff_get (x := x) (D := Spec.diff x D') rfl rfl, diff_get hr hc, sub_sub_cancel]
  have hm := Arr2.matmul_ok (Spec.diff x D') Y (by show x.c = Y.r; rw [hY.1])
  rw [key xh zh hxr hxc hcons, hDD, key (Spec.diff x D') _ rfl rfl hm]
  exact hmin _ _ rfl rfl hm

/-- regression matrices are linear in the data -/
theorem regressionMatrix_diff (lap : Bool) {n : Nat} {dt : Arr2 ℂ} (hdt : dtMatrix ℂ lap n = .ok dt) {x D xh : Arr2 ℂ} (hx : x.c = n)
    (hD : D.r = x.r ∧ D.c = n) (hxh : xh.r = x.r ∧ xh.c = n) (he : D = Spec.diff x xh) {A dA B : Arr2 ℝ}
    (hA : regressionMatrix n x dt = .ok A) (hdA : regressionMatrix n D dt = .ok dA) (hB : regressionMatrix n xh dt = .ok B) :
    Arr2.zipWith (fun p q : ℝ => p - q) A dA = .ok B := by
  obtain ⟨A', hA', hAr, hAc, _⟩ := regressionMatrix_spec lap n hdt x hx
  rw [hA] at hA'; cases hA'
  obtain ⟨dA', hdA', hdAr, hdAc, _⟩ := regressionMatrix_spec lap n hdt D hD.2
  rw [hdA] at hdA'; cases hdA'
  obtain ⟨B', hB', hBr, hBc, _⟩ := regressionMatrix_spec lap n hdt xh hxh.2
  rw [hB] at hB'; cases hB'
  rw [hD.1] at hdAr
  rw [hxh.1] at hBr
  obtain ⟨C, hC, cr, cc, cm⟩ := Arr2.zipWith_mat (fun p q : ℝ => p - q) (A := A) (B := dA) ⟨hAr, hAc⟩ ⟨hdAr, hdAc⟩
  rw [hC]
  congr 1
  refine Arr2.toMat_inj ⟨cr, cc⟩ ⟨hBr, hBc⟩ ?_
  have hC2 : C.toMat (2 * (n * x.r)) (nReal lap n) = A.toMat (2 * (n * x.r)) (nReal lap n) - dA.toMat (2 * (n * x.r)) (nReal lap n) := by
    rw [cm]; rfl
  rw [hC2]
  apply Matrix.toLin'.injective
  refine LinearMap.ext fun v => ?_
  rw [Matrix.toLin'_apply, Matrix.toLin'_apply]
  obtain ⟨V, _, _, _, _, _, hV⟩ := toMatrix_ok lap n hdt (ofVec_length v)
  obtain ⟨hsq, -⟩ := toMatrix_admissible lap n hdt hV
  have key : ∀ (w : Arr2 ℂ) (F : Arr2 ℝ), w.c = n → w.r = x.r → regressionMatrix n w dt = .ok F →
      (F.toMat (2 * (n * x.r)) (nReal lap n)).mulVec v =
        toVec (2 * (n * x.r)) (Spec.stackReal (Arr2.ofFn w.r V.c (w.mulGet V))) := by
    intro w F hwc hwr hF
    obtain ⟨F', hF', hFr, hFc, hact⟩ := regressionMatrix_spec lap n hdt w hwc
    rw [hF] at hF'; cases hF'
    have h1 := hact (ofVec v) V _ (ofVec_length v) hV (Arr2.matmul_ok w V (by rw [hwc, hsq.1]))
    obtain ⟨_, _, h3⟩ := Arr2.mulVec_inv h1
    have h4 := h3 (2 * (n * x.r))
    rw [hFc, stackReal_eq, toVec_ofVec] at h4
    exact h4.symm
  rw [sub_mulVec, key x A hx rfl hA, key D dA hD.2 hD.1 hdA, key xh B hxh.2 hxh.1 hB]
  symm
  refine stack_sub ⟨rfl, hsq.2⟩ ⟨hD.1, hsq.2⟩ ⟨hxh.1, hsq.2⟩ fun i j hi hj => ?_
  rw [Arr2.ofFn_get _ (by rw [hxh.1]; exact hi) (by rw [hsq.2]; exact hj), Arr2.ofFn_get _ hi (by rw [hsq.2]; exact hj),
    Arr2.ofFn_get _ (by rw [hD.1]; exact hi) (by rw [hsq.2]; exact hj)]
  unfold Arr2.mulGet
  rw [hx, hD.2, hxh.2, ← Finset.sum_sub_distrib]
  refine Finset.sum_congr rfl fun k _ => ?_
  rw [he, diff_get hxh.1 (hxh.2.trans hx.symm)]
  ring

/-- one unweighted iteration from a symmetric matrix leads to the state one weighted iteration with unit weights leads to, exceptions
included -/
theorem unit_step {lap : Bool} {n : Nat} {cfg : RegConfig} {x z yInit : Arr2 ℂ} (h : FitSetup lap n cfg x z yInit)
    {solve : Solver} (hex : Spec.Exact solve) (htot : Spec.Total solve) {inv : Arr2 ℂ → Except PyErr (Arr2 ℂ)}
    (hinv : Spec.InvContract inv) {dt : Arr2 ℂ} (hdt : dtMatrix ℂ lap n = .ok dt) {A : Arr2 ℝ}
    (hA : regressionMatrix n x dt = .ok A) {y : List ℝ} {s : FitState} (hs : StateAt cfg.prior (nReal lap n) y s)
    (hsq : Spec.IsSquare n s.yMat) (hsym : Spec.IsSymm s.yMat) :
    (eivUnweightedStep solve inv cfg x z dt (Spec.stackReal z) s).map Prod.fst =
      (eivWeightedStep solve cfg x dt A (Spec.stackReal x) (Spec.stackReal z) (Spec.unitWeights (2 * (n * x.r)))
        (Spec.unitWeights (2 * (n * x.r))) s).map Prod.fst := by
  have hxc := h.xc
  subst hxc
  obtain ⟨hyl, hM, hmu⟩ := hs
  have hW := unit_posDef (2 * (x.c * x.r))
  obtain ⟨zsym, zpsd⟩ := IsWeight.mat hW.1
  have hbl : (Spec.stackReal z).length = 2 * (x.c * x.r) := by rw [stackReal_length, h.zs.1, h.zs.2]
  -- the correction
  obtain ⟨u, hu, hur, huc, hact⟩ := underlineY_spec x.r x.c s.yMat hsq
  obtain ⟨sys, rhs, hc, hss, hrl, hsm, hrv⟩ := eivCorrection_system solve x.r hu ⟨hur, huc⟩ ⟨hW.1.rows, hW.1.cols⟩
    ⟨hW.1.rows, hW.1.cols⟩ (stackReal_length x) hbl
  obtain ⟨da, hda⟩ := total_of_pos htot hss hrl (by
    intro v hv
    rw [hsm, wgram_quad] at hv
    have h1 := zpsd ((u.toMat (2 * (x.c * x.r)) (2 * (x.c * x.r))).mulVec v)
    have h2 := zpsd v
    have h3 := hW.2 (ofVec v) (ofVec_length v) (by
      rw [wquad_eq ⟨hW.1.rows, hW.1.cols⟩, toVec_ofVec]; linarith)
    have h4 := congrArg (toVec (2 * (x.c * x.r))) h3
    rwa [toVec_ofVec, toVec_replicate_zero] at h4)
  rw [hda] at hc
  obtain ⟨D, hDr, hDc, hDs, hdl, hDmin⟩ := correction_min hex rfl h.zs hsq hsym hW.1 hW.1 hc
  obtain ⟨c, D', hc', hD', hDr', hDc', hDs'⟩ := unstack_ok hdl
  have hDD : D' = D := stack_inj ⟨hDr', hDc'⟩ ⟨hDr, hDc⟩ (congrArg _ (hDs'.trans hDs.symm))
  subst hDD
  -- the projection
  obtain ⟨pd, xh, zh, hpd, pr, pc, e1, e2, hcons, hnear⟩ := C40_projected_data hinv x.c hsq rfl h.zs
  have hmin : min x.c pd.c = x.c := by rw [pc]; omega
  have hxr : xh.r = x.r := by rw [← e1]; show pd.r - 0 = _; rw [pr]; omega
  have hxc : xh.c = x.c := by rw [← e1]; rfl
  have hsame : D' = Spec.diff x xh := unit_unique rfl h.zs ⟨hDr, hDc⟩ ⟨rfl, rfl⟩ hDmin
    (nearest_min rfl h.zs hsq ⟨hxr, hxc, hcons, hnear⟩)
  obtain ⟨dA, hdA, hdAr, hdAc, _⟩ := regressionMatrix_spec lap x.c hdt D' hDc
  obtain ⟨B, hB, hBr, hBc, _⟩ := regressionMatrix_spec lap x.c hdt xh hxc
  have ham := regressionMatrix_diff lap hdt rfl ⟨hDr, hDc⟩ ⟨hxr, hxc⟩ hsame hA hdA hB
  rw [hxr] at hBr
  obtain ⟨amw, hamw, amwr, amwc, amwm⟩ := Arr2.matmul_mat (A := B.T) (B := Spec.unitWeights (2 * (x.c * x.r))) ⟨hBc, hBr⟩
    ⟨hW.1.rows, hW.1.cols⟩
  rw [unit_mat, Matrix.mul_one] at amwm
  obtain rfl : amw = B.T := Arr2.toMat_inj ⟨amwr, amwc⟩ ⟨hBc, hBr⟩ amwm
  obtain ⟨q, hq, qr, qc, qm⟩ := Arr2.matmul_mat (A := B.T) (B := B) ⟨amwr, amwc⟩ ⟨hBr, hBc⟩
  obtain ⟨sy2, hsy2, sr, sc, sm⟩ := Arr2.zipWith_mat (fun a b => a + cfg.lam * b) (A := q) (B := s.M) ⟨qr, qc⟩
    (by rw [hM]; exact ⟨rfl, rfl⟩)
  obtain ⟨l, hlv, ll, lm⟩ := Arr2.mulVec_mat (A := B.T) (v := Spec.stackReal z) ⟨amwr, amwc⟩ hbl
  have hmul : s.mu.length = nReal lap x.c := by rw [hmu]; simp [Prior.linB]
  obtain ⟨rh2, hrh2, rl2, _⟩ := broadcast1_mat (fun p q => p + cfg.lam * q) (u := l) (v := s.mu) ll hmul
  cases hsol : solve sy2 rh2 with
  | error e =>
    simp only [eivUnweightedStep, eivWeightedStep, hmin, hpd, e1, hB, addScaled, hc, hc', hD', hdA, ham, hamw, hq, hsy2, hlv, hrh2, hsol,
      Bind.bind, Except.bind]
  | ok y' =>
    obtain ⟨f1, f2, f3⟩ := Arr2.mulVec_inv (hex _ _ _ hsol)
    have hy'l : y'.length = nReal lap x.c := by rw [← f1, sc]
    obtain ⟨ym, _, _, _, _, _, hym⟩ := toMatrix_ok lap x.c hdt hy'l
    have hlog := h.prior.log hy'l (nReal_ne_one lap x.c)
    obtain ⟨ay, hay, ayl, aym⟩ := Arr2.mulVec_mat (A := B) (v := y') ⟨hBr, hBc⟩ hy'l
    obtain ⟨db, hdb, dbl, dbm⟩ := broadcast1_mat (fun p q : ℝ => p - q) (u := Spec.stackReal z) (v := ay) hbl ayl
    obtain ⟨wdb, hwdb, wdbl, wdbm⟩ := Arr2.mulVec_mat (A := Spec.unitWeights (2 * (x.c * x.r))) (v := db) ⟨hW.1.rows, hW.1.cols⟩ dbl
    obtain ⟨wda, hwda, wdal, wdam⟩ := Arr2.mulVec_mat (A := Spec.unitWeights (2 * (x.c * x.r))) (v := da) ⟨hW.1.rows, hW.1.cols⟩ hdl
    simp only [eivUnweightedStep, eivWeightedStep, hmin, hpd, e1, hB, addScaled, hc, hc', hD', hdA, ham, hamw, hq, hsy2, hlv, hrh2, hsol,
      hym, hlog, hay, hdb, hwdb, dotList_ok dbl wdbl, hwda, dotList_ok hdl wdal, Bind.bind, Except.bind, pure, Except.pure, Except.map]

/-! ### whole fits -/

/-- the states and matrices of a loop that is not stopped early -/
def traj (step : FitState → Except PyErr (FitState × ℝ)) : Nat → FitState → Except PyErr FitState × List (Arr2 ℂ)
  | 0, s => (.ok s, [])
  | k + 1, s =>
    match step s with
    | .error e => (.error e, [])
    | .ok (s', _) => ((traj step k s').1, s'.yMat :: (traj step k s').2)

theorem fitLoop_traj {cfg : RegConfig} (ha : cfg.absTol ≤ 0) (hr : cfg.relTol ≤ 0) (step : FitState → Except PyErr (FitState × ℝ))
    (k it : Nat) (s : FitState) (log : List IterationStatus) (hlog : log.length = it) :
    (fitLoop cfg step k it s log).1 = (traj step k s).1 ∧
    (fitLoop cfg step k it s log).2.map IterationStatus.params = log.map IterationStatus.params ++ (traj step k s).2 := by
  induction k generalizing it s log with
  | zero => exact ⟨rfl, by simp [fitLoop, traj]⟩
  | succ k ih =>
    unfold fitLoop traj
    cases hs : step s with
    | error e => exact ⟨rfl, by simp⟩
    | ok q =>
      obtain ⟨s', t⟩ := q
      obtain ⟨i1, i2⟩ := ih (it + 1) s' (log ++ [⟨it, s'.yMat, t⟩]) (by simp [hlog])
      have i3 : (fitLoop cfg step k (it + 1) s' (log ++ [⟨it, s'.yMat, t⟩])).2.map IterationStatus.params =
          log.map IterationStatus.params ++ s'.yMat :: (traj step k s').2 := by
        rw [i2]; simp
      by_cases hit : it > 0
      · dsimp only
        rw [if_pos hit]
        have hlt : it - 1 < (log ++ [(⟨it, s'.yMat, t⟩ : IterationStatus)]).length := by simp; omega
        rw [List.getElem?_eq_getElem hlt]
        dsimp only
        rw [if_neg (no_stationary ha hr _ _)]
        exact ⟨i1, i3⟩
      · dsimp only
        rw [if_neg hit]
        exact ⟨i1, i3⟩

/-- an unfinished loop logs the first matrices -/
theorem run_traj {step : FitState → Except PyErr (FitState × ℝ)} (run : List (FitState × ℝ)) (s : FitState)
    (h : Spec.IsRun step s run) (K k : Nat) (q : FitState × ℝ) (hq : run[k]? = some q) (hK : k < K) :
    (traj step K s).2[k]? = some q.1.yMat := by
  induction run generalizing s K k with
  | nil => simp at hq
  | cons e l ih =>
    obtain ⟨h1, h2⟩ := h
    cases K with
    | zero => omega
    | succ K =>
      unfold traj
      rw [h1]
      cases k with
      | zero =>
        simp only [List.getElem?_cons_zero, Option.some.injEq] at hq
        subst hq
        rfl
      | succ k =>
        simp only [List.getElem?_cons_succ] at hq ⊢
        exact ih e.1 h2 K k hq (by omega)

/-- loops whose bodies reach the same states visit the same matrices -/
theorem traj_congr {step step' : FitState → Except PyErr (FitState × ℝ)} {Good : FitState → Prop}
    (h : ∀ s, Good s → (step s).map Prod.fst = (step' s).map Prod.fst) (hg : ∀ s s' t, Good s → step' s = .ok (s', t) → Good s')
    (k : Nat) (s : FitState) (hs : Good s) : traj step k s = traj step' k s := by
  induction k generalizing s with
  | zero => rfl
  | succ k ih =>
    have h1 := h s hs
    unfold traj
    cases h2 : step' s with
    | error e =>
      cases h3 : step s with
      | error e' =>
        rw [h2, h3] at h1
        cases h1
        rfl
      | ok q => rw [h2, h3] at h1; cases h1
    | ok q =>
      cases h3 : step s with
      | error e' => rw [h2, h3] at h1; cases h1
      | ok q' =>
        rw [h2, h3] at h1
        have he : q'.1 = q.1 := Except.ok.inj h1
        obtain ⟨a, t⟩ := q
        obtain ⟨a', t'⟩ := q'
        obtain rfl : a' = a := he
        dsimp only
        rw [ih a' (hg s a' t hs h2)]

/-- the logged matrices and the result of a fit without early stop -/
theorem finish_traj {cfg : RegConfig} (ha : cfg.absTol ≤ 0) (hr : cfg.relTol ≤ 0) {step : FitState → Except PyErr (FitState × ℝ)}
    {k : Nat} {s : FitState} {res : Except PyErr Unit} {obj : RegObj}
    (h : finishFit RegObj.fresh (fitLoop cfg step k 0 s RegObj.fresh.iterations) = (res, obj)) :
    obj.iterations.map IterationStatus.params = (traj step k s).2 ∧
    res = (traj step k s).1.map (fun _ => ()) ∧ obj.admittance = (traj step k s).1.toOption.map FitState.yMat := by
  obtain ⟨h1, h2⟩ := fitLoop_traj ha hr step k 0 s [] rfl
  have hf : RegObj.fresh.iterations = [] := rfl
  rw [hf] at h
  generalize fitLoop cfg step k 0 s [] = q at h h1 h2
  obtain ⟨rs, log'⟩ := q
  dsimp only at h1 h2
  rw [← h1]
  cases rs <;> (simp only [finishFit, Prod.mk.injEq] at h; obtain ⟨rfl, rfl⟩ := h) <;> exact ⟨by simpa using h2, rfl, rfl⟩

/-- the logged matrices of a fit that may stop early are the first ones -/
theorem finish_prefix {cfg : RegConfig} {step : FitState → Except PyErr (FitState × ℝ)}
    {k : Nat} {s : FitState} {res : Except PyErr Unit} {obj : RegObj}
    (h : finishFit RegObj.fresh (fitLoop cfg step k 0 s RegObj.fresh.iterations) = (res, obj)) {i : Nat} {e : IterationStatus}
    (he : obj.iterations[i]? = some e) (K : Nat) (hK : i < K) : (traj step K s).2[i]? = some e.params := by
  have hf : RegObj.fresh.iterations = [] := rfl
  rw [hf] at h
  generalize hr : fitLoop cfg step k 0 s [] = q at h
  obtain ⟨rs, log'⟩ := q
  obtain ⟨run, r1, _, r3, _, _⟩ := fitLoop_spec _ _ k 0 s [] log' rs rfl hr
  rw [List.nil_append] at r3
  have hlog : obj.iterations = Spec.entries 0 run := by
    cases rs <;> simp only [finishFit, Prod.mk.injEq] at h <;> rw [← h.2, ← r3]
  rw [hlog, entries_get] at he
  cases hq : run[i]? with
  | none => rw [hq] at he; cases he
  | some q =>
    rw [hq] at he
    cases he
    exact run_traj run s r1 K i q hq hK

/-- a fit logs at most as many entries as it has iterations -/
theorem finish_length {cfg : RegConfig} {step : FitState → Except PyErr (FitState × ℝ)}
    {k : Nat} {s : FitState} {res : Except PyErr Unit} {obj : RegObj}
    (h : finishFit RegObj.fresh (fitLoop cfg step k 0 s RegObj.fresh.iterations) = (res, obj)) : obj.iterations.length ≤ k := by
  have hf : RegObj.fresh.iterations = [] := rfl
  rw [hf] at h
  generalize hr : fitLoop cfg step k 0 s [] = q at h
  obtain ⟨rs, log'⟩ := q
  obtain ⟨run, r1, r2, r3, _, _⟩ := fitLoop_spec _ _ k 0 s [] log' rs rfl hr
  rw [List.nil_append] at r3
  have hlog : obj.iterations = Spec.entries 0 run := by
    cases rs <;> simp only [finishFit, Prod.mk.injEq] at h <;> rw [← h.2, ← r3]
  rw [hlog]
  have : ∀ it (l : List (FitState × ℝ)), (Spec.entries it l).length = l.length := by
    intro it l
    induction l generalizing it with
    | nil => rfl
    | cons e l ih => simp [Spec.entries, ih]
  rw [this]
  exact r2

/-- the matrices of both fits from a symmetric state -/
theorem unit_traj {lap : Bool} {n : Nat} {cfg : RegConfig} {x z yInit : Arr2 ℂ} (h : FitSetup lap n cfg x z yInit)
    {solve : Solver} (hex : Spec.Exact solve) (htot : Spec.Total solve) {inv : Arr2 ℂ → Except PyErr (Arr2 ℂ)}
    (hinv : Spec.InvContract inv) {dt : Arr2 ℂ} (hdt : dtMatrix ℂ lap n = .ok dt) {A : Arr2 ℝ}
    (hA : regressionMatrix n x dt = .ok A) {y : List ℝ} {s : FitState} (hs : StateAt cfg.prior (nReal lap n) y s)
    (hsq : Spec.IsSquare n s.yMat) (hsym : Spec.IsSymm s.yMat) (K : Nat) :
    traj (eivUnweightedStep solve inv cfg x z dt (Spec.stackReal z)) K s =
      traj (eivWeightedStep solve cfg x dt A (Spec.stackReal x) (Spec.stackReal z) (Spec.unitWeights (2 * (n * x.r)))
        (Spec.unitWeights (2 * (n * x.r)))) K s := by
  refine traj_congr (Good := fun s => (∃ y, StateAt cfg.prior (nReal lap n) y s) ∧ Spec.IsSquare n s.yMat ∧ Spec.IsSymm s.yMat)
    (fun s hs => ?_) (fun s s' t hs hst => ?_) K s ⟨⟨y, hs⟩, hsq, hsym⟩
  · obtain ⟨⟨y, h1⟩, h2, h3⟩ := hs
    exact unit_step h hex htot hinv hdt hA h1 h2 h3
  · obtain ⟨⟨y, h1⟩, h2, h3⟩ := hs
    obtain ⟨y', hy', hm⟩ := eivStep_own h hex h1 hst
    obtain ⟨a1, a2⟩ := toMatrix_admissible lap n hdt hm
    exact ⟨⟨y', hy'⟩, a1, a2.1⟩

/-- `fit` with one of the weights missing -/
theorem eivFit_unweighted (solve : Solver) (inv : Arr2 ℂ → Except PyErr (Arr2 ℂ)) (cfg : RegConfig) (obj : RegObj) (x z : Arr2 ℂ)
    {xW zW : Option (Arr2 ℝ)} (hw : xW = none ∨ zW = none) (yInit : Arr2 ℂ) :
    ∃ xW' zW', (xW' = none ∨ zW' = none) ∧ eivFit solve inv cfg obj x z xW zW yInit = eivBody solve inv cfg obj x z xW' zW' yInit := by
  rcases hw with rfl | rfl
  · exact ⟨none, _, .inl rfl, rfl⟩
  · exact ⟨xW, none, .inr rfl, rfl⟩

/-- C154: started at a symmetric matrix, the fit without weights logs the matrices the fit with weight one on every measurement logs,
whatever the tolerances and numbers of iterations of both; without early stop their results and exceptions are equal too. -/
theorem C154 {lap : Bool} {n : Nat} {cfg : RegConfig} {x z yInit : Arr2 ℂ} (h : FitSetup lap n cfg x z yInit)
    {solve : Solver} (hex : Spec.Exact solve) (htot : Spec.Total solve) {inv : Arr2 ℂ → Except PyErr (Arr2 ℂ)}
    (hinv : Spec.InvContract inv) (hsym : Spec.IsSymm yInit) {xW zW : Option (Arr2 ℝ)} (hw : xW = none ∨ zW = none)
    {K K' : Nat} {ta tr ta' tr' : ℝ} {res res' : Except PyErr Unit} {obj obj' : RegObj}
    (hu : eivFit solve inv { cfg with maxIter := K, absTol := ta, relTol := tr } RegObj.fresh x z xW zW yInit = (res, obj))
    (hu' : eivFit solve inv { cfg with maxIter := K', absTol := ta', relTol := tr' } RegObj.fresh x z
      (some (Spec.unitWeights (2 * (n * x.r)))) (some (Spec.unitWeights (2 * (n * x.r)))) yInit = (res', obj')) :
    (∀ (k : Nat) (e e' : IterationStatus), obj.iterations[k]? = some e → obj'.iterations[k]? = some e' → e.params = e'.params) ∧
    (K ≤ K' → ta' ≤ 0 → tr' ≤ 0 → obj.iterations.length ≤ obj'.iterations.length) ∧
    (K = K' → ta ≤ 0 → tr ≤ 0 → ta' ≤ 0 → tr' ≤ 0 → res = res' ∧ obj.admittance = obj'.admittance ∧
      obj.iterations.length = obj'.iterations.length) := by
  have hK : ∀ K ta tr, FitSetup lap n { cfg with maxIter := K, absTol := ta, relTol := tr } x z yInit :=
    fun K ta tr => ⟨h.dt, h.e, h.xc, h.zs, h.init, h.prior, h.alpha⟩
  obtain ⟨xW', zW', hw', he⟩ := eivFit_unweighted solve inv { cfg with maxIter := K, absTol := ta, relTol := tr } RegObj.fresh x z hw yInit
  obtain ⟨dt, A, y0, s, hdt, hA, hst, hsy, hY0, -, hf⟩ := eivSetup_ok (hK K ta tr) solve inv
  obtain ⟨dt', A', y0', s', hdt', hA', hst', hsy', hY0', hf', -⟩ := eivSetup_ok (hK K' ta' tr') solve inv
  rw [hdt] at hdt'; cases hdt'
  rw [hA] at hA'; cases hA'
  have hyy : y0' = y0 := toMatrix_inj lap n hdt hst'.1 hst.1 hY0' hY0
  subst hyy
  have hss : s' = s := by
    obtain ⟨_, a1, a2⟩ := hst
    obtain ⟨_, b1, b2⟩ := hst'
    cases s; cases s'
    simp only at a1 a2 b1 b2 hsy hsy'
    subst a1 a2 b1 b2 hsy hsy'
    rfl
  subst hss
  rw [he, hf _ _ _ hw'] at hu
  have hb : eivBody solve inv { cfg with maxIter := K', absTol := ta', relTol := tr' } RegObj.fresh x z
    (some (Spec.unitWeights (2 * (n * x.r)))) (some (Spec.unitWeights (2 * (n * x.r)))) yInit = (res', obj') := hu'
  rw [hf'] at hb
  have hsame := fun K => unit_traj (K := K) h hex htot hinv hdt hA (s := s') hst (by rw [hsy]; exact h.init) (by rw [hsy]; exact hsym)
  refine ⟨fun k e e' hk hk' => ?_, fun hKK h1 h2 => ?_, fun hKK h1 h2 h3 h4 => ?_⟩
  · have p1 := finish_prefix hu hk (k + 1) (by omega)
    have p2 := finish_prefix hb hk' (k + 1) (by omega)
    have p3 := hsame (k + 1)
    have p1 : (traj (eivUnweightedStep solve inv cfg x z dt (Spec.stackReal z)) (k + 1) s').2[k]? = some e.params := p1
    rw [p3] at p1
    exact Option.some.inj (p1.symm.trans p2)
  · have hlen := finish_length hu
    have hlen : obj.iterations.length ≤ K := hlen
    obtain ⟨b1, -, -⟩ := finish_traj h1 h2 hb
    by_contra hlt
    push Not at hlt
    have hk := List.getElem?_eq_getElem hlt
    have p1 := finish_prefix hu hk K' (by omega)
    have p1 : (traj (eivUnweightedStep solve inv cfg x z dt (Spec.stackReal z)) K' s').2[obj'.iterations.length]? =
      some (obj.iterations[obj'.iterations.length].params) := p1
    have b1 : obj'.iterations.map IterationStatus.params = (traj (eivWeightedStep solve cfg x dt A (Spec.stackReal x) (Spec.stackReal z)
      (Spec.unitWeights (2 * (n * x.r))) (Spec.unitWeights (2 * (n * x.r)))) K' s').2 := b1
    rw [hsame, ← b1] at p1
    simp at p1
  · subst hKK
    obtain ⟨a1, a2, a3⟩ := finish_traj h1 h2 hu
    obtain ⟨b1, b2, b3⟩ := finish_traj h3 h4 hb
    have p3 := hsame K
    have a1 : obj.iterations.map IterationStatus.params = (traj (eivUnweightedStep solve inv cfg x z dt (Spec.stackReal z)) K s').2 := a1
    have a2 : res = (traj (eivUnweightedStep solve inv cfg x z dt (Spec.stackReal z)) K s').1.map (fun _ => ()) := a2
    have a3 : obj.admittance = (traj (eivUnweightedStep solve inv cfg x z dt (Spec.stackReal z)) K s').1.toOption.map FitState.yMat := a3
    rw [p3] at a1 a2 a3
    refine ⟨a2.trans b2.symm, a3.trans b3.symm, ?_⟩
    have := congrArg List.length (a1.trans b1.symm)
    simpa using this

/-- the state after an iteration is the one from which a fit started at its matrix begins -/
theorem state_restart {lap : Bool} {n : Nat} {cfg : RegConfig} {x z yInit : Arr2 ℂ} (h : FitSetup lap n cfg x z yInit)
    (solve : Solver) (inv : Arr2 ℂ → Except PyErr (Arr2 ℂ)) {dt : Arr2 ℂ} (hdt : dtMatrix ℂ lap n = .ok dt) {A : Arr2 ℝ}
    (hA : regressionMatrix n x dt = .ok A) {y : List ℝ} {s : FitState} (hs : StateAt cfg.prior (nReal lap n) y s)
    (hY : toMatrix n dt y = .ok s.yMat) (xW zW : Arr2 ℝ) :
    FitSetup lap n cfg x z s.yMat ∧ eivBody solve inv cfg RegObj.fresh x z (some xW) (some zW) s.yMat = finishFit RegObj.fresh
      (fitLoop cfg (eivWeightedStep solve cfg x dt A (Spec.stackReal x) (Spec.stackReal z) xW zW) cfg.maxIter 0 s []) := by
  obtain ⟨hsq, had⟩ := toMatrix_admissible lap n hdt hY
  have h' : FitSetup lap n cfg x z s.yMat := ⟨h.dt, h.e, h.xc, h.zs, hsq, h.prior, h.alpha⟩
  obtain ⟨dt', A', y0', s', hdt', hA', hst', hsy', hY0', hf', -⟩ := eivSetup_ok h' solve inv
  rw [hdt] at hdt'; cases hdt'
  rw [hA] at hA'; cases hA'
  rw [projection_admissible lap n hsq had] at hY0'
  have hyy : y0' = y := toMatrix_inj lap n hdt hst'.1 hs.1 hY0' hY
  subst hyy
  have hss : s' = s := by
    obtain ⟨_, a1, a2⟩ := hs
    obtain ⟨_, b1, b2⟩ := hst'
    cases s; cases s'
    simp only at a1 a2 b1 b2 hsy'
    subst a1 a2 b1 b2 hsy'
    rfl
  subst hss
  exact ⟨h', hf' _ _ _⟩

/-- C154 for any start: after its first iteration the fit without weights continues as the fit with weight one on every measurement
started at the matrix of that iteration. -/
theorem C154_first {lap : Bool} {n : Nat} {cfg : RegConfig} {x z yInit : Arr2 ℂ} (h : FitSetup lap n cfg x z yInit)
    {solve : Solver} (hex : Spec.Exact solve) (htot : Spec.Total solve) {inv : Arr2 ℂ → Except PyErr (Arr2 ℂ)}
    (hinv : Spec.InvContract inv) {xW zW : Option (Arr2 ℝ)} (hw : xW = none ∨ zW = none)
    (ha : cfg.absTol ≤ 0) (hr : cfg.relTol ≤ 0) {K : Nat} {res : Except PyErr Unit} {obj : RegObj}
    (hu : eivFit solve inv { cfg with maxIter := K + 1 } RegObj.fresh x z xW zW yInit = (res, obj)) :
    (∃ e, res = .error e ∧ obj.iterations = []) ∨ ∃ e1 obj', obj.iterations[0]? = some e1 ∧ FitSetup lap n cfg x z e1.params ∧
      Spec.Admissible lap e1.params ∧
      eivFit solve inv { cfg with maxIter := K } RegObj.fresh x z (some (Spec.unitWeights (2 * (n * x.r))))
        (some (Spec.unitWeights (2 * (n * x.r)))) e1.params = (res, obj') ∧
      obj.admittance = obj'.admittance ∧
      obj.iterations.map IterationStatus.params = e1.params :: obj'.iterations.map IterationStatus.params := by
  have h1 : FitSetup lap n { cfg with maxIter := K + 1 } x z yInit := ⟨h.dt, h.e, h.xc, h.zs, h.init, h.prior, h.alpha⟩
  have h2 : FitSetup lap n { cfg with maxIter := K } x z yInit := ⟨h.dt, h.e, h.xc, h.zs, h.init, h.prior, h.alpha⟩
  obtain ⟨xW', zW', hw', he⟩ := eivFit_unweighted solve inv { cfg with maxIter := K + 1 } RegObj.fresh x z hw yInit
  obtain ⟨dt, A, y0, s, hdt, hA, hst, hsy, hY0, -, hf⟩ := eivSetup_ok h1 solve inv
  rw [he, hf _ _ _ hw'] at hu
  obtain ⟨a1, a2, a3⟩ := finish_traj (cfg := { cfg with maxIter := K + 1 }) ha hr hu
  have a1 : obj.iterations.map IterationStatus.params =
    (traj (eivUnweightedStep solve inv cfg x z dt (Spec.stackReal z)) (K + 1) s).2 := a1
  have a2 : res = (traj (eivUnweightedStep solve inv cfg x z dt (Spec.stackReal z)) (K + 1) s).1.map (fun _ => ()) := a2
  have a3 : obj.admittance =
    (traj (eivUnweightedStep solve inv cfg x z dt (Spec.stackReal z)) (K + 1) s).1.toOption.map FitState.yMat := a3
  unfold traj at a1 a2 a3
  cases hstep : eivUnweightedStep solve inv cfg x z dt (Spec.stackReal z) s with
  | error e =>
    rw [hstep] at a1 a2
    exact .inl ⟨e, a2, List.map_eq_nil_iff.1 a1⟩
  | ok q =>
    obtain ⟨s1, t⟩ := q
    rw [hstep] at a1 a2 a3
    dsimp only at a1 a2 a3
    obtain ⟨xh, zh, y1, -, hs1, hY1, -⟩ := (unwStep_at h hex hinv hdt hst (by rw [hsy]; exact h.init)).1 s1 t hstep
    obtain ⟨hsq1, had1⟩ := toMatrix_admissible lap n hdt hY1
    rw [unit_traj h hex htot hinv hdt hA hs1 hsq1 had1.1] at a1 a2 a3
    obtain ⟨hset, hb⟩ := state_restart h2 solve inv hdt hA hs1 hY1 (Spec.unitWeights (2 * (n * x.r))) (Spec.unitWeights (2 * (n * x.r)))
    generalize hq : eivBody solve inv { cfg with maxIter := K } RegObj.fresh x z (some (Spec.unitWeights (2 * (n * x.r))))
      (some (Spec.unitWeights (2 * (n * x.r)))) s1.yMat = q at hb
    obtain ⟨res', obj'⟩ := q
    obtain ⟨b1, b2, b3⟩ := finish_traj (cfg := { cfg with maxIter := K }) ha hr hb.symm
    have b1 : obj'.iterations.map IterationStatus.params = (traj (eivWeightedStep solve cfg x dt A (Spec.stackReal x) (Spec.stackReal z)
      (Spec.unitWeights (2 * (n * x.r))) (Spec.unitWeights (2 * (n * x.r)))) K s1).2 := b1
    have b2 : res' = (traj (eivWeightedStep solve cfg x dt A (Spec.stackReal x) (Spec.stackReal z)
      (Spec.unitWeights (2 * (n * x.r))) (Spec.unitWeights (2 * (n * x.r)))) K s1).1.map (fun _ => ()) := b2
    have b3 : obj'.admittance = (traj (eivWeightedStep solve cfg x dt A (Spec.stackReal x) (Spec.stackReal z)
      (Spec.unitWeights (2 * (n * x.r))) (Spec.unitWeights (2 * (n * x.r)))) K s1).1.toOption.map FitState.yMat := b3
    rw [← b1] at a1
    cases hit : obj.iterations with
    | nil => rw [hit] at a1; cases a1
    | cons e1 l =>
      rw [hit, List.map_cons] at a1
      obtain ⟨c1, c2⟩ := List.cons.inj a1
      refine .inr ⟨e1, obj', rfl, by rw [c1]; exact ⟨h.dt, h.e, h.xc, h.zs, hsq1, h.prior, h.alpha⟩, by rw [c1]; exact had1, ?_,
        a3.trans b3.symm, by rw [List.map_cons, c2]⟩
      rw [c1, a2, ← b2]
      exact hq

/-! ### C155 limits -/

/-- C155: with zero tolerances the estimates of the fit without weights after 1, 2, 3, ... iterations come and stay arbitrarily close
to critical points of the objective with weight one on every measurement, and have a common bound. -/
theorem C155_fit {lap : Bool} {n : Nat} {cfg : RegConfig} {x z yInit : Arr2 ℂ} (h : FitSetup lap n cfg x z yInit)
    (hl : 0 < cfg.lam) (ho : ∀ t ∈ Spec.terms cfg.prior, t.order = 1 ∨ t.order = 2)
    (hsp : Spec.Spanning cfg.prior (nReal lap n)) {solve : Solver} (hex : Spec.Exact solve) (htot : Spec.Total solve)
    {inv : Arr2 ℂ → Except PyErr (Arr2 ℂ)} (hinv : Spec.InvContract inv) {xW zW : Option (Arr2 ℝ)} (hw : xW = none ∨ zW = none) :
    ∃ M : ℕ → Arr2 ℂ,
      (∀ K ta tr, ta ≤ 0 → tr ≤ 0 → ∃ obj, eivFit solve inv { cfg with maxIter := K, absTol := ta, relTol := tr }
        RegObj.fresh x z xW zW yInit = (.ok (), obj) ∧ obj.admittance = some (M K)) ∧
      (∀ i j, i < n → j < n → Tendsto (fun K => (M (K + 1)).get i j - (M K).get i j) atTop (𝓝 0)) ∧
      (∀ ε : ℝ, 0 < ε → ∃ K0, ∀ K, K0 ≤ K → ∃ Y D,
        Spec.EivCritical lap n cfg (Spec.unitWeights (2 * (n * x.r))) (Spec.unitWeights (2 * (n * x.r))) x z Y D ∧
        ∀ i j, i < n → j < n → ‖(M K).get i j - Y.get i j‖ < ε) ∧
      ∃ B : ℝ, ∀ K i j, i < n → j < n → ‖(M (K + 1)).get i j‖ ≤ B := by
  have hset : ∀ K ta tr, FitSetup lap n { cfg with maxIter := K, absTol := ta, relTol := tr } x z yInit :=
    fun K ta tr => ⟨h.dt, h.e, h.xc, h.zs, h.init, h.prior, h.alpha⟩
  obtain ⟨dt, A, y0, s, hdt, hA, hst, hsy, hY0, -, -⟩ := eivSetup_ok h solve inv
  have hsq : Spec.IsSquare n s.yMat := by rw [hsy]; exact h.init
  obtain ⟨s1, t, hstep⟩ := (unwStep_at h hex hinv hdt hst hsq).2 hl hsp htot
  obtain ⟨xh, zh, y1, -, hs1, hY1, -⟩ := (unwStep_at h hex hinv hdt hst hsq).1 s1 t hstep
  obtain ⟨hsq1, had1⟩ := toMatrix_admissible lap n hdt hY1
  have hW := unit_posDef (2 * (n * x.r))
  have hs' : FitSetup lap n cfg x z s1.yMat := ⟨h.dt, h.e, h.xc, h.zs, hsq1, h.prior, h.alpha⟩
  obtain ⟨M', m1, -, m4, m2, -, -, m3⟩ := C148_limits hs' hl ho hsp hW hW.1 hex htot inv
  -- the fits
  have hfit : ∀ K ta tr, eivFit solve inv { cfg with maxIter := K, absTol := ta, relTol := tr } RegObj.fresh x z xW zW yInit =
      finishFit RegObj.fresh (fitLoop { cfg with maxIter := K, absTol := ta, relTol := tr }
        (eivUnweightedStep solve inv cfg x z dt (Spec.stackReal z)) K 0 s RegObj.fresh.iterations) := by
    intro K ta tr
    obtain ⟨xW', zW', hw', he⟩ := eivFit_unweighted solve inv { cfg with maxIter := K, absTol := ta, relTol := tr } RegObj.fresh x z hw yInit
    obtain ⟨dt', A', y0', s', hdt', hA', hst', hsy', hY0', -, hf⟩ := eivSetup_ok (hset K ta tr) solve inv
    rw [hdt] at hdt'; cases hdt'
    rw [hA] at hA'; cases hA'
    have hyy : y0' = y0 := toMatrix_inj lap n hdt hst'.1 hst.1 hY0' hY0
    subst hyy
    have hss : s' = s := by
      obtain ⟨_, a1, a2⟩ := hst
      obtain ⟨_, b1, b2⟩ := hst'
      cases s; cases s'
      simp only at a1 a2 b1 b2 hsy hsy'
      subst a1 a2 b1 b2 hsy hsy'
      rfl
    subst hss
    rw [he]
    exact hf _ _ _ hw'
  have hM' : ∀ K, (traj (eivUnweightedStep solve inv cfg x z dt (Spec.stackReal z)) (K + 1) s).1.map FitState.yMat = .ok (M' K) := by
    intro K
    unfold traj
    rw [hstep]
    dsimp only
    rw [unit_traj h hex htot hinv hdt hA hs1 hsq1 had1.1]
    obtain ⟨obj, o1, o2⟩ := m1 K 0 0 le_rfl le_rfl
    obtain ⟨-, hb⟩ := state_restart (hset K 0 0) solve inv hdt hA hs1 hY1 (Spec.unitWeights (2 * (n * x.r)))
      (Spec.unitWeights (2 * (n * x.r)))
    rw [o1] at hb
    obtain ⟨-, b2, b3⟩ := finish_traj (cfg := { cfg with maxIter := K, absTol := 0, relTol := 0 }) le_rfl le_rfl hb.symm
    have b2 : Except.ok () = (traj (eivWeightedStep solve cfg x dt A (Spec.stackReal x) (Spec.stackReal z)
      (Spec.unitWeights (2 * (n * x.r))) (Spec.unitWeights (2 * (n * x.r)))) K s1).1.map (fun _ => ()) := b2
    have b3 : obj.admittance = (traj (eivWeightedStep solve cfg x dt A (Spec.stackReal x) (Spec.stackReal z)
      (Spec.unitWeights (2 * (n * x.r))) (Spec.unitWeights (2 * (n * x.r)))) K s1).1.toOption.map FitState.yMat := b3
    rw [o2] at b3
    generalize (traj (eivWeightedStep solve cfg x dt A (Spec.stackReal x) (Spec.stackReal z)
      (Spec.unitWeights (2 * (n * x.r))) (Spec.unitWeights (2 * (n * x.r)))) K s1).1 = r at b2 b3
    cases r with
    | error e => cases b2
    | ok q => exact congrArg Except.ok (Option.some.inj b3).symm
  refine ⟨fun K => match K with | 0 => yInit | K + 1 => M' K, ?_, ?_, ?_, m4⟩
  · intro K ta tr ha hr
    rw [hfit K ta tr]
    generalize hq : finishFit RegObj.fresh (fitLoop { cfg with maxIter := K, absTol := ta, relTol := tr }
      (eivUnweightedStep solve inv cfg x z dt (Spec.stackReal z)) K 0 s RegObj.fresh.iterations) = q
    obtain ⟨res, obj⟩ := q
    obtain ⟨-, a2, a3⟩ := finish_traj (cfg := { cfg with maxIter := K, absTol := ta, relTol := tr }) ha hr hq
    cases K with
    | zero =>
      refine ⟨obj, by rw [a2]; rfl, ?_⟩
      rw [a3]
      show some s.yMat = _
      rw [hsy]
    | succ K =>
      have hm := hM' K
      generalize (traj (eivUnweightedStep solve inv cfg x z dt (Spec.stackReal z)) (K + 1) s).1 = r at a2 a3 hm
      cases r with
      | error e => cases hm
      | ok q => exact ⟨obj, by rw [a2]; rfl, by rw [a3]; exact congrArg some (Except.ok.inj hm)⟩
  · intro i j hi hj
    rw [← tendsto_add_atTop_iff_nat 1]
    exact m2 i j hi hj
  · intro ε hε
    obtain ⟨K0, hK0⟩ := m3 ε hε
    refine ⟨K0 + 1, fun K hK => ?_⟩
    obtain ⟨k, rfl⟩ : ∃ k, K = k + 1 := ⟨K - 1, by omega⟩
    obtain ⟨Y, D, hb, hc⟩ := hK0 k (by omega)
    exact ⟨Y, D, (C150_critical h hl.le ho hW.1 hW.1 Y D).1 hb, hc⟩

/-- `bayesian_eiv` without weights and with zero tolerances: with enough iterations it returns, and stores, an estimate as close as
wanted to a critical point of the objective with weight one on every measurement -/
theorem C155_run {ext : NumExt} {cf : IdConf} (hex : Spec.Exact ext.solve) (htot : Spec.Total ext.solve)
    (hinv : Spec.InvContract ext.inv) (hl : 0 < cf.lambdaEiv)
    (ha : cf.absTol ≤ 0) (hr : cf.relTol ≤ 0) {v i y0 : Arr2 ℂ} (hy0 : Spec.IsSquare v.c y0) (hsh : i.r = v.r ∧ i.c = v.c)
    (ye : Option (Arr2 ℂ)) (lap pmu : Bool) (hye : ∀ y, ye = some y → 29 ≤ v.c ∧ Spec.IsSquare v.c y ∧ lap = false)
    (h90 : ¬ (lap = true ∧ cf.contrastEachRow = true ∧ cf.regularizeDiag = true)) (hseen : Spec.LinesSeen v.c y0)
    (hdet : lap = true ∨ (cf.contrastEachRow = true ∧ cf.regularizeDiag = true ∧ cf.lambdaprime ≠ 0))
    (vsd isd : SdPolar) (ratings : List ℝ) (name : String) (st : Store) :
    ∃ prior, eivPrior cf v.c y0 ye lap = .ok prior ∧
      ∀ ε : ℝ, 0 < ε → ∃ K0, ∀ K, K0 ≤ K → ∃ Y' log Y D,
        bayesianEiv ext cf name (some v) (some i) vsd isd ratings y0 ye lap false K pmu st =
          (.ok (Y', log), st.savez (resultFile .bayesian name) (bayesianNpz (Y', log))) ∧
        Spec.EivCritical lap v.c (regConfig cf prior cf.lambdaEiv lap 0) (Spec.unitWeights (2 * (v.c * v.r)))
          (Spec.unitWeights (2 * (v.c * v.r))) (centreData lap v i).1 (centreData lap v i).2 Y D ∧
        ∀ a b, a < v.c → b < v.c → ‖Y'.get a b - Y.get a b‖ < ε := by
  obtain ⟨prior, hpr, hpa, hpu, hps, hpo⟩ := eiv_prior cf v.c y0 hy0 ye lap hye h90
  refine ⟨prior, hpr, fun ε hε => ?_⟩
  obtain ⟨s1, s2, s3, s4⟩ := centreData_shape lap v i
  have hs : FitSetup lap v.c (regConfig cf prior cf.lambdaEiv lap 0) (centreData lap v i).1 (centreData lap v i).2 y0 :=
    ⟨rfl, rfl, s2, ⟨by rw [s3, s1, hsh.1], by rw [s4, hsh.2]⟩, hy0, hpu, hpa⟩
  obtain ⟨M, hfit, -, hlim, -⟩ := C155_fit hs hl (fun t ht => .inl (hpo t ht)) (hps hseen hdet) hex htot hinv (xW := none) (zW := none)
    (.inl rfl)
  obtain ⟨K0, hK⟩ := hlim ε hε
  refine ⟨K0 + 1, fun K hk => ?_⟩
  obtain ⟨Y, D, hcrit, hclose⟩ := hK K (by omega)
  obtain ⟨obj, ho, hoY⟩ := hfit K cf.absTol cf.relTol ha hr
  rw [s1] at hcrit
  refine ⟨M K, obj.iterations, Y, D, ?_, hcrit, hclose⟩
  have ho : eivFit ext.solve ext.inv (regConfig cf prior cf.lambdaEiv lap K) .fresh (centreData lap v i).1 (centreData lap v i).2
      none none y0 = (.ok (), obj) := ho
  have hc : eivCompute ext cf prior v i vsd isd ratings y0 lap false K pmu = .ok (M K, obj.iterations) := by
    simp only [eivCompute, eivWeights, Bool.false_and, Bool.false_eq_true, if_false, pure, Except.pure, Bind.bind, Except.bind, ho, fitted,
      hoY]
  have hK0 : decide (K > 0) = true := by simp; omega
  simp only [bayesianEiv, hpr, hK0, hc]

theorem scalar_symm (y : ℂ) : Spec.IsSymm (scalarArr y) :=
  ⟨rfl, fun i j => by simp only [scalarArr, Arr2.ofFn_get', and_comm (a := i < 1)]⟩

/-- `C154` applies to one sample of one node, any current and any start; both fits make `K` iterations -/
example (K : Nat) (c y : ℂ) : FitSetup false 1 (oneCfg 1) (scalarArr 1) (scalarArr c) (scalarArr y) ∧ Spec.IsSymm (scalarArr y) ∧
    ∃ obj obj', eivFit exactSolve exactInv { oneCfg 1 with maxIter := K, absTol := 0, relTol := 0 } RegObj.fresh (scalarArr 1) (scalarArr c)
        none none (scalarArr y) = (.ok (), obj) ∧
      eivFit exactSolve exactInv { oneCfg 1 with maxIter := K, absTol := 0, relTol := 0 } RegObj.fresh (scalarArr 1) (scalarArr c)
        (some (Spec.unitWeights 2)) (some (Spec.unitWeights 2)) (scalarArr y) = (.ok (), obj') ∧
      obj.admittance = obj'.admittance := by
  have h := one_setup 1 c y
  refine ⟨h, scalar_symm y, ?_⟩
  obtain ⟨M, hM, -, -⟩ := C155_fit h (by norm_num [oneCfg]) (by simp [oneCfg, onePrior, Spec.terms]) one_spanning exactSolve_exact
    exactSolve_total exactInv_contract (xW := none) (zW := none) (.inl rfl)
  obtain ⟨obj, ho, -⟩ := hM K 0 0 le_rfl le_rfl
  generalize hg : eivFit exactSolve exactInv { oneCfg 1 with maxIter := K, absTol := 0, relTol := 0 } RegObj.fresh (scalarArr 1) (scalarArr c)
        (some (Spec.unitWeights 2)) (some (Spec.unitWeights 2)) (scalarArr y) = q
  obtain ⟨res', obj'⟩ := q
  obtain ⟨-, -, h3⟩ := C154 h exactSolve_exact exactSolve_total exactInv_contract (scalar_symm y) (.inl rfl) ho hg
  obtain ⟨e1, e2, -⟩ := h3 rfl le_rfl le_rfl le_rfl le_rfl
  subst e1
  exact ⟨obj, obj', ho, rfl, e2⟩

/-- `C155_run` applies to two samples of two nodes -/
example (pmu : Bool) (st : Store) : ∃ K0, ∀ K, K0 ≤ K → ∃ r, (bayesianEiv ⟨exactPinv, exactSvd, exactInv, exactSolve⟩
    ⟨1, 1, 1, 0, 0, true, true, true⟩ "a" (some demoV126) (some demoV126) ⟨1, 1⟩ ⟨1, 1⟩ [1, 1] demoY126 none false false K pmu st).1 =
      .ok r := by
  obtain ⟨_, _, h⟩ := C155_run (ext := ⟨exactPinv, exactSvd, exactInv, exactSolve⟩)
    (cf := ⟨1, 1, 1, 0, 0, true, true, true⟩) exactSolve_exact exactSolve_total exactInv_contract one_pos le_rfl le_rfl (v := demoV126)
    (i := demoV126) (y0 := demoY126) ⟨rfl, rfl⟩ ⟨rfl, rfl⟩ none false pmu (fun y h => by cases h) (fun h => by cases h.1) demoY126_seen
    (.inr ⟨rfl, rfl, one_ne_zero⟩) ⟨1, 1⟩ ⟨1, 1⟩ [1, 1] "a" st
  obtain ⟨K0, hK⟩ := h 1 one_pos
  refine ⟨K0, fun K hk => ?_⟩
  obtain ⟨Y', log, _, _, h1, _⟩ := hK K hk
  exact ⟨(Y', log), by rw [h1]⟩

end
end Verif
