/-
C35: fitting twice on one object. Also concrete problems meeting the hypotheses of C32-C37.
-/
import Verif.Props.Regression

namespace Verif
open Finset Matrix
noncomputable section

/-! ### a one-node problem: `x = (1)`, Laplace prior on the real part, `λ = α = 1` -/

def demoPrior : Prior := ⟨2, 2, [[1, 0]], [0], [1], 1, false, false⟩

def demoCfg : RegConfig := ⟨demoPrior, 1, 1 / 10, 0, 3, dtMatrix ℂ false, eMatrix ℂ false⟩

/-- the 1-by-1 array `c` -/
def scalarArr (c : ℂ) : Arr2 ℂ := Arr2.ofFn 1 1 (fun _ _ => c)

theorem scalarArr_get (c : ℂ) : (scalarArr c).get 0 0 = c := Arr2.ofFn_get _ (by norm_num) (by norm_num)

theorem demo_terms : Spec.terms demoPrior = [⟨[1, 0], 0, 1⟩] := rfl

theorem demo_setup (c y : ℂ) : FitSetup false 1 demoCfg (scalarArr 1) (scalarArr c) (scalarArr y) where
  dt := rfl
  e := rfl
  xc := rfl
  zs := ⟨rfl, rfl⟩
  init := ⟨rfl, rfl⟩
  prior := ⟨⟨rfl, rfl, rfl, by simp [demoCfg, demoPrior], rfl⟩, rfl, by simp [demoCfg, demoPrior]⟩
  alpha := by simp [demoCfg, demoPrior]

theorem demo_params (Y : Arr2 ℂ) : Spec.params false 1 Y = [(Y.get 0 0).re, (Y.get 0 0).im] := by
  simp [Spec.params, Spec.vech]

theorem demo_identifiable (c : ℂ) (hc : c ≠ 0) (p : Prior) (lam : ℝ) : Spec.Identifiable false 1 p lam (scalarArr c) := by
  apply identifiable_of_full_rank false 1 p lam _ rfl
  intro v hv h
  match v, hv with
  | [a], _ =>
    have hm : (scalarArr c).mulVec [a] = .ok [c * a] := by
      simp [Arr2.mulVec, scalarArr, Arr2.ofFn_get']
    rw [hm] at h
    have h := Except.ok.inj h
    simp [scalarArr, hc] at h
    simp [h]

/-- entry of the matrix of a two-parameter vector -/
theorem demo_toMatrix {dt : Arr2 ℂ} (hdt : dtMatrix ℂ false 1 = .ok dt) (u w : ℝ) {m : Arr2 ℂ}
    (h : toMatrix 1 dt [u, w] = .ok m) : m = scalarArr ⟨u, w⟩ := by
  have hsq := (toMatrix_admissible false 1 hdt h).1
  have hp := params_of_toMatrix false 1 hdt rfl h
  rw [demo_params] at hp
  simp only [List.cons.injEq, and_true] at hp
  refine Arr2.ext' hsq.1 hsq.2 ?_
  intro i j hi hj
  rw [hsq.1] at hi; rw [hsq.2] at hj
  have : i = 0 := by omega
  have : j = 0 := by omega
  subst i; subst j
  rw [scalarArr_get]
  exact Complex.ext hp.1 hp.2

/-- one step of the one-node problem with real data `c ≥ 0` from the state of the parameters `(u, 0)`, `u ≥ 0` -/
theorem demo_step {solve : Solver} (hex : Spec.Exact solve) (htot : Spec.Total solve) {dt : Arr2 ℂ}
    (hdt : dtMatrix ℂ false 1 = .ok dt) {A : Arr2 ℝ} (hA : regressionMatrix 1 (scalarArr 1) dt = .ok A) (c u : ℝ)
    (hc : 0 ≤ c) (hu : 0 ≤ u) {s : FitState} (hs : StateAt demoPrior (nReal false 1) [u, 0] s) :
    ∃ s' t, regStep solve demoCfg 1 dt A (makeRealVector (vectorizeMatrix (scalarArr c))) s = .ok (s', t) ∧
      StateAt demoPrior (nReal false 1) [c * (u + 1) / (u + 2), 0] s' ∧
      s'.yMat = scalarArr ((c * (u + 1) / (u + 2) : ℝ) : ℂ) ∧
      t = (c - c * (u + 1) / (u + 2)) ^ 2 + (c * (u + 1) / (u + 2) + 1) := by
  have h := demo_setup (c : ℂ) 0
  have hN : nReal false 1 = 2 := rfl
  obtain ⟨A', hA', har, hac, hact⟩ := regressionMatrix_spec false 1 hdt (scalarArr 1) rfl
  rw [hA] at hA'; cases hA'
  have hb : makeRealVector (vectorizeMatrix (scalarArr (c : ℂ))) = [c, 0] := by
    simp [makeRealVector, vectorizeMatrix, scalarArr, Arr2.ofFn_get']
  -- the regression matrix is the identity
  have hAid : ∀ p q : ℝ, A.mulVec [p, q] = .ok [p, q] := by
    intro p q
    obtain ⟨m, _, _, _, _, _, hm⟩ := toMatrix_ok false 1 hdt (y := [p, q]) rfl
    have hm' := demo_toMatrix hdt p q hm
    have hxm : (scalarArr 1).matmul m = .ok (scalarArr ⟨p, q⟩) := by
      rw [hm', Arr2.matmul_ok _ _ rfl]
      congr 1
      refine Arr2.ext' rfl rfl ?_
      intro i j hi hj
      have hi : i < 1 := hi
      have hj : j < 1 := hj
      have : i = 0 := by omega
      have : j = 0 := by omega
      subst i; subst j
      show (Arr2.ofFn 1 1 (Arr2.mulGet (scalarArr 1) (scalarArr ⟨p, q⟩))).get 0 0 = _
      rw [Arr2.ofFn_get _ (by norm_num) (by norm_num), scalarArr_get, Arr2.mulGet]
      show ∑ k ∈ range 1, _ = _
      rw [Finset.sum_range_one, scalarArr_get, scalarArr_get, one_mul]
    rw [hact [p, q] m _ rfl hm hxm]
    simp [makeRealVector, vectorizeMatrix, scalarArr, Arr2.ofFn_get']
  have hAm : A.toMat 2 2 = 1 := by
    have e1 := (Arr2.mulVec_inv (hAid 1 0)).2.2 2
    have e2 := (Arr2.mulVec_inv (hAid 0 1)).2.2 2
    rw [hac, hN] at e1 e2
    ext i j
    have f1 := congrFun e1 i
    have f2 := congrFun e2 i
    simp only [Matrix.mulVec, dotProduct, Fin.sum_univ_two, toVec] at f1 f2
    fin_cases i <;> fin_cases j <;> simp at f1 f2 ⊢ <;> simp [← f1, ← f2]
  have hm2 : 2 * (1 * (scalarArr 1).r) = 2 := rfl
  rw [hm2] at har
  have hs' := hs
  obtain ⟨_, hM, hmu⟩ := hs
  obtain ⟨sys, rhs, hsh, hrl, hsm, hrv, herr, hok⟩ := regStep_system solve demoCfg false 1 hdt hN.symm ⟨har, hac⟩
    (b := [c, 0]) rfl h.prior s (by rw [hM]; exact ⟨rfl, rfl⟩) (by rw [hmu]; simp [Prior.linB, hN])
  have hMm : s.M.toMat 2 2 = Matrix.of ![![1 / (u + 1), 0], ![0, 0]] := by
    rw [hM, hN]
    ext i j
    show (Arr2.ofFn 2 2 _).get i j = _
    rw [Arr2.ofFn_get _ i.2 j.2, demo_terms]
    fin_cases i <;> fin_cases j <;>
      simp [Spec.Term.scale, Spec.Term.resid, Spec.dot, Finset.sum_range_succ, demoPrior, abs_of_nonneg hu] <;> norm_num
  have hmum : toVec 2 s.mu = 0 := by
    rw [hmu, hN]
    funext i
    show ((List.range 2).map _).getD i 0 = _
    rw [getD_map_range _ _ _ i.2, demo_terms]
    simp
  rw [hAm, hMm] at hsm
  rw [hAm, hmum] at hrv
  have hu2 : u + 2 ≠ 0 := by linarith
  have hu1 : u + 1 ≠ 0 := by linarith
  have hS : ∀ a b : ℝ, (sys.toMat 2 2).mulVec (toVec 2 [a, b]) = toVec 2 [a * ((u + 2) / (u + 1)), b] := by
    intro a b
    rw [hsm]
    funext i
    fin_cases i <;> simp [Matrix.mulVec, dotProduct, Fin.sum_univ_two, toVec, demoCfg] 
    field_simp; ring
  have hrhs : rhs = [c, 0] := by
    apply toVec_inj hrl rfl
    rw [hrv]
    simp
  have htwo : ∀ l : List ℝ, l.length = 2 → ∃ a b, l = [a, b] := by
    intro l hl
    match l, hl with
    | [a, b], _ => exact ⟨a, b, rfl⟩
  obtain ⟨y', hy'⟩ := htot sys rhs (by rw [hsh.1, hrl]) (by rw [hsh.2, hrl]) (by
    intro v hv h0
    rw [hrl] at hv h0 ⊢
    obtain ⟨a, b, rfl⟩ := htwo v hv
    have h3 := (Arr2.mulVec_inv h0).2.2 2
    rw [hsh.2, hS] at h3
    have e0 := congrFun h3 0
    have e1 := congrFun h3 1
    simp [toVec] at e0 e1
    have : a = 0 := by
      rcases e0 with h | h | h
      · exact h.symm ▸ rfl
      · exact absurd h hu2
      · exact absurd h hu1
    rw [this, e1]; rfl)
  have h3 := (Arr2.mulVec_inv (hex _ _ _ hy')).2.2 2
  have hy'l : y'.length = 2 := by rw [← (Arr2.mulVec_inv (hex _ _ _ hy')).1, hsh.2]
  obtain ⟨a, b, rfl⟩ := htwo y' hy'l
  rw [hsh.2, hS, hrhs] at h3
  have e0 := congrFun h3 0
  have e1 := congrFun h3 1
  simp [toVec] at e0 e1
  have ha : a = c * (u + 1) / (u + 2) := by rw [e0]; field_simp
  subst e1
  obtain ⟨ym, hym, hst⟩ := hok [a, 0] hy' rfl
  rw [hb]
  refine ⟨_, _, hst, ⟨rfl, by rw [ha]; rfl, by rw [ha]; rfl⟩, ?_, ?_⟩
  · show ym = _
    rw [demo_toMatrix hdt a 0 hym, ha]; rfl
  · have hann : 0 ≤ c * (u + 1) / (u + 2) := by positivity
    rw [hAm, one_mulVec, ← ha]
    rw [← ha] at hann
    have hpen : Prior.pen 2 demoCfg.prior.alpha [a, 0] (Spec.terms demoCfg.prior) = a + 1 := by
      show Prior.pen 2 1 [a, 0] (Spec.terms demoPrior) = _
      rw [demo_terms]
      simp [Prior.pen, Spec.Term.scale, Spec.Term.resid, Spec.dot, Finset.sum_range_succ]
      norm_num [abs_of_nonneg hann]
    rw [hpen]
    have hdot : (toVec 2 [c, 0] - toVec 2 [a, 0]) ⬝ᵥ (toVec 2 [c, 0] - toVec 2 [a, 0]) = (c - a) ^ 2 := by
      simp [dotProduct, Fin.sum_univ_two, toVec]; ring
    rw [hdot]
    show |(c - a) ^ 2 + 1 * (a + 1)| = _
    rw [one_mul, abs_of_nonneg (by positivity)]

/-- set-up of the one-node problem started at `1` -/
theorem demo_loop {solve : Solver} (hex : Spec.Exact solve) (htot : Spec.Total solve) :
    ∃ dt A s, dtMatrix ℂ false 1 = .ok dt ∧ regressionMatrix 1 (scalarArr 1) dt = .ok A ∧
      StateAt demoPrior (nReal false 1) [1, 0] s ∧ ∀ (c : ℂ) obj,
        bayesianFit solve demoCfg obj (scalarArr 1) (scalarArr c) (scalarArr 1) = finishFit obj
          (fitLoop demoCfg (regStep solve demoCfg 1 dt A (makeRealVector (vectorizeMatrix (scalarArr c)))) 3 0 s
            obj.iterations) := by
  obtain ⟨dt, A, y0, s, hdt, hA, hAs, hst, hsy, hY0, hf⟩ := setup_ok (demo_setup 0 1) solve
  have hy0 : y0 = [1, 0] := by
    have h1 := params_of_toMatrix false 1 hdt hst.1 hY0
    rw [demo_params] at h1
    rw [← h1]
    simp [Spec.projection, scalarArr, Arr2.ofFn_get']
  subst hy0
  refine ⟨dt, A, s, hdt, hA, hst, fun c obj => ?_⟩
  obtain ⟨dt', A', y0', s', hdt', hA', _, hst', hsy', hY0', hf'⟩ := setup_ok (demo_setup c 1) solve
  rw [hdt] at hdt'; cases hdt'
  rw [hA] at hA'; cases hA'
  have hy0' : y0' = [1, 0] := by
    have h1 := params_of_toMatrix false 1 hdt hst'.1 hY0'
    rw [demo_params] at h1
    rw [← h1]
    simp [Spec.projection, scalarArr, Arr2.ofFn_get']
  subst hy0'
  have : s' = s := by
    cases s; cases s'
    simp only [FitState.mk.injEq]
    exact ⟨hsy'.trans hsy.symm, hst'.2.1.trans hst.2.1.symm, hst'.2.2.trans hst.2.2.symm⟩
  rw [hf' obj, this]; rfl

/-- C35 fails: a second fit on the same object compares its target values with those of the first fit, and returns another
matrix than the same fit on a fresh object (13/21 instead of 5/8), for every exact solver. -/
theorem C35_refit_violated {solve : Solver} (hex : Spec.Exact solve) (htot : Spec.Total solve) :
    ∃ cfg x z₁ z₂ yInit o₁ o₂ o₃ Y₂ Y₃,
      bayesianFit solve cfg RegObj.fresh x z₁ yInit = (.ok (), o₁) ∧
      bayesianFit solve cfg o₁ x z₂ yInit = (.ok (), o₂) ∧ o₂.admittance = some Y₂ ∧
      bayesianFit solve cfg RegObj.fresh x z₂ yInit = (.ok (), o₃) ∧ o₃.admittance = some Y₃ ∧ Y₂ ≠ Y₃ := by
  obtain ⟨dt, A, s, hdt, hA, hst, hf⟩ := demo_loop hex htot
  -- first fit, data 0
  obtain ⟨a1, t1, ha1, hsa1, hya1, hta1⟩ := demo_step hex htot hdt hA 0 1 le_rfl zero_le_one hst
  have e0 : (0 : ℝ) * (1 + 1) / (1 + 2) = 0 := by norm_num
  rw [e0] at hsa1 hta1
  obtain ⟨a2, t2, ha2, hsa2, hya2, hta2⟩ := demo_step hex htot hdt hA 0 0 le_rfl le_rfl hsa1
  -- second fit, data 1
  obtain ⟨b1, u1, hb1, hsb1, hyb1, htb1⟩ := demo_step hex htot hdt hA 1 1 zero_le_one zero_le_one hst
  have e1 : (1 : ℝ) * (1 + 1) / (1 + 2) = 2 / 3 := by norm_num
  rw [e1] at hsb1 htb1
  obtain ⟨b2, u2, hb2, hsb2, hyb2, htb2⟩ := demo_step hex htot hdt hA 1 (2 / 3) zero_le_one (by norm_num) hsb1
  have e2 : (1 : ℝ) * (2 / 3 + 1) / (2 / 3 + 2) = 5 / 8 := by norm_num
  rw [e2] at hsb2 htb2 hyb2
  obtain ⟨b3, u3, hb3, hsb3, hyb3, htb3⟩ := demo_step hex htot hdt hA 1 (5 / 8) zero_le_one (by norm_num) hsb2
  have e3 : (1 : ℝ) * (5 / 8 + 1) / (5 / 8 + 2) = 13 / 21 := by norm_num
  rw [e3] at htb3 hyb3
  rw [Complex.ofReal_zero] at ha1 ha2
  rw [Complex.ofReal_one] at hb1 hb2 hb3
  have v1 : t1 = 1 := by rw [hta1]; norm_num
  have v2 : t2 = 1 := by rw [hta2]; norm_num
  have w1 : u1 = 16 / 9 := by rw [htb1]; norm_num
  have w2 : u2 = 113 / 64 := by rw [htb2]; norm_num
  have w3 : u3 = (1 - 13 / 21) ^ 2 + (13 / 21 + 1) := htb3
  have st1 : isStationary demoCfg t2 t1 := by
    refine ⟨Or.inl ?_, ?_⟩
    · rw [v1, v2]; simp [demoCfg]
    · rw [v1, v2]
  have st2 : isStationary demoCfg u2 u1 := by
    refine ⟨Or.inl ?_, ?_⟩
    · rw [w1, w2]; norm_num [demoCfg, abs_lt]
    · rw [w1, w2]; norm_num
  have st3 : ¬ isStationary demoCfg u2 t1 := by
    rintro ⟨_, h⟩
    rw [w2, v1] at h; norm_num at h
  have st4 : ¬ isStationary demoCfg u3 t2 := by
    rintro ⟨_, h⟩
    rw [w3, v2] at h; norm_num at h
  refine ⟨demoCfg, scalarArr 1, scalarArr 0, scalarArr 1, scalarArr 1,
    ⟨[⟨0, a1.yMat, t1⟩, ⟨1, a2.yMat, t2⟩], some a2.yMat⟩,
    ⟨[⟨0, a1.yMat, t1⟩, ⟨1, a2.yMat, t2⟩, ⟨0, b1.yMat, u1⟩, ⟨1, b2.yMat, u2⟩, ⟨2, b3.yMat, u3⟩], some b3.yMat⟩,
    ⟨[⟨0, b1.yMat, u1⟩, ⟨1, b2.yMat, u2⟩], some b2.yMat⟩, b3.yMat, b2.yMat, ?_, ?_, rfl, ?_, rfl, ?_⟩
  · rw [hf]
    simp [fitLoop, ha1, ha2, st1, RegObj.fresh, finishFit]
  · rw [hf]
    simp [fitLoop, hb1, hb2, hb3, st3, st4, finishFit]
  · rw [hf]
    simp [fitLoop, hb1, hb2, st2, RegObj.fresh, finishFit]
  · intro heq
    rw [hyb3, hyb2] at heq
    have := congrArg (fun m : Arr2 ℂ => m.get 0 0) heq
    simp only [scalarArr_get, Complex.ofReal_inj] at this
    norm_num at this

/-- the violation is reachable: exact solvers exist -/
example : ∃ solve, Spec.Exact solve ∧ Spec.Total solve := ⟨exactSolve, exactSolve_exact, exactSolve_total⟩

/-- C35, the part that holds (missing: fits with positive tolerances on an object whose log is not empty): when the
tolerance test cannot fire, or at most one iteration is allowed, a fit on any object has the outcome and the matrix of the
fit on a fresh object, and appends the same log. -/
theorem refit_partial {cfg : RegConfig} {n : Nat} {yInit : Arr2 ℂ} {fit : RegObj → Except PyErr Unit × RegObj}
    (hfit : IsFit cfg n yInit fit) (h : (cfg.absTol ≤ 0 ∧ cfg.relTol ≤ 0) ∨ cfg.maxIter ≤ 1) (obj : RegObj) :
    (fit obj).1 = (fit RegObj.fresh).1 ∧
    ((fit obj).1 = .ok () → (fit obj).2.admittance = (fit RegObj.fresh).2.admittance) ∧
    (fit obj).2.iterations = obj.iterations ++ (fit RegObj.fresh).2.iterations := by
  rcases hfit with ⟨e, he⟩ | ⟨step, s, dt, _, _, _, hf⟩
  · rw [he, he]
    exact ⟨rfl, (fun h => nomatch h), (List.append_nil _).symm⟩
  · have key : fitLoop cfg step cfg.maxIter 0 s obj.iterations =
        ((fitLoop cfg step cfg.maxIter 0 s []).1, obj.iterations ++ (fitLoop cfg step cfg.maxIter 0 s []).2) := by
      rcases h with ⟨ha, hr⟩ | hk
      · have := fitLoop_no_stop cfg ha hr step cfg.maxIter 0 s obj.iterations [] rfl
        rw [List.append_nil] at this
        exact this
      · have : cfg.maxIter = 0 ∨ cfg.maxIter = 1 := by omega
        rcases this with h0 | h0 <;> rw [h0]
        · simp [fitLoop]
        · cases hs : step s with
          | error e => simp [fitLoop, hs]
          | ok q => simp [fitLoop, hs]
    have e1 : fit obj = finishFit obj ((fitLoop cfg step cfg.maxIter 0 s []).1,
        obj.iterations ++ (fitLoop cfg step cfg.maxIter 0 s []).2) := by rw [hf obj, key]
    have e2 : fit RegObj.fresh = finishFit RegObj.fresh (fitLoop cfg step cfg.maxIter 0 s []) := hf _
    rw [e1, e2]
    generalize fitLoop cfg step cfg.maxIter 0 s [] = r
    obtain ⟨rs, log⟩ := r
    cases rs with
    | error e => exact ⟨rfl, (fun h => nomatch h), rfl⟩
    | ok s' => exact ⟨rfl, fun _ => rfl, rfl⟩

/-- see `refit_partial` -/
theorem C35_regression_partial (solve : Solver) (cfg : RegConfig) (x z yInit : Arr2 ℂ)
    (h : (cfg.absTol ≤ 0 ∧ cfg.relTol ≤ 0) ∨ cfg.maxIter ≤ 1) (obj : RegObj) :
    (bayesianFit solve cfg obj x z yInit).1 = (bayesianFit solve cfg RegObj.fresh x z yInit).1 ∧
    ((bayesianFit solve cfg obj x z yInit).1 = .ok () →
      (bayesianFit solve cfg obj x z yInit).2.admittance = (bayesianFit solve cfg RegObj.fresh x z yInit).2.admittance) ∧
    (bayesianFit solve cfg obj x z yInit).2.iterations =
      obj.iterations ++ (bayesianFit solve cfg RegObj.fresh x z yInit).2.iterations :=
  refit_partial (bayesianFit_isFit solve cfg x z yInit) h obj

/-- see `refit_partial` -/
theorem C35_eiv_partial (solve : Solver) (inv : Arr2 ℂ → Except PyErr (Arr2 ℂ)) (cfg : RegConfig) (x z : Arr2 ℂ)
    (xW zW : Option (Arr2 ℝ)) (yInit : Arr2 ℂ) (h : (cfg.absTol ≤ 0 ∧ cfg.relTol ≤ 0) ∨ cfg.maxIter ≤ 1) (obj : RegObj) :
    (eivFit solve inv cfg obj x z xW zW yInit).1 = (eivFit solve inv cfg RegObj.fresh x z xW zW yInit).1 ∧
    ((eivFit solve inv cfg obj x z xW zW yInit).1 = .ok () → (eivFit solve inv cfg obj x z xW zW yInit).2.admittance =
      (eivFit solve inv cfg RegObj.fresh x z xW zW yInit).2.admittance) ∧
    (eivFit solve inv cfg obj x z xW zW yInit).2.iterations =
      obj.iterations ++ (eivFit solve inv cfg RegObj.fresh x z xW zW yInit).2.iterations :=
  refit_partial (eivFit_isFit solve inv cfg x z xW zW yInit) h obj

/-- the fits of C32-C36 exist and run several iterations: here a fit of three, started at 1, with data 1 -/
example : ∃ obj, bayesianFit exactSolve { demoCfg with absTol := 0 } RegObj.fresh (scalarArr 1) (scalarArr 0) (scalarArr 1)
    = (.ok (), obj) ∧ obj.admittance = some (scalarArr 0) := by
  obtain ⟨obj, h1, h2, _⟩ := C37_fixed_point (lap := false) (n := 1) (cfg := { demoCfg with absTol := 0 })
    (x := scalarArr 1) (z := scalarArr 0) (yInit := scalarArr 1) (Y := scalarArr 0)
    { demo_setup 0 1 with } (by simp [demoCfg]) (demo_identifiable 1 one_ne_zero _ _) ⟨rfl, rfl⟩
    ⟨⟨rfl, fun i j => by simp [scalarArr, Arr2.ofFn_get']⟩, by simp⟩ (by
      rw [Arr2.matmul_ok _ _ rfl]; congr 1
      refine Arr2.ext' rfl rfl ?_
      intro i j hi hj
      have hi : i < 1 := hi
      have hj : j < 1 := hj
      have : i = 0 := by omega
      have : j = 0 := by omega
      subst i; subst j
      refine (Arr2.ofFn_get _ (by exact hi) (by exact hj)).trans ?_
      rw [Arr2.mulGet]
      show ∑ k ∈ range 1, _ = _
      rw [Finset.sum_range_one, scalarArr_get, scalarArr_get, mul_zero])
    (by
      intro t ht
      have ht : t ∈ Spec.terms demoPrior := ht
      rw [demo_terms, List.mem_singleton] at ht
      subst ht
      rw [demo_params, scalarArr_get]
      simp [Spec.Term.resid, Spec.dot, demoCfg, demoPrior, Finset.sum_range_succ])
    exactSolve_exact exactSolve_total (by simp [demoCfg])
  exact ⟨obj, h1, h2⟩

end
end Verif
