/-
C112-C113: the iterations of `BayesianRegression.fit` converge to the unique minimiser of the smoothed objective, which is also
their only fixed point.
-/
import Verif.Lemmas.Converge
import Verif.Props.Identification

namespace Verif
open Finset Matrix Filter Topology
noncomputable section

/-! ### the fit as a regression with penalties -/

/-- the problem behind a fit with real regression matrix `A` -/
def irlsOf (N m : Nat) (p : Prior) (lam : ℝ) (A : Arr2 ℝ) (b : List ℝ) : Irls N m (Spec.terms p).length where
  A := (A.toMat m N).mulVecLin
  b := toVec m b
  R := (Matrix.of (fun (i : Fin (Spec.terms p).length) (k : Fin N) => (Spec.terms p)[i].row.getD k 0)).mulVecLin
  c := fun i => (Spec.terms p)[i].center
  order := fun i => (Spec.terms p)[i].order
  α := p.alpha
  lam := lam

theorem irls_R (N m : Nat) (p : Prior) (lam : ℝ) (A : Arr2 ℝ) (b v : List ℝ) (i : Fin (Spec.terms p).length) :
    (irlsOf N m p lam A b).R (toVec N v) i = Spec.dot N (Spec.terms p)[i].row v :=
  Fin.sum_univ_eq_sum_range (fun k => (Spec.terms p)[i].row.getD k 0 * v.getD k 0) N

theorem irls_res (N m : Nat) (p : Prior) (lam : ℝ) (A : Arr2 ℝ) (b v : List ℝ) (i : Fin (Spec.terms p).length) :
    (irlsOf N m p lam A b).res (toVec N v) i = (Spec.terms p)[i].resid N v := by
  unfold Irls.res Spec.Term.resid
  rw [irls_R]
  rfl

theorem irls_w (N m : Nat) (p : Prior) (lam : ℝ) (A : Arr2 ℝ) (b v : List ℝ) (i : Fin (Spec.terms p).length) :
    (irlsOf N m p lam A b).w (toVec N v) i = (Spec.terms p)[i].scale N p.alpha v := by
  unfold Irls.w
  rw [irls_res]
  rfl

theorem irls_obj {lap : Bool} {n : Nat} {cfg : RegConfig} {x z yInit : Arr2 ℂ} (h : FitSetup lap n cfg x z yInit)
    {dt : Arr2 ℂ} (hdt : dtMatrix ℂ lap n = .ok dt) {A : Arr2 ℝ} (hAr : regressionMatrix n x dt = .ok A) {y : List ℝ}
    {Y : Arr2 ℂ} (hy : y.length = nReal lap n) (hY : toMatrix n dt y = .ok Y) :
    (irlsOf (nReal lap n) (2 * (n * x.r)) cfg.prior cfg.lam A (makeRealVector (vectorizeMatrix z))).obj
      (toVec (nReal lap n) y) = Spec.objective lap n cfg.prior cfg.lam x z Y := by
  unfold Irls.obj Spec.objective
  rw [params_of_toMatrix lap n hdt hy hY, ← real_misfit lap n hdt h.xc h.zs hAr hy hY, h.prior.size]
  congr 1
  · refine Finset.sum_congr rfl (fun j _ => ?_)
    exact pow_two _
  · show cfg.lam * _ = _
    congr 1
    rw [← Fin.sum_univ_fun_getElem]
    refine Finset.sum_congr rfl (fun i _ => ?_)
    rw [irls_res]
    rfl

/-- the gradient of the prior at `y'` with the weights of `y`, tested with `v` -/
theorem prior_weak {p : Prior} {N : Nat} (hp : UsablePrior p N) (hα : 0 < p.alpha) {y : List ℝ} (hy : y.length = N)
    (hN : N ≠ 1) (y' : List ℝ) (v : Fin N → ℝ) :
    v ⬝ᵥ (((Prior.quadA N p.alpha y (Spec.terms p)).toMat N N).mulVec (toVec N y') -
        toVec N (Prior.linB N p.alpha y (Spec.terms p))) =
      ∑ i : Fin (Spec.terms p).length, (Spec.terms p)[i].resid N y' *
        (∑ k : Fin N, (Spec.terms p)[i].row.getD k 0 * v k) / (Spec.terms p)[i].scale N p.alpha y := by
  have hlog := hp.log hy hN
  obtain ⟨_, _, _, _, _, _, _, hgrad, _⟩ := C15_quadratic_model hp.cons hα hlog
  rw [hp.size] at hgrad
  have e : ∀ i : Fin N, (((Prior.quadA N p.alpha y (Spec.terms p)).toMat N N).mulVec (toVec N y') -
        toVec N (Prior.linB N p.alpha y (Spec.terms p))) i =
      ∑ t : Fin (Spec.terms p).length, (Spec.terms p)[t].row.getD i 0 * ((Spec.terms p)[t].resid N y' /
        (Spec.terms p)[t].scale N p.alpha y) := by
    intro i
    have h1 := hgrad y' i i.2
    rw [← Fin.sum_univ_fun_getElem, ← Fin.sum_univ_eq_sum_range (fun j => (Prior.quadA N p.alpha y (Spec.terms p)).get i j *
      y'.getD j 0) N] at h1
    exact h1
  show ∑ i, v i * _ = _
  simp only [e, Finset.mul_sum]
  rw [Finset.sum_comm]
  refine Finset.sum_congr rfl (fun t _ => ?_)
  rw [Finset.sum_div]
  refine Finset.sum_congr rfl (fun i _ => ?_)
  ring

theorem irls_step {lap : Bool} {n : Nat} {cfg : RegConfig} {x z yInit : Arr2 ℂ} (h : FitSetup lap n cfg x z yInit)
    {A : Arr2 ℝ} {b y y' : List ℝ} (hy : y.length = nReal lap n) {m : Nat}
    (heq : ((A.toMat m (nReal lap n)).transpose * A.toMat m (nReal lap n) + cfg.lam •
        (Prior.quadA (nReal lap n) cfg.prior.alpha y (Spec.terms cfg.prior)).toMat (nReal lap n) (nReal lap n)).mulVec
          (toVec (nReal lap n) y') =
      (A.toMat m (nReal lap n)).transpose.mulVec (toVec m b) +
        cfg.lam • toVec (nReal lap n) (Prior.linB (nReal lap n) cfg.prior.alpha y (Spec.terms cfg.prior))) :
    (irlsOf (nReal lap n) m cfg.prior cfg.lam A b).Step (toVec (nReal lap n) y) (toVec (nReal lap n) y') := by
  set N := nReal lap n
  intro v
  have hw := prior_weak h.prior h.alpha hy (nReal_ne_one lap n) y' v
  have e2 : ∑ i, (irlsOf N m cfg.prior cfg.lam A b).res (toVec N y') i * (irlsOf N m cfg.prior cfg.lam A b).R v i /
      (irlsOf N m cfg.prior cfg.lam A b).w (toVec N y) i = v ⬝ᵥ (((Prior.quadA N cfg.prior.alpha y
        (Spec.terms cfg.prior)).toMat N N).mulVec (toVec N y') -
        toVec N (Prior.linB N cfg.prior.alpha y (Spec.terms cfg.prior))) := by
    rw [hw]
    refine Finset.sum_congr rfl (fun i _ => ?_)
    rw [irls_res, irls_w]
    rfl
  have e1 : ∑ j, ((irlsOf N m cfg.prior cfg.lam A b).A (toVec N y') j - (irlsOf N m cfg.prior cfg.lam A b).b j) *
      (irlsOf N m cfg.prior cfg.lam A b).A v j = v ⬝ᵥ ((A.toMat m N).transpose * A.toMat m N).mulVec (toVec N y') -
        v ⬝ᵥ (A.toMat m N).transpose.mulVec (toVec m b) := by
    rw [← mulVec_mulVec, ← dotProduct_sub, ← mulVec_sub, dotProduct_mulVec, ← mulVec_transpose, transpose_transpose,
      dotProduct_comm]
    rfl
  rw [e2, e1]
  have := congrArg (fun w => v ⬝ᵥ w) heq
  simp only [add_mulVec, dotProduct_add, smul_mulVec, dotProduct_smul, smul_eq_mul] at this
  show _ + cfg.lam * _ = _
  rw [dotProduct_sub]
  linarith

theorem irls_good {lap : Bool} {n : Nat} {cfg : RegConfig} {x z yInit : Arr2 ℂ} (h : FitSetup lap n cfg x z yInit)
    (hl : 0 ≤ cfg.lam) (ho : ∀ t ∈ Spec.terms cfg.prior, t.order = 1 ∨ t.order = 2)
    (hid : Spec.Identifiable lap n cfg.prior cfg.lam x) {dt : Arr2 ℂ}
    (hdt : dtMatrix ℂ lap n = .ok dt) {A : Arr2 ℝ} (hAr : regressionMatrix n x dt = .ok A) (b : List ℝ) :
    (irlsOf (nReal lap n) (2 * (n * x.r)) cfg.prior cfg.lam A b).Good := by
  refine ⟨h.alpha, hl, fun i => ho _ (List.getElem_mem _), ?_⟩
  set N := nReal lap n
  intro v hA hR
  have hN : (List.replicate N (0 : ℝ)).length = N := by simp
  have := sys_kernel h hl hid hdt hAr hN (ofVec v) (ofVec_length v) (by
    rw [toVec_ofVec, add_mulVec, smul_mulVec, ← mulVec_mulVec]
    have hA' : (A.toMat (2 * (n * x.r)) N).mulVec v = 0 := hA
    rw [hA', mulVec_zero, zero_add]
    rcases hl.eq_or_lt with h0 | h0
    · rw [← h0, zero_smul]
    · have hR' := hR h0
      have hM : ((Prior.quadA N cfg.prior.alpha (List.replicate N 0) (Spec.terms cfg.prior)).toMat N N).mulVec v = 0 := by
        have hp : UsablePrior cfg.prior N := h.prior
        have hw := fun u => prior_weak hp h.alpha hN (nReal_ne_one lap n) (ofVec v) u
        have hw0 := fun u => prior_weak hp h.alpha hN (nReal_ne_one lap n) (List.replicate N 0) u
        simp only [toVec_ofVec, toVec_replicate_zero, mulVec_zero, zero_sub] at hw hw0
        refine dotProduct_eq_zero_iff.1 ?_ 
        intro u
        have hr : ∀ i : Fin (Spec.terms cfg.prior).length, (Spec.terms cfg.prior)[i].resid N (ofVec v) =
            (Spec.terms cfg.prior)[i].resid N (List.replicate N 0) := by
          intro i
          have e1 := irls_R N (2 * (n * x.r)) cfg.prior cfg.lam A b (ofVec v) i
          have e2 := irls_R N (2 * (n * x.r)) cfg.prior cfg.lam A b (List.replicate N 0) i
          rw [toVec_ofVec, hR'] at e1
          rw [toVec_replicate_zero, map_zero] at e2
          unfold Spec.Term.resid
          rw [← e1, ← e2]
        have a1 := hw u
        have a2 := hw0 u
        simp only [hr] at a1
        rw [← a2, dotProduct_sub, dotProduct_neg] at a1
        rw [dotProduct_comm]
        linarith
      rw [hM, smul_zero])
  have h' := congrArg (toVec N) this
  rwa [toVec_ofVec, toVec_replicate_zero] at h'

/-! ### the iterates -/

theorem toMatrix_entry (lap : Bool) (n : Nat) {dt : Arr2 ℂ} (hdt : dtMatrix ℂ lap n = .ok dt) {y : List ℝ} {Y : Arr2 ℂ}
    (hy : y.length = nReal lap n) (hY : toMatrix n dt y = .ok Y) {i j : Nat} (hi : i < n) (hj : j < n) :
    Y.get i j = ∑ k ∈ range (nParams lap n), dt.get (j * n + i) k *
      ((y.getD k 0 : ℂ) + (y.getD (nParams lap n + k) 0 : ℂ) * Complex.I) := by
  obtain ⟨m, v, hv, hvr, hvl, hw, hm⟩ := toMatrix_ok lap n hdt hy
  rw [hY] at hm; cases hm
  have hsq := (toMatrix_admissible lap n hdt hY).1
  have hget := vec_getD Y (i := i) (j := j) (by rw [hsq.1]; exact hi) (by rw [hsq.2]; exact hj)
  rw [hsq.1] at hget
  obtain ⟨D, hD, hr, hc, _⟩ := dt_closed (α := ℂ) lap n
  rw [hD] at hdt; cases hdt
  obtain ⟨w, hw', hwl, hwt⟩ := Arr2.mulVec_mat (A := dt) (v := v) ⟨hr, hc⟩ hvl
  rw [hw] at hw'; cases hw'
  have hlt : j * n + i < n ^ 2 := by nlinarith
  have := congrFun hwt ⟨j * n + i, hlt⟩
  rw [← hget]
  refine this.trans ?_
  rw [← Fin.sum_univ_eq_sum_range (fun k => dt.get (j * n + i) k *
      ((y.getD k 0 : ℂ) + (y.getD (nParams lap n + k) 0 : ℂ) * Complex.I)) (nParams lap n)]
  show ∑ k : Fin (nParams lap n), dt.get (j * n + i) k * v.getD k 0 = _
  refine Finset.sum_congr rfl (fun k _ => ?_)
  congr 1
  have hk : (k : Nat) < v.length := by rw [hvl]; exact k.2
  rw [← hvr]
  generalize (k : Nat) = kk at hk ⊢
  rw [← hvl]
  unfold makeRealVector
  simp only [List.getD_eq_getElem?_getD]
  rw [List.getElem?_append_left (by simpa using hk), List.getElem?_append_right (by simp)]
  simp [hk, Complex.re_add_im]

theorem no_stationary {cfg : RegConfig} (ha : cfg.absTol ≤ 0) (hr : cfg.relTol ≤ 0) (c p : ℝ) : ¬ isStationary cfg c p := by
  intro h
  rw [isStationary_iff] at h
  rcases h.2 with h1 | ⟨h0, h1⟩
  · have := abs_nonneg (c - p); linarith
  · have := abs_nonneg (c - p)
    have := mul_nonpos_of_nonpos_of_nonneg hr (abs_nonneg p); linarith

/-- a loop that never raises and never stops early iterates its body -/
theorem fitLoop_iterate {cfg : RegConfig} (ha : cfg.absTol ≤ 0) (hr : cfg.relTol ≤ 0)
    {step : FitState → Except PyErr (FitState × ℝ)} {Good : FitState → Prop} {next : FitState → FitState}
    (hstep : ∀ s, Good s → ∃ t, step s = .ok (next s, t) ∧ Good (next s)) (k it : Nat) (s : FitState) (hs : Good s)
    (log : List IterationStatus) (hlog : log.length = it) : (fitLoop cfg step k it s log).1 = .ok (next^[k] s) := by
  induction k generalizing it s log with
  | zero => rfl
  | succ k ih =>
    obtain ⟨t, h1, h2⟩ := hstep s hs
    have ih' := ih (it + 1) (next s) h2 (log ++ [⟨it, (next s).yMat, t⟩]) (by simp [hlog])
    unfold fitLoop
    simp only [h1]
    by_cases hit : it > 0
    · rw [if_pos hit]
      have hlt : it - 1 < (log ++ [(⟨it, (next s).yMat, t⟩ : IterationStatus)]).length := by simp; omega
      rw [List.getElem?_eq_getElem hlt]
      simp only
      rw [if_neg (no_stationary ha hr _ _)]
      exact ih'
    · rw [if_neg hit]
      exact ih'

/-- the entries of a run of such a body -/
theorem iterate_run {step : FitState → Except PyErr (FitState × ℝ)} {Good : FitState → Prop} {next : FitState → FitState}
    (hstep : ∀ s, Good s → ∃ t, step s = .ok (next s, t) ∧ Good (next s)) (run : List (FitState × ℝ)) (s : FitState)
    (hs : Good s) (hrun : Spec.IsRun step s run) :
    Good (Spec.lastState s run) ∧ ∀ k q, run[k]? = some q → q.1 = next^[k + 1] s := by
  induction run generalizing s with
  | nil => exact ⟨hs, by simp⟩
  | cons e l ih =>
    obtain ⟨t, h1, h2⟩ := hstep s hs
    obtain ⟨h3, h4⟩ := hrun
    rw [h1] at h3
    obtain rfl := Except.ok.inj h3
    obtain ⟨i1, i2⟩ := ih (next s) h2 h4
    refine ⟨i1, ?_⟩
    intro k q hq
    cases k with
    | zero =>
      simp only [List.getElem?_cons_zero, Option.some.injEq] at hq
      rw [← hq]
      rfl
    | succ k =>
      simp only [List.getElem?_cons_succ] at hq
      exact i2 k q hq

/-- the fit of a setup with a well-posed problem: every step succeeds, whatever the state -/
theorem step_total {lap : Bool} {n : Nat} {cfg : RegConfig} {x z yInit : Arr2 ℂ} (h : FitSetup lap n cfg x z yInit)
    (hl : 0 ≤ cfg.lam) (hid : Spec.Identifiable lap n cfg.prior cfg.lam x) {solve : Solver}
    (hex : Spec.Exact solve) (htot : Spec.Total solve) {dt : Arr2 ℂ} (hdt : dtMatrix ℂ lap n = .ok dt) {A : Arr2 ℝ}
    (hA : regressionMatrix n x dt = .ok A) (hAs : A.r = 2 * (n * x.r) ∧ A.c = nReal lap n) {y : List ℝ} {s : FitState}
    (hs : StateAt cfg.prior (nReal lap n) y s) :
    ∃ s' t, regStep solve cfg n dt A (makeRealVector (vectorizeMatrix z)) s = .ok (s', t) := by
  obtain ⟨hyl, hM, hmu⟩ := hs
  have hb : (makeRealVector (vectorizeMatrix z)).length = 2 * (n * x.r) := by
    rw [makeRealVector_length, vec_length, h.zs.1, h.zs.2]
  obtain ⟨sys, rhs, hsh, hrl, hsm, hrv, herr, hok⟩ := regStep_system solve cfg lap n hdt rfl hAs hb h.prior s
    (by rw [hM]; exact ⟨rfl, rfl⟩) (by rw [hmu]; simp [Prior.linB])
  obtain ⟨y', hy'⟩ := htot sys rhs (by rw [hsh.1, hrl]) (by rw [hsh.2, hrl]) (by
    intro v hv h0
    rw [hrl] at hv h0 ⊢
    obtain ⟨_, _, h3⟩ := Arr2.mulVec_inv h0
    have := h3 (nReal lap n)
    rw [hsh.2, toVec_replicate_zero, hsm, hM] at this
    exact sys_kernel h hl hid hdt hA hyl v hv this.symm)
  obtain ⟨h1, _, _⟩ := Arr2.mulVec_inv (hex _ _ _ hy')
  have hy'l : y'.length = nReal lap n := by rw [← h1, hsh.2]
  obtain ⟨ym, hym, hst⟩ := hok y' hy' hy'l
  exact ⟨_, _, hst⟩

/-- state computed at the parameters of its own matrix -/
def StateOwn (lap : Bool) (n : Nat) (p : Prior) (dt : Arr2 ℂ) (s : FitState) : Prop :=
  StateAt p (nReal lap n) (Spec.params lap n s.yMat) s ∧ toMatrix n dt (Spec.params lap n s.yMat) = .ok s.yMat

theorem step_own {lap : Bool} {n : Nat} {cfg : RegConfig} {x z yInit : Arr2 ℂ} (h : FitSetup lap n cfg x z yInit)
    (hl : 0 ≤ cfg.lam) (hid : Spec.Identifiable lap n cfg.prior cfg.lam x) {solve : Solver}
    (hex : Spec.Exact solve) (htot : Spec.Total solve) {dt : Arr2 ℂ} (hdt : dtMatrix ℂ lap n = .ok dt) {A : Arr2 ℝ}
    (hA : regressionMatrix n x dt = .ok A) (hAs : A.r = 2 * (n * x.r) ∧ A.c = nReal lap n) {y : List ℝ} {s : FitState}
    (hs : StateAt cfg.prior (nReal lap n) y s) :
    ∃ s' t, regStep solve cfg n dt A (makeRealVector (vectorizeMatrix z)) s = .ok (s', t) ∧ StateOwn lap n cfg.prior dt s' ∧
      (irlsOf (nReal lap n) (2 * (n * x.r)) cfg.prior cfg.lam A (makeRealVector (vectorizeMatrix z))).Step
        (toVec (nReal lap n) y) (toVec (nReal lap n) (Spec.params lap n s'.yMat)) := by
  obtain ⟨s', t, h1⟩ := step_total h hl hid hex htot hdt hA hAs hs
  have hb : (makeRealVector (vectorizeMatrix z)).length = 2 * (n * x.r) := by
    rw [makeRealVector_length, vec_length, h.zs.1, h.zs.2]
  obtain ⟨y', h2, h3, h4⟩ := step_at h hex hdt hAs hb hs h1
  have hp := params_of_toMatrix lap n hdt h2.1 h3
  refine ⟨s', t, h1, ⟨by rw [hp]; exact h2, by rw [hp]; exact h3⟩, ?_⟩
  rw [hp]
  rw [hs.2.1, hs.2.2] at h4
  exact irls_step h hs.1 h4

/-! ### C112 convergence -/

/-- the minimiser of the smoothed objective among the admissible matrices -/
def Spec.IsMap (lap : Bool) (n : Nat) (p : Prior) (lam : ℝ) (x z Y : Arr2 ℂ) : Prop :=
  Spec.IsSquare n Y ∧ Spec.Admissible lap Y ∧ ∀ V, Spec.IsSquare n V → Spec.Admissible lap V →
    Spec.objective lap n p lam x z Y ≤ Spec.objective lap n p lam x z V

/-- C112: with order-1 and order-2 terms, a nonnegative weight of the prior, data and prior that determine the matrix, and a
solver of regular systems, the objective has exactly one minimiser and there is one sequence of matrices that tends to it, entry
by entry, such that the matrix fitted with zero tolerances and `K` iterations is the `K`-th, and the log of a fit with any
tolerances and any number of iterations is an initial part of it. -/
theorem C112_converges {lap : Bool} {n : Nat} {cfg : RegConfig} {x z yInit : Arr2 ℂ} (h : FitSetup lap n cfg x z yInit)
    (hl : 0 ≤ cfg.lam) (ho : ∀ t ∈ Spec.terms cfg.prior, t.order = 1 ∨ t.order = 2)
    (hid : Spec.Identifiable lap n cfg.prior cfg.lam x) {solve : Solver}
    (hex : Spec.Exact solve) (htot : Spec.Total solve) :
    ∃ Y, Spec.IsMap lap n cfg.prior cfg.lam x z Y ∧ (∀ V, Spec.IsMap lap n cfg.prior cfg.lam x z V → V = Y) ∧
      ∃ M : ℕ → Arr2 ℂ, (∀ i j, i < n → j < n → Tendsto (fun K => (M K).get i j) atTop (𝓝 (Y.get i j))) ∧
        (∀ K ta tr, ta ≤ 0 → tr ≤ 0 → ∃ obj, bayesianFit solve { cfg with maxIter := K, absTol := ta, relTol := tr }
          RegObj.fresh x z yInit = (.ok (), obj) ∧ obj.admittance = some (M K)) ∧
        ∀ K ta tr res obj, bayesianFit solve { cfg with maxIter := K, absTol := ta, relTol := tr } RegObj.fresh x z yInit =
          (res, obj) → res = .ok () ∧ ∀ k e, obj.iterations[k]? = some e → e.params = M (k + 1) := by
  have hK : ∀ K ta tr, FitSetup lap n { cfg with maxIter := K, absTol := ta, relTol := tr } x z yInit :=
    fun K ta tr => ⟨h.dt, h.e, h.xc, h.zs, h.init, h.prior, h.alpha⟩
  obtain ⟨dt, A, y0, s, hdt, hA, hAs, hst, hsy, hY0, _⟩ := setup_ok h solve
  set N := nReal lap n with hN
  set b := makeRealVector (vectorizeMatrix z) with hb
  set P := irlsOf N (2 * (n * x.r)) cfg.prior cfg.lam A b with hP
  have hgood : P.Good := irls_good h hl ho hid hdt hA b
  -- next state
  let next : FitState → FitState := fun s => match regStep solve cfg n dt A b s with | .ok q => q.1 | .error _ => s
  have hnext : ∀ s y, StateAt cfg.prior N y s → ∃ t, regStep solve cfg n dt A b s = .ok (next s, t) ∧
      StateOwn lap n cfg.prior dt (next s) ∧ P.Step (toVec N y) (toVec N (Spec.params lap n (next s).yMat)) := by
    intro s y hs
    obtain ⟨s', t, h1, h2, h3⟩ := step_own h hl hid hex htot hdt hA hAs hs
    have : next s = s' := by
      show (match regStep solve cfg n dt A b s with | .ok q => q.1 | .error _ => s) = s'
      rw [h1]
    exact ⟨t, by rw [this]; exact h1, by rw [this]; exact h2, by rw [this]; exact h3⟩
  have hiter : ∀ k, StateOwn lap n cfg.prior dt (next^[k + 1] s) := by
    intro k
    induction k with
    | zero => exact (hnext s y0 hst).choose_spec.2.1
    | succ k ih =>
      rw [Function.iterate_succ_apply']
      exact (hnext _ _ ih.1).choose_spec.2.1
  have hsteps : ∀ k, P.Step (toVec N (Spec.params lap n (next^[k + 1] s).yMat))
      (toVec N (Spec.params lap n (next^[k + 1 + 1] s).yMat)) := by
    intro k
    rw [Function.iterate_succ_apply' next (k + 1)]
    exact (hnext _ _ (hiter k).1).choose_spec.2.2
  obtain ⟨y', hmin, huniq, hlim⟩ := Irls.converges hgood (fun k => toVec N (Spec.params lap n (next^[k + 1] s).yMat)) hsteps
  -- the limit
  obtain ⟨Y, _, _, _, _, _, hY⟩ := toMatrix_ok lap n hdt (ofVec_length y')
  obtain ⟨hYsq, hYadm⟩ := toMatrix_admissible lap n hdt hY
  obtain ⟨e, he, _⟩ := e_closed (α := ℂ) lap n
  have hobjY := irls_obj h hdt hA (z := z) (ofVec_length y') hY
  rw [toVec_ofVec] at hobjY
  have hadm : ∀ V, Spec.IsSquare n V → Spec.Admissible lap V → ∃ v : List ℝ, v.length = N ∧ toMatrix n dt v = .ok V ∧
      P.obj (toVec N v) = Spec.objective lap n cfg.prior cfg.lam x z V := by
    intro V hsq had
    obtain ⟨v, _, hvl, hvm⟩ := toParams_ok lap n hdt he hsq
    exact ⟨v, hvl, hvm had, irls_obj h hdt hA hvl (hvm had)⟩
  have hmapY : Spec.IsMap lap n cfg.prior cfg.lam x z Y := by
    refine ⟨hYsq, hYadm, fun V hsq had => ?_⟩
    obtain ⟨v, _, _, hvo⟩ := hadm V hsq had
    rw [← hvo, ← hobjY]
    exact hmin _
  have hfit : ∀ K ta tr, bayesianFit solve { cfg with maxIter := K, absTol := ta, relTol := tr } RegObj.fresh x z yInit =
      finishFit RegObj.fresh (fitLoop { cfg with maxIter := K, absTol := ta, relTol := tr } (regStep solve cfg n dt A b) K 0 s
        RegObj.fresh.iterations) := by
    intro K ta tr
    obtain ⟨dt', A', y0', s', hdt', hA', _, hst', hsy', hY0', hf⟩ := setup_ok (hK K ta tr) solve
    rw [hdt] at hdt'; cases hdt'
    rw [hA] at hA'; cases hA'
    have hyy : y0' = y0 := toMatrix_inj lap n hdt hst'.1 hst.1 hY0' hY0
    subst hyy
    have hss : s' = s := by
      obtain ⟨_, a1, a2⟩ := hst
      obtain ⟨_, b1, b2⟩ := hst'
      cases s; cases s'
      simp only at a1 a2 b1 b2 hsy hsy'
      subst a1 a2 b1 b2 hsy hsy'
      rfl
    subst hss
    exact hf _
  refine ⟨Y, hmapY, ?_, fun K => (next^[K] s).yMat, ?_, ?_, ?_⟩
  · rintro V ⟨hsq, had, hle⟩
    obtain ⟨v, hvl, hvm, hvo⟩ := hadm V hsq had
    have := huniq (toVec N v) (by rw [hvo]; exact (hle Y hYsq hYadm).trans hobjY.symm.le)
    have hv : v = ofVec y' := toVec_inj hvl (ofVec_length y') (by rw [toVec_ofVec]; exact this)
    rw [hv, hY] at hvm
    exact (Except.ok.inj hvm).symm
  · intro i j hi hj
    rw [← tendsto_add_atTop_iff_nat 1]
    have hc : ∀ k, Tendsto (fun K => (Spec.params lap n (next^[K + 1] s).yMat).getD k 0) atTop (𝓝 ((ofVec y').getD k 0)) := by
      intro k
      by_cases hk : k < N
      · have := (tendsto_pi_nhds.1 hlim) ⟨k, hk⟩
        rw [show (ofVec y').getD k 0 = y' ⟨k, hk⟩ from congrFun (toVec_ofVec y') ⟨k, hk⟩]
        exact this
      · have e1 : ∀ l : List ℝ, l.length = N → l.getD k 0 = 0 := by
          intro l hl
          rw [List.getD_eq_getElem?_getD, List.getElem?_eq_none (by omega)]; rfl
        simp only [e1 _ (ofVec_length y'), fun K => e1 _ (hiter K).1.1]
        exact tendsto_const_nhds
    have hE : ∀ K, (next^[K + 1] s).yMat.get i j = _ := fun K => toMatrix_entry lap n hdt (hiter K).1.1 (hiter K).2 hi hj
    simp only [hE]
    rw [toMatrix_entry lap n hdt (ofVec_length y') hY hi hj]
    refine tendsto_finset_sum _ (fun k _ => tendsto_const_nhds.mul ?_)
    exact ((Complex.continuous_ofReal.tendsto _).comp (hc _)).add
      (((Complex.continuous_ofReal.tendsto _).comp (hc _)).mul tendsto_const_nhds)
  · intro K ta tr ha hr
    rw [hfit K ta tr]
    have hl1 := fitLoop_iterate (cfg := { cfg with maxIter := K, absTol := ta, relTol := tr }) ha hr
      (step := regStep solve cfg n dt A b)
      (Good := fun s => ∃ y, StateAt cfg.prior N y s) (next := next) (fun s hs => by
        obtain ⟨y, hs⟩ := hs
        obtain ⟨t, h1, h2, _⟩ := hnext s y hs
        exact ⟨t, h1, _, h2.1⟩) K 0 s ⟨_, hst⟩ RegObj.fresh.iterations rfl
    generalize hr : fitLoop { cfg with maxIter := K, absTol := ta, relTol := tr } (regStep solve cfg n dt A b) K 0 s
      RegObj.fresh.iterations = q at hl1
    obtain ⟨q1, q2⟩ := q
    simp only at hl1
    subst hl1
    refine ⟨_, rfl, rfl⟩
  · intro K ta tr res obj hobj
    rw [hfit K ta tr] at hobj
    generalize hr : fitLoop { cfg with maxIter := K, absTol := ta, relTol := tr } (regStep solve cfg n dt A b) K 0 s
      RegObj.fresh.iterations = q at hobj
    obtain ⟨rs, log'⟩ := q
    obtain ⟨run, r1, r2, r3, _, r5⟩ := fitLoop_spec _ _ K 0 s [] log' rs rfl hr
    rw [List.nil_append] at r3
    obtain ⟨g1, g2⟩ := iterate_run (Good := fun s => ∃ y, StateAt cfg.prior N y s) (next := next) (fun s hs => by
        obtain ⟨y, hs⟩ := hs
        obtain ⟨t, h1, h2, _⟩ := hnext s y hs
        exact ⟨t, h1, _, h2.1⟩) run s ⟨_, hst⟩ r1
    have hlog : obj.iterations = Spec.entries 0 run := by
      cases rs <;> simp only [finishFit, Prod.mk.injEq] at hobj <;> rw [← hobj.2, ← r3]
    refine ⟨?_, ?_⟩
    · cases rs with
      | ok s' => exact (congrArg Prod.fst hobj).symm
      | error e =>
        exfalso
        obtain ⟨y, hs⟩ := g1
        obtain ⟨t, h1, _⟩ := hnext _ y hs
        rw [r5.2.1] at h1
        cases h1
    · intro k e he
      rw [hlog, entries_get] at he
      cases hq : run[k]? with
      | none => rw [hq] at he; cases he
      | some q =>
        rw [hq] at he
        cases he
        exact congrArg FitState.yMat (g2 k q hq)

/-- the estimate that the program computes with the absolute-value prior: as the number of iterations grows it tends to the
minimiser for the prior built from the least-squares estimate -/
theorem C112_lasso (ext : NumExt) (cf : IdConf) (hl : 0 ≤ cf.lambdaLasso) (hex : Spec.Exact ext.solve)
    (htot : Spec.Total ext.solve) (v i : Arr2 ℂ) (lap : Bool) (hs : i.r = v.r ∧ i.c = v.c)
    (hrank : Spec.FullColumnRank (centreData lap v i).1) (ha : cf.absTol ≤ 0) (hr : cf.relTol ≤ 0) {yo yt : Arr2 ℂ}
    (hosq : Spec.IsSquare v.c yo)
    (hols : complexRegressionFit ext.pinv (centreData lap v i).1 (centreData lap v i).2 = .ok yo)
    (htls : tlsFit ext.svdVh ext.inv (centreData lap v i).1 (centreData lap v i).2 = .ok yt) :
    ∃ (p : Prior) (Y : Arr2 ℂ) (M : ℕ → Arr2 ℂ), buildLassoPrior v.c yo lap = .ok p ∧
      Spec.IsMap lap v.c p cf.lambdaLasso (centreData lap v i).1 (centreData lap v i).2 Y ∧
      (∀ V, Spec.IsMap lap v.c p cf.lambdaLasso (centreData lap v i).1 (centreData lap v i).2 V → V = Y) ∧
      (∀ a b, a < v.c → b < v.c → Tendsto (fun K => (M K).get a b) atTop (𝓝 (Y.get a b))) ∧
      ∀ K, 0 < K → standardCompute ext cf v i lap K = .ok (yo, yt, M K) := by
  have hsh : (centreData lap v i).1.r = v.r ∧ (centreData lap v i).1.c = v.c ∧ (centreData lap v i).2.r = i.r ∧
      (centreData lap v i).2.c = i.c := by cases lap <;> exact ⟨rfl, rfl, rfl, rfl⟩
  obtain ⟨s1, s2, s3, s4⟩ := hsh
  obtain ⟨p, y0, hp, hy0, hset⟩ := lasso_setup v.c yo (centreData lap v i).1 (centreData lap v i).2 hosq lap cf 0 s2
    ⟨by rw [s3, s1, hs.1], by rw [s4, hs.2]⟩
  obtain ⟨p', hp', _, _, _, ho, _⟩ := C43_computes v.c yo hosq lap
  rw [hp] at hp'; cases hp'
  obtain ⟨Y, h1, h2, M, h3, h4, _⟩ := C112_converges hset hl (fun t ht => Or.inl (ho t ht))
    (identifiable_fullColumnRank lap v.c p cf.lambdaLasso _ s2 hrank) hex htot
  refine ⟨p, Y, M, hp, h1, h2, h3, fun K hK => ?_⟩
  obtain ⟨obj, h5, h6⟩ := h4 K cf.absTol cf.relTol ha hr
  have h5 : bayesianFit ext.solve (regConfig cf p cf.lambdaLasso lap K) RegObj.fresh (centreData lap v i).1
      (centreData lap v i).2 y0 = (.ok (), obj) := h5
  simp only [standardCompute, hols, htls, hp, hy0, h5, fitted, h6, if_pos hK, Bind.bind, Except.bind, Pure.pure, Except.pure]

/-- the hypotheses of `C112_lasso` are met by one node and two samples -/
example : ∃ (ext : NumExt) (cf : IdConf), 0 < cf.lambdaLasso ∧ Spec.Exact ext.solve ∧ Spec.Total ext.solve ∧
    Spec.FullColumnRank (centreData false demoV demoI).1 ∧ cf.absTol ≤ 0 ∧ cf.relTol ≤ 0 ∧ ∃ yo yt, Spec.IsSquare demoV.c yo ∧
    complexRegressionFit ext.pinv (centreData false demoV demoI).1 (centreData false demoV demoI).2 = .ok yo ∧
    tlsFit ext.svdVh ext.inv (centreData false demoV demoI).1 (centreData false demoV demoI).2 = .ok yt := by
  obtain ⟨ext, cf, p, hl, hinv, hex, htot, hvi, hrank, hp, hpi, hxz, hs, hsvd⟩ := demo_recovery
  refine ⟨ext, ⟨1, 1, 1, 0, 0, true, true, false⟩, by norm_num, hex, htot, hrank, by norm_num, by norm_num, demoY, demoY,
    ⟨rfl, rfl⟩, ?_, ?_⟩
  · exact C29_recovery ext.pinv _ _ p demoY hp hpi hrank (C47_columns demoV demoY demoI hvi)
  · exact C30_recovery ext.svdVh ext.inv hinv _ _ demoY demoXZ demoVh hrank (C47_columns demoV demoY demoI hvi) hxz hs hsvd

/-! ### C113 fixed points -/

theorem irls_strict {N m k : Nat} {P : Irls N m k} (h : P.Good) {y y' : Fin N → ℝ} (hs : P.Step y y') (hne : y' ≠ y) :
    P.obj y' < P.obj y := by
  have hg := Irls.step_gap h hs
  have p1 : 0 ≤ ∑ j, (P.A (y - y') j) ^ 2 := Finset.sum_nonneg (fun _ _ => sq_nonneg _)
  have p2 : 0 ≤ ∑ i, (P.R (y - y') i) ^ 2 / P.w y i := Finset.sum_nonneg (fun i _ => div_nonneg (sq_nonneg _) (Irls.w_pos h y i).le)
  have p3 := mul_nonneg h.lam p2
  refine lt_of_le_of_ne (by linarith) (fun he => hne ?_)
  have hA : P.A (y - y') = 0 := by
    have h0 : ∑ j, (P.A (y - y') j) ^ 2 = 0 := by linarith
    funext j
    have := (Finset.sum_eq_zero_iff_of_nonneg (fun _ _ => sq_nonneg _)).1 h0 j (Finset.mem_univ j)
    exact pow_eq_zero_iff (two_ne_zero) |>.1 this
  have := h.inj (y - y') hA (fun hl => by
    have h1 : P.lam * ∑ i, (P.R (y - y') i) ^ 2 / P.w y i = 0 := by linarith
    have h2 := (mul_eq_zero.1 h1).resolve_left hl.ne'
    funext i
    have h3 := (Finset.sum_eq_zero_iff_of_nonneg (fun i _ => div_nonneg (sq_nonneg _) (Irls.w_pos h y i).le)).1 h2 i
      (Finset.mem_univ i)
    rcases div_eq_zero_iff.1 h3 with h4 | h4
    · exact pow_eq_zero_iff (two_ne_zero) |>.1 h4
    · exact absurd h4 (Irls.w_pos h y i).ne')
  exact (sub_eq_zero.1 this).symm

/-- one step compared with the matrix it starts from -/
def Spec.Settles (lap : Bool) (n : Nat) (p : Prior) (lam : ℝ) (x z Y Y' : Arr2 ℂ) : Prop :=
  (Y' = Y ↔ Spec.IsMap lap n p lam x z Y) ∧
  (¬ Spec.IsMap lap n p lam x z Y → Spec.objective lap n p lam x z Y' < Spec.objective lap n p lam x z Y)

theorem settles_step {lap : Bool} {n : Nat} {cfg : RegConfig} {x z yInit : Arr2 ℂ} (h : FitSetup lap n cfg x z yInit)
    (hl : 0 ≤ cfg.lam) (ho : ∀ t ∈ Spec.terms cfg.prior, t.order = 1 ∨ t.order = 2)
    (hid : Spec.Identifiable lap n cfg.prior cfg.lam x) {solve : Solver} (hex : Spec.Exact solve) {dt : Arr2 ℂ}
    (hdt : dtMatrix ℂ lap n = .ok dt) {A : Arr2 ℝ}
    (hAr : regressionMatrix n x dt = .ok A) (hA : A.r = 2 * (n * x.r) ∧ A.c = nReal lap n) {y : List ℝ}
    {s s' : FitState} {t : ℝ} {Y : Arr2 ℂ} (hY : toMatrix n dt y = .ok Y)
    (hs : StateAt cfg.prior (nReal lap n) y s)
    (hstep : regStep solve cfg n dt A (makeRealVector (vectorizeMatrix z)) s = .ok (s', t)) :
    ∃ y', StateAt cfg.prior (nReal lap n) y' s' ∧ toMatrix n dt y' = .ok s'.yMat ∧
      Spec.Settles lap n cfg.prior cfg.lam x z Y s'.yMat := by
  have hb : (makeRealVector (vectorizeMatrix z)).length = 2 * (n * x.r) := by
    rw [makeRealVector_length, vec_length, h.zs.1, h.zs.2]
  obtain ⟨y', hs', hy', heq⟩ := step_at h hex hdt hA hb hs hstep
  rw [hs.2.1, hs.2.2] at heq
  have hst := irls_step h hs.1 heq
  have hgood := irls_good h hl ho hid hdt hAr (makeRealVector (vectorizeMatrix z))
  have o1 := irls_obj h hdt hAr (z := z) hs.1 hY
  have o2 := irls_obj h hdt hAr (z := z) hs'.1 hy'
  have hsame : s'.yMat = Y ↔ toVec (nReal lap n) y' = toVec (nReal lap n) y := by
    constructor
    · intro he
      rw [he] at hy'
      rw [toMatrix_inj lap n hdt hs'.1 hs.1 hy' hY]
    · intro he
      rw [toVec_inj hs'.1 hs.1 he, hY] at hy'
      exact (Except.ok.inj hy').symm
  have hmap : Spec.IsMap lap n cfg.prior cfg.lam x z Y ↔ ∀ v, (irlsOf (nReal lap n) (2 * (n * x.r)) cfg.prior cfg.lam A
      (makeRealVector (vectorizeMatrix z))).obj (toVec (nReal lap n) y) ≤
      (irlsOf (nReal lap n) (2 * (n * x.r)) cfg.prior cfg.lam A (makeRealVector (vectorizeMatrix z))).obj v := by
    constructor
    · rintro ⟨_, _, hle⟩ v
      obtain ⟨V, _, _, _, _, _, hV⟩ := toMatrix_ok lap n hdt (ofVec_length v)
      obtain ⟨a1, a2⟩ := toMatrix_admissible lap n hdt hV
      have o3 := irls_obj h hdt hAr (z := z) (ofVec_length v) hV
      rw [toVec_ofVec] at o3
      rw [o1, o3]
      exact hle V a1 a2
    · intro hle
      obtain ⟨a1, a2⟩ := toMatrix_admissible lap n hdt hY
      refine ⟨a1, a2, fun V hsq had => ?_⟩
      obtain ⟨e, he, _⟩ := e_closed (α := ℂ) lap n
      obtain ⟨v, _, hvl, hvm⟩ := toParams_ok lap n hdt he hsq
      rw [← o1, ← irls_obj h hdt hAr (z := z) hvl (hvm had)]
      exact hle _
  refine ⟨y', hs', hy', ?_, ?_⟩
  · rw [hsame, hmap]
    exact Irls.fixed_iff hgood hst
  · intro hn
    rw [← o1, ← o2]
    refine irls_strict hgood hst (fun he => hn ?_)
    rw [hmap]
    exact (Irls.fixed_iff hgood hst).1 he

theorem settles_run {lap : Bool} {n : Nat} {cfg : RegConfig} {x z yInit : Arr2 ℂ} (h : FitSetup lap n cfg x z yInit)
    (hl : 0 ≤ cfg.lam) (ho : ∀ t ∈ Spec.terms cfg.prior, t.order = 1 ∨ t.order = 2)
    (hid : Spec.Identifiable lap n cfg.prior cfg.lam x) {solve : Solver} (hex : Spec.Exact solve) {dt : Arr2 ℂ}
    (hdt : dtMatrix ℂ lap n = .ok dt) {A : Arr2 ℝ}
    (hAr : regressionMatrix n x dt = .ok A) (hA : A.r = 2 * (n * x.r) ∧ A.c = nReal lap n) (run : List (FitState × ℝ))
    (s : FitState) (y : List ℝ) (Y : Arr2 ℂ) (hY : toMatrix n dt y = .ok Y)
    (hs : StateAt cfg.prior (nReal lap n) y s)
    (hrun : Spec.IsRun (regStep solve cfg n dt A (makeRealVector (vectorizeMatrix z))) s run) :
    (∀ e, run[0]? = some e → Spec.Settles lap n cfg.prior cfg.lam x z Y e.1.yMat) ∧
    ∀ i e e', run[i]? = some e → run[i + 1]? = some e' → Spec.Settles lap n cfg.prior cfg.lam x z e.1.yMat e'.1.yMat := by
  induction run generalizing s y Y with
  | nil => exact ⟨by simp, by simp⟩
  | cons q l ih =>
    obtain ⟨h1, h2⟩ := hrun
    obtain ⟨y', hs', hy', hle⟩ := settles_step h hl ho hid hex hdt hAr hA hY hs (s' := q.1) (t := q.2) h1
    obtain ⟨i1, i2⟩ := ih q.1 y' q.1.yMat hy' hs' h2
    refine ⟨?_, ?_⟩
    · intro e he
      simp at he
      subst he
      exact hle
    · intro i e e' he he'
      cases i with
      | zero =>
        simp only [List.getElem?_cons_zero, Option.some.injEq] at he
        subst he
        simp only [List.getElem?_cons_succ] at he'
        exact i1 e' he'
      | succ i =>
        simp only [List.getElem?_cons_succ] at he he'
        exact i2 i e e' he he'

/-- C113: an iteration reproduces the matrix it starts from exactly when that matrix minimises the objective, and otherwise
decreases the objective strictly: for the first iteration (which starts from the symmetrised initial guess) and for every later
one, whatever the tolerances. -/
theorem C113_fixed_points {lap : Bool} {n : Nat} {cfg : RegConfig} {x z yInit : Arr2 ℂ} (h : FitSetup lap n cfg x z yInit)
    (hl : 0 ≤ cfg.lam) (ho : ∀ t ∈ Spec.terms cfg.prior, t.order = 1 ∨ t.order = 2)
    (hid : Spec.Identifiable lap n cfg.prior cfg.lam x) {solve : Solver} (hex : Spec.Exact solve)
    {res : Except PyErr Unit} {obj : RegObj} (hfit : bayesianFit solve cfg RegObj.fresh x z yInit = (res, obj)) :
    (∀ e, obj.iterations[0]? = some e →
      Spec.Settles lap n cfg.prior cfg.lam x z (Spec.projection lap n yInit) e.params) ∧
    ∀ i e e', obj.iterations[i]? = some e → obj.iterations[i + 1]? = some e' →
      Spec.Settles lap n cfg.prior cfg.lam x z e.params e'.params := by
  obtain ⟨dt, A, y0, s, hdt, hA, hAs, hst, hsy, hY0, hf⟩ := setup_ok h solve
  rw [hf] at hfit
  generalize hr : fitLoop cfg (regStep solve cfg n dt A (makeRealVector (vectorizeMatrix z))) cfg.maxIter 0 s
    RegObj.fresh.iterations = r at hfit
  obtain ⟨rs, log'⟩ := r
  obtain ⟨run, h1, h2, h3, h4, h5⟩ := fitLoop_spec cfg _ cfg.maxIter 0 s [] log' rs rfl hr
  rw [List.nil_append] at h3
  have hlog : obj.iterations = Spec.entries 0 run := by
    cases rs <;> simp only [finishFit, Prod.mk.injEq] at hfit <;> rw [← hfit.2, ← h3]
  obtain ⟨d1, d2⟩ := settles_run h hl ho hid hex hdt hA hAs run s y0 _ hY0 hst h1
  rw [hlog]
  refine ⟨?_, ?_⟩
  · intro e he
    rw [entries_get] at he
    cases hq : run[0]? with
    | none => rw [hq] at he; cases he
    | some q => rw [hq] at he; cases he; exact d1 q hq
  · intro i e e' he he'
    rw [entries_get] at he he'
    cases hq : run[i]? with
    | none => rw [hq] at he; cases he
    | some q =>
      cases hq' : run[i + 1]? with
      | none => rw [hq'] at he'; cases he'
      | some q' =>
        rw [hq] at he; rw [hq'] at he'
        cases he; cases he'
        exact d2 i q q' hq hq'

end
end Verif
