/-
C132: the weighted error-in-variables fit on exact data, started at the matrix that generated them.
-/
import Verif.Props.Stop

namespace Verif
open Finset Matrix Filter Topology
noncomputable section

theorem stackReal_zero_inv {D : Arr2 ℂ} (h : Spec.stackReal D = List.replicate (2 * (D.c * D.r)) 0) : D = Arr2.zeros D.r D.c := by
  refine vec_inj rfl rfl (makeRealVector_inj ?_)
  rw [stackReal_eq, stackReal_eq, h, stackReal_zeros]

theorem zeros_get (r c i j : Nat) : (Arr2.zeros r c : Arr2 ℂ).get i j = 0 := by simp [Arr2.zeros, Arr2.ofFn_get']

/-- no residual and no correction when the data are exact -/
theorem exact_residual {x z Y : Arr2 ℂ} (hz : x.matmul Y = .ok z) :
    Spec.residual x z Y (Arr2.zeros x.r x.c) = Arr2.zeros z.r z.c := by
  obtain ⟨h1, h2, h3, h4⟩ := matmul_entry hz
  refine Arr2.ext' rfl rfl fun i j (hi : i < z.r) (hj : j < z.c) => ?_
  rw [zeros_get, Spec.residual, Arr2.ofFn_get _ hi hj, h4 i j (by omega) (by omega)]
  simp only [zeros_get, sub_zero, sub_self]

theorem residual_zero_inv {x z Y : Arr2 ℂ} (hY : Y.r = x.c ∧ Y.c = z.c) (hz : z.r = x.r)
    (h : Spec.residual x z Y (Arr2.zeros x.r x.c) = Arr2.zeros z.r z.c) : x.matmul Y = .ok z := by
  refine matmul_of_entries hY.1.symm hz hY.2.symm fun i j hi hj => ?_
  have := congrArg (fun A : Arr2 ℂ => A.get i j) h
  simp only [zeros_get, Spec.residual] at this
  rw [Arr2.ofFn_get _ (by omega) (by omega)] at this
  simp only [zeros_get, sub_zero] at this
  exact (sub_eq_zero.1 this).symm

theorem wquad_zeros (W : Arr2 ℝ) (m : Nat) : Spec.wquad W (List.replicate m 0) = 0 := by
  unfold Spec.wquad
  refine Finset.sum_eq_zero fun i _ => Finset.sum_eq_zero fun j _ => ?_
  have : (List.replicate m (0 : ℝ)).getD i 0 = 0 := by
    rw [List.getD_eq_getElem?_getD, List.getElem?_replicate]; split <;> rfl
  rw [this, zero_mul, zero_mul]

theorem exact_cost (xW zW : Arr2 ℝ) {x z Y : Arr2 ℂ} (hz : x.matmul Y = .ok z) :
    Spec.eivCost xW zW x z Y (Arr2.zeros x.r x.c) = 0 := by
  unfold Spec.eivCost
  rw [exact_residual hz, stackReal_zeros, stackReal_zeros, wquad_zeros, wquad_zeros, add_zero]

/-- an optimal correction at the exact matrix is none -/
theorem exact_correction {xW zW : Arr2 ℝ} {x z Y D : Arr2 ℂ} (hz : x.matmul Y = .ok z) (hxW : Spec.PosDef (2 * (x.c * x.r)) xW)
    {m : Nat} (hzW : Spec.IsWeight m zW) (hD : D.r = x.r ∧ D.c = x.c)
    (hmin : ∀ D', D'.r = x.r → D'.c = x.c → Spec.eivCost xW zW x z Y D ≤ Spec.eivCost xW zW x z Y D') :
    D = Arr2.zeros x.r x.c := by
  have h1 := hmin (Arr2.zeros x.r x.c) rfl rfl
  rw [exact_cost xW zW hz] at h1
  unfold Spec.eivCost at h1
  have h2 := hzW.psd (Spec.stackReal (Spec.residual x z Y D))
  have h3 := hxW.1.psd (Spec.stackReal D)
  have h4 := hxW.2 (Spec.stackReal D) (by rw [stackReal_length, hD.1, hD.2]) (by linarith)
  rw [← hD.1, ← hD.2] at h4 ⊢
  exact stackReal_zero_inv h4

/-- data of full column rank determine the matrix -/
theorem rank_unique {x z Y V : Arr2 ℂ} (hx : Spec.FullColumnRank x) (hY : x.matmul Y = .ok z) (hV : x.matmul V = .ok z) : V = Y := by
  obtain ⟨a1, a2, a3, a4⟩ := Arr2.matmul_inv hY
  obtain ⟨b1, b2, b3, b4⟩ := Arr2.matmul_inv hV
  refine Arr2.toMat_inj (r := x.c) (c := z.c) ⟨b1.symm, b3.symm⟩ ⟨a1.symm, a3.symm⟩ ?_
  rw [← sub_eq_zero]
  ext i j
  have := hx (fun k => (V.toMat x.c z.c - Y.toMat x.c z.c) k j) (by
    have h0 : x.toMat x.r x.c * (V.toMat x.c z.c - Y.toMat x.c z.c) = 0 := by rw [Matrix.mul_sub, ← a4, ← b4, sub_self]
    funext t
    have := congrFun (congrFun h0 t) j
    rw [mul_apply] at this
    exact this)
  exact congrFun this i

/-- a weighted iteration from the exact matrix returns it -/
theorem exact_step {lap : Bool} {n : Nat} {cfg : RegConfig} {x z yInit : Arr2 ℂ} (h : FitSetup lap n cfg x z yInit)
    (hl : 0 ≤ cfg.lam) {Y : Arr2 ℂ} (hsq : Spec.IsSquare n Y) (hadm : Spec.Admissible lap Y) (hz : x.matmul Y = .ok z)
    (hrank : Spec.FullColumnRank x) (hprior : cfg.lam = 0 ∨ ∀ t ∈ Spec.terms cfg.prior, t.resid (nReal lap n) (Spec.params lap n Y) = 0)
    {xW zW : Arr2 ℝ} (hxW : Spec.PosDef (2 * (n * x.r)) xW) (hzW : Spec.PosDef (2 * (n * x.r)) zW) {solve : Solver}
    (hex : Spec.Exact solve) (htot : Spec.Total solve) {dt : Arr2 ℂ} (hdt : dtMatrix ℂ lap n = .ok dt) {A : Arr2 ℝ}
    (hA : regressionMatrix n x dt = .ok A) {y : List ℝ} {s : FitState} (hs : StateAt cfg.prior (nReal lap n) y s)
    (hsy : s.yMat = Y) : ∃ s' t y', eivWeightedStep solve cfg x dt A (Spec.stackReal x) (Spec.stackReal z) xW zW s = .ok (s', t) ∧
      StateAt cfg.prior (nReal lap n) y' s' ∧ s'.yMat = Y := by
  have hxc := h.xc
  subst hxc
  have hsym : Spec.IsSymm Y := hadm.1
  have hzero : ∀ v V, v.length = nReal lap x.c → toMatrix x.c dt v = .ok V →
      Spec.wquad zW (Spec.stackReal (Spec.residual x (Arr2.zeros x.r x.c) V (Arr2.zeros x.r x.c))) = 0 →
      v = List.replicate (nReal lap x.c) 0 := by
    intro v V hv hV h0
    have hVs := (toMatrix_admissible lap x.c hdt hV).1
    have h1 := hzW.2 _ (by rw [stackReal_length]; rfl) h0
    have h2 : x.matmul V = .ok (Arr2.zeros x.r x.c) :=
      residual_zero_inv ⟨hVs.1, hVs.2⟩ rfl (stackReal_zero_inv (D := Spec.residual x (Arr2.zeros x.r x.c) V (Arr2.zeros x.r x.c)) h1)
    have h3 : x.matmul (Arr2.zeros x.c x.c) = .ok (Arr2.zeros x.r x.c) :=
      matmul_of_entries rfl rfl rfl fun i j _ _ => by simp only [zeros_get, mul_zero, Finset.sum_const_zero]
    have h4 := rank_unique hrank h3 h2
    subst h4
    have hp := params_of_toMatrix lap x.c hdt hv hV
    refine List.eq_replicate_iff.2 ⟨hv, fun b hb => ?_⟩
    rw [← hp] at hb
    obtain ⟨idx, sg, _, hpe⟩ := params_idx lap x.c
    rw [hpe] at hb
    simp only [zeros_get, Complex.zero_re, Complex.zero_im, mul_zero, List.mem_append, List.mem_map] at hb
    rcases hb with ⟨_, _, rfl⟩ | ⟨_, _, rfl⟩ <;> rfl
  obtain ⟨s', t, y', hst, hs'⟩ := eivStep_total_of h hl hxW hzW.1 hex htot hdt hA hs (by rw [hsy]; exact hsq) (by
    intro D v V hDr hDc hc hv hV h0 _
    rw [hsy] at hc
    obtain ⟨D2, r2, c2, e2, _, hmin⟩ := correction_min hex rfl h.zs hsq hsym hxW.1 hzW.1 hc
    have hD2 := exact_correction hz hxW hzW.1 ⟨r2, c2⟩ hmin
    have hDD : D = D2 := vec_inj (hDr.trans r2.symm) (hDc.trans c2.symm) (makeRealVector_inj (by
      rw [stackReal_eq, stackReal_eq, e2]))
    rw [hDD, hD2] at h0
    exact hzero v V hv hV h0)
  refine ⟨s', t, y', hst, hs', ?_⟩
  obtain ⟨D, y2, hDr, hDc, hDmin, hs2, hY2, _, hmin⟩ := eivStep_at h hl hxW.1 hzW.1 hex hdt hA hs (by rw [hsy]; exact hsq)
    (by rw [hsy]; exact hsym) hst
  rw [hsy] at hDmin
  have hD0 := exact_correction hz hxW hzW.1 ⟨hDr, hDc⟩ hDmin
  subst hD0
  obtain ⟨v, hv, hvY⟩ : ∃ v, v.length = nReal lap x.c ∧ toMatrix x.c dt v = .ok Y := by
    obtain ⟨e, he, _⟩ := e_closed (α := ℂ) lap x.c
    obtain ⟨v, _, hv, hvY⟩ := toParams_ok lap x.c hdt he hsq
    exact ⟨v, hv, hvY hadm⟩
  have hpv := params_of_toMatrix lap x.c hdt hv hvY
  have h1 := hmin v Y hv hvY
  rw [exact_cost xW zW hz] at h1
  have h2 : cfg.lam * Spec.model cfg.prior (nReal lap x.c) y v = 0 := by
    rcases hprior with h0 | h0
    · rw [h0, zero_mul]
    · have : Spec.model cfg.prior (nReal lap x.c) y v = 0 := by
        unfold Spec.model
        refine List.sum_eq_zero fun b hb => ?_
        obtain ⟨t, ht, rfl⟩ := List.mem_map.1 hb
        rw [← hpv, h0 t ht, sq, zero_mul, zero_div]
      rw [this, mul_zero]
  have h3 : 0 ≤ cfg.lam * Spec.model cfg.prior (nReal lap x.c) y y2 := by
    refine mul_nonneg hl (List.sum_nonneg fun b hb => ?_)
    obtain ⟨t, _, rfl⟩ := List.mem_map.1 hb
    exact div_nonneg (sq_nonneg _) (scale_pos _ h.alpha _ _).le
  have hc2 := toMatrix_admissible lap x.c hdt hY2
  have h4 : Spec.wquad zW (Spec.stackReal (Spec.residual x z s'.yMat (Arr2.zeros x.r x.c))) = 0 := by
    have a1 := hzW.1.psd (Spec.stackReal (Spec.residual x z s'.yMat (Arr2.zeros x.r x.c)))
    have a2 := hxW.1.psd (Spec.stackReal (Arr2.zeros x.r x.c))
    unfold Spec.eivCost at h1
    linarith
  have h5 := hzW.2 _ (by rw [stackReal_length]; show 2 * (z.c * z.r) = _; rw [h.zs.1, h.zs.2]) h4
  have h6 : x.matmul s'.yMat = .ok z :=
    residual_zero_inv ⟨hc2.1.1, hc2.1.2.trans h.zs.2.symm⟩ h.zs.1 (stackReal_zero_inv (by
      rw [h5]; show _ = List.replicate (2 * (z.c * z.r)) _; rw [h.zs.1, h.zs.2]))
  exact rank_unique hrank hz h6

/-- C132: on exact data with voltages of full column rank and positive definite weights, the weighted error-in-variables fit
started at the matrix that generated the data returns this matrix, whatever the weight of a prior that this matrix meets exactly
(and whatever the prior without weight), and with a positive `abs_tol` it makes two iterations. -/
theorem C132_fixed {lap : Bool} {n : Nat} {cfg : RegConfig} {x z Y : Arr2 ℂ} (h : FitSetup lap n cfg x z Y)
    (hl : 0 ≤ cfg.lam) (hadm : Spec.Admissible lap Y) (hz : x.matmul Y = .ok z)
    (hrank : Spec.FullColumnRank x) (hprior : cfg.lam = 0 ∨ ∀ t ∈ Spec.terms cfg.prior, t.resid (nReal lap n) (Spec.params lap n Y) = 0)
    {xW : Arr2 ℝ} (hxW : Spec.PosDef (2 * (n * x.r)) xW) (zW : Arr2 ℝ) {solve : Solver}
    (hex : Spec.Exact solve) (htot : Spec.Total solve) (inv : Arr2 ℂ → Except PyErr (Arr2 ℂ)) :
    ∃ obj, eivFit solve inv cfg RegObj.fresh x z (some xW) (some zW) Y = (.ok (), obj) ∧ obj.admittance = some Y ∧
      (∀ e ∈ obj.iterations, e.params = Y) ∧ (0 < cfg.absTol → obj.iterations.length = min 2 cfg.maxIter) := by
  have hsq := h.init
  obtain ⟨dt, A, y0, s, hdt, hA, hst, hsy, hY0, hf, _⟩ := eivSetup_ok h solve inv
  generalize hr : fitLoop cfg (eivWeightedStep solve cfg x dt A (Spec.stackReal x) (Spec.stackReal z) xW xW) cfg.maxIter 0 s
    [] = r
  obtain ⟨rs, log'⟩ := r
  obtain ⟨run, h1, h2, h3, h4, h5⟩ := fitLoop_spec cfg _ cfg.maxIter 0 s [] log' rs rfl hr
  have hstep : ∀ s, ((∃ y, StateAt cfg.prior (nReal lap n) y s) ∧ s.yMat = Y) → ∃ s' t,
      eivWeightedStep solve cfg x dt A (Spec.stackReal x) (Spec.stackReal z) xW xW s = .ok (s', t) ∧
      ((∃ y, StateAt cfg.prior (nReal lap n) y s') ∧ s'.yMat = Y) ∧ s'.yMat = Y := by
    rintro s ⟨⟨y, hs⟩, hsy⟩
    obtain ⟨s', t, y', h6, h7, h8⟩ := exact_step h hl hsq hadm hz hrank hprior hxW hxW hex htot hdt hA hs hsy
    exact ⟨s', t, h6, ⟨⟨y', h7⟩, h8⟩, h8⟩
  obtain ⟨g1, g2⟩ := fixed_run hstep run s ⟨⟨y0, hst⟩, hsy⟩ h1
  cases rs with
  | error e =>
    exfalso
    obtain ⟨s', t, h6, _⟩ := hstep _ g1
    rw [h5.2.1] at h6; cases h6
  | ok s' =>
    obtain ⟨obj, hobj⟩ : ∃ obj, eivFit solve inv cfg RegObj.fresh x z (some xW) (some zW) Y = (.ok (), obj) := by
      show ∃ obj, eivBody solve inv cfg RegObj.fresh x z (some xW) (some xW) Y = (.ok (), obj)
      rw [hf]
      show ∃ obj, finishFit _ (fitLoop cfg _ cfg.maxIter 0 s []) = _
      rw [hr]
      exact ⟨_, rfl⟩
    obtain ⟨dt', A', y0', s0', run', hdt', hA', hst', hsy', _, hrun', hlog⟩ := eiv_log h
      (show eivBody solve inv cfg RegObj.fresh x z (some xW) (some xW) Y = _ from hobj)
    rw [hdt] at hdt'; cases hdt'
    rw [hA] at hA'; cases hA'
    have hall : ∀ e ∈ obj.iterations, e.params = Y := by
      intro e he
      obtain ⟨i, hi⟩ := List.mem_iff_getElem?.1 he
      rw [hlog, entries_get] at hi
      obtain ⟨q, hq, rfl⟩ := Option.map_eq_some_iff.1 hi
      exact (fixed_run hstep run' s0' ⟨⟨y0', hst'⟩, hsy'⟩ hrun').2 q (List.mem_of_getElem? hq)
    obtain ⟨Ds, htr, _⟩ := eivTrace_fit h hl hadm.1 hxW.1 hxW.1 hex
      (show eivBody solve inv cfg RegObj.fresh x z (some xW) (some xW) Y = _ from hobj)
    obtain ⟨c0, c1⟩ := C33_eiv solve inv cfg x z _ _ Y hobj
    obtain ⟨t1, t2⟩ := C34_eiv solve inv cfg x z _ _ Y hobj
    refine ⟨obj, hobj, ?_, hall, fun ha => ?_⟩
    · rcases Nat.eq_zero_or_pos cfg.maxIter with h0 | h0
      · exact (c0 h0).2
      · obtain ⟨_, _, _, e, he, hea⟩ := c1 h0
        rw [hea, hall e (List.mem_of_getLast? he)]
    · rcases Nat.eq_zero_or_pos cfg.maxIter with h0 | h0
      · rw [(c0 h0).1, h0]; rfl
      · obtain ⟨d1, d2, _⟩ := c1 h0
        have hle : obj.iterations.length ≤ 2 := by
          by_contra hlt
          refine t2 1 (by omega) (by omega) ?_
          have : Spec.targetAt obj.iterations 1 = Spec.targetAt obj.iterations 0 := by
            match hob : obj.iterations, Ds, htr with
            | a :: b :: l, D :: D' :: Ds, ⟨dr, dc, dm, dt, dr', dc', dm', dt', _⟩ =>
              have ha := hall a (by rw [hob]; simp)
              have hb := hall b (by rw [hob]; simp)
              rw [h.xc.symm] at hxW
              have e1 := exact_correction hz hxW hxW.1 ⟨dr, dc⟩ dm
              rw [ha] at dm'
              have e2 := exact_correction hz hxW hxW.1 ⟨dr', dc'⟩ dm'
              show b.target = a.target
              rw [dt, dt', ha, hb, e1, e2]
            | [_], _, _ => rw [hob] at hlt; exact absurd hlt (by simp)
            | [], _, _ => rw [hob] at hlt; exact absurd hlt (by simp)
            | _ :: _ :: _, [_], ht => exact absurd ht.2.2.2.2 (by simp [Spec.EivTrace])
            | _ :: _ :: _, [], ht => exact absurd ht (by simp [Spec.EivTrace])
          unfold Spec.Stops
          rw [show 1 - 1 = 0 from rfl, this, sub_self, abs_zero]
          exact ⟨le_rfl, Or.inl ha⟩
        by_cases hlt : obj.iterations.length < cfg.maxIter
        · have := (t1 hlt).1
          omega
        · omega

/-- C131 with exact data: when the data and the prior are met exactly by one matrix, the Bayesian regression makes two iterations
from any initial guess (one if `max_iterations` is 1) -/
theorem C131_exact_partial {lap : Bool} {n : Nat} {cfg : RegConfig} {x z yInit : Arr2 ℂ} (h : FitSetup lap n cfg x z yInit)
    (hl : 0 ≤ cfg.lam) (hid : Spec.Identifiable lap n cfg.prior cfg.lam x) {Y : Arr2 ℂ} (hsq : Spec.IsSquare n Y)
    (hadm : Spec.Admissible lap Y) (hz : x.matmul Y = .ok z)
    (hpr : ∀ t ∈ Spec.terms cfg.prior, t.resid cfg.prior.n (Spec.params lap n Y) = 0)
    {solve : Solver} (hex : Spec.Exact solve) (htot : Spec.Total solve) (hk : 0 < cfg.maxIter) (ha : 0 < cfg.absTol) :
    ∃ obj, bayesianFit solve cfg RegObj.fresh x z yInit = (.ok (), obj) ∧ obj.admittance = some Y ∧
      obj.iterations.length = min 2 cfg.maxIter := by
  obtain ⟨obj, hfit, hY, _, hall⟩ := C37_fixed_point h hl hid hsq hadm hz hpr hex htot hk
  refine ⟨obj, hfit, hY, ?_⟩
  obtain ⟨_, _, _, _, _, ht, _⟩ := reg_trace h hex hfit
  obtain ⟨t1, t2⟩ := C34_regression solve cfg x z yInit hfit
  obtain ⟨d1, d2, _⟩ := (C33_regression solve cfg x z yInit hfit).2 hk
  have hle : obj.iterations.length ≤ 2 := by
    by_contra hlt
    refine t2 1 (by omega) (by omega) ?_
    have tgt : ∀ j, j < obj.iterations.length → Spec.targetAt obj.iterations j =
        Spec.regTarget lap n cfg.prior cfg.lam x z Y := by
      intro j hj
      have he : obj.iterations[j]? = some obj.iterations[j] := List.getElem?_eq_getElem hj
      unfold Spec.targetAt
      rw [he, ← hall _ (List.mem_of_getElem? he)]
      exact (ht _ (List.mem_of_getElem? he)).2
    unfold Spec.Stops
    rw [show 1 - 1 = 0 from rfl, tgt 1 (by omega), tgt 0 (by omega), sub_self, abs_zero]
    exact ⟨le_rfl, Or.inl ha⟩
  by_cases hlt : obj.iterations.length < cfg.maxIter
  · have := (t1 hlt).1
    omega
  · omega

/-! ### concrete cases -/

/-- the one-node configuration with another weight of the prior -/
def oneCfgL (lam : ℝ) (k : Nat) : RegConfig := { oneCfg k with lam := lam }

theorem oneL_setup (lam : ℝ) (k : Nat) (c y : ℂ) : FitSetup false 1 (oneCfgL lam k) (scalarArr 1) (scalarArr c) (scalarArr y) :=
  let h := one_setup k c y
  ⟨h.dt, h.e, h.xc, h.zs, h.init, h.prior, h.alpha⟩

theorem scalar_matmul (a b : ℂ) : (scalarArr a).matmul (scalarArr b) = .ok (scalarArr (a * b)) :=
  matmul_of_entries rfl rfl rfl fun i j (hi : i < 1) (hj : j < 1) => by
    obtain rfl : i = 0 := by omega
    obtain rfl : j = 0 := by omega
    show ∑ k ∈ range 1, _ = _
    rw [Finset.sum_range_one, scalarArr_get, scalarArr_get, scalarArr_get]

theorem scalar_rank {a : ℂ} (ha : a ≠ 0) : Spec.FullColumnRank (scalarArr a) := by
  intro v hv
  have h0 := congrFun hv (0 : Fin 1)
  funext (k : Fin 1)
  rw [Subsingleton.elim k 0]
  have this : (scalarArr a).get 0 0 * v (0 : Fin 1) = 0 := by
    refine Eq.trans ?_ h0
    show _ = ∑ k : Fin 1, (scalarArr a).get 0 k * v k
    exact (Fin.sum_univ_one (fun k : Fin 1 => (scalarArr a).get 0 k * v k)).symm
  rw [scalarArr_get] at this
  exact (mul_eq_zero.1 this).resolve_left ha

theorem scalar_symm (a : ℂ) : Spec.IsSymm (scalarArr a) :=
  ⟨rfl, fun i j => by simp only [scalarArr, Arr2.ofFn_get', and_comm (a := i < 1)]⟩

/-- one node with admittance `3 - 4j`, unit weights and no weight of the prior: two iterations of the error-in-variables fit -/
example : ∃ obj, eivFit exactSolve exactInv (oneCfgL 0 50) RegObj.fresh (scalarArr 1) (scalarArr ⟨3, -4⟩) (some (scaledEye 2 1))
    (some (scaledEye 2 7)) (scalarArr ⟨3, -4⟩) = (.ok (), obj) ∧ obj.admittance = some (scalarArr ⟨3, -4⟩) ∧
      obj.iterations.length = 2 := by
  obtain ⟨obj, h1, h2, _, h3⟩ := C132_fixed (oneL_setup 0 50 ⟨3, -4⟩ ⟨3, -4⟩) le_rfl ⟨scalar_symm _, fun h => nomatch h⟩
    (by rw [scalar_matmul, one_mul]) (scalar_rank one_ne_zero) (Or.inl rfl) (scaledEye_posDef 2 one_pos) (scaledEye 2 7)
    exactSolve_exact exactSolve_total exactInv
  exact ⟨obj, h1, h2, h3 (by show (0 : ℝ) < 1 / 10; norm_num)⟩

/-- hypotheses of `C131_eiv_partial` and of its bound, on the same run -/
example : ∃ obj, eivFit exactSolve exactInv (oneCfgL 0 50) RegObj.fresh (scalarArr 1) (scalarArr ⟨3, -4⟩) (some (scaledEye 2 1))
    (some (scaledEye 2 7)) (scalarArr ⟨3, -4⟩) = (.ok (), obj) ∧ Spec.NonIncreasing obj.iterations ∧
      (obj.iterations.length : ℝ) ≤ Spec.targetAt obj.iterations 0 / (1 / 10) + 2 := by
  obtain ⟨obj, h1, _⟩ := C132_fixed (oneL_setup 0 50 ⟨3, -4⟩ ⟨3, -4⟩) le_rfl ⟨scalar_symm _, fun h => nomatch h⟩
    (by rw [scalar_matmul, one_mul]) (scalar_rank one_ne_zero) (Or.inl rfl) (scaledEye_posDef 2 one_pos) (scaledEye 2 7)
    exactSolve_exact exactSolve_total exactInv
  exact ⟨obj, h1, C131_eiv_partial (oneL_setup 0 50 ⟨3, -4⟩ ⟨3, -4⟩) rfl (fun t ht => by
    simp [oneCfgL, oneCfg, onePrior, Spec.terms] at ht
    rcases ht with rfl | rfl <;> exact Or.inl rfl) (scalar_symm _)
    (scaledEye_weight 2 zero_le_one) (scaledEye 2 7) exactSolve_exact exactInv (by show (0 : ℝ) < 1 / 10; norm_num) h1⟩

/-- without weight of the prior the regression makes two iterations from a wrong guess -/
example (c y : ℂ) : ∃ obj, bayesianFit exactSolve (oneCfgL 0 50) RegObj.fresh (scalarArr 1) (scalarArr c) (scalarArr y) = (.ok (), obj) ∧
    obj.iterations.length = 2 :=
  C131_squares_partial (oneL_setup 0 50 c y) le_rfl (fun t ht => by
    simp [oneCfgL, oneCfg, onePrior, Spec.terms] at ht
    rcases ht with rfl | rfl <;> exact Or.inl rfl) (Or.inl rfl) (demo_identifiable 1 one_ne_zero _ _) exactSolve_exact exactSolve_total
    (by show (0 : ℝ) < 1 / 10; norm_num)

/-- a prior that the zero matrix meets, with weight: two iterations from any guess -/
example (y : ℂ) : ∃ obj, bayesianFit exactSolve (oneCfgL 1 50) RegObj.fresh (scalarArr 1) (scalarArr 0) (scalarArr y) = (.ok (), obj) ∧
    obj.admittance = some (scalarArr 0) ∧ obj.iterations.length = 2 :=
  C131_exact_partial (oneL_setup 1 50 0 y) zero_le_one (demo_identifiable 1 one_ne_zero _ _) ⟨rfl, rfl⟩
    ⟨scalar_symm _, fun h => nomatch h⟩ (by rw [scalar_matmul, one_mul]) (fun t ht => by
      simp [oneCfgL, oneCfg, onePrior, Spec.terms] at ht
      rw [demo_params, scalarArr_get]
      rcases ht with rfl | rfl <;> simp [Spec.Term.resid, Spec.dot, oneCfgL, oneCfg, onePrior, Finset.sum_range_succ])
    exactSolve_exact exactSolve_total (by decide) (by show (0 : ℝ) < 1 / 10; norm_num)

/-- a run whose targets do not increase, with the bound on its length -/
example (y : ℂ) : ∃ obj, bayesianFit exactSolve (oneCfgL 1 50) RegObj.fresh (scalarArr 1) (scalarArr 0) (scalarArr y) = (.ok (), obj) ∧
    Spec.NonIncreasing obj.iterations ∧ (obj.iterations.length : ℝ) ≤ Spec.targetAt obj.iterations 0 / (1 / 10) + 2 := by
  have h := oneL_setup 1 50 0 y
  obtain ⟨obj, hfit, _, _, hall⟩ := C37_fixed_point (Y := scalarArr 0) h zero_le_one (demo_identifiable 1 one_ne_zero _ _) ⟨rfl, rfl⟩
    ⟨scalar_symm _, fun h => nomatch h⟩ (by rw [scalar_matmul, one_mul]) (fun t ht => by
      simp [oneCfgL, oneCfg, onePrior, Spec.terms] at ht
      rw [demo_params, scalarArr_get]
      rcases ht with rfl | rfl <;> simp [Spec.Term.resid, Spec.dot, oneCfgL, oneCfg, onePrior, Finset.sum_range_succ])
    exactSolve_exact exactSolve_total (by decide)
  obtain ⟨_, _, _, _, _, ht, _⟩ := reg_trace h exactSolve_exact hfit
  have hn : Spec.NonIncreasing obj.iterations := by
    intro j hj
    have tgt : ∀ j, j < obj.iterations.length → Spec.targetAt obj.iterations j =
        Spec.regTarget false 1 onePrior 1 (scalarArr 1) (scalarArr 0) (scalarArr 0) := by
      intro j hj
      have he : obj.iterations[j]? = some obj.iterations[j] := List.getElem?_eq_getElem hj
      unfold Spec.targetAt
      rw [he]
      have := (ht _ (List.mem_of_getElem? he)).2
      rw [hall _ (List.mem_of_getElem? he)] at this
      exact this
    rw [tgt _ hj, tgt j (by omega)]
  exact ⟨obj, hfit, hn, C131_bound_partial h exactSolve_exact (by show (0 : ℝ) < 1 / 10; norm_num) hfit hn⟩

/-- the general statement on the one-node configuration with a weighted prior -/
example (c y : ℂ) : ∃ N0, ∀ K tr, ∃ obj, bayesianFit exactSolve { oneCfgL 1 50 with maxIter := K, absTol := 1 / 100, relTol := tr }
      RegObj.fresh (scalarArr 1) (scalarArr c) (scalarArr y) = (.ok (), obj) ∧ ∀ j, N0 ≤ j → j + 2 < obj.iterations.length →
        Spec.targetAt obj.iterations j < Spec.targetAt obj.iterations (j + 1) :=
  C131_increasing_partial (oneL_setup 1 50 c y) zero_le_one (fun t ht => by
    simp [oneCfgL, oneCfg, onePrior, Spec.terms] at ht
    rcases ht with rfl | rfl <;> exact Or.inl rfl) (demo_identifiable 1 one_ne_zero _ _) exactSolve_exact exactSolve_total
    (by norm_num)

end
end Verif
