/-
C163: the regression with prior (the lasso estimate of the standard methods) on noisy data.
-/
import Verif.Props.EivNoisyRun
import Verif.Props.LassoExact

namespace Verif
open Finset Matrix
noncomputable section

/-- bound on the residuals of a fit of `n` nodes: noise `ε`, true voltages of size `S`, true admittances of size `s`, error `d` of the
initial guess, penalty `ρ` of the initial guess -/
def Spec.regShift (n : Nat) (ε S s d ρ : ℝ) : ℝ := Real.sqrt ((ε * (1 + s) + (S + ε) * (Real.sqrt n * d)) ^ 2 + ρ)

theorem misfit_size {x z Y : Arr2 ℂ} {T n : Nat} (hx : x.c = n) (hz : z.r = T ∧ z.c = n) :
    Spec.misfit x z Y = fsize (z.toMat T n - x.toMat T n * Y.toMat n n) ^ 2 := by
  obtain ⟨rfl, rfl⟩ := hz
  rw [misfit_mat, fsize_sq, Finset.sum_comm, hx]
  exact Finset.sum_congr rfl fun i _ => Finset.sum_congr rfl fun j _ => Complex.normSq_eq_norm_sq _

theorem regression_core {T n : Nat} {X Z X0 Z0 : Matrix (Fin T) (Fin n) ℂ} {Q P V : Matrix (Fin n) (Fin n) ℂ}
    {ε d σ ρ : ℝ} (hε : 0 ≤ ε) (hd : 0 ≤ d) (hnoise : fsize (X - X0) ^ 2 + fsize (Z - Z0) ^ 2 ≤ ε ^ 2)
    (hP : fsize (P - Q) ≤ Real.sqrt n * d) (hmis : fsize (Z - X * V) ^ 2 ≤ fsize (Z - X * P) ^ 2 + ρ)
    (hz0 : Z0 = X0 * Q) (hσ : ∀ v, σ * Spec.len v ≤ Spec.len (X0.mulVec v)) (q : Fin n → ℂ) :
    (σ - ε) * Spec.len ((V - Q).mulVec q) ≤
      (ε + Spec.regShift n ε (fsize X0) (fsize Q) d ρ) * Spec.len (Fin.append (Q.mulVec q) q) := by
  have hxε : fsize (X - X0) ≤ ε := by
    refine (pow_le_pow_iff_left₀ (fsize_nonneg _) hε two_ne_zero).1 ?_
    nlinarith [sq_nonneg (fsize (Z - Z0))]
  have hzε : fsize (Z - Z0) ≤ ε := by
    refine (pow_le_pow_iff_left₀ (fsize_nonneg _) hε two_ne_zero).1 ?_
    nlinarith [sq_nonneg (fsize (X - X0))]
  have hS := fsize_nonneg X0
  have hs := fsize_nonneg Q
  have hX : fsize X ≤ fsize X0 + ε := by
    have h := fsize_add_le X0 (X - X0)
    rw [add_sub_cancel] at h
    exact h.trans (add_le_add le_rfl hxε)
  have hR0 : fsize (Z - X * P) ≤ ε * (1 + fsize Q) + (fsize X0 + ε) * (Real.sqrt n * d) := by
    have e : Z - X * P = ((Z - Z0) - (X - X0) * Q) - X * (P - Q) := by
      rw [hz0, Matrix.sub_mul, Matrix.mul_sub]; abel
    rw [e]
    refine (fsize_sub_le _ _).trans (add_le_add ((fsize_sub_le _ _).trans ?_) ((fsize_mul_le _ _).trans
      (mul_le_mul hX hP (fsize_nonneg _) (by positivity))))
    rw [mul_add, mul_one]
    exact add_le_add hzε ((fsize_mul_le _ _).trans (mul_le_mul_of_nonneg_right hxε hs))
  have hR : fsize (Z - X * V) ≤ Spec.regShift n ε (fsize X0) (fsize Q) d ρ := by
    unfold Spec.regShift
    apply Real.le_sqrt_of_sq_le
    exact hmis.trans (add_le_add (pow_le_pow_left₀ (fsize_nonneg _) hR0 2) le_rfl)
  have h4 : Real.sqrt (fsize (X - X0) ^ 2 + fsize (Z - Z0) ^ 2) ≤ ε := by
    rw [Real.sqrt_le_iff]; exact ⟨hε, hnoise⟩
  have e1 : X0.mulVec ((V - Q).mulVec q) = ((X - X0).mulVec (-(Q.mulVec q)) + (Z - Z0).mulVec q) -
      ((X - X0).mulVec ((V - Q).mulVec q) + (Z - X * V).mulVec q) := by
    rw [hz0]
    simp only [mulVec_sub, sub_mulVec, mulVec_neg, ← mulVec_mulVec]
    abel
  have e2 := side_len_le (X - X0) (Z - Z0) (-(Q.mulVec q)) q
  rw [len_append_neg] at e2
  have e3 : Spec.len ((X - X0).mulVec ((V - Q).mulVec q)) ≤ ε * Spec.len ((V - Q).mulVec q) := by
    have := side_len_le (X - X0) (0 : Matrix (Fin T) (Fin 0) ℂ) ((V - Q).mulVec q) 0
    rw [mulVec_zero, add_zero, len_append_zero] at this
    refine this.trans (mul_le_mul_of_nonneg_right ?_ (len_nonneg _))
    have e0 : fsize (0 : Matrix (Fin T) (Fin 0) ℂ) ^ 2 = 0 := by rw [fsize_sq]; simp
    rw [e0, add_zero, Real.sqrt_sq (fsize_nonneg _)]
    exact hxε
  have hqq : Spec.len q ≤ Spec.len (Fin.append (Q.mulVec q) q) := by
    refine (pow_le_pow_iff_left₀ (len_nonneg _) (len_nonneg _) two_ne_zero).1 ?_
    rw [len_append]
    exact le_add_of_nonneg_left (sq_nonneg _)
  have e4 : Spec.len ((Z - X * V).mulVec q) ≤ Spec.regShift n ε (fsize X0) (fsize Q) d ρ * Spec.len (Fin.append (Q.mulVec q) q) := by
    have := side_len_le (Z - X * V) (0 : Matrix (Fin T) (Fin 0) ℂ) q 0
    rw [mulVec_zero, add_zero, len_append_zero] at this
    have e0 : fsize (0 : Matrix (Fin T) (Fin 0) ℂ) ^ 2 = 0 := by rw [fsize_sq]; simp
    rw [e0, add_zero, Real.sqrt_sq (fsize_nonneg _)] at this
    exact this.trans (mul_le_mul hR hqq (len_nonneg _) (Real.sqrt_nonneg _))
  have hmain := hσ ((V - Q).mulVec q)
  rw [e1] at hmain
  have h5 := (hmain.trans (len_sub_le _ _)).trans (add_le_add (e2.trans (mul_le_mul_of_nonneg_right h4 (len_nonneg _)))
    ((len_add_le _ _).trans (add_le_add e3 e4)))
  rw [sub_mul, add_mul]
  linarith

/-- C163: on noisy data every logged estimate of the regression with prior, and the returned one, is close to the true matrix when
noise, error of the initial guess and penalty are small. -/
theorem C163_fit {lap : Bool} {n : Nat} {cfg : RegConfig} {x z yInit : Arr2 ℂ} (h : FitSetup lap n cfg x z yInit)
    (hl : 0 ≤ cfg.lam) (ho : ∀ t ∈ Spec.terms cfg.prior, t.order = 1 ∨ t.order = 2) {solve : Solver} (hex : Spec.Exact solve)
    {res : Except PyErr Unit} {obj : RegObj} (hfit : bayesianFit solve cfg RegObj.fresh x z yInit = (res, obj))
    {x0 z0 Y : Arr2 ℂ} (hY : Spec.IsSquare n Y) (had : Spec.Admissible lap Y) (hz0 : x0.matmul Y = .ok z0) (hx0 : x0.r = x.r)
    {ε d σ : ℝ} (hε : 0 ≤ ε) (hnoise : Spec.size (Spec.diff x x0) ^ 2 + Spec.size (Spec.diff z z0) ^ 2 ≤ ε ^ 2)
    (hd : Spec.size (Spec.diff yInit Y) ≤ d) (hσ : Spec.AtLeast x0 σ) {η : ℝ}
    (hη : η = ε + Spec.regShift n ε (Spec.size x0) (Spec.size Y) d (cfg.lam * Spec.penalty lap n cfg (Spec.projection lap n yInit))) :
    (∀ e ∈ obj.iterations, Spec.ErrorBound e.params Y (σ - ε) η) ∧
    (res = .ok () → 0 < cfg.maxIter → ∃ Y', obj.admittance = some Y' ∧ Spec.ErrorBound Y' Y (σ - ε) η) := by
  obtain ⟨g1, g2⟩ := C36_descent h hl ho hex hfit
  have hobj : ∀ (i : Nat) (e : IterationStatus), obj.iterations[i]? = some e → Spec.objective lap n cfg.prior cfg.lam x z e.params ≤
      Spec.objective lap n cfg.prior cfg.lam x z (Spec.projection lap n yInit) := by
    intro i
    induction i with
    | zero => exact g1
    | succ i ih =>
      intro e he
      have hi : i < obj.iterations.length := by
        have := (List.getElem?_eq_some_iff.1 he).1
        omega
      exact (g2 i _ e (List.getElem?_eq_getElem hi) he).trans (ih _ (List.getElem?_eq_getElem hi))
  obtain ⟨a1, a2, a3, a4⟩ := Arr2.matmul_inv hz0
  have hx0c : x0.c = n := a1.trans hY.1
  have hz0s : z0.r = x.r ∧ z0.c = n := ⟨a2.trans hx0, a3.trans hY.2⟩
  have hz0m : z0.toMat x.r n = x0.toMat x.r n * Y.toMat n n := by
    have := a4 x.r n
    rw [hx0c] at this
    exact this
  have hd0 : 0 ≤ d := (Real.sqrt_nonneg _).trans hd
  rw [size_fsize (A := Spec.diff x x0) (m := x.r) (n := n) rfl h.xc, size_fsize (A := Spec.diff z z0) (m := x.r) (n := n) h.zs.1 h.zs.2,
    diff_toMat ⟨rfl, h.xc⟩ ⟨hx0, hx0c⟩, diff_toMat h.zs hz0s] at hnoise
  rw [size_fsize (A := Spec.diff yInit Y) (m := n) (n := n) h.init.1 h.init.2, diff_toMat ⟨h.init.1, h.init.2⟩ ⟨hY.1, hY.2⟩] at hd
  rw [size_fsize (A := x0) (m := x.r) (n := n) hx0 hx0c, size_fsize (A := Y) (m := n) (n := n) hY.1 hY.2] at hη
  have b6 : fsize ((Spec.projection lap n yInit).toMat n n - Y.toMat n n) ≤ Real.sqrt n * d := by
    rw [projection_sub lap n h.init hY had]
    refine (projection_size lap n _).trans (mul_le_mul_of_nonneg_left ?_ (Real.sqrt_nonneg _))
    rw [diff_toMat ⟨h.init.1, h.init.2⟩ ⟨hY.1, hY.2⟩]
    exact hd
  have hσ' : ∀ v, σ * Spec.len v ≤ Spec.len ((x0.toMat x.r n).mulVec v) := by
    have := hσ
    unfold Spec.AtLeast at this
    rw [hx0, hx0c] at this
    exact this
  have hall : ∀ e ∈ obj.iterations, Spec.ErrorBound e.params Y (σ - ε) η := by
    intro e he
    obtain ⟨i, hi, rfl⟩ := List.mem_iff_getElem.1 he
    have h1 := hobj i _ (List.getElem?_eq_getElem hi)
    unfold Spec.objective at h1
    have h2 := mul_nonneg hl (penalty_nonneg lap n cfg h.alpha obj.iterations[i].params)
    have h3 : Spec.misfit x z obj.iterations[i].params ≤ Spec.misfit x z (Spec.projection lap n yInit) +
        cfg.lam * Spec.penalty lap n cfg (Spec.projection lap n yInit) := by
      have e1 : Spec.misfit x z obj.iterations[i].params + cfg.lam * Spec.penalty lap n cfg obj.iterations[i].params ≤
        Spec.misfit x z (Spec.projection lap n yInit) + cfg.lam * Spec.penalty lap n cfg (Spec.projection lap n yInit) := h1
      linarith
    rw [misfit_size h.xc h.zs, misfit_size h.xc h.zs] at h3
    unfold Spec.ErrorBound
    rw [hY.1, hY.2, hη]
    exact regression_core hε hd0 hnoise b6 h3 hz0m hσ'
  refine ⟨hall, fun hr hm => ?_⟩
  subst hr
  obtain ⟨-, h3⟩ := C33_regression solve cfg x z yInit hfit
  obtain ⟨-, -, -, e, he, hadm⟩ := h3 hm
  exact ⟨e.params, hadm, hall e (List.mem_of_getLast? he)⟩

/-! ### the penalty of the lasso -/

theorem flat_sum {β : Type} (l : List β) (f : β → List ℝ) : ((l.flatMap f).sum) = (l.map (fun b => (f b).sum)).sum := by
  induction l with
  | nil => rfl
  | cons a l ih => simp [List.sum_append, ih]

theorem range_sum_map (n : Nat) (f : Nat → ℝ) : ((List.range n).map f).sum = ∑ k ∈ range n, f k := by
  induction n with
  | zero => rfl
  | succ n ih => rw [List.range_succ, List.map_append, List.sum_append, ih, Finset.sum_range_succ]; simp

/-- the squares of the parameters of a matrix are among the squares of its entries -/
theorem params_sq_le (lap : Bool) (n : Nat) (M : Arr2 ℂ) :
    ((Spec.params lap n M).map (fun t => t ^ 2)).sum ≤ fsize (M.toMat n n) ^ 2 := by
  have hlist : ∀ v : List ℂ, ((v.map Complex.re ++ v.map Complex.im).map (fun t => t ^ 2)).sum = (v.map (fun z => ‖z‖ ^ 2)).sum := by
    intro v
    rw [List.map_append, List.sum_append, List.map_map, List.map_map]
    induction v with
    | nil => simp
    | cons a v ih =>
      simp only [List.map_cons, List.sum_cons, Function.comp_apply] at ih ⊢
      rw [← ih, ← Complex.normSq_eq_norm_sq, Complex.normSq_apply]
      ring
  have hall : fsize (M.toMat n n) ^ 2 = ∑ j ∈ range n, ∑ i ∈ range n, ‖M.get i j‖ ^ 2 := by
    rw [fsize_sq, Finset.sum_comm, ← Fin.sum_univ_eq_sum_range (fun j => ∑ i ∈ range n, ‖M.get i j‖ ^ 2) n]
    refine Finset.sum_congr rfl fun j _ => ?_
    rw [← Fin.sum_univ_eq_sum_range (fun i => ‖M.get i j‖ ^ 2) n]
    rfl
  have htail : ∀ (g : Nat → ℝ) (a : Nat), (∀ k, 0 ≤ g k) → a ≤ n → ∑ t ∈ range (n - a), g (a + t) ≤ ∑ i ∈ range n, g i := by
    intro g a hg ha
    have e : ∑ i ∈ range n, g i = ∑ i ∈ range a, g i + ∑ t ∈ range (n - a), g (a + t) := by
      rw [← Finset.sum_range_add, Nat.add_sub_cancel' ha]
    rw [e]
    exact le_add_of_nonneg_left (Finset.sum_nonneg fun k _ => hg k)
  unfold Spec.params
  cases lap with
  | false =>
    rw [if_neg (by simp), hlist, hall]
    unfold Spec.vech
    rw [List.map_flatMap, flat_sum, range_sum_map]
    refine Finset.sum_le_sum fun j hj => ?_
    rw [List.map_map, range_sum_map]
    exact htail (fun i => ‖M.get i j‖ ^ 2) j (fun _ => sq_nonneg _) (Finset.mem_range.1 hj).le
  | true =>
    rw [if_pos rfl, hlist, hall, List.map_map]
    have : (fun z : ℂ => ‖z‖ ^ 2) ∘ (fun t => -t) = fun z => ‖z‖ ^ 2 := by funext z; simp
    rw [this]
    unfold Spec.vel
    rw [List.map_flatMap, flat_sum, range_sum_map]
    refine Finset.sum_le_sum fun j hj => ?_
    rw [List.map_map, range_sum_map]
    have hj := Finset.mem_range.1 hj
    have := htail (fun i => ‖M.get i j‖ ^ 2) (j + 1) (fun _ => sq_nonneg _) hj
    rw [show n - 1 - j = n - (j + 1) by omega]
    exact this

/-- the parameters of the projection are those of the symmetric part -/
theorem params_projection (lap : Bool) (n : Nat) (M : Arr2 ℂ) :
    Spec.params lap n (Spec.projection lap n M) = Spec.params lap n (Spec.symPart n M) := by
  unfold Spec.params
  cases lap with
  | false =>
    have : Spec.projection false n M = Spec.symPart n M := by
      unfold Spec.projection Spec.symPart
      congr 1
    rw [this]
  | true =>
    have : Spec.vel n (Spec.projection true n M) = Spec.vel n (Spec.symPart n M) := by
      unfold Spec.vel
      refine List.flatMap_congr fun j hj => List.map_congr_left fun t ht => ?_
      have hj := List.mem_range.1 hj
      have ht := List.mem_range.1 ht
      unfold Spec.projection Spec.symPart
      rw [Arr2.ofFn_get _ (by omega) hj, Arr2.ofFn_get _ (by omega) hj, if_neg (by omega)]
    simp only [if_true, this]

/-- penalty of the prior of the lasso at the estimate it was built from -/
theorem lasso_penalty_le {lap : Bool} {n : Nat} {y p' : Arr2 ℂ} (hy : Spec.IsSquare n y) {p : Prior} (hp : buildLassoPrior n y lap = .ok p)
    (hsym : Spec.symPart n p' = Spec.symPart n y) (cf : IdConf) (K : Nat) :
    (∀ t ∈ Spec.terms p, t.order = 1) ∧
    Spec.penalty lap n (regConfig cf p cf.lambdaLasso lap K) (Spec.projection lap n p') ≤ 2 * fsize ((Spec.symPart n y).toMat n n) ^ 2 := by
  obtain ⟨q, hq, -, ha, hn, ho, hres⟩ := C43_computes n y hy lap
  obtain rfl : q = p := Except.ok.inj (hq.symm.trans hp)
  refine ⟨ho, ?_⟩
  unfold Spec.penalty
  show ((Spec.terms q).map (fun t => Spec.smooth q.alpha t.order (Spec.Term.resid q.n (Spec.params lap n (Spec.projection lap n p')) t))).sum ≤ _
  rw [params_projection, hsym, lasso_penalty ho hres]
  refine le_trans ?_ (mul_le_mul_of_nonneg_left (params_sq_le lap n (Spec.symPart n y)) two_pos.le)
  generalize Spec.params lap n (Spec.symPart n y) = θ
  have e : (θ.map (fun t => t ^ 2)).sum = ∑ k ∈ range θ.length, θ.getD k 0 ^ 2 := by
    rw [← range_sum_map]
    congr 1
    apply List.ext_getElem (by simp)
    intro i h1 h2
    have hi : i < θ.length := by simpa using h1
    simp [List.getD_eq_getElem?_getD, hi]
  rw [e, Finset.mul_sum]
  refine Finset.sum_le_sum fun k _ => ?_
  refine (smooth_le (by rw [ha]; norm_num) rfl _).trans ?_
  rw [abs_mul, abs_abs, ← sq, sq_abs]

/-- error of the initial guess of the lasso: the symmetric part of ordinary least squares -/
def Spec.olsError (ε σ s : ℝ) (n : Nat) : ℝ := ε / (σ - ε) * Real.sqrt (s ^ 2 + n)

/-- C163 for the standard methods: an explicit bound on the error of the lasso estimate -/
theorem C163_standard {ext : NumExt} {cf : IdConf} (hl : 0 ≤ cf.lambdaLasso) (hex : Spec.Exact ext.solve) (hpinv : Spec.PinvContract ext.pinv)
    {v i : Arr2 ℂ} {lap : Bool} {K : Nat} (hK : 0 < K) {r : Arr2 ℂ × Arr2 ℂ × Arr2 ℂ} (hr : standardCompute ext cf v i lap K = .ok r)
    (hcur : i.r = v.r ∧ i.c = v.c) {x0 z0 Y : Arr2 ℂ} (hY : Spec.IsSquare v.c Y) (had : Spec.Admissible lap Y)
    (hz0 : x0.matmul Y = .ok z0) (hx0 : x0.r = v.r) {ε σ : ℝ} (hε : 0 ≤ ε)
    (hnoise : Spec.size (Spec.diff (centreData lap v i).1 x0) ^ 2 + Spec.size (Spec.diff (centreData lap v i).2 z0) ^ 2 ≤ ε ^ 2)
    (hσ : Spec.AtLeast x0 σ) (hεσ : ε < σ) {d η : ℝ} (hd : d = Spec.olsError ε σ (Spec.size Y) v.c)
    (hη : η = ε + Spec.regShift v.c ε (Spec.size x0) (Spec.size Y) d (cf.lambdaLasso * (2 * (Spec.size Y + d) ^ 2))) :
    Spec.ErrorBound r.2.2 Y (σ - ε) η := by
  obtain ⟨s1, s2, s3, s4⟩ := centreData_shape lap v i
  obtain ⟨hxY, hzr, hzc, -⟩ := Arr2.matmul_inv hz0
  have hN := noisy_of_size hz0 ⟨by rw [s1, hx0], by rw [s2, hxY, hY.1]⟩ ⟨by rw [s3, hcur.1, hzr, hx0], by rw [s4, hcur.2, hzc, hY.2]⟩ hε hnoise
  obtain ⟨B, hB, hBs, hBe⟩ := C117_ols hpinv hN hσ hεσ
  have hBsq : Spec.IsSquare v.c B := ⟨hBs.1.trans hY.1, hBs.2.trans hY.2⟩
  obtain ⟨p, y0, hp, hy0, hs⟩ := lasso_setup v.c B (centreData lap v i).1 (centreData lap v i).2 hBsq lap cf K s2
    ⟨by rw [s3, s1, hcur.1], by rw [s4, hcur.2]⟩
  obtain ⟨hsq, hsz⟩ := halfSum_size hBsq hY had.1 hy0
  have hd' : Spec.size (Spec.diff y0 Y) ≤ d := by
    rw [hd]
    exact hsz.trans (errorBound_size hBsq hY (by linarith) hε hBe)
  have hd0 : 0 ≤ d := (Real.sqrt_nonneg _).trans hd'
  obtain ⟨y0', hy0', -, hsp⟩ := halfSum_square hBsq
  obtain rfl : y0' = y0 := Except.ok.inj (hy0'.symm.trans hy0)
  obtain ⟨ho, hpen⟩ := lasso_penalty_le (p' := y0') hBsq hp hsp cf K
  -- the size of the guess
  have hsize : fsize ((Spec.symPart v.c B).toMat v.c v.c) ≤ Spec.size Y + d := by
    have e : (Spec.symPart v.c B).toMat v.c v.c = y0'.toMat v.c v.c := by
      rw [← hsp]
      ext a b
      show (Spec.symPart v.c y0').get a b = y0'.get a b
      unfold Spec.symPart
      rw [Arr2.ofFn_get _ a.2 b.2, (halfSum_symm hBsq hy0').2.2 b a]
      ring
    rw [e, size_fsize (A := Y) (m := v.c) (n := v.c) hY.1 hY.2]
    have e2 : y0'.toMat v.c v.c = Y.toMat v.c v.c + (y0'.toMat v.c v.c - Y.toMat v.c v.c) := by abel
    rw [e2]
    refine (fsize_add_le _ _).trans (add_le_add le_rfl ?_)
    rw [← diff_toMat ⟨hsq.1, hsq.2⟩ ⟨hY.1, hY.2⟩, ← size_fsize (A := Spec.diff y0' Y) hsq.1 hsq.2]
    exact hd'
  -- the run
  unfold standardCompute at hr
  dsimp only at hr
  obtain ⟨B', hB', hr⟩ := Prior.bind_ok hr
  obtain rfl : B' = B := Except.ok.inj (hB'.symm.trans hB)
  obtain ⟨T, -, hr⟩ := Prior.bind_ok hr
  obtain ⟨p', hp', hr⟩ := Prior.bind_ok hr
  obtain rfl : p' = p := Except.ok.inj (hp'.symm.trans hp)
  rw [if_pos hK] at hr
  obtain ⟨y1, hy1, hr⟩ := Prior.bind_ok hr
  obtain rfl : y1 = y0' := Except.ok.inj (hy1.symm.trans hy0')
  obtain ⟨⟨L, log⟩, hL, hr⟩ := Prior.bind_ok hr
  have hr := Except.ok.inj hr
  rw [← hr]
  show Spec.ErrorBound L Y (σ - ε) η
  rcases hf : bayesianFit ext.solve (regConfig cf p' cf.lambdaLasso lap K) .fresh (centreData lap v i).1 (centreData lap v i).2 y1
    with ⟨res, obj⟩
  rw [hf] at hL
  obtain ⟨-, hret⟩ := C163_fit hs hl (fun t ht => .inl (ho t ht)) hex hf hY had hz0 (by rw [s1, hx0]) hε hnoise hd' hσ rfl
  cases res with
  | error e => cases hL
  | ok u =>
    obtain ⟨Y', hY', hb'⟩ := hret rfl hK
    simp only [fitted, hY'] at hL
    have hL := Except.ok.inj hL
    simp only [Prod.mk.injEq] at hL
    obtain ⟨rfl, -⟩ := hL
    refine fun q => (hb' q).trans (mul_le_mul_of_nonneg_right ?_ (len_nonneg _))
    rw [hη]
    refine add_le_add le_rfl ?_
    unfold Spec.regShift
    refine Real.sqrt_le_sqrt (add_le_add le_rfl (mul_le_mul_of_nonneg_left ?_ hl))
    exact hpen.trans (mul_le_mul_of_nonneg_left (pow_le_pow_left₀ (fsize_nonneg _) hsize 2) two_pos.le)

/-- C163 for `identify` on single-phase measurements, whatever the Bayesian method does -/
theorem C163_identify {ext : NumExt} {cf : IdConf} {sc : SimConf} {a : IdArgs} {st : Store}
    {r : (Arr2 ℂ × Arr2 ℂ × Arr2 ℂ) × (Arr2 ℂ × List IterationStatus)} (hn : Spec.PlainName a.network) (h3 : a.threePhased = false)
    (hex : Spec.Exact ext.solve) (hpinv : Spec.PinvContract ext.pinv) (hl : 0 ≤ cf.lambdaLasso)
    (hrun : (identify ext cf sc a st).res = .ok r) (hstd : Spec.Redone a.standard [a.standard, a.bayesian]) (hit : 0 < a.maxIter)
    {all d : NetworkData} (hload : networkLoad st a.network = .ok all) (hsel : selectPhase a all = .ok d)
    {x0 z0 Y : Arr2 ℂ} (hY : Spec.IsSquare d.noisyVoltage.c Y) (had : Spec.Admissible a.laplacian Y) (hz0 : x0.matmul Y = .ok z0)
    (hx0 : x0.r = d.noisyVoltage.r) (hcur : d.noisyCurrent.r = d.noisyVoltage.r ∧ d.noisyCurrent.c = d.noisyVoltage.c)
    {ε σ : ℝ} (hε : 0 ≤ ε)
    (hnoise : Spec.size (Spec.diff (centreData a.laplacian d.noisyVoltage d.noisyCurrent).1 x0) ^ 2 +
      Spec.size (Spec.diff (centreData a.laplacian d.noisyVoltage d.noisyCurrent).2 z0) ^ 2 ≤ ε ^ 2)
    (hσ : Spec.AtLeast x0 σ) (hεσ : ε < σ) {e η : ℝ} (he : e = Spec.olsError ε σ (Spec.size Y) d.noisyVoltage.c)
    (hη : η = ε + Spec.regShift d.noisyVoltage.c ε (Spec.size x0) (Spec.size Y) e (cf.lambdaLasso * (2 * (Spec.size Y + e) ^ 2))) :
    Spec.ErrorBound r.1.2.2 Y (σ - ε) η := by
  obtain ⟨d2, y0, ⟨all2, hl2, hs2⟩, -, hst, -⟩ := C78_identify hn h3 hrun
  obtain rfl : all2 = all := Except.ok.inj (hl2.symm.trans hload)
  obtain rfl : d2 = d := Except.ok.inj (hs2.symm.trans hsel)
  exact C163_standard hl hex hpinv hit (hst hstd).1 hcur hY had hz0 hx0 hε hnoise hσ hεσ he hη

/-- the standard methods return on the data of `demo161`, with a bound on the error of the lasso -/
example (K : Nat) (hK : 0 < K) : ∃ r η, standardCompute ⟨exactPinv, exactSvd, exactInv, exactSolve⟩ demoConf161 demoV161 demoN161 false K =
    .ok r ∧ Spec.ErrorBound r.2.2 demoY126 (30 - 2) η := by
  obtain ⟨-, hc, -, hN⟩ := demo161_facts (fun _ => none) demoArgs161
  obtain ⟨B, T, L, h1, -⟩ := standard_noisy (ext := ⟨exactPinv, exactSvd, exactInv, exactSolve⟩) (cf := demoConf161) (v := demoV161) (i := demoN161)
    (lap := false) (by simp [demoConf161]) exactInv_contract exactSolve_exact exactSolve_total exactPinv_contract exactSvd_contract
    (x0 := demoV161) (z0 := demoI161) (Y := demoY126) rfl (by rw [hc]; exact hN) demo161_excited (by norm_num) (by norm_num) K
  exact ⟨_, _, h1, C163_standard (by simp [demoConf161]) exactSolve_exact exactPinv_contract hK h1 ⟨rfl, rfl⟩
    (x0 := demoV161) (z0 := demoI161) (Y := demoY126) ⟨rfl, rfl⟩ ⟨demoY126_symm, fun h => by cases h⟩ demo161_product rfl
    (ε := 2) (σ := 30) (by norm_num) (by rw [hc]; exact demo161_noise) demo161_excited (by norm_num) rfl rfl⟩

end
end Verif
