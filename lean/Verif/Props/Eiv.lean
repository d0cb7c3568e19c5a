/-
C38, C39, C87, C88: the weighted error-in-variables regression of `src/models/error_in_variable.py`.
-/
import Verif.Lemmas.EivTotal
import Verif.Props.Refit
import Verif.Props.LeastSquares

namespace Verif
open Finset Matrix
noncomputable section

/-! ### C39, C87 the trace of a weighted fit -/

/-- the corrections `Ds` of a log: each is optimal for the matrix of the previous iteration, the logged targets are the
weighted misfit of the new matrix with that correction plus the penalty -/
def Spec.EivTrace (lap : Bool) (n : Nat) (cfg : RegConfig) (xW zW : Arr2 ℝ) (x z : Arr2 ℂ) :
    Arr2 ℂ → List IterationStatus → List (Arr2 ℂ) → Prop
  | _, [], [] => True
  | Y, e :: l, D :: Ds =>
    D.r = x.r ∧ D.c = x.c ∧
    (∀ D', D'.r = x.r → D'.c = x.c → Spec.eivCost xW zW x z Y D ≤ Spec.eivCost xW zW x z Y D') ∧
    e.target = |Spec.eivCost xW zW x z e.params D + cfg.lam * ((Spec.terms cfg.prior).map
      (fun q => q.scale (nReal lap n) cfg.prior.alpha (Spec.params lap n e.params))).sum| ∧
    Spec.EivTrace lap n cfg xW zW x z e.params l Ds
  | _, _, _ => False

/-- smoothed objective of the weighted problem, as a function of the matrix and of the voltage correction -/
def Spec.eivObjective (lap : Bool) (n : Nat) (cfg : RegConfig) (xW zW : Arr2 ℝ) (x z Y D : Arr2 ℂ) : ℝ :=
  Spec.eivCost xW zW x z Y D + cfg.lam *
    ((Spec.terms cfg.prior).map (fun t => Spec.smooth cfg.prior.alpha t.order (t.resid cfg.prior.n (Spec.params lap n Y)))).sum

/-- the objective never increases along a log with its corrections -/
def Spec.EivDescends (lap : Bool) (n : Nat) (cfg : RegConfig) (xW zW : Arr2 ℝ) (x z : Arr2 ℂ)
    (log : List IterationStatus) (Ds : List (Arr2 ℂ)) : Prop :=
  ∀ i e e' D D', log[i]? = some e → log[i + 1]? = some e' → Ds[i]? = some D → Ds[i + 1]? = some D' →
    Spec.eivObjective lap n cfg xW zW x z e'.params D' ≤ Spec.eivObjective lap n cfg xW zW x z e.params D

theorem smooth_list_major {p : Prior} (hα : 0 < p.alpha) (ho : ∀ t ∈ Spec.terms p, t.order = 1 ∨ t.order = 2) (N : Nat)
    (y y' : List ℝ) :
    ((Spec.terms p).map (fun t => Spec.smooth p.alpha t.order (t.resid N y'))).sum -
      ((Spec.terms p).map (fun t => Spec.smooth p.alpha t.order (t.resid N y))).sum ≤
      Spec.model p N y y' - Spec.model p N y y := by
  unfold Spec.model
  rw [← list_sum_sub', ← list_sum_sub']
  apply list_sum_le
  intro t ht
  have := smooth_major hα (ho t ht) (t.resid N y) (t.resid N y')
  rw [sub_div] at this
  exact this

/-- one weighted step does not increase the objective; the competitor is any correction for the old matrix -/
theorem eivStep_descent {lap : Bool} {n : Nat} {cfg : RegConfig} {x z yInit : Arr2 ℂ} (h : FitSetup lap n cfg x z yInit)
    (hl : 0 ≤ cfg.lam) (ho : ∀ t ∈ Spec.terms cfg.prior, t.order = 1 ∨ t.order = 2) {xW zW : Arr2 ℝ} {dt : Arr2 ℂ}
    (hdt : dtMatrix ℂ lap n = .ok dt) {y y' : List ℝ} {Y Y' D D0 : Arr2 ℂ} (hy : y.length = nReal lap n)
    (hy' : y'.length = nReal lap n) (hY : toMatrix n dt y = .ok Y) (hY' : toMatrix n dt y' = .ok Y')
    (hD : Spec.eivCost xW zW x z Y D ≤ Spec.eivCost xW zW x z Y D0)
    (hmin : ∀ v V, v.length = nReal lap n → toMatrix n dt v = .ok V →
        Spec.eivCost xW zW x z Y' D + cfg.lam * Spec.model cfg.prior (nReal lap n) y y' ≤
        Spec.eivCost xW zW x z V D + cfg.lam * Spec.model cfg.prior (nReal lap n) y v) :
    Spec.eivObjective lap n cfg xW zW x z Y' D ≤ Spec.eivObjective lap n cfg xW zW x z Y D0 := by
  unfold Spec.eivObjective
  rw [params_of_toMatrix lap n hdt hy hY, params_of_toMatrix lap n hdt hy' hY', h.prior.size]
  have h1 := hmin y Y hy hY
  have h2 := mul_le_mul_of_nonneg_left (smooth_list_major h.alpha ho (nReal lap n) y y') hl
  rw [mul_sub, mul_sub] at h2
  linarith

/-- the corrections of a run from any matrix: the first is optimal for its transpose -/
theorem eivTrace_run_T {lap : Bool} {n : Nat} {cfg : RegConfig} {x z yInit : Arr2 ℂ} (h : FitSetup lap n cfg x z yInit)
    (hl : 0 ≤ cfg.lam) {xW zW : Arr2 ℝ} (hxW : Spec.IsWeight (2 * (n * x.r)) xW)
    (hzW : Spec.IsWeight (2 * (n * x.r)) zW) {solve : Solver} (hex : Spec.Exact solve) {dt : Arr2 ℂ}
    (hdt : dtMatrix ℂ lap n = .ok dt) {A : Arr2 ℝ} (hA : regressionMatrix n x dt = .ok A)
    (run : List (FitState × ℝ)) (s : FitState) (it : Nat) (y : List ℝ) (hs : StateAt cfg.prior (nReal lap n) y s)
    (hsq : Spec.IsSquare n s.yMat)
    (hrun : Spec.IsRun (eivWeightedStep solve cfg x dt A (Spec.stackReal x) (Spec.stackReal z) xW zW) s run) :
    ∃ Ds, Spec.EivTrace lap n cfg xW zW x z s.yMat.T (Spec.entries it run) Ds ∧
      ((∀ t ∈ Spec.terms cfg.prior, t.order = 1 ∨ t.order = 2) →
        (toMatrix n dt y = .ok s.yMat → ∀ e D D0, (Spec.entries it run)[0]? = some e → Ds[0]? = some D →
          D0.r = x.r → D0.c = x.c →
          Spec.eivObjective lap n cfg xW zW x z e.params D ≤ Spec.eivObjective lap n cfg xW zW x z s.yMat D0) ∧
        Spec.EivDescends lap n cfg xW zW x z (Spec.entries it run) Ds) := by
  induction run generalizing s it y with
  | nil => exact ⟨[], trivial, fun _ => ⟨fun _ e D D0 he => by simp [Spec.entries] at he, fun i e e' D D' he => by simp [Spec.entries] at he⟩⟩
  | cons q l ih =>
    obtain ⟨h1, h2⟩ := hrun
    obtain ⟨D, y', hDr, hDc, hDmin, hs', hY', ht, hmin⟩ := eivStep_at_T h hl hxW hzW hex hdt hA hs hsq
      (s' := q.1) (t := q.2) h1
    obtain ⟨hsq', hadm'⟩ := toMatrix_admissible lap n hdt hY'
    obtain ⟨Ds, htr, hdesc⟩ := ih q.1 (it + 1) y' hs' hsq' h2
    rw [transpose_symm hsq' hadm'.1] at htr
    refine ⟨D :: Ds, ⟨hDr, hDc.trans h.xc.symm, ?_, ?_, htr⟩, ?_⟩
    · intro D' hr hc
      exact hDmin D' hr (hc.trans h.xc)
    · show q.2 = _
      rw [ht]
      show _ = |Spec.eivCost xW zW x z q.1.yMat D + _|
      have : Spec.params lap n q.1.yMat = y' := params_of_toMatrix lap n hdt hs'.1 hY'
      simp only [this]
    · intro ho
      obtain ⟨i1, i2⟩ := hdesc ho
      refine ⟨?_, ?_⟩
      · intro hY e D2 D0 he hD2 hr hc
        simp only [Spec.entries, List.getElem?_cons_zero, Option.some.injEq] at he hD2
        subst he; subst hD2
        rw [transpose_symm hsq (toMatrix_admissible lap n hdt hY).2.1] at hDmin
        exact eivStep_descent h hl ho hdt hs.1 hs'.1 hY hY' (hDmin D0 hr (hc.trans h.xc)) hmin
      · intro i e e' D1 D2 he he' hD1 hD2
        cases i with
        | zero =>
          simp only [Spec.entries, List.getElem?_cons_zero, List.getElem?_cons_succ, Option.some.injEq] at he he' hD1 hD2
          subst he; subst hD1
          exact i1 hY' e' D2 D he' hD2 hDr (hDc.trans h.xc.symm)
        | succ i =>
          simp only [Spec.entries, List.getElem?_cons_succ] at he he' hD1 hD2
          exact i2 i e e' D1 D2 he he' hD1 hD2

theorem eivTrace_run {lap : Bool} {n : Nat} {cfg : RegConfig} {x z yInit : Arr2 ℂ} (h : FitSetup lap n cfg x z yInit)
    (hl : 0 ≤ cfg.lam) {xW zW : Arr2 ℝ} (hxW : Spec.IsWeight (2 * (n * x.r)) xW)
    (hzW : Spec.IsWeight (2 * (n * x.r)) zW) {solve : Solver} (hex : Spec.Exact solve) {dt : Arr2 ℂ}
    (hdt : dtMatrix ℂ lap n = .ok dt) {A : Arr2 ℝ} (hA : regressionMatrix n x dt = .ok A)
    (run : List (FitState × ℝ)) (s : FitState) (it : Nat) (y : List ℝ) (hs : StateAt cfg.prior (nReal lap n) y s)
    (hsq : Spec.IsSquare n s.yMat) (hsym : Spec.IsSymm s.yMat)
    (hrun : Spec.IsRun (eivWeightedStep solve cfg x dt A (Spec.stackReal x) (Spec.stackReal z) xW zW) s run) :
    ∃ Ds, Spec.EivTrace lap n cfg xW zW x z s.yMat (Spec.entries it run) Ds ∧
      ((∀ t ∈ Spec.terms cfg.prior, t.order = 1 ∨ t.order = 2) →
        (toMatrix n dt y = .ok s.yMat → ∀ e D D0, (Spec.entries it run)[0]? = some e → Ds[0]? = some D →
          D0.r = x.r → D0.c = x.c →
          Spec.eivObjective lap n cfg xW zW x z e.params D ≤ Spec.eivObjective lap n cfg xW zW x z s.yMat D0) ∧
        Spec.EivDescends lap n cfg xW zW x z (Spec.entries it run) Ds) := by
  have := eivTrace_run_T h hl hxW hzW hex hdt hA run s it y hs hsq hrun
  rwa [transpose_symm hsq hsym] at this

/-- log of a weighted fit on a fresh object -/
theorem eiv_log {lap : Bool} {n : Nat} {cfg : RegConfig} {x z yInit : Arr2 ℂ} (h : FitSetup lap n cfg x z yInit)
    {solve : Solver} {inv : Arr2 ℂ → Except PyErr (Arr2 ℂ)} {xW zW : Arr2 ℝ} {res : Except PyErr Unit} {obj : RegObj}
    (hfit : eivBody solve inv cfg RegObj.fresh x z (some xW) (some zW) yInit = (res, obj)) :
    ∃ dt A y0 s run, dtMatrix ℂ lap n = .ok dt ∧ regressionMatrix n x dt = .ok A ∧
      StateAt cfg.prior (nReal lap n) y0 s ∧ s.yMat = yInit ∧
      toMatrix n dt y0 = .ok (Spec.projection lap n yInit) ∧
      Spec.IsRun (eivWeightedStep solve cfg x dt A (Spec.stackReal x) (Spec.stackReal z) xW zW) s run ∧
      obj.iterations = Spec.entries 0 run := by
  obtain ⟨dt, A, y0, s, hdt, hA, hst, hsy, hY0, hf, _⟩ := eivSetup_ok h solve inv
  rw [hf] at hfit
  generalize hr : fitLoop cfg (eivWeightedStep solve cfg x dt A (Spec.stackReal x) (Spec.stackReal z) xW zW) cfg.maxIter 0 s
    RegObj.fresh.iterations = r at hfit
  obtain ⟨rs, log'⟩ := r
  obtain ⟨run, h1, h2, h3, h4, h5⟩ := fitLoop_spec cfg _ cfg.maxIter 0 s [] log' rs rfl hr
  rw [List.nil_append] at h3
  refine ⟨dt, A, y0, s, run, hdt, hA, hst, hsy, hY0, h1, ?_⟩
  cases rs <;> simp only [finishFit, Prod.mk.injEq] at hfit <;> rw [← hfit.2, ← h3]

/-- the corrections of a weighted fit -/
theorem eivTrace_fit {lap : Bool} {n : Nat} {cfg : RegConfig} {x z yInit : Arr2 ℂ} (h : FitSetup lap n cfg x z yInit)
    (hl : 0 ≤ cfg.lam) (hsym : Spec.IsSymm yInit) {xW zW : Arr2 ℝ} (hxW : Spec.IsWeight (2 * (n * x.r)) xW)
    (hzW : Spec.IsWeight (2 * (n * x.r)) zW) {solve : Solver} (hex : Spec.Exact solve)
    {inv : Arr2 ℂ → Except PyErr (Arr2 ℂ)} {res : Except PyErr Unit} {obj : RegObj}
    (hfit : eivBody solve inv cfg RegObj.fresh x z (some xW) (some zW) yInit = (res, obj)) :
    ∃ Ds, Spec.EivTrace lap n cfg xW zW x z yInit obj.iterations Ds ∧ ((∀ t ∈ Spec.terms cfg.prior, t.order = 1 ∨ t.order = 2) →
      Spec.EivDescends lap n cfg xW zW x z obj.iterations Ds) := by
  obtain ⟨dt, A, y0, s, run, hdt, hA, hst, hsy, _, hrun, hlog⟩ := eiv_log h hfit
  obtain ⟨Ds, h1, h2⟩ := eivTrace_run h hl hxW hzW hex hdt hA run s 0 y0 hst (by rw [hsy]; exact h.init)
    (by rw [hsy]; exact hsym) hrun
  rw [hlog, ← hsy]
  exact ⟨Ds, h1, fun ho => (h2 ho).2⟩

/-- C39 (weighted branch, symmetric initial guess): in every iteration the voltage correction minimises the weighted misfit
for the previous matrix, over all corrections, and the logged target is the weighted misfit plus the penalty. -/
theorem C39_fit_partial {lap : Bool} {n : Nat} {cfg : RegConfig} {x z yInit : Arr2 ℂ} (h : FitSetup lap n cfg x z yInit)
    (hl : 0 ≤ cfg.lam) (hsym : Spec.IsSymm yInit) {xW zW : Arr2 ℝ} (hxW : Spec.IsWeight (2 * (n * x.r)) xW)
    (hzW : Spec.IsWeight (2 * (n * x.r)) zW) {solve : Solver} (hex : Spec.Exact solve)
    {inv : Arr2 ℂ → Except PyErr (Arr2 ℂ)} {res : Except PyErr Unit} {obj : RegObj}
    (hfit : eivBody solve inv cfg RegObj.fresh x z (some xW) (some zW) yInit = (res, obj)) :
    ∃ Ds, Spec.EivTrace lap n cfg xW zW x z yInit obj.iterations Ds := by
  obtain ⟨dt, A, y0, s, run, hdt, hA, hst, hsy, _, hrun, hlog⟩ := eiv_log h hfit
  obtain ⟨Ds, h1, _⟩ := eivTrace_run h hl hxW hzW hex hdt hA run s 0 y0 hst (by rw [hsy]; exact h.init)
    (by rw [hsy]; exact hsym) hrun
  rw [hlog, ← hsy]
  exact ⟨Ds, h1⟩

/-- C87: alternating minimisation: with order-1 and order-2 terms the smoothed weighted objective, evaluated at the logged
matrices and their corrections, never increases. When the initial guess is admissible the first value is compared with the
guess and any correction, e.g. none. -/
theorem C87_descent {lap : Bool} {n : Nat} {cfg : RegConfig} {x z yInit : Arr2 ℂ} (h : FitSetup lap n cfg x z yInit)
    (hl : 0 ≤ cfg.lam) (ho : ∀ t ∈ Spec.terms cfg.prior, t.order = 1 ∨ t.order = 2) (hsym : Spec.IsSymm yInit)
    {xW zW : Arr2 ℝ} (hxW : Spec.IsWeight (2 * (n * x.r)) xW)
    (hzW : Spec.IsWeight (2 * (n * x.r)) zW) {solve : Solver} (hex : Spec.Exact solve)
    {inv : Arr2 ℂ → Except PyErr (Arr2 ℂ)} {res : Except PyErr Unit} {obj : RegObj}
    (hfit : eivBody solve inv cfg RegObj.fresh x z (some xW) (some zW) yInit = (res, obj)) :
    ∃ Ds, Spec.EivTrace lap n cfg xW zW x z yInit obj.iterations Ds ∧
      Spec.EivDescends lap n cfg xW zW x z obj.iterations Ds ∧
      (Spec.projection lap n yInit = yInit → ∀ e D D0, obj.iterations[0]? = some e → Ds[0]? = some D →
        D0.r = x.r → D0.c = x.c →
        Spec.eivObjective lap n cfg xW zW x z e.params D ≤ Spec.eivObjective lap n cfg xW zW x z yInit D0) := by
  obtain ⟨dt, A, y0, s, run, hdt, hA, hst, hsy, hY0, hrun, hlog⟩ := eiv_log h hfit
  obtain ⟨Ds, h1, h2⟩ := eivTrace_run h hl hxW hzW hex hdt hA run s 0 y0 hst (by rw [hsy]; exact h.init)
    (by rw [hsy]; exact hsym) hrun
  obtain ⟨h3, h4⟩ := h2 ho
  rw [hlog]
  refine ⟨Ds, by rw [← hsy]; exact h1, h4, fun hp e D D0 he hD hr hc => ?_⟩
  rw [hp] at hY0
  rw [← hsy]
  exact h3 (by rw [hsy]; exact hY0) e D D0 he hD hr hc

/-! ### C88 success of the weighted fit -/

/-- C88: with positive definite voltage weights, a positive regularisation and a prior leaving no direction free, the
weighted fit never raises, whatever the data, the weights of the currents and the initial guess. -/
theorem C88_no_exception {lap : Bool} {n : Nat} {cfg : RegConfig} {x z yInit : Arr2 ℂ} (h : FitSetup lap n cfg x z yInit)
    (hl : 0 < cfg.lam) (hsp : Spec.Spanning cfg.prior (nReal lap n)) {xW zW : Arr2 ℝ}
    (hxW : Spec.PosDef (2 * (n * x.r)) xW) (hzW : Spec.IsWeight (2 * (n * x.r)) zW) {solve : Solver}
    (hex : Spec.Exact solve) (htot : Spec.Total solve) (inv : Arr2 ℂ → Except PyErr (Arr2 ℂ)) (obj : RegObj)
    (hobj : obj.iterations = []) :
    ∃ obj', eivBody solve inv cfg obj x z (some xW) (some zW) yInit = (.ok (), obj') := by
  obtain ⟨dt, A, y0, s, hdt, hA, hst, hsy, hY0, hf, _⟩ := eivSetup_ok h solve inv
  rw [hf, hobj]
  generalize hr : fitLoop cfg (eivWeightedStep solve cfg x dt A (Spec.stackReal x) (Spec.stackReal z) xW zW) cfg.maxIter 0 s
    [] = r
  obtain ⟨rs, log'⟩ := r
  obtain ⟨run, h1, h2, h3, h4, h5⟩ := fitLoop_spec cfg _ cfg.maxIter 0 s [] log' rs rfl hr
  cases rs with
  | ok s' => exact ⟨_, rfl⟩
  | error e =>
    exfalso
    have hstep : ∀ s, ((∃ y, StateAt cfg.prior (nReal lap n) y s) ∧ Spec.IsSquare n s.yMat) → ∃ s' t,
        eivWeightedStep solve cfg x dt A (Spec.stackReal x) (Spec.stackReal z) xW zW s = .ok (s', t) ∧
        ((∃ y, StateAt cfg.prior (nReal lap n) y s') ∧ Spec.IsSquare n s'.yMat) ∧ True := by
      rintro s ⟨⟨y, hs⟩, hsq⟩
      obtain ⟨s', t, y', h6, h7⟩ := eivStep_total h hl hsp hxW hzW hex htot hdt hA hs hsq
      refine ⟨s', t, h6, ⟨?_, ?_⟩, trivial⟩
      · exact ⟨y', h7⟩
      · obtain ⟨y', hy'⟩ := eivWeightedStep_toMatrix h6
        rw [h.xc] at hy'
        exact (toMatrix_admissible lap n hdt hy').1
    obtain ⟨g1, _⟩ := fixed_run hstep run s ⟨⟨y0, hst⟩, by rw [hsy]; exact h.init⟩ h1
    obtain ⟨s', t, h6, _⟩ := hstep _ g1
    rw [h5.2.1] at h6; cases h6

/-! ### C39 the operator, and its failure for initial guesses that are not symmetric -/

/-- the operator of the code maps the stacked `X` to the stacked `X Yᵀ` -/
theorem C39_operator (T n : Nat) (Y X : Arr2 ℂ) (hY : Spec.IsSquare n Y) (hX : X.r = T ∧ X.c = n) :
    ∃ u XYt, underlineY T Y = .ok u ∧ X.matmul Y.T = .ok XYt ∧ u.mulVec (Spec.stackReal X) = .ok (Spec.stackReal XYt) ∧
      (Spec.IsSymm Y → X.matmul Y = .ok XYt) := by
  obtain ⟨u, hu, _, _, hact⟩ := underlineY_spec T n Y hY
  have hm := Arr2.matmul_ok X Y.T (by show X.c = Y.c; rw [hX.2, hY.2])
  refine ⟨u, _, hu, hm, hact X _ hX hm, fun hs => ?_⟩
  have : Y.T = Y := Arr2.ext' (hY.2.trans hY.1.symm) (hY.1.trans hY.2.symm) (fun i j _ _ => by rw [Arr2.T_get]; exact hs.2 j i)
  rw [← hm, this]

/-- weights `c` on every component -/
def scaledEye (m : Nat) (c : ℝ) : Arr2 ℝ := Arr2.ofFn m m (fun i j => if i = j then c else 0)

theorem wquad_scaledEye (m : Nat) (c : ℝ) (v : List ℝ) :
    Spec.wquad (scaledEye m c) v = c * ∑ i ∈ range m, v.getD i 0 ^ 2 := by
  unfold Spec.wquad
  rw [Finset.mul_sum]
  apply Finset.sum_congr rfl
  intro i hi
  have hi : i < m := Finset.mem_range.1 hi
  show ∑ j ∈ range m, _ = _
  rw [Finset.sum_eq_single_of_mem i (Finset.mem_range.2 hi)]
  · unfold scaledEye
    rw [Arr2.ofFn_get _ hi hi, if_pos rfl]; ring
  · intro j hj hji
    unfold scaledEye
    rw [Arr2.ofFn_get _ hi (Finset.mem_range.1 hj), if_neg (Ne.symm hji)]; ring

theorem scaledEye_weight (m : Nat) {c : ℝ} (hc : 0 ≤ c) : Spec.IsWeight m (scaledEye m c) where
  rows := rfl
  cols := rfl
  symm := by
    intro i j
    simp only [scaledEye, Arr2.ofFn_get', and_comm (a := i < m), eq_comm (a := i)]
  psd := by
    intro v
    rw [wquad_scaledEye]
    exact mul_nonneg hc (Finset.sum_nonneg (fun _ _ => sq_nonneg _))

theorem scaledEye_posDef (m : Nat) {c : ℝ} (hc : 0 < c) : Spec.PosDef m (scaledEye m c) := by
  refine ⟨scaledEye_weight m hc.le, fun v hv h0 => ?_⟩
  rw [wquad_scaledEye] at h0
  have h1 := (mul_eq_zero.1 h0).resolve_left hc.ne'
  rw [Finset.sum_eq_zero_iff_of_nonneg (fun _ _ => sq_nonneg _)] at h1
  rw [List.eq_replicate_iff]
  refine ⟨hv, fun b hb => ?_⟩
  obtain ⟨i, hi, rfl⟩ := List.mem_iff_getElem.1 hb
  have := h1 i (Finset.mem_range.2 (by omega))
  rw [List.getD_eq_getElem?_getD, List.getElem?_eq_getElem hi, Option.getD_some] at this
  exact pow_eq_zero_iff two_ne_zero |>.1 this

/-- a matrix with a single entry above the diagonal -/
def skewY : Arr2 ℂ := Arr2.ofFn 2 2 (fun i j => if i = 0 ∧ j = 1 then 1 else 0)

/-- one sample of two node voltages -/
def rowArr (a b : ℂ) : Arr2 ℂ := Arr2.ofFn 1 2 (fun _ j => if j = 0 then a else b)

theorem stackReal_rowArr (a b : ℂ) : Spec.stackReal (rowArr a b) = [a.re, b.re, a.im, b.im] := by
  simp [Spec.stackReal, rowArr, Arr2.ofFn_get', List.range_succ]

theorem eivCost_skew (p : ℝ) : Spec.eivCost (scaledEye 4 1) (scaledEye 4 1) (rowArr 1 0) (rowArr 0 0) skewY (rowArr p 0) =
    (1 - p) ^ 2 + p ^ 2 := by
  have hr : Spec.residual (rowArr 1 0) (rowArr 0 0) skewY (rowArr p 0) = rowArr 0 (p - 1) := by
    refine Arr2.ext' (A := Spec.residual (rowArr 1 0) (rowArr 0 0) skewY (rowArr p 0)) (B := rowArr 0 (p - 1)) rfl rfl ?_
    intro i j hi hj
    have hi : i < 1 := hi
    have hj : j < 2 := hj
    have : i = 0 := by omega
    subst this
    have : j = 0 ∨ j = 1 := by omega
    rcases this with rfl | rfl <;>
      simp [Spec.residual, rowArr, skewY, Arr2.ofFn_get', Finset.sum_range_succ]
  unfold Spec.eivCost
  rw [hr, stackReal_rowArr, stackReal_rowArr, wquad_scaledEye, wquad_scaledEye]
  simp [Finset.sum_range_succ]
  ring

/-- C39 fails for an initial guess that is not symmetric: with unit weights, one sample `x = (1, 0)`, `z = (0, 0)` and
`Y = [[0, 1], [0, 0]]`, every exact solver returns the correction `0` of misfit `1`, but `(1/2, 0)` has misfit `1/2`. -/
theorem C39_violated : ∃ (x z Y : Arr2 ℂ) (xW zW : Arr2 ℝ), Spec.IsSquare 2 Y ∧ x.c = 2 ∧ z.r = x.r ∧ z.c = 2 ∧
    Spec.PosDef (2 * (2 * x.r)) xW ∧ Spec.PosDef (2 * (2 * x.r)) zW ∧
    ∀ solve, Spec.Exact solve → Spec.Total solve → ∃ D D', D.r = x.r ∧ D.c = 2 ∧ D'.r = x.r ∧ D'.c = 2 ∧
      eivCorrection solve x.r xW zW Y (Spec.stackReal x) (Spec.stackReal z) = .ok (Spec.stackReal D) ∧
      Spec.eivCost xW zW x z Y D' < Spec.eivCost xW zW x z Y D := by
  refine ⟨rowArr 1 0, rowArr 0 0, skewY, scaledEye 4 1, scaledEye 4 1, ⟨rfl, rfl⟩, rfl, rfl, rfl,
    scaledEye_posDef 4 one_pos, scaledEye_posDef 4 one_pos, ?_⟩
  intro solve hex htot
  refine ⟨rowArr 0 0, rowArr (1 / 2 : ℝ) 0, rfl, rfl, rfl, rfl, ?_, ?_⟩
  · obtain ⟨u, hu, hur, huc, hact⟩ := underlineY_spec 1 2 skewY ⟨rfl, rfl⟩
    obtain ⟨sys, rhs, hc, hss, hrl, hsm, hrv⟩ := eivCorrection_system solve 1 (xW := scaledEye 4 1) (zW := scaledEye 4 1)
      (a := Spec.stackReal (rowArr 1 0)) (b := Spec.stackReal (rowArr 0 0)) (m := 4)
      hu ⟨hur, huc⟩ ⟨rfl, rfl⟩ ⟨rfl, rfl⟩ (by rw [stackReal_rowArr]; rfl) (by rw [stackReal_rowArr]; rfl)
    have hua := hact (rowArr 1 0) (rowArr 0 0) ⟨rfl, rfl⟩ (by
      rw [Arr2.matmul_ok _ _ rfl]
      congr 1
      refine Arr2.ext' (A := Arr2.ofFn 1 2 _) (B := rowArr 0 0) rfl rfl ?_
      intro i j hi hj
      have hi : i < 1 := hi
      have hj : j < 2 := hj
      have : i = 0 := by omega
      subst this
      have : j = 0 ∨ j = 1 := by omega
      rcases this with rfl | rfl <;>
        simp [Arr2.mulGet, rowArr, skewY, Arr2.ofFn_get', Finset.sum_range_succ, Arr2.T])
    have hz : toVec 4 (Spec.stackReal (rowArr 0 0)) = 0 := by
      rw [stackReal_rowArr]
      funext i
      fin_cases i <;> simp [toVec]
    have hrhs : toVec 4 rhs = 0 := by
      have h2 := (Arr2.mulVec_inv hua).2.2 4
      rw [huc] at h2
      rw [hrv]
      have h3 : (u.toMat 4 4).mulVec (toVec 4 (Spec.stackReal (rowArr 1 0))) = 0 := by rw [← hz]; exact h2.symm
      rw [h3, hz, sub_zero, mulVec_zero]
    have hp := (IsWeight.mat (scaledEye_weight 4 (c := 1) one_pos.le)).2
    have hpos : ∀ v : Fin 4 → ℝ, v ⬝ᵥ (sys.toMat 4 4).mulVec v = 0 → v = 0 := by
      intro v hv
      rw [hsm, wgram_quad] at hv
      have h1 := hp ((u.toMat 4 4).mulVec v)
      have h2 := hp v
      have h3 := (scaledEye_posDef 4 (c := 1) one_pos).2 (ofVec v) (ofVec_length v) (by
        rw [wquad_eq (m := 4) ⟨rfl, rfl⟩, toVec_ofVec]; linarith)
      have h4 := congrArg (toVec 4) h3
      rwa [toVec_ofVec, toVec_replicate_zero] at h4
    obtain ⟨da, hda⟩ := total_of_pos htot hss hrl hpos
    obtain ⟨e1, e2, e3⟩ := Arr2.mulVec_inv (hex _ _ _ hda)
    have e4 := e3 4
    rw [hss.2, hrhs] at e4
    have h0 := hpos (toVec 4 da) (by rw [← e4, dotProduct_zero])
    show eivCorrection solve 1 _ _ _ _ _ = _
    rw [hc, hda]
    congr 1
    exact toVec_inj (by rw [← e1, hss.2]) (by rw [stackReal_rowArr]; rfl) (by rw [h0, hz])
  · have h1 := eivCost_skew (1 / 2)
    have h2 := eivCost_skew 0
    rw [Complex.ofReal_zero] at h2
    rw [h1, h2]; norm_num

/-- the state after a weighted iteration was computed at the parameters of its matrix -/
theorem eivStep_own {lap : Bool} {n : Nat} {cfg : RegConfig} {x z yInit : Arr2 ℂ}
    (h : FitSetup lap n cfg x z yInit) {dt : Arr2 ℂ} {solve : Solver}
    (hex : Spec.Exact solve) {A : Arr2 ℝ} {a b : List ℝ} {xW zW : Arr2 ℝ} {y : List ℝ} {s s' : FitState} {t : ℝ}
    (hs : StateAt cfg.prior (nReal lap n) y s)
    (hstep : eivWeightedStep solve cfg x dt A a b xW zW s = .ok (s', t)) :
    ∃ y', StateAt cfg.prior (nReal lap n) y' s' ∧ toMatrix n dt y' = .ok s'.yMat := by
  unfold eivWeightedStep at hstep
  obtain ⟨_, _, hstep⟩ := Prior.bind_ok hstep
  obtain ⟨_, _, hstep⟩ := Prior.bind_ok hstep
  obtain ⟨_, _, hstep⟩ := Prior.bind_ok hstep
  obtain ⟨_, _, hstep⟩ := Prior.bind_ok hstep
  obtain ⟨_, _, hstep⟩ := Prior.bind_ok hstep
  obtain ⟨_, _, hstep⟩ := Prior.bind_ok hstep
  obtain ⟨_, _, hstep⟩ := Prior.bind_ok hstep
  obtain ⟨sys, hsys, hstep⟩ := Prior.bind_ok hstep
  obtain ⟨_, _, hstep⟩ := Prior.bind_ok hstep
  obtain ⟨_, _, hstep⟩ := Prior.bind_ok hstep
  obtain ⟨y', hy', hstep⟩ := Prior.bind_ok hstep
  obtain ⟨ym, hym, hstep⟩ := Prior.bind_ok hstep
  obtain ⟨lg, hlg, hstep⟩ := Prior.bind_ok hstep
  obtain ⟨_, _, hstep⟩ := Prior.bind_ok hstep
  obtain ⟨_, _, hstep⟩ := Prior.bind_ok hstep
  obtain ⟨_, _, hstep⟩ := Prior.bind_ok hstep
  obtain ⟨_, _, hstep⟩ := Prior.bind_ok hstep
  obtain ⟨_, _, hstep⟩ := Prior.bind_ok hstep
  obtain ⟨_, _, hstep⟩ := Prior.bind_ok hstep
  cases hstep
  have hl : y'.length = nReal lap n := by
    obtain ⟨_, h2, _, h4, _⟩ := Arr2.zipWith_inv hsys
    rw [← (Arr2.mulVec_inv (hex _ _ _ hy')).1, h4, h2, hs.2.1]; rfl
  rw [h.prior.log hl (nReal_ne_one lap n)] at hlg
  cases hlg
  rw [h.xc] at hym
  exact ⟨y', ⟨hl, rfl, rfl⟩, hym⟩

/-- whatever the initial guess, from the second iteration on the corrections are optimal -/
theorem eivWeightedStep_state {lap : Bool} {n : Nat} {cfg : RegConfig} {x z yInit : Arr2 ℂ}
    (h : FitSetup lap n cfg x z yInit) {dt : Arr2 ℂ} {solve : Solver}
    (hex : Spec.Exact solve) {A : Arr2 ℝ} {a b : List ℝ} {xW zW : Arr2 ℝ} {y : List ℝ} {s s' : FitState} {t : ℝ}
    (hs : StateAt cfg.prior (nReal lap n) y s)
    (hstep : eivWeightedStep solve cfg x dt A a b xW zW s = .ok (s', t)) :
    ∃ y', StateAt cfg.prior (nReal lap n) y' s' :=
  (eivStep_own h hex hs hstep).imp fun _ h => h.1

/-- C39 for any initial guess: from the second iteration on, every correction is optimal for the previous iterate, and the
logged targets are as specified. -/
theorem C39_later_partial {lap : Bool} {n : Nat} {cfg : RegConfig} {x z yInit : Arr2 ℂ} (h : FitSetup lap n cfg x z yInit)
    (hl : 0 ≤ cfg.lam) {xW zW : Arr2 ℝ} (hxW : Spec.IsWeight (2 * (n * x.r)) xW)
    (hzW : Spec.IsWeight (2 * (n * x.r)) zW) {solve : Solver} (hex : Spec.Exact solve)
    {inv : Arr2 ℂ → Except PyErr (Arr2 ℂ)} {res : Except PyErr Unit} {obj : RegObj}
    (hfit : eivBody solve inv cfg RegObj.fresh x z (some xW) (some zW) yInit = (res, obj)) :
    ∀ e l, obj.iterations = e :: l → ∃ Ds, Spec.EivTrace lap n cfg xW zW x z e.params l Ds := by
  obtain ⟨dt, A, y0, s, run, hdt, hA, hst, hsy, _, hrun, hlog⟩ := eiv_log h hfit
  intro e l hel
  rw [hlog] at hel
  cases run with
  | nil => simp [Spec.entries] at hel
  | cons q run =>
    simp only [Spec.entries, List.cons.injEq] at hel
    obtain ⟨rfl, rfl⟩ := hel
    obtain ⟨h1, h2⟩ := hrun
    obtain ⟨y', hs'⟩ := eivWeightedStep_state h hex (s' := q.1) (t := q.2) hst h1
    obtain ⟨yy, hyy⟩ := eivWeightedStep_toMatrix (s' := q.1) (t := q.2) h1
    rw [h.xc] at hyy
    obtain ⟨hsq, hadm⟩ := toMatrix_admissible lap n hdt hyy
    obtain ⟨Ds, h3, _⟩ := eivTrace_run h hl hxW hzW hex hdt hA run q.1 1 y' hs' hsq hadm.1 h2
    exact ⟨Ds, h3⟩

/-- C39, C87 for any initial guess: the first correction is optimal for the transpose of the guess, every later one for the previous
matrix, and the objective never increases from the first logged matrix on. -/
theorem C39_transpose {lap : Bool} {n : Nat} {cfg : RegConfig} {x z yInit : Arr2 ℂ} (h : FitSetup lap n cfg x z yInit)
    (hl : 0 ≤ cfg.lam) {xW zW : Arr2 ℝ} (hxW : Spec.IsWeight (2 * (n * x.r)) xW)
    (hzW : Spec.IsWeight (2 * (n * x.r)) zW) {solve : Solver} (hex : Spec.Exact solve)
    {inv : Arr2 ℂ → Except PyErr (Arr2 ℂ)} {res : Except PyErr Unit} {obj : RegObj}
    (hfit : eivBody solve inv cfg RegObj.fresh x z (some xW) (some zW) yInit = (res, obj)) :
    ∃ Ds, Spec.EivTrace lap n cfg xW zW x z yInit.T obj.iterations Ds ∧
      ((∀ t ∈ Spec.terms cfg.prior, t.order = 1 ∨ t.order = 2) → Spec.EivDescends lap n cfg xW zW x z obj.iterations Ds) := by
  obtain ⟨dt, A, y0, s, run, hdt, hA, hst, hsy, _, hrun, hlog⟩ := eiv_log h hfit
  obtain ⟨Ds, h1, h2⟩ := eivTrace_run_T h hl hxW hzW hex hdt hA run s 0 y0 hst (by rw [hsy]; exact h.init) hrun
  rw [hlog, ← hsy]
  exact ⟨Ds, h1, fun ho => (h2 ho).2⟩

/-! ### C38 the weights of the currents -/

/-- the weights of the currents never matter: any other `z_weight` gives the same fit -/
theorem C38_weight_ignored (solve : Solver) (inv : Arr2 ℂ → Except PyErr (Arr2 ℂ)) (cfg : RegConfig) (obj : RegObj)
    (x z : Arr2 ℂ) (xW : Option (Arr2 ℝ)) (zW zW' : Arr2 ℝ) (yInit : Arr2 ℂ) :
    eivFit solve inv cfg obj x z xW (some zW) yInit = eivFit solve inv cfg obj x z xW (some zW') yInit := rfl

/-- C38 when both weights are the same, or one of them is missing: the fit uses the weights it was given. -/
theorem C38_partial (solve : Solver) (inv : Arr2 ℂ → Except PyErr (Arr2 ℂ)) (cfg : RegConfig) (obj : RegObj)
    (x z : Arr2 ℂ) (xW zW : Option (Arr2 ℝ)) (yInit : Arr2 ℂ) (h : zW = xW ∨ zW = none ∨ xW = none) :
    eivFit solve inv cfg obj x z xW zW yInit = eivBody solve inv cfg obj x z xW zW yInit := by
  rcases h with rfl | rfl | rfl
  · cases zW <;> rfl
  · rfl
  · cases zW with
    | none => rfl
    | some w =>
      unfold eivFit eivBody
      rfl

/-- Laplace prior on both parameters of one node, `λ = α = 1`, one iteration -/
def onePrior : Prior := ⟨2, 2, [[1, 0], [0, 1]], [0, 0], [1, 1], 1, false, false⟩

def oneCfg (k : Nat) : RegConfig := ⟨onePrior, 1, 1 / 10, 0, k, dtMatrix ℂ false, eMatrix ℂ false⟩

theorem one_setup (k : Nat) (c y : ℂ) : FitSetup false 1 (oneCfg k) (scalarArr 1) (scalarArr c) (scalarArr y) where
  dt := rfl
  e := rfl
  xc := rfl
  zs := ⟨rfl, rfl⟩
  init := ⟨rfl, rfl⟩
  prior := ⟨⟨rfl, rfl, rfl, by simp [oneCfg, onePrior], rfl⟩, rfl, by simp [oneCfg, onePrior]⟩
  alpha := by simp [oneCfg, onePrior]

theorem one_spanning : Spec.Spanning onePrior 2 := by
  intro v hv h
  match v, hv with
  | [a, b], _ =>
    have h1 := h ⟨[1, 0], 0, 1⟩ (by simp [Spec.terms, onePrior])
    have h2 := h ⟨[0, 1], 0, 1⟩ (by simp [Spec.terms, onePrior])
    simp [Spec.dot, Finset.sum_range_succ] at h1 h2
    simp [h1, h2]

theorem stackReal_scalar (c : ℂ) : Spec.stackReal (scalarArr c) = [c.re, c.im] := by
  simp [Spec.stackReal, scalarArr, Arr2.ofFn_get']

theorem scalar_cost (a b : ℝ) (c y d : ℂ) :
    Spec.eivCost (scaledEye 2 a) (scaledEye 2 b) (scalarArr 1) (scalarArr c) (scalarArr y) (scalarArr d) =
      b * ((c - (1 - d) * y).re ^ 2 + (c - (1 - d) * y).im ^ 2) + a * (d.re ^ 2 + d.im ^ 2) := by
  have hr : Spec.residual (scalarArr 1) (scalarArr c) (scalarArr y) (scalarArr d) = scalarArr (c - (1 - d) * y) := by
    refine Arr2.ext' (A := Spec.residual (scalarArr 1) (scalarArr c) (scalarArr y) (scalarArr d)) (B := scalarArr (c - (1 - d) * y))
      rfl rfl ?_
    intro i j hi hj
    have hi : i < 1 := hi
    have hj : j < 1 := hj
    have : i = 0 := by omega
    have : j = 0 := by omega
    subst i; subst j
    have h1 : (scalarArr 1).c = 1 := rfl
    rw [scalarArr_get]
    unfold Spec.residual
    rw [Arr2.ofFn_get (r := (scalarArr c).r) (c := (scalarArr c).c) _ (by exact Nat.one_pos) (by exact Nat.one_pos), h1,
      Finset.sum_range_one, scalarArr_get, scalarArr_get, scalarArr_get, scalarArr_get]
  unfold Spec.eivCost
  rw [hr, stackReal_scalar, stackReal_scalar, wquad_scaledEye, wquad_scaledEye]
  simp [Finset.sum_range_succ]

theorem scalar_of_shape {D : Arr2 ℂ} (hr : D.r = 1) (hc : D.c = 1) : D = scalarArr (D.get 0 0) := by
  refine Arr2.ext' hr hc ?_
  intro i j hi hj
  rw [hr] at hi; rw [hc] at hj
  have : i = 0 := by omega
  have : j = 0 := by omega
  subst i; subst j
  rw [scalarArr_get]

/-- one iteration from `Y = 0` with data `x = z = 1`: unit weights for the voltages, weight `w` for the current -/
theorem one_fit {solve : Solver} (hex : Spec.Exact solve) (htot : Spec.Total solve)
    (inv : Arr2 ℂ → Except PyErr (Arr2 ℂ)) (w : ℝ) (hw : 0 < w) :
    ∃ obj, eivBody solve inv (oneCfg 1) RegObj.fresh (scalarArr 1) (scalarArr 1) (some (scaledEye 2 1))
      (some (scaledEye 2 w)) (scalarArr 0) = (.ok (), obj) ∧ obj.admittance = some (scalarArr ((w / (w + 1) : ℝ) : ℂ)) := by
  have h := one_setup 1 1 0
  obtain ⟨obj, hobj⟩ := C88_no_exception h (show (0 : ℝ) < 1 from one_pos) one_spanning (scaledEye_posDef 2 one_pos)
    (scaledEye_weight 2 hw.le) hex htot inv RegObj.fresh rfl
  refine ⟨obj, hobj, ?_⟩
  obtain ⟨dt, A, y0, s, run, hdt, hA, hst, hsy, hY0, hrun, hlog⟩ := eiv_log h hobj
  obtain ⟨hlen1, hlen2, _, e, he1, he2⟩ := (log_of_isFit (eivBody_isFit solve inv (oneCfg 1) (scalarArr 1) (scalarArr 1)
    (some (scaledEye 2 1)) (some (scaledEye 2 w)) (scalarArr 0)) hobj).2 Nat.one_pos
  have hl1 : run.length = 1 := by
    have : obj.iterations.length = 1 := le_antisymm hlen2 hlen1
    rw [hlog, entries_length] at this; exact this
  match run, hl1 with
  | [q], _ =>
    obtain ⟨h1, _⟩ := hrun
    obtain ⟨D, y', hDr, hDc, hDmin, hs', hY', ht, hmin⟩ := eivStep_at h (show (0 : ℝ) ≤ 1 from zero_le_one)
      (scaledEye_weight 2 (c := 1) zero_le_one) (scaledEye_weight 2 hw.le) hex hdt hA hst (by rw [hsy]; exact h.init)
      (by rw [hsy]; exact ⟨rfl, fun i j => by simp only [scalarArr, Arr2.ofFn_get', and_comm (a := i < 1)]⟩)
      (s' := q.1) (t := q.2) h1
    rw [hlog] at he1
    simp only [Spec.entries, List.getLast?_singleton, Option.some.injEq] at he1
    rw [he2, ← he1]
    -- no correction
    have hD0 : D = scalarArr 0 := by
      have hD := scalar_of_shape hDr hDc
      have hm := hDmin (scalarArr 0) rfl rfl
      rw [hsy, hD, scalar_cost, scalar_cost] at hm
      have h0 : (D.get 0 0).re ^ 2 + (D.get 0 0).im ^ 2 ≤ 0 := by
        simp at hm ⊢
        exact hm
      have hre : (D.get 0 0).re = 0 := by nlinarith [sq_nonneg (D.get 0 0).re, sq_nonneg (D.get 0 0).im]
      have him : (D.get 0 0).im = 0 := by nlinarith [sq_nonneg (D.get 0 0).re, sq_nonneg (D.get 0 0).im]
      rw [hD]
      congr 1
      exact Complex.ext hre him
    subst hD0
    have hy0 : y0 = [0, 0] := by
      have hp := params_of_toMatrix false 1 hdt hst.1 hY0
      rw [← hp, demo_params]
      have : (Spec.projection false 1 (scalarArr 0)).get 0 0 = 0 := by
        simp [Spec.projection, scalarArr, Arr2.ofFn_get']
      rw [this]; simp
    subst hy0
    have hmodel : ∀ p q : ℝ, Spec.model onePrior 2 [0, 0] [p, q] = p ^ 2 + q ^ 2 := by
      intro p q
      simp only [Spec.model, Spec.terms, onePrior]
      simp [Spec.Term.resid, Spec.Term.scale, Spec.dot, Finset.sum_range_succ]
      norm_num
    have hyl := hs'.1
    match y', hyl with
    | [p, r], _ =>
      have hYe := demo_toMatrix hdt p r hY'
      obtain ⟨V, _, _, _, _, _, hV⟩ := toMatrix_ok false 1 hdt (y := [w / (w + 1), 0]) rfl
      have hVe := demo_toMatrix hdt _ _ hV
      have hm := hmin [w / (w + 1), 0] V rfl hV
      have hN : nReal false 1 = 2 := rfl
      rw [hYe, hVe, scalar_cost, scalar_cost, hN] at hm
      have hpr : (oneCfg 1).prior = onePrior := rfl
      have hlam : (oneCfg 1).lam = 1 := rfl
      rw [hpr, hlam, hmodel, hmodel] at hm
      simp at hm
      have hw1 : 0 < w + 1 := by linarith
      have hb : (1 - w / (w + 1)) = 1 / (w + 1) := by field_simp; ring
      rw [hb] at hm
      have e1 : w * (1 / (w + 1)) ^ 2 + (w / (w + 1)) ^ 2 = w / (w + 1) := by field_simp; ring
      have key : (w + 1) * (p - w / (w + 1)) ^ 2 + (w + 1) * r ^ 2 ≤ 0 := by
        have e2 : (w + 1) * (p - w / (w + 1)) ^ 2 = (w + 1) * p ^ 2 - 2 * w * p + w * (w / (w + 1)) := by field_simp; ring
        have e3 : w - w / (w + 1) = w * (w / (w + 1)) := by field_simp; ring
        simp only [one_div] at e1 hm
        nlinarith
      have hr0 : r = 0 := by
        have := mul_nonneg hw1.le (sq_nonneg (p - w / (w + 1)))
        have : r ^ 2 ≤ 0 := by
          by_contra hc
          push Not at hc
          have := mul_pos hw1 hc
          linarith
        nlinarith [sq_nonneg r]
      have hp0 : p = w / (w + 1) := by
        have := mul_nonneg hw1.le (sq_nonneg r)
        have h2 : (p - w / (w + 1)) ^ 2 ≤ 0 := by
          by_contra hc
          push Not at hc
          have := mul_pos hw1 hc
          linarith
        have h3 : (p - w / (w + 1)) = 0 := by nlinarith [sq_nonneg (p - w / (w + 1))]
        linarith
      rw [hYe, hr0, hp0]
      congr 2

/-- C38 is violated: with unit voltage weights and current weights `3`, one iteration on `x = z = 1` from `0` must give
`3/4` for the weights passed, but the fit returns `1/2`, for every exact solver. -/
theorem C38_violated : ∃ cfg x z xW zW yInit, FitSetup false 1 cfg x z yInit ∧ Spec.PosDef 2 xW ∧ Spec.PosDef 2 zW ∧
    ∀ solve inv, Spec.Exact solve → Spec.Total solve → ∃ o o' Y Y',
      eivFit solve inv cfg RegObj.fresh x z (some xW) (some zW) yInit = (.ok (), o) ∧ o.admittance = some Y ∧
      eivBody solve inv cfg RegObj.fresh x z (some xW) (some zW) yInit = (.ok (), o') ∧ o'.admittance = some Y' ∧
      Y ≠ Y' := by
  refine ⟨oneCfg 1, scalarArr 1, scalarArr 1, scaledEye 2 1, scaledEye 2 3, scalarArr 0, one_setup 1 1 0,
    scaledEye_posDef 2 one_pos, scaledEye_posDef 2 (by norm_num), ?_⟩
  intro solve inv hex htot
  obtain ⟨o, h1, h2⟩ := one_fit hex htot inv 1 one_pos
  obtain ⟨o', h3, h4⟩ := one_fit hex htot inv 3 (by norm_num)
  refine ⟨o, o', _, _, h1, h2, h3, h4, ?_⟩
  intro h
  have := congrArg (fun A : Arr2 ℂ => (A.get 0 0).re) h
  simp only [scalarArr_get, Complex.ofReal_re] at this
  norm_num at this

/-- a weighted fit meeting the hypotheses of C39, C87 and C88, for both solver contracts -/
example : ∃ obj, eivBody exactSolve exactInv (oneCfg 1) RegObj.fresh (scalarArr 1) (scalarArr 1) (some (scaledEye 2 1))
    (some (scaledEye 2 2)) (scalarArr 0) = (.ok (), obj) ∧ obj.admittance = some (scalarArr ((2 / (2 + 1) : ℝ) : ℂ)) :=
  one_fit exactSolve_exact exactSolve_total exactInv 2 (by norm_num)

/-- two nodes with the Laplacian constraint and a non-symmetric guess: the first correction is optimal for the transposed guess -/
example : let cfg : RegConfig := ⟨onePrior, 1, 1 / 10, 0, 5, dtMatrix ℂ true, eMatrix ℂ true⟩
    ∃ obj, eivBody exactSolve exactInv cfg RegObj.fresh (rowArr 1 0) (rowArr 0 0) (some (scaledEye 4 1)) (some (scaledEye 4 1)) skewY =
        (.ok (), obj) ∧ ¬ Spec.IsSymm skewY ∧
      ∃ Ds, Spec.EivTrace true 2 cfg (scaledEye 4 1) (scaledEye 4 1) (rowArr 1 0) (rowArr 0 0) skewY.T obj.iterations Ds ∧
        Spec.EivDescends true 2 cfg (scaledEye 4 1) (scaledEye 4 1) (rowArr 1 0) (rowArr 0 0) obj.iterations Ds := by
  intro cfg
  have hs : FitSetup true 2 cfg (rowArr 1 0) (rowArr 0 0) skewY :=
    ⟨rfl, rfl, rfl, ⟨rfl, rfl⟩, ⟨rfl, rfl⟩, ⟨⟨rfl, rfl, rfl, by simp [cfg, onePrior], rfl⟩, rfl, by simp [cfg, onePrior]⟩,
      by simp [cfg, onePrior]⟩
  have hw := scaledEye_posDef 4 one_pos
  obtain ⟨obj, ho⟩ := C88_no_exception hs one_pos one_spanning hw hw.1 exactSolve_exact exactSolve_total exactInv RegObj.fresh rfl
  obtain ⟨Ds, h1, h2⟩ := C39_transpose hs zero_le_one hw.1 hw.1 exactSolve_exact ho
  refine ⟨obj, ho, fun h => ?_, Ds, h1, h2 (by simp [cfg, onePrior, Spec.terms])⟩
  have := h.2 0 1
  unfold skewY at this
  rw [Arr2.ofFn_get _ (by norm_num) (by norm_num), Arr2.ofFn_get _ (by norm_num) (by norm_num)] at this
  simp at this

end
end Verif
