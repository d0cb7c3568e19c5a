/-
C31-C37: the regressions of `src/models/regression.py` (C32-C34 also for `error_in_variable.py`).
-/
import Verif.Lemmas.RegObjective

namespace Verif
open Finset Matrix
noncomputable section

/-! ### C31 the linear system -/

/-- C31: for every admissible `Y`, the real system maps its parameters to the stacked `x Y`; hence the residual vanishes
exactly when `x Y = z`. -/
theorem C31_linear_system (lap : Bool) (n : Nat) (x z Y : Arr2 ℂ) (hx : x.c = n) (hz : z.r = x.r ∧ z.c = n)
    (hsq : Spec.IsSquare n Y) (hadm : Spec.Admissible lap Y) :
    ∃ dt e A p XY w, dtMatrix ℂ lap n = .ok dt ∧ eMatrix ℂ lap n = .ok e ∧ regressionMatrix n x dt = .ok A ∧
      toParams e Y = .ok p ∧ x.matmul Y = .ok XY ∧ A.mulVec p = .ok w ∧
      w = makeRealVector (vectorizeMatrix XY) ∧
      (w = makeRealVector (vectorizeMatrix z) ↔ XY = z) := by
  obtain ⟨dt, hdt, _⟩ := dt_closed (α := ℂ) lap n
  obtain ⟨e, he, _⟩ := e_closed (α := ℂ) lap n
  obtain ⟨A, hA, har, hac, hact⟩ := regressionMatrix_spec lap n hdt x hx
  obtain ⟨p, hp, hpl, hpm⟩ := toParams_ok lap n hdt he hsq
  have hxy := Arr2.matmul_ok x Y (by rw [hx, hsq.1])
  refine ⟨dt, e, A, p, _, _, hdt, he, hA, hp, hxy, hact p Y _ hpl (hpm hadm) hxy, rfl, ?_⟩
  constructor
  · intro h
    exact vec_inj hz.1.symm (by show Y.c = z.c; rw [hsq.2, hz.2]) (makeRealVector_inj h)
  · rintro rfl; rfl

/-- and every parameter vector is the one of an admissible matrix: the real system describes exactly the admissible ones -/
theorem C31_params_admissible (lap : Bool) (n : Nat) (x : Arr2 ℂ) (hx : x.c = n) (y : List ℝ)
    (hy : y.length = nReal lap n) :
    ∃ dt e A Y XY, dtMatrix ℂ lap n = .ok dt ∧ eMatrix ℂ lap n = .ok e ∧ regressionMatrix n x dt = .ok A ∧
      Spec.IsSquare n Y ∧ Spec.Admissible lap Y ∧ toParams e Y = .ok y ∧ x.matmul Y = .ok XY ∧
      A.mulVec y = .ok (makeRealVector (vectorizeMatrix XY)) := by
  obtain ⟨dt, hdt, _⟩ := dt_closed (α := ℂ) lap n
  obtain ⟨e, he, _⟩ := e_closed (α := ℂ) lap n
  obtain ⟨A, hA, har, hac, hact⟩ := regressionMatrix_spec lap n hdt x hx
  obtain ⟨Y, v, _, _, _, _, hY⟩ := toMatrix_ok lap n hdt hy
  obtain ⟨hsq, hadm⟩ := toMatrix_admissible lap n hdt hY
  obtain ⟨p, hp, hpl, hpm⟩ := toParams_ok lap n hdt he hsq
  have hpy : p = y := toMatrix_inj lap n hdt hpl hy (hpm hadm) hY
  subst hpy
  have hxy := Arr2.matmul_ok x Y (by rw [hx, hsq.1])
  exact ⟨dt, e, A, Y, _, hdt, he, hA, hsq, hadm, hp, hxy, hact p Y _ hpl hY hxy⟩

/-- an admissible matrix with data -/
example : Spec.IsSquare 2 (Arr2.ofFn 2 2 (fun i j => if i = j then (1 + Complex.I) else -(1 + Complex.I))) ∧
    Spec.Admissible true (Arr2.ofFn 2 2 (fun i j => if i = j then (1 + Complex.I) else -(1 + Complex.I))) := by
  refine ⟨⟨rfl, rfl⟩, ⟨rfl, ?_⟩, ?_⟩
  · intro i j
    simp only [Arr2.ofFn_get', eq_comm (a := i) (b := j), and_comm (a := i < 2)]
  · intro _ i hi
    have hi : i < 2 := hi
    show ∑ j ∈ range 2, _ = _
    have : i = 0 ∨ i = 1 := by omega
    rcases this with rfl | rfl <;> simp [Finset.sum_range_succ, Arr2.ofFn_get']

/-! ### C32 admissible iterates -/

/-- C32 for any fit of the two classes -/
theorem admissible_of_isFit {cfg : RegConfig} {lap : Bool} {n : Nat} {yInit : Arr2 ℂ}
    {fit : RegObj → Except PyErr Unit × RegObj} (hfit : IsFit cfg n yInit fit) (hdt : cfg.dt = dtMatrix ℂ lap)
    {res : Except PyErr Unit} {obj : RegObj} (h : fit RegObj.fresh = (res, obj)) :
    (∀ e ∈ obj.iterations, Spec.IsSquare n e.params ∧ Spec.Admissible lap e.params) ∧
    (res = .ok () → 0 < cfg.maxIter → ∃ Y, obj.admittance = some Y ∧ Spec.IsSquare n Y ∧ Spec.Admissible lap Y) := by
  rcases hfit.fresh with ⟨e, he⟩ | ⟨step, s, dt, run, r, hd, hs, hstep, hrun, hlen, hns, hend, hf⟩
  · rw [he] at h
    cases h
    exact ⟨by simp [RegObj.fresh], by intro h; cases h⟩
  · rw [hdt] at hd
    have hall := isRun_forall (P := fun st => Spec.IsSquare n st.yMat ∧ Spec.Admissible lap st.yMat)
      (fun s0 s1 t h1 => by
        obtain ⟨y, hy⟩ := hstep s0 s1 t h1
        exact toMatrix_admissible lap n hd hy) s run hrun
    have hent : ∀ e ∈ Spec.entries 0 run, Spec.IsSquare n e.params ∧ Spec.Admissible lap e.params := by
      intro e he
      obtain ⟨i, hi⟩ := List.mem_iff_getElem?.1 he
      rw [entries_get] at hi
      cases hri : run[i]? with
      | none => rw [hri] at hi; cases hi
      | some q =>
        rw [hri] at hi
        cases hi
        exact hall q (List.mem_of_getElem? hri)
    rw [hf] at h
    cases r with
    | error e =>
      simp only [finishFit, Prod.mk.injEq] at h
      obtain ⟨rfl, rfl⟩ := h
      exact ⟨hent, by intro h; cases h⟩
    | ok s' =>
      simp only [finishFit, Prod.mk.injEq] at h
      obtain ⟨rfl, rfl⟩ := h
      refine ⟨hent, fun _ hk => ⟨s'.yMat, rfl, ?_⟩⟩
      obtain ⟨h1, h2⟩ := hend
      have hne : run ≠ [] := by
        rintro rfl
        exact (h2 hk).1 rfl
      obtain ⟨q, hq, hq2⟩ := lastState_getLast s run hne
      rw [h1, hq2]
      exact hall q (List.mem_of_getLast? hq)

/-- C32: whatever the data, prior, tolerances and linear solver, every logged iterate and the fitted matrix of the
Bayesian regression are admissible. -/
theorem C32_regression (solve : Solver) (cfg : RegConfig) (lap : Bool) (hdt : cfg.dt = dtMatrix ℂ lap)
    (x z yInit : Arr2 ℂ) {res : Except PyErr Unit} {obj : RegObj}
    (h : bayesianFit solve cfg RegObj.fresh x z yInit = (res, obj)) :
    (∀ e ∈ obj.iterations, Spec.IsSquare x.c e.params ∧ Spec.Admissible lap e.params) ∧
    (res = .ok () → 0 < cfg.maxIter → ∃ Y, obj.admittance = some Y ∧ Spec.IsSquare x.c Y ∧ Spec.Admissible lap Y) :=
  admissible_of_isFit (bayesianFit_isFit solve cfg x z yInit) hdt h

/-- C32 for the error-in-variables regression, with or without weights -/
theorem C32_eiv (solve : Solver) (inv : Arr2 ℂ → Except PyErr (Arr2 ℂ)) (cfg : RegConfig) (lap : Bool)
    (hdt : cfg.dt = dtMatrix ℂ lap) (x z : Arr2 ℂ) (xW zW : Option (Arr2 ℝ)) (yInit : Arr2 ℂ) {res : Except PyErr Unit}
    {obj : RegObj} (h : eivFit solve inv cfg RegObj.fresh x z xW zW yInit = (res, obj)) :
    (∀ e ∈ obj.iterations, Spec.IsSquare x.c e.params ∧ Spec.Admissible lap e.params) ∧
    (res = .ok () → 0 < cfg.maxIter → ∃ Y, obj.admittance = some Y ∧ Spec.IsSquare x.c Y ∧ Spec.Admissible lap Y) :=
  admissible_of_isFit (eivFit_isFit solve inv cfg x z xW zW yInit) hdt h

/-! ### C33 the log -/

theorem log_of_isFit {cfg : RegConfig} {n : Nat} {yInit : Arr2 ℂ}
    {fit : RegObj → Except PyErr Unit × RegObj} (hfit : IsFit cfg n yInit fit) {obj : RegObj}
    (h : fit RegObj.fresh = (.ok (), obj)) :
    (cfg.maxIter = 0 → obj.iterations = [] ∧ obj.admittance = some yInit) ∧
    (0 < cfg.maxIter → 1 ≤ obj.iterations.length ∧ obj.iterations.length ≤ cfg.maxIter ∧
      (∀ i (hi : i < obj.iterations.length), obj.iterations[i].iteration = i) ∧
      ∃ e, obj.iterations.getLast? = some e ∧ obj.admittance = some e.params) := by
  rcases hfit.fresh with ⟨e, he⟩ | ⟨step, s, dt, run, r, hd, hs, hstep, hrun, hlen, hns, hend, hf⟩
  · rw [he] at h; cases h
  · rw [hf] at h
    cases r with
    | error e => simp [finishFit] at h
    | ok s' =>
      simp only [finishFit, Prod.mk.injEq, true_and] at h
      subst h
      obtain ⟨h1, h2⟩ := hend
      refine ⟨fun hk => ?_, fun hk => ?_⟩
      · have : run = [] := List.length_eq_zero_iff.1 (by omega)
        subst this
        exact ⟨rfl, by rw [h1]; exact congrArg some hs⟩
      · have hne : run ≠ [] := by
          rintro rfl
          exact (h2 hk).1 rfl
        refine ⟨?_, by rw [entries_length]; exact hlen, ?_, ?_⟩
        · rw [entries_length]; exact List.length_pos_iff.2 hne
        · intro i hi
          have hi' : i < (Spec.entries 0 run).length := hi
          have := entries_get 0 run i
          rw [List.getElem?_eq_getElem hi'] at this
          rw [entries_length] at hi'
          rw [List.getElem?_eq_getElem hi', Option.map_some, Option.some.injEq] at this
          show ((Spec.entries 0 run)[i]).iteration = i
          rw [this]; simp
        · obtain ⟨q, hq, hq2⟩ := lastState_getLast s run hne
          rw [List.getLast?_eq_getElem?] at hq
          refine ⟨⟨0 + (run.length - 1), q.1.yMat, q.2⟩, ?_, ?_⟩
          · show (Spec.entries 0 run).getLast? = _
            rw [List.getLast?_eq_getElem?, entries_length, entries_get, hq]; rfl
          · rw [h1, hq2]

/-- C33: log of a fit on a fresh object, Bayesian regression -/
theorem C33_regression (solve : Solver) (cfg : RegConfig) (x z yInit : Arr2 ℂ) {obj : RegObj}
    (h : bayesianFit solve cfg RegObj.fresh x z yInit = (.ok (), obj)) :
    (cfg.maxIter = 0 → obj.iterations = [] ∧ obj.admittance = some yInit) ∧
    (0 < cfg.maxIter → 1 ≤ obj.iterations.length ∧ obj.iterations.length ≤ cfg.maxIter ∧
      (∀ i (hi : i < obj.iterations.length), obj.iterations[i].iteration = i) ∧
      ∃ e, obj.iterations.getLast? = some e ∧ obj.admittance = some e.params) :=
  log_of_isFit (bayesianFit_isFit solve cfg x z yInit) h

/-- C33: log of a fit on a fresh object, error-in-variables regression -/
theorem C33_eiv (solve : Solver) (inv : Arr2 ℂ → Except PyErr (Arr2 ℂ)) (cfg : RegConfig) (x z : Arr2 ℂ)
    (xW zW : Option (Arr2 ℝ)) (yInit : Arr2 ℂ) {obj : RegObj}
    (h : eivFit solve inv cfg RegObj.fresh x z xW zW yInit = (.ok (), obj)) :
    (cfg.maxIter = 0 → obj.iterations = [] ∧ obj.admittance = some yInit) ∧
    (0 < cfg.maxIter → 1 ≤ obj.iterations.length ∧ obj.iterations.length ≤ cfg.maxIter ∧
      (∀ i (hi : i < obj.iterations.length), obj.iterations[i].iteration = i) ∧
      ∃ e, obj.iterations.getLast? = some e ∧ obj.admittance = some e.params) :=
  log_of_isFit (eivFit_isFit solve inv cfg x z xW zW yInit) h

/-! ### C34 the stopping rule -/

theorem stop_of_isFit {cfg : RegConfig} {n : Nat} {yInit : Arr2 ℂ}
    {fit : RegObj → Except PyErr Unit × RegObj} (hfit : IsFit cfg n yInit fit) {obj : RegObj}
    (h : fit RegObj.fresh = (.ok (), obj)) :
    (obj.iterations.length < cfg.maxIter → 2 ≤ obj.iterations.length ∧
      Spec.Stops cfg.absTol cfg.relTol obj.iterations (obj.iterations.length - 1)) ∧
    (∀ j, 0 < j → j + 1 < obj.iterations.length → ¬ Spec.Stops cfg.absTol cfg.relTol obj.iterations j) := by
  rcases hfit.fresh with ⟨e, he⟩ | ⟨step, s, dt, run, r, hd, hs, hstep, hrun, hlen, hns, hend, hf⟩
  · rw [he] at h; cases h
  · rw [hf] at h
    cases r with
    | error e => simp [finishFit] at h
    | ok s' =>
      simp only [finishFit, Prod.mk.injEq, true_and] at h
      subst h
      obtain ⟨h1, h2⟩ := hend
      refine ⟨?_, ?_⟩
      · intro hl
        rw [entries_length] at hl ⊢
        obtain ⟨_, h4, h5⟩ := h2 hl
        rw [Nat.zero_add] at h4 h5
        exact ⟨h4, h5⟩
      · intro j h0 hj
        rw [entries_length] at hj
        exact hns j h0 hj

/-- C34: a fit on a fresh object stops early only by the tolerance test on its last two target values, and at the first
iteration where that test holds. -/
theorem C34_regression (solve : Solver) (cfg : RegConfig) (x z yInit : Arr2 ℂ) {obj : RegObj}
    (h : bayesianFit solve cfg RegObj.fresh x z yInit = (.ok (), obj)) :
    (obj.iterations.length < cfg.maxIter → 2 ≤ obj.iterations.length ∧
      Spec.Stops cfg.absTol cfg.relTol obj.iterations (obj.iterations.length - 1)) ∧
    (∀ j, 0 < j → j + 1 < obj.iterations.length → ¬ Spec.Stops cfg.absTol cfg.relTol obj.iterations j) :=
  stop_of_isFit (bayesianFit_isFit solve cfg x z yInit) h

/-- C34 for the error-in-variables regression -/
theorem C34_eiv (solve : Solver) (inv : Arr2 ℂ → Except PyErr (Arr2 ℂ)) (cfg : RegConfig) (x z : Arr2 ℂ)
    (xW zW : Option (Arr2 ℝ)) (yInit : Arr2 ℂ) {obj : RegObj}
    (h : eivFit solve inv cfg RegObj.fresh x z xW zW yInit = (.ok (), obj)) :
    (obj.iterations.length < cfg.maxIter → 2 ≤ obj.iterations.length ∧
      Spec.Stops cfg.absTol cfg.relTol obj.iterations (obj.iterations.length - 1)) ∧
    (∀ j, 0 < j → j + 1 < obj.iterations.length → ¬ Spec.Stops cfg.absTol cfg.relTol obj.iterations j) :=
  stop_of_isFit (eivFit_isFit solve inv cfg x z xW zW yInit) h

/-! ### C36 descent -/

/-- the quadratic model of the prior at `y`, in matrix form -/
theorem prior_matrix {p : Prior} {N : Nat} (hp : UsablePrior p N) (hα : 0 < p.alpha) {y : List ℝ} (hy : y.length = N)
    (hN : N ≠ 1) :
    ((Prior.quadA N p.alpha y (Spec.terms p)).toMat N N).transpose = (Prior.quadA N p.alpha y (Spec.terms p)).toMat N N ∧
    (∀ v : Fin N → ℝ, 0 ≤ v ⬝ᵥ ((Prior.quadA N p.alpha y (Spec.terms p)).toMat N N).mulVec v) ∧
    (∀ v : List ℝ, toVec N v ⬝ᵥ ((Prior.quadA N p.alpha y (Spec.terms p)).toMat N N).mulVec (toVec N v)
        - 2 * (toVec N (Prior.linB N p.alpha y (Spec.terms p)) ⬝ᵥ toVec N v)
        + ((Spec.terms p).map (fun t => t.center ^ 2 / t.scale N p.alpha y)).sum
      = ((Spec.terms p).map (fun t => (t.resid N v) ^ 2 / t.scale N p.alpha y)).sum) ∧
    (∀ v : List ℝ, (∀ t ∈ Spec.terms p, t.resid N v = 0) →
      ((Prior.quadA N p.alpha y (Spec.terms p)).toMat N N).mulVec (toVec N v) =
        toVec N (Prior.linB N p.alpha y (Spec.terms p))) := by
  have hlog := hp.log hy hN
  obtain ⟨_, _, _, _, hsym, hpsd, hquad, hgrad, _⟩ := C15_quadratic_model hp.cons hα hlog
  rw [hp.size] at hpsd hquad hgrad
  set M := Prior.quadA N p.alpha y (Spec.terms p)
  set mu := Prior.linB N p.alpha y (Spec.terms p)
  have hq : ∀ v : List ℝ, toVec N v ⬝ᵥ (M.toMat N N).mulVec (toVec N v) =
      ∑ i ∈ range N, ∑ j ∈ range N, v.getD i 0 * M.get i j * v.getD j 0 := by
    intro v
    rw [← Fin.sum_univ_eq_sum_range (fun i => ∑ j ∈ range N, v.getD i 0 * M.get i j * v.getD j 0) N]
    apply Finset.sum_congr rfl
    intro i _
    rw [← Fin.sum_univ_eq_sum_range (fun j => v.getD (i : ℕ) 0 * M.get i j * v.getD j 0) N]
    show v.getD i 0 * ∑ j : Fin N, M.get i j * v.getD j 0 = _
    rw [Finset.mul_sum]
    apply Finset.sum_congr rfl
    intro j _; ring
  refine ⟨?_, ?_, ?_, ?_⟩
  · ext i j; exact hsym j i
  · intro v
    have := hpsd (ofVec v)
    rw [← hq, toVec_ofVec] at this
    exact this
  · intro v
    rw [hq, dot_range]
    exact hquad v
  · intro v hv
    funext i
    have := hgrad v i i.2
    have h0 : ((Spec.terms p).map (fun t => t.row.getD (i : ℕ) 0 * (t.resid N v / t.scale N p.alpha y))).sum = 0 := by
      apply List.sum_eq_zero
      intro q hq
      obtain ⟨t, ht, rfl⟩ := List.mem_map.1 hq
      rw [hv t ht]; simp
    rw [h0, sub_eq_zero] at this
    rw [← Fin.sum_univ_eq_sum_range (fun j => M.get i j * v.getD j 0) N] at this
    exact this

theorem gram_symm {m N : Nat} (A : Matrix (Fin m) (Fin N) ℝ) (M : Matrix (Fin N) (Fin N) ℝ) (hM : M.transpose = M)
    (l : ℝ) : (A.transpose * A + l • M).transpose = A.transpose * A + l • M := by
  rw [transpose_add, transpose_mul, transpose_transpose, transpose_smul, hM]

theorem gram_quad {m N : Nat} (A : Matrix (Fin m) (Fin N) ℝ) (M : Matrix (Fin N) (Fin N) ℝ) (l : ℝ) (v : Fin N → ℝ) :
    v ⬝ᵥ (A.transpose * A + l • M).mulVec v = A.mulVec v ⬝ᵥ A.mulVec v + l * (v ⬝ᵥ M.mulVec v) := by
  rw [add_mulVec, dotProduct_add, smul_mulVec, dotProduct_smul, ← mulVec_mulVec, dotProduct_mulVec, ← mulVec_transpose,
    transpose_transpose, smul_eq_mul]

theorem dot_self_nonneg {m : Nat} (v : Fin m → ℝ) : 0 ≤ v ⬝ᵥ v :=
  Finset.sum_nonneg (fun i _ => mul_self_nonneg (v i))

theorem list_sum_le {β : Type} (l : List β) (f g : β → ℝ) (h : ∀ t ∈ l, f t ≤ g t) : (l.map f).sum ≤ (l.map g).sum := by
  induction l with
  | nil => simp
  | cons a l ih =>
    simp only [List.map_cons, List.sum_cons]
    have := ih (fun t ht => h t (List.mem_cons_of_mem _ ht))
    have := h a List.mem_cons_self
    linarith

theorem list_sum_sub' {β : Type} (l : List β) (f g : β → ℝ) :
    (l.map (fun t => f t - g t)).sum = (l.map f).sum - (l.map g).sum := by
  induction l with
  | nil => simp
  | cons a l ih => simp only [List.map_cons, List.sum_cons, ih]; ring

theorem list_sum_zero (l : List ℝ) (hn : ∀ q ∈ l, 0 ≤ q) (h : l.sum = 0) : ∀ q ∈ l, q = 0 := by
  induction l with
  | nil => simp
  | cons a l ih =>
    rw [List.sum_cons] at h
    have h1 := hn a List.mem_cons_self
    have h2 : 0 ≤ l.sum := List.sum_nonneg (fun q hq => hn q (List.mem_cons_of_mem _ hq))
    intro q hq
    rcases List.mem_cons.1 hq with rfl | hq
    · linarith
    · exact ih (fun q hq => hn q (List.mem_cons_of_mem _ hq)) (by linarith) q hq

/-- one step does not increase the smoothed objective -/
theorem descent_step {lap : Bool} {n : Nat} {cfg : RegConfig} {x z yInit : Arr2 ℂ} (h : FitSetup lap n cfg x z yInit)
    (hl : 0 ≤ cfg.lam) (ho : ∀ t ∈ Spec.terms cfg.prior, t.order = 1 ∨ t.order = 2)
    {solve : Solver} (hex : Spec.Exact solve) {dt : Arr2 ℂ} (hdt : dtMatrix ℂ lap n = .ok dt) {A : Arr2 ℝ}
    (hAr : regressionMatrix n x dt = .ok A) (hA : A.r = 2 * (n * x.r) ∧ A.c = nReal lap n) {y : List ℝ}
    {s s' : FitState} {t : ℝ} {Y : Arr2 ℂ} (hY : toMatrix n dt y = .ok Y)
    (hs : StateAt cfg.prior (nReal lap n) y s)
    (hstep : regStep solve cfg n dt A (makeRealVector (vectorizeMatrix z)) s = .ok (s', t)) :
    ∃ y', StateAt cfg.prior (nReal lap n) y' s' ∧ toMatrix n dt y' = .ok s'.yMat ∧
      Spec.objective lap n cfg.prior cfg.lam x z s'.yMat ≤ Spec.objective lap n cfg.prior cfg.lam x z Y := by
  have hb : (makeRealVector (vectorizeMatrix z)).length = 2 * (n * x.r) := by
    rw [makeRealVector_length, vec_length, h.zs.1, h.zs.2]
  obtain ⟨y', hs', hy', heq⟩ := step_at h hex hdt hA hb hs hstep
  refine ⟨y', hs', hy', ?_⟩
  obtain ⟨hsym, hpsd, hquad, _⟩ := prior_matrix h.prior h.alpha hs.1 (nReal_ne_one lap n)
  rw [hs.2.1, hs.2.2] at heq
  set N := nReal lap n
  set m := 2 * (n * x.r)
  set Am := A.toMat m N
  set b := toVec m (makeRealVector (vectorizeMatrix z))
  set M := (Prior.quadA N cfg.prior.alpha y (Spec.terms cfg.prior)).toMat N N
  set mu := toVec N (Prior.linB N cfg.prior.alpha y (Spec.terms cfg.prior))
  have hmin := quad_min (Am.transpose * Am + cfg.lam • M) (gram_symm Am M hsym cfg.lam) (fun v => by
    rw [gram_quad]
    exact add_nonneg (dot_self_nonneg _) (mul_nonneg hl (hpsd v))) heq (toVec N y)
  have q1 := hquad y
  have q2 := hquad y'
  have m1 := real_misfit lap n hdt h.xc h.zs hAr hs.1 hY
  have m2 := real_misfit lap n hdt h.xc h.zs hAr hs'.1 hy'
  rw [misfit_expand] at m1 m2
  rw [add_mulVec, add_mulVec, dotProduct_add, dotProduct_add, smul_mulVec, smul_mulVec, dotProduct_smul, dotProduct_smul,
    add_dotProduct, add_dotProduct, smul_dotProduct, smul_dotProduct] at hmin
  simp only [smul_eq_mul] at hmin
  have hmaj : ((Spec.terms cfg.prior).map (fun t => Spec.smooth cfg.prior.alpha t.order (t.resid N y'))).sum -
      ((Spec.terms cfg.prior).map (fun t => Spec.smooth cfg.prior.alpha t.order (t.resid N y))).sum ≤
      ((Spec.terms cfg.prior).map (fun t => (t.resid N y') ^ 2 / t.scale N cfg.prior.alpha y)).sum -
      ((Spec.terms cfg.prior).map (fun t => (t.resid N y) ^ 2 / t.scale N cfg.prior.alpha y)).sum := by
    rw [← list_sum_sub', ← list_sum_sub']
    apply list_sum_le
    intro t ht
    have := smooth_major h.alpha (ho t ht) (t.resid N y) (t.resid N y')
    rw [sub_div] at this
    exact this
  unfold Spec.objective
  rw [params_of_toMatrix lap n hdt hs.1 hY, params_of_toMatrix lap n hdt hs'.1 hy', h.prior.size, ← m1, ← m2]
  have h3 := mul_le_mul_of_nonneg_left hmaj hl
  rw [← q1, ← q2] at h3
  linarith

theorem descent_run {lap : Bool} {n : Nat} {cfg : RegConfig} {x z yInit : Arr2 ℂ} (h : FitSetup lap n cfg x z yInit)
    (hl : 0 ≤ cfg.lam) (ho : ∀ t ∈ Spec.terms cfg.prior, t.order = 1 ∨ t.order = 2)
    {solve : Solver} (hex : Spec.Exact solve) {dt : Arr2 ℂ} (hdt : dtMatrix ℂ lap n = .ok dt) {A : Arr2 ℝ}
    (hAr : regressionMatrix n x dt = .ok A) (hA : A.r = 2 * (n * x.r) ∧ A.c = nReal lap n)
    (run : List (FitState × ℝ)) (s : FitState) (y : List ℝ) (Y : Arr2 ℂ) (hY : toMatrix n dt y = .ok Y)
    (hs : StateAt cfg.prior (nReal lap n) y s)
    (hrun : Spec.IsRun (regStep solve cfg n dt A (makeRealVector (vectorizeMatrix z))) s run) :
    (∀ e, run[0]? = some e → Spec.objective lap n cfg.prior cfg.lam x z e.1.yMat ≤
      Spec.objective lap n cfg.prior cfg.lam x z Y) ∧
    ∀ i e e', run[i]? = some e → run[i + 1]? = some e' →
      Spec.objective lap n cfg.prior cfg.lam x z e'.1.yMat ≤ Spec.objective lap n cfg.prior cfg.lam x z e.1.yMat := by
  induction run generalizing s y Y with
  | nil => exact ⟨by simp, by simp⟩
  | cons q l ih =>
    obtain ⟨h1, h2⟩ := hrun
    obtain ⟨y', hs', hy', hle⟩ := descent_step h hl ho hex hdt hAr hA hY hs (s' := q.1) (t := q.2) h1
    obtain ⟨i1, i2⟩ := ih q.1 y' q.1.yMat hy' hs' h2
    refine ⟨?_, ?_⟩
    · intro e he
      simp at he
      subst he
      exact hle
    · intro i e e' he he'
      cases i with
      | zero =>
        simp only [List.getElem?_cons_zero, Option.some.injEq] at he
        subst he
        simp only [List.getElem?_cons_succ] at he'
        exact i1 e' he'
      | succ i =>
        simp only [List.getElem?_cons_succ] at he he'
        exact i2 i e e' he he'

/-- C36: with order-1 and order-2 terms and a solver that returns solutions, no iteration increases the smoothed objective
(the first one is compared with the symmetrised initial guess); also along a fit that ends with an exception. -/
theorem C36_descent {lap : Bool} {n : Nat} {cfg : RegConfig} {x z yInit : Arr2 ℂ} (h : FitSetup lap n cfg x z yInit)
    (hl : 0 ≤ cfg.lam) (ho : ∀ t ∈ Spec.terms cfg.prior, t.order = 1 ∨ t.order = 2)
    {solve : Solver} (hex : Spec.Exact solve) {res : Except PyErr Unit} {obj : RegObj}
    (hfit : bayesianFit solve cfg RegObj.fresh x z yInit = (res, obj)) :
    (∀ e, obj.iterations[0]? = some e → Spec.objective lap n cfg.prior cfg.lam x z e.params ≤
      Spec.objective lap n cfg.prior cfg.lam x z (Spec.projection lap n yInit)) ∧
    ∀ i e e', obj.iterations[i]? = some e → obj.iterations[i + 1]? = some e' →
      Spec.objective lap n cfg.prior cfg.lam x z e'.params ≤ Spec.objective lap n cfg.prior cfg.lam x z e.params := by
  obtain ⟨dt, A, y0, s, hdt, hA, hAs, hst, hsy, hY0, hf⟩ := setup_ok h solve
  rw [hf] at hfit
  generalize hr : fitLoop cfg (regStep solve cfg n dt A (makeRealVector (vectorizeMatrix z))) cfg.maxIter 0 s
    RegObj.fresh.iterations = r at hfit
  obtain ⟨rs, log'⟩ := r
  obtain ⟨run, h1, h2, h3, h4, h5⟩ := fitLoop_spec cfg _ cfg.maxIter 0 s [] log' rs rfl hr
  rw [List.nil_append] at h3
  have hlog : obj.iterations = Spec.entries 0 run := by
    cases rs <;> simp only [finishFit, Prod.mk.injEq] at hfit <;> rw [← hfit.2, ← h3]
  obtain ⟨d1, d2⟩ := descent_run h hl ho hex hdt hA hAs run s y0 _ hY0 hst h1
  rw [hlog]
  refine ⟨?_, ?_⟩
  · intro e he
    rw [entries_get] at he
    cases hq : run[0]? with
    | none => rw [hq] at he; cases he
    | some q => rw [hq] at he; cases he; exact d1 q hq
  · intro i e e' he he'
    rw [entries_get] at he he'
    cases hq : run[i]? with
    | none => rw [hq] at he; cases he
    | some q =>
      cases hq' : run[i + 1]? with
      | none => rw [hq'] at he'; cases he'
      | some q' =>
        rw [hq] at he; rw [hq'] at he'
        cases he; cases he'
        exact d2 i q q' hq hq'

/-! ### C37 fixed point -/

/-- the quadratic form of the prior vanishes only where every row does -/
theorem quad_zero {p : Prior} {N : Nat} (hp : UsablePrior p N) (hα : 0 < p.alpha) {y : List ℝ} (hy : y.length = N)
    (hN : N ≠ 1) (v : List ℝ)
    (h0 : toVec N v ⬝ᵥ ((Prior.quadA N p.alpha y (Spec.terms p)).toMat N N).mulVec (toVec N v) = 0) :
    ∀ t ∈ Spec.terms p, Spec.dot N t.row v = 0 := by
  obtain ⟨_, _, hquad, _⟩ := prior_matrix hp hα hy hN
  have hneg : ∀ k, (v.map (fun t => -t)).getD k 0 = - v.getD k 0 := by
    intro k
    simp only [List.getD_eq_getElem?_getD, List.getElem?_map]
    cases v[k]? <;> simp
  have hnegv : toVec N (v.map (fun t => -t)) = - toVec N v := by
    funext i; exact hneg i
  have hdneg : ∀ row : List ℝ, Spec.dot N row (v.map (fun t => -t)) = - Spec.dot N row v := by
    intro row
    unfold Spec.dot
    rw [← Finset.sum_neg_distrib]
    apply Finset.sum_congr rfl
    intro k _
    rw [hneg]; ring
  have q1 := hquad v
  have q2 := hquad (v.map (fun t => -t))
  rw [hnegv, mulVec_neg, dotProduct_neg, neg_dotProduct, neg_neg, dotProduct_neg, h0] at q2
  rw [h0] at q1
  have hsum : ((Spec.terms p).map (fun t => (Spec.dot N t.row v) ^ 2 / t.scale N p.alpha y)).sum = 0 := by
    have e : ((Spec.terms p).map (fun t => (t.resid N v) ^ 2 / t.scale N p.alpha y)).sum +
        ((Spec.terms p).map (fun t => (t.resid N (v.map (fun t => -t))) ^ 2 / t.scale N p.alpha y)).sum =
        2 * ((Spec.terms p).map (fun t => (Spec.dot N t.row v) ^ 2 / t.scale N p.alpha y)).sum +
        2 * ((Spec.terms p).map (fun t => t.center ^ 2 / t.scale N p.alpha y)).sum := by
      clear q1 q2 hquad
      induction Spec.terms p with
      | nil => simp
      | cons t l ih =>
        simp only [List.map_cons, List.sum_cons]
        have e1 : (t.resid N v) ^ 2 / t.scale N p.alpha y + (t.resid N (v.map (fun t => -t))) ^ 2 / t.scale N p.alpha y =
            2 * ((Spec.dot N t.row v) ^ 2 / t.scale N p.alpha y) + 2 * (t.center ^ 2 / t.scale N p.alpha y) := by
          unfold Spec.Term.resid
          rw [hdneg]; ring
        linarith
    linarith
  intro t ht
  have hnn : ∀ q ∈ (Spec.terms p).map (fun t => (Spec.dot N t.row v) ^ 2 / t.scale N p.alpha y), 0 ≤ q := by
    intro q hq
    obtain ⟨t, _, rfl⟩ := List.mem_map.1 hq
    exact div_nonneg (sq_nonneg _) (scale_pos _ hα _ _).le
  have := list_sum_zero _ hnn hsum _ (List.mem_map.2 ⟨t, ht, rfl⟩)
  rcases div_eq_zero_iff.1 this with h | h
  · exact pow_eq_zero_iff (two_ne_zero) |>.1 h
  · exact absurd h (scale_pos _ hα _ _).ne'

theorem params_zeros (lap : Bool) (n : Nat) : ∀ q ∈ Spec.params lap n (Arr2.zeros n n), q = 0 := by
  intro q hq
  have hg : ∀ i j, (Arr2.zeros n n : Arr2 ℂ).get i j = 0 := by
    intro i j; unfold Arr2.zeros; rw [Arr2.ofFn_get']; split <;> rfl
  have hv : ∀ t ∈ (if lap then (Spec.vel n (Arr2.zeros n n : Arr2 ℂ)).map (fun t => -t) else Spec.vech n (Arr2.zeros n n)),
      t = 0 := by
    intro t ht
    cases lap with
    | false =>
      simp only [Bool.false_eq_true, if_false, Spec.vech, List.mem_flatMap, List.mem_map, hg] at ht
      obtain ⟨_, _, _, _, rfl⟩ := ht; rfl
    | true =>
      simp only [if_true, Spec.vel, List.mem_map, List.mem_flatMap, hg] at ht
      obtain ⟨_, ⟨_, _, _, _, rfl⟩, rfl⟩ := ht; simp
  unfold Spec.params at hq
  rcases List.mem_append.1 hq with h | h
  · obtain ⟨t, ht, rfl⟩ := List.mem_map.1 h
    rw [hv t ht]; rfl
  · obtain ⟨t, ht, rfl⟩ := List.mem_map.1 h
    rw [hv t ht]; rfl

/-- the data and the prior determine an admissible matrix: nothing admissible but zero is invisible to both -/
def Spec.Identifiable (lap : Bool) (n : Nat) (p : Prior) (lam : ℝ) (x : Arr2 ℂ) : Prop :=
  ∀ V, Spec.IsSquare n V → Spec.Admissible lap V → x.matmul V = .ok (Arr2.zeros x.r n) →
    (0 < lam → ∀ t ∈ Spec.terms p, Spec.dot p.n t.row (Spec.params lap n V) = 0) → V = Arr2.zeros n n

/-- the system matrix of a step has no kernel -/
theorem sys_kernel {lap : Bool} {n : Nat} {cfg : RegConfig} {x z yInit : Arr2 ℂ} (h : FitSetup lap n cfg x z yInit)
    (hl : 0 ≤ cfg.lam) (hid : Spec.Identifiable lap n cfg.prior cfg.lam x) {dt : Arr2 ℂ}
    (hdt : dtMatrix ℂ lap n = .ok dt) {A : Arr2 ℝ} (hAr : regressionMatrix n x dt = .ok A) {y : List ℝ}
    (hy : y.length = nReal lap n) (v : List ℝ) (hv : v.length = nReal lap n)
    (h0 : ((A.toMat (2 * (n * x.r)) (nReal lap n)).transpose * A.toMat (2 * (n * x.r)) (nReal lap n) + cfg.lam •
      (Prior.quadA (nReal lap n) cfg.prior.alpha y (Spec.terms cfg.prior)).toMat (nReal lap n) (nReal lap n)).mulVec
        (toVec (nReal lap n) v) = 0) : v = List.replicate (nReal lap n) 0 := by
  obtain ⟨_, hpsd, _, _⟩ := prior_matrix h.prior h.alpha hy (nReal_ne_one lap n)
  obtain ⟨A', hA', har, hac, hact⟩ := regressionMatrix_spec lap n hdt x h.xc
  rw [hAr] at hA'; cases hA'
  set N := nReal lap n
  set m := 2 * (n * x.r)
  have hq := congrArg (fun w => toVec N v ⬝ᵥ w) h0
  simp only [dotProduct_zero] at hq
  rw [gram_quad] at hq
  have p1 := dot_self_nonneg ((A.toMat m N).mulVec (toVec N v))
  have p2 := mul_nonneg hl (hpsd (toVec N v))
  have z1 : (A.toMat m N).mulVec (toVec N v) ⬝ᵥ (A.toMat m N).mulVec (toVec N v) = 0 := by linarith
  have z2 : cfg.lam * (toVec N v ⬝ᵥ ((Prior.quadA N cfg.prior.alpha y (Spec.terms cfg.prior)).toMat N N).mulVec
    (toVec N v)) = 0 := by linarith
  have hAv := dotProduct_self_eq_zero.1 z1
  obtain ⟨V, _, _, _, _, _, hV⟩ := toMatrix_ok lap n hdt hv
  obtain ⟨hVsq, hVadm⟩ := toMatrix_admissible lap n hdt hV
  have hxV := Arr2.matmul_ok x V (by rw [h.xc, hVsq.1])
  have hAv' := hact v V _ hv hV hxV
  obtain ⟨w, hw, hwl, hwt⟩ := Arr2.mulVec_mat (A := A) (v := v) ⟨har, hac⟩ hv
  rw [hAv'] at hw; cases hw
  rw [hAv] at hwt
  have hzero : x.matmul V = .ok (Arr2.zeros x.r n) := by
    rw [hxV]
    congr 1
    refine vec_inj (A := Arr2.ofFn x.r V.c (x.mulGet V)) (B := Arr2.zeros x.r n) rfl hVsq.2 ?_
    apply makeRealVector_inj
    apply toVec_inj hwl
    · rw [makeRealVector_length, vec_length]; rfl
    · rw [hwt]
      have hz0 : ∀ t ∈ makeRealVector (vectorizeMatrix (Arr2.zeros x.r n : Arr2 ℂ)), t = 0 := by
        intro t ht
        have hg : ∀ i j, (Arr2.zeros x.r n : Arr2 ℂ).get i j = 0 := by
          intro i j; unfold Arr2.zeros; rw [Arr2.ofFn_get']; split <;> rfl
        unfold makeRealVector vectorizeMatrix at ht
        simp only [List.mem_append, List.mem_map, List.mem_flatMap, hg] at ht
        rcases ht with ⟨_, ⟨_, _, _, _, rfl⟩, rfl⟩ | ⟨_, ⟨_, _, _, _, rfl⟩, rfl⟩ <;> rfl
      funext i
      have : i < (makeRealVector (vectorizeMatrix (Arr2.zeros x.r n : Arr2 ℂ))).length := by
        rw [makeRealVector_length, vec_length]; exact i.2
      show _ = (makeRealVector (vectorizeMatrix (Arr2.zeros x.r n : Arr2 ℂ))).getD i 0
      rw [List.getD_eq_getElem?_getD, List.getElem?_eq_getElem this, Option.getD_some]
      exact (hz0 _ (List.getElem_mem _)).symm
  have hVp := params_of_toMatrix lap n hdt hv hV
  have hV0 := hid V hVsq hVadm hzero (fun hpos t ht => by
    rw [hVp, h.prior.size]
    exact quad_zero h.prior h.alpha hy (nReal_ne_one lap n) v ((mul_eq_zero.1 z2).resolve_left hpos.ne') t ht)
  subst hV0
  rw [List.eq_replicate_iff]
  refine ⟨hv, ?_⟩
  rw [← hVp]
  exact params_zeros lap n

/-- one step from any state when the data are exact and the prior is satisfied -/
theorem fixed_step {lap : Bool} {n : Nat} {cfg : RegConfig} {x z yInit : Arr2 ℂ} (h : FitSetup lap n cfg x z yInit)
    (hl : 0 ≤ cfg.lam) (hid : Spec.Identifiable lap n cfg.prior cfg.lam x) {Y : Arr2 ℂ} (hsq : Spec.IsSquare n Y)
    (hadm : Spec.Admissible lap Y) (hz : x.matmul Y = .ok z)
    (hpr : ∀ t ∈ Spec.terms cfg.prior, t.resid cfg.prior.n (Spec.params lap n Y) = 0)
    {solve : Solver} (hex : Spec.Exact solve) (htot : Spec.Total solve) {dt : Arr2 ℂ} (hdt : dtMatrix ℂ lap n = .ok dt)
    {A : Arr2 ℝ} (hAr : regressionMatrix n x dt = .ok A) {y : List ℝ} {s : FitState}
    (hs : StateAt cfg.prior (nReal lap n) y s) :
    ∃ y' s' t, regStep solve cfg n dt A (makeRealVector (vectorizeMatrix z)) s = .ok (s', t) ∧
      StateAt cfg.prior (nReal lap n) y' s' ∧ s'.yMat = Y := by
  obtain ⟨A', hA', har, hac, hact⟩ := regressionMatrix_spec lap n hdt x h.xc
  rw [hAr] at hA'; cases hA'
  have hb : (makeRealVector (vectorizeMatrix z)).length = 2 * (n * x.r) := by
    rw [makeRealVector_length, vec_length, h.zs.1, h.zs.2]
  obtain ⟨e, he, _⟩ := e_closed (α := ℂ) lap n
  obtain ⟨ys, _, hysl, hysm⟩ := toParams_ok lap n hdt he hsq
  have hysm := hysm hadm
  have hysp := params_of_toMatrix lap n hdt hysl hysm
  rw [hysp, h.prior.size] at hpr
  obtain ⟨hyl, hM, hmu⟩ := hs
  obtain ⟨sys, rhs, hsh, hrl, hsm, hrv, herr, hok⟩ := regStep_system solve cfg lap n hdt rfl ⟨har, hac⟩ hb h.prior s
    (by rw [hM]; exact ⟨rfl, rfl⟩) (by rw [hmu]; simp [Prior.linB])
  have hker : ∀ v : List ℝ, v.length = nReal lap n → (sys.toMat (nReal lap n) (nReal lap n)).mulVec
      (toVec (nReal lap n) v) = 0 → v = List.replicate (nReal lap n) 0 := by
    intro v hv h0
    rw [hsm, hM] at h0
    exact sys_kernel h hl hid hdt hAr hyl v hv h0
  obtain ⟨y', hy'⟩ := htot sys rhs (by rw [hsh.1, hrl]) (by rw [hsh.2, hrl]) (by
    intro v hv h0
    rw [hrl] at hv h0 ⊢
    apply hker v hv
    obtain ⟨_, _, h3⟩ := Arr2.mulVec_inv h0
    have := h3 (nReal lap n)
    rw [hsh.2, toVec_replicate_zero] at this
    exact this.symm)
  have hex' := hex _ _ _ hy'
  obtain ⟨h1, h2, h3⟩ := Arr2.mulVec_inv hex'
  have hy'l : y'.length = nReal lap n := by rw [← h1, hsh.2]
  have h3 := h3 (nReal lap n)
  rw [hsh.2] at h3
  -- the true parameters solve the system too
  have hAys := hact ys Y z hysl hysm hz
  obtain ⟨w, hw, hwl, hwt⟩ := Arr2.mulVec_mat (A := A) (v := ys) ⟨har, hac⟩ hysl
  rw [hAys] at hw; cases hw
  obtain ⟨_, _, _, hfix⟩ := prior_matrix h.prior h.alpha hyl (nReal_ne_one lap n)
  have htrue : (sys.toMat (nReal lap n) (nReal lap n)).mulVec (toVec (nReal lap n) ys) = toVec (nReal lap n) rhs := by
    rw [hsm, hrv, add_mulVec, smul_mulVec, hM, hmu, hfix ys hpr, ← mulVec_mulVec, ← hwt]
  have hyy : y' = ys := by
    have hd : (sys.toMat (nReal lap n) (nReal lap n)).mulVec (toVec (nReal lap n) y' - toVec (nReal lap n) ys) = 0 := by
      rw [mulVec_sub, htrue, ← h3, sub_self]
    have := hker (ofVec (toVec (nReal lap n) y' - toVec (nReal lap n) ys)) (ofVec_length _) (by rw [toVec_ofVec]; exact hd)
    have h' := congrArg (toVec (nReal lap n)) this
    rw [toVec_ofVec, toVec_replicate_zero, sub_eq_zero] at h'
    exact toVec_inj hy'l hysl h'
  subst hyy
  obtain ⟨ym, hym, hst⟩ := hok y' hy' hy'l
  rw [hysm] at hym; cases hym
  exact ⟨y', _, _, hst, ⟨hy'l, rfl, rfl⟩, rfl⟩

theorem fixed_run {step : FitState → Except PyErr (FitState × ℝ)} {Good P : FitState → Prop}
    (hstep : ∀ s, Good s → ∃ s' t, step s = .ok (s', t) ∧ Good s' ∧ P s') (run : List (FitState × ℝ)) (s : FitState)
    (hs : Good s) (hrun : Spec.IsRun step s run) : Good (Spec.lastState s run) ∧ ∀ q ∈ run, P q.1 := by
  induction run generalizing s with
  | nil => exact ⟨hs, by simp⟩
  | cons q l ih =>
    obtain ⟨s', t, h1, h2, h3⟩ := hstep s hs
    obtain ⟨h4, h5⟩ := hrun
    rw [h1] at h4
    obtain rfl := Except.ok.inj h4
    obtain ⟨h6, h7⟩ := ih s' h2 h5
    refine ⟨h6, ?_⟩
    intro q' hq'
    rcases List.mem_cons.1 hq' with rfl | hq'
    · exact h3
    · exact h7 q' hq'

/-- C37: exact data, exact prior, identifiable problem: the fit succeeds and returns the true matrix, and so does every
logged iterate, whatever the initial guess and the number of iterations. -/
theorem C37_fixed_point {lap : Bool} {n : Nat} {cfg : RegConfig} {x z yInit : Arr2 ℂ} (h : FitSetup lap n cfg x z yInit)
    (hl : 0 ≤ cfg.lam) (hid : Spec.Identifiable lap n cfg.prior cfg.lam x) {Y : Arr2 ℂ} (hsq : Spec.IsSquare n Y)
    (hadm : Spec.Admissible lap Y) (hz : x.matmul Y = .ok z)
    (hpr : ∀ t ∈ Spec.terms cfg.prior, t.resid cfg.prior.n (Spec.params lap n Y) = 0)
    {solve : Solver} (hex : Spec.Exact solve) (htot : Spec.Total solve) (hk : 0 < cfg.maxIter) :
    ∃ obj, bayesianFit solve cfg RegObj.fresh x z yInit = (.ok (), obj) ∧ obj.admittance = some Y ∧
      obj.iterations ≠ [] ∧ ∀ e ∈ obj.iterations, e.params = Y := by
  obtain ⟨dt, A, y0, s, hdt, hA, hAs, hst, hsy, hY0, hf⟩ := setup_ok h solve
  have hstep : ∀ s, (∃ y, StateAt cfg.prior (nReal lap n) y s) → ∃ s' t,
      regStep solve cfg n dt A (makeRealVector (vectorizeMatrix z)) s = .ok (s', t) ∧
      (∃ y, StateAt cfg.prior (nReal lap n) y s') ∧ s'.yMat = Y := by
    rintro s ⟨y, hs⟩
    obtain ⟨y', s', t, h1, h2, h3⟩ := fixed_step h hl hid hsq hadm hz hpr hex htot hdt hA hs
    exact ⟨s', t, h1, ⟨y', h2⟩, h3⟩
  rw [hf]
  generalize hr : fitLoop cfg (regStep solve cfg n dt A (makeRealVector (vectorizeMatrix z))) cfg.maxIter 0 s
    RegObj.fresh.iterations = r
  obtain ⟨rs, log'⟩ := r
  obtain ⟨run, h1, h2, h3, h4, h5⟩ := fitLoop_spec cfg _ cfg.maxIter 0 s [] log' rs rfl hr
  rw [List.nil_append] at h3
  subst h3
  obtain ⟨g1, g2⟩ := fixed_run hstep run s ⟨y0, hst⟩ h1
  cases rs with
  | error e =>
    obtain ⟨s', t, h6, _⟩ := hstep _ g1
    rw [h5.2.1] at h6; cases h6
  | ok s' =>
    obtain ⟨h6, h7⟩ := h5
    have hne : run ≠ [] := by
      rintro rfl
      exact (h7 hk).1 rfl
    obtain ⟨q, hq, hq2⟩ := lastState_getLast s run hne
    refine ⟨_, rfl, ?_, ?_, ?_⟩
    · show some s'.yMat = some Y
      rw [h6, hq2, g2 q (List.mem_of_getLast? hq)]
    · intro h0
      have : (Spec.entries 0 run).length = 0 := by
        show (Spec.entries 0 run).length = 0
        rw [show Spec.entries 0 run = [] from h0]; rfl
      rw [entries_length] at this
      exact hne (List.length_eq_zero_iff.1 this)
    · intro e he
      obtain ⟨i, hi⟩ := List.mem_iff_getElem?.1 he
      rw [show ({ iterations := Spec.entries 0 run, admittance := some s'.yMat } : RegObj).iterations = Spec.entries 0 run from rfl,
        entries_get] at hi
      cases hri : run[i]? with
      | none => rw [hri] at hi; cases hi
      | some q =>
        rw [hri] at hi
        cases hi
        exact g2 q (List.mem_of_getElem? hri)

/-- full column rank of the voltages is enough for identifiability -/
theorem identifiable_of_full_rank (lap : Bool) (n : Nat) (p : Prior) (lam : ℝ) (x : Arr2 ℂ) (hx : x.c = n)
    (hrank : ∀ v : List ℂ, v.length = n → x.mulVec v = .ok (List.replicate x.r 0) → v = List.replicate n 0) :
    Spec.Identifiable lap n p lam x := by
  intro V hsq _ hV _
  refine Arr2.ext' hsq.1 hsq.2 ?_
  intro i j hi hj
  rw [hsq.1] at hi
  rw [hsq.2] at hj
  have hcol := hrank ((List.range n).map (fun k => V.get k j)) (by simp) (by
    unfold Arr2.mulVec
    rw [if_pos (by simp [hx])]
    congr 1
    rw [List.eq_replicate_iff]
    refine ⟨by simp, ?_⟩
    intro q hq
    obtain ⟨a, ha, rfl⟩ := List.mem_map.1 hq
    have ha := List.mem_range.1 ha
    rw [Arr2.matmul_ok x V (by rw [hx, hsq.1])] at hV
    have hg := congrArg (fun M : Arr2 ℂ => M.get a j) (Except.ok.inj hV)
    rw [Arr2.ofFn_get _ ha (by rw [hsq.2]; exact hj), Arr2.zeros, Arr2.ofFn_get _ ha hj] at hg
    refine Eq.trans ?_ hg
    unfold Arr2.mulGet
    apply Finset.sum_congr rfl
    intro k hk
    rw [getD_map_range _ _ _ (by rw [← hx]; exact Finset.mem_range.1 hk)])
  have := congrArg (fun l : List ℂ => l.getD i 0) hcol
  rw [getD_map_range _ _ _ hi] at this
  rw [this, Arr2.zeros, Arr2.ofFn_get _ hi hj, List.getD_eq_getElem?_getD]
  simp [hi]

end
end Verif
