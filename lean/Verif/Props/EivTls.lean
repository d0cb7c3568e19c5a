/-
C156: the errors-in-variables fit and the total least squares estimate: with weight one on every measurement no logged target is below
the optimum of total least squares, only its estimate reaches it, and a fit without penalty started there stays there.
-/
import Verif.Props.EivUnit
import Verif.Props.TlsOptimal
import Verif.Props.Stop
import Verif.Props.EivExact

namespace Verif
open Finset Matrix
noncomputable section

/-- `r` is the smallest size of a correction that makes the data consistent -/
def Spec.TlsSize (x z : Arr2 ℂ) (r : ℝ) : Prop :=
  (∃ dx dz Y, Spec.Corrects x z dx dz Y ∧ Spec.correctionSize x z dx dz = r) ∧
  ∀ dx dz Y, Spec.Corrects x z dx dz Y → r ≤ Spec.correctionSize x z dx dz

/-- a matrix and a correction of the voltages make the data consistent at the cost of the objective -/
theorem cost_corrects {x z : Arr2 ℂ} (Y : Arr2 ℂ) {D : Arr2 ℂ} {n : Nat} (hx : x.c = n) (hz : z.r = x.r ∧ z.c = n) (hD : D.r = x.r ∧ D.c = n) :
    ∃ dx dz, Spec.Corrects x z dx dz Y ∧ Spec.correctionSize x z dx dz =
      Spec.eivCost (Spec.unitWeights (2 * (n * x.r))) (Spec.unitWeights (2 * (n * x.r))) x z Y D := by
  subst hx
  refine ⟨Arr2.ofFn x.r x.c (fun i j => -D.get i j),
    Arr2.ofFn x.r x.c (fun i j => -(z.get i j - ∑ k ∈ range x.c, (x.get i k - D.get i k) * Y.get k j)), ?_, ?_⟩
  · intro t ht j hj
    rw [hz.2] at hj
    rw [Arr2.ofFn_get (c := x.c) _ ht hj, neg_sub, add_sub_cancel]
    refine Finset.sum_congr rfl fun k hk => ?_
    rw [Arr2.ofFn_get _ ht (Finset.mem_range.1 hk), ← sub_eq_add_neg]
  · rw [eivCost_unit hz hD, Finset.sum_comm]
    unfold Spec.correctionSize
    refine Finset.sum_congr rfl fun t ht => ?_
    rw [hz.2, ← Finset.sum_add_distrib]
    refine Finset.sum_congr rfl fun j hj => ?_
    have ht := Finset.mem_range.1 ht
    have hj := Finset.mem_range.1 hj
    rw [Arr2.ofFn_get _ ht hj, Arr2.ofFn_get _ ht hj, Complex.normSq_neg, Complex.normSq_neg, add_comm]

/-- conversely the correction of the voltages of any consistent correction costs its size -/
theorem corrects_cost {x z Y dx dz : Arr2 ℂ} {n : Nat} (hx : x.c = n) (hz : z.r = x.r ∧ z.c = n) (h : Spec.Corrects x z dx dz Y) :
    ∃ D : Arr2 ℂ, (D.r = x.r ∧ D.c = n) ∧ Spec.eivCost (Spec.unitWeights (2 * (n * x.r))) (Spec.unitWeights (2 * (n * x.r))) x z Y D =
      Spec.correctionSize x z dx dz := by
  subst hx
  refine ⟨Arr2.ofFn x.r x.c (fun i j => -dx.get i j), ⟨rfl, rfl⟩, ?_⟩
  rw [eivCost_unit (D := Arr2.ofFn x.r x.c (fun i j => -dx.get i j)) hz ⟨rfl, rfl⟩, Finset.sum_comm]
  unfold Spec.correctionSize
  refine Finset.sum_congr rfl fun t ht => ?_
  rw [hz.2, ← Finset.sum_add_distrib]
  refine Finset.sum_congr rfl fun j hj => ?_
  have ht := Finset.mem_range.1 ht
  have hj := Finset.mem_range.1 hj
  have e := h t ht j (by rw [hz.2]; exact hj)
  have e2 : ∑ k ∈ range x.c, (x.get t k - (Arr2.ofFn x.r x.c (fun i j => -dx.get i j)).get t k) * Y.get k j = z.get t j + dz.get t j := by
    rw [← e]
    refine Finset.sum_congr rfl fun k hk => ?_
    rw [Arr2.ofFn_get _ ht (Finset.mem_range.1 hk), sub_neg_eq_add]
  rw [e2, Arr2.ofFn_get _ ht hj, Complex.normSq_neg, sub_add_cancel_left, Complex.normSq_neg, add_comm]

theorem tlsSize_exists {x z Y : Arr2 ℂ} (h : Spec.SolvesTls x z Y) : ∃ r, Spec.TlsSize x z r ∧
    ∃ dx dz, Spec.Corrects x z dx dz Y ∧ Spec.correctionSize x z dx dz = r := by
  obtain ⟨dx, dz, h1, h2⟩ := h
  exact ⟨_, ⟨⟨dx, dz, Y, h1, rfl⟩, h2⟩, dx, dz, h1, rfl⟩

theorem eivTrace_shape {lap : Bool} {n : Nat} {cfg : RegConfig} {xW zW : Arr2 ℝ} {x z : Arr2 ℂ} (log : List IterationStatus)
    (Y : Arr2 ℂ) (Ds : List (Arr2 ℂ)) (h : Spec.EivTrace lap n cfg xW zW x z Y log Ds) (i : ℕ) (D : Arr2 ℂ)
    (hD : Ds[i]? = some D) : D.r = x.r ∧ D.c = x.c := by
  induction log generalizing Y Ds i with
  | nil =>
    cases Ds with
    | nil => simp at hD
    | cons => exact absurd h (by simp [Spec.EivTrace])
  | cons a l ih =>
    cases Ds with
    | nil => exact absurd h (by simp [Spec.EivTrace])
    | cons D' Ds =>
      obtain ⟨h1, h2, _, _, h5⟩ := h
      cases i with
      | zero =>
        simp only [List.getElem?_cons_zero, Option.some.injEq] at hD
        subst hD
        exact ⟨h1, h2⟩
      | succ i => exact ih _ _ h5 i hD

/-- C156: no target logged by the fit with weight one on every measurement is below the optimum of total least squares, and a matrix
whose logged target equals it solves the total least squares problem. -/
theorem C156_bound {lap : Bool} {n : Nat} {cfg : RegConfig} {x z yInit : Arr2 ℂ} (h : FitSetup lap n cfg x z yInit)
    (hl : 0 ≤ cfg.lam) (hsym : Spec.IsSymm yInit) {solve : Solver} (hex : Spec.Exact solve)
    {inv : Arr2 ℂ → Except PyErr (Arr2 ℂ)} {res : Except PyErr Unit} {obj : RegObj}
    (hfit : eivFit solve inv cfg RegObj.fresh x z (some (Spec.unitWeights (2 * (n * x.r)))) (some (Spec.unitWeights (2 * (n * x.r))))
      yInit = (res, obj)) {r : ℝ} (hr : Spec.TlsSize x z r) :
    ∀ (i : Nat) (e : IterationStatus), obj.iterations[i]? = some e → r ≤ e.target ∧ (e.target = r → Spec.SolvesTls x z e.params) := by
  intro i e he
  have hW := unit_posDef (2 * (n * x.r))
  obtain ⟨Ds, htr⟩ := C39_fit_partial h hl hsym hW.1 hW.1 hex (show eivBody solve inv cfg RegObj.fresh x z
    (some (Spec.unitWeights (2 * (n * x.r)))) (some (Spec.unitWeights (2 * (n * x.r)))) yInit = (res, obj) from hfit)
  obtain ⟨D, hD, ht⟩ := eivTrace_get _ _ _ htr i e he
  have hshape := eivTrace_shape _ _ _ htr i D hD
  obtain ⟨dx, dz, c1, c2⟩ := cost_corrects e.params h.xc h.zs ⟨hshape.1, hshape.2.trans h.xc⟩
  have hpen : 0 ≤ cfg.lam * ((Spec.terms cfg.prior).map
      (fun q => q.scale (nReal lap n) cfg.prior.alpha (Spec.params lap n e.params))).sum :=
    mul_nonneg hl (List.sum_nonneg fun a ha => by
      obtain ⟨q, -, rfl⟩ := List.mem_map.1 ha
      exact (scale_pos _ h.alpha _ _).le)
  have hrs := hr.2 dx dz e.params c1
  have hcost : r ≤ Spec.eivCost (Spec.unitWeights (2 * (n * x.r))) (Spec.unitWeights (2 * (n * x.r))) x z e.params D := by rwa [← c2]
  have h0 : 0 ≤ Spec.eivCost (Spec.unitWeights (2 * (n * x.r))) (Spec.unitWeights (2 * (n * x.r))) x z e.params D :=
    add_nonneg (hW.1.psd _) (hW.1.psd _)
  rw [abs_of_nonneg (by linarith)] at ht
  refine ⟨by linarith, fun heq => ⟨dx, dz, c1, fun dx' dz' Y' hc' => ?_⟩⟩
  have := hr.2 dx' dz' Y' hc'
  linarith

/-- a weighted iteration with unit weights from the only total least squares matrix returns it -/
theorem tls_step {lap : Bool} {n : Nat} {cfg : RegConfig} {x z yInit : Arr2 ℂ} (h : FitSetup lap n cfg x z yInit)
    (hl : cfg.lam = 0) {Y : Arr2 ℂ} (hsq : Spec.IsSquare n Y) (hadm : Spec.Admissible lap Y) (hY : Spec.SolvesTls x z Y)
    (huniq : ∀ Y', Spec.IsSquare n Y' → Spec.SolvesTls x z Y' → Y' = Y) {solve : Solver}
    (hex : Spec.Exact solve) (htot : Spec.Total solve) {dt : Arr2 ℂ} (hdt : dtMatrix ℂ lap n = .ok dt) {A : Arr2 ℝ}
    (hA : regressionMatrix n x dt = .ok A) {y : List ℝ} {s : FitState} (hs : StateAt cfg.prior (nReal lap n) y s)
    (hsy : s.yMat = Y) : ∃ s' t y', eivWeightedStep solve cfg x dt A (Spec.stackReal x) (Spec.stackReal z)
        (Spec.unitWeights (2 * (n * x.r))) (Spec.unitWeights (2 * (n * x.r))) s = .ok (s', t) ∧
      StateAt cfg.prior (nReal lap n) y' s' ∧ s'.yMat = Y := by
  have hW := unit_posDef (2 * (n * x.r))
  -- costs at an optimal correction
  have hopt : ∀ D : Arr2 ℂ, D.r = x.r → D.c = n → (∀ D' : Arr2 ℂ, D'.r = x.r → D'.c = n →
      Spec.eivCost (Spec.unitWeights (2 * (n * x.r))) (Spec.unitWeights (2 * (n * x.r))) x z Y D ≤
        Spec.eivCost (Spec.unitWeights (2 * (n * x.r))) (Spec.unitWeights (2 * (n * x.r))) x z Y D') →
      ∀ V, Spec.IsSquare n V → Spec.eivCost (Spec.unitWeights (2 * (n * x.r))) (Spec.unitWeights (2 * (n * x.r))) x z V D ≤
        Spec.eivCost (Spec.unitWeights (2 * (n * x.r))) (Spec.unitWeights (2 * (n * x.r))) x z Y D → V = Y := by
    intro D hDr hDc hmin V hV hle
    obtain ⟨dx, dz, c1, c2⟩ := hY
    obtain ⟨D', ⟨d1, d2⟩, d3⟩ := corrects_cost h.xc h.zs c1
    obtain ⟨dx', dz', e1, e2⟩ := cost_corrects V h.xc h.zs ⟨hDr, hDc⟩
    refine huniq V hV ⟨dx', dz', e1, fun dx2 dz2 Y2 h2 => ?_⟩
    have h3 := c2 dx2 dz2 Y2 h2
    have h4 := hmin D' d1 d2
    rw [d3] at h4
    rw [e2]
    exact hle.trans (h4.trans h3)
  obtain ⟨s', t, y', hst, hs'⟩ := eivStep_total_of h hl.ge hW hW.1 hex htot hdt hA hs (by rw [hsy]; exact hsq) (by
    intro D v V hDr hDc hc hv hV h0 _
    rw [hsy] at hc
    obtain ⟨D2, r2, c2, e2, _, hmin⟩ := correction_min hex h.xc h.zs hsq hadm.1 hW.1 hW.1 hc
    have hDD : D = D2 := vec_inj (hDr.trans r2.symm) (hDc.trans c2.symm) (makeRealVector_inj (by
      rw [stackReal_eq, stackReal_eq, e2]))
    subst hDD
    have hVs := (toMatrix_admissible lap n hdt hV).1
    have h1 := hW.2 _ (by rw [stackReal_length]; rfl) h0
    have h1 := stackReal_zero_inv (D := Spec.residual x (Arr2.zeros x.r n) V D) h1
    have hsum : ∀ i j, i < x.r → j < n → ∑ k ∈ range x.c, (x.get i k - D.get i k) * V.get k j = 0 := by
      intro i j hi hj
      have := congrArg (fun M : Arr2 ℂ => M.get i j) h1
      simp only [zeros_get] at this
      unfold Spec.residual at this
      rw [Arr2.ofFn_get (r := (Arr2.zeros x.r n).r) (c := (Arr2.zeros x.r n).c) _ hi hj, zeros_get, zero_sub, neg_eq_zero] at this
      exact this
    have hadd := hopt D hDr hDc hmin (Arr2.ofFn n n fun i j => Y.get i j + V.get i j) ⟨rfl, rfl⟩ (by
      rw [eivCost_unit h.zs ⟨hDr, hDc⟩, eivCost_unit h.zs ⟨hDr, hDc⟩]
      refine le_of_eq (Finset.sum_congr rfl fun j hj => Finset.sum_congr rfl fun i hi => ?_)
      have hj := Finset.mem_range.1 hj
      have hi := Finset.mem_range.1 hi
      have : ∑ k ∈ range x.c, (x.get i k - D.get i k) * (Arr2.ofFn n n fun i j => Y.get i j + V.get i j).get k j =
          ∑ k ∈ range x.c, (x.get i k - D.get i k) * Y.get k j := by
        rw [← add_zero (∑ k ∈ range x.c, (x.get i k - D.get i k) * Y.get k j), ← hsum i j hi hj, ← Finset.sum_add_distrib]
        refine Finset.sum_congr rfl fun k hk => ?_
        have hk := Finset.mem_range.1 hk
        rw [h.xc] at hk
        rw [Arr2.ofFn_get _ hk hj, mul_add]
      rw [this])
    have hV0 : V = Arr2.zeros n n := by
      refine Arr2.ext' hVs.1 hVs.2 fun i j hi hj => ?_
      have hi : i < n := by rw [hVs.1] at hi; exact hi
      have hj : j < n := by rw [hVs.2] at hj; exact hj
      have := congrArg (fun M : Arr2 ℂ => M.get i j) hadd
      rw [Arr2.ofFn_get _ hi hj] at this
      rw [zeros_get]
      exact left_eq_add.1 this.symm
    subst hV0
    have hp := params_of_toMatrix lap n hdt hv hV
    refine List.eq_replicate_iff.2 ⟨hv, fun b hb => ?_⟩
    rw [← hp] at hb
    obtain ⟨idx, sg, _, hpe⟩ := params_idx lap n
    rw [hpe] at hb
    simp only [zeros_get, Complex.zero_re, Complex.zero_im, mul_zero, List.mem_append, List.mem_map] at hb
    rcases hb with ⟨_, _, rfl⟩ | ⟨_, _, rfl⟩ <;> rfl)
  refine ⟨s', t, y', hst, hs', ?_⟩
  obtain ⟨D, y2, hDr, hDc, hDmin, hs2, hY2, _, hmin⟩ := eivStep_at h hl.ge hW.1 hW.1 hex hdt hA hs (by rw [hsy]; exact hsq)
    (by rw [hsy]; exact hadm.1) hst
  rw [hsy] at hDmin
  obtain ⟨v, hv, hvY⟩ : ∃ v, v.length = nReal lap n ∧ toMatrix n dt v = .ok Y := by
    obtain ⟨e, he, _⟩ := e_closed (α := ℂ) lap n
    obtain ⟨v, _, hv, hvY⟩ := toParams_ok lap n hdt he hsq
    exact ⟨v, hv, hvY hadm⟩
  have h1 := hmin v Y hv hvY
  rw [hl, zero_mul, zero_mul, add_zero, add_zero] at h1
  exact hopt D hDr hDc hDmin _ (toMatrix_admissible lap n hdt hY2).1 h1

/-- a loop whose steps keep a matrix logs and returns it -/
theorem finish_stays {cfg : RegConfig} {step : FitState → Except PyErr (FitState × ℝ)} {Good : FitState → Prop} {Y : Arr2 ℂ}
    (hstep : ∀ s, Good s ∧ s.yMat = Y → ∃ s' t, step s = .ok (s', t) ∧ (Good s' ∧ s'.yMat = Y) ∧ s'.yMat = Y) {k : Nat} {s : FitState}
    (hs : Good s ∧ s.yMat = Y) :
    ∃ obj, finishFit RegObj.fresh (fitLoop cfg step k 0 s RegObj.fresh.iterations) = (.ok (), obj) ∧ obj.admittance = some Y ∧
      ∀ e ∈ obj.iterations, e.params = Y := by
  have hf : RegObj.fresh.iterations = [] := rfl
  rw [hf]
  generalize hr : fitLoop cfg step k 0 s [] = q
  obtain ⟨rs, log'⟩ := q
  obtain ⟨run, h1, h2, h3, h4, h5⟩ := fitLoop_spec cfg _ k 0 s [] log' rs rfl hr
  obtain ⟨g1, g2⟩ := fixed_run hstep run s hs h1
  cases rs with
  | error e =>
    exfalso
    obtain ⟨s', t, h6, _⟩ := hstep _ g1
    rw [h5.2.1] at h6; cases h6
  | ok s' =>
    refine ⟨_, rfl, ?_, fun e he => ?_⟩
    · show some s'.yMat = _
      rw [← g1.2, h5.1]
    · rw [show (⟨log', some s'.yMat⟩ : RegObj).iterations = log' from rfl, h3, List.nil_append] at he
      obtain ⟨i, hi⟩ := List.mem_iff_getElem?.1 he
      rw [entries_get] at hi
      obtain ⟨q, hq, rfl⟩ := Option.map_eq_some_iff.1 hi
      exact g2 q (List.mem_of_getElem? hq)

/-- C156: where the total least squares estimate is unique and admissible, the errors-in-variables fit without penalty that starts at it
returns it and logs nothing else, with weight one on every measurement and without weights, whatever the tolerances. -/
theorem C156_stays {lap : Bool} {n : Nat} {cfg : RegConfig} {x z Y : Arr2 ℂ} (h : FitSetup lap n cfg x z Y)
    (hl : cfg.lam = 0) (hadm : Spec.Admissible lap Y) {svdVh tinv : Arr2 ℂ → Except PyErr (Arr2 ℂ)} (hsvd : Spec.SvdContract svdVh)
    (htinv : Spec.InvSound tinv) (htls : tlsFit svdVh tinv x z = .ok Y) {xz : Arr2 ℂ} (hxz : hstack x z = .ok xz)
    (hgap : Spec.SingularGap xz x.c) {solve : Solver} (hex : Spec.Exact solve) (htot : Spec.Total solve)
    {inv : Arr2 ℂ → Except PyErr (Arr2 ℂ)} :
    (∃ obj, eivFit solve inv cfg RegObj.fresh x z (some (Spec.unitWeights (2 * (n * x.r)))) (some (Spec.unitWeights (2 * (n * x.r)))) Y =
      (.ok (), obj) ∧ obj.admittance = some Y ∧ ∀ e ∈ obj.iterations, e.params = Y) ∧
    (Spec.InvContract inv → ∀ xW zW, xW = none ∨ zW = none → ∃ obj, eivFit solve inv cfg RegObj.fresh x z xW zW Y =
      (.ok (), obj) ∧ obj.admittance = some Y ∧ ∀ e ∈ obj.iterations, e.params = Y) := by
  have hsq := h.init
  have hY := (C142 hsvd htinv htls).2
  have huniq : ∀ Y', Spec.IsSquare n Y' → Spec.SolvesTls x z Y' → Y' = Y := fun Y' hs' hY' =>
    C142_unique hsvd htinv htls hxz hgap ⟨hs'.1.trans h.xc.symm, hs'.2.trans h.zs.2.symm⟩ hY'
  obtain ⟨dt, A, y0, s, hdt, hA, hst, hsy, hY0, hf, hfu⟩ := eivSetup_ok h solve inv
  have hstep : ∀ s, ((∃ y, StateAt cfg.prior (nReal lap n) y s) ∧ s.yMat = Y) → ∃ s' t,
      eivWeightedStep solve cfg x dt A (Spec.stackReal x) (Spec.stackReal z) (Spec.unitWeights (2 * (n * x.r)))
        (Spec.unitWeights (2 * (n * x.r))) s = .ok (s', t) ∧
      ((∃ y, StateAt cfg.prior (nReal lap n) y s') ∧ s'.yMat = Y) ∧ s'.yMat = Y := by
    rintro s ⟨⟨y, hs⟩, hsy⟩
    obtain ⟨s', t, y', h6, h7, h8⟩ := tls_step h hl hsq hadm hY huniq hex htot hdt hA hs hsy
    exact ⟨s', t, h6, ⟨⟨y', h7⟩, h8⟩, h8⟩
  refine ⟨?_, fun hinv xW zW hw => ?_⟩
  · show ∃ obj, eivBody solve inv cfg RegObj.fresh x z (some _) (some _) Y = (.ok (), obj) ∧ _
    rw [hf]
    exact finish_stays hstep ⟨⟨y0, hst⟩, hsy⟩
  · obtain ⟨xW', zW', hw', he⟩ := eivFit_unweighted solve inv cfg RegObj.fresh x z hw Y
    rw [he, hfu _ _ _ hw']
    refine finish_stays (Good := fun s => ∃ y, StateAt cfg.prior (nReal lap n) y s) ?_ ⟨⟨y0, hst⟩, hsy⟩
    rintro s ⟨⟨y, hs⟩, hsy⟩
    obtain ⟨s', t, h6, h7⟩ := hstep s ⟨⟨y, hs⟩, hsy⟩
    have hu := unit_step h hex htot hinv hdt hA hs (by rw [hsy]; exact hsq) (by rw [hsy]; exact hadm.1)
    rw [h6] at hu
    generalize eivUnweightedStep solve inv cfg x z dt (Spec.stackReal z) s = q at hu
    cases q with
    | error e => cases hu
    | ok p =>
      obtain ⟨p1, p2⟩ := p
      cases hu
      exact ⟨_, _, rfl, h7⟩

/-! Concrete data: voltages 6, -4/5 and currents 8, 3/5 have the singular values 10 and 1. -/

def tlsX : Arr2 ℂ := Arr2.ofFn 2 1 fun i _ => if i = 0 then 6 else -4 / 5
def tlsZ : Arr2 ℂ := Arr2.ofFn 2 1 fun i _ => if i = 0 then 8 else 3 / 5

theorem tls_noisy : Spec.Noisy tlsX tlsZ (Arr2.ofFn 2 1 fun i _ => if i = 0 then 6 else 0) (Arr2.ofFn 2 1 fun i _ => if i = 0 then 8 else 0)
      (Arr2.ofFn 1 1 fun _ _ => 4 / 3) 1 ∧ Spec.AtLeast (Arr2.ofFn 2 1 fun i _ => if i = 0 then 6 else 0) 6 := by
  have g : ∀ (f : Nat → Nat → ℂ) (i j), i < 2 → j < 1 → (Arr2.ofFn 2 1 f).get i j = f i j := fun f i j hi hj => Arr2.ofFn_get f hi hj
  refine ⟨⟨?_, ⟨rfl, rfl⟩, ⟨rfl, rfl⟩, ?_⟩, ?_⟩
  · rw [Arr2.matmul_ok _ _ rfl]
    congr 1
    refine Arr2.ext' rfl rfl ?_
    intro i j hi hj
    have hi : i < 2 := hi
    have hj : j < 1 := hj
    refine (Arr2.ofFn_get (r := 2) (c := 1) _ hi hj).trans ((?_ : _ = _).trans (g _ i j hi hj).symm)
    have h1 : (Arr2.ofFn 1 1 fun _ _ => (4 / 3 : ℂ)).get 0 j = 4 / 3 := Arr2.ofFn_get _ (by norm_num) hj
    show ((Arr2.ofFn 2 1 fun i _ => if i = 0 then (6 : ℂ) else 0).mulGet _ i j) = _
    rw [Arr2.mulGet, show (Arr2.ofFn 2 1 fun i _ => if i = 0 then (6 : ℂ) else 0).c = 1 from rfl]
    simp only [Finset.sum_range_one]
    rw [h1, g _ i 0 hi (by norm_num)]
    split <;> norm_num
  · intro (a : Fin 1 → ℂ) (b : Fin 1 → ℂ)
    rw [one_mul]
    have e : ∀ i : Fin 2, ((tlsX.toMat 2 1 -
        (Arr2.ofFn 2 1 fun i _ => if i = 0 then (6 : ℂ) else 0).toMat 2 1).mulVec a +
        (tlsZ.toMat 2 1 -
        (Arr2.ofFn 2 1 fun i _ => if i = 0 then (8 : ℂ) else 0).toMat 2 1).mulVec b) i =
          if i = 0 then 0 else -4 / 5 * a 0 + 3 / 5 * b 0 := by
      intro i
      show ∑ k : Fin 1, ((Arr2.ofFn 2 1 _).get i k - (Arr2.ofFn 2 1 _).get i k) * a k +
        ∑ k : Fin 1, ((Arr2.ofFn 2 1 _).get i k - (Arr2.ofFn 2 1 _).get i k) * b k = _
      rw [Fin.sum_univ_one, Fin.sum_univ_one, g _ i _ i.2 (Fin.is_lt 0), g _ i _ i.2 (Fin.is_lt 0), g _ i _ i.2 (Fin.is_lt 0),
        g _ i _ i.2 (Fin.is_lt 0)]
      fin_cases i <;> simp
    have e2 := funext e
    refine le_trans (le_of_eq (congrArg Spec.len e2)) ?_
    show Spec.len (n := 2) (fun i => if i = 0 then 0 else -4 / 5 * a 0 + 3 / 5 * b 0) ≤ Spec.len (n := 1 + 1) (Fin.append a b)
    unfold Spec.len
    apply Real.sqrt_le_sqrt
    have hb : ∑ i, ‖Fin.append a b i‖ ^ 2 = ‖a 0‖ ^ 2 + ‖b 0‖ ^ 2 := by
      rw [Fin.sum_univ_add]
      simp only [Fin.append_left, Fin.append_right]
      exact congrArg₂ _ (Fin.sum_univ_one _) (Fin.sum_univ_one _)
    rw [hb, Fin.sum_univ_two]
    simp only [Fin.isValue, if_true, one_ne_zero, if_false, norm_zero]
    rw [← Complex.normSq_eq_norm_sq, ← Complex.normSq_eq_norm_sq, ← Complex.normSq_eq_norm_sq, Complex.normSq_apply, Complex.normSq_apply,
      Complex.normSq_apply]
    have r1 : (-4 / 5 * a 0 + 3 / 5 * b 0).re = -4 / 5 * (a 0).re + 3 / 5 * (b 0).re := by simp [Complex.add_re, Complex.mul_re]
    have r2 : (-4 / 5 * a 0 + 3 / 5 * b 0).im = -4 / 5 * (a 0).im + 3 / 5 * (b 0).im := by simp [Complex.add_im, Complex.mul_im]
    rw [r1, r2]
    nlinarith [sq_nonneg (3 / 5 * (a 0).re + 4 / 5 * (b 0).re), sq_nonneg (3 / 5 * (a 0).im + 4 / 5 * (b 0).im)]
  · intro (v : Fin 1 → ℂ)
    have e : ∀ i : Fin 2, ((Arr2.ofFn 2 1 fun i _ => if i = 0 then (6 : ℂ) else 0).toMat 2 1).mulVec v i =
        if i = 0 then 6 * v 0 else 0 := by
      intro i
      show ∑ k : Fin 1, (Arr2.ofFn 2 1 _).get i k * v k = _
      rw [Fin.sum_univ_one, g _ i _ i.2 (Fin.is_lt 0)]
      fin_cases i <;> simp
    refine le_trans ?_ (le_of_eq (congrArg Spec.len (funext e)).symm)
    show 6 * Spec.len (n := 1) v ≤ Spec.len (n := 2) (fun i => if i = 0 then 6 * v 0 else 0)
    unfold Spec.len
    have h1 : ∑ i, ‖v i‖ ^ 2 = ‖v 0‖ ^ 2 := Fin.sum_univ_one _
    rw [h1, Fin.sum_univ_two]
    simp only [Fin.isValue, if_true, one_ne_zero, if_false, norm_zero, norm_mul]
    rw [Real.sqrt_sq (norm_nonneg _)]
    apply Real.le_sqrt_of_sq_le
    norm_num [mul_pow]

theorem tls_gap : ∃ xz, hstack tlsX tlsZ = .ok xz ∧ Spec.SingularGap xz 1 := by
  refine ⟨_, if_pos rfl, ?_⟩
  refine ⟨1, Matrix.of fun (i j : Fin 2) => if i = 0 then (if j = 0 then 3 / 5 else 4 / 5) else (if j = 0 then -4 / 5 else 3 / 5),
    fun k => if k = 0 then 10 else 1, ?_, ?_, ?_, ?_, ?_, ?_⟩
  · rw [conjTranspose_one, Matrix.one_mul]
  · show (Matrix.of fun (i j : Fin 2) => if i = 0 then (if j = 0 then (3 / 5 : ℂ) else 4 / 5) else (if j = 0 then -4 / 5 else 3 / 5)) *
      (Matrix.of fun (i j : Fin 2) => if i = 0 then (if j = 0 then (3 / 5 : ℂ) else 4 / 5) else (if j = 0 then -4 / 5 else 3 / 5))ᴴ = 1
    ext i j
    rw [mul_apply, Fin.sum_univ_two]
    fin_cases i <;> fin_cases j <;> simp [Complex.ext_iff] <;> norm_num
  · intro k
    show 0 ≤ if k = 0 then (10 : ℝ) else 1
    split <;> norm_num
  · intro a b hab
    show (if b = 0 then (10 : ℝ) else 1) ≤ if a = 0 then 10 else 1
    split_ifs <;> first | omega | norm_num
  · have e : ∀ f : Nat → Nat → ℂ, f 0 0 = 6 → f 0 1 = 8 → f 1 0 = -4 / 5 → f 1 1 = 3 / 5 → (Arr2.ofFn 2 2 f).toMat 2 2 =
        (1 : Matrix (Fin 2) (Fin 2) ℂ) * (Matrix.of fun (i j : Fin 2) => if (i : ℕ) = j then ((if (i : ℕ) = 0 then (10 : ℝ) else 1 : ℝ) : ℂ) else 0) *
        (Matrix.of fun (i j : Fin 2) => if i = 0 then (if j = 0 then 3 / 5 else 4 / 5) else (if j = 0 then -4 / 5 else 3 / 5)) := by
      intro f h1 h2 h3 h4
      ext i j
      rw [Matrix.one_mul, mul_apply, Fin.sum_univ_two]
      simp only [Arr2.toMat, Arr2.ofFn_get', of_apply]
      fin_cases i <;> fin_cases j <;> simp [h1, h2, h3, h4] <;> norm_num
    refine e _ ?_ ?_ ?_ ?_ <;> simp [Arr2.ofFn_get', tlsX, tlsZ]
  · intro i hi
    obtain rfl : i = 0 := by omega
    show (if 1 < 2 then (if 1 = 0 then (10 : ℝ) else 1) else 0) < if 0 < 2 then (if 0 = 0 then 10 else 1) else 0
    norm_num

/-- the hypotheses of `C156_stays` and of `C156_bound` hold for these data; no matrix fits them exactly -/
theorem demo_C156 (K : Nat) : ∃ Y xz r, FitSetup false 1 { oneCfg K with lam := 0 } tlsX tlsZ Y ∧ Spec.Admissible false Y ∧
    tlsFit exactSvd exactInv tlsX tlsZ = .ok Y ∧ hstack tlsX tlsZ = .ok xz ∧ Spec.SingularGap xz tlsX.c ∧ Spec.TlsSize tlsX tlsZ r ∧ 0 < r := by
  obtain ⟨h1, h2⟩ := tls_noisy
  obtain ⟨Y, hY, hs, -⟩ := C117_tls exactSvd_contract exactInv_contract h1 h2 zero_le_one (by norm_num)
  obtain ⟨xz, hxz, hgap⟩ := tls_gap
  obtain ⟨hYs, hopt⟩ := C142 exactSvd_contract exactInv_sound hY
  obtain ⟨r, hr, -⟩ := tlsSize_exists hopt
  refine ⟨Y, xz, r, ⟨rfl, rfl, rfl, ⟨rfl, rfl⟩, hYs, (one_setup K 1 1).prior, (one_setup K 1 1).alpha⟩, ⟨?_, fun h => by cases h⟩, hY, hxz, hgap,
    hr, ?_⟩
  · rw [scalar_of_shape hYs.1 hYs.2]
    exact scalar_symm _
  · obtain ⟨dx, dz, Q, hc, rfl⟩ := hr.1
    have g : ∀ (f : Nat → Nat → ℂ) (i j), i < 2 → j < 1 → (Arr2.ofFn 2 1 f).get i j = f i j := fun f i j hi hj => Arr2.ofFn_get f hi hj
    have x0 : tlsX.get 0 0 = 6 := g _ 0 0 (by norm_num) (by norm_num)
    have x1 : tlsX.get 1 0 = -4 / 5 := g _ 1 0 (by norm_num) (by norm_num)
    have z0 : tlsZ.get 0 0 = 8 := g _ 0 0 (by norm_num) (by norm_num)
    have z1 : tlsZ.get 1 0 = 3 / 5 := g _ 1 0 (by norm_num) (by norm_num)
    have c0 := hc 0 (by decide) 0 (by decide)
    have c1 := hc 1 (by decide) 0 (by decide)
    rw [show tlsX.c = 1 from rfl, Finset.sum_range_one, x0, z0] at c0
    rw [show tlsX.c = 1 from rfl, Finset.sum_range_one, x1, z1] at c1
    have hsz : Spec.correctionSize tlsX tlsZ dx dz = Complex.normSq (dx.get 0 0) + Complex.normSq (dz.get 0 0) +
          (Complex.normSq (dx.get 1 0) + Complex.normSq (dz.get 1 0)) := by
      simp [Spec.correctionSize, Finset.sum_range_succ, show tlsX.r = 2 from rfl, show tlsX.c = 1 from rfl, show tlsZ.c = 1 from rfl]
    rw [hsz]
    by_contra hneg
    have n1 := Complex.normSq_nonneg (dx.get 0 0)
    have n2 := Complex.normSq_nonneg (dz.get 0 0)
    have n3 := Complex.normSq_nonneg (dx.get 1 0)
    have n4 := Complex.normSq_nonneg (dz.get 1 0)
    have e1 : dx.get 0 0 = 0 := Complex.normSq_eq_zero.1 (by linarith)
    have e2 : dz.get 0 0 = 0 := Complex.normSq_eq_zero.1 (by linarith)
    have e3 : dx.get 1 0 = 0 := Complex.normSq_eq_zero.1 (by linarith)
    have e4 : dz.get 1 0 = 0 := Complex.normSq_eq_zero.1 (by linarith)
    rw [e1, e2, add_zero, add_zero] at c0
    rw [e3, e4, add_zero, add_zero] at c1
    have q0 : Q.get 0 0 = 4 / 3 := by
      have : (6 : ℂ) ≠ 0 := by norm_num
      field_simp
      linear_combination c0 / 2
    rw [q0] at c1
    norm_num at c1

end
end Verif
