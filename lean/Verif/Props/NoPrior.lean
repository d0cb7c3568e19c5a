/-
C184: with a prior that sees every parameter the estimates of the error-in-variables iterations are bounded, without one they can grow
beyond every bound.
-/
import Verif.Props.ShortLog
import Verif.Props.EivConverge

namespace Verif
open Finset Filter Topology
noncomputable section

theorem shortNext_gt {y : ℝ} (hy : 0 < y) : y < shortNext y := by
  have h3 : (0 : ℝ) < 1 + 3 * y ^ 2 := by positivity
  rw [shortNext, lt_div_iff₀ h3]
  nlinarith

theorem shortNext_iter_pos {y : ℝ} (hy : 0 < y) (k : Nat) : 0 < shortNext^[k] y := by
  induction k with
  | zero => exact hy
  | succ k ih =>
    rw [Function.iterate_succ_apply']
    exact ih.trans (shortNext_gt ih)

theorem shortNext_mono {y : ℝ} (hy : 0 < y) : Monotone fun k => shortNext^[k] y :=
  monotone_nat_of_le_succ fun k => by
    rw [Function.iterate_succ_apply']
    exact (shortNext_gt (shortNext_iter_pos hy k)).le

theorem shortNext_continuous : Continuous shortNext := by
  unfold shortNext
  exact Continuous.div (by fun_prop) (by fun_prop) fun y => by positivity

theorem shortNext_diverges {y : ℝ} (hy : 0 < y) : Tendsto (fun k => shortNext^[k] y) atTop atTop := by
  rcases tendsto_of_monotone (shortNext_mono hy) with h | ⟨l, hl⟩
  · exact h
  · exfalso
    have h1 : Tendsto (fun k => shortNext^[k + 1] y) atTop (𝓝 l) := hl.comp (tendsto_add_atTop_nat 1)
    have h2 : Tendsto (fun k => shortNext^[k + 1] y) atTop (𝓝 (shortNext l)) := by
      simp only [Function.iterate_succ_apply']
      exact (shortNext_continuous.tendsto l).comp hl
    have hle : y ≤ l := ge_of_tendsto' hl fun k => shortNext_mono hy (Nat.zero_le k)
    exact shortNext_ne (by linarith : l ≠ 0) (tendsto_nhds_unique h2 h1)

/-- no iteration is stationary with tolerances that are not positive -/
theorem not_stationary {cfg : RegConfig} (ha : cfg.absTol ≤ 0) (hr : cfg.relTol ≤ 0) (c p : ℝ) : ¬ isStationary cfg c p := by
  rintro ⟨h | ⟨-, h⟩, -⟩
  · linarith [abs_nonneg (c - p)]
  · have : 0 ≤ |c - p| / |p| := by positivity
    linarith

theorem short_loop {cfg : RegConfig} {yInit : Arr2 ℂ} (h : FitSetup false 1 cfg shortX shortZ yInit) (hl : cfg.lam = 0)
    (ha : cfg.absTol ≤ 0) (hr : cfg.relTol ≤ 0) {solve : Solver}
    (hex : Spec.Exact solve) (htot : Spec.Total solve) {inv : Arr2 ℂ → Except PyErr (Arr2 ℂ)} (hinv : Spec.InvContract inv)
    {dt : Arr2 ℂ} (hdt : dtMatrix ℂ false 1 = .ok dt) (k : Nat) : ∀ (it : Nat) (s : FitState) (u : List ℝ) (y : ℝ)
      (log : List IterationStatus), StateAt cfg.prior (nReal false 1) u s → s.yMat = scalarArr (y : ℂ) → log.length = it →
      ∃ s' log', fitLoop cfg (eivUnweightedStep solve inv cfg shortX shortZ dt (Spec.stackReal shortZ)) k it s log = (.ok s', log') ∧
        s'.yMat = scalarArr ((shortNext^[k] y : ℝ) : ℂ) ∧ log'.length = it + k := by
  induction k with
  | zero => exact fun it s u y log _ hy hlen => ⟨s, log, rfl, hy, hlen⟩
  | succ k ih =>
    intro it s u y log hs hy hlen
    obtain ⟨s', u', e, g, m⟩ := short_step h hl hex htot hinv hdt hs hy
    obtain ⟨s2, log2, r1, r2, r3⟩ := ih (it + 1) s' u' (shortNext y) (log ++ [⟨it, s'.yMat, shortTarget y⟩]) g m (by simp [hlen])
    refine ⟨s2, log2, ?_, r2, by omega⟩
    rw [← r1]
    have hlt : it - 1 < (log ++ [(⟨it, s'.yMat, shortTarget y⟩ : IterationStatus)]).length := by simp; omega
    simp only [fitLoop, e, List.getElem?_eq_getElem hlt, if_neg (not_stationary ha hr _ _), ite_self]

/-- C184 is violated without a prior: with zero tolerances the estimate of `bayesian_eiv` without weights is a number that is as large as wanted
after enough iterations, from every positive initial guess, although the data have no linear relations. -/
theorem C184_violated {ext : NumExt} (hex : Spec.Exact ext.solve) (htot : Spec.Total ext.solve) (hinv : Spec.InvContract ext.inv) {cf : IdConf}
    (hl : cf.lambdaEiv = 0) (ha : cf.absTol ≤ 0) (hr : cf.relTol ≤ 0) {y : ℝ} (hy : 0 < y) (name : String) (vsd isd : SdPolar)
    (ratings : List ℝ) (pmu : Bool) (st : Store) : Spec.Unrelated shortX shortZ ∧
      ∀ b : ℝ, ∃ K0, ∀ K, K0 ≤ K → ∃ g : ℝ, ∃ log, b < g ∧ log.length = K ∧
        bayesianEiv ext cf name (some shortX) (some shortZ) vsd isd ratings (scalarArr (y : ℂ)) none false false K pmu st =
          (.ok (scalarArr (g : ℂ), log), st.savez (resultFile .bayesian name) (bayesianNpz (scalarArr (g : ℂ), log))) := by
  refine ⟨short_unrelated, fun b => ?_⟩
  obtain ⟨K0, hK⟩ := eventually_atTop.1 ((shortNext_diverges hy).eventually_gt_atTop b)
  refine ⟨K0 + 1, fun K hk => ⟨shortNext^[K] y, ?_⟩⟩
  obtain ⟨p, hp, hpa, hpu, -⟩ := eiv_prior cf 1 (scalarArr (y : ℂ)) ⟨rfl, rfl⟩ none false (fun _ h => nomatch h) (by simp)
  have h : FitSetup false 1 (regConfig cf p cf.lambdaEiv false K) shortX shortZ (scalarArr (y : ℂ)) :=
    ⟨rfl, rfl, rfl, ⟨rfl, rfl⟩, ⟨rfl, rfl⟩, hpu, hpa⟩
  obtain ⟨dt, A, y0, s, hdt, hA, hst, hsy, -, -, hf⟩ := eivSetup_ok h ext.solve ext.inv
  obtain ⟨s', log, r1, r2, r3⟩ := short_loop h hl ha hr hex htot hinv hdt K 0 s y0 y [] hst hsy rfl
  refine ⟨log, hK K (by omega), by omega, ?_⟩
  have ho : eivFit ext.solve ext.inv (regConfig cf p cf.lambdaEiv false K) .fresh shortX shortZ none none (scalarArr (y : ℂ)) =
      (.ok (), ⟨log, some s'.yMat⟩) := by
    show eivBody _ _ _ RegObj.fresh shortX shortZ none none _ = _
    rw [hf _ _ _ (.inl rfl)]
    show finishFit _ (fitLoop _ _ K 0 s []) = _
    rw [r1]
    rfl
  have hc : eivCompute ext cf p shortX shortZ vsd isd ratings (scalarArr (y : ℂ)) false false K pmu =
      .ok (scalarArr ((shortNext^[K] y : ℝ) : ℂ), log) := by
    simp only [eivCompute, eivWeights, Bool.false_and, Bool.false_eq_true, if_false, pure, Except.pure, Bind.bind, Except.bind, short_centred,
      ho, fitted, r2]
  have hK0 : decide (K > 0) = true := by simp; omega
  have hp : eivPrior cf shortX.c (scalarArr (y : ℂ)) none false = .ok p := hp
  simp only [bayesianEiv, hp, hK0, hc]

/-- C184 with a prior that sees every parameter: all runs of `bayesian_eiv` without weights and with zero tolerances, however many
iterations they make, have a common bound. -/
theorem C184_partial {ext : NumExt} {cf : IdConf} (hex : Spec.Exact ext.solve) (htot : Spec.Total ext.solve)
    (hinv : Spec.InvContract ext.inv) (hl : 0 < cf.lambdaEiv)
    (ha : cf.absTol ≤ 0) (hr : cf.relTol ≤ 0) {v i y0 : Arr2 ℂ} (hy0 : Spec.IsSquare v.c y0)
    (hsh : i.r = v.r ∧ i.c = v.c)
    (ye : Option (Arr2 ℂ)) (lap pmu : Bool) (hye : ∀ y, ye = some y → 29 ≤ v.c ∧ Spec.IsSquare v.c y ∧ lap = false)
    (h90 : ¬ (lap = true ∧ cf.contrastEachRow = true ∧ cf.regularizeDiag = true)) (hseen : Spec.LinesSeen v.c y0)
    (hdet : lap = true ∨ (cf.contrastEachRow = true ∧ cf.regularizeDiag = true ∧ cf.lambdaprime ≠ 0))
    (vsd isd : SdPolar) (ratings : List ℝ) (name : String) (st : Store) :
    ∃ B : ℝ, ∀ K, 0 < K → ∃ Y log,
      bayesianEiv ext cf name (some v) (some i) vsd isd ratings y0 ye lap false K pmu st =
        (.ok (Y, log), st.savez (resultFile .bayesian name) (bayesianNpz (Y, log))) ∧
      ∀ a b, a < v.c → b < v.c → ‖Y.get a b‖ ≤ B := by
  obtain ⟨prior, hpr, hpa, hpu, hps, hpo⟩ := eiv_prior cf v.c y0 hy0 ye lap hye h90
  obtain ⟨s1, s2, s3, s4⟩ := centreData_shape lap v i
  have hs : FitSetup lap v.c (regConfig cf prior cf.lambdaEiv lap 0) (centreData lap v i).1 (centreData lap v i).2 y0 :=
    ⟨rfl, rfl, s2, ⟨by rw [s3, s1, hsh.1], by rw [s4, hsh.2]⟩, hy0, hpu, hpa⟩
  have ho : ∀ t ∈ Spec.terms (regConfig cf prior cf.lambdaEiv lap 0).prior, t.order = 1 ∨ t.order = 2 := fun t ht => .inl (hpo t ht)
  have hsp := hps hseen hdet
  obtain ⟨M, hfit, -, -, B, hB⟩ := C155_fit hs hl ho hsp hex htot hinv (xW := none) (zW := none) (.inl rfl)
  refine ⟨B, fun K hK => ?_⟩
  obtain ⟨obj, ho, hoY⟩ := hfit K cf.absTol cf.relTol ha hr
  obtain ⟨k, rfl⟩ : ∃ k, K = k + 1 := ⟨K - 1, by omega⟩
  refine ⟨M (k + 1), obj.iterations, ?_, hB k⟩
  have ho : eivFit ext.solve ext.inv (regConfig cf prior cf.lambdaEiv lap (k + 1)) .fresh (centreData lap v i).1 (centreData lap v i).2
      none none y0 = (.ok (), obj) := ho
  have hc : eivCompute ext cf prior v i vsd isd ratings y0 lap false (k + 1) pmu = .ok (M (k + 1), obj.iterations) := by
    simp only [eivCompute, eivWeights, Bool.false_and, Bool.false_eq_true, if_false, pure, Except.pure, Bind.bind, Except.bind, ho, fitted,
      hoY]
  have hK0 : decide (k + 1 > 0) = true := by simp
  simp only [bayesianEiv, hpr, hK0, hc]

/-- on the same data `C184_partial` applies once the prior has a weight and the diagonal is regularised -/
example (st : Store) : ∃ B : ℝ, ∀ K, 0 < K → ∃ Y log, bayesianEiv ⟨exactPinv, exactSvd, exactInv, exactSolve⟩
      ⟨0, 1, 1, 0, 0, true, true, true⟩ "a" (some shortX) (some shortZ) ⟨1, 1⟩ ⟨1, 1⟩ [1] (scalarArr ((1 : ℝ) : ℂ)) none false false K true st =
      (.ok (Y, log), st.savez (resultFile .bayesian "a") (bayesianNpz (Y, log))) ∧ ∀ a b, a < 1 → b < 1 → ‖Y.get a b‖ ≤ B :=
  C184_partial (ext := ⟨exactPinv, exactSvd, exactInv, exactSolve⟩) (cf := ⟨0, 1, 1, 0, 0, true, true, true⟩) exactSolve_exact
    exactSolve_total exactInv_contract one_pos le_rfl le_rfl (v := shortX) (i := shortZ) (y0 := scalarArr ((1 : ℝ) : ℂ)) ⟨rfl, rfl⟩
    ⟨rfl, rfl⟩ none false true
    (fun _ h => nomatch h) (by simp) (fun e he => by
      have he : e ∈ Spec.offPairs 1 := he
      simp [Spec.offPairs] at he) (.inr ⟨rfl, rfl, one_ne_zero⟩) ⟨1, 1⟩ ⟨1, 1⟩ [1] "a" st

/-- `C184_violated` applies to exact routines and the initial guess one; the data are those of `C108_violated` -/
example (b : ℝ) (st : Store) : ∃ K0, ∀ K, K0 ≤ K → ∃ g : ℝ, ∃ log, b < g ∧ log.length = K ∧
    bayesianEiv ⟨exactPinv, exactSvd, exactInv, exactSolve⟩ ⟨0, 0, 1, 0, 0, true, true, false⟩ "a" (some shortX) (some shortZ) ⟨1, 1⟩ ⟨1, 1⟩
      [1] (scalarArr ((1 : ℝ) : ℂ)) none false false K true st =
      (.ok (scalarArr (g : ℂ), log), st.savez (resultFile .bayesian "a") (bayesianNpz (scalarArr (g : ℂ), log))) :=
  (C184_violated exactSolve_exact exactSolve_total exactInv_contract rfl le_rfl le_rfl one_pos "a" ⟨1, 1⟩ ⟨1, 1⟩ [1] true st).2 b

/-- C184 with weights and a prior that sees every parameter -/
theorem C184_weighted_partial {ext : NumExt} {cf : IdConf} (hex : Spec.Exact ext.solve) (htot : Spec.Total ext.solve) (hl : 0 < cf.lambdaEiv)
    (ha : cf.absTol ≤ 0) (hr : cf.relTol ≤ 0) {v i y0 : Arr2 ℂ} (hy0 : Spec.IsSquare v.c y0) (hsh : i.r = v.r ∧ i.c = v.c)
    (ye : Option (Arr2 ℂ)) (lap pmu : Bool) (hye : ∀ y, ye = some y → 29 ≤ v.c ∧ Spec.IsSquare v.c y ∧ lap = false)
    (h90 : ¬ (lap = true ∧ cf.contrastEachRow = true ∧ cf.regularizeDiag = true)) (hseen : Spec.LinesSeen v.c y0)
    (hdet : lap = true ∨ (cf.contrastEachRow = true ∧ cf.regularizeDiag = true ∧ cf.lambdaprime ≠ 0))
    (vsd isd : SdPolar) (ratings : List ℝ) (hn : v.c ≠ 1) (hm : 0 < vsd.m) (hp : 0 < vsd.p) (hrt : ratings ≠ [])
    (hv : pmu = false → ∀ t j, t < v.r → j < v.c → v.get t j ≠ 0) (name : String) (st : Store) :
    ∃ B : ℝ, ∀ K, 0 < K → ∃ Y log,
      bayesianEiv ext cf name (some v) (some i) vsd isd ratings y0 ye lap true K pmu st =
        (.ok (Y, log), st.savez (resultFile .bayesian name) (bayesianNpz (Y, log))) ∧
      ∀ a b, a < v.c → b < v.c → ‖Y.get a b‖ ≤ B := by
  obtain ⟨prior, hpr, hpa, hpu, hps, hpo⟩ := eiv_prior cf v.c y0 hy0 ye lap hye h90
  obtain ⟨cv, ci, W, wi, hw, h1, h2, hW⟩ := eivWeights_ok v i vsd isd ratings pmu hn hm hp hrt hsh hv
  obtain ⟨s1, s2, s3, s4⟩ := centreData_shape lap cv ci
  have hs : FitSetup lap v.c (regConfig cf prior cf.lambdaEiv lap 0) (centreData lap cv ci).1 (centreData lap cv ci).2 y0 :=
    ⟨rfl, rfl, by rw [s2, h1.2], ⟨by rw [s3, s1, h1.1, h2.1], by rw [s4, h2.2]⟩, hy0, hpu, hpa⟩
  rw [← h1.1, ← s1] at hW
  obtain ⟨M, hfit, -, ⟨B, hB⟩, -⟩ := C148_limits hs hl (fun t ht => .inl (hpo t ht)) (hps hseen hdet) hW hW.1 hex htot ext.inv
  refine ⟨B, fun K hK => ?_⟩
  obtain ⟨obj, ho, hoY⟩ := hfit K cf.absTol cf.relTol ha hr
  refine ⟨M K, obj.iterations, ?_, hB K⟩
  have ho : eivFit ext.solve ext.inv (regConfig cf prior cf.lambdaEiv lap K) .fresh (centreData lap cv ci).1 (centreData lap cv ci).2
      (some W) (some wi) y0 = (.ok (), obj) := ho
  have hc : eivCompute ext cf prior v i vsd isd ratings y0 lap true K pmu = .ok (M K, obj.iterations) := by
    simp only [eivCompute, hw, Bind.bind, Except.bind, ho, fitted, hoY]
  have hK0 : decide (K > 0) = true := by simp; omega
  simp only [bayesianEiv, hpr, hK0, hc]

/-- bounded runs of the three labels give bounded runs of `bayesian_eiv` of run3ph.py -/
theorem bounded3_of_labels {ext : NumExt} {cf : IdConf} {name : String} {v c : Arr2 ℂ} {ids : List Int} {vsd isd : SdPolar} {ratings : List ℝ}
    {y0 : Arr2 ℂ} {ye : Option (Arr2 ℂ)} {lap weighted pmu : Bool} (h0 : 0 ∈ ids) (hd : Spec.PhaseData ids v c ratings y0 ye)
    {m : Fin 3 → Nat} {f : Fin 3 → Nat → Nat} (hp : ∀ l : Fin 3, Spec.LabelPos ids (l.val : Int) (m l) (f l)) (st : Store)
    (h : ∀ l, ∃ B : ℝ, ∀ K, 0 < K → ∃ r, labelRun ext cf name v c vsd isd ratings y0 ye lap weighted K pmu (m l) (f l) st = .ok r ∧
      ∀ a b, a < m l → b < m l → ‖r.1.get a b‖ ≤ B) :
    ∃ B : ℝ, ∀ K, 0 < K → ∃ r, (bayesianEiv3 ext cf name v c ids vsd isd ratings y0 ye lap weighted K pmu st).res = .ok r ∧
      ∀ a b, a < ids.length → b < ids.length → ‖r.1.get a b‖ ≤ B := by
  choose B hB using h
  refine ⟨max 0 (max (B 0) (max (B 1) (B 2))), fun K hK => ?_⟩
  choose rs hrs hb using fun l => hB l K hK
  have hrs' : ∀ l st', labelRun ext cf name v c vsd isd ratings y0 ye lap weighted K pmu (m l) (f l) st' = .ok (rs l) := fun l st' => by
    rw [labelRun_const hK _ _ st' st]
    exact hrs l
  have hq := fun l => labelRun_square hK (hrs l)
  obtain ⟨-, -, a, -, -, -, -, -, hA⟩ := assemble hp (fun l => (hq l).1) rfl
  obtain ⟨log, -, hM⟩ := mergedLog_ok hp (logs := fun l => (rs l).2) fun l e he => ((hq l).2.2 e he).1
  have hr := (C52_bayesian hK h0 hd hp st (a, log)).1.2 ⟨rs, hrs', hA, hM⟩
  refine ⟨(a, log), hr, fun p q h1 h2 => ?_⟩
  have hBl : ∀ l, B l ≤ max 0 (max (B 0) (max (B 1) (B 2))) := by
    intro l
    fin_cases l
    · exact (le_max_left (B 0) _).trans (le_max_right _ _)
    · exact ((le_max_left (B 1) _).trans (le_max_right _ _)).trans (le_max_right _ _)
    · exact ((le_max_right _ (B 2)).trans (le_max_right _ _)).trans (le_max_right _ _)
  by_cases hpq : ids.getD p 0 = ids.getD q 0
  · by_cases hl : ∃ l : Fin 3, ids.getD p 0 = (l.val : Int)
    · obtain ⟨l, hl⟩ := hl
      obtain ⟨x, hx, rfl⟩ := (hp l).all p h1 hl
      obtain ⟨y, hy, rfl⟩ := (hp l).all q h2 (hpq.symm.trans hl)
      show ‖a.get (f l x) (f l y)‖ ≤ _
      rw [hA.block l x y hx hy]
      exact (hb l x y hx hy).trans (hBl l)
    · push Not at hl
      show ‖a.get p q‖ ≤ _
      rw [hA.other p q h1 h2 hl, norm_zero]
      exact le_max_left _ _
  · show ‖a.get p q‖ ≤ _
    rw [hA.cross p q h1 h2 hpq, norm_zero]
    exact le_max_left _ _

/-- C184 for three phases, without weights -/
theorem C184_three_partial {ext : NumExt} {cf : IdConf} (hex : Spec.Exact ext.solve) (htot : Spec.Total ext.solve)
    (hinv : Spec.InvContract ext.inv) (hl : 0 < cf.lambdaEiv) (ha : cf.absTol ≤ 0) (hr : cf.relTol ≤ 0) {v c y0 : Arr2 ℂ} {ids : List Int}
    {ratings : List ℝ} {ye : Option (Arr2 ℂ)} (h0 : 0 ∈ ids)
    (hd : Spec.PhaseData ids v c ratings y0 ye) (hrows : c.r = v.r) {m : Fin 3 → Nat} {f : Fin 3 → Nat → Nat}
    (hp : ∀ l : Fin 3, Spec.LabelPos ids (l.val : Int) (m l) (f l)) (lap pmu : Bool)
    (hye : ye ≠ none → (∀ l, 29 ≤ m l) ∧ lap = false)
    (h90 : ¬ (lap = true ∧ cf.contrastEachRow = true ∧ cf.regularizeDiag = true))
    (hseen : ∀ l, Spec.LinesSeen (m l) (Spec.blockAt y0 (m l) (f l)))
    (hdet : lap = true ∨ (cf.contrastEachRow = true ∧ cf.regularizeDiag = true ∧ cf.lambdaprime ≠ 0))
    (vsd isd : SdPolar) (name : String) (st : Store) :
    ∃ B : ℝ, ∀ K, 0 < K → ∃ r, (bayesianEiv3 ext cf name v c ids vsd isd ratings y0 ye lap false K pmu st).res = .ok r ∧
      ∀ a b, a < ids.length → b < ids.length → ‖r.1.get a b‖ ≤ B := by
  refine bounded3_of_labels h0 hd hp st fun l => ?_
  obtain ⟨B, hB⟩ := C184_partial hex htot hinv hl ha hr (v := Spec.columnsAt v (m l) (f l)) (i := Spec.columnsAt c (m l) (f l))
    (y0 := Spec.blockAt y0 (m l) (f l)) ⟨rfl, rfl⟩ ⟨hrows, rfl⟩ (ye.map (fun y => Spec.blockAt y (m l) (f l))) lap pmu
    (by
      intro y hy
      have hn : ye ≠ none := by rintro rfl; cases hy
      obtain ⟨y', -, rfl⟩ := Option.map_eq_some_iff.1 hy
      exact ⟨(hye hn).1 l, ⟨rfl, rfl⟩, (hye hn).2⟩) h90 (hseen l) hdet vsd isd (Spec.entriesAt ratings (m l) (f l)) name st
  refine ⟨B, fun K hK => ?_⟩
  obtain ⟨Y, log, g1, g2⟩ := hB K hK
  refine ⟨(Y, log), ?_, g2⟩
  unfold labelRun
  rw [g1]

/-- C184 for three phases, with weights -/
theorem C184_three_weighted_partial {ext : NumExt} {cf : IdConf} (hex : Spec.Exact ext.solve) (htot : Spec.Total ext.solve)
    (hl : 0 < cf.lambdaEiv) (ha : cf.absTol ≤ 0) (hr : cf.relTol ≤ 0) {v c y0 : Arr2 ℂ} {ids : List Int} {ratings : List ℝ}
    {ye : Option (Arr2 ℂ)} (h0 : 0 ∈ ids) (hd : Spec.PhaseData ids v c ratings y0 ye) (hrows : c.r = v.r) {m : Fin 3 → Nat}
    {f : Fin 3 → Nat → Nat} (hp : ∀ l : Fin 3, Spec.LabelPos ids (l.val : Int) (m l) (f l)) (hm : ∀ l, 2 ≤ m l) (lap pmu : Bool)
    (hye : ye ≠ none → (∀ l, 29 ≤ m l) ∧ lap = false)
    (h90 : ¬ (lap = true ∧ cf.contrastEachRow = true ∧ cf.regularizeDiag = true))
    (hseen : ∀ l, Spec.LinesSeen (m l) (Spec.blockAt y0 (m l) (f l)))
    (hdet : lap = true ∨ (cf.contrastEachRow = true ∧ cf.regularizeDiag = true ∧ cf.lambdaprime ≠ 0))
    (vsd isd : SdPolar) (hsm : 0 < vsd.m) (hsp : 0 < vsd.p) (hv : pmu = false → ∀ t j, t < v.r → j < v.c → v.get t j ≠ 0)
    (name : String) (st : Store) :
    ∃ B : ℝ, ∀ K, 0 < K → ∃ r, (bayesianEiv3 ext cf name v c ids vsd isd ratings y0 ye lap true K pmu st).res = .ok r ∧
      ∀ a b, a < ids.length → b < ids.length → ‖r.1.get a b‖ ≤ B := by
  refine bounded3_of_labels h0 hd hp st fun l => ?_
  have hne : Spec.entriesAt ratings (m l) (f l) ≠ [] := by
    intro e
    have := congrArg List.length e
    simp only [Spec.entriesAt, List.length_map, List.length_range, List.length_nil] at this
    have := hm l
    omega
  obtain ⟨B, hB⟩ := C184_weighted_partial hex htot hl ha hr (v := Spec.columnsAt v (m l) (f l)) (i := Spec.columnsAt c (m l) (f l))
    (y0 := Spec.blockAt y0 (m l) (f l)) ⟨rfl, rfl⟩ ⟨hrows, rfl⟩ (ye.map (fun y => Spec.blockAt y (m l) (f l))) lap pmu
    (by
      intro y hy
      have hn : ye ≠ none := by rintro rfl; cases hy
      obtain ⟨y', -, rfl⟩ := Option.map_eq_some_iff.1 hy
      exact ⟨(hye hn).1 l, ⟨rfl, rfl⟩, (hye hn).2⟩) h90 (hseen l) hdet vsd isd (Spec.entriesAt ratings (m l) (f l))
    (by have := hm l; show m l ≠ 1; omega) hsm hsp hne (by
      intro hpm t j ht hj
      have ht : t < v.r := ht
      have hj : j < m l := hj
      unfold Spec.columnsAt
      rw [Arr2.ofFn_get _ ht hj]
      exact hv hpm t _ ht (by rw [← hd.v]; exact (hp l).lt j hj)) name st
  refine ⟨B, fun K hK => ?_⟩
  obtain ⟨Y, log, g1, g2⟩ := hB K hK
  refine ⟨(Y, log), ?_, g2⟩
  unfold labelRun
  rw [g1]

/-- the weighted bound applies to two samples of two nodes -/
example (pmu : Bool) (st : Store) : ∃ B : ℝ, ∀ K, 0 < K → ∃ Y log, bayesianEiv ⟨exactPinv, exactSvd, exactInv, exactSolve⟩
      ⟨1, 1, 1, 0, 0, true, true, true⟩ "a" (some demoV126) (some demoV126) ⟨1, 1⟩ ⟨1, 1⟩ [1, 1] demoY126 none false true K pmu st =
      (.ok (Y, log), st.savez (resultFile .bayesian "a") (bayesianNpz (Y, log))) ∧ ∀ a b, a < 2 → b < 2 → ‖Y.get a b‖ ≤ B :=
  C184_weighted_partial (ext := ⟨exactPinv, exactSvd, exactInv, exactSolve⟩)
    (cf := ⟨1, 1, 1, 0, 0, true, true, true⟩) exactSolve_exact exactSolve_total one_pos le_rfl le_rfl (v := demoV126) (i := demoV126)
    (y0 := demoY126) ⟨rfl, rfl⟩ ⟨rfl, rfl⟩ none false pmu (fun y h => by cases h) (fun h => by cases h.1) demoY126_seen
    (.inr ⟨rfl, rfl, one_ne_zero⟩) ⟨1, 1⟩ ⟨1, 1⟩ [1, 1] (by decide) one_pos one_pos (by simp)
    (fun _ t j (ht : t < 2) (hj : j < 2) => by
        unfold demoV126
        rw [Arr2.ofFn_get _ ht hj]
        split <;> norm_num) "a" st

/-- the unweighted bound applies to two samples of two nodes on each sequence -/
example (pmu : Bool) (st : Store) : ∃ B : ℝ, ∀ K, 0 < K → ∃ r, (bayesianEiv3 ⟨exactPinv, exactSvd, exactInv, exactSolve⟩
      ⟨1, 1, 1, 0, 0, true, true, true⟩ "a" demoV150 demoV150 [0, 1, 2, 0, 1, 2] ⟨1, 1⟩ ⟨1, 1⟩ [1, 1, 1, 1, 1, 1] demoY150 none false false K
      pmu st).res = .ok r ∧ ∀ a b, a < 6 → b < 6 → ‖r.1.get a b‖ ≤ B :=
  C184_three_partial (ext := ⟨exactPinv, exactSvd, exactInv, exactSolve⟩) (cf := ⟨1, 1, 1, 0, 0, true, true, true⟩)
    exactSolve_exact exactSolve_total exactInv_contract one_pos le_rfl le_rfl (by simp) demo150_data
    rfl demo150_labels false pmu (fun h => absurd rfl h) (fun h => by cases h.1) demo150_seen (.inr ⟨rfl, rfl, one_ne_zero⟩)
    ⟨1, 1⟩ ⟨1, 1⟩ "a" st

/-- the weighted bound applies to two samples of two nodes on each sequence -/
example (pmu : Bool) (st : Store) : ∃ B : ℝ, ∀ K, 0 < K → ∃ r, (bayesianEiv3 ⟨exactPinv, exactSvd, exactInv, exactSolve⟩
      ⟨1, 1, 1, 0, 0, true, true, true⟩ "a" demoV150 demoV150 [0, 1, 2, 0, 1, 2] ⟨1, 1⟩ ⟨1, 1⟩ [1, 1, 1, 1, 1, 1] demoY150 none false true K
      pmu st).res = .ok r ∧ ∀ a b, a < 6 → b < 6 → ‖r.1.get a b‖ ≤ B :=
  C184_three_weighted_partial (ext := ⟨exactPinv, exactSvd, exactInv, exactSolve⟩) (cf := ⟨1, 1, 1, 0, 0, true, true, true⟩)
    exactSolve_exact exactSolve_total one_pos le_rfl le_rfl (by simp) demo150_data rfl
    demo150_labels (fun _ => le_rfl) false pmu (fun h => absurd rfl h) (fun h => by cases h.1) demo150_seen (.inr ⟨rfl, rfl, one_ne_zero⟩)
    ⟨1, 1⟩ ⟨1, 1⟩ one_pos one_pos (fun _ t j (ht : t < 2) (hj : j < 6) => by
        unfold demoV150 demoV126
        rw [Arr2.ofFn_get _ ht hj, Arr2.ofFn_get _ ht (by omega)]
        split <;> norm_num) "a" st

end
end Verif
