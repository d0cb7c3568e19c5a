/-
C166: the errors of lasso and Bayesian estimates of three-phase networks in sequence values.
-/
import Verif.Props.EivNoisyPlain
import Verif.Props.LassoNoisy
import Verif.Props.IdentifyRun3
import Verif.Props.PipelineDemo3

namespace Verif
open Finset Matrix
noncomputable section

/-- the initial guess of the Bayesian method -/
theorem guess_stage {ext : NumExt} {cf : IdConf} (hinv : Spec.InvContract ext.inv) (hsvd : Spec.SvdContract ext.svdVh) {v i : Arr2 ℂ}
    {lap : Bool} {K : Nat} {s : Arr2 ℂ × Arr2 ℂ × Arr2 ℂ} (hs : standardCompute ext cf v i lap K = .ok s) {g : Arr2 ℂ}
    (hg : halfSum s.2.1 = .ok g) (hcur : i.r = v.r ∧ i.c = v.c) {x0 z0 Y : Arr2 ℂ} (hY : Spec.IsSquare v.c Y) (hsym : Spec.IsSymm Y)
    (hz0 : x0.matmul Y = .ok z0) (hx0 : x0.r = v.r) {ε σ : ℝ} (hε : 0 ≤ ε)
    (hnoise : Spec.size (Spec.diff (centreData lap v i).1 x0) ^ 2 + Spec.size (Spec.diff (centreData lap v i).2 z0) ^ 2 ≤ ε ^ 2)
    (hσ : Spec.AtLeast x0 σ) (hεσ : 2 * ε < σ) :
    Spec.IsSquare v.c g ∧ Spec.IsSymm g ∧ Spec.size (Spec.diff g Y) ≤ Spec.guessError ε σ (Spec.size Y) v.c := by
  obtain ⟨s1, s2, s3, s4⟩ := centreData_shape lap v i
  obtain ⟨hxY, hzr, hzc, -⟩ := Arr2.matmul_inv hz0
  have hN := noisy_of_size hz0 ⟨by rw [s1, hx0], by rw [s2, hxY, hY.1]⟩ ⟨by rw [s3, hcur.1, hzr, hx0], by rw [s4, hcur.2, hzc, hY.2]⟩ hε hnoise
  obtain ⟨T, hT, hTs, hTe⟩ := C117_tls hsvd hinv hN hσ hε hεσ
  have hTr : s.2.1 = T := standard_tls hs hT
  have hTsq : Spec.IsSquare v.c T := ⟨hTs.1.trans hY.1, hTs.2.trans hY.2⟩
  rw [hTr] at hg
  obtain ⟨hsq, hsz⟩ := halfSum_size hTsq hY hsym hg
  exact ⟨hsq, (halfSum_symm hTsq hg).2, hsz.trans (errorBound_size hTsq hY (by linarith) (by linarith) hTe)⟩

/-- C162 for the computing branch of `bayesian_eiv` without weights -/
theorem C162_run {ext : NumExt} {cf : IdConf} (hinv : Spec.InvContract ext.inv) (hex : Spec.Exact ext.solve) (htot : Spec.Total ext.solve)
    (hl : 0 ≤ cf.lambdaEiv) {v i y0 : Arr2 ℂ} (hsq : Spec.IsSquare v.c y0) (hsy : Spec.IsSymm y0) (hcur : i.r = v.r ∧ i.c = v.c)
    {ye : Option (Arr2 ℂ)} {lap pmu : Bool} (hye : ∀ y, ye = some y → 29 ≤ v.c ∧ Spec.IsSquare v.c y ∧ lap = false)
    (h90 : ¬ (lap = true ∧ cf.contrastEachRow = true ∧ cf.regularizeDiag = true)) {vsd isd : SdPolar} {ratings : List ℝ}
    {prior : Prior} (hpr : eivPrior cf v.c y0 ye lap = .ok prior) {K : Nat} (hK : 0 < K) {r : Arr2 ℂ × List IterationStatus}
    (hr : eivCompute ext cf prior v i vsd isd ratings y0 lap false K pmu = .ok r) {x0 z0 Y : Arr2 ℂ} (hY : Spec.IsSquare v.c Y)
    (had : Spec.Admissible lap Y) (hz0 : x0.matmul Y = .ok z0) (hx0 : x0.r = v.r) {ε d σ : ℝ} (hε : 0 ≤ ε)
    (hnoise : Spec.size (Spec.diff (centreData lap v i).1 x0) ^ 2 + Spec.size (Spec.diff (centreData lap v i).2 z0) ^ 2 ≤ ε ^ 2)
    (hd : Spec.size (Spec.diff y0 Y) ≤ d) (hσ : Spec.AtLeast x0 σ) {η : ℝ}
    (hη : η = ε + Spec.eivShift v.c 1 ε (Spec.size x0) d
      (cf.lambdaEiv * Spec.penalty lap v.c (regConfig cf prior cf.lambdaEiv lap K) (Spec.projection lap v.c y0))) :
    Spec.ErrorBound r.1 Y (σ - η) η ∧ ∀ e ∈ r.2, Spec.ErrorBound e.params Y (σ - η) η := by
  obtain ⟨s1, s2, s3, s4⟩ := centreData_shape lap v i
  obtain ⟨p, hp', hpa, hpu, -, hpo⟩ := eiv_prior cf v.c y0 hsq ye lap hye h90
  obtain rfl : p = prior := Except.ok.inj (hp'.symm.trans hpr)
  have hw : eivWeights v i vsd isd ratings false pmu = .ok (v, i, none, none) := by cases pmu <;> rfl
  have hs : FitSetup lap v.c (regConfig cf p cf.lambdaEiv lap K) (centreData lap v i).1 (centreData lap v i).2 y0 :=
    ⟨rfl, rfl, by rw [s2], ⟨by rw [s3, s1, hcur.1], by rw [s4, hcur.2]⟩, hsq, hpu, hpa⟩
  simp only [eivCompute, hw, bind, Except.bind] at hr
  rcases hf : eivFit ext.solve ext.inv (regConfig cf p cf.lambdaEiv lap K) .fresh
      (centreData lap v i).1 (centreData lap v i).2 none none y0 with ⟨res, obj⟩
  rw [hf] at hr
  obtain ⟨hall, hret⟩ := C162_fit hs hl (fun t ht => .inl (hpo t ht)) hsy (.inl rfl) hex htot hinv hf hY had hz0 (by rw [s1, hx0]) hε hnoise
    hd hσ hη
  cases res with
  | error e => cases hr
  | ok u =>
    obtain ⟨Y', hY', hb'⟩ := hret rfl hK
    simp only [fitted, hY'] at hr
    have := Except.ok.inj hr
    rw [← this]
    exact ⟨hb', hall⟩

/-- weights of synchronised measurements -/
theorem synchronised_weights {v i : Arr2 ℂ} {vsd isd : SdPolar} {ratings : List ℝ} {cv ci : Arr2 ℂ} {W wi : Arr2 ℝ}
    (hw : eivWeights v i vsd isd ratings true true = .ok (cv, ci, some W, some wi)) :
    cv = v ∧ ci = i ∧ averageTrueNoiseCovariance v (.npScalar vsd.m) vsd.p true = .ok W := by
  unfold eivWeights at hw
  rw [if_pos (by rfl)] at hw
  obtain ⟨w1, e1, hw⟩ := Prior.bind_ok hw
  obtain ⟨w2, -, hw⟩ := Prior.bind_ok hw
  have := Except.ok.inj hw
  simp only [Prod.mk.injEq, Option.some.injEq] at this
  obtain ⟨rfl, rfl, rfl, rfl⟩ := this
  exact ⟨rfl, rfl, e1⟩

/-- the symmetric part of an assembled matrix, at the positions of one label -/
theorem halfSum_block {ids : List Int} {m : Fin 3 → ℕ} {f : Fin 3 → ℕ → ℕ} (hp : ∀ l : Fin 3, Spec.LabelPos ids (l.val : Int) (m l) (f l))
    {T : Fin 3 → Arr2 ℂ} {t y0 : Arr2 ℂ} (hA : Spec.Assembled ids m f T t) (h : halfSum t = .ok y0) {l : Fin 3}
    (hT : Spec.IsSquare (m l) (T l)) : halfSum (T l) = .ok (Spec.blockAt y0 (m l) (f l)) := by
  unfold halfSum Arr2.zipWith at h ⊢
  rw [if_pos ⟨hA.square.1.trans hA.square.2.symm, hA.square.2.trans hA.square.1.symm⟩] at h
  rw [if_pos ⟨hT.1.trans hT.2.symm, hT.2.trans hT.1.symm⟩]
  cases h
  congr 1
  refine Arr2.ext' hT.1 hT.2 fun i j hi hj => ?_
  have hi : i < m l := by rw [← hT.1]; exact hi
  have hj : j < m l := by rw [← hT.2]; exact hj
  unfold Spec.blockAt
  rw [Arr2.ofFn_get _ (by rw [hT.1]; exact hi) (by rw [hT.2]; exact hj), Arr2.ofFn_get _ hi hj,
    Arr2.ofFn_get _ (by rw [hA.square.1]; exact (hp l).lt i hi) (by rw [hA.square.2]; exact (hp l).lt j hj)]
  unfold Arr2.T
  rw [Arr2.ofFn_get _ (by rw [hT.2]; exact hi) (by rw [hT.1]; exact hj),
    Arr2.ofFn_get _ (by rw [hA.square.2]; exact (hp l).lt i hi) (by rw [hA.square.1]; exact (hp l).lt j hj),
    hA.block l i j hi hj, hA.block l j i hj hi]

/-- C166, lasso: every run on three-phase data in sequence values that redoes the standard methods gives a third estimate of one block
per sequence, each with the error bound of C163, and zeros -/
theorem C166_lasso {ext : NumExt} {cf : IdConf} {sc : SimConf} {a : IdArgs} {st : Store}
    {r : (Arr2 ℂ × Arr2 ℂ × Arr2 ℂ) × (Arr2 ℂ × List IterationStatus)} (hn : Spec.PlainName a.network) (h3 : a.threePhased = true)
    (hph : a.phases = "012") (hex : Spec.Exact ext.solve) (hpinv : Spec.PinvContract ext.pinv) (hsh : Spec.Shapes ext)
    (hl : 0 ≤ cf.lambdaLasso) (hrun : (identify ext cf sc a st).res = .ok r) (hstd : Spec.Redone a.standard [a.standard, a.bayesian])
    (hit : 0 < a.maxIter) {d : NetworkData} (hload : networkLoad st a.network = .ok d) {m : Fin 3 → ℕ} {f : Fin 3 → ℕ → ℕ}
    (hw : d.ids.length = d.noisyVoltage.c ∧ d.ids.length = d.noisyCurrent.c) (hrows : d.noisyCurrent.r = d.noisyVoltage.r)
    (hp : ∀ l : Fin 3, Spec.LabelPos d.ids (l.val : Int) (m l) (f l)) {v c : Fin 3 → Arr2 ℂ}
    (hv : v = fun l => Spec.columnsAt d.noisyVoltage (m l) (f l)) (hc : c = fun l => Spec.columnsAt d.noisyCurrent (m l) (f l))
    {x0 z0 Y : Fin 3 → Arr2 ℂ} {ε σ : Fin 3 → ℝ}
    (hY : ∀ l, Spec.IsSquare (m l) (Y l) ∧ Spec.Admissible a.laplacian (Y l)) (hz0 : ∀ l, (x0 l).matmul (Y l) = .ok (z0 l))
    (hx0 : ∀ l, (x0 l).r = d.noisyVoltage.r) (hε : ∀ l, 0 ≤ ε l ∧ ε l < σ l)
    (hnoise : ∀ l, Spec.size (Spec.diff (centreData a.laplacian (v l) (c l)).1 (x0 l)) ^ 2 +
      Spec.size (Spec.diff (centreData a.laplacian (v l) (c l)).2 (z0 l)) ^ 2 ≤ ε l ^ 2)
    (hσ : ∀ l, Spec.AtLeast (x0 l) (σ l)) {e η : Fin 3 → ℝ} (he : ∀ l, e l = Spec.olsError (ε l) (σ l) (Spec.size (Y l)) (m l))
    (hη : ∀ l, η l = ε l + Spec.regShift (m l) (ε l) (Spec.size (x0 l)) (Spec.size (Y l)) (e l)
      (cf.lambdaLasso * (2 * (Spec.size (Y l) + e l) ^ 2))) :
    ∃ L : Fin 3 → Arr2 ℂ, Spec.Assembled d.ids m f L r.1.2.2 ∧ ∀ l, Spec.ErrorBound (L l) (Y l) (σ l - ε l) (η l) := by
  subst hv hc
  obtain ⟨d2, y0, hl2, -, hst, -, -⟩ := C78_identify3 hn h3 hrun
  obtain rfl : d2 = d := Except.ok.inj (hl2.symm.trans hload)
  obtain ⟨hstd', -⟩ := hst hstd
  rw [if_pos hph] at hstd'
  obtain ⟨rs, hrs, -, -, hA⟩ := (C52_standard hsh hw.1 hw.2 hp st r.1).1 (hstd' st)
  refine ⟨_, hA, fun l => ?_⟩
  have h1 := hrs l st
  rw [standardMethods_fst] at h1
  exact C163_standard hl hex hpinv hit h1 ⟨hrows, rfl⟩ (hY l).1 (hY l).2 (hz0 l) (hx0 l) (hε l).1 (hnoise l) (hσ l) (hε l).2 (he l) (hη l)

/-- bounds for the blocks of the result and of every entry of the merged log -/
theorem merged_all {ids : List Int} {m : Fin 3 → ℕ} {f : Fin 3 → ℕ → ℕ} {rs : Fin 3 → Arr2 ℂ × List IterationStatus}
    {r : Arr2 ℂ × List IterationStatus} (hA : Spec.Assembled ids m f (fun l => (rs l).1) r.1) (hM : Spec.Merged ids m f (fun l => (rs l).2) r.2)
    {P : Fin 3 → Arr2 ℂ → Prop} (h : ∀ l, P l (rs l).1 ∧ ∀ e ∈ (rs l).2, P l e.params) :
    ∀ y, (y = r.1 ∨ ∃ e ∈ r.2, y = e.params) → ∃ E : Fin 3 → Arr2 ℂ, Spec.Assembled ids m f E y ∧ ∀ l, P l (E l) := by
  rintro y (rfl | ⟨e, he, rfl⟩)
  · exact ⟨_, hA, fun l => (h l).1⟩
  · obtain ⟨k, hk⟩ := List.mem_iff_getElem?.1 he
    obtain ⟨es, h1, -, -, h2⟩ := hM.entry k e hk
    exact ⟨_, h2, fun l => (h l).2 _ (List.mem_of_getElem? (h1 l))⟩

/-- what a run on three-phase data in sequence values that redoes both methods consists of: the runs of the standard methods and of the
Bayesian method for each sequence, the latter started at the symmetric parts of the total least squares estimates -/
theorem runs3 {ext : NumExt} {cf : IdConf} {sc : SimConf} {a : IdArgs} {st : Store}
    {r : (Arr2 ℂ × Arr2 ℂ × Arr2 ℂ) × (Arr2 ℂ × List IterationStatus)} (hn : Spec.PlainName a.network) (h3 : a.threePhased = true)
    (hph : a.phases = "012") (hsh : Spec.Shapes ext)
    (hrun : (identify ext cf sc a st).res = .ok r) (hstd : Spec.Redone a.standard [a.standard, a.bayesian])
    (hbay : Spec.Redone a.bayesian [a.standard, a.bayesian]) (hit : 0 < a.maxIter) {d : NetworkData} (hload : networkLoad st a.network = .ok d)
    (hd : Spec.PhaseData d.ids d.noisyVoltage d.noisyCurrent d.ratings d.y none) (h0 : 0 ∈ d.ids) (hrows : d.noisyCurrent.r = d.noisyVoltage.r)
    {m : Fin 3 → ℕ} {f : Fin 3 → ℕ → ℕ} (hp : ∀ l : Fin 3, Spec.LabelPos d.ids (l.val : Int) (m l) (f l)) :
    ∃ (y0 : Arr2 ℂ) (ss : Fin 3 → Arr2 ℂ × Arr2 ℂ × Arr2 ℂ) (rs : Fin 3 → Arr2 ℂ × List IterationStatus) (prior : Fin 3 → Prior),
      halfSum r.1.2.1 = .ok y0 ∧
      (∀ l, standardCompute ext cf (Spec.columnsAt d.noisyVoltage (m l) (f l)) (Spec.columnsAt d.noisyCurrent (m l) (f l)) a.laplacian
        a.maxIter = .ok (ss l)) ∧
      (∀ l, halfSum (ss l).2.1 = .ok (Spec.blockAt y0 (m l) (f l))) ∧
      (∀ l, eivPrior cf (m l) (Spec.blockAt y0 (m l) (f l)) (if a.exact && !a.laplacian then some (Spec.blockAt d.y (m l) (f l)) else none)
        a.laplacian = .ok (prior l)) ∧
      (∀ l, eivCompute ext cf (prior l) (Spec.columnsAt d.noisyVoltage (m l) (f l)) (Spec.columnsAt d.noisyCurrent (m l) (f l))
        (averagedSd sc.vm sc.vp d.fparam) (averagedSd sc.cm sc.cp d.fparam) (Spec.entriesAt d.ratings (m l) (f l))
        (Spec.blockAt y0 (m l) (f l)) a.laplacian a.weighted a.maxIter (!a.unsynchronized) = .ok (rs l)) ∧
      Spec.Assembled d.ids m f (fun l => (rs l).1) r.2.1 ∧ Spec.Merged d.ids m f (fun l => (rs l).2) r.2.2 := by
  obtain ⟨d2, y0, hl2, hy0, hst, -, hb, -⟩ := C78_identify3 hn h3 hrun
  obtain rfl : d2 = d := Except.ok.inj (hl2.symm.trans hload)
  obtain ⟨hstd', -⟩ := hst hstd
  rw [if_pos hph] at hstd'
  obtain ⟨ss, hss, -, hT, -⟩ := (C52_standard hsh hd.v hd.c hp st r.1).1 (hstd' st)
  have hss' : ∀ l, standardCompute ext cf (Spec.columnsAt d2.noisyVoltage (m l) (f l)) (Spec.columnsAt d2.noisyCurrent (m l) (f l))
      a.laplacian a.maxIter = .ok (ss l) := fun l => by
    have := hss l st
    rwa [standardMethods_fst] at this
  have hb' := hb ⟨hbay, hit⟩ st
  obtain ⟨y0', hy0', hsq, -⟩ := halfSum_square hT.square
  obtain rfl : y0' = y0 := Except.ok.inj (hy0'.symm.trans hy0)
  have hd' : Spec.PhaseData d2.ids d2.noisyVoltage d2.noisyCurrent d2.ratings y0' (if a.exact && !a.laplacian then some d2.y else none) :=
    ⟨hd.v, hd.c, hd.ratings, hsq, fun y hy => by
      split at hy
      · cases hy; exact hd.init
      · cases hy⟩
  obtain ⟨rs, hrs, hA, hM⟩ := ((C52_bayesian hit h0 hd' hp st r.2).1).1 hb'
  have hlab : ∀ l, ∃ p, eivPrior cf (m l) (Spec.blockAt y0' (m l) (f l))
      (if a.exact && !a.laplacian then some (Spec.blockAt d2.y (m l) (f l)) else none) a.laplacian = .ok p ∧
      eivCompute ext cf p (Spec.columnsAt d2.noisyVoltage (m l) (f l)) (Spec.columnsAt d2.noisyCurrent (m l) (f l))
        (averagedSd sc.vm sc.vp d2.fparam) (averagedSd sc.cm sc.cp d2.fparam) (Spec.entriesAt d2.ratings (m l) (f l))
        (Spec.blockAt y0' (m l) (f l)) a.laplacian a.weighted a.maxIter (!a.unsynchronized) = .ok (rs l) := by
    intro l
    have h1 := hrs l st
    unfold labelRun at h1
    rw [bayesianEiv_fst hit] at h1
    obtain ⟨p, hp1, h1⟩ := Prior.bind_ok h1
    refine ⟨p, ?_, h1⟩
    rw [← hp1]
    congr 1
    split <;> rfl
  choose prior hpr hco using hlab
  have hsqT : ∀ l, Spec.IsSquare (m l) (ss l).2.1 := fun l =>
    (standardCompute_square (v := Spec.columnsAt d2.noisyVoltage (m l) (f l)) (c := Spec.columnsAt d2.noisyCurrent (m l) (f l)) (m := m l)
      hsh rfl rfl (hss' l)).2.1
  exact ⟨y0', ss, rs, prior, hy0, hss', fun l => halfSum_block hp hT hy0
    (hsqT l), hpr, hco, hA, hM⟩

/-- C166, Bayesian estimate without weights: one block per sequence, each with the error bound of C162, in the result and in every entry
of the log -/
theorem C166_bayesian {ext : NumExt} {cf : IdConf} {sc : SimConf} {a : IdArgs} {st : Store}
    {r : (Arr2 ℂ × Arr2 ℂ × Arr2 ℂ) × (Arr2 ℂ × List IterationStatus)} (hn : Spec.PlainName a.network) (h3 : a.threePhased = true)
    (hph : a.phases = "012")
    (hinv : Spec.InvContract ext.inv) (hex : Spec.Exact ext.solve) (htot : Spec.Total ext.solve) (hsvd : Spec.SvdContract ext.svdVh)
    (hsh : Spec.Shapes ext) (hl : 0 ≤ cf.lambdaEiv)
    (hrun : (identify ext cf sc a st).res = .ok r) (hstd : Spec.Redone a.standard [a.standard, a.bayesian])
    (hbay : Spec.Redone a.bayesian [a.standard, a.bayesian]) (hit : 0 < a.maxIter) (hwt : a.weighted = false)
    {d : NetworkData} (hload : networkLoad st a.network = .ok d)
    (hd : Spec.PhaseData d.ids d.noisyVoltage d.noisyCurrent d.ratings d.y none) (h0 : 0 ∈ d.ids) (hrows : d.noisyCurrent.r = d.noisyVoltage.r)
    {m : Fin 3 → ℕ} {f : Fin 3 → ℕ → ℕ} (hp : ∀ l : Fin 3, Spec.LabelPos d.ids (l.val : Int) (m l) (f l))
    (hexact : a.exact = true → a.laplacian = true ∨ ∀ l, 29 ≤ m l)
    (h90 : ¬ (a.laplacian = true ∧ cf.contrastEachRow = true ∧ cf.regularizeDiag = true)) {v c : Fin 3 → Arr2 ℂ}
    (hv : v = fun l => Spec.columnsAt d.noisyVoltage (m l) (f l)) (hc : c = fun l => Spec.columnsAt d.noisyCurrent (m l) (f l))
    {x0 z0 Y : Fin 3 → Arr2 ℂ} {ε σ : Fin 3 → ℝ}
    (hY : ∀ l, Spec.IsSquare (m l) (Y l) ∧ Spec.Admissible a.laplacian (Y l)) (hz0 : ∀ l, (x0 l).matmul (Y l) = .ok (z0 l))
    (hx0 : ∀ l, (x0 l).r = d.noisyVoltage.r) (hε : ∀ l, 0 ≤ ε l ∧ 2 * ε l < σ l)
    (hnoise : ∀ l, Spec.size (Spec.diff (centreData a.laplacian (v l) (c l)).1 (x0 l)) ^ 2 +
      Spec.size (Spec.diff (centreData a.laplacian (v l) (c l)).2 (z0 l)) ^ 2 ≤ ε l ^ 2)
    (hσ : ∀ l, Spec.AtLeast (x0 l) (σ l))
    {e : Fin 3 → ℝ} (he : ∀ l, e l = Spec.guessError (ε l) (σ l) (Spec.size (Y l)) (m l)) :
    ∃ (y0 : Arr2 ℂ) (g : Fin 3 → Arr2 ℂ) (prior : Fin 3 → Prior), halfSum r.1.2.1 = .ok y0 ∧
      (∀ l, g l = Spec.blockAt y0 (m l) (f l) ∧ Spec.size (Spec.diff (g l) (Y l)) ≤ e l ∧
        eivPrior cf (m l) (g l) (if a.exact && !a.laplacian then some (Spec.blockAt d.y (m l) (f l)) else none) a.laplacian =
          .ok (prior l)) ∧
      ∀ η : Fin 3 → ℝ, (∀ l, η l = ε l + Spec.eivShift (m l) 1 (ε l) (Spec.size (x0 l)) (e l)
          (cf.lambdaEiv * Spec.penalty a.laplacian (m l) (regConfig cf (prior l) cf.lambdaEiv a.laplacian a.maxIter)
            (Spec.projection a.laplacian (m l) (g l)))) →
        ∀ y, (y = r.2.1 ∨ ∃ e ∈ r.2.2, y = e.params) →
          ∃ E : Fin 3 → Arr2 ℂ, Spec.Assembled d.ids m f E y ∧ ∀ l, Spec.ErrorBound (E l) (Y l) (σ l - η l) (η l) := by
  subst hv hc
  obtain ⟨y0, ss, rs, prior, hy0, hss, hg, hpr, hco, hA, hM⟩ := runs3 hn h3 hph hsh hrun hstd hbay hit hload hd h0 hrows hp
  have hcv : ∀ l, (Spec.columnsAt d.noisyCurrent (m l) (f l)).r = (Spec.columnsAt d.noisyVoltage (m l) (f l)).r ∧
      (Spec.columnsAt d.noisyCurrent (m l) (f l)).c = (Spec.columnsAt d.noisyVoltage (m l) (f l)).c := fun _ => ⟨hrows, rfl⟩
  have hG := fun l => guess_stage hinv hsvd (hss l) (hg l) (hcv l) (hY l).1 (hY l).2.1 (hz0 l) (hx0 l) (hε l).1 (hnoise l) (hσ l) (hε l).2
  refine ⟨y0, fun l => Spec.blockAt y0 (m l) (f l), prior, hy0, fun l => ⟨rfl, by rw [he]; exact (hG l).2.2, hpr l⟩, fun η hη => ?_⟩
  have key : ∀ l, Spec.ErrorBound (rs l).1 (Y l) (σ l - η l) (η l) ∧ ∀ e ∈ (rs l).2, Spec.ErrorBound e.params (Y l) (σ l - η l) (η l) := by
    intro l
    have hc1 := hco l
    rw [hwt] at hc1
    exact C162_run hinv hex htot hl (hG l).1 (hG l).2.1 (hcv l) (by
      intro y hy
      split at hy
      · rename_i hx
        rw [Bool.and_eq_true, Bool.not_eq_true'] at hx
        rcases hexact hx.1 with h | h
        · rw [hx.2] at h; cases h
        · cases hy
          exact ⟨h l, ⟨rfl, rfl⟩, hx.2⟩
      · cases hy) h90 (hpr l) hit hc1 (hY l).1 (hY l).2 (hz0 l) (hx0 l) (hε l).1 (hnoise l)
      (by rw [he]; exact (hG l).2.2) (hσ l) (hη l)
  exact merged_all (P := fun l E => Spec.ErrorBound E (Y l) (σ l - η l) (η l)) hA hM key

/-- C166, Bayesian estimate with the weights of synchronised measurements: one block per sequence, each with the error bound of C161, in
the result and in every entry of the log -/
theorem C166_weighted {ext : NumExt} {cf : IdConf} {sc : SimConf} {a : IdArgs} {st : Store}
    {r : (Arr2 ℂ × Arr2 ℂ × Arr2 ℂ) × (Arr2 ℂ × List IterationStatus)} (hn : Spec.PlainName a.network) (h3 : a.threePhased = true)
    (hph : a.phases = "012")
    (hinv : Spec.InvContract ext.inv) (hex : Spec.Exact ext.solve) (hsvd : Spec.SvdContract ext.svdVh)
    (hsh : Spec.Shapes ext) (hl : 0 ≤ cf.lambdaEiv)
    (hrun : (identify ext cf sc a st).res = .ok r) (hstd : Spec.Redone a.standard [a.standard, a.bayesian])
    (hbay : Spec.Redone a.bayesian [a.standard, a.bayesian]) (hit : 0 < a.maxIter) (hwt : a.weighted = true) (hsync : a.unsynchronized = false)
    {d : NetworkData} (hload : networkLoad st a.network = .ok d)
    (hd : Spec.PhaseData d.ids d.noisyVoltage d.noisyCurrent d.ratings d.y none) (h0 : 0 ∈ d.ids) (hrows : d.noisyCurrent.r = d.noisyVoltage.r)
    {m : Fin 3 → ℕ} {f : Fin 3 → ℕ → ℕ} (hp : ∀ l : Fin 3, Spec.LabelPos d.ids (l.val : Int) (m l) (f l)) (hm : ∀ l, 2 ≤ m l)
    (hsd : 0 < sc.vm ∧ 0 < sc.vp ∧ 0 < d.fparam) (hexact : a.exact = true → a.laplacian = true ∨ ∀ l, 29 ≤ m l)
    (h90 : ¬ (a.laplacian = true ∧ cf.contrastEachRow = true ∧ cf.regularizeDiag = true)) {v c : Fin 3 → Arr2 ℂ}
    (hv : v = fun l => Spec.columnsAt d.noisyVoltage (m l) (f l)) (hc : c = fun l => Spec.columnsAt d.noisyCurrent (m l) (f l))
    {x0 z0 Y : Fin 3 → Arr2 ℂ} {ε σ : Fin 3 → ℝ}
    (hY : ∀ l, Spec.IsSquare (m l) (Y l) ∧ Spec.Admissible a.laplacian (Y l)) (hz0 : ∀ l, (x0 l).matmul (Y l) = .ok (z0 l))
    (hx0 : ∀ l, (x0 l).r = d.noisyVoltage.r) (hε : ∀ l, 0 ≤ ε l ∧ 2 * ε l < σ l)
    (hnoise : ∀ l, Spec.size (Spec.diff (centreData a.laplacian (v l) (c l)).1 (x0 l)) ^ 2 +
      Spec.size (Spec.diff (centreData a.laplacian (v l) (c l)).2 (z0 l)) ^ 2 ≤ ε l ^ 2)
    (hσ : ∀ l, Spec.AtLeast (x0 l) (σ l))
    {e : Fin 3 → ℝ} (he : ∀ l, e l = Spec.guessError (ε l) (σ l) (Spec.size (Y l)) (m l)) :
    ∃ (y0 : Arr2 ℂ) (g : Fin 3 → Arr2 ℂ) (prior : Fin 3 → Prior) (W : Fin 3 → Arr2 ℝ), halfSum r.1.2.1 = .ok y0 ∧
      (∀ l, g l = Spec.blockAt y0 (m l) (f l) ∧ Spec.size (Spec.diff (g l) (Y l)) ≤ e l ∧
        eivPrior cf (m l) (g l) (if a.exact && !a.laplacian then some (Spec.blockAt d.y (m l) (f l)) else none) a.laplacian =
          .ok (prior l) ∧
        averageTrueNoiseCovariance (v l) (.npScalar (averagedSd sc.vm sc.vp d.fparam).m) (averagedSd sc.vm sc.vp d.fparam).p true =
          .ok (W l) ∧
        ∃ q Q, 0 < q ∧ q ≤ Q ∧ Spec.WeightsBetween q Q (W l)) ∧
      ∀ q Q : Fin 3 → ℝ, (∀ l, 0 < q l ∧ q l ≤ Q l ∧ Spec.WeightsBetween (q l) (Q l) (W l)) →
      ∀ η : Fin 3 → ℝ, (∀ l, η l = ε l + Spec.eivShift (m l) (Real.sqrt (Q l / q l)) (ε l) (Spec.size (x0 l)) (e l)
          (cf.lambdaEiv * Spec.penalty a.laplacian (m l) (regConfig cf (prior l) cf.lambdaEiv a.laplacian a.maxIter)
            (Spec.projection a.laplacian (m l) (g l)) / q l)) →
        ∀ y, (y = r.2.1 ∨ ∃ e ∈ r.2.2, y = e.params) →
          ∃ E : Fin 3 → Arr2 ℂ, Spec.Assembled d.ids m f E y ∧ ∀ l, Spec.ErrorBound (E l) (Y l) (σ l - η l) (η l) := by
  subst hv hc
  obtain ⟨y0, ss, rs, prior, hy0, hss, hg, hpr, hco, hA, hM⟩ := runs3 hn h3 hph hsh hrun hstd hbay hit hload hd h0 hrows hp
  have hcv : ∀ l, (Spec.columnsAt d.noisyCurrent (m l) (f l)).r = (Spec.columnsAt d.noisyVoltage (m l) (f l)).r ∧
      (Spec.columnsAt d.noisyCurrent (m l) (f l)).c = (Spec.columnsAt d.noisyVoltage (m l) (f l)).c := fun _ => ⟨hrows, rfl⟩
  have hG := fun l => guess_stage hinv hsvd (hss l) (hg l) (hcv l) (hY l).1 (hY l).2.1 (hz0 l) (hx0 l) (hε l).1 (hnoise l) (hσ l) (hε l).2
  have hk := Real.sqrt_pos.2 hsd.2.2
  have hsm : 0 < (averagedSd sc.vm sc.vp d.fparam).m := div_pos hsd.1 hk
  have hsp : 0 < (averagedSd sc.vm sc.vp d.fparam).p := div_pos hsd.2.1 hk
  have hne : ∀ l, Spec.entriesAt d.ratings (m l) (f l) ≠ [] := by
    intro l e
    have := congrArg List.length e
    simp only [Spec.entriesAt, List.length_map, List.length_range, List.length_nil] at this
    have := hm l
    omega
  have hvn : ∀ l, true = false → ∀ t j, t < (Spec.columnsAt d.noisyVoltage (m l) (f l)).r → j < (Spec.columnsAt d.noisyVoltage (m l) (f l)).c →
      (Spec.columnsAt d.noisyVoltage (m l) (f l)).get t j ≠ 0 := fun l h => by cases h
  have hm1 : ∀ l, (Spec.columnsAt d.noisyVoltage (m l) (f l)).c ≠ 1 := fun l => by
    show m l ≠ 1
    have := hm l
    omega
  have hWs : ∀ l, ∃ W wi, eivWeights (Spec.columnsAt d.noisyVoltage (m l) (f l)) (Spec.columnsAt d.noisyCurrent (m l) (f l))
      (averagedSd sc.vm sc.vp d.fparam) (averagedSd sc.cm sc.cp d.fparam) (Spec.entriesAt d.ratings (m l) (f l)) true true =
      .ok (Spec.columnsAt d.noisyVoltage (m l) (f l), Spec.columnsAt d.noisyCurrent (m l) (f l), some W, some wi) := by
    intro l
    obtain ⟨cv, ci, W, wi, hw, -, -, -⟩ := eivWeights_ok (Spec.columnsAt d.noisyVoltage (m l) (f l)) (Spec.columnsAt d.noisyCurrent (m l) (f l))
      (averagedSd sc.vm sc.vp d.fparam) (averagedSd sc.cm sc.cp d.fparam) (Spec.entriesAt d.ratings (m l) (f l)) true (hm1 l) hsm hsp (hne l)
      (hcv l) (hvn l)
    obtain ⟨rfl, rfl, -⟩ := synchronised_weights hw
    exact ⟨W, wi, hw⟩
  choose W wi hW using hWs
  have key := fun l => C161_run hex hl (hG l).1 (hcv l) (by
      intro y hy
      split at hy
      · rename_i hx
        rw [Bool.and_eq_true, Bool.not_eq_true'] at hx
        rcases hexact hx.1 with h | h
        · rw [hx.2] at h; cases h
        · cases hy
          exact ⟨h l, ⟨rfl, rfl⟩, hx.2⟩
      · cases hy) h90 (hm1 l) hsm hsp (hne l) (hvn l) (hpr l) hit (by
      have := hco l
      rw [hwt, hsync] at this
      exact this) (hW l) (hY l).1 (hY l).2 (hz0 l) (hx0 l) (hε l).1 (hnoise l)
      (show _ ≤ e l by rw [he]; exact (hG l).2.2) (hσ l)
  refine ⟨y0, fun l => Spec.blockAt y0 (m l) (f l), prior, W, hy0, fun l => ⟨rfl, by rw [he]; exact (hG l).2.2, hpr l,
    (synchronised_weights (hW l)).2.2, (key l).1⟩, fun q Q hq η hη => ?_⟩
  exact merged_all (P := fun l E => Spec.ErrorBound E (Y l) (σ l - η l) (η l)) hA hM fun l => (key l).2 (q l) (Q l) (hq l).1 (hq l).2.1 (hq l).2.2 (η l) (hη l)

/-- the data of `demo161` in each of the three sequences -/
def triple (x : Arr2 ℂ) : Arr2 ℂ := Arr2.ofFn x.r (2 * 3) (fun t j => x.get t (j / 3))

def demoData166 : NetworkData :=
  ⟨triple demoV161, triple demoN161, triple demoV161, triple demoI161,
    Arr2.ofFn (2 * 3) (2 * 3) (fun p q => if p % 3 = q % 3 then demoY126.get (p / 3) (q / 3) else 0), [1, 1, 1, 1, 1, 1], 1, Spec.sequenceIds 2⟩

def demoArgs166 (weighted : Bool) : IdArgs := ⟨"ieee_33", 50, false, false, false, "012", true, false, false, weighted, false, false⟩

theorem triple_columns {x : Arr2 ℂ} (hx : x.c = 2) (l : Fin 3) : Spec.columnsAt (triple x) 2 (Spec.sequencePos l) = x := by
  refine Arr2.ext' rfl hx.symm fun t j ht hj => ?_
  have hj2 : j < 2 := hj
  have ht2 : t < x.r := ht
  unfold Spec.columnsAt triple
  have := l.isLt
  rw [Arr2.ofFn_get (r := (Arr2.ofFn x.r (2 * 3) fun t j => x.get t (j / 3)).r) _ ht2 hj2, Arr2.ofFn_get _ ht2 (show Spec.sequencePos l j < 2 * 3 by unfold Spec.sequencePos; omega)]
  congr 1
  unfold Spec.sequencePos
  omega

/-- Both calls of the script on this data return, and their results obey the bounds. -/
theorem demo166 (w : Bool) (sc : SimConf) (hsc : 0 < sc.vm ∧ 0 < sc.vp) (st : Store) :
    ∃ (r : (Arr2 ℂ × Arr2 ℂ × Arr2 ℂ) × (Arr2 ℂ × List IterationStatus)) (L E : Fin 3 → Arr2 ℂ) (η η' : Fin 3 → ℝ),
      (identify ⟨exactPinv, exactSvd, exactInv, exactSolve⟩ demoConf161 sc (demoArgs166 w)
        (st.savez (resultFile .network "ieee_33") (networkNpz demoData166))).res = .ok r ∧
      Spec.Assembled (Spec.sequenceIds 2) (fun _ => 2) Spec.sequencePos L r.1.2.2 ∧
      (∀ l, Spec.ErrorBound (L l) demoY126 (30 - 2) (η l)) ∧
      Spec.Assembled (Spec.sequenceIds 2) (fun _ => 2) Spec.sequencePos E r.2.1 ∧
      ∀ l, Spec.ErrorBound (E l) demoY126 (30 - η' l) (η' l) := by
  have hload : networkLoad (st.savez (resultFile .network "ieee_33") (networkNpz demoData166)) (demoArgs166 w).network = .ok demoData166 :=
    C49_network "ieee_33" demoData166 st (h := []) ⟨templates_plain "ieee_33" (by decide), by simp⟩
  have h3p : (demoArgs166 w).threePhased = true := by
    show ("012" == "012" || "012" == "123") = true
    decide
  have hit : 0 < (demoArgs166 w).maxIter := by
    show 0 < 50
    decide
  obtain ⟨-, hc, -, hN⟩ := demo161_facts (fun _ => none) demoArgs161
  have hV : (fun _ => demoV161) = fun l : Fin 3 => Spec.columnsAt demoData166.noisyVoltage 2 (Spec.sequencePos l) :=
    funext fun l => (triple_columns rfl l).symm
  have hC : (fun _ => demoN161) = fun l : Fin 3 => Spec.columnsAt demoData166.noisyCurrent 2 (Spec.sequencePos l) :=
    funext fun l => (triple_columns rfl l).symm
  have hp : ∀ l : Fin 3, Spec.LabelPos demoData166.ids (l.val : Int) 2 (Spec.sequencePos l) := fun l => labelPos_sequence 2 l
  have h0 : (0 : Int) ∈ demoData166.ids := by
    show (0 : Int) ∈ Spec.sequenceIds 2
    decide
  have hd : Spec.PhaseData demoData166.ids demoData166.noisyVoltage demoData166.noisyCurrent demoData166.ratings demoData166.y none :=
    ⟨rfl, rfl, rfl, ⟨rfl, rfl⟩, fun y hy => by cases hy⟩
  obtain ⟨r, -, -, hr, -⟩ := C124 (ext := ⟨exactPinv, exactSvd, exactInv, exactSolve⟩) (cf := demoConf161) (sc := sc) (a := demoArgs166 w)
    (st := st.savez (resultFile .network "ieee_33") (networkNpz demoData166)) (d := demoData166) (x0 := fun _ => demoV161)
    (z0 := fun _ => demoI161) (Y := fun _ => demoY126) (ε := fun _ => 2) (σ := fun _ => 30) exactInv_contract exactSolve_exact exactSolve_total
    exactPinv_contract exactSvd_contract demoExt_shapes (by simp [demoConf161]) (by simp [demoConf161])
    ⟨h3p, rfl, rfl, rfl, rfl, rfl, fun h => by simp [demoArgs166] at h, hit⟩ hload hd h0 hp (by simp [demoArgs166]) hV hC
    (fun l => ⟨rfl, by
      show Spec.Noisy (centreData false demoV161 demoN161).1 (centreData false demoV161 demoN161).2 _ _ _ _
      rw [hc]; exact hN, demo161_excited, by norm_num, by norm_num⟩)
    (fun l => by
      right
      refine ⟨by simp [demoConf161], .inr (by simp [demoConf161]), ?_, fun _ => ⟨by decide, by decide, hsc.1, hsc.2, ?_, fun h => by cases h⟩⟩
      · show ∀ T, tlsFit exactSvd exactInv (centreData false demoV161 demoN161).1 (centreData false demoV161 demoN161).2 = .ok T →
          Spec.LinesSeen 2 T
        rw [hc]
        exact demo161_line
      · simp [demoData166])
  have hnoise : ∀ l : Fin 3, Spec.size (Spec.diff (centreData (demoArgs166 w).laplacian demoV161 demoN161).1 demoV161) ^ 2 +
      Spec.size (Spec.diff (centreData (demoArgs166 w).laplacian demoV161 demoN161).2 demoI161) ^ 2 ≤ 2 ^ 2 := fun _ => by
    show Spec.size (Spec.diff (centreData false demoV161 demoN161).1 demoV161) ^ 2 +
        Spec.size (Spec.diff (centreData false demoV161 demoN161).2 demoI161) ^ 2 ≤ _
    rw [hc]; exact demo161_noise
  obtain ⟨L, hL, hLe⟩ := C166_lasso (templates_plain "ieee_33" (by decide)) h3p rfl exactSolve_exact exactPinv_contract demoExt_shapes
    (by simp [demoConf161]) hr (.inr (by simp [demoArgs166])) hit hload ⟨rfl, rfl⟩ rfl hp hV hC (x0 := fun _ => demoV161)
    (z0 := fun _ => demoI161) (Y := fun _ => demoY126) (fun _ => ⟨⟨rfl, rfl⟩, demoY126_symm, fun h => by cases h⟩)
    (fun _ => demo161_product) (fun _ => rfl) (ε := fun _ => 2) (σ := fun _ => 30) (fun _ => by norm_num) hnoise (fun _ => demo161_excited)
    (fun _ => rfl) (fun _ => rfl)
  refine ⟨r, L, ?_⟩
  cases w with
  | false =>
    obtain ⟨y0, g, prior, -, -, h3⟩ := C166_bayesian (templates_plain "ieee_33" (by decide)) h3p rfl exactInv_contract exactSolve_exact
      exactSolve_total exactSvd_contract demoExt_shapes (by simp [demoConf161]) hr (.inr (by simp [demoArgs166])) (.inr (by simp [demoArgs166]))
      hit rfl hload hd h0 rfl hp (fun h => by simp [demoArgs166] at h) (by simp [demoArgs166]) hV hC (x0 := fun _ => demoV161)
      (z0 := fun _ => demoI161) (Y := fun _ => demoY126) (fun _ => ⟨⟨rfl, rfl⟩, demoY126_symm, fun h => by cases h⟩)
      (fun _ => demo161_product) (fun _ => rfl) (ε := fun _ => 2) (σ := fun _ => 30) (fun _ => by norm_num) hnoise (fun _ => demo161_excited)
      (fun _ => rfl)
    obtain ⟨E, hE, hEe⟩ := h3 _ (fun _ => rfl) _ (.inl rfl)
    exact ⟨E, _, _, hr, hL, hLe, hE, hEe⟩
  | true =>
    obtain ⟨y0, g, prior, W, -, h2, h3⟩ := C166_weighted (templates_plain "ieee_33" (by decide)) h3p rfl exactInv_contract exactSolve_exact
      exactSvd_contract demoExt_shapes (by simp [demoConf161]) hr (.inr (by simp [demoArgs166])) (.inr (by simp [demoArgs166]))
      hit rfl rfl hload hd h0 rfl hp (fun _ => le_rfl) ⟨hsc.1, hsc.2, by simp [demoData166]⟩ (fun h => by simp [demoArgs166] at h)
      (by simp [demoArgs166]) hV hC (x0 := fun _ => demoV161)
      (z0 := fun _ => demoI161) (Y := fun _ => demoY126) (fun _ => ⟨⟨rfl, rfl⟩, demoY126_symm, fun h => by cases h⟩)
      (fun _ => demo161_product) (fun _ => rfl) (ε := fun _ => 2) (σ := fun _ => 30) (fun _ => by norm_num) hnoise (fun _ => demo161_excited)
      (fun _ => rfl)
    choose q Q hq using fun l => (h2 l).2.2.2.2
    obtain ⟨E, hE, hEe⟩ := h3 q Q hq _ (fun _ => rfl) _ (.inl rfl)
    exact ⟨E, _, _, hr, hL, hLe, hE, hEe⟩

end
end Verif
