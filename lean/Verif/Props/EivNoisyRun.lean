/-
C161 for the program: the result of a weighted run on noisy measurements is close to the true admittance matrix.
-/
import Verif.Props.EivNoisy
import Verif.Props.EivCritical
import Verif.Props.EivExact
import Verif.Props.IdentifyRun
import Verif.Props.Programs

namespace Verif
open Finset Matrix
noncomputable section

/-- error of the initial guess of `identify`: the symmetric part of total least squares, for noise `ε`, excitation `σ`, `n` nodes and
true admittances of size `s` -/
def Spec.guessError (ε σ s : ℝ) (n : Nat) : ℝ := 2 * ε / (σ - 2 * ε) * Real.sqrt (s ^ 2 + n)

/-- noise of bounded size has bounded singular values -/
theorem noisy_of_size {x z x0 z0 Y : Arr2 ℂ} (h0 : x0.matmul Y = .ok z0) (hx : x.r = x0.r ∧ x.c = x0.c) (hz : z.r = z0.r ∧ z.c = z0.c)
    {ε : ℝ} (hε : 0 ≤ ε) (h : Spec.size (Spec.diff x x0) ^ 2 + Spec.size (Spec.diff z z0) ^ 2 ≤ ε ^ 2) : Spec.Noisy x z x0 z0 Y ε := by
  obtain ⟨-, hzr, hzc, -⟩ := Arr2.matmul_inv h0
  refine ⟨h0, hx, hz, fun a b => ?_⟩
  refine (side_len_le _ _ a b).trans (mul_le_mul_of_nonneg_right ?_ (len_nonneg _))
  rw [size_fsize (A := Spec.diff x x0) (m := x0.r) (n := x0.c) hx.1 hx.2, diff_toMat hx ⟨rfl, rfl⟩,
    size_fsize (A := Spec.diff z z0) (m := x0.r) (n := z0.c) (by rw [← hzr]; exact hz.1) hz.2, diff_toMat ⟨hz.1.trans hzr, hz.2⟩ ⟨hzr, rfl⟩] at h
  exact Real.sqrt_le_iff.2 ⟨hε, h⟩

/-- taking the symmetric part does not move away from a symmetric matrix -/
theorem halfSum_size {n : Nat} {T y0 Y : Arr2 ℂ} (hT : Spec.IsSquare n T) (hY : Spec.IsSquare n Y) (hsym : Spec.IsSymm Y)
    (h : halfSum T = .ok y0) : Spec.IsSquare n y0 ∧ Spec.size (Spec.diff y0 Y) ≤ Spec.size (Spec.diff T Y) := by
  have e : y0 = Arr2.ofFn T.r T.c (fun i j => (T.get i j + T.T.get i j) / 2) := by
    have : halfSum T = .ok (Arr2.ofFn T.r T.c (fun i j => (T.get i j + T.T.get i j) / 2)) :=
      if_pos ⟨by rw [hT.1]; exact hT.2.symm, by rw [hT.2]; exact hT.1.symm⟩
    rw [this] at h
    exact (Except.ok.inj h).symm
  have hy : Spec.IsSquare n y0 := by rw [e]; exact hT
  refine ⟨hy, ?_⟩
  rw [size_fsize (A := Spec.diff y0 Y) (m := n) (n := n) hy.1 hy.2, size_fsize (A := Spec.diff T Y) (m := n) (n := n) hT.1 hT.2,
    diff_toMat ⟨hy.1, hy.2⟩ ⟨hY.1, hY.2⟩, diff_toMat ⟨hT.1, hT.2⟩ ⟨hY.1, hY.2⟩]
  have h2 : (2 : ℝ) * fsize (y0.toMat n n - Y.toMat n n) ≤ 2 * fsize (T.toMat n n - Y.toMat n n) := by
    have e2 : (y0.toMat n n - Y.toMat n n) + (y0.toMat n n - Y.toMat n n) =
        (T.toMat n n - Y.toMat n n) + (T.toMat n n - Y.toMat n n).transpose := by
      ext i j
      simp only [Matrix.add_apply, Matrix.sub_apply, transpose_apply]
      show y0.get i j - Y.get i j + (y0.get i j - Y.get i j) = T.get i j - Y.get i j + (T.get j i - Y.get j i)
      have h1 : T.T.get i j = T.get j i := (Arr2.ofFn_get' ..).trans (if_pos ⟨by rw [hT.2]; exact i.2, by rw [hT.1]; exact j.2⟩)
      rw [e, Arr2.ofFn_get _ (by rw [hT.1]; exact i.2) (by rw [hT.2]; exact j.2), h1, hsym.2 j i]
      ring
    have e3 : fsize ((y0.toMat n n - Y.toMat n n) + (y0.toMat n n - Y.toMat n n)) = 2 * fsize (y0.toMat n n - Y.toMat n n) := by
      generalize y0.toMat n n - Y.toMat n n = A
      refine (pow_left_inj₀ (fsize_nonneg _) (mul_nonneg two_pos.le (fsize_nonneg _)) two_ne_zero).1 ?_
      rw [mul_pow, fsize_sq, fsize_sq, Finset.mul_sum]
      refine Finset.sum_congr rfl fun i _ => ?_
      rw [Finset.mul_sum]
      refine Finset.sum_congr rfl fun j _ => ?_
      rw [Matrix.add_apply, ← two_mul, norm_mul, mul_pow]
      norm_num
    rw [← e3, e2, two_mul]
    refine (fsize_add_le _ _).trans ?_
    rw [fsize_transpose]
  linarith

/-- C161 for the computing branch of `bayesian_eiv` with weights -/
theorem C161_run {ext : NumExt} {cf : IdConf} (hex : Spec.Exact ext.solve) (hl : 0 ≤ cf.lambdaEiv) {v i y0 : Arr2 ℂ}
    (hy0 : Spec.IsSquare v.c y0) (hsh : i.r = v.r ∧ i.c = v.c) {ye : Option (Arr2 ℂ)} {lap pmu : Bool}
    (hye : ∀ y, ye = some y → 29 ≤ v.c ∧ Spec.IsSquare v.c y ∧ lap = false)
    (h90 : ¬ (lap = true ∧ cf.contrastEachRow = true ∧ cf.regularizeDiag = true)) {vsd isd : SdPolar} {ratings : List ℝ}
    (hn : v.c ≠ 1) (hm : 0 < vsd.m) (hp : 0 < vsd.p) (hrt : ratings ≠ [])
    (hv : pmu = false → ∀ t j, t < v.r → j < v.c → v.get t j ≠ 0) {prior : Prior} (hpr : eivPrior cf v.c y0 ye lap = .ok prior)
    {K : Nat} (hK : 0 < K) {r : Arr2 ℂ × List IterationStatus}
    (hr : eivCompute ext cf prior v i vsd isd ratings y0 lap true K pmu = .ok r) {cv ci : Arr2 ℂ} {W wi : Arr2 ℝ}
    (hw : eivWeights v i vsd isd ratings true pmu = .ok (cv, ci, some W, some wi)) {x0 z0 Y : Arr2 ℂ} (hY : Spec.IsSquare v.c Y)
    (had : Spec.Admissible lap Y) (hz0 : x0.matmul Y = .ok z0) (hx0 : x0.r = v.r) {ε d σ : ℝ} (hε : 0 ≤ ε)
    (hnoise : Spec.size (Spec.diff (centreData lap cv ci).1 x0) ^ 2 + Spec.size (Spec.diff (centreData lap cv ci).2 z0) ^ 2 ≤ ε ^ 2)
    (hd : Spec.size (Spec.diff y0 Y) ≤ d) (hσ : Spec.AtLeast x0 σ) :
    (∃ c C, 0 < c ∧ c ≤ C ∧ Spec.WeightsBetween c C W) ∧
    ∀ c C, 0 < c → c ≤ C → Spec.WeightsBetween c C W → ∀ η, η = ε + Spec.eivShift v.c (Real.sqrt (C / c)) ε (Spec.size x0) d
      (cf.lambdaEiv * Spec.penalty lap v.c (regConfig cf prior cf.lambdaEiv lap K) (Spec.projection lap v.c y0) / c) →
    Spec.ErrorBound r.1 Y (σ - η) η ∧ ∀ e ∈ r.2, Spec.ErrorBound e.params Y (σ - η) η := by
  obtain ⟨p, hp', hpa, hpu, -, hpo⟩ := eiv_prior cf v.c y0 hy0 ye lap hye h90
  obtain rfl : p = prior := Except.ok.inj (hp'.symm.trans hpr)
  obtain ⟨cv', ci', W', wi', hw', h1, h2, hW⟩ := eivWeights_ok v i vsd isd ratings pmu hn hm hp hrt hsh hv
  have hq := Except.ok.inj (hw'.symm.trans hw)
  simp only [Prod.mk.injEq, Option.some.injEq] at hq
  obtain ⟨rfl, rfl, rfl, rfl⟩ := hq
  refine ⟨PosDef.between hW, fun c C hc hC hb η hη => ?_⟩
  obtain ⟨s1, s2, s3, s4⟩ := centreData_shape lap cv' ci'
  have hs : FitSetup lap v.c (regConfig cf p cf.lambdaEiv lap K) (centreData lap cv' ci').1 (centreData lap cv' ci').2 y0 :=
    ⟨rfl, rfl, by rw [s2, h1.2], ⟨by rw [s3, s1, h1.1, h2.1], by rw [s4, h2.2]⟩, hy0, hpu, hpa⟩
  rw [← h1.1, ← s1] at hW
  simp only [eivCompute, hw', bind, Except.bind] at hr
  rcases hf : eivFit ext.solve ext.inv (regConfig cf p cf.lambdaEiv lap K) .fresh (centreData lap cv' ci').1
      (centreData lap cv' ci').2 (some W') (some wi') y0 with ⟨res, obj⟩
  rw [hf] at hr
  obtain ⟨hall, hret⟩ := C161_fit hs hl (fun t ht => .inl (hpo t ht)) hW.1 wi' hc hC hb hex hf hY had hz0 (by rw [s1, h1.1, hx0]) hε hnoise
    hd hσ hη
  cases res with
  | error e => cases hr
  | ok u =>
    obtain ⟨Y', hY', hb'⟩ := hret rfl hK
    simp only [fitted, hY'] at hr
    cases hr
    exact ⟨hb', hall⟩

/-- the total least squares estimate among the results of the standard methods -/
theorem standard_tls {ext : NumExt} {cf : IdConf} {v i : Arr2 ℂ} {lap : Bool} {K : Nat} {r : Arr2 ℂ × Arr2 ℂ × Arr2 ℂ} {T : Arr2 ℂ}
    (h : standardCompute ext cf v i lap K = .ok r)
    (hT : tlsFit ext.svdVh ext.inv (centreData lap v i).1 (centreData lap v i).2 = .ok T) : r.2.1 = T := by
  unfold standardCompute at h
  dsimp only at h
  obtain ⟨B, -, h⟩ := Prior.bind_ok h
  rw [hT] at h
  obtain ⟨T', hT', h⟩ := Prior.bind_ok h
  cases hT'
  obtain ⟨p, -, h⟩ := Prior.bind_ok h
  split at h
  · obtain ⟨q, -, h⟩ := Prior.bind_ok h
    obtain ⟨q', -, h⟩ := Prior.bind_ok h
    have := Except.ok.inj h
    rw [← this]
  · have := Except.ok.inj h
    rw [← this]

/-- C161 for `identify`: a weighted run on synchronised single-phase measurements that redoes both methods. The measurements are
close to true data, the initial guess is the symmetric part of the total least squares estimate. -/
theorem C161_identify {ext : NumExt} {cf : IdConf} {sc : SimConf} {a : IdArgs} {st : Store}
    {r : (Arr2 ℂ × Arr2 ℂ × Arr2 ℂ) × (Arr2 ℂ × List IterationStatus)} (hn : Spec.PlainName a.network) (h3 : a.threePhased = false)
    (hinv : Spec.InvContract ext.inv) (hex : Spec.Exact ext.solve) (hsvd : Spec.SvdContract ext.svdVh) (hl : 0 ≤ cf.lambdaEiv)
    (hrun : (identify ext cf sc a st).res = .ok r) (hstd : Spec.Redone a.standard [a.standard, a.bayesian])
    (hbay : Spec.Redone a.bayesian [a.standard, a.bayesian]) (hit : 0 < a.maxIter) (hwt : a.weighted = true)
    (hsync : a.unsynchronized = false) {all d : NetworkData} (hload : networkLoad st a.network = .ok all)
    (hsel : selectPhase a all = .ok d) (h1 : d.noisyVoltage.c ≠ 1)
    (hsd : 0 < sc.vm ∧ 0 < sc.vp ∧ 0 < d.fparam ∧ d.ratings ≠ [])
    (hexact : a.exact = true → a.laplacian = true ∨ (29 ≤ d.noisyVoltage.c ∧ Spec.IsSquare d.noisyVoltage.c d.y))
    (h90 : ¬ (a.laplacian = true ∧ cf.contrastEachRow = true ∧ cf.regularizeDiag = true)) {x0 z0 Y : Arr2 ℂ}
    (hY : Spec.IsSquare d.noisyVoltage.c Y) (had : Spec.Admissible a.laplacian Y) (hz0 : x0.matmul Y = .ok z0)
    (hx0 : x0.r = d.noisyVoltage.r) (hcur : d.noisyCurrent.r = d.noisyVoltage.r ∧ d.noisyCurrent.c = d.noisyVoltage.c)
    {ε σ : ℝ} (hε : 0 ≤ ε)
    (hnoise : Spec.size (Spec.diff (centreData a.laplacian d.noisyVoltage d.noisyCurrent).1 x0) ^ 2 +
      Spec.size (Spec.diff (centreData a.laplacian d.noisyVoltage d.noisyCurrent).2 z0) ^ 2 ≤ ε ^ 2)
    (hσ : Spec.AtLeast x0 σ) (hεσ : 2 * ε < σ) :
    ∃ y0 prior W, halfSum r.1.2.1 = .ok y0 ∧
      Spec.size (Spec.diff y0 Y) ≤ Spec.guessError ε σ (Spec.size Y) d.noisyVoltage.c ∧
      eivPrior cf d.noisyVoltage.c y0 (if a.exact && !a.laplacian then some d.y else none) a.laplacian = .ok prior ∧
      averageTrueNoiseCovariance d.noisyVoltage (.npScalar (averagedSd sc.vm sc.vp d.fparam).m) (averagedSd sc.vm sc.vp d.fparam).p true =
        .ok W ∧
      (∃ c C, 0 < c ∧ c ≤ C ∧ Spec.WeightsBetween c C W) ∧
      ∀ c C, 0 < c → c ≤ C → Spec.WeightsBetween c C W → ∀ η, η = ε + Spec.eivShift d.noisyVoltage.c (Real.sqrt (C / c)) ε (Spec.size x0)
          (Spec.guessError ε σ (Spec.size Y) d.noisyVoltage.c)
          (cf.lambdaEiv * Spec.penalty a.laplacian d.noisyVoltage.c (regConfig cf prior cf.lambdaEiv a.laplacian a.maxIter)
            (Spec.projection a.laplacian d.noisyVoltage.c y0) / c) →
        Spec.ErrorBound r.2.1 Y (σ - η) η ∧ ∀ e ∈ r.2.2, Spec.ErrorBound e.params Y (σ - η) η := by
  obtain ⟨d2, y0, ⟨all2, hl2, hs2⟩, hy0, hst, -, hb, -⟩ := C78_identify hn h3 hrun
  obtain rfl : all2 = all := Except.ok.inj (hl2.symm.trans hload)
  obtain rfl : d2 = d := Except.ok.inj (hs2.symm.trans hsel)
  obtain ⟨hstd', -⟩ := hst hstd
  obtain ⟨⟨prior, hpr, hcomp⟩, -⟩ := hb ⟨hbay, hit⟩
  obtain ⟨s1, s2, s3, s4⟩ := centreData_shape a.laplacian d2.noisyVoltage d2.noisyCurrent
  obtain ⟨hxY, hzr, hzc, -⟩ := Arr2.matmul_inv hz0
  have hN := noisy_of_size hz0 ⟨by rw [s1, hx0], by rw [s2, hxY, hY.1]⟩ ⟨by rw [s3, hcur.1, hzr, hx0], by rw [s4, hcur.2, hzc, hY.2]⟩ hε hnoise
  obtain ⟨T, hT, hTs, hTe⟩ := C117_tls hsvd hinv hN hσ hε hεσ
  have hTr : r.1.2.1 = T := standard_tls hstd' hT
  have hTsq : Spec.IsSquare d2.noisyVoltage.c T := ⟨hTs.1.trans hY.1, hTs.2.trans hY.2⟩
  obtain ⟨hsq, hsz⟩ := halfSum_size hTsq hY had.1 (by rw [← hTr]; exact hy0)
  have hd : Spec.size (Spec.diff y0 Y) ≤ Spec.guessError ε σ (Spec.size Y) d2.noisyVoltage.c :=
    hsz.trans (errorBound_size hTsq hY (by linarith) (by linarith) hTe)
  have hk := Real.sqrt_pos.2 hsd.2.2.1
  have hm : 0 < (averagedSd sc.vm sc.vp d2.fparam).m := div_pos hsd.1 hk
  have hp : 0 < (averagedSd sc.vm sc.vp d2.fparam).p := div_pos hsd.2.1 hk
  have hvn : (!a.unsynchronized) = false → ∀ t j, t < d2.noisyVoltage.r → j < d2.noisyVoltage.c → d2.noisyVoltage.get t j ≠ 0 := by
    rw [hsync]; intro h; cases h
  obtain ⟨cv, ci, W, wi, hw, -, -, -⟩ := eivWeights_ok d2.noisyVoltage d2.noisyCurrent (averagedSd sc.vm sc.vp d2.fparam)
    (averagedSd sc.cm sc.cp d2.fparam) d2.ratings (!a.unsynchronized) h1 hm hp hsd.2.2.2 hcur hvn
  have hparts : cv = d2.noisyVoltage ∧ ci = d2.noisyCurrent ∧
      averageTrueNoiseCovariance d2.noisyVoltage (.npScalar (averagedSd sc.vm sc.vp d2.fparam).m) (averagedSd sc.vm sc.vp d2.fparam).p true =
        .ok W := by
    have hw' := hw
    rw [hsync] at hw'
    unfold eivWeights at hw'
    rw [if_pos (by rfl)] at hw'
    obtain ⟨w1, e1, hw'⟩ := Prior.bind_ok hw'
    obtain ⟨w2, -, hw'⟩ := Prior.bind_ok hw'
    have := Except.ok.inj hw'
    simp only [Prod.mk.injEq, Option.some.injEq] at this
    obtain ⟨rfl, rfl, rfl, rfl⟩ := this
    exact ⟨rfl, rfl, e1⟩
  obtain ⟨rfl, rfl, hW⟩ := hparts
  rw [hwt] at hcomp
  obtain ⟨hbet, hmain⟩ := C161_run hex hl hsq hcur (by
      intro y hy
      split at hy
      · rename_i hx
        rw [Bool.and_eq_true, Bool.not_eq_true'] at hx
        rcases hexact hx.1 with h | h
        · rw [hx.2] at h; cases h
        · cases hy
          exact ⟨h.1, h.2, hx.2⟩
      · cases hy) h90 h1 hm hp hsd.2.2.2 hvn hpr hit hcomp hw hY had hz0 hx0 hε hnoise hd hσ
  exact ⟨y0, prior, W, hy0, hd, hpr, hW, hbet, hmain⟩

/-! ### concrete cases -/

/-- three rows of two numbers -/
def rows32 (a b c d e f : ℂ) : Arr2 ℂ :=
  Arr2.ofFn 3 2 fun t j => if t = 0 then (if j = 0 then a else b) else if t = 1 then (if j = 0 then c else d) else (if j = 0 then e else f)

theorem rows32_get (a b c d e f : ℂ) : (rows32 a b c d e f).get 0 0 = a ∧ (rows32 a b c d e f).get 0 1 = b ∧
    (rows32 a b c d e f).get 1 0 = c ∧ (rows32 a b c d e f).get 1 1 = d ∧ (rows32 a b c d e f).get 2 0 = e ∧
    (rows32 a b c d e f).get 2 1 = f := by
  unfold rows32
  refine ⟨?_, ?_, ?_, ?_, ?_, ?_⟩ <;> rw [Arr2.ofFn_get _ (by norm_num) (by norm_num)] <;> simp

theorem rows32_centred {a b c d e f : ℂ} (h : a + c + e = 0) (h' : b + d + f = 0) :
    centreColumns (rows32 a b c d e f) = rows32 a b c d e f := by
  obtain ⟨g1, g2, g3, g4, g5, g6⟩ := rows32_get a b c d e f
  refine Arr2.ext' rfl rfl fun i j (hi : i < 3) (hj : j < 2) => ?_
  refine (Arr2.ofFn_get (r := 3) (c := 2) _ hi hj).trans ?_
  have e : ∑ s ∈ range (rows32 a b c d e f).r, (rows32 a b c d e f).get s j = 0 := by
    show ∑ s ∈ range 3, (rows32 a b c d e f).get s j = 0
    rw [Finset.sum_range_succ, Finset.sum_range_succ, Finset.sum_range_succ, Finset.sum_range_zero, zero_add]
    interval_cases j
    · rw [g1, g3, g5, h]
    · rw [g2, g4, g6, h']
  rw [e, zero_div, sub_zero]

/-- true voltages of three samples of two nodes, true currents for the admittance matrix `demoY126`, and currents with noise -/
def demoV161 : Arr2 ℂ := rows32 30 0 0 30 (-30) (-30)
def demoI161 : Arr2 ℂ := rows32 30 ⟨30, 30⟩ ⟨30, 30⟩ 30 ⟨-60, -30⟩ ⟨-60, -30⟩
def demoN161 : Arr2 ℂ := rows32 31 ⟨30, 30⟩ ⟨29, 30⟩ 30 ⟨-60, -30⟩ ⟨-60, -30⟩

def demoData161 : NetworkData := ⟨demoV161, demoN161, demoV161, demoI161, demoY126, [1, 1], 1, [1, 1]⟩

/-- `python identify_network.py --network ieee_33 --max-iterations 50 --weighted` -/
def demoArgs161 : IdArgs := ⟨"ieee_33", 50, false, false, false, "1", false, false, false, true, false, false⟩

def demoConf161 : IdConf := ⟨1, 1, 1, 1, 1, true, true, true⟩

theorem demo161_product : demoV161.matmul demoY126 = .ok demoI161 := by
  rw [Arr2.matmul_ok _ _ rfl]
  congr 1
  refine Arr2.ext' rfl rfl fun i j (hi : i < 3) (hj : j < 2) => ?_
  refine (Arr2.ofFn_get (r := 3) (c := 2) _ hi hj).trans ?_
  rw [Arr2.mulGet, show demoV161.c = 2 from rfl, Finset.sum_range_succ, Finset.sum_range_one]
  obtain ⟨g1, g2, g3, g4, g5, g6⟩ := rows32_get 30 0 0 30 (-30) (-30)
  obtain ⟨k1, k2, k3, k4, k5, k6⟩ := rows32_get 30 ⟨30, 30⟩ ⟨30, 30⟩ 30 ⟨-60, -30⟩ ⟨-60, -30⟩
  have y : ∀ a b, a < 2 → b < 2 → demoY126.get a b = if a = b then 1 else 1 + Complex.I := fun a b ha hb => Arr2.ofFn_get _ ha hb
  unfold demoV161 demoI161
  interval_cases i <;> interval_cases j <;>
    (rw [y 0 _ (by norm_num) (by norm_num), y 1 _ (by norm_num) (by norm_num)]
     simp only [g1, g2, g3, g4, g5, g6, k1, k2, k3, k4, k5, k6]
     apply Complex.ext <;> simp <;> norm_num)

theorem demo161_excited : Spec.AtLeast demoV161 30 := by
  intro (v : Fin 2 → ℂ)
  show 30 * Spec.len (n := 2) v ≤ Spec.len (n := 3) ((demoV161.toMat 3 2).mulVec v)
  obtain ⟨g1, g2, g3, g4, g5, g6⟩ := rows32_get 30 0 0 30 (-30) (-30)
  have e0 : (demoV161.toMat 3 2).mulVec v 0 = 30 * v 0 := by
    show ∑ k : Fin 2, demoV161.get 0 k * v k = _
    rw [Fin.sum_univ_two]
    show demoV161.get 0 0 * v 0 + demoV161.get 0 1 * v 1 = _
    unfold demoV161
    rw [g1, g2]; ring
  have e1 : (demoV161.toMat 3 2).mulVec v 1 = 30 * v 1 := by
    show ∑ k : Fin 2, demoV161.get 1 k * v k = _
    rw [Fin.sum_univ_two]
    show demoV161.get 1 0 * v 0 + demoV161.get 1 1 * v 1 = _
    unfold demoV161
    rw [g3, g4]; ring
  unfold Spec.len
  rw [Fin.sum_univ_two, Fin.sum_univ_three, e0, e1, norm_mul, norm_mul]
  apply Real.le_sqrt_of_sq_le
  rw [mul_pow, Real.sq_sqrt (by positivity)]
  norm_num [mul_pow]
  nlinarith [sq_nonneg ‖(demoV161.toMat 3 2).mulVec v 2‖]

theorem demo161_noise : Spec.size (Spec.diff demoV161 demoV161) ^ 2 + Spec.size (Spec.diff demoN161 demoI161) ^ 2 ≤ 2 ^ 2 := by
  rw [size_fsize (A := Spec.diff demoV161 demoV161) (m := 3) (n := 2) rfl rfl,
    diff_toMat (x := demoV161) (x0 := demoV161) (m := 3) (n := 2) ⟨rfl, rfl⟩ ⟨rfl, rfl⟩, sub_self,
    size_fsize (A := Spec.diff demoN161 demoI161) (m := 3) (n := 2) rfl rfl,
    diff_toMat (x := demoN161) (x0 := demoI161) (m := 3) (n := 2) ⟨rfl, rfl⟩ ⟨rfl, rfl⟩, fsize_sq, fsize_sq]
  simp only [Fin.sum_univ_three, Fin.sum_univ_two, Matrix.sub_apply, Matrix.zero_apply, norm_zero]
  obtain ⟨g1, g2, g3, g4, g5, g6⟩ := rows32_get 31 ⟨30, 30⟩ ⟨29, 30⟩ 30 ⟨-60, -30⟩ ⟨-60, -30⟩
  obtain ⟨k1, k2, k3, k4, k5, k6⟩ := rows32_get 30 ⟨30, 30⟩ ⟨30, 30⟩ 30 ⟨-60, -30⟩ ⟨-60, -30⟩
  have e : ∀ (A : Arr2 ℂ) (i : Fin 3) (j : Fin 2), A.toMat 3 2 i j = A.get i j := fun _ _ _ => rfl
  simp only [e]
  show _ + (‖demoN161.get 0 0 - demoI161.get 0 0‖ ^ 2 + ‖demoN161.get 0 1 - demoI161.get 0 1‖ ^ 2 +
    (‖demoN161.get 1 0 - demoI161.get 1 0‖ ^ 2 + ‖demoN161.get 1 1 - demoI161.get 1 1‖ ^ 2) +
    (‖demoN161.get 2 0 - demoI161.get 2 0‖ ^ 2 + ‖demoN161.get 2 1 - demoI161.get 2 1‖ ^ 2)) ≤ _
  unfold demoN161 demoI161
  rw [g1, g2, g3, g4, g5, g6, k1, k2, k3, k4, k5, k6, show (⟨29, 30⟩ - ⟨30, 30⟩ : ℂ) = -1 from by apply Complex.ext <;> simp <;> norm_num,
    show (31 - 30 : ℂ) = 1 from by norm_num]
  norm_num

theorem demo161_guess : Spec.guessError 2 30 (Spec.size demoY126) 2 < 1 := by
  have h : Spec.size demoY126 ^ 2 = 6 := by
    unfold Spec.size
    rw [Real.sq_sqrt (by positivity)]
    show ∑ i ∈ range 2, ∑ j ∈ range 2, ‖demoY126.get i j‖ ^ 2 = 6
    have y : ∀ a b, a < 2 → b < 2 → demoY126.get a b = if a = b then 1 else 1 + Complex.I := fun a b ha hb => Arr2.ofFn_get _ ha hb
    have hI : ‖(1 + Complex.I : ℂ)‖ ^ 2 = 2 := by
      rw [← Complex.normSq_eq_norm_sq, Complex.normSq_apply]; norm_num
    simp only [Finset.sum_range_succ, Finset.sum_range_zero, zero_add]
    rw [y 0 0 (by norm_num) (by norm_num), y 0 1 (by norm_num) (by norm_num), y 1 0 (by norm_num) (by norm_num), y 1 1 (by norm_num) (by norm_num)]
    simp only [if_true, zero_ne_one, one_ne_zero, if_false, hI]
    norm_num
  unfold Spec.guessError
  rw [h]
  have : Real.sqrt ((6 : ℝ) + ((2 : Nat) : ℝ)) ≤ 3 := Real.sqrt_le_iff.2 ⟨by norm_num, by norm_num⟩
  generalize Real.sqrt ((6 : ℝ) + ((2 : Nat) : ℝ)) = q at this ⊢
  rw [show (2 * 2 / (30 - 2 * 2) : ℝ) = 2 / 13 by norm_num]
  linarith

/-- an estimate closer than 1 to `demoY126` has its line -/
theorem demo161_seen {T : Arr2 ℂ} (hT : Spec.IsSquare 2 T) (h : Spec.size (Spec.diff T demoY126) < 1) : Spec.LinesSeen 2 T := by
  have hent : ∀ i j, i < 2 → j < 2 → ‖T.get i j - demoY126.get i j‖ < 1 := by
    intro i j hi hj
    refine lt_of_le_of_lt ?_ h
    unfold Spec.size
    apply Real.le_sqrt_of_sq_le
    have h1 : (Spec.diff T demoY126).get i j = T.get i j - demoY126.get i j :=
      Arr2.ofFn_get _ (by rw [hT.1]; exact hi) (by rw [hT.2]; exact hj)
    rw [← h1]
    refine le_trans ?_ (Finset.single_le_sum (f := fun i => ∑ j ∈ range (Spec.diff T demoY126).c, ‖(Spec.diff T demoY126).get i j‖ ^ 2)
      (fun _ _ => Finset.sum_nonneg fun _ _ => sq_nonneg _) (Finset.mem_range.2 (by show i < T.r; rw [hT.1]; exact hi)))
    exact Finset.single_le_sum (f := fun j => ‖(Spec.diff T demoY126).get i j‖ ^ 2) (fun _ _ => sq_nonneg _)
      (Finset.mem_range.2 (by show j < T.c; rw [hT.2]; exact hj))
  intro e he im
  rw [mem_offPairs] at he
  have h1 : e.1 = 1 := by omega
  have h2 : e.2 = 0 := by omega
  rw [h1, h2]
  have y10 : demoY126.get 1 0 = 1 + Complex.I := Arr2.ofFn_get (r := 2) (c := 2) _ (by norm_num) (by norm_num)
  have y01 : demoY126.get 0 1 = 1 + Complex.I := Arr2.ofFn_get (r := 2) (c := 2) _ (by norm_num) (by norm_num)
  have a := hent 1 0 (by norm_num) (by norm_num)
  have b := hent 0 1 (by norm_num) (by norm_num)
  rw [y10] at a
  rw [y01] at b
  have e : (Spec.symPart 2 T).get 1 0 = (T.get 1 0 + T.get 0 1) / 2 := by
    unfold Spec.symPart
    rw [Arr2.ofFn_get _ (by norm_num) (by norm_num)]
  rw [e]
  have ar := (Complex.abs_re_le_norm _).trans_lt a
  have ai := (Complex.abs_im_le_norm _).trans_lt a
  have br := (Complex.abs_re_le_norm _).trans_lt b
  have bi := (Complex.abs_im_le_norm _).trans_lt b
  rw [abs_lt] at ar ai br bi
  simp at ar ai br bi
  cases im <;> simp [Spec.part] <;> intro h0 <;> linarith

theorem demo161_facts (st : Store) (a : IdArgs) :
    networkLoad (st.savez (resultFile .network "ieee_33") (networkNpz demoData161)) "ieee_33" = .ok demoData161 ∧
    centreData false demoV161 demoN161 = (demoV161, demoN161) ∧ selectPhase a demoData161 = .ok demoData161 ∧
    Spec.Noisy demoV161 demoN161 demoV161 demoI161 demoY126 2 := by
  refine ⟨C49_network "ieee_33" demoData161 st (h := []) ⟨templates_plain "ieee_33" (by decide), by simp⟩, ?_, ?_,
    noisy_of_size (x := demoV161) (z := demoN161) (ε := 2) demo161_product ⟨rfl, rfl⟩ ⟨rfl, rfl⟩ (by norm_num) demo161_noise⟩
  · show (centreColumns _, centreColumns _) = _
    unfold demoV161 demoN161
    rw [rows32_centred (by norm_num) (by norm_num), rows32_centred (by apply Complex.ext <;> simp <;> norm_num)
      (by apply Complex.ext <;> simp <;> norm_num)]
  · unfold selectPhase
    rw [if_neg]
    · rfl
    · rintro ⟨-, x, hx, hx1⟩
      exact hx1 (by simpa [demoData161] using hx)

theorem demo161_line (T : Arr2 ℂ) (hT : tlsFit exactSvd exactInv demoV161 demoN161 = .ok T) : Spec.LinesSeen 2 T := by
  obtain ⟨T', hT', hTs, hTe⟩ := C117_tls exactSvd_contract exactInv_contract
    (noisy_of_size (x := demoV161) (z := demoN161) (ε := 2) demo161_product ⟨rfl, rfl⟩ ⟨rfl, rfl⟩ (by norm_num) demo161_noise)
    demo161_excited (by norm_num) (by norm_num)
  obtain rfl : T' = T := Except.ok.inj (hT'.symm.trans hT)
  exact demo161_seen hTs (lt_of_le_of_lt (errorBound_size (n := 2) hTs ⟨rfl, rfl⟩ (by norm_num) (by norm_num) hTe) demo161_guess)

/-- The script with weights returns on these data, and `C161_identify` applies to the run. -/
theorem demo161 (sc : SimConf) (hsc : 0 < sc.vm ∧ 0 < sc.vp) (st : Store) :
    ∃ r y0, (identify ⟨exactPinv, exactSvd, exactInv, exactSolve⟩ demoConf161 sc demoArgs161
      (st.savez (resultFile .network "ieee_33") (networkNpz demoData161))).res = .ok r ∧
    halfSum r.1.2.1 = .ok y0 ∧ Spec.size (Spec.diff y0 demoY126) < 1 ∧
    ∃ η, Spec.ErrorBound r.2.1 demoY126 (30 - η) η := by
  obtain ⟨hload, hc, hsel, hN⟩ := demo161_facts st demoArgs161
  obtain ⟨r, hr, -, -⟩ := C119 (ext := ⟨exactPinv, exactSvd, exactInv, exactSolve⟩) (cf := demoConf161) (sc := sc) (a := demoArgs161)
    (st := st.savez (resultFile .network "ieee_33") (networkNpz demoData161)) (d := demoData161) (d' := demoData161) (x0 := demoV161)
    (z0 := demoI161) (Y := demoY126) (ε := 2) (σ := 30) exactInv_contract exactSolve_exact exactSolve_total exactPinv_contract
    exactSvd_contract (by simp [demoConf161]) (by simp [demoConf161])
    ⟨by decide, rfl, rfl, .inr rfl, fun h => by simp [demoArgs161] at h⟩ (by decide) hload hsel (by simp [demoArgs161]) rfl
    (by
      show Spec.Noisy (centreData false demoV161 demoN161).1 (centreData false demoV161 demoN161).2 _ _ _ _
      rw [hc]; exact hN) demo161_excited (by norm_num) (by norm_num)
    (by
      rintro (h | h)
      · cases h.1
      · cases h)
    (by
      intro _
      right
      refine ⟨by simp [demoConf161], .inr (by simp [demoConf161]), ?_, fun _ => ⟨by decide, hsc.1, hsc.2, ?_, ?_, fun h => by cases h⟩⟩
      · show ∀ T, tlsFit exactSvd exactInv (centreData false demoV161 demoN161).1 (centreData false demoV161 demoN161).2 = .ok T →
          Spec.LinesSeen 2 T
        rw [hc]
        exact demo161_line
      · simp [demoData161]
      · simp [demoData161])
  obtain ⟨y0, prior, W, h1, h2, -, -, ⟨c, C, hc0, hcC, hb⟩, h3⟩ := C161_identify (templates_plain "ieee_33" (by decide)) (by decide) exactInv_contract
    exactSolve_exact exactSvd_contract (by simp [demoConf161]) hr (.inr (by simp [demoArgs161])) (.inr (by simp [demoArgs161])) (by decide) rfl rfl
    hload hsel (by decide) ⟨hsc.1, hsc.2, by simp [demoData161], by simp [demoData161]⟩ (fun h => by simp [demoArgs161] at h)
    (by simp [demoArgs161]) (x0 := demoV161) (z0 := demoI161) (Y := demoY126) ⟨rfl, rfl⟩ ⟨demoY126_symm, fun h => by cases h⟩
    demo161_product rfl ⟨rfl, rfl⟩ (ε := 2) (σ := 30) (by norm_num)
    (by
      show Spec.size (Spec.diff (centreData false demoV161 demoN161).1 demoV161) ^ 2 +
        Spec.size (Spec.diff (centreData false demoV161 demoN161).2 demoI161) ^ 2 ≤ _
      rw [hc]; exact demo161_noise) demo161_excited (by norm_num)
  exact ⟨r, y0, hr, h1, lt_of_le_of_lt h2 demo161_guess, _, (h3 c C hc0 hcC hb _ rfl).1⟩

/-- one node with noise in the current and a wrong guess: the estimates of a fit without prior and with unit weights -/
example {res : Except PyErr Unit} {obj : RegObj}
    (hfit : eivFit exactSolve exactInv (oneCfgL 0 50) RegObj.fresh (scalarArr 1) (scalarArr (101 / 100)) (some (scaledEye 2 1))
      (some (scaledEye 2 7)) (scalarArr 1) = (res, obj)) :
    ∀ e ∈ obj.iterations, Spec.ErrorBound e.params (scalarArr 1) (1 - 2 / 100) (2 / 100) := by
  have hd : ∀ a b : ℂ, Spec.size (Spec.diff (scalarArr a) (scalarArr b)) = ‖a - b‖ := by
    intro a b
    unfold Spec.size
    show Real.sqrt (∑ i ∈ range 1, ∑ j ∈ range 1, ‖(Spec.diff (scalarArr a) (scalarArr b)).get i j‖ ^ 2) = _
    rw [Finset.sum_range_one, Finset.sum_range_one]
    have : (Spec.diff (scalarArr a) (scalarArr b)).get 0 0 = a - b := by
      refine (Arr2.ofFn_get (r := 1) (c := 1) _ (by norm_num) (by norm_num)).trans ?_
      rw [scalarArr_get, scalarArr_get]
    rw [this, Real.sqrt_sq (norm_nonneg _)]
  have hb : Spec.WeightsBetween 1 1 (scaledEye 2 1) := fun v => by rw [wquad_scaledEye]; exact ⟨le_rfl, le_rfl⟩
  refine (C161_fit (oneL_setup 0 50 (101 / 100) 1) le_rfl (fun t ht => by
    simp [oneCfgL, oneCfg, onePrior, Spec.terms] at ht
    rcases ht with rfl | rfl <;> exact Or.inl rfl) (scaledEye_weight 2 zero_le_one) (scaledEye 2 7) one_pos le_rfl hb
    exactSolve_exact hfit (x0 := scalarArr 1) (z0 := scalarArr 1) (Y := scalarArr 1) (ε := 1 / 100) (d := 0) (σ := 1) ⟨rfl, rfl⟩
    ⟨scalar_symm _, fun h => nomatch h⟩ (by rw [scalar_matmul, one_mul]) rfl (by norm_num) ?_ ?_ ?_ ?_).1
  · rw [hd, hd]; norm_num
  · rw [hd]; norm_num
  · intro (v : Fin 1 → ℂ)
    show 1 * Spec.len (n := 1) v ≤ Spec.len (n := 1) (((scalarArr 1).toMat 1 1).mulVec v)
    have : ((scalarArr 1).toMat 1 1).mulVec v = v := by
      funext i
      show ∑ k : Fin 1, (scalarArr 1).get i k * v k = v i
      rw [Fin.sum_univ_one, Subsingleton.elim i 0]
      show (scalarArr 1).get 0 0 * v 0 = v 0
      rw [scalarArr_get, one_mul]
    rw [this, one_mul]
  · simp [Spec.eivShift, oneCfgL]
    norm_num

end
end Verif
