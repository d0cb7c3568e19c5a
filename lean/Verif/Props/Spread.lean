/-
C177: the expected error that `eiv_fim` stores.
-/
import Verif.Model.Spread
import Mathlib.Probability.Distributions.Gaussian.Real
import Verif.Props.BayesWeights

namespace Verif
open Finset MeasureTheory ProbabilityTheory
noncomputable section

namespace Spec

/-- relative distance of sample `k` from `y` -/
def relDist (S : Arr2 ℝ) (y : List ℝ) (k : Nat) : ℝ :=
  Real.sqrt (∑ j ∈ range y.length, (S.get k j - y.getD j 0) ^ 2) / Real.sqrt (∑ j ∈ range y.length, y.getD j 0 ^ 2)

/-- mean relative distance of the samples -/
def meanRel (S : Arr2 ℝ) (y : List ℝ) : ℝ := (∑ k ∈ range S.r, relDist S y k) / S.r

/-- root mean square of the relative distances of the samples -/
def rmsRel (S : Arr2 ℝ) (y : List ℝ) : ℝ := Real.sqrt ((∑ k ∈ range S.r, relDist S y k ^ 2) / S.r)

/-- what `np.random.multivariate_normal(y, C, n)` is used for: `n` samples whose component `j` is normal with mean `y j` and the variance
at place `j` of the diagonal -/
structure NormalDraws {Ω : Type} [MeasurableSpace Ω] (P : Measure Ω) (y : List ℝ) (C : Arr2 ℝ) (n : Nat) (S : Ω → Arr2 ℝ) : Prop where
  rows : ∀ ω, (S ω).r = n
  meas : ∀ k j, k < n → j < y.length → Measurable (fun ω => (S ω).get k j)
  law : ∀ k j, k < n → j < y.length → P.map (fun ω => (S ω).get k j) = gaussianReal (y.getD j 0) (C.get j j).toNNReal

end Spec

theorem norm2_eq (y : List ℝ) : norm2 y = Real.sqrt (∑ j ∈ range y.length, y.getD j 0 ^ 2) := by
  unfold norm2
  congr 1
  rw [← list_sum_range]
  congr 1
  refine List.ext_getElem (by simp) fun i h1 h2 => ?_
  simp at h1
  simp [List.getD_eq_getElem?_getD, List.getElem?_eq_getElem h1]

/-- the variance of numbers -/
theorem npStd_sq (n : Nat) (hn : 0 < n) (f : Nat → ℝ) : npStd ((List.range n).map f) ^ 2 =
    (∑ k ∈ range n, f k ^ 2) / n - ((∑ k ∈ range n, f k) / n) ^ 2 := by
  have hn' : (n : ℝ) ≠ 0 := by exact_mod_cast hn.ne'
  have hm : npMean ((List.range n).map f) = (∑ k ∈ range n, f k) / n := by
    unfold npMean
    rw [list_sum_range]
    simp
  unfold npStd
  rw [hm]
  set μ := (∑ k ∈ range n, f k) / n with hμ
  have e : npMean (((List.range n).map f).map (fun t => (t - μ) ^ 2)) = (∑ k ∈ range n, (f k - μ) ^ 2) / n := by
    unfold npMean
    rw [List.map_map, list_sum_range]
    simp
  rw [e, Real.sq_sqrt (div_nonneg (Finset.sum_nonneg fun _ _ => sq_nonneg _) (Nat.cast_nonneg n))]
  have hs : ∑ k ∈ range n, f k = μ * n := by rw [hμ]; field_simp
  have h2 : ∑ k ∈ range n, (f k - μ) ^ 2 = ∑ k ∈ range n, f k ^ 2 - 2 * μ * ∑ k ∈ range n, f k + n * μ ^ 2 := by
    have h3 : (n : ℝ) * μ ^ 2 = ∑ _k ∈ range n, μ ^ 2 := by simp
    rw [h3, Finset.mul_sum, ← Finset.sum_sub_distrib, ← Finset.sum_add_distrib]
    exact Finset.sum_congr rfl fun k _ => by ring
  rw [h2, hs]
  field_simp
  ring

theorem npStd_nonneg (v : List ℝ) : 0 ≤ npStd v := Real.sqrt_nonneg _

/-- the square of the stored number is the mean square minus the squared mean -/
theorem errSpread_sq (draw : List ℝ → Arr2 ℝ → Nat → Arr2 ℝ) (y : List ℝ) (cov : Arr2 ℝ) (n : Nat) (hr : 0 < (draw y cov n).r) :
    0 ≤ errSpread draw y cov n ∧
    errSpread draw y cov n ^ 2 = Spec.rmsRel (draw y cov n) y ^ 2 - Spec.meanRel (draw y cov n) y ^ 2 := by
  set S := draw y cov n with hS
  refine ⟨div_nonneg (npStd_nonneg _) (Real.sqrt_nonneg _), ?_⟩
  unfold errSpread sampleNorms
  rw [← hS, div_pow, npStd_sq _ hr, Spec.rmsRel, Real.sq_sqrt (div_nonneg (Finset.sum_nonneg fun _ _ => sq_nonneg _) (Nat.cast_nonneg _)),
    Spec.meanRel]
  have e : ∀ k, Spec.relDist S y k = norm2 ((List.range y.length).map (fun j => S.get k j - y.getD j 0)) / norm2 y := by
    intro k
    unfold Spec.relDist
    rw [← norm2_eq]
    congr 1
    unfold norm2
    rw [List.map_map, list_sum_range]
    rfl
  simp only [e, div_pow, ← Finset.sum_div]
  ring

/-- the number that `eiv_fim` returns -/
theorem eivFim_spread {invR : Arr2 ℝ → Except PyErr (Arr2 ℝ)} {spread : List ℝ → Arr2 ℝ → Nat → ℝ} {name : String} {v c yMat : Arr2 ℂ}
    {vsd isd : SdPolar} {ratings : List ℝ} {nSamples : Option Nat} {lap : Bool} {st : Store} {F C : Arr2 ℝ} {e : ℝ}
    (h : (eivFim invR spread name (some v) (some c) vsd isd ratings yMat nSamples lap st).1 = .ok (F, C, e)) :
    e = spread (makeRealVector (vectorizeMatrix yMat)) C (nSamples.getD 10000) := by
  unfold eivFim at h
  dsimp only at h
  cases hc : fimCompute invR spread v c vsd isd ratings yMat nSamples lap with
  | error q => rw [hc] at h; cases h
  | ok q =>
    rw [hc] at h
    cases h
    unfold fimCompute at hc
    obtain ⟨sv, -, hc⟩ := Prior.bind_ok hc
    obtain ⟨si, -, hc⟩ := Prior.bind_ok hc
    obtain ⟨p, -, hc⟩ := Prior.bind_ok hc
    cases hc
    rfl

/-- a distance is zero exactly for the sample `y` -/
theorem relDist_zero {S : Arr2 ℝ} {y : List ℝ} (hy : ∃ j < y.length, y.getD j 0 ≠ 0) (k : Nat) :
    Spec.relDist S y k = 0 ↔ ∀ j < y.length, S.get k j = y.getD j 0 := by
  have hpos : 0 < ∑ j ∈ range y.length, y.getD j 0 ^ 2 := by
    obtain ⟨j, hj, hne⟩ := hy
    exact Finset.sum_pos' (fun _ _ => sq_nonneg _) ⟨j, Finset.mem_range.2 hj, by positivity⟩
  unfold Spec.relDist
  rw [div_eq_zero_iff, or_iff_left (Real.sqrt_pos.2 hpos).ne', Real.sqrt_eq_zero (Finset.sum_nonneg fun _ _ => sq_nonneg _),
    Finset.sum_eq_zero_iff_of_nonneg fun _ _ => sq_nonneg _]
  simp only [Finset.mem_range, pow_eq_zero_iff (two_ne_zero), sub_eq_zero]

theorem relDist_nonneg (S : Arr2 ℝ) (y : List ℝ) (k : Nat) : 0 ≤ Spec.relDist S y k := div_nonneg (Real.sqrt_nonneg _) (Real.sqrt_nonneg _)

/-- C177, exactly: the square of the number that `eiv_fim` stores is the mean square of the relative distances of its samples minus the
square of their mean -/
theorem C177_partial {invR : Arr2 ℝ → Except PyErr (Arr2 ℝ)} {draw : List ℝ → Arr2 ℝ → Nat → Arr2 ℝ} {name : String} {v c yMat : Arr2 ℂ}
    {vsd isd : SdPolar} {ratings : List ℝ} {nSamples : Option Nat} {lap : Bool} {st : Store} {F C : Arr2 ℝ} {e : ℝ}
    (h : (eivFim invR (errSpread draw) name (some v) (some c) vsd isd ratings yMat nSamples lap st).1 = .ok (F, C, e))
    {y : List ℝ} (hyv : y = makeRealVector (vectorizeMatrix yMat)) {S : Arr2 ℝ} (hS : S = draw y C (nSamples.getD 10000)) (hr : 0 < S.r) :
    0 ≤ e ∧ e ^ 2 = Spec.rmsRel S y ^ 2 - Spec.meanRel S y ^ 2 := by
  rw [eivFim_spread h, ← hyv]
  subst hS
  exact errSpread_sq draw y C _ hr

/-- C177 violated: it is less than the root mean square unless all samples are equal to `y`, and zero whenever all of them have the same
distance from it -/
theorem C177_violated {invR : Arr2 ℝ → Except PyErr (Arr2 ℝ)} {draw : List ℝ → Arr2 ℝ → Nat → Arr2 ℝ} {name : String} {v c yMat : Arr2 ℂ}
    {vsd isd : SdPolar} {ratings : List ℝ} {nSamples : Option Nat} {lap : Bool} {st : Store} {F C : Arr2 ℝ} {e : ℝ}
    (h : (eivFim invR (errSpread draw) name (some v) (some c) vsd isd ratings yMat nSamples lap st).1 = .ok (F, C, e))
    {y : List ℝ} (hyv : y = makeRealVector (vectorizeMatrix yMat)) {S : Arr2 ℝ} (hS : S = draw y C (nSamples.getD 10000)) (hr : 0 < S.r)
    (hy : ∃ j < y.length, y.getD j 0 ≠ 0) :
    ((∃ k < S.r, ∃ j < y.length, S.get k j ≠ y.getD j 0) → e < Spec.rmsRel S y) ∧
    (∀ ρ, (∀ k < S.r, Spec.relDist S y k = ρ) → e = 0 ∧ Spec.rmsRel S y = ρ) := by
  obtain ⟨h0, h2⟩ := C177_partial h hyv hS hr
  have hr' : (0 : ℝ) < S.r := by exact_mod_cast hr
  refine ⟨fun ⟨k, hk, j, hj, hne⟩ => ?_, fun ρ hρ => ?_⟩
  · have hpos : 0 < Spec.meanRel S y := by
      refine div_pos (Finset.sum_pos' (fun _ _ => relDist_nonneg ..) ⟨k, Finset.mem_range.2 hk, ?_⟩) hr'
      refine lt_of_le_of_ne (relDist_nonneg ..) fun e0 => hne ((relDist_zero hy k).1 e0.symm j hj)
    refine lt_of_pow_lt_pow_left₀ 2 (Real.sqrt_nonneg _) ?_
    have := pow_pos hpos 2
    linarith
  · have hρ0 : 0 ≤ ρ := by rw [← hρ 0 hr]; exact relDist_nonneg ..
    have e1 : Spec.rmsRel S y = ρ := by
      unfold Spec.rmsRel
      rw [Finset.sum_congr rfl fun k hk => by rw [hρ k (Finset.mem_range.1 hk)], Finset.sum_const, Finset.card_range, nsmul_eq_mul,
        mul_div_cancel_left₀ _ hr'.ne', Real.sqrt_sq hρ0]
    have e2 : Spec.meanRel S y = ρ := by
      unfold Spec.meanRel
      rw [Finset.sum_congr rfl fun k hk => by rw [hρ k (Finset.mem_range.1 hk)], Finset.sum_const, Finset.card_range, nsmul_eq_mul,
        mul_div_cancel_left₀ _ hr'.ne']
    rw [e1, e2, sub_self] at h2
    exact ⟨pow_eq_zero_iff two_ne_zero |>.1 h2, e1⟩

section
variable {Ω : Type} [MeasurableSpace Ω] {P : Measure Ω} [IsProbabilityMeasure P]

/-- second moments of the draws -/
theorem draws_moment {y : List ℝ} {C : Arr2 ℝ} {n : Nat} {S : Ω → Arr2 ℝ} (hS : Spec.NormalDraws P y C n S)
    (hC : ∀ j < y.length, 0 ≤ C.get j j) {k j : Nat} (hk : k < n) (hj : j < y.length) :
    Integrable (fun ω => ((S ω).get k j - y.getD j 0) ^ 2) P ∧ ∫ ω, ((S ω).get k j - y.getD j 0) ^ 2 ∂P = C.get j j := by
  have hm := hS.meas k j hk hj
  have hl := hS.law k j hk hj
  have hmem : MemLp (fun x : ℝ => x - y.getD j 0) 2 (gaussianReal (y.getD j 0) (C.get j j).toNNReal) :=
    (memLp_id_gaussianReal' 2 (by simp)).sub (memLp_const _)
  have hi : Integrable (fun x : ℝ => (x - y.getD j 0) ^ 2) (P.map (fun ω => (S ω).get k j)) := by
    rw [hl]; exact hmem.integrable_sq
  refine ⟨hi.comp_measurable hm, ?_⟩
  have h1 := integral_map hm.aemeasurable hi.aestronglyMeasurable
  rw [← h1, hl]
  have h2 := variance_fun_id_gaussianReal (μ := y.getD j 0) (v := (C.get j j).toNNReal)
  rw [variance_eq_integral measurable_id'.aemeasurable] at h2
  simp only [integral_id_gaussianReal] at h2
  rw [h2, Real.coe_toNNReal _ (hC j hj)]

/-- C177, expectation: the samples have the mean square error of the Cramér-Rao bound, the trace of the covariance, but the mean square
of the number that `eiv_fim` stores and `identify_network.py` prints as that bound is less -/
theorem C177_law_violated {invR : Arr2 ℝ → Except PyErr (Arr2 ℝ)} {draw : Ω → List ℝ → Arr2 ℝ → Nat → Arr2 ℝ} {name : String}
    {v c yMat : Arr2 ℂ} {vsd isd : SdPolar} {ratings : List ℝ} {nSamples : Option Nat} {lap : Bool} {st : Store} {F C : Arr2 ℝ} {e : Ω → ℝ}
    (h : ∀ ω, (eivFim invR (errSpread (draw ω)) name (some v) (some c) vsd isd ratings yMat nSamples lap st).1 = .ok (F, C, e ω))
    {y : List ℝ} (hyv : y = makeRealVector (vectorizeMatrix yMat)) {S : Ω → Arr2 ℝ} (hSd : ∀ ω, S ω = draw ω y C (nSamples.getD 10000))
    (hn : 0 < nSamples.getD 10000) (hS : Spec.NormalDraws P y C (nSamples.getD 10000) S) (hy : ∃ j < y.length, y.getD j 0 ≠ 0)
    (hC : ∀ j < y.length, 0 ≤ C.get j j) (hC1 : ∃ j < y.length, C.get j j ≠ 0) :
    ∫ ω, Spec.rmsRel (S ω) y ^ 2 ∂P = (∑ j ∈ range y.length, C.get j j) / ∑ j ∈ range y.length, y.getD j 0 ^ 2 ∧
    ∫ ω, e ω ^ 2 ∂P < (∑ j ∈ range y.length, C.get j j) / ∑ j ∈ range y.length, y.getD j 0 ^ 2 := by
  set n := nSamples.getD 10000 with hnn
  set N := ∑ j ∈ range y.length, y.getD j 0 ^ 2 with hN
  have hn' : (0 : ℝ) < n := by exact_mod_cast hn
  have hNpos : 0 < N := by
    obtain ⟨j, hj, hne⟩ := hy
    exact Finset.sum_pos' (fun _ _ => sq_nonneg _) ⟨j, Finset.mem_range.2 hj, by positivity⟩
  have hrel : ∀ ω k, Spec.relDist (S ω) y k ^ 2 = (∑ j ∈ range y.length, ((S ω).get k j - y.getD j 0) ^ 2) / N := by
    intro ω k
    unfold Spec.relDist
    rw [div_pow, Real.sq_sqrt (Finset.sum_nonneg fun _ _ => sq_nonneg _), Real.sq_sqrt hNpos.le]
  have hrms : ∀ ω, Spec.rmsRel (S ω) y ^ 2 = (∑ k ∈ range n, (∑ j ∈ range y.length, ((S ω).get k j - y.getD j 0) ^ 2) / N) / n := by
    intro ω
    unfold Spec.rmsRel
    rw [hS.rows, Real.sq_sqrt (div_nonneg (Finset.sum_nonneg fun _ _ => sq_nonneg _) hn'.le)]
    simp only [hrel]
  have hint : ∀ k < n, Integrable (fun ω => (∑ j ∈ range y.length, ((S ω).get k j - y.getD j 0) ^ 2) / N) P := fun k hk =>
    (integrable_finset_sum _ fun j hj => (draws_moment hS hC hk (Finset.mem_range.1 hj)).1).div_const _
  have hsum : ∀ k < n, ∫ ω, (∑ j ∈ range y.length, ((S ω).get k j - y.getD j 0) ^ 2) / N ∂P = (∑ j ∈ range y.length, C.get j j) / N := by
    intro k hk
    rw [integral_div, integral_finset_sum _ fun j hj => (draws_moment hS hC hk (Finset.mem_range.1 hj)).1]
    congr 1
    exact Finset.sum_congr rfl fun j hj => (draws_moment hS hC hk (Finset.mem_range.1 hj)).2
  have hrmsI : Integrable (fun ω => Spec.rmsRel (S ω) y ^ 2) P := by
    simp only [hrms]
    exact (integrable_finset_sum _ fun k hk => hint k (Finset.mem_range.1 hk)).div_const _
  have h1 : ∫ ω, Spec.rmsRel (S ω) y ^ 2 ∂P = (∑ j ∈ range y.length, C.get j j) / N := by
    simp only [hrms]
    rw [integral_div, integral_finset_sum _ fun k hk => hint k (Finset.mem_range.1 hk),
      Finset.sum_congr rfl fun k hk => hsum k (Finset.mem_range.1 hk), Finset.sum_const, Finset.card_range, nsmul_eq_mul,
      mul_div_cancel_left₀ _ hn'.ne']
  refine ⟨h1, ?_⟩
  have he : ∀ ω, e ω ^ 2 = Spec.rmsRel (S ω) y ^ 2 - Spec.meanRel (S ω) y ^ 2 := fun ω =>
    (C177_partial (h ω) hyv (hSd ω) (by rw [hS.rows]; exact hn)).2
  have hmeasD : ∀ k < n, Measurable (fun ω => Spec.relDist (S ω) y k) := fun k hk => by
    unfold Spec.relDist
    exact (Measurable.sqrt (Finset.measurable_sum _ fun j hj =>
      ((hS.meas k j hk (Finset.mem_range.1 hj)).sub_const _).pow_const 2)).div_const _
  have hmeasM : Measurable (fun ω => Spec.meanRel (S ω) y) := by
    unfold Spec.meanRel
    simp only [hS.rows]
    exact (Finset.measurable_sum _ fun k hk => hmeasD k (Finset.mem_range.1 hk)).div_const _
  have hmI : Integrable (fun ω => Spec.meanRel (S ω) y ^ 2) P := by
    refine hrmsI.mono' (hmeasM.pow_const 2).aestronglyMeasurable (Filter.Eventually.of_forall fun ω => ?_)
    rw [Real.norm_of_nonneg (sq_nonneg _)]
    have := he ω
    have := sq_nonneg (e ω)
    linarith
  simp only [he]
  rw [integral_sub hrmsI hmI, h1, sub_lt_self_iff]
  refine lt_of_le_of_ne (integral_nonneg fun _ => sq_nonneg _) fun hz => ?_
  have hae := (integral_eq_zero_iff_of_nonneg (fun _ => sq_nonneg _) hmI).1 hz.symm
  obtain ⟨j, hj, hne⟩ := hC1
  obtain ⟨-, hm⟩ := draws_moment hS hC hn hj
  refine hne (hm.symm.trans ?_)
  have : ∀ᵐ ω ∂P, ((S ω).get 0 j - y.getD j 0) ^ 2 = 0 := by
    filter_upwards [hae] with ω hω
    have hω : Spec.meanRel (S ω) y ^ 2 = 0 := hω
    have hω := pow_eq_zero_iff two_ne_zero |>.1 hω
    unfold Spec.meanRel at hω
    rw [hS.rows, div_eq_zero_iff, or_iff_left hn'.ne', Finset.sum_eq_zero_iff_of_nonneg fun _ _ => relDist_nonneg ..] at hω
    rw [(relDist_zero hy 0).1 (hω 0 (Finset.mem_range.2 hn)) j hj, sub_self]
    norm_num
  rw [integral_congr_ae this, integral_zero]

end

/-! ### two nodes with unit covariance -/

/-- a run of `eiv_fim` with a routine that returns the unit matrix -/
theorem demo_fim177 (spread : List ℝ → Arr2 ℝ → Nat → ℝ) (st : Store) : ∃ F, ((eivFim (fun _ => .ok (Arr2.eye 8)) spread "a" (some demoV126)
    (some demoV126) ⟨1, 1⟩ ⟨1, 1⟩ [1, 1] demoY126 none false st).1 = .ok (F, Arr2.eye 8,
      spread (makeRealVector (vectorizeMatrix demoY126)) (Arr2.eye 8) 10000)) ∧ ∀ spread' st', (eivFim (fun _ => .ok (Arr2.eye 8)) spread'
      "a" (some demoV126) (some demoV126) ⟨1, 1⟩ ⟨1, 1⟩ [1, 1] demoY126 none false st').1 = .ok (F, Arr2.eye 8,
      spread' (makeRealVector (vectorizeMatrix demoY126)) (Arr2.eye 8) 10000) := by
  obtain ⟨Sv, hSv, r1, r2, -⟩ := noise_reads averageCov demoV126 (.npScalar 1) 1 (show (2 : ℕ) ≠ 1 by decide)
  obtain ⟨Si, hSi, r3, r4, -⟩ := noise_reads averageCov demoV126 (ratedSd ⟨1, 1⟩ [1, 1]) 1 rfl
  have hargs : Spec.FisherArgs (centreData false demoV126 demoV126).1 Sv Si demoY126 :=
    ⟨Nat.two_pos, Nat.two_pos, ⟨r1, r2⟩, ⟨r3, r4⟩, ⟨rfl, rfl⟩⟩
  obtain ⟨W, F, -, -, -, -, -, -, -, hF, -⟩ := C42_partial hargs
  have h1 : averageTrueNoiseCovariance demoV126 (.npScalar 1) 1 false = .ok Sv := hSv
  have h2 : averageTrueNoiseCovariance demoV126 (ratedSd ⟨1, 1⟩ [1, 1]) 1 false = .ok Si := hSi
  have h3 : ∀ spread, fimCompute (fun _ => .ok (Arr2.eye 8)) spread demoV126 demoV126 ⟨1, 1⟩ ⟨1, 1⟩ [1, 1] demoY126 none false =
      .ok (F, Arr2.eye 8, spread (makeRealVector (vectorizeMatrix demoY126)) (Arr2.eye 8) 10000) := by
    intro spread
    simp only [fimCompute, h1, h2, bind, Except.bind, hF (fun _ => .ok (Arr2.eye 8)) (Arr2.eye 8) rfl]
    rfl
  exact ⟨F, by simp only [eivFim, h3], fun spread' st' => by simp only [eivFim, h3]⟩

/-- samples that move all parameters by the same normal amount -/
def demoDraw177 (ω : ℝ) (y : List ℝ) (_ : Arr2 ℝ) (n : Nat) : Arr2 ℝ := Arr2.ofFn n y.length (fun _ j => y.getD j 0 + ω)

/-- `C177_law_violated` and `C177_violated` apply: one draw has all samples at the same distance, so that the stored number is zero -/
example (st : Store) : ∃ (F : Arr2 ℝ) (e : ℝ → ℝ), (∀ ω, (eivFim (fun _ => .ok (Arr2.eye 8)) (errSpread (demoDraw177 ω)) "a" (some demoV126) (some demoV126)
      ⟨1, 1⟩ ⟨1, 1⟩ [1, 1] demoY126 none false st).1 = .ok (F, Arr2.eye 8, e ω)) ∧
    ∫ ω, e ω ^ 2 ∂(gaussianReal 0 1) < (∑ j ∈ range 8, (Arr2.eye 8 : Arr2 ℝ).get j j) /
      ∑ j ∈ range 8, (makeRealVector (vectorizeMatrix demoY126)).getD j 0 ^ 2 ∧ e 1 = 0 := by
  obtain ⟨F, -, hF⟩ := demo_fim177 (fun _ _ _ => 0) st
  have hlen : (makeRealVector (vectorizeMatrix demoY126)).length = 8 := by
    simp [makeRealVector, vectorizeMatrix, demoY126, Arr2.ofFn]
  set y := makeRealVector (vectorizeMatrix demoY126) with hy
  have hy0 : ∃ j < y.length, y.getD j 0 ≠ 0 := by
    refine ⟨0, by rw [hlen]; norm_num, ?_⟩
    rw [hy]
    simp [makeRealVector, vectorizeMatrix, demoY126, Arr2.ofFn_get', Arr2.ofFn, List.range_succ]
  have hone : ∀ j < y.length, (Arr2.eye 8 : Arr2 ℝ).get j j = 1 := by
    intro j hj
    rw [hlen] at hj
    simp [Arr2.eye, Arr2.ofFn_get', hj]
  have hD : Spec.NormalDraws (gaussianReal 0 1) y (Arr2.eye 8) 10000 (fun ω => demoDraw177 ω y (Arr2.eye 8) 10000) := by
    refine ⟨fun _ => rfl, fun k j hk hj => ?_, fun k j hk hj => ?_⟩
    · simp only [demoDraw177, Arr2.ofFn_get _ hk hj]
      exact measurable_id.const_add _
    · simp only [demoDraw177, Arr2.ofFn_get _ hk hj, hone j hj]
      rw [gaussianReal_map_const_add]
      simp
  refine ⟨F, _, fun ω => hF (errSpread (demoDraw177 ω)) st, ?_, ?_⟩
  · have := (C177_law_violated (P := gaussianReal 0 1) (fun ω => hF (errSpread (demoDraw177 ω)) st) hy (fun ω => rfl) (by norm_num) hD hy0
      (fun j hj => by rw [hone j hj]; norm_num) ⟨0, by rw [hlen]; norm_num, by rw [hone 0 (by rw [hlen]; norm_num)]; norm_num⟩).2
    rw [hlen] at this
    exact this
  · refine ((C177_violated (hF (errSpread (demoDraw177 1)) st) hy rfl (by show 0 < 10000; norm_num) hy0).2
      (Spec.relDist (demoDraw177 1 y (Arr2.eye 8) 10000) y 0) fun k hk => ?_).1
    have hk : k < 10000 := hk
    unfold Spec.relDist demoDraw177
    congr 2
    refine Finset.sum_congr rfl fun j hj => ?_
    rw [Option.getD_none, Arr2.ofFn_get _ hk (Finset.mem_range.1 hj), Arr2.ofFn_get _ (by norm_num) (Finset.mem_range.1 hj)]

end
end Verif
