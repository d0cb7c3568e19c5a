/-
C70, C71: distribution of the simulated noise and of its block averages.
-/
import Verif.Props.Noise
import Mathlib.Probability.Distributions.Gaussian.Real
import Mathlib.Probability.Moments.Variance
import Mathlib.Probability.HasLaw
import Mathlib.Probability.Independence.InfinitePi
import Mathlib.Probability.ProductMeasure

namespace Verif
open Finset Matrix MeasureTheory ProbabilityTheory
open scoped NNReal
noncomputable section

/-! ### C70 -/

/-- value of each entry of the noisy series -/
theorem addPolarNoise1_ok (z : Nat → ℝ) (p : Nat) (x : List ℂ) {sdm sdp : ℝ} (hm : 0 ≤ sdm) (hp : 0 ≤ sdp) :
    addPolarNoise1 z p x sdm sdp = .ok ((List.range x.length).map (fun k =>
      polarNoisy (x.getD k 0) (sdm * z (p + k)) (sdp * z (p + x.length + k)))) := by
  simp only [addPolarNoise1, normal1, if_neg (not_lt.2 hm), if_neg (not_lt.2 hp), bind, Except.bind]
  congr 1
  apply List.map_congr_left
  intro k hk
  have hk := List.mem_range.1 hk
  rw [getD_map_range _ _ _ hk, getD_map_range _ _ _ hk]

/-- C70 is violated: the configured phase noise has no effect at all on measurements with phase zero (positive reals, such as
every voltage of an unloaded network), whatever the standard deviation and the samples. -/
theorem C70_violated (z : Nat → ℝ) (p : Nat) (m : List ℝ) (hm : ∀ x ∈ m, 0 ≤ x) (sdm sdp sdp' : ℝ) (h0 : 0 ≤ sdm)
    (h1 : 0 ≤ sdp) (h2 : 0 ≤ sdp') :
    addPolarNoise1 z p (m.map (fun x : ℝ => (x : ℂ))) sdm sdp = addPolarNoise1 z p (m.map (fun x : ℝ => (x : ℂ))) sdm sdp' := by
  rw [addPolarNoise1_ok _ _ _ h0 h1, addPolarNoise1_ok _ _ _ h0 h2]
  congr 1
  apply List.map_congr_left
  intro k hk
  have hk : k < m.length := by simpa using hk
  have e : (m.map (fun x : ℝ => (x : ℂ))).getD k 0 = ((m[k] : ℝ) : ℂ) := by
    rw [List.getD_eq_getElem _ _ (by simpa using hk), List.getElem_map]
  rw [e]
  unfold polarNoisy
  rw [Complex.arg_ofReal_of_nonneg (hm _ (List.getElem_mem hk)), mul_zero, mul_zero]

theorem gaussian_scale {Ω : Type} [MeasurableSpace Ω] {P : Measure Ω} {X : Ω → ℝ} (hX : HasLaw X (gaussianReal 0 1) P)
    (c : ℝ) : HasLaw (fun ω => c * X ω) (gaussianReal 0 (NNReal.mk (c ^ 2) (sq_nonneg c))) P := by
  have := gaussianReal_const_mul hX c
  rw [mul_zero, mul_one] at this
  exact this

/-- C70 where it holds, exactly. The noisy value of `x` has magnitude `|x| (1 + sdm z)` and phase `φ (1 + sdp z')`. Its phase
error has the configured normal law exactly when `|φ| = 1` rad (or there is no noise), and its magnitude error exactly when
`|x| = 1`. -/
theorem C70_partial {Ω : Type} [MeasurableSpace Ω] {P : Measure Ω} (z : Nat → Ω → ℝ)
    (hz : ∀ k, HasLaw (z k) (gaussianReal 0 1) P) (p : Nat) (x : List ℂ) {sdm sdp : ℝ} (hm : 0 < sdm) (hp : 0 < sdp) :
    ∃ (o : Ω → List ℂ) (μ φ : Nat → Ω → ℝ), (∀ ω, addPolarNoise1 (fun k => z k ω) p x sdm sdp = .ok (o ω)) ∧
      ∀ k, k < x.length → (∀ ω, (o ω).getD k 0 = (μ k ω : ℂ) * Complex.exp (Complex.I * (φ k ω : ℂ))) ∧
        (HasLaw (fun ω => φ k ω - (x.getD k 0).arg) (gaussianReal 0 (NNReal.mk (sdp ^ 2) (sq_nonneg _))) P ↔ |(x.getD k 0).arg| = 1) ∧
        (HasLaw (fun ω => μ k ω - ‖x.getD k 0‖) (gaussianReal 0 (NNReal.mk (sdm ^ 2) (sq_nonneg _))) P ↔ ‖x.getD k 0‖ = 1) := by
  have key : ∀ (q : Nat) (a s : ℝ), 0 < s → (HasLaw (fun ω => a + s * z q ω * a - a) (gaussianReal 0 (NNReal.mk (s ^ 2) (sq_nonneg _))) P ↔
      |a| = 1) := by
    intro q a s hs
    have e : (fun ω => a + s * z q ω * a - a) = (fun ω => (s * a) * z q ω) := by
      funext ω; ring
    rw [e]
    have h1 := gaussian_scale (hz q) (s * a)
    have h2 : HasLaw (fun ω => (s * a) * z q ω) (gaussianReal 0 (NNReal.mk (s ^ 2) (sq_nonneg _))) P ↔
        gaussianReal 0 (NNReal.mk ((s * a) ^ 2) (sq_nonneg (s * a))) = gaussianReal 0 (NNReal.mk (s ^ 2) (sq_nonneg s)) := by
      constructor
      · intro h; rw [← h1.map_eq, ← h.map_eq]
      · intro h; rw [← h]; exact h1
    rw [h2, gaussianReal_ext_iff]
    constructor
    · intro h
      have h := congrArg NNReal.toReal h.2
      have h : (s * a) ^ 2 = s ^ 2 := h
      have : a ^ 2 = 1 := by
        have : s ^ 2 * (a ^ 2 - 1) = 0 := by linear_combination h
        rcases mul_eq_zero.1 this with h' | h'
        · exact absurd h' (by positivity)
        · linarith
      rw [← sq_abs] at this
      exact (pow_eq_one_iff_of_nonneg (abs_nonneg a) two_ne_zero).1 this
    · intro h
      refine ⟨rfl, NNReal.eq ?_⟩
      show (s * a) ^ 2 = s ^ 2
      rw [mul_pow, ← sq_abs a, h]; ring
  refine ⟨_, fun k ω => ‖x.getD k 0‖ + sdm * z (p + k) ω * ‖x.getD k 0‖,
    fun k ω => (x.getD k 0).arg + sdp * z (p + x.length + k) ω * (x.getD k 0).arg,
    fun ω => addPolarNoise1_ok _ _ _ hm.le hp.le, ?_⟩
  intro k hk
  refine ⟨?_, key _ _ _ hp, ?_⟩
  · intro ω
    rw [getD_map_range _ _ _ hk]
    rfl
  · have := key (p + k) ‖x.getD k 0‖ sdm hm
    rw [abs_of_nonneg (norm_nonneg _)] at this
    exact this

/-! ### C71 -/

/-- `add_noise` adding given errors to the values of each series -/
def additiveNoise (e : Nat → Nat → ℝ) : Nat → List ℂ → Except PyErr (List ℂ) :=
  fun i x => .ok ((List.range x.length).map (fun k => x.getD k 0 + (e i k : ℂ)))

theorem sum_blocks (f t N : Nat) (ht : t < N / f) (x y : Nat → ℂ) :
    (blockMean f ((List.range N).map (fun k => x k + y k)) t) - blockMean f ((List.range N).map x) t =
      (∑ k ∈ range f, y (t * f + k)) / f := by
  have hb := block_le ht
  have e : (t + 1) * f = t * f + f := by ring
  rw [blockMean_eq _ _ _ (by simpa using hb), blockMean_eq _ _ _ (by simpa using hb), ← sub_div, ← Finset.sum_sub_distrib]
  congr 1
  apply Finset.sum_congr rfl
  intro k hk
  have hk := Finset.mem_range.1 hk
  rw [getD_map_range _ _ _ (by omega), getD_map_range _ _ _ (by omega)]
  ring

/-- C71: errors of variance `s²`, independent within each series, leave an error of variance `s²/fparam` in each filtered
value; taking `fparam = 1` and standard deviation `s/√fparam` gives the same variance. -/
theorem C71_variance {Ω : Type} [MeasurableSpace Ω] {P : Measure Ω} [IsProbabilityMeasure P] (e : Nat → Nat → Ω → ℝ) (s : ℝ)
    (hL : ∀ i k, MemLp (e i k) 2 P) (hv : ∀ i k, Var[e i k; P] = s ^ 2)
    (hi : ∀ i k l, k ≠ l → e i k ⟂ᵢ[P] e i l) {old new : List ℝ} (h : Spec.Grid old new) {f : Nat} (hf : f ≠ 0)
    {a : Arr2 ℂ} (ha : a.r = old.length) :
    ∃ (c : Arr2 ℂ) (o : Ω → Arr2 ℂ), filterAndResample a old new f noNoise = .ok c ∧
      (∀ ω, filterAndResample a old new f (additiveNoise (fun i k => e i k ω)) = .ok (o ω)) ∧
      ∀ t j, t < new.length / f → j < a.c → ∃ d : Ω → ℝ, (∀ ω, (o ω).get t j = c.get t j + (d ω : ℂ)) ∧
        Var[d; P] = s ^ 2 / f ∧ s ^ 2 / f = (s / Real.sqrt f) ^ 2 / (1 : ℕ) := by
  have hin : ∀ i, i < a.c → interp1d old (a.col i) new = .ok (new.map (interpAt old (a.col i))) :=
    fun i hi => interp1d_ok h (by rw [col_length, ha])
  obtain ⟨c, hc, cr, cc, cg⟩ := filter_ok a old new f hf noNoise _ _ hin (fun i hi => rfl)
  have hn : ∀ ω, ∃ o, filterAndResample a old new f (additiveNoise (fun i k => e i k ω)) = .ok o ∧
      ∀ t j, t < new.length / f → j < a.c → o.get t j = c.get t j + (((∑ k ∈ range f, e j (t * f + k) ω) / f : ℝ) : ℂ) := by
    intro ω
    obtain ⟨o, ho, -, -, og⟩ := filter_ok a old new f hf (additiveNoise (fun i k => e i k ω)) _ _ hin (fun i hi => rfl)
    refine ⟨o, ho, ?_⟩
    intro t j ht hj
    rw [og t j ht hj, cg t j ht hj]
    have := sum_blocks f t new.length ht (fun k => (new.map (interpAt old (a.col j))).getD k 0) (fun k => (e j k ω : ℂ))
    have e1 : (List.range new.length).map (fun k => (new.map (interpAt old (a.col j))).getD k 0) =
        new.map (interpAt old (a.col j)) := by
      refine list_ext_getD (by simp) ?_
      intro k hk
      rw [getD_map_range _ _ _ (by simpa using hk)]
    rw [e1] at this
    have e2 : (new.map (interpAt old (a.col j))).length = new.length := by simp
    rw [e2]
    push_cast
    rw [← this]; ring
  choose o ho hg using hn
  refine ⟨c, o, hc, ho, ?_⟩
  intro t j ht hj
  refine ⟨fun ω => (∑ k ∈ range f, e j (t * f + k) ω) / f, fun ω => hg ω t j ht hj, ?_, ?_⟩
  · have e1 : (fun ω => (∑ k ∈ range f, e j (t * f + k) ω) / f) =
        fun ω => (1 / (f : ℝ)) * (∑ k ∈ range f, e j (t * f + k)) ω := by
      funext ω; rw [Finset.sum_apply]; ring
    rw [e1, variance_const_mul, IndepFun.variance_sum (fun k _ => hL j _) (by
      intro k _ l _ hkl
      exact hi j _ _ (by omega))]
    simp only [hv, Finset.sum_const, Finset.card_range, nsmul_eq_mul]
    have : (f : ℝ) ≠ 0 := by exact_mod_cast hf
    field_simp
  · rw [div_pow, Real.sq_sqrt (Nat.cast_nonneg f), Nat.cast_one, div_one]

theorem gaussian_sum {Ω : Type} [MeasurableSpace Ω] {P : Measure Ω} [IsProbabilityMeasure P] (z : Nat → Ω → ℝ)
    (hz : ∀ k, HasLaw (z k) (gaussianReal 0 1) P) (hi : iIndepFun z P) (s : Finset ℕ) :
    P.map (∑ k ∈ s, z k) = gaussianReal 0 (s.card : ℝ≥0) := by
  induction s using Finset.induction_on with
  | empty =>
    rw [Finset.sum_empty, Finset.card_empty]
    rw [Nat.cast_zero, gaussianReal_zero_var]
    exact (Measure.map_const P 0).trans (by simp)
  | insert a s ha ih =>
    rw [Finset.sum_insert ha, Finset.card_insert_of_notMem ha]
    have hind : IndepFun (z a) (∑ k ∈ s, z k) P :=
      (hi.indepFun_finsetSum_of_notMem₀ (fun k => (hz k).aemeasurable) ha).symm
    rw [gaussianReal_add_gaussianReal_of_indepFun hind (hz a).map_eq ih]
    push_cast
    rw [add_zero, add_comm]

/-- C71 for the code's own noise function. For a constant series without phase noise, both the full simulation (noise at
every sample, then averaging) and the equivalent-noise option (one sample per block, standard deviation divided by
`√fparam`) leave a relative error with the same normal law, of variance `sd²/fparam`. -/
theorem C71_equivalent {Ω : Type} [MeasurableSpace Ω] {P : Measure Ω} [IsProbabilityMeasure P] (z : Nat → Ω → ℝ)
    (hz : ∀ k, HasLaw (z k) (gaussianReal 0 1) P) (hi : iIndepFun z P) {old new : List ℝ} (h : Spec.Grid old new)
    {f : Nat} (hf : f ≠ 0) {a : Arr2 ℂ} (ha : a.r = old.length) (u : Nat → ℂ)
    (hu : ∀ t j, t < a.r → j < a.c → a.get t j = u j) (sd : List ℝ) (hsl : sd.length = a.c) (hsd : ∀ s ∈ sd, 0 ≤ s) :
    ∃ o : Ω → Arr2 ℂ, (∀ ω, filterAndResample a old new f (polarNoise (fun k => z k ω) sd (List.replicate a.c 0)) =
        .ok (o ω)) ∧ ∀ t j, t < new.length / f → j < a.c → ∃ d : Ω → ℝ,
          (∀ ω, (o ω).get t j = u j * (1 + (d ω : ℂ))) ∧
            HasLaw d (gaussianReal 0 (NNReal.mk ((sd.getD j 0 / Real.sqrt f) ^ 2) (sq_nonneg _))) P := by
  have hin : ∀ i, i < a.c → interp1d old (a.col i) new = .ok (new.map (interpAt old (a.col i))) :=
    fun i hi => interp1d_ok h (by rw [col_length, ha])
  have hval : ∀ j, j < a.c → ∀ k, k < new.length → (new.map (interpAt old (a.col j))).getD k 0 = u j := by
    intro j hj k hk
    rw [List.getD_eq_getElem _ _ (by simpa using hk), List.getElem_map]
    obtain ⟨h0, h1⟩ := h.inRange _ (List.getElem_mem hk)
    obtain ⟨u1, u2, -, -⟩ := upperIdx_spec h.two h.sorted h0 h1
    rw [interpAt_eq, col_getD _ _ _ (by omega), col_getD _ _ _ (by omega), hu _ _ (by omega) hj, hu _ _ (by omega) hj]
    push_cast
    ring
  have hs : ∀ i, i < a.c → stdAt sd i = .ok (sd.getD i 0) ∧ stdAt (List.replicate a.c 0) i = .ok 0 ∧ 0 ≤ sd.getD i 0 := by
    intro i hi
    refine ⟨by unfold stdAt; rw [if_pos (by omega)], ?_, ?_⟩
    · unfold stdAt
      rw [if_pos (by simpa using hi), List.getD_eq_getElem _ _ (by simpa using hi)]
      simp
    · rw [List.getD_eq_getElem _ _ (by omega)]; exact hsd _ (List.getElem_mem _)
  have hn : ∀ ω, ∃ o, filterAndResample a old new f (polarNoise (fun k => z k ω) sd (List.replicate a.c 0)) = .ok o ∧
      ∀ t j, t < new.length / f → j < a.c → o.get t j =
        u j * (1 + ((sd.getD j 0 / f * ∑ k ∈ range f, z (j * (2 * new.length) + (t * f + k)) ω : ℝ) : ℂ)) := by
    intro ω
    obtain ⟨o, ho, -, -, og⟩ := filter_ok a old new f hf (polarNoise (fun k => z k ω) sd (List.replicate a.c 0)) _
      (fun i => (List.range new.length).map (fun k => u i * (1 + ((sd.getD i 0 * z (i * (2 * new.length) + k) ω : ℝ) : ℂ))))
      hin (fun i hi' => by
        obtain ⟨s1, s2, s3⟩ := hs i hi'
        simp only [polarNoise, s1, s2, bind, Except.bind]
        rw [addPolarNoise1_ok _ _ _ s3 (le_refl _)]
        congr 1
        rw [List.length_map]
        apply List.map_congr_left
        intro k hk
        rw [hval i hi' k (List.mem_range.1 hk), zero_mul]
        unfold polarNoisy
        rw [zero_mul, add_zero, mul_comm Complex.I]
        have := Complex.norm_mul_exp_arg_mul_I (u i)
        calc _ = ((‖u i‖ : ℂ) * Complex.exp ((u i).arg * Complex.I)) *
              (1 + ((sd.getD i 0 * z (i * (2 * new.length) + k) ω : ℝ) : ℂ)) := by push_cast; ring
          _ = _ := by rw [this])
    refine ⟨o, ho, ?_⟩
    intro t j ht hj
    have hb := block_le ht
    have e : (t + 1) * f = t * f + f := by ring
    have hf0 : (f : ℂ) ≠ 0 := by exact_mod_cast hf
    rw [og t j ht hj, blockMean_eq _ _ _ (by simpa using hb)]
    rw [Finset.sum_congr rfl (fun k hk => getD_map_range _ _ _ (by have := Finset.mem_range.1 hk; omega))]
    rw [← Finset.mul_sum, Finset.sum_add_distrib]
    push_cast
    rw [← Finset.mul_sum]
    simp only [Finset.sum_const, Finset.card_range, nsmul_eq_mul, mul_one]
    field_simp
  choose o ho hg using hn
  refine ⟨o, ho, ?_⟩
  intro t j ht hj
  refine ⟨_, fun ω => hg ω t j ht hj, ?_⟩
  have hinj : Function.Injective (fun k => j * (2 * new.length) + (t * f + k)) := by
    intro k l hkl
    simp only at hkl
    omega
  have hsum : ∀ ω, ∑ k ∈ range f, z (j * (2 * new.length) + (t * f + k)) ω =
      (∑ m ∈ (range f).map ⟨_, hinj⟩, z m) ω := by
    intro ω
    rw [Finset.sum_apply, Finset.sum_map]
    rfl
  have hlaw : HasLaw (∑ m ∈ (range f).map ⟨_, hinj⟩, z m) (gaussianReal 0 (f : ℝ≥0)) P := by
    refine ⟨?_, ?_⟩
    · exact Finset.aemeasurable_sum _ (fun k _ => (hz k).aemeasurable)
    · rw [gaussian_sum z hz hi, Finset.card_map, Finset.card_range]
  have := gaussianReal_const_mul hlaw (sd.getD j 0 / f)
  simp only [← hsum] at this
  rw [mul_zero] at this
  convert this using 2
  apply NNReal.eq
  have hf0 : (0 : ℝ) < f := by positivity
  show (sd.getD j 0 / Real.sqrt f) ^ 2 = (sd.getD j 0 / f) ^ 2 * f
  rw [div_pow, Real.sq_sqrt hf0.le]
  field_simp

/-- independent standard normal samples exist -/
theorem exists_standard_normals : ∃ (Ω : Type) (_ : MeasurableSpace Ω) (P : Measure Ω) (_ : IsProbabilityMeasure P)
    (z : Nat → Ω → ℝ), (∀ k, HasLaw (z k) (gaussianReal 0 1) P) ∧ iIndepFun z P := by
  refine ⟨Nat → ℝ, inferInstance, Measure.infinitePi (fun _ : Nat => gaussianReal 0 1), inferInstance,
    fun k ω => ω k, ?_, ?_⟩
  · intro k
    exact ⟨(measurable_pi_apply k).aemeasurable, Measure.infinitePi_map_eval (fun _ : Nat => gaussianReal 0 1) k⟩
  · exact iIndepFun_infinitePi (P := fun _ : Nat => gaussianReal 0 1) (X := fun _ x => x) (fun _ => by fun_prop)

/-- hypotheses of C71 -/
example : ∃ (Ω : Type) (_ : MeasurableSpace Ω) (P : Measure Ω) (_ : IsProbabilityMeasure P) (z : Nat → Ω → ℝ),
    (∀ k, HasLaw (z k) (gaussianReal 0 1) P) ∧ iIndepFun z P ∧ Spec.Grid [0, 60, 120] [0, 30, 60, 90, 120] ∧
    (∀ i k, MemLp (z (2 ^ i * 3 ^ k)) 2 P) := by
  obtain ⟨Ω, m, P, hP, z, h1, h2⟩ := exists_standard_normals
  refine ⟨Ω, m, P, hP, z, h1, h2, demo_grid, fun i k => ?_⟩
  have : MemLp id 2 (P.map (z (2 ^ i * 3 ^ k))) := by
    rw [(h1 _).map_eq]; exact memLp_id_gaussianReal 2
  exact (memLp_map_measure_iff this.aestronglyMeasurable (h1 _).aemeasurable).1 this

end
end Verif
