/-
C180: noise of sequence values, and the noise that the weights of the identification assume for them.
-/
import Verif.Props.SequencePower
import Verif.Props.PolarLaw
import Verif.Props.NoiseLaw
import Verif.Props.NoiseTransformation

namespace Verif
open Finset MeasureTheory ProbabilityTheory
noncomputable section

namespace Spec

/-- error of an entry -/
def entryError {Ω : Type} (v : Arr2 ℂ) (nv : Ω → Arr2 ℂ) (t j : ℕ) (ω : Ω) : ℂ := (nv ω).get t j - v.get t j

/-- mean squared size of an error -/
def noisePower {Ω : Type} [MeasurableSpace Ω] (P : Measure Ω) (e : Ω → ℂ) : ℝ := ∫ ω, ‖e ω‖ ^ 2 ∂P

/-- the errors of the three phases of a node have finite power and are uncorrelated -/
structure Uncorrelated {Ω : Type} [MeasurableSpace Ω] (P : Measure Ω) (e : Fin 3 → Ω → ℂ) : Prop where
  finite : ∀ p q, Integrable (fun ω => e p ω * (starRingEnd ℂ) (e q ω)) P
  cross : ∀ p q, p ≠ q → ∫ ω, e p ω * (starRingEnd ℂ) (e q ω) ∂P = 0

end Spec

variable {Ω : Type} [MeasurableSpace Ω] {P : Measure Ω}

theorem noisePower_mul (e : Ω → ℂ) : ∫ ω, e ω * (starRingEnd ℂ) (e ω) ∂P = (Spec.noisePower P e : ℂ) := by
  unfold Spec.noisePower
  rw [← integral_complex_ofReal]
  refine integral_congr_ae (Filter.Eventually.of_forall fun ω => ?_)
  show e ω * (starRingEnd ℂ) (e ω) = ((‖e ω‖ ^ 2 : ℝ) : ℂ)
  rw [Complex.mul_conj, Complex.normSq_eq_norm_sq]

/-- correlation of two combinations of uncorrelated errors -/
theorem combination_correlation {e : Fin 3 → Ω → ℂ} (h : Spec.Uncorrelated P e) (c d : Fin 3 → ℂ) :
    ∫ ω, (∑ p, c p * e p ω) * (starRingEnd ℂ) (∑ q, d q * e q ω) ∂P = ∑ p, c p * (starRingEnd ℂ) (d p) * (Spec.noisePower P (e p) : ℂ) := by
  have e1 : ∀ ω, (∑ p, c p * e p ω) * (starRingEnd ℂ) (∑ q, d q * e q ω) =
      ∑ p, ∑ q, c p * (starRingEnd ℂ) (d q) * (e p ω * (starRingEnd ℂ) (e q ω)) := by
    intro ω
    rw [map_sum, Finset.sum_mul_sum]
    refine Finset.sum_congr rfl fun p _ => Finset.sum_congr rfl fun q _ => ?_
    rw [map_mul]
    ring
  rw [integral_congr_ae (Filter.Eventually.of_forall e1), integral_finset_sum]
  · refine Finset.sum_congr rfl fun p _ => ?_
    rw [integral_finset_sum]
    · rw [Finset.sum_eq_single p]
      · rw [integral_const_mul, noisePower_mul]
      · intro q _ hq
        rw [integral_const_mul, h.cross p q hq.symm, mul_zero]
      · intro hn
        exact absurd (Finset.mem_univ _) hn
    · intro q _
      exact (h.finite p q).const_mul _
  · intro p _
    refine integrable_finset_sum _ fun q _ => (h.finite p q).const_mul _

/-- errors of the sequence values -/
theorem sequence_error {v vs : Arr2 ℂ} {nv nvs : Ω → Arr2 ℂ} (hv : measurementPhaseToSequence v = .ok vs)
    (hn : ∀ ω, measurementPhaseToSequence (nv ω) = .ok (nvs ω)) (hs : ∀ ω, (nv ω).r = v.r ∧ (nv ω).c = v.c) {t a : ℕ} (ht : t < v.r)
    (ha : 3 * a + 2 < v.c) {s : ℕ} (hs3 : s < 3) (ω : Ω) :
    Spec.entryError vs nvs t (3 * a + s) ω = ∑ p : Fin 3, Spec.alpha ^ ((p : ℕ) * s) / 3 * Spec.entryError v nv t (3 * a + p) ω := by
  unfold Spec.entryError
  obtain ⟨h1, h2⟩ := hs ω
  rw [(sequence_entry hv).2.2 t ht a ha s hs3, (sequence_entry (hn ω)).2.2 t (by rw [h1]; exact ht) a (by rw [h2]; exact ha) s hs3,
    Fin.sum_univ_three]
  simp only [Fin.val_zero, Fin.val_one, Fin.val_two, zero_mul, pow_zero, one_mul, add_zero]
  ring

theorem alpha_conj_pow (m : ℕ) : (starRingEnd ℂ) (Spec.alpha ^ m) = Spec.alpha ^ (2 * m) := by
  rw [map_pow, conj_alpha, ← pow_mul]

/-- three real numbers with weights 1, α, α² have sum zero only if they agree -/
theorem alpha_balance {a b c : ℝ} (h : (a : ℂ) + Spec.alpha * b + Spec.alpha ^ 2 * c = 0) : a = b ∧ b = c := by
  have h2 : (a : ℂ) + Spec.alpha ^ 2 * b + Spec.alpha * c = 0 := by
    have := congrArg (starRingEnd ℂ) h
    simp only [map_add, map_mul, map_pow, conj_alpha, Complex.conj_ofReal, map_zero] at this
    rw [← pow_mul, show 2 * 2 = 4 by norm_num, alpha_four] at this
    exact this
  have hs := alpha_sum
  have h3 := alpha_cube
  generalize Spec.alpha = α at *
  have e1 : (a : ℂ) = b := by grind
  have e2 : (b : ℂ) = c := by grind
  exact ⟨by exact_mod_cast e1, by exact_mod_cast e2⟩

/-- C180, what holds: if the errors of the three phases of a node are uncorrelated, each of its three sequence values has a ninth of their
total power, and the errors of different sequences are uncorrelated if and only if the three phases have the same noise power. -/
theorem C180_partial {v vs : Arr2 ℂ} {nv nvs : Ω → Arr2 ℂ} (hv : measurementPhaseToSequence v = .ok vs)
    (hn : ∀ ω, measurementPhaseToSequence (nv ω) = .ok (nvs ω)) (hs : ∀ ω, (nv ω).r = v.r ∧ (nv ω).c = v.c) {t a : ℕ} (ht : t < v.r)
    (ha : 3 * a + 2 < v.c) (hu : Spec.Uncorrelated P (fun p : Fin 3 => Spec.entryError v nv t (3 * a + p))) :
    (∀ s < 3, Spec.noisePower P (Spec.entryError vs nvs t (3 * a + s)) = (Spec.noisePower P (Spec.entryError v nv t (3 * a)) +
      Spec.noisePower P (Spec.entryError v nv t (3 * a + 1)) + Spec.noisePower P (Spec.entryError v nv t (3 * a + 2))) / 9) ∧
    ((∀ s < 3, ∀ r < 3, s ≠ r → ∫ ω, Spec.entryError vs nvs t (3 * a + s) ω * (starRingEnd ℂ) (Spec.entryError vs nvs t (3 * a + r) ω) ∂P = 0) ↔
      Spec.noisePower P (Spec.entryError v nv t (3 * a)) = Spec.noisePower P (Spec.entryError v nv t (3 * a + 1)) ∧
      Spec.noisePower P (Spec.entryError v nv t (3 * a + 1)) = Spec.noisePower P (Spec.entryError v nv t (3 * a + 2))) := by
  have key : ∀ s < 3, ∀ r < 3, ∫ ω, Spec.entryError vs nvs t (3 * a + s) ω * (starRingEnd ℂ) (Spec.entryError vs nvs t (3 * a + r) ω) ∂P =
      ((Spec.noisePower P (Spec.entryError v nv t (3 * a)) : ℂ) +
        Spec.alpha ^ (s + 2 * r) * Spec.noisePower P (Spec.entryError v nv t (3 * a + 1)) +
        Spec.alpha ^ (2 * (s + 2 * r)) * Spec.noisePower P (Spec.entryError v nv t (3 * a + 2))) / 9 := by
    intro s hs3 r hr3
    have := combination_correlation hu (fun p : Fin 3 => Spec.alpha ^ ((p : ℕ) * s) / 3) (fun p : Fin 3 => Spec.alpha ^ ((p : ℕ) * r) / 3)
    rw [integral_congr_ae (Filter.Eventually.of_forall fun ω => by
      show _ = (∑ p : Fin 3, Spec.alpha ^ ((p : ℕ) * s) / 3 * Spec.entryError v nv t (3 * a + p) ω) *
        (starRingEnd ℂ) (∑ p : Fin 3, Spec.alpha ^ ((p : ℕ) * r) / 3 * Spec.entryError v nv t (3 * a + p) ω)
      rw [← sequence_error hv hn hs ht ha hs3, ← sequence_error hv hn hs ht ha hr3]), this, Fin.sum_univ_three]
    simp only [Fin.val_zero, Fin.val_one, Fin.val_two, zero_mul, pow_zero, one_mul, add_zero, map_div₀, map_ofNat, map_one, alpha_conj_pow]
    ring
  have hcube := alpha_cube
  constructor
  · intro s hs3
    have h := key s hs3 s hs3
    rw [noisePower_mul] at h
    have e1 : Spec.alpha ^ (s + 2 * s) = 1 := by rw [show s + 2 * s = 3 * s by ring, pow_mul, hcube, one_pow]
    have e2 : Spec.alpha ^ (2 * (s + 2 * s)) = 1 := by rw [show 2 * (s + 2 * s) = 3 * (2 * s) by ring, pow_mul, hcube, one_pow]
    rw [e1, e2, one_mul, one_mul] at h
    exact_mod_cast h
  · constructor
    · intro h
      have h1 := key 1 (by norm_num) 0 (by norm_num)
      rw [h 1 (by norm_num) 0 (by norm_num) (by norm_num)] at h1
      simp only [mul_zero, add_zero, pow_one, mul_one] at h1
      exact alpha_balance (by linear_combination -9 * h1)
    · rintro ⟨p1, p2⟩ s hs3 r hr3 hne
      rw [key s hs3 r hr3, p1, p2]
      have hsum := alpha_sum
      have a4 := alpha_four
      generalize Spec.alpha = α at *
      generalize (Spec.noisePower P (Spec.entryError v nv t (3 * a + 2)) : ℂ) = x
      interval_cases s <;> interval_cases r <;> first | exact absurd rfl hne | grind

/-- total variance that the weights of the Bayesian method assume for a measurement: at least the squared standard deviation of magnitudes -/
theorem assumed_power (M : Arr2 ℂ) (sdm sdp : ℝ) :
    ∃ S, averageTrueNoiseCovariance M (.pyFloat sdm) sdp false = .ok S ∧ ∀ t < M.r, ∀ j < M.c, ∃ re im cov,
      Spec.Reads S (M.c * M.r) (Spec.pos M.r t j) re im cov ∧
      re + im = ‖M.get t j‖ ^ 2 * (1 - Real.exp (-sdp ^ 2)) + sdm ^ 2 * (2 - Real.exp (-sdp ^ 2)) := by
  obtain ⟨S, hS, -, -, hR, -⟩ := noise_reads averageCov M (.pyFloat sdm) sdp trivial
  refine ⟨S, hS, fun t ht j hj => ⟨_, _, _, hR t j ht hj, ?_⟩⟩
  simp only [averageCov, Spec.sdAt]
  generalize ‖M.get t j‖ = m
  generalize Complex.arg (M.get t j) = f
  generalize sdp ^ 2 = w
  have e2 : Real.exp (-2 * w) * (Real.cosh (2 * w) + Real.sinh (2 * w)) = 1 := by
    rw [Real.cosh_add_sinh, ← Real.exp_add]
    simp
  have e1 : Real.exp (-2 * w) * (Real.cosh w + Real.sinh w) = Real.exp (-w) := by
    rw [Real.cosh_add_sinh, ← Real.exp_add]
    congr 1
    ring
  have hsc := Real.sin_sq_add_cos_sq f
  have hc : Real.cos f ^ 2 = 1 - Real.sin f ^ 2 := by linarith
  rw [hc]
  linear_combination (m ^ 2 + 2 * sdm ^ 2) * e2 - (m ^ 2 + sdm ^ 2) * e1

theorem assumed_ge (x sdm sdp : ℝ) : sdm ^ 2 ≤ x ^ 2 * (1 - Real.exp (-sdp ^ 2)) + sdm ^ 2 * (2 - Real.exp (-sdp ^ 2)) := by
  have h : Real.exp (-sdp ^ 2) ≤ 1 := Real.exp_le_one_iff.2 (by have := sq_nonneg sdp; linarith)
  have h1 : 0 ≤ x ^ 2 * (1 - Real.exp (-sdp ^ 2)) := mul_nonneg (sq_nonneg _) (by linarith)
  have h2 : 0 ≤ sdm ^ 2 * (1 - Real.exp (-sdp ^ 2)) := mul_nonneg (sq_nonneg _) (by linarith)
  linarith

/-- C180 violated: with equal voltages of one on all phases, every sequence value has a third of the noise power that the weights of the
synchronised Bayesian method assume at least, whatever the measured values, for all standard deviations. -/
theorem C180_violated [IsProbabilityMeasure P] (z : Nat → Ω → ℝ) (hz : ∀ k, HasLaw (z k) (gaussianReal 0 1) P) (hi : iIndepFun z P) (T k : ℕ)
    {sdm sdp : ℝ} (hm : 0 < sdm) (hp : 0 ≤ sdp) (current : Arr2 ℂ) :
    ∃ (vs : Arr2 ℂ) (nv ni nvs : Ω → Arr2 ℂ), measurementPhaseToSequence (Arr2.ofFn T (k * 3) fun _ _ => 1) = .ok vs ∧
      (∀ ω, addNoisePolarBoth (fun j => z j ω) current (Arr2.ofFn T (k * 3) fun _ _ => 1) (.pyFloat sdm) (.pyFloat sdp) = .ok (nv ω, ni ω)) ∧
      (∀ ω, measurementPhaseToSequence (nv ω) = .ok (nvs ω)) ∧
      (∀ t < T, ∀ a < k, ∀ s < 3, Spec.noisePower P (Spec.entryError vs nvs t (3 * a + s)) = sdm ^ 2 / 3) ∧
      ∀ M : Arr2 ℂ, ∃ S, averageTrueNoiseCovariance M (.pyFloat sdm) sdp false = .ok S ∧ ∀ t < M.r, ∀ j < M.c, ∃ re im cov,
        Spec.Reads S (M.c * M.r) (Spec.pos M.r t j) re im cov ∧ sdm ^ 2 ≤ re + im := by
  set o : Arr2 ℂ := Arr2.ofFn T (k * 3) fun _ _ => 1 with ho
  obtain ⟨nv, ni, ev, ei, h1, h2, h3, -, h5, -, h7⟩ := C114 z hz hi current o (sdm := .pyFloat sdm) (sdp := .pyFloat sdp) hm.le hp
  obtain ⟨-, vs, hv, -⟩ := C61_measurement k o rfl
  have hconv : ∀ ω, ∃ nvs, measurementPhaseToSequence (nv ω) = .ok nvs := by
    intro ω
    obtain ⟨-, s, hs, -⟩ := C61_measurement k (nv ω) (h2 ω).2.1
    exact ⟨s, hs⟩
  choose nvs hn using hconv
  have hone : ∀ (t : Fin T) (j : Fin (k * 3)), o.get t j = 1 := fun t j => Arr2.ofFn_get _ t.2 j.2
  have herr : ∀ (t : Fin T) (j : Fin (k * 3)) ω, Spec.entryError o nv t j ω = (ev (true, t, j) ω : ℂ) := by
    intro t j ω
    unfold Spec.entryError
    have := h3 ω t j
    rw [this, hone t j]
    unfold Spec.withRelative
    simp
  have hlaw : ∀ (t : Fin T) (j : Fin (k * 3)), HasLaw (ev (true, t, j)) (gaussianReal 0 (NNReal.mk (sdm ^ 2) (sq_nonneg _))) P := fun t j => h5 (true, t, j)
  have hpow : ∀ (t : Fin T) (j : Fin (k * 3)), Spec.noisePower P (Spec.entryError o nv t j) = sdm ^ 2 := by
    intro t j
    unfold Spec.noisePower
    have e : ∀ ω, ‖Spec.entryError o nv t j ω‖ ^ 2 = ev (true, t, j) ω ^ 2 := by
      intro ω
      rw [herr, Complex.norm_real, Real.norm_eq_abs, sq_abs]
    simp only [e]
    have := (hlaw t j).integral_comp (f := fun x : ℝ => x ^ 2) (by fun_prop)
    rw [show ∫ ω, ev (true, t, j) ω ^ 2 ∂P = ∫ x, x ^ 2 ∂gaussianReal 0 (NNReal.mk (sdm ^ 2) (sq_nonneg _)) from this, integral_sq]
    simp
  have hmem : ∀ (t : Fin T) (j : Fin (k * 3)), MemLp (ev (true, t, j)) 2 P := by
    intro t j
    have := memLp_id_gaussianReal (μ := 0) (v := NNReal.mk (sdm ^ 2) (sq_nonneg _)) 2
    rw [← (hlaw t j).map_eq] at this
    exact (memLp_map_measure_iff this.1 (hlaw t j).aemeasurable).1 this
  refine ⟨vs, nv, ni, nvs, hv, h1, hn, fun t ht a ha s hs => ?_, fun M => ?_⟩
  · have hj : ∀ p : Fin 3, 3 * a + p < k * 3 := fun p => by omega
    have hu : Spec.Uncorrelated P (fun p : Fin 3 => Spec.entryError o nv t (3 * a + p)) := by
      have hprod : ∀ p q : Fin 3, (fun ω => Spec.entryError o nv t (3 * a + p) ω * (starRingEnd ℂ) (Spec.entryError o nv t (3 * a + q) ω)) =
          fun ω => ((ev (true, ⟨t, ht⟩, ⟨3 * a + p, hj p⟩) ω * ev (true, ⟨t, ht⟩, ⟨3 * a + q, hj q⟩) ω : ℝ) : ℂ) := by
        intro p q
        funext ω
        have e1 := herr ⟨t, ht⟩ ⟨3 * a + p, hj p⟩ ω
        have e2 := herr ⟨t, ht⟩ ⟨3 * a + q, hj q⟩ ω
        dsimp only at e1 e2
        rw [e1, e2, Complex.conj_ofReal]
        push_cast
        rfl
      refine ⟨fun p q => ?_, fun p q hpq => ?_⟩
      · rw [hprod]
        exact ((hmem _ _).integrable_mul (hmem _ _)).ofReal
      · rw [hprod, integral_complex_ofReal]
        have hind : IndepFun (ev (true, ⟨t, ht⟩, ⟨3 * a + p, hj p⟩)) (ev (true, ⟨t, ht⟩, ⟨3 * a + q, hj q⟩)) P := by
          have := h7.indepFun (i := Sum.inl (true, ⟨t, ht⟩, ⟨3 * a + p, hj p⟩)) (j := Sum.inl (true, ⟨t, ht⟩, ⟨3 * a + q, hj q⟩)) (by
            intro h
            apply hpq
            have hv := congrArg (fun x => x.2.2.val) (Sum.inl.inj h)
            dsimp only at hv
            exact Fin.ext (by omega))
          exact this
        have h0 : ∀ j, ∫ ω, ev (true, ⟨t, ht⟩, j) ω ∂P = 0 := by
          intro j
          exact (hlaw ⟨t, ht⟩ j).integral_eq.trans integral_id_gaussianReal
        have := hind.integral_mul_eq_mul_integral (hmem _ _).1 (hmem _ _).1
        rw [show ∫ ω, ev (true, ⟨t, ht⟩, ⟨3 * a + p, hj p⟩) ω * ev (true, ⟨t, ht⟩, ⟨3 * a + q, hj q⟩) ω ∂P =
          ∫ ω, (ev (true, ⟨t, ht⟩, ⟨3 * a + p, hj p⟩) * ev (true, ⟨t, ht⟩, ⟨3 * a + q, hj q⟩)) ω ∂P from rfl, this, h0, zero_mul]
        simp
    rw [(C180_partial hv hn (fun ω => ⟨(h2 ω).1, (h2 ω).2.1⟩) (t := t) (a := a) ht (by show 3 * a + 2 < k * 3; omega) hu).1 s hs]
    have p0 := hpow ⟨t, ht⟩ ⟨3 * a, hj 0⟩
    have p1 := hpow ⟨t, ht⟩ ⟨3 * a + 1, hj 1⟩
    have p2 := hpow ⟨t, ht⟩ ⟨3 * a + 2, hj 2⟩
    dsimp only at p0 p1 p2
    rw [p0, p1, p2]
    ring
  · obtain ⟨S, hS, hR⟩ := assumed_power M sdm sdp
    refine ⟨S, hS, fun t ht j hj => ?_⟩
    obtain ⟨re, im, cov, r1, r2⟩ := hR t ht j hj
    exact ⟨re, im, cov, r1, r2 ▸ assumed_ge _ sdm sdp⟩

/-- hypotheses of C180_violated and C180_partial: five times, two nodes, one percent, and standard normal variables exist -/
example (current : Arr2 ℂ) : ∃ (Ω : Type) (_ : MeasurableSpace Ω) (P : Measure Ω) (vs : Arr2 ℂ) (nvs : Ω → Arr2 ℂ),
    Spec.noisePower P (Spec.entryError vs nvs 4 5) = (1 / 100) ^ 2 / 3 ∧ measurementPhaseToSequence (Arr2.ofFn 5 (2 * 3) fun _ _ => 1) = .ok vs := by
  obtain ⟨Ω, m, P, hP, z, hz, hi⟩ := exists_standard_normals
  obtain ⟨vs, nv, ni, nvs, h1, -, -, h4, -⟩ := C180_violated z hz hi 5 2
    (sdm := 1 / 100) (sdp := 1 / 100) (by norm_num) (by norm_num) current
  exact ⟨Ω, m, P, vs, nvs, h4 4 (by norm_num) 1 (by norm_num) 2 (by norm_num), h1⟩

end
end Verif
