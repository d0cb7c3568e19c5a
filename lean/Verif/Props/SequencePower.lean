/-
C178, C179 and C151, C152 for three phases: power and balanced voltages in phase and in sequence values.
-/
import Verif.Props.Energy
import Verif.Props.Simulation
import Verif.Model.Simulate

namespace Verif
open Finset
noncomputable section

namespace Spec

/-- complex power that enters node `a` at time `t`: sum over the three phases, or over the three sequences -/
def nodePower (v i : Arr2 ℂ) (t a : ℕ) : ℂ := ∑ p : Fin 3, v.get t (3 * a + p) * (starRingEnd ℂ) (i.get t (3 * a + p))

/-- the three values of node `a` at time `t` have the same size and follow each other by a third of a turn, in the order a, b, c -/
def Balanced (v : Arr2 ℂ) (t a : ℕ) (u : ℂ) : Prop :=
  v.get t (3 * a) = u ∧ v.get t (3 * a + 1) = u * alpha ^ 2 ∧ v.get t (3 * a + 2) = u * alpha

/-- balanced voltages give the balanced currents of the network with matrix `y1`, the same for each phase -/
def BalancedEquation (k : ℕ) (y1 Y : Arr2 ℂ) : Prop :=
  ∀ (v i : Arr2 ℂ) (u : ℕ → ℕ → ℂ), v.c = k * 3 → v.matmul Y = .ok i → (∀ t < v.r, ∀ a < k, Balanced v t a (u t a)) →
    ∀ t < v.r, ∀ b < k, Balanced i t b (∑ a ∈ range k, u t a * y1.get a b)

end Spec

theorem conj_alpha : (starRingEnd ℂ) Spec.alpha = Spec.alpha ^ 2 := by
  have h : (starRingEnd ℂ) Spec.alpha * Spec.alpha = 1 := by
    unfold Spec.alpha
    rw [← Complex.exp_conj, ← Complex.exp_add]
    have : (starRingEnd ℂ) (2 * Real.pi * Complex.I / 3) + 2 * Real.pi * Complex.I / 3 = 0 := by
      simp [map_ofNat]
      ring
    rw [this, Complex.exp_zero]
  calc (starRingEnd ℂ) Spec.alpha = (starRingEnd ℂ) Spec.alpha * Spec.alpha ^ 3 := by rw [alpha_cube, mul_one]
    _ = ((starRingEnd ℂ) Spec.alpha * Spec.alpha) * Spec.alpha ^ 2 := by ring
    _ = _ := by rw [h, one_mul]

theorem alpha_sum : 1 + Spec.alpha + Spec.alpha ^ 2 = 0 := by
  have := rot_sum
  rwa [rot_pos, rot_neg] at this

theorem alpha_four : Spec.alpha ^ 4 = Spec.alpha := by
  rw [show (4 : ℕ) = 3 + 1 by norm_num, pow_add, alpha_cube, one_mul, pow_one]

/-- entries of the converted measurements -/
theorem sequence_entry {m s : Arr2 ℂ} (h : measurementPhaseToSequence m = .ok s) :
    s.r = m.r ∧ s.c = m.c ∧ ∀ t < m.r, ∀ a, 3 * a + 2 < m.c → ∀ q < 3, s.get t (3 * a + q) =
      (m.get t (3 * a) + Spec.alpha ^ q * m.get t (3 * a + 1) + Spec.alpha ^ (2 * q) * m.get t (3 * a + 2)) / 3 := by
  have h3 : m.c % 3 = 0 := by
    by_contra hc
    rw [(C61_width m hc).1] at h
    cases h
  obtain ⟨-, s', hs, hr, hc, hm⟩ := measurement_mat (m.c / 3) m (by omega)
  rw [h] at hs
  cases hs
  refine ⟨hr, by omega, fun t ht a ha q hq => ?_⟩
  have hlt : 3 * a + q < m.c / 3 * 3 := by omega
  have := congrFun (congrFun hm ⟨t, ht⟩) ⟨3 * a + q, hlt⟩
  rw [mul_blockMat, Fin.sum_univ_three] at this
  have e1 : (3 * a + q) / 3 * 3 = 3 * a := by omega
  have e2 : (3 * a + q) % 3 = q := by omega
  simp only [Arr2.toMat, e1, e2, Fin.val_zero, Fin.val_one, Fin.val_two, add_zero] at this
  rw [this, (block_powers (by norm_num : 0 < 3) hq).2, (block_powers (by norm_num : 1 < 3) hq).2, (block_powers (by norm_num : 2 < 3) hq).2]
  simp only [zero_mul, pow_zero, one_mul]
  ring

/-- three values and their symmetrical components -/
theorem parseval_three (x0 x1 x2 y0 y1 y2 : ℂ) :
    x0 * (starRingEnd ℂ) y0 + x1 * (starRingEnd ℂ) y1 + x2 * (starRingEnd ℂ) y2 =
      3 * ((x0 + x1 + x2) / 3 * (starRingEnd ℂ) ((y0 + y1 + y2) / 3) +
        (x0 + Spec.alpha * x1 + Spec.alpha ^ 2 * x2) / 3 * (starRingEnd ℂ) ((y0 + Spec.alpha * y1 + Spec.alpha ^ 2 * y2) / 3) +
        (x0 + Spec.alpha ^ 2 * x1 + Spec.alpha * x2) / 3 * (starRingEnd ℂ) ((y0 + Spec.alpha ^ 2 * y1 + Spec.alpha * y2) / 3)) := by
  have h3 := alpha_cube
  have hs := alpha_sum
  simp only [map_add, map_mul, map_div₀, map_pow, map_ofNat, conj_alpha]
  generalize (starRingEnd ℂ) y0 = z0
  generalize (starRingEnd ℂ) y1 = z1
  generalize (starRingEnd ℂ) y2 = z2
  generalize Spec.alpha = α at *
  grind

/-- C178: for every pair of measurement arrays the power of a node is three times the power computed from the sequence values. -/
theorem C178 {v i vs is : Arr2 ℂ} (hv : measurementPhaseToSequence v = .ok vs) (hi : measurementPhaseToSequence i = .ok is) {t a : ℕ}
    (htv : t < v.r) (hti : t < i.r) (hav : 3 * a + 2 < v.c) (hai : 3 * a + 2 < i.c) :
    Spec.nodePower v i t a = 3 * Spec.nodePower vs is t a := by
  obtain ⟨-, -, ev⟩ := sequence_entry hv
  obtain ⟨-, -, ei⟩ := sequence_entry hi
  unfold Spec.nodePower
  rw [Fin.sum_univ_three, Fin.sum_univ_three]
  simp only [Fin.val_zero, Fin.val_one, Fin.val_two]
  rw [ev t htv a hav 0 (by norm_num), ev t htv a hav 1 (by norm_num), ev t htv a hav 2 (by norm_num), ei t hti a hai 0 (by norm_num),
    ei t hti a hai 1 (by norm_num), ei t hti a hai 2 (by norm_num)]
  simp only [mul_zero, pow_zero, one_mul, pow_one, add_zero, mul_one, show 2 * 2 = 4 by norm_num, alpha_four]
  exact parseval_three _ _ _ _ _ _

/-- C178, the conversion back to phase values -/
theorem C178_back {v i vp ip : Arr2 ℂ} (hv : measurementSequenceToPhase v = .ok vp) (hi : measurementSequenceToPhase i = .ok ip) {t a : ℕ}
    (htv : t < v.r) (hti : t < i.r) (hav : 3 * a + 2 < v.c) (hai : 3 * a + 2 < i.c) :
    Spec.nodePower vp ip t a = 3 * Spec.nodePower v i t a := by
  have key : ∀ {m p : Arr2 ℂ}, measurementSequenceToPhase m = .ok p → measurementPhaseToSequence p = .ok m := by
    intro m p h
    have h3 : m.c % 3 = 0 := by
      by_contra hc
      rw [(C61_width m hc).2] at h
      cases h
    obtain ⟨⟨p', hp', -, hb⟩, -⟩ := C61_measurement (m.c / 3) m (by omega)
    rw [h] at hp'
    cases hp'
    exact hb
  obtain ⟨r1, c1, -⟩ := sequence_entry (key hv)
  obtain ⟨r2, c2, -⟩ := sequence_entry (key hi)
  exact C178 (key hv) (key hi) (by omega) (by omega) (by omega) (by omega)

/-- C178: the three symmetrical components are in the order zero, positive, negative. Equal values have only the first, balanced
values only the second, and balanced values in the opposite order only the third, each with the value of phase a. -/
theorem C178_components {v vs : Arr2 ℂ} (hv : measurementPhaseToSequence v = .ok vs) {t a : ℕ} (ht : t < v.r) (ha : 3 * a + 2 < v.c) (u : ℂ) :
    ((v.get t (3 * a) = u ∧ v.get t (3 * a + 1) = u ∧ v.get t (3 * a + 2) = u) ↔
      (vs.get t (3 * a) = u ∧ vs.get t (3 * a + 1) = 0 ∧ vs.get t (3 * a + 2) = 0)) ∧
    (Spec.Balanced v t a u ↔ (vs.get t (3 * a) = 0 ∧ vs.get t (3 * a + 1) = u ∧ vs.get t (3 * a + 2) = 0)) ∧
    ((v.get t (3 * a) = u ∧ v.get t (3 * a + 1) = u * Spec.alpha ∧ v.get t (3 * a + 2) = u * Spec.alpha ^ 2) ↔
      (vs.get t (3 * a) = 0 ∧ vs.get t (3 * a + 1) = 0 ∧ vs.get t (3 * a + 2) = u)) := by
  obtain ⟨-, -, ev⟩ := sequence_entry hv
  have h0 := ev t ht a ha 0 (by norm_num)
  have h1 := ev t ht a ha 1 (by norm_num)
  have h2 := ev t ht a ha 2 (by norm_num)
  simp only [mul_zero, pow_zero, one_mul, pow_one, add_zero, mul_one, show 2 * 2 = 4 by norm_num, alpha_four] at h0 h1 h2
  have h3 := alpha_cube
  have hs := alpha_sum
  unfold Spec.Balanced
  rw [h0, h1, h2]
  generalize v.get t (3 * a) = x
  generalize v.get t (3 * a + 1) = y
  generalize v.get t (3 * a + 2) = z
  generalize Spec.alpha = α at *
  have e0 : x = (x + y + z) / 3 + (x + α * y + α ^ 2 * z) / 3 + (x + α ^ 2 * y + α * z) / 3 := by
    linear_combination (-(y + z) / 3) * hs
  have e1 : y = (x + y + z) / 3 + α ^ 2 * ((x + α * y + α ^ 2 * z) / 3) + α * ((x + α ^ 2 * y + α * z) / 3) := by
    linear_combination (-(x + z) / 3) * hs + (-(2 * y + α * z) / 3 + z * 0) * h3
  have e2 : z = (x + y + z) / 3 + α * ((x + α * y + α ^ 2 * z) / 3) + α ^ 2 * ((x + α ^ 2 * y + α * z) / 3) := by
    linear_combination (-(x + y) / 3) * hs + (-(2 * z + α * y) / 3) * h3
  refine ⟨⟨?_, ?_⟩, ⟨?_, ?_⟩, ⟨?_, ?_⟩⟩
  · rintro ⟨rfl, rfl, rfl⟩
    refine ⟨by ring, ?_, ?_⟩ <;> linear_combination (z / 3) * hs
  · rintro ⟨k0, k1, k2⟩
    rw [k0, k1, k2] at e0 e1 e2
    exact ⟨by rw [e0]; ring, by rw [e1]; ring, by rw [e2]; ring⟩
  · rintro ⟨rfl, rfl, rfl⟩
    refine ⟨?_, ?_, ?_⟩
    · linear_combination (x / 3) * hs
    · linear_combination (2 * x / 3) * h3
    · linear_combination (x / 3) * hs + (x * α / 3) * h3
  · rintro ⟨k0, k1, k2⟩
    rw [k0, k1, k2] at e0 e1 e2
    exact ⟨by rw [e0]; ring, by rw [e1]; ring, by rw [e2]; ring⟩
  · rintro ⟨rfl, rfl, rfl⟩
    refine ⟨?_, ?_, ?_⟩
    · linear_combination (x / 3) * hs
    · linear_combination (x / 3) * hs + (x * α / 3) * h3
    · linear_combination (2 * x / 3) * h3
  · rintro ⟨k0, k1, k2⟩
    rw [k0, k1, k2] at e0 e1 e2
    exact ⟨by rw [e0]; ring, by rw [e1]; ring, by rw [e2]; ring⟩

/-- C178 for the data that simulate_network.py stores with `--sequence`: the power of each kept node, exact and measured, is a third of
that of the phase values. -/
theorem C178_stored {w : SimWorld} {a : SimArgs} (hs : a.sequence = true) {net : Net} {hidden : List Int} {n : NoiseResult} {d' : NetworkData}
    (h : networkData w a net hidden n = .ok d') :
    ∃ idx y d, reduction w a net hidden n = .ok (idx, y) ∧ dropReduced a.threePhased net n idx y = .ok d ∧
      (∀ t b, t < d.voltage.r → t < d.current.r → 3 * b + 2 < d.voltage.c → 3 * b + 2 < d.current.c →
        Spec.nodePower d.voltage d.current t b = 3 * Spec.nodePower d'.voltage d'.current t b) ∧
      (∀ t b, t < d.noisyVoltage.r → t < d.noisyCurrent.r → 3 * b + 2 < d.noisyVoltage.c → 3 * b + 2 < d.noisyCurrent.c →
        Spec.nodePower d.noisyVoltage d.noisyCurrent t b = 3 * Spec.nodePower d'.noisyVoltage d'.noisyCurrent t b) := by
  unfold networkData at h
  obtain ⟨⟨idx, y⟩, h1, h⟩ := Prior.bind_ok h
  obtain ⟨d, h2, h⟩ := Prior.bind_ok h
  rw [if_pos hs] at h
  unfold toSequence at h
  obtain ⟨nv, k1, h⟩ := Prior.bind_ok h
  obtain ⟨ni, k2, h⟩ := Prior.bind_ok h
  obtain ⟨v, k3, h⟩ := Prior.bind_ok h
  obtain ⟨i, k4, h⟩ := Prior.bind_ok h
  obtain ⟨ys, -, h⟩ := Prior.bind_ok h
  cases h
  exact ⟨idx, y, d, h1, h2, fun t b ha hb hc hd => C178 k3 k4 ha hb hc hd, fun t b ha hb hc hd => C178 k1 k2 ha hb hc hd⟩

/-! ### balanced voltages -/

/-- currents of balanced voltages in a network built by `make_y_bus` -/
theorem balanced_currents {k : ℕ} {y0 y1 y2 : Arr2 ℂ} (h0 : Spec.IsSquare k y0) (h1 : Spec.IsSquare k y1) (h2 : Spec.IsSquare k y2)
    {Y v i : Arr2 ℂ} (hY : makeYBus3 y0 y1 y2 = .ok Y) (hc : v.c = k * 3) (hi : v.matmul Y = .ok i) {u : ℕ → ℂ} {t : ℕ} (ht : t < v.r)
    (hb : ∀ a < k, Spec.Balanced v t a (u a)) {b : ℕ} (hbk : b < k) :
    Spec.Balanced i t b (∑ a ∈ range k, u a * y2.get a b) := by
  obtain ⟨Y', s, hY', hsq, hF, -⟩ := C63_admittances k y0 y1 y2 h0 h1 h2
  rw [hY] at hY'
  cases hY'
  obtain ⟨-, -, -, he⟩ := matmul_entry hi
  have h3 := alpha_cube
  have hs := alpha_sum
  have key : ∀ q < 3, i.get t (3 * b + q) = (∑ a ∈ range k, u a * y2.get a b) * Spec.alpha ^ (2 * q) := by
    intro q hq
    rw [he t (3 * b + q) ht (by rw [hsq.2]; omega), hc, sum_triples, Finset.sum_mul]
    refine Finset.sum_congr rfl fun a ha => ?_
    have ha := Finset.mem_range.1 ha
    obtain ⟨b0, b1, b2⟩ := hb a ha
    rw [Finset.sum_range_succ, Finset.sum_range_succ, Finset.sum_range_one, mul_comm a 3, hF a ha b hbk 0 (by norm_num) q hq,
      hF a ha b hbk 1 (by norm_num) q hq, hF a ha b hbk 2 (by norm_num) q hq, add_zero, b0, b1, b2]
    have hx : ∀ m : ℕ, Spec.alpha ^ (3 + m) = Spec.alpha ^ m := fun m => by rw [pow_add, h3, one_mul]
    simp only [mul_add, pow_add, pow_mul, mul_one, mul_zero, pow_zero, one_mul]
    generalize Spec.alpha = α at *
    interval_cases q <;> grind
  refine ⟨?_, ?_, ?_⟩
  · simpa using key 0 (by norm_num)
  · simpa using key 1 (by norm_num)
  · have := key 2 (by norm_num)
    rwa [show 2 * 2 = 4 by norm_num, alpha_four] at this

/-- C179 where it holds, exactly: balanced voltages give the currents of the positive sequence network if and only if the positive and
negative sequence matrices agree; in general they give the currents of the negative sequence network. -/
theorem C179_partial {k : ℕ} {y0 y1 y2 : Arr2 ℂ} (h0 : Spec.IsSquare k y0) (h1 : Spec.IsSquare k y1) (h2 : Spec.IsSquare k y2) :
    ∃ Y, makeYBus3 y0 y1 y2 = .ok Y ∧ Spec.IsSquare (k * 3) Y ∧ Spec.BalancedEquation k y2 Y ∧ (Spec.BalancedEquation k y1 Y ↔ y1 = y2) := by
  obtain ⟨Y, -, hY, hsq, -⟩ := C63_admittances k y0 y1 y2 h0 h1 h2
  have h2' : Spec.BalancedEquation k y2 Y := fun v i u hc hi hb t ht b hbk => balanced_currents h0 h1 h2 hY hc hi ht (hb t ht) hbk
  refine ⟨Y, hY, hsq, h2', ⟨fun h => ?_, fun h => h ▸ h2'⟩⟩
  refine Arr2.ext' (h1.1.trans h2.1.symm) (h1.2.trans h2.2.symm) fun a b ha hb => ?_
  have ha : a < k := h1.1 ▸ ha
  have hb : b < k := h1.2 ▸ hb
  -- one time, node `a` at balanced voltage one
  let v : Arr2 ℂ := Arr2.ofFn 1 (k * 3) (fun _ j => if j / 3 = a then Spec.alpha ^ (2 * (j % 3)) else 0)
  obtain ⟨i, hi, -⟩ := Arr2.matmul_mat (A := v) (B := Y) ⟨rfl, rfl⟩ hsq
  have hv : ∀ t < v.r, ∀ c < k, Spec.Balanced v t c (if c = a then 1 else 0) := by
    intro t ht c hc
    have ht : t < 1 := ht
    have e : ∀ q < 3, v.get t (3 * c + q) = if c = a then Spec.alpha ^ (2 * q) else 0 := by
      intro q hq
      show (Arr2.ofFn 1 (k * 3) _).get t (3 * c + q) = _
      rw [Arr2.ofFn_get _ ht (by omega), show (3 * c + q) / 3 = c by omega, show (3 * c + q) % 3 = q by omega]
    refine ⟨?_, ?_, ?_⟩
    · simpa using e 0 (by norm_num)
    · rw [e 1 (by norm_num)]; split <;> simp
    · rw [e 2 (by norm_num), show 2 * 2 = 4 by norm_num, alpha_four]; split <;> simp
  have e1 := (h v i (fun _ c => if c = a then 1 else 0) rfl hi hv 0 Nat.one_pos b hb).1
  have e2 := (h2' v i (fun _ c => if c = a then 1 else 0) rfl hi hv 0 Nat.one_pos b hb).1
  rw [e1] at e2
  simpa [ha] using e2

/-- C179 violated: for every number of nodes there are positive, negative and zero sequence matrices with which the simulated currents of
balanced voltages are not those of the positive sequence network. -/
theorem C179_violated (k : ℕ) (hk : 0 < k) : ∃ y0 y1 y2 Y, Spec.IsSquare k y0 ∧ Spec.IsSquare k y1 ∧ Spec.IsSquare k y2 ∧
    makeYBus3 y0 y1 y2 = .ok Y ∧ ¬ Spec.BalancedEquation k y1 Y := by
  let z : Arr2 ℂ := Arr2.ofFn k k (fun _ _ => 0)
  let o : Arr2 ℂ := Arr2.ofFn k k (fun _ _ => 1)
  have hz : Spec.IsSquare k z := ⟨rfl, rfl⟩
  have ho : Spec.IsSquare k o := ⟨rfl, rfl⟩
  obtain ⟨Y, hY, -, -, hiff⟩ := C179_partial hz ho hz
  refine ⟨z, o, z, Y, hz, ho, hz, hY, fun h => ?_⟩
  have := congrArg (fun m : Arr2 ℂ => m.get 0 0) (hiff.1 h)
  simp only [o, z, Arr2.ofFn_get _ hk hk] at this
  norm_num at this

/-- C179 in the simulation: if the power flow gives balanced voltages, the simulated currents are balanced, those of the negative sequence
network, and the power of a node is three times that of phase a. -/
theorem C179_simulated_partial (res : SimResult3) (T k : Nat) (hm : ∀ p, (res.vm p).r = T ∧ (res.vm p).c = k)
    (ha : ∀ p, (res.va p).r = T ∧ (res.va p).c = k) {y0 y1 y2 : Arr2 ℂ} (h0 : Spec.IsSquare k y0) (h1 : Spec.IsSquare k y1)
    (h2 : Spec.IsSquare k y2) :
    ∃ v i, getCurrentAndVoltage3 (some res) (makeYBus3 y0 y1 y2) = .ok (some (v, i)) ∧
      ∀ t < T, ∀ u : ℕ → ℂ, (∀ a < k, Spec.Balanced v t a (u a)) → ∀ b < k,
        Spec.Balanced i t b (∑ a ∈ range k, u a * y2.get a b) ∧
        Spec.nodePower v i t b = 3 * (u b * (starRingEnd ℂ) (∑ a ∈ range k, u a * y2.get a b)) := by
  obtain ⟨Y, -, hY, hsq, -⟩ := C63_admittances k y0 y1 y2 h0 h1 h2
  obtain ⟨v, i, hvi, hr, hc, -, ho⟩ := C84_three res Y T k hm ha hsq.1
  obtain ⟨i', hi', ir, ic, -⟩ := Arr2.matmul_mat (A := v) (B := Y) ⟨hr, hc⟩ hsq
  obtain ⟨-, -, -, he⟩ := matmul_entry hi'
  have hii : i = i' := by
    refine Arr2.ext' (by rw [ho.1, ir, hr]) (by rw [ho.2.1, ic, hsq.2]) fun t j ht hj => ?_
    rw [ho.1] at ht
    rw [ho.2.1] at hj
    rw [ho.2.2 t ht j hj, he t j ht hj]
  subst hii
  refine ⟨v, i, by rw [hY]; exact hvi, fun t ht u hb b hbk => ?_⟩
  have hB := balanced_currents h0 h1 h2 hY hc hi' (hr ▸ ht) hb hbk
  refine ⟨hB, ?_⟩
  obtain ⟨v0, v1, v2⟩ := hb b hbk
  obtain ⟨i0, i1, i2⟩ := hB
  unfold Spec.nodePower
  rw [Fin.sum_univ_three]
  simp only [Fin.val_zero, Fin.val_one, Fin.val_two, add_zero]
  rw [v0, v1, v2, i0, i1, i2]
  simp only [map_mul, map_pow, conj_alpha]
  generalize (starRingEnd ℂ) (∑ a ∈ range k, u a * y2.get a b) = z
  have h3 := alpha_cube
  linear_combination (u b * z + u b * z * (Spec.alpha ^ 3 + 1)) * h3

/-! ### cases -/

/-- two nodes; the first has balanced voltages, the second equal ones -/
def demoV178 : Arr2 ℂ := Arr2.ofFn 1 6 (fun _ j => if j < 3 then Spec.alpha ^ (2 * j) else 5)

/-- C178 and its components: with currents equal to the voltages the powers are 3 and 75, and a third of this in sequence values -/
example : ∃ vs, measurementPhaseToSequence demoV178 = .ok vs ∧ vs.get 0 1 = 1 ∧ vs.get 0 3 = 5 ∧ vs.get 0 4 = 0 ∧
    Spec.nodePower demoV178 demoV178 0 1 = 75 ∧ Spec.nodePower vs vs 0 1 = 25 := by
  obtain ⟨-, vs, hv, -⟩ := C61_measurement 2 demoV178 rfl
  have e : ∀ j < 6, demoV178.get 0 j = if j < 3 then Spec.alpha ^ (2 * j) else 5 := fun j hj => Arr2.ofFn_get _ one_pos hj
  have c0 := (C178_components hv (t := 0) (a := 0) one_pos (by decide) 1).2.1.1
    ⟨by rw [e 0 (by norm_num)]; simp, by rw [e 1 (by norm_num)]; simp, by rw [e 2 (by norm_num)]; simp [alpha_four]⟩
  have c1 := (C178_components hv (t := 0) (a := 1) one_pos (by decide) 5).1.1
    ⟨by rw [e 3 (by norm_num)]; simp, by rw [e 4 (by norm_num)]; simp, by rw [e 5 (by norm_num)]; simp⟩
  have hp : Spec.nodePower demoV178 demoV178 0 1 = 75 := by
    unfold Spec.nodePower
    rw [Fin.sum_univ_three]
    simp only [Fin.val_zero, Fin.val_one, Fin.val_two, mul_one, add_zero]
    rw [e 3 (by norm_num), e 4 (by norm_num), e 5 (by norm_num)]
    norm_num [map_ofNat]
  have h := C178 hv hv (t := 0) (a := 1) one_pos one_pos (by decide) (by decide)
  refine ⟨vs, hv, c0.2.1, c1.1, c1.2.1, hp, ?_⟩
  rw [hp] at h
  linear_combination -h / 3

/-- C178_back -/
example : ∃ vp, measurementSequenceToPhase demoV178 = .ok vp ∧ Spec.nodePower vp vp 0 1 = 225 := by
  obtain ⟨⟨vp, hv, -⟩, -⟩ := C61_measurement 2 demoV178 rfl
  have e : ∀ j < 6, demoV178.get 0 j = if j < 3 then Spec.alpha ^ (2 * j) else 5 := fun j hj => Arr2.ofFn_get _ one_pos hj
  refine ⟨vp, hv, ?_⟩
  rw [C178_back hv hv one_pos one_pos (by decide) (by decide)]
  unfold Spec.nodePower
  rw [Fin.sum_univ_three]
  simp only [Fin.val_zero, Fin.val_one, Fin.val_two, mul_one, add_zero]
  rw [e 3 (by norm_num), e 4 (by norm_num), e 5 (by norm_num)]
  norm_num [map_ofNat]

/-- C179: one node with sequence admittances 1, 2 and 3, and balanced voltages: the current of phase a is 3, not 2 -/
example : ∃ Y v i, makeYBus3 (Arr2.ofFn 1 1 fun _ _ => 1) (Arr2.ofFn 1 1 fun _ _ => 2) (Arr2.ofFn 1 1 fun _ _ => 3) = .ok Y ∧
    v.matmul Y = .ok i ∧ Spec.Balanced v 0 0 1 ∧ i.get 0 0 = 3 := by
  obtain ⟨Y, hY, hsq, hB, -⟩ := C179_partial (k := 1) (y0 := Arr2.ofFn 1 1 fun _ _ => 1) (y1 := Arr2.ofFn 1 1 fun _ _ => 2)
    (y2 := Arr2.ofFn 1 1 fun _ _ => 3) ⟨rfl, rfl⟩ ⟨rfl, rfl⟩ ⟨rfl, rfl⟩
  let v : Arr2 ℂ := Arr2.ofFn 1 3 (fun _ j => Spec.alpha ^ (2 * j))
  obtain ⟨i, hi, -⟩ := Arr2.matmul_mat (A := v) (B := Y) ⟨rfl, rfl⟩ hsq
  have e : ∀ j < 3, v.get 0 j = Spec.alpha ^ (2 * j) := fun j hj => Arr2.ofFn_get _ one_pos hj
  have hb : Spec.Balanced v 0 0 1 :=
    ⟨by rw [e _ (by norm_num)]; simp, by rw [e _ (by norm_num)]; simp, by rw [e _ (by norm_num)]; simp [alpha_four]⟩
  refine ⟨Y, v, i, hY, hi, hb, ?_⟩
  have := (hB v i (fun _ _ => 1) rfl hi (by
    intro t ht a ha
    have ht : t < 1 := ht
    obtain rfl : t = 0 := by omega
    obtain rfl : a = 0 := by omega
    exact hb) 0 one_pos 0 one_pos).1
  rw [mul_zero] at this
  rw [this, Finset.sum_range_one, Arr2.ofFn_get _ one_pos one_pos, one_mul]

end
end Verif
