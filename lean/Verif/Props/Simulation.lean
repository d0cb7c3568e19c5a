/-
C63, C84: layout and consistency of the simulated voltages and currents.
-/
import Verif.Model.Simulation
import Verif.Spec.Simulation
import Verif.Props.Reduce3

namespace Verif
open Finset
noncomputable section

theorem polar_of_exp (m deg : ℝ) : Spec.Polar ((m : ℂ) * ((Real.cos (deg * Real.pi / 180) : ℂ) + Complex.I * (Real.sin (deg * Real.pi / 180) : ℂ))) m deg := by
  set r : ℝ := deg * Real.pi / 180
  have hn : ‖((Real.cos r : ℂ) + Complex.I * (Real.sin r : ℂ))‖ = 1 := by
    rw [mul_comm, Complex.ofReal_cos, Complex.ofReal_sin, ← Complex.exp_mul_I]
    exact Complex.norm_exp_ofReal_mul_I r
  have e : ((Real.cos r : ℂ) + Complex.I * (Real.sin r : ℂ)) = Complex.cos r + Complex.sin r * Complex.I := by
    rw [Complex.ofReal_cos, Complex.ofReal_sin, mul_comm]
  refine ⟨by rw [norm_mul, hn, mul_one, Complex.norm_real, Real.norm_eq_abs], fun h => ?_, fun h => ?_⟩
  · rw [e]
    have := Complex.arg_mul_cos_add_sin_mul_I_coe_angle h (r : Real.Angle)
    rwa [Real.Angle.cos_coe, Real.Angle.sin_coe, Complex.ofReal_cos, Complex.ofReal_sin] at this
  · have h' : 0 < -m := neg_pos.2 h
    have e2 : (m : ℂ) * (Complex.cos r + Complex.sin r * Complex.I) =
        ((-m : ℝ) : ℂ) * (Complex.cos ((r + Real.pi : ℝ) : ℂ) + Complex.sin ((r + Real.pi : ℝ) : ℂ) * Complex.I) := by
      push_cast
      rw [Complex.cos_add_pi, Complex.sin_add_pi]
      ring
    rw [e, e2]
    have := Complex.arg_mul_cos_add_sin_mul_I_coe_angle h' ((r + Real.pi : ℝ) : Real.Angle)
    rwa [Real.Angle.cos_coe, Real.Angle.sin_coe, Complex.ofReal_cos, Complex.ofReal_sin] at this

theorem polarVoltage_ok {vm va : Arr2 ℝ} (hr : vm.r = va.r) (hc : vm.c = va.c) : ∃ v, polarVoltage vm va = .ok v ∧ v.r = vm.r ∧ v.c = vm.c ∧
    ∀ t < vm.r, ∀ j < vm.c, Spec.Polar (v.get t j) (vm.get t j) (va.get t j) := by
  refine ⟨_, if_pos ⟨hr, hc⟩, rfl, rfl, fun t ht j hj => ?_⟩
  rw [Arr2.ofFn_get _ ht hj]
  exact polar_of_exp _ _

theorem matmul_ohm {v y : Arr2 ℂ} (h : v.c = y.r) : ∃ i, v.matmul y = .ok i ∧ Spec.OhmRows v y i :=
  ⟨_, if_pos h, rfl, rfl, fun _ ht _ hj => Arr2.ofFn_get _ ht hj⟩

/-- C84: `get_current_and_voltage` gives voltages with the magnitudes and angles of the power flow, and currents equal to the voltages times
the admittance matrix. -/
theorem C84 (res : SimResult) (y : Arr2 ℂ) (hr : res.vm.r = res.va.r) (hc : res.vm.c = res.va.c) (hy : res.vm.c = y.r) :
    ∃ v i, getCurrentAndVoltage (some res) (.ok y) = .ok (some (v, i)) ∧ v.r = res.vm.r ∧ v.c = res.vm.c ∧
      (∀ t < res.vm.r, ∀ j < res.vm.c, Spec.Polar (v.get t j) (res.vm.get t j) (res.va.get t j)) ∧ Spec.OhmRows v y i := by
  obtain ⟨v, hv, r1, c1, hp⟩ := polarVoltage_ok hr hc
  obtain ⟨i, hi, ho⟩ := matmul_ohm (v := v) (y := y) (c1.trans hy)
  refine ⟨v, i, ?_, r1, c1, hp, ho⟩
  simp only [getCurrentAndVoltage, hv, hi, bind, Except.bind, pure, Except.pure]

/-- C84, before a run: `(None, None)`, without looking at the network. -/
theorem C84_none (y : Except PyErr (Arr2 ℂ)) : getCurrentAndVoltage none y = .ok none ∧ getCurrentAndVoltage3 none y = .ok none := ⟨rfl, rfl⟩

theorem kron_unitRow {v : Arr2 ℂ} {p t j q : Nat} (ht : t < v.r) (hj : j < v.c) (hq : q < 3) :
    (v.kron (unitRow p)).get t (j * 3 + q) = if q = p then v.get t j else 0 := by
  have := Arr2.kron_get v (unitRow p) (i := t) (j := j) (i' := 0) (j' := q) ht hj (by show 0 < 1; norm_num) hq
  have e1 : (unitRow p).r = 1 := rfl
  have e2 : (unitRow p).c = 3 := rfl
  rw [e1, e2, mul_one, add_zero] at this
  rw [this, unitRow, Arr2.ofFn_get _ (by norm_num) hq]
  split <;> simp

/-- C84 for three phases, and C63 for the voltages: node `j` and phase `p` are in column `3 j + p`. -/
theorem C84_three (res : SimResult3) (y : Arr2 ℂ) (T n : Nat) (hm : ∀ p, (res.vm p).r = T ∧ (res.vm p).c = n)
    (ha : ∀ p, (res.va p).r = T ∧ (res.va p).c = n) (hy : y.r = n * 3) :
    ∃ v i, getCurrentAndVoltage3 (some res) (.ok y) = .ok (some (v, i)) ∧ v.r = T ∧ v.c = n * 3 ∧
      (∀ t < T, ∀ j < n, ∀ p : Fin 3, Spec.Polar (v.get t (j * 3 + p)) ((res.vm p).get t j) ((res.va p).get t j)) ∧ Spec.OhmRows v y i := by
  have one : ∀ p : Fin 3, ∃ v, polarVoltage (res.vm p) (res.va p) = .ok v ∧ v.r = T ∧ v.c = n ∧
      ∀ t < T, ∀ j < n, Spec.Polar (v.get t j) ((res.vm p).get t j) ((res.va p).get t j) := by
    intro p
    obtain ⟨v, h1, h2, h3, h4⟩ := polarVoltage_ok (vm := res.vm p) (va := res.va p) (by rw [(hm p).1, (ha p).1]) (by rw [(hm p).2, (ha p).2])
    rw [(hm p).1] at h2
    rw [(hm p).2] at h3
    rw [(hm p).1, (hm p).2] at h4
    exact ⟨v, h1, h2, h3, h4⟩
  obtain ⟨va, a1, a2, a3, a4⟩ := one 0
  obtain ⟨vb, b1, b2, b3, b4⟩ := one 1
  obtain ⟨vc, c1, c2, c3, c4⟩ := one 2
  have kr : ∀ (v : Arr2 ℂ) (p : Nat), v.r = T → v.c = n → (v.kron (unitRow p)).r = T ∧ (v.kron (unitRow p)).c = n * 3 := by
    intro v p h1 h2
    refine ⟨?_, ?_⟩
    · show v.r * 1 = T; rw [h1, mul_one]
    · show v.c * 3 = n * 3; rw [h2]
  obtain ⟨ka, ka'⟩ := kr va 0 a2 a3
  obtain ⟨kb, kb'⟩ := kr vb 1 b2 b3
  obtain ⟨kc, kc'⟩ := kr vc 2 c2 c3
  let s : Arr2 ℂ := Arr2.ofFn T (n * 3) (fun t j => (va.kron (unitRow 0)).get t j + (vb.kron (unitRow 1)).get t j)
  let v : Arr2 ℂ := Arr2.ofFn T (n * 3) (fun t j => s.get t j + (vc.kron (unitRow 2)).get t j)
  have hs : (va.kron (unitRow 0)).zipWith (· + ·) (vb.kron (unitRow 1)) = .ok s := by
    unfold Arr2.zipWith
    rw [ka, ka', kb, kb', if_pos ⟨rfl, rfl⟩]
  have hv : s.zipWith (· + ·) (vc.kron (unitRow 2)) = .ok v := by
    unfold Arr2.zipWith
    rw [kc, kc', if_pos ⟨rfl, rfl⟩]
    rfl
  obtain ⟨i, hi, ho⟩ := matmul_ohm (v := v) (y := y) hy.symm
  refine ⟨v, i, ?_, rfl, rfl, ?_, ho⟩
  · simp only [getCurrentAndVoltage3, a1, b1, c1, hs, hv, hi, bind, Except.bind, pure, Except.pure]
  · intro t ht j hj p
    have hjp : j * 3 + (p : Nat) < n * 3 := by have := p.2; omega
    have e : v.get t (j * 3 + p) = (if (p : Nat) = 0 then va.get t j else 0) + (if (p : Nat) = 1 then vb.get t j else 0) +
        (if (p : Nat) = 2 then vc.get t j else 0) := by
      rw [show v.get t (j * 3 + p) = _ from Arr2.ofFn_get _ ht hjp, show s.get t (j * 3 + p) = _ from Arr2.ofFn_get _ ht hjp,
        kron_unitRow (a2 ▸ ht) (a3 ▸ hj) p.2, kron_unitRow (b2 ▸ ht) (b3 ▸ hj) p.2, kron_unitRow (c2 ▸ ht) (c3 ▸ hj) p.2]
    rw [e]
    fin_cases p
    · simpa using a4 t ht j hj
    · simpa using b4 t ht j hj
    · simpa using c4 t ht j hj

theorem rot_pos : rot 120 = Spec.alpha := by
  unfold rot deg2rad Spec.alpha
  congr 1
  push_cast
  ring

theorem alpha_cube : Spec.alpha ^ 3 = 1 := by
  unfold Spec.alpha
  rw [← Complex.exp_nat_mul]
  rw [show ((3 : ℕ) : ℂ) * (2 * Real.pi * Complex.I / 3) = 2 * Real.pi * Complex.I by push_cast; ring]
  exact Complex.exp_two_pi_mul_I

theorem rot_neg : rot (-120) = Spec.alpha ^ 2 := by
  have h : rot (-120) * Spec.alpha = 1 := by
    rw [← rot_pos]
    unfold rot deg2rad
    rw [← Complex.exp_add]
    rw [show Complex.I * ((-120 * Real.pi / 180 : ℝ) : ℂ) + Complex.I * ((120 * Real.pi / 180 : ℝ) : ℂ) = 0 by push_cast; ring, Complex.exp_zero]
  have h3 := alpha_cube
  calc rot (-120) = rot (-120) * Spec.alpha ^ 3 := by rw [h3, mul_one]
    _ = (rot (-120) * Spec.alpha) * Spec.alpha ^ 2 := by ring
    _ = Spec.alpha ^ 2 := by rw [h, one_mul]

/-- entries of the two blocks as powers of the third root of unity -/
theorem block_powers {p q : Nat} (hp : p < 3) (hq : q < 3) :
    abcBlock.get p q = Spec.alpha ^ (2 * p * q) ∧ seqBlock.get p q = Spec.alpha ^ (p * q) / 3 := by
  have h3 := alpha_cube
  have h8 : Spec.alpha ^ 8 = Spec.alpha ^ 2 := by
    rw [show (8 : ℕ) = 3 * 2 + 2 by norm_num, pow_add, pow_mul, h3]; ring
  have h4 : Spec.alpha ^ 4 = Spec.alpha := by
    rw [show (4 : ℕ) = 3 + 1 by norm_num, pow_add, h3]; ring
  unfold abcBlock seqBlock
  rw [Arr2.ofFn_get _ hp hq, Arr2.ofFn_get _ hp hq, rot_pos, rot_neg]
  interval_cases p <;> interval_cases q <;> simp [h8, h4]

/-- C63: in the three-phase matrices, node `a` and phase `p` are at position `3 a + p`: the phase admittances are those of the symmetrical
components, and sub-sampling the matrix in sequence coordinates with stride 3 reads back the three matrices. -/
theorem C63_admittances (k : ℕ) (y0 y1 y2 : Arr2 ℂ) (h0 : Spec.IsSquare k y0) (h1 : Spec.IsSquare k y1) (h2 : Spec.IsSquare k y2) :
    ∃ Y s, makeYBus3 y0 y1 y2 = .ok Y ∧ Spec.IsSquare (k * 3) Y ∧
      (∀ a < k, ∀ b < k, ∀ p < 3, ∀ q < 3, Y.get (3 * a + p) (3 * b + q) =
        (y0.get a b + Spec.alpha ^ (2 * p + q) * y1.get a b + Spec.alpha ^ (2 * (2 * p + q)) * y2.get a b) / 3) ∧
      admittancePhaseToSequence Y = .ok s ∧ s.stride3 0 = y0 ∧ s.stride3 1 = y1 ∧ s.stride3 2 = y2 := by
  obtain ⟨Y, hY, hF⟩ := phaseForm_entries k h0 h1 h2
  obtain ⟨s, hs, e0, e1, e2⟩ := phaseForm_stride h0 h1 h2 hF
  refine ⟨Y, s, hY, hF.1, fun a ha b hb p hp q hq => ?_, hs, e0, e1, e2⟩
  rw [mul_comm 3 a, mul_comm 3 b, hF.2 a b p q ha hb hp hq, Finset.sum_range_succ, Finset.sum_range_succ, Finset.sum_range_one,
    (block_powers hp (by norm_num : 0 < 3)).1, (block_powers hp (by norm_num : 1 < 3)).1, (block_powers hp (by norm_num : 2 < 3)).1,
    (block_powers (by norm_num : 0 < 3) hq).2, (block_powers (by norm_num : 1 < 3) hq).2, (block_powers (by norm_num : 2 < 3) hq).2]
  simp only [three, if_true, one_ne_zero, if_false, OfNat.ofNat_ne_zero, OfNat.ofNat_ne_one]
  simp only [pow_add, pow_mul, mul_zero, pow_zero, zero_mul, pow_one, one_mul, one_pow]
  ring

/-- C63: simulated currents. The current of node `b` on phase `q` is in column `3 b + q`, and is the sum over nodes and phases of the voltages
with the angles and magnitudes of the power flow, each times the admittance at the matching position. -/
theorem C63_currents (res : SimResult3) (T k : Nat) (hm : ∀ p, (res.vm p).r = T ∧ (res.vm p).c = k)
    (ha : ∀ p, (res.va p).r = T ∧ (res.va p).c = k) (y0 y1 y2 : Arr2 ℂ) (h0 : Spec.IsSquare k y0) (h1 : Spec.IsSquare k y1)
    (h2 : Spec.IsSquare k y2) :
    ∃ V : Nat → Nat → Fin 3 → ℂ, ∃ v i Y, makeYBus3 y0 y1 y2 = .ok Y ∧
      getCurrentAndVoltage3 (some res) (makeYBus3 y0 y1 y2) = .ok (some (v, i)) ∧ v.r = T ∧ v.c = 3 * k ∧ i.r = T ∧ i.c = 3 * k ∧
      (∀ t < T, ∀ a < k, ∀ p, Spec.Polar (V t a p) ((res.vm p).get t a) ((res.va p).get t a)) ∧
      (∀ t < T, ∀ a < k, ∀ p : Fin 3, v.get t (3 * a + p) = V t a p) ∧
      (∀ t < T, ∀ b < k, ∀ q : Fin 3, i.get t (3 * b + q) = ∑ a ∈ range k, ∑ p : Fin 3, V t a p * Y.get (3 * a + p) (3 * b + q)) ∧
      -- each symmetrical component of the currents depends on that component of the voltages only
      (∀ t < T, ∀ b < k, ∀ s : Nat, s < 3 → ∑ q : Fin 3, i.get t (3 * b + q) * Spec.alpha ^ (2 * (q : Nat) * s) =
        ∑ a ∈ range k, (∑ p : Fin 3, V t a p * Spec.alpha ^ (2 * (p : Nat) * s)) * (three y0 y1 y2 s).get a b) := by
  obtain ⟨Y, hY, hF⟩ := phaseForm_entries k h0 h1 h2
  obtain ⟨v, i, hvi, hr, hc, hp, ho⟩ := C84_three res Y T k hm ha hF.1.1
  have hi : ∀ t < T, ∀ b < k, ∀ q < 3, i.get t (b * 3 + q) = Spec.currents Y (fun j => v.get t j) (b * 3 + q) := by
    intro t ht b hb q hq
    rw [ho.2.2 t (hr ▸ ht) (b * 3 + q) (by rw [hF.1.2]; omega), hc]
    unfold Spec.currents
    rw [hF.1.1]
  have hk : ∀ s, (three y0 y1 y2 s).r = k := three_forall (P := fun y => y.r = k) h0.1 h1.1 h2.1
  refine ⟨fun t a p => v.get t (a * 3 + p), v, i, Y, hY, by rw [hY]; exact hvi, hr, by rw [hc, mul_comm], ho.1.trans hr,
    by rw [ho.2.1, hF.1.2, mul_comm], hp, fun t _ a _ p => by rw [mul_comm], ?_, ?_⟩
  · intro t ht b hb q
    rw [mul_comm 3 b, hi t ht b hb q q.2]
    unfold Spec.currents
    rw [hF.1.1, sum_triples]
    refine Finset.sum_congr rfl (fun a _ => ?_)
    rw [← Fin.sum_univ_eq_sum_range (fun p => v.get t (a * 3 + p) * Y.get (a * 3 + p) (b * 3 + q))]
    exact Finset.sum_congr rfl (fun p _ => by rw [mul_comm 3 a])
  · intro t ht b hb s hs
    have key := phaseForm_seqCurrents hF hk (fun j => v.get t j) hb hs
    have e1 : ∑ q : Fin 3, i.get t (3 * b + q) * Spec.alpha ^ (2 * (q : Nat) * s) =
        ∑ q ∈ range 3, Spec.currents Y (fun j => v.get t j) (b * 3 + q) * abcBlock.get q s := by
      rw [← Fin.sum_univ_eq_sum_range (fun q => Spec.currents Y (fun j => v.get t j) (b * 3 + q) * abcBlock.get q s)]
      exact Finset.sum_congr rfl (fun q _ => by rw [mul_comm 3 b, hi t ht b hb q q.2, (block_powers q.2 hs).1])
    rw [e1, ← key]
    unfold Spec.currents seqVolt
    rw [hk]
    refine Finset.sum_congr rfl (fun a _ => ?_)
    rw [← Fin.sum_univ_eq_sum_range (fun p => v.get t (a * 3 + p) * abcBlock.get p s)]
    congr 1
    exact Finset.sum_congr rfl (fun p _ => by rw [(block_powers p.2 hs).1])

/-- one node, one step -/
example : ∃ v i, getCurrentAndVoltage (some ⟨Arr2.ofFn 1 1 (fun _ _ => 2), Arr2.ofFn 1 1 (fun _ _ => 90)⟩) (.ok (Arr2.ofFn 1 1 (fun _ _ => 3))) =
    .ok (some (v, i)) ∧ ‖v.get 0 0‖ = 2 ∧ (v.get 0 0).arg = Real.pi / 2 ∧ i.get 0 0 = v.get 0 0 * 3 := by
  obtain ⟨v, i, h, h1, h2, h3, h4⟩ := C84 ⟨Arr2.ofFn 1 1 (fun _ _ => 2), Arr2.ofFn 1 1 (fun _ _ => 90)⟩ (Arr2.ofFn 1 1 (fun _ _ => 3)) rfl rfl rfl
  have hp := h3 0 (Nat.one_pos) 0 (Nat.one_pos)
  have e1 : (Arr2.ofFn 1 1 (fun _ _ => (2 : ℝ))).get 0 0 = 2 := Arr2.ofFn_get _ Nat.one_pos Nat.one_pos
  have e2 : (Arr2.ofFn 1 1 (fun _ _ => (90 : ℝ))).get 0 0 = 90 := Arr2.ofFn_get _ Nat.one_pos Nat.one_pos
  rw [e1, e2] at hp
  refine ⟨v, i, h, by rw [hp.1]; norm_num, ?_, ?_⟩
  · have := hp.2.1 (by norm_num)
    rw [show (90 * Real.pi / 180 : ℝ) = Real.pi / 2 by ring] at this
    have h' := congrArg Real.Angle.toReal this
    rwa [Complex.arg_coe_angle_toReal_eq_arg, Real.Angle.toReal_pi_div_two] at h'
  · have := h4.2.2 0 (by rw [h1]; exact Nat.one_pos) 0 Nat.one_pos
    rw [this, h2]
    show ∑ k ∈ range 1, _ = _
    rw [Finset.sum_range_one, Arr2.ofFn_get _ Nat.one_pos Nat.one_pos]

end
end Verif
