/-
A three-phase simulation with a hidden impedance and its identification: the hypotheses of the three-phase theorems of C140, and a run
in which the estimates differ from the stored reference.
-/
import Verif.Props.HiddenLoads3
import Verif.Props.PipelineDemo3

namespace Verif
open Finset Net
open Spec (LabelPos Assembled columnsAt blockAt)
noncomputable section

/-- magnitudes of the voltages: phase a of the measured load grows by one in each step, the admittance `x` at the hidden load -/
def demoMag140 (x : ℝ) (p : Fin 3) (t j : ℕ) : ℝ :=
  if j = 0 then (if p = 0 then 1 + (t : ℝ) else 1) else if j = 1 then ((if p = 0 then 1 + (t : ℝ) else 1) + 1) / (2 + x) else 1

def demoFlow140T (x : ℝ) (_ : Net) (_ : Controls3) : Except PyErr SimResult3 :=
  .ok ⟨fun p => Arr2.ofFn 1440 3 (fun t j => demoMag140 x p t j), fun p => Arr2.ofFn 1440 3 (fun _ _ => Spec.nominalAngle p)⟩

/-- two equal lines in a row, the same in the three sequences -/
def demoWorld140T (x : ℝ) : SimWorld :=
  { demoWorld115 with
    files := fun _ => some (flatFile 1440), buses3 := fun _ => some demoBuses140, lines3 := fun _ => some [], types3 := [], flow3 := demoFlow140T x
    yBus3 := fun _ => makeYBus3 demoY140 demoY140 demoY140 }

/-- the second node is hidden -/
def demoConf140T : SimConf := { demoConf128 with hidden := [2] }

/-- three equal sequences: each phase for itself -/
theorem equal_currents {k : ℕ} {y Y : Arr2 ℂ} (h : Spec.IsSquare k y) (hY : makeYBus3 y y y = .ok Y) (v : ℕ → ℂ) {b p : ℕ} (hb : b < k)
    (hp : p < 3) : Spec.currents Y v (b * 3 + p) = Spec.currents y (fun a => v (a * 3 + p)) b := by
  obtain ⟨Y', hY', hsq, hE⟩ := phaseForm_entries k h h h
  rw [hY] at hY'; cases hY'
  have he : ∀ a < k, ∀ q < 3, Y.get (a * 3 + q) (b * 3 + p) = if q = p then y.get a b else 0 := by
    intro a ha q hq
    rw [hE a b q p ha hb hq hp]
    have : ∀ s, three y y y s = y := by intro s; unfold three; split <;> [rfl; (split <;> rfl)]
    simp only [this]
    rw [Finset.sum_congr rfl (fun s _ => show _ = y.get a b * (abcBlock.get q s * seqBlock.get s p) by ring), ← Finset.mul_sum,
      abc_seq_entry hq hp]
    split <;> simp
  unfold Spec.currents
  rw [hsq.1, h.1, sum_triples]
  refine Finset.sum_congr rfl fun a ha => ?_
  rw [Finset.sum_eq_single p]
  · rw [he a (Finset.mem_range.1 ha) p hp, if_pos rfl]
  · intro q hq hne
    rw [he a (Finset.mem_range.1 ha) q (Finset.mem_range.1 hq), if_neg hne, mul_zero]
  · intro h; exact absurd (Finset.mem_range.2 hp) h

theorem demo140T_passive : Spec.passive3 demoBuses140 = ∅ := by
  unfold Spec.passive3
  rw [demo140_passive, Finset.empty_inter]

theorem demo140T_eliminated : Spec.eliminated3 demoBuses140 [2] = {1} := by
  unfold Spec.eliminated3
  rw [demo140_labelled, demo140T_passive, Finset.union_empty]

theorem demo140T_net (x : ℝ) : ∃ net, makeNet3 (demoWorld140T x) "ieee_33" = .ok (net, demoBuses140) := by
  obtain ⟨net, h, -⟩ := C65_three [] demoBuses140 [] (by simp [demoBuses140]) (by
    intro b hb _
    simp only [demoBuses140, List.mem_cons, List.not_mem_nil, or_false] at hb
    rcases hb with rfl | rfl | rfl <;> exact ⟨_, _, rfl⟩) (by simp)
  refine ⟨net, ?_⟩
  show (netData3 [] (some demoBuses140) (some []) >>= fun r => pure (r, demoBuses140)) = _
  rw [h]
  rfl

/-- voltages of the power flow of the example -/
theorem demo140T_phasor {x : ℝ} {net : Net} {c : Controls3} {res : SimResult3} (h : demoFlow140T x net c = .ok res) :
    (∀ p, ((res.vm p).r = 1440 ∧ (res.vm p).c = 3) ∧ (res.va p).r = 1440 ∧ (res.va p).c = 3) ∧ ∀ p t k, t < 1440 → k < 3 →
      (res.va p).get t k = Spec.nominalAngle p ∧ (res.vm p).get t k = demoMag140 x p t k := by
  cases h
  exact ⟨fun p => ⟨⟨rfl, rfl⟩, rfl, rfl⟩, fun p t k ht hk => ⟨Arr2.ofFn_get _ ht hk, Arr2.ofFn_get _ ht hk⟩⟩

theorem demo140T_flow {x : ℝ} {y : Arr2 ℂ} (net : Net) (c : Controls3) (res : SimResult3) (h : demoFlow140T x net c = .ok res) :
    Spec.PowerFlow3 demoBuses140 y res := by
  obtain ⟨e1, e2⟩ := demo140T_phasor h
  refine ⟨⟨1440, e1⟩, ?_, ?_⟩
  · intro k hk p t ht
    rw [demo140_connections, mem_singleton] at hk
    subst hk
    rw [(e1 0).1.1] at ht
    obtain ⟨a1, a2⟩ := e2 p t 2 ht (by omega)
    obtain ⟨b1, b2⟩ := e2 p 0 2 (by omega) (by omega)
    rw [a1, a2, b1, b2]
    simp [demoMag140]
  · intro k hk
    rw [demo140T_passive] at hk
    cases hk

theorem demo140T_impedance {x : ℝ} (hx : 0 ≤ x) {y : Arr2 ℂ} (hy : makeYBus3 demoY140 demoY140 demoY140 = .ok y) (net : Net) (c : Controls3)
    (res : SimResult3) (h : demoFlow140T x net c = .ok res) : Spec.ConstantImpedance3 demoBuses140 [2] y (fun _ => (x : ℂ)) res := by
  obtain ⟨e1, e2⟩ := demo140T_phasor h
  intro k hk p hp t ht
  rw [demo140_labelled, mem_singleton] at hk
  subst hk
  rw [(e1 0).1.1] at ht
  rw [equal_currents (k := 3) ⟨rfl, rfl⟩ hy _ (by omega) hp, (demo140_currents _).2]
  have hph : ∀ a, Spec.phaseOf (a * 3 + p) = ⟨p, hp⟩ := fun a => Fin.ext (by show (a * 3 + p) % 3 = p; omega)
  have hdiv : ∀ a, (a * 3 + p) / 3 = a := fun a => by omega
  simp only [hph, hdiv]
  obtain ⟨a1, a2⟩ := e2 ⟨p, hp⟩ t 0 ht (by omega)
  obtain ⟨b1, b2⟩ := e2 ⟨p, hp⟩ t 1 ht (by omega)
  obtain ⟨c1, c2⟩ := e2 ⟨p, hp⟩ t 2 ht (by omega)
  rw [a1, a2, b1, b2, c1, c2]
  have hne : ((2 : ℂ) + (x : ℂ)) ≠ 0 := by
    have : ((2 + x : ℝ) : ℂ) ≠ 0 := Complex.ofReal_ne_zero.2 (by positivity)
    simpa using this
  unfold Spec.phasor demoMag140
  generalize (if (⟨p, hp⟩ : Fin 3) = 0 then 1 + (t : ℝ) else 1) = m
  simp
  field_simp
  ring

theorem demo140T_upright {x : ℝ} (hx : 0 ≤ x) (net : Net) (c : Controls3) (res : SimResult3) (h : demoFlow140T x net c = .ok res) :
    Spec.Upright3 res := by
  obtain ⟨e1, e2⟩ := demo140T_phasor h
  intro p t ht k hk
  rw [(e1 p).1.1] at ht
  rw [(e1 p).1.2] at hk
  obtain ⟨a1, a2⟩ := e2 p t k ht hk
  rw [a1, a2]
  refine ⟨?_, by norm_num⟩
  have hm : 0 < (if p = 0 then 1 + (t : ℝ) else 1) := by split <;> positivity
  unfold demoMag140
  generalize (if p = 0 then 1 + (t : ℝ) else 1) = m at hm
  split
  · exact hm
  · split <;> positivity

theorem demo140T_reducible {x : ℝ} (hx : 0 ≤ x) (hx2 : x ≠ 2) :
    Spec.HiddenReducible3 demoBuses140 [2] (fun _ => (x : ℂ)) demoY140 demoY140 demoY140 := by
  have hp2 : (2 : ℂ) + (x : ℂ) ≠ 0 := by
    have : ((2 + x : ℝ) : ℂ) ≠ 0 := Complex.ofReal_ne_zero.2 (by positivity)
    simpa using this
  have hm2 : (2 : ℂ) + - (x : ℂ) ≠ 0 := by
    have : ((2 - x : ℝ) : ℂ) ≠ 0 := Complex.ofReal_ne_zero.2 (fun h => hx2 (by linarith))
    rw [← sub_eq_add_neg]
    simpa using this
  refine ⟨demo140_connections, by rw [demo140_labelled]; simp [demoBuses140], Or.inl (by simp [demoBuses140]), ?_, ?_⟩
  · intro y hy
    have hy : y = demoY140 := by rcases hy with h | h | h <;> exact h
    subst hy
    rw [demo140T_eliminated]
    exact demo140_regular (by rw [demo140_shunt]; exact hp2)
  · intro y hy
    have hy : y = demoY140 := by rcases hy with h | h | h <;> exact h
    subst hy
    rw [demo140T_eliminated]
    exact demo140_regular (by rw [demo140_shunt]; exact hm2)

theorem demo140T_simulate {x : ℝ} (hx : 0 ≤ x) (st : Store) : ∃ d, (simulate (demoWorld140T x) demoConf140T demoArgs128 st).res = .ok d := by
  obtain ⟨net, hm⟩ := demo140T_net x
  obtain ⟨y, hy, hsq, -⟩ := C62_networks 3 (y0 := demoY140) (y1 := demoY140) (y2 := demoY140) ⟨rfl, rfl⟩ ⟨rfl, rfl⟩ ⟨rfl, rfl⟩
  refine (C172_completes (w := demoWorld140T x) (cf := demoConf140T) (a := demoArgs128) (bs := demoBuses140) (net := net) (y := y) (weeks := [0]) st (templates_plain "ieee_33" (by decide)) rfl rfl ⟨rfl, rfl⟩ le_rfl (by rfl) ⟨by simp, by simp, ?_⟩
    exactPinv_contract ⟨le_rfl, le_rfl, le_rfl, le_rfl⟩
    (by simp [demoConf140T, demoConf128]) (by simp [demoConf140T, demoConf128]) (by simp [demoConf140T, demoConf128])
    (by simp [demoConf140T, demoConf128]) (by
      show 1439 ≤ Spec.rawCount (minuteTimes 1) (1 / 60)
      rw [demo115_count]) hm ?_ hy hsq (fun c _ _ _ _ _ => ⟨_, rfl, fun p => rfl⟩) (fun c res h => (demo140T_flow (y := y) net c res h).size)
    (Or.inr (demo140T_upright hx net)) demo140_connections).2 ⟨?_, ?_⟩
  · intro f _
    refine ⟨flatFile 1440, rfl, ?_, Nat.one_pos, fun t ht => flatFile_ne ht⟩
    intro w hw
    simp only [List.mem_singleton] at hw
    subst hw
    show 0 * 10080 + 1 * 1440 / [0].length ≤ 1440
    simp
  · intro b hb
    simp only [demoBuses140, List.mem_cons, List.not_mem_nil, or_false] at hb
    rcases hb with rfl | rfl | rfl <;> exact ⟨fun p q hpq => by cases hpq; norm_num, fun p q hpq => by cases hpq⟩
  · intro k hk
    have : k = 2 := by simpa [demoConf140T] using hk
    subst this
    simp [demoBuses140]
  · show _ ∉ Spec.labelled demoBuses140 [2]
    rw [demo140_labelled]
    simp [demoBuses140]

/-- filtering of three-phase data of a day, one sample per minute: first and last sample -/
theorem ends_filtered {z : Nat → ℝ} {net : Net} {voltage current : Arr2 ℂ} {n : NoiseResult} {np : NoiseParams} {safety : List ℝ}
    (h : addNoiseAndFilter3 z net voltage current (minuteTimes 1) (1 / 60) 1439 np safety = .ok n) (he : np.equivalent = false)
    (hr : voltage.r = 1440) (hc : voltage.c = current.c) (h0 : 0 < voltage.c) :
    n.voltage.r = 1439 ∧ ∀ j < voltage.c, n.voltage.get 0 j = voltage.get 0 j ∧ n.voltage.get 1438 j = voltage.get 1439 j := by
  obtain ⟨T, hT⟩ : ∃ T, T = minuteTimes 1 := ⟨_, rfl⟩
  rw [← hT] at h
  have ht : Spec.Times T := by rw [hT]; exact minuteTimes_times one_pos
  have hlast : Spec.last T = 86340 := by rw [hT]; exact demo115_last
  have hlen : T.length = 1440 := by rw [hT, minuteTimes_length]
  clear hT
  obtain ⟨ts, f, t1, t2, t3⟩ := stage3_filter h ht hc h0 he
  unfold rawTimes at t1
  obtain ⟨m', hm', t1⟩ := Prior.bind_ok t1
  obtain ⟨ts', hl', t1⟩ := Prior.bind_ok t1
  cases t1
  have hround : pyRound (Spec.last T * (1 / 60)) = 1439 := by
    have : pyRound (1439 : ℝ) = 1439 := by simpa using pyRound_int 1439
    rw [hlast, show (86340 : ℝ) * (1 / 60) = 1439 by norm_num, this]
  have hgrid : Spec.Grid T ts := ht.grid hl'
  rw [hround] at hl'
  unfold linspace at hl'
  rw [if_neg (by norm_num)] at hl'
  have hts := (Except.ok.inj hl').symm
  have htl : ts.length = 1439 := by rw [hts]; simp
  unfold averagingFactor at t2
  rw [htl, if_neg (by norm_num)] at t2
  have hf : f = 1 := by
    rw [← Except.ok.inj t2]
  subst hf
  obtain ⟨o, ho, or, oc, og⟩ := C68_blocks hgrid one_ne_zero (a := voltage) (by rw [hr, hlen])
  have ho' : o = n.voltage := Except.ok.inj (ho.symm.trans t3)
  subst ho'
  rw [htl, Nat.div_one] at or
  have hts0 : ts.getD 0 0 = T.getD 0 0 := by
    rw [ht.zero, List.getD_eq_getElem _ _ (by omega)]
    simp [hts]
  have hts1 : ts.getD 1438 0 = T.getD (T.length - 1) 0 := by
    have := hlast
    rw [show T.getD (T.length - 1) 0 = Spec.last T from rfl, List.getD_eq_getElem _ _ (by omega)]
    simp only [hts, List.getElem_map, List.getElem_range]
    rw [this]
    norm_num
  refine ⟨or, fun j hj => ?_⟩
  obtain ⟨r, r1, r2⟩ := og j hj
  rw [htl, Nat.div_one] at r2
  have hr2 : ∀ t, t < 1439 → n.voltage.get t j = r t := by
    intro t ht
    rw [r2 t ht]
    simp
  constructor
  · have := r1 0 (by omega)
    rw [hts0] at this
    rw [hr2 0 (by omega), polygon_first ht.sorted this]
  · have := r1 1438 (by omega)
    rw [hts1] at this
    rw [hr2 1438 (by omega), polygon_last ht.sorted this, hlen]

/-- sequence values of the first of several nodes -/
theorem sequence_first {n vs : Arr2 ℂ} (h : measurementPhaseToSequence (columnsAt n 3 (phaseAt [0])) = .ok vs) {t : ℕ} (ht : t < n.r) {l : ℕ}
    (hl : l < 3) : vs.get t l = n.get t 0 * seqBlock.get 0 l + n.get t 1 * seqBlock.get 1 l + n.get t 2 * seqBlock.get 2 l := by
  unfold measurementPhaseToSequence at h
  obtain ⟨q1, q2, q3, q4⟩ := matmul_entry h
  have hT : ∀ k < 3, ∀ l < 3, (tMatrix (1 * 3) seqBlock).get k l = seqBlock.get k l := by
    intro k hk l hl
    have := congrFun (congrFun (tMatrix_mat 1 seqBlock ⟨rfl, rfl⟩).2.2 ⟨k, by omega⟩) ⟨l, by omega⟩
    refine Eq.trans this ?_
    show (if k / 3 = l / 3 then seqBlock.get (k % 3) (l % 3) else 0) = _
    rw [if_pos (by omega), Nat.mod_eq_of_lt hk, Nat.mod_eq_of_lt hl]
  have hc : ∀ k < 3, (columnsAt n 3 (phaseAt [0])).get t k = n.get t k := by
    intro k hk
    unfold columnsAt
    rw [Arr2.ofFn_get _ ht hk]
    unfold phaseAt
    rw [show k / 3 = 0 by omega, show k % 3 = k by omega]
    simp
  rw [q4 t l ht (by show l < (tMatrix (1 * 3) seqBlock).c; rw [(tMatrix_mat 1 seqBlock ⟨rfl, rfl⟩).2.1]; exact hl)]
  show ∑ k ∈ range 3, _ * (tMatrix (1 * 3) seqBlock).get k l = _
  rw [Finset.sum_range_succ, Finset.sum_range_succ, Finset.sum_range_succ, Finset.sum_range_zero, zero_add, hT 0 (by omega) l hl, hT 1 (by omega) l hl,
    hT 2 (by omega) l hl, hc 0 (by omega), hc 1 (by omega), hc 2 (by omega)]

/-- a simulation of the example with the admittance `x` at the hidden node and its identification: estimates and reference -/
theorem demo140T_run {x : ℝ} (hx : 0 ≤ x) (hx2 : x ≠ 2) (sc : SimConf) (st : Store) :
    ∃ d r, (simulate (demoWorld140T x) demoConf140T demoArgs128 st).res = .ok d ∧
      (identify demoExt115 ⟨1, 1, 1, 1, 1, true, true, true⟩ sc demoId128
        (simulate (demoWorld140T x) demoConf140T demoArgs128 st).store).res = .ok r ∧
      d.y = Arr2.diag [1 - 1 / (2 - (x : ℂ)), 1 - 1 / (2 - (x : ℂ)), 1 - 1 / (2 - (x : ℂ))] ∧
      r.1.1 = Arr2.diag [1 - 1 / (2 + (x : ℂ)), 1 - 1 / (2 + (x : ℂ)), 1 - 1 / (2 + (x : ℂ))] ∧ r.1.2.1 = r.1.1 ∧
      ∀ l, Spec.FullColumnRank (centreColumns (columnsAt d.voltage (d.voltage.c / 3) (Spec.sequencePos l))) := by
  have hn := templates_plain "ieee_33" (by decide)
  obtain ⟨net, hm⟩ := demo140T_net x
  obtain ⟨y, hy, hsq, -⟩ := C62_networks 3 (y0 := demoY140) (y1 := demoY140) (y2 := demoY140) ⟨rfl, rfl⟩ ⟨rfl, rfl⟩ ⟨rfl, rfl⟩
  obtain ⟨d, hd⟩ := demo140T_simulate hx st
  obtain ⟨K, D, k1, k2, hids, hvc, hic, hass, hD, ⟨E, hE⟩, heq, hclean, ⟨l, sim, n, hno, hsim, hdv⟩, ⟨i1, i2, i3, i4, i5, i6⟩, hst⟩ :=
    C140_three_data hn rfl rfl hd ⟨rfl, rfl⟩ exactPinv_contract hm ⟨rfl, rfl⟩ ⟨rfl, rfl⟩ ⟨rfl, rfl⟩ hy hy (demo140T_flow net)
      (demo140T_impedance hx hy net) (demo140T_upright hx net) (demo140T_reducible hx hx2)
  obtain ⟨n1, n2⟩ := hclean rfl rfl rfl rfl
  have hel : Spec.eliminated3 demoBuses140 demoConf140T.hidden = {1} := demo140T_eliminated
  have hK : K = [0] := by
    refine lists_unique k1 ?_ k2 (by simp)
    refine ⟨by simp, fun k => ?_⟩
    rw [hel, demo140_connections]
    show k ∈ [0] ↔ k < 3 ∧ _
    simp
    omega
  subst hK
  -- the stored voltages vary
  obtain ⟨c, res, hres, q1, q2, q3⟩ := sim3_entries hsim hy hsq (fun c res h => (demo140T_flow (y := y) net c res h).size)
  obtain ⟨p1, p2⟩ := demo140T_phasor (net := net) (c := c) hres
  obtain ⟨x1, x2, -, -⟩ := sim3_exact (bs := demoBuses140) hsim hy hsq (demo140T_flow net)
  have x2 : sim.1.c = 9 := x2
  obtain ⟨-, -, m3, -⟩ := matmul_entry x1
  have hr1 : sim.1.r = 1440 := q1.trans (p1 0).1.1
  obtain ⟨v1, v2⟩ := ends_filtered (voltage := sim.1) (current := sim.2.1) hno rfl hr1 (by rw [x2, m3, hsq.2]) (by rw [x2]; omega)
  have hv : ∀ t < 1440, ∀ p : Fin 3, sim.1.get t p = ((if p = 0 then 1 + (t : ℝ) else 1 : ℝ) : ℂ) * Spec.phasor 1 (Spec.nominalAngle p) := by
    intro t ht p
    rw [q3 t p (by omega) (by have := p.2; omega)]
    have hph : Spec.phaseOf p = p := Fin.ext (Nat.mod_eq_of_lt p.2)
    rw [hph, show (p : ℕ) / 3 = 0 by omega]
    obtain ⟨a1, a2⟩ := p2 p t 0 ht (by omega)
    rw [a1, a2]
    unfold Spec.phasor demoMag140
    simp
  have dr : d.voltage.r = 1439 := by
    obtain ⟨-, vs, hvs, vsr, -⟩ := measurement_mat 1 (columnsAt n.voltage (1 * 3) (phaseAt [0])) rfl
    rw [show ([0] : List ℕ).length = 1 from rfl, hvs] at hdv
    rw [← Except.ok.inj hdv, vsr]
    exact v1
  have hrank : ∀ l, Spec.FullColumnRank (centreColumns (columnsAt d.voltage 1 (Spec.sequencePos l))) := by
    intro l
    refine rank_column (a := 0) (b := 1438) rfl (by show 0 < d.voltage.r; omega) (by show 1438 < d.voltage.r; omega) ?_
    unfold columnsAt
    rw [Arr2.ofFn_get _ (by omega) (by omega), Arr2.ofFn_get _ (by omega) (by omega)]
    have hp : Spec.sequencePos l 0 = l := by unfold Spec.sequencePos; omega
    rw [hp, sequence_first hdv (by omega) l.2, sequence_first hdv (by omega) l.2, (v2 0 (by omega)).1, (v2 0 (by omega)).2, (v2 1 (by omega)).1,
      (v2 1 (by omega)).2, (v2 2 (by omega)).1, (v2 2 (by omega)).2]
    have e0 := hv 0 (by omega) 0
    have e1 := hv 0 (by omega) 1
    have e2 := hv 0 (by omega) 2
    have f0 := hv 1439 (by omega) 0
    have f1 := hv 1439 (by omega) 1
    have f2 := hv 1439 (by omega) 2
    have g1 : sim.1.get 0 1 = sim.1.get 1439 1 := e1.trans f1.symm
    have g2 : sim.1.get 0 2 = sim.1.get 1439 2 := e2.trans f2.symm
    rw [g1, g2]
    have hs0 : seqBlock.get 0 l = 1 / 3 := by
      unfold seqBlock
      rw [Arr2.ofFn_get _ (by omega) l.2]
      simp
    rw [hs0]
    intro hc
    have hc := add_right_cancel (add_right_cancel hc)
    have e0 : sim.1.get 0 0 = 1 := e0.trans (by simp [Spec.phasor, Spec.nominalAngle])
    have f0 : sim.1.get 1439 0 = 1440 := f0.trans (by simp [Spec.phasor, Spec.nominalAngle]; norm_num)
    rw [e0, f0] at hc
    norm_num at hc
  have hrank' : ∀ l, Spec.FullColumnRank (centreColumns (columnsAt d.voltage (d.voltage.c / 3) (Spec.sequencePos l))) := by
    rw [hvc]; exact hrank
  -- the identification completes
  have hload : networkLoad (simulate (demoWorld140T x) demoConf140T demoArgs128 st).store "ieee_33" = .ok d := by
    have := C49_network "ieee_33" d (simulate (demoWorld140T x) demoConf140T demoArgs128 st).store (h := []) ⟨hn, by simp⟩
    have e : (simulate (demoWorld140T x) demoConf140T demoArgs128 st).store.savez (resultFile .network "ieee_33") (networkNpz d) =
        (simulate (demoWorld140T x) demoConf140T demoArgs128 st).store := by
      funext f
      by_cases hfn : f = resultFile .network "ieee_33"
      · subst hfn; rw [savez_same]; exact hst.symm
      · simp [Store.savez, hfn]
    rw [e] at this
    exact this
  have hlen : d.ids.length = 1 * 3 := by rw [hids]; simp [Spec.sequenceIds]
  have hpos : ∀ l : Fin 3, LabelPos d.ids (l.val : Int) 1 (Spec.sequencePos l) := by
    intro l
    rw [hids]
    exact labelPos_sequence 1 l
  choose σ hσ0 hσ using fun l => atLeast_of_rank (hrank l)
  obtain ⟨r, -, -, hres', -⟩ := C124 (cf := ⟨1, 1, 1, 1, 1, true, true, true⟩) (sc := sc) (a := demoId128) (ext := demoExt115) (m := fun _ => 1)
    (f := Spec.sequencePos)
    (x0 := fun l => centreColumns (columnsAt d.voltage 1 (Spec.sequencePos l)))
    (z0 := fun l => centreColumns (columnsAt d.current 1 (Spec.sequencePos l))) (Y := fun l => E (Spec.exchanged l)) (ε := fun _ => 0) (σ := σ)
    exactInv_contract exactSolve_exact exactSolve_total exactPinv_contract exactSvd_contract demoExt_shapes (by norm_num) (by norm_num)
    ⟨rfl, rfl, rfl, rfl, rfl, rfl, fun h => absurd h (by decide), by decide⟩ hload
    ⟨by rw [hlen, i2]; rfl, by rw [hlen, i4]; rfl, by rw [hlen, i5]; rfl, hass.square, fun y hy => nomatch hy⟩
    (by
      rw [hids]
      exact List.mem_map.2 ⟨0, List.mem_range.2 (by simp), rfl⟩)
    hpos (by simp [demoId128]) rfl rfl
    (fun l => ⟨by rw [(hE _).1, (hE _).2.1], ⟨heq E hE l, ⟨by rw [n1]; rfl, rfl⟩, ⟨by rw [n2]; rfl, rfl⟩, by
        intro p q
        rw [n1, n2]
        show Spec.len ((_ - _ : Matrix _ _ ℂ).mulVec p + (_ - _ : Matrix _ _ ℂ).mulVec q) ≤ _
        erw [sub_self, sub_self]
        rw [Matrix.zero_mulVec, Matrix.zero_mulVec, add_zero, zero_mul, len_zero]⟩, hσ l, le_rfl, by have := hσ0 l; linarith⟩)
    (fun l => .inr ⟨by norm_num, .inr ⟨rfl, rfl, by norm_num⟩, fun T _ => by
      intro e he
      simp [Spec.offPairs] at he, fun h => by cases h⟩)
  obtain ⟨K', D', E', j1, j2, -, jD, jE, ja, jb, jc⟩ := C140_three_estimate hn rfl rfl hd ⟨rfl, rfl⟩ ⟨rfl, rfl, rfl, rfl⟩ exactPinv_contract hm
    ⟨rfl, rfl⟩ ⟨rfl, rfl⟩ ⟨rfl, rfl⟩ hy hy (demo140T_flow net)
    (demo140T_impedance hx hy net) (demo140T_upright hx net) (demo140T_reducible hx hx2) (ic := ⟨1, 1, 1, 1, 1, true, true, true⟩) (by norm_num) exactInv_contract
    exactSolve_exact exactSolve_total exactPinv_contract exactSvd_contract demoExt_shapes hrank' (b := demoId128) ⟨rfl, rfl, rfl, rfl⟩
    (Or.inr (by simp [demoId128])) hres'
  have hK' : K' = [0] := lists_unique j1 k1 j2 k2
  subst hK'
  have hy3 : ∀ l : Fin 3, (![demoY140, demoY140, demoY140] : Fin 3 → Arr2 ℂ) l = demoY140 := by intro l; fin_cases l <;> rfl
  rw [hids] at ja jb
  have hp2 : (2 : ℂ) + (x : ℂ) ≠ 0 := by
    have : ((2 + x : ℝ) : ℂ) ≠ 0 := Complex.ofReal_ne_zero.2 (by positivity)
    simpa using this
  have hm2 : (2 : ℂ) + - (x : ℂ) ≠ 0 := by
    have : ((2 - x : ℝ) : ℂ) ≠ 0 := Complex.ofReal_ne_zero.2 (fun h => hx2 (by linarith))
    rw [← sub_eq_add_neg]
    simpa using this
  have hc2 : demoConf140T.hidden = [2] := rfl
  refine ⟨d, r, hd, hres', ?_, ?_, jc, hrank'⟩
  · refine assembled_one (v := fun _ => 1 - 1 / (2 - (x : ℂ))) ja fun l => ?_
    have := jD l
    rw [hel, demo140_connections, hy3, hc2] at this
    rw [demo140_grounded (by rw [demo140_shunt]; exact hm2) this, demo140_shunt, sub_eq_add_neg (2 : ℂ)]
  · refine assembled_one (v := fun _ => 1 - 1 / (2 + (x : ℂ))) jb fun l => ?_
    have := jE (Spec.exchanged l)
    rw [hel, demo140_connections, hy3, hc2] at this
    rw [demo140_grounded (by rw [demo140_shunt]; exact hp2) this, demo140_shunt]

/-- C140 violated, three phases: equal sequences, no noise, independent voltages, one hidden impedance: the estimates of the three
sequences are those of the network with the impedance connected and differ from the stored reference -/
theorem C140_three_violated (sc : SimConf) (st : Store) : ∃ d r, (simulate (demoWorld140T 1) demoConf140T demoArgs128 st).res = .ok d ∧
    (identify demoExt115 ⟨1, 1, 1, 1, 1, true, true, true⟩ sc demoId128
      (simulate (demoWorld140T 1) demoConf140T demoArgs128 st).store).res = .ok r ∧
    (demoConf140T.vm = 0 ∧ demoConf140T.cm = 0 ∧ demoConf140T.vp = 0 ∧ demoConf140T.cp = 0) ∧
    (∀ l, Spec.FullColumnRank (centreColumns (columnsAt d.voltage (d.voltage.c / 3) (Spec.sequencePos l)))) ∧
    d.y = Arr2.diag [0, 0, 0] ∧ r.1.1 = Arr2.diag [2 / 3, 2 / 3, 2 / 3] ∧ r.1.2.1 = Arr2.diag [2 / 3, 2 / 3, 2 / 3] := by
  obtain ⟨d, r, h1, h2, h3, h4, h5, h6⟩ := demo140T_run (x := 1) (by norm_num) (by norm_num) sc st
  have e1 : (1 : ℂ) - 1 / (2 - ((1 : ℝ) : ℂ)) = 0 := by norm_num
  have e2 : (1 : ℂ) - 1 / (2 + ((1 : ℝ) : ℂ)) = 2 / 3 := by norm_num
  rw [e1] at h3
  rw [e2] at h4
  exact ⟨d, r, h1, h2, ⟨rfl, rfl, rfl, rfl⟩, h6, h3, h4, h5.trans h4⟩

/-- the hypotheses of C140_three_partial -/
example (sc : SimConf) (st : Store) : ∃ d r, (simulate (demoWorld140T 0) demoConf140T demoArgs128 st).res = .ok d ∧
    (identify demoExt115 ⟨1, 1, 1, 1, 1, true, true, true⟩ sc demoId128
      (simulate (demoWorld140T 0) demoConf140T demoArgs128 st).store).res = .ok r ∧
    d.y = Arr2.diag [1 / 2, 1 / 2, 1 / 2] ∧ r.1.1 = d.y := by
  obtain ⟨d, r, h1, h2, h3, h4, h5, h6⟩ := demo140T_run (x := 0) le_rfl (by norm_num) sc st
  have e1 : (1 : ℂ) - 1 / (2 - ((0 : ℝ) : ℂ)) = 1 / 2 := by norm_num
  have e2 : (1 : ℂ) - 1 / (2 + ((0 : ℝ) : ℂ)) = 1 / 2 := by norm_num
  rw [e1] at h3
  rw [e2] at h4
  exact ⟨d, r, h1, h2, h3, h4.trans h3.symm⟩

end
end Verif
