/-
C140 for three phases: identification in sequence values of a simulated three-phase network in which hidden nodes are constant
impedances, the same on the three phases.
-/
import Verif.Props.HiddenLoads
import Verif.Props.HiddenRun3
import Verif.Props.Energy3

namespace Verif
open Finset Net
open Spec (LabelPos Assembled columnsAt blockAt)
noncomputable section

namespace Spec

/-- the power flow draws at every hidden node, on each phase, the current of the admittance `s` -/
def ConstantImpedance3 (bs : List BusData) (hidden : List Int) (y : Arr2 ℂ) (s : ℕ → ℂ) (res : SimResult3) : Prop :=
  ∀ k ∈ labelled bs hidden, ∀ p < 3, ∀ t < (res.vm 0).r,
    currents y (fun j => phasor ((res.vm (phaseOf j)).get t (j / 3)) ((res.va (phaseOf j)).get t (j / 3))) (k * 3 + p) =
      - (s k * phasor ((res.vm (phaseOf (k * 3 + p))).get t k) ((res.va (phaseOf (k * 3 + p))).get t k))

/-- the nodes eliminated from the matrix of a three-phase network in sequence values, apart from the grid connection -/
def eliminated3 (bs : List BusData) (hidden : List Int) : Finset ℕ := labelled bs hidden ∪ passive3 bs

/-- three-phase networks that are reduced exactly, in order: the last bus is the only connection and not hidden, not too many nodes are
removed, and the hidden and passive nodes can be eliminated in each sequence, with the admittances connected with either sign -/
structure HiddenReducible3 (bs : List BusData) (hidden : List Int) (s : ℕ → ℂ) (y0 y1 y2 : Arr2 ℂ) : Prop where
  last : connections bs = {bs.length - 1}
  kept : bs.length - 1 ∉ labelled bs hidden
  few : bs.length - 1 ≤ 8 ∨ 3 * (bs.length - 1) ≤ 5 * (bs.length - (eliminated3 bs hidden ∪ connections bs).card)
  regular : ∀ y, (y = y0 ∨ y = y1 ∨ y = y2) → BlockNonsingular (withShunts y (hiddenShunt bs hidden s)) (eliminated3 bs hidden)
  regular' : ∀ y, (y = y0 ∨ y = y1 ∨ y = y2) → BlockNonsingular (withShunts y (hiddenShunt bs hidden fun k => - s k)) (eliminated3 bs hidden)

end Spec

/-- voltages of the three-phase power flow -/
theorem sim3_entries {flow : Net → Controls3 → Except PyErr SimResult3} {yBus : Net → Except PyErr (Arr2 ℂ)} {net : Net} {p q : Arr2 ℝ}
    {asym : List (Arr2 ℝ)} {s : Arr2 ℂ × Arr2 ℂ × Arr2 ℂ} (h : simCompute3 flow yBus net p q asym = .ok s) {b : ℕ}
    {y : Arr2 ℂ} (hy : yBus net = .ok y) (hsz : Spec.IsSquare (b * 3) y)
    (hf : ∀ c res, flow net c = .ok res → Spec.FlowSize3 b res) :
    ∃ c res, flow net c = .ok res ∧ s.1.r = (res.vm 0).r ∧ (∀ p, (res.vm p).r = s.1.r ∧ (res.vm p).c = b) ∧
      ∀ t j, t < s.1.r → j < b * 3 →
        s.1.get t j = Spec.phasor ((res.vm (Spec.phaseOf j)).get t (j / 3)) ((res.va (Spec.phaseOf j)).get t (j / 3)) := by
  unfold simCompute3 at h
  rw [hy] at h
  obtain ⟨y', h1, h⟩ := Prior.bind_ok h
  cases h1
  obtain ⟨res, hres, h⟩ := Prior.bind_ok h
  obtain ⟨o, ho, h⟩ := Prior.bind_ok h
  obtain ⟨c, hc⟩ : ∃ c, flow net c = .ok res := by
    unfold simRun3 at hres
    obtain ⟨_, _, hres⟩ := Prior.bind_ok hres
    obtain ⟨_, _, hres⟩ := Prior.bind_ok hres
    obtain ⟨_, _, hres⟩ := Prior.bind_ok hres
    obtain ⟨_, _, hres⟩ := Prior.bind_ok hres
    obtain ⟨_, _, hres⟩ := Prior.bind_ok hres
    obtain ⟨_, _, hres⟩ := Prior.bind_ok hres
    obtain ⟨_, _, hres⟩ := Prior.bind_ok hres
    obtain ⟨_, _, hres⟩ := Prior.bind_ok hres
    exact ⟨_, hres⟩
  obtain ⟨T, hT⟩ := hf _ _ hc
  obtain ⟨v, i, hvi, hvr, hvc, hpol, hohm⟩ := C84_three res y T b (fun p => (hT p).1) (fun p => (hT p).2) hsz.1
  rw [hvi] at ho
  cases ho
  cases h
  refine ⟨c, res, hc, hvr.trans (hT 0).1.1.symm, fun p => ⟨(hT p).1.1.trans hvr.symm, (hT p).1.2⟩, ?_⟩
  intro t j ht hj
  rw [show ((v, i, y) : Arr2 ℂ × Arr2 ℂ × Arr2 ℂ).1.r = T from hvr] at ht
  rw [← polar_eq_phasor (hpol t ht (j / 3) (by omega) (Spec.phaseOf j))]
  congr 1
  show j = j / 3 * 3 + j % 3
  omega

/-- data in phase values with constant voltages at the nodes `C` and constant impedances at the nodes `S`: the sequence values of the
nodes `K` satisfy, after centring, the equations of the sequence networks seen from `K`, those of positive and negative exchanged -/
theorem grounded3_centred {n : ℕ} {y0 y1 y2 y voltage current : Arr2 ℂ} (h0 : Spec.IsSquare n y0) (h1 : Spec.IsSquare n y1)
    (h2 : Spec.IsSquare n y2) (hyy : makeYBus3 y0 y1 y2 = .ok y) (heq : voltage.matmul y = .ok current) {σ : ℕ → ℂ} {C S : Finset ℕ}
    {K : List ℕ} (hC : ∀ c ∈ C, c < n) (hS : ∀ k ∈ S, k < n) (hK : ∀ b, b < K.length → K.getD b 0 < n)
    (hconst : ∀ c ∈ C, ∀ p < 3, ∀ t, t < voltage.r → voltage.get t (c * 3 + p) = voltage.get 0 (c * 3 + p))
    (hload : ∀ k ∈ S, ∀ p < 3, ∀ t, t < voltage.r → current.get t (k * 3 + p) = - (σ k * voltage.get t (k * 3 + p))) {E : Fin 3 → Arr2 ℂ}
    (hE : ∀ l, Spec.Grounded (![y0, y1, y2] l) σ C S K (E l)) {vs is : Arr2 ℂ}
    (hvs : measurementPhaseToSequence (columnsAt voltage (K.length * 3) (phaseAt K)) = .ok vs)
    (his : measurementPhaseToSequence (columnsAt current (K.length * 3) (phaseAt K)) = .ok is) (l : Fin 3) :
    (centreColumns (columnsAt vs K.length (Spec.sequencePos l))).matmul (E (Spec.exchanged l)) =
      .ok (centreColumns (columnsAt is K.length (Spec.sequencePos l))) := by
  obtain ⟨Y', hY', hPF⟩ := phaseForm_entries n h0 h1 h2
  rw [hyy] at hY'; cases hY'
  have hYsq := hPF.1
  obtain ⟨hvc, hcr, hcc, -⟩ := matmul_entry heq
  have hnv : voltage.c = n * 3 := by rw [hvc, hYsq.1]
  have hni : current.c = n * 3 := by rw [hcc, hYsq.2]
  obtain ⟨red, hred, hrr, hrc, hG⟩ := grounded3_of_seq h0 h1 h2 hPF hC hS hK (hE 0) (hE 1) (hE 2)
  have hlt : ∀ j < K.length * 3, phaseAt K j < n * 3 := by
    intro j hj
    have := hK (j / 3) (by omega)
    unfold phaseAt
    omega
  have hphase : (centreColumns (columnsAt voltage (K.length * 3) (phaseAt K))).matmul red =
      .ok (centreColumns (columnsAt current (K.length * 3) (phaseAt K))) := by
    rw [centre_columnsAt (fun j hj => by rw [hnv]; exact hlt j hj), centre_columnsAt (fun j hj => by rw [hni]; exact hlt j hj)]
    refine matmul_of_entries hrr.symm (show current.r = voltage.r from hcr) hrc.symm ?_
    intro t j ht' hj
    have ht' : t < voltage.r := ht'
    rw [hrc] at hj
    have := hG (fun k => (centreColumns voltage).get t k)
      (fun c hcc' p hp => by
        have hT : (voltage.r : ℂ) ≠ 0 := Nat.cast_ne_zero.2 (by omega)
        have hcl := hC c hcc'
        show (centreColumns voltage).get t _ = 0
        rw [centre_get voltage ht' (by omega),
          Finset.sum_congr rfl (fun s hs => hconst c hcc' p hp s (Finset.mem_range.1 hs)), Finset.sum_const, Finset.card_range, nsmul_eq_mul,
          mul_div_cancel_left₀ _ hT, hconst c hcc' p hp t ht', sub_self])
      (fun k hk p hp => by
        have hkl := hS k hk
        rw [centre_currents heq ht' (by rw [hYsq.2]; omega), centre_get current (by omega) (by omega), hcr,
          Finset.sum_congr rfl (fun r hr => hload k hk p hp r (Finset.mem_range.1 hr)), hload k hk p hp t ht']
        beta_reduce
        rw [centre_get voltage ht' (by omega), Finset.sum_neg_distrib, ← Finset.mul_sum]
        ring) (j / 3) (by omega) (j % 3) (by omega)
    rw [show j / 3 * 3 + j % 3 = j by omega, centre_currents heq ht' (by
      rw [hYsq.2]
      have := hK (j / 3) (by omega)
      omega)] at this
    unfold columnsAt
    rw [Arr2.ofFn_get _ (show t < (centreColumns current).r by show t < current.r; omega) hj]
    refine Eq.trans ?_ this
    unfold Spec.currents
    rw [hrr]
    show ∑ k ∈ range (K.length * 3), _ = _
    refine Finset.sum_congr rfl (fun k hk => ?_)
    rw [Arr2.ofFn_get _ (show t < (centreColumns voltage).r from ht') (Finset.mem_range.1 hk)]
    rfl
  obtain ⟨-, vs', hvs2, vsr, vsc, -⟩ := measurement_mat K.length (columnsAt voltage (K.length * 3) (phaseAt K)) rfl
  obtain ⟨-, is', his2, isr, isc, -⟩ := measurement_mat K.length (columnsAt current (K.length * 3) (phaseAt K)) rfl
  rw [hvs] at hvs2; cases hvs2
  rw [his] at his2; cases his2
  have hvs' : measurementPhaseToSequence (centreColumns (columnsAt voltage (K.length * 3) (phaseAt K))) = .ok (centreColumns vs) :=
    C47_columns _ _ _ hvs
  have his' : measurementPhaseToSequence (centreColumns (columnsAt current (K.length * 3) (phaseAt K))) = .ok (centreColumns is) :=
    C47_columns _ _ _ his
  have hsq : ∀ l, Spec.IsSquare K.length (E l) := fun l => ⟨(hE l).1, (hE l).2.1⟩
  obtain ⟨sm, sm', q1, q2, q3, q4⟩ := sequence_exact (hsq 0) (hsq 1) (hsq 2) hred hphase hvs' his'
  have := columns_exact (hsq 0) (hsq 2) (hsq 1) q3 q4 l.2
  have hb : ∀ j < K.length, Spec.sequencePos l j < K.length * 3 := fun j hj => by
    have := l.2
    unfold Spec.sequencePos; omega
  rw [centre_columnsAt (by rw [vsc]; exact hb), centre_columnsAt (by rw [isc]; exact hb)]
  refine Eq.trans ?_ this
  fin_cases l <;> rfl

set_option maxHeartbeats 1000000 in
/-- C140, three phases, data: the stored matrix has one block per sequence, each that of the network in which the admittances of the
hidden nodes are connected with the opposite sign; the stored data without noise of each sequence satisfy, after centring, the equation
of the network in which they are connected, that of the negative sequence for the positive one and vice versa -/
theorem C140_three_data {w : SimWorld} {cf : SimConf} {a : SimArgs} {st : Store} {d : NetworkData} (hn : Spec.PlainName a.network)
    (h3 : a.threePhased = true) (hseq : a.sequence = true) (h : (simulate w cf a st).res = .ok d)
    (hall : a.loads = a.networkSim ∧ a.networkSim = a.noise) (hpinv : Spec.PinvContract w.pinv)
    {net : Net} {bs : List BusData} (hbs : makeNet3 w a.network = .ok (net, bs)) {y0 y1 y2 y : Arr2 ℂ}
    (h0 : Spec.IsSquare bs.length y0) (h1 : Spec.IsSquare bs.length y1) (h2 : Spec.IsSquare bs.length y2)
    (hyy : makeYBus3 y0 y1 y2 = .ok y) (hy : w.yBus3 net = .ok y)
    (hf : ∀ c res, w.flow3 net c = .ok res → Spec.PowerFlow3 bs y res) {s : ℕ → ℂ}
    (hs : ∀ c res, w.flow3 net c = .ok res → Spec.ConstantImpedance3 bs cf.hidden y s res)
    (hup : ∀ c res, w.flow3 net c = .ok res → Spec.Upright3 res) (hr : Spec.HiddenReducible3 bs cf.hidden s y0 y1 y2) :
    ∃ K, ∃ r : Fin 3 → Arr2 ℂ, Spec.Lists bs.length (Spec.eliminated3 bs cf.hidden ∪ Spec.connections bs) K ∧ K.Pairwise (· < ·) ∧
      d.ids = Spec.sequenceIds K.length ∧ d.voltage.c = K.length * 3 ∧ d.current.c = K.length * 3 ∧
      Assembled d.ids (fun _ => K.length) Spec.sequencePos r d.y ∧
      (∀ l, Spec.Grounded (![y0, y1, y2] l) (Spec.hiddenShunt bs cf.hidden fun k => - s k) (Spec.connections bs)
        (Spec.eliminated3 bs cf.hidden) K (r l)) ∧
      (∃ E : Fin 3 → Arr2 ℂ, ∀ l, Spec.Grounded (![y0, y1, y2] l) (Spec.hiddenShunt bs cf.hidden s) (Spec.connections bs)
        (Spec.eliminated3 bs cf.hidden) K (E l)) ∧
      (∀ E : Fin 3 → Arr2 ℂ, (∀ l, Spec.Grounded (![y0, y1, y2] l) (Spec.hiddenShunt bs cf.hidden s) (Spec.connections bs)
          (Spec.eliminated3 bs cf.hidden) K (E l)) → ∀ l, (centreColumns (columnsAt d.voltage K.length (Spec.sequencePos l))).matmul (E (Spec.exchanged l)) =
        .ok (centreColumns (columnsAt d.current K.length (Spec.sequencePos l)))) ∧
      (cf.vm = 0 → cf.cm = 0 → cf.vp = 0 → cf.cp = 0 → d.noisyVoltage = d.voltage ∧ d.noisyCurrent = d.current) ∧
      (∃ (l : Arr2 ℝ × Arr2 ℝ × List (Arr2 ℝ)) (sim : Arr2 ℂ × Arr2 ℂ × Arr2 ℂ) (n : NoiseResult), addNoiseAndFilter3 w.z net sim.1 sim.2.1 (minuteTimes cf.days) cf.fmeas cf.steps
          ⟨cf.vm, cf.cm, cf.vp, cf.cp, a.equivalent⟩ (List.replicate 3 cf.safety) = .ok n ∧
        simCompute3 w.flow3 w.yBus3 net l.1 l.2.1 l.2.2 = .ok sim ∧
        measurementPhaseToSequence (columnsAt n.voltage (K.length * 3) (phaseAt K)) = .ok d.voltage) ∧
      (d.noisyVoltage.r = d.voltage.r ∧ d.noisyVoltage.c = K.length * 3 ∧ d.noisyCurrent.r = d.current.r ∧ d.noisyCurrent.c = K.length * 3 ∧
        d.ratings.length = K.length * 3 ∧ 0 < d.fparam) ∧
      (simulate w cf a st).store (resultFile .network a.network) = some (networkNpz d) := by
  obtain ⟨net', bs', l, sim, n, hnet, hl, -, hsim, -, hno, -, hd, hst⟩ := C78_simulate3 hn h3 h
  rw [hbs] at hnet
  cases hnet
  obtain ⟨k1, k2, k3⟩ := redo_all hall
  have hR : Spec.Redone a.loads [a.loads, a.networkSim, a.noise] := by
    obtain ⟨e1, e2⟩ := hall
    cases hb : a.noise
    · right
      intro f hf
      rw [e1, e2, hb] at hf
      simpa using hf
    · left
      rw [e1, e2, hb]
  obtain ⟨⟨lp, hreq, hlp⟩, -⟩ := hl hR
  obtain ⟨hsim, -⟩ := hsim (by rw [← hall.1]; rw [← hall.1] at hR; exact hR)
  obtain ⟨hno, -⟩ := hno (by rw [← hall.2, ← hall.1]; rw [← hall.2, ← hall.1] at hR; exact hR)
  obtain ⟨hwb, ls, hnd⟩ := makeNet3_data hbs
  have htm : l.2.2.2 = minuteTimes cf.days := by
    unfold computeLoads3 at hlp
    obtain ⟨⟨p, q, as⟩, -, hlp⟩ := Prior.bind_ok hlp
    obtain ⟨⟨p', q'⟩, -, hlp⟩ := Prior.bind_ok hlp
    obtain ⟨as', -, hlp⟩ := Prior.bind_ok hlp
    rw [← Except.ok.inj hlp]
    have hdays : lp.days = cf.days := by rcases hreq with ⟨-, rfl⟩ | ⟨-, -, -, rfl⟩ <;> rfl
    rw [← hdays]
  have ht : Spec.Times l.2.2.2 := by
    rw [htm] at hno ⊢
    refine minuteTimes_times (Nat.pos_of_ne_zero fun hd0 => ?_)
    unfold addNoiseAndFilter3 at hno
    obtain ⟨_, -, hno⟩ := Prior.bind_ok hno
    unfold rawTimes at hno
    simp only [hd0, minuteTimes] at hno
    cases hno
  have hid : ∀ k ∈ cf.hidden, k ∈ bs.map BusData.id := by
    obtain ⟨bs', hbs', hk⟩ := C137_known hn h
    rw [if_pos h3, hwb] at hbs'
    cases hbs'
    exact hk
  obtain ⟨Y', hY', hYsq, -⟩ := C62_networks bs.length h0 h1 h2
  rw [hyy] at hY'; cases hY'
  have hb0 : 0 < bs.length := by
    have : bs.length - 1 < bs.length := connections_lt (by rw [hr.last]; simp)
    omega
  obtain ⟨x1, x2, x4, x5⟩ := sim3_exact hsim hy hYsq hf
  obtain ⟨c, res, hres, q1, q2, q3⟩ := sim3_entries hsim hy hYsq (fun c res h => (hf c res h).size)
  obtain ⟨m1, m2, m3, m4⟩ := matmul_entry x1
  have hvc : sim.1.c = sim.2.1.c := by rw [m3, x2, hYsq.2]
  obtain ⟨⟨w1, w2, w3⟩, e0, -⟩ := stage3_exact hno ht hvc (by rw [x2]; omega)
  obtain ⟨R, W, hW, hWp, hAv, hAi⟩ := stage3_weights hno ht hvc (by rw [x2]; omega)
  have hRpos := (C86_three hno).2.2.2.1
  have hst0 := (C86_three hno).1
  have heq := hAv.matmul hAi x1
  have hnv : n.voltage.c = bs.length * 3 := by rw [hAv.cols, x2]
  have hni : n.current.c = bs.length * 3 := by rw [hAi.cols, ← hvc, x2]
  have hir : n.current.r = n.voltage.r := by rw [hAi.rows, hAv.rows]
  have hnc : ∀ k ∈ Spec.labelled bs cf.hidden, k ∉ Spec.connections bs := by
    intro k hk hc
    rw [hr.last, Finset.mem_singleton] at hc
    subst hc
    exact hr.kept hk
  have hconst : ∀ c ∈ Spec.connections bs, ∀ p < 3, ∀ t, t < n.voltage.r → n.voltage.get t (c * 3 + p) = n.voltage.get 0 (c * 3 + p) := by
    intro c hc p hp t ht'
    have hcl := connections_lt hc
    have hk := hAv.const hW (j := c * 3 + p) (by rw [x2]; omega) (fun t ht => x4 c hc p hp t ht)
    rw [hk t ht', hk 0 (lt_of_le_of_lt (Nat.zero_le _) ht')]
  have hpas : ∀ k ∈ Spec.passive3 bs, ∀ p < 3, ∀ t, t < n.voltage.r → n.current.get t (k * 3 + p) = 0 := by
    intro k hk p hp t ht'
    have hkl : k < bs.length := passive_lt (Finset.mem_inter.1 hk).1
    refine hAi.const hW (j := k * 3 + p) (by rw [← hvc, x2]; omega) (fun t ht => x5 k hk p hp t (by rw [← m2]; exact ht)) t ?_
    rw [hAi.rows, ← hAv.rows]; exact ht'
  have hhid : ∀ k ∈ Spec.labelled bs cf.hidden, ∀ p < 3, ∀ t, t < n.voltage.r →
      n.current.get t (k * 3 + p) = - (s k * n.voltage.get t (k * 3 + p)) := by
    intro k hk p hp t ht'
    have hkl := labelled_lt hk
    have htR : t < R := by rw [← hAv.rows]; exact ht'
    rw [hAi.get t _ htR (by rw [← hvc, x2]; omega), hAv.get t _ htR (by rw [x2]; omega), Finset.mul_sum, ← Finset.sum_neg_distrib]
    refine Finset.sum_congr rfl fun u hu => ?_
    have hu' : u < sim.1.r := by rw [hAv.orig]; exact Finset.mem_range.1 hu
    have : sim.2.1.get u (k * 3 + p) = - (s k * sim.1.get u (k * 3 + p)) := by
      have := hs c res hres k hk p hp u (by rw [← q1]; exact hu')
      rw [m4 u _ hu' (by rw [hYsq.2]; omega), q3 u (k * 3 + p) hu' (by omega), show (k * 3 + p) / 3 = k by omega, ← this]
      unfold Spec.currents
      rw [x2, hYsq.1]
      exact Finset.sum_congr rfl (fun j hj => by rw [q3 u j hu' (Finset.mem_range.1 hj)])
    rw [this]
    ring
  have hmean : ∀ k < bs.length, ∀ p < 3, colMean n.voltage (k * 3 + p) ≠ 0 := by
    intro k hk p hp
    have hj : k * 3 + p < bs.length * 3 := by omega
    refine colMean_ne_zero_dir (by omega) (Spec.phasor 1 (-Spec.nominalAngle (Spec.phaseOf (k * 3 + p)))) ?_
    rw [hAv.rows]
    refine hAv.re_pos_dir hW hWp (by rw [x2]; exact hj) _ ?_
    intro t ht
    have ht' : t < sim.1.r := by rw [hAv.orig]; exact ht
    obtain ⟨u1, u2⟩ := hup _ _ hres (Spec.phaseOf (k * 3 + p)) t (by rw [(q2 _).1]; exact ht') ((k * 3 + p) / 3) (by rw [(q2 _).2]; omega)
    rw [abs_lt] at u2
    rw [q3 t _ ht' hj, phasor_dir]
    exact phasor_re_pos u1 u2.1 u2.2
  have hratio : ∀ (ε : ℂ) (cur : Arr2 ℂ), cur.r = n.current.r → (∀ t k, t < n.current.r → k < bs.length * 3 → cur.get t k = ε * n.current.get t k) →
      ∀ k ∈ Spec.labelled bs cf.hidden, ∀ p < 3, colMean n.voltage (k * 3 + p) ≠ 0 ∧
        colMean cur (k * 3 + p) / colMean n.voltage (k * 3 + p) = Spec.hiddenShunt bs cf.hidden (fun k => - (ε * s k)) k := by
    intro ε cur hcr hcur k hk p hp
    have hkl := labelled_lt hk
    refine ⟨hmean k hkl p hp, ?_⟩
    unfold Spec.hiddenShunt
    rw [if_pos (Finset.mem_sdiff.2 ⟨hk, hnc k hk⟩), div_eq_iff (hmean k hkl p hp)]
    unfold colMean
    rw [hcr, hir, Finset.sum_congr rfl (fun t ht => by
      rw [hcur t _ (by rw [hir]; exact Finset.mem_range.1 ht) (by omega), hhid k hk p hp t (Finset.mem_range.1 ht)]),
      ← Finset.mul_sum, Finset.sum_neg_distrib, ← Finset.mul_sum]
    ring
  have hoff : ∀ (σ : ℕ → ℂ) k, k ∉ Spec.labelled bs cf.hidden → Spec.hiddenShunt bs cf.hidden σ k = 0 := by
    intro σ k hk
    unfold Spec.hiddenShunt
    exact if_neg fun h => hk (Finset.mem_sdiff.1 h).1
  have hcons : Spec.labelled bs cf.hidden ∪ Spec.passive bs 0 ∩ (Spec.passive bs 1 ∩ Spec.passive bs 2) = Spec.eliminated3 bs cf.hidden := rfl
  obtain ⟨todel, red, K, r1, r2, r3, -, r5, s0, s1, s2, g1, g2, g3, g4, -, g6⟩ := reduce3_exact (voltage := n.voltage)
    (current := n.current) (hidden := cf.hidden) (rs := false) (d := Spec.hiddenShunt bs cf.hidden fun k => - s k) hnd hpinv h0 h1 h2 hyy hnv hni
    hid (by simp) hr.last hr.kept (by
      have := hratio 1 n.current rfl (fun t k _ _ => by rw [one_mul])
      simpa only [one_mul] using this) (hoff _) hr.regular'
  set cur := Arr2.ofFn n.current.r n.current.c (fun t k => - n.current.get t k) with hcur
  obtain ⟨todel2, red2, K2, -, -, r3', -, r5', t0, t1, t2, -, -, -, -, -, f6⟩ := reduce3_exact (voltage := n.voltage)
    (current := cur) (hidden := cf.hidden) (rs := false) (d := Spec.hiddenShunt bs cf.hidden s) hnd hpinv h0 h1 h2 hyy hnv hni
    hid (by simp) hr.last hr.kept (by
      have := hratio (-1) cur rfl (fun t k ht hk => by rw [hcur, Arr2.ofFn_get _ ht (by rw [hni]; exact hk)]; ring)
      simpa only [neg_mul, one_mul, neg_neg] using this) (hoff _) hr.regular
  rw [hcons] at r2 r3 g6 r3' f6
  obtain ⟨z1, z2, z3, z4⟩ := stage3_shape hno
  have hElt : ∀ k ∈ Spec.eliminated3 bs cf.hidden, k < bs.length := by
    intro k hk
    rcases Finset.mem_union.1 hk with h | h
    · exact labelled_lt h
    · exact passive_lt (Finset.mem_inter.1 h).1
  have hRlt : ∀ k ∈ Spec.eliminated3 bs cf.hidden ∪ Spec.connections bs, k < bs.length := by
    intro k hk
    rcases Finset.mem_union.1 hk with h | h
    · exact hElt k h
    · exact connections_lt h
  have hfew : ∀ {K : List ℕ}, Spec.Lists bs.length (Spec.eliminated3 bs cf.hidden ∪ Spec.connections bs) K →
      (bs.length - 1 ≤ 8 ∨ 3 * (bs.length - 1) ≤ 5 * K.length) := by
    intro K hK
    have := lists_length hRlt hK
    rcases hr.few with h | h
    · exact Or.inl h
    · right
      rw [show K.length = bs.length - (Spec.eliminated3 bs cf.hidden ∪ Spec.connections bs).card by omega]
      exact h
  have hsort := r5 (hfew r3)
  have hKK : K = K2 := lists_unique r3 r3' hsort (r5' (hfew r3'))
  subst hKK
  have hKlt : ∀ b, b < K.length → K.getD b 0 < bs.length := fun b hb => ((r3.2 _).1 (getD_mem hb)).1
  obtain ⟨-, hbus, -⟩ := netData3_tables hnd
  have hbl : net.bus.length = bs.length := by rw [hbus]; simp
  have hred : reduction w a net (hiddenNodes cf a bs) n = .ok (todel, red) := by
    unfold reduction
    rw [h3, hy, hiddenNodes_three h3, hseq]
    simp only [if_true, bind, Except.bind]
    exact r1
  obtain ⟨-, vs, hvs, vsr, vsc, -⟩ := measurement_mat K.length (columnsAt n.voltage (K.length * 3) (phaseAt K)) rfl
  obtain ⟨-, is, his, isr, isc, -⟩ := measurement_mat K.length (columnsAt n.current (K.length * 3) (phaseAt K)) rfl
  obtain ⟨-, nvs, hnvs, nvr, nvc, -⟩ := measurement_mat K.length (columnsAt n.noisyVoltage (K.length * 3) (phaseAt K)) rfl
  obtain ⟨-, nis, hnis, nir, nic, -⟩ := measurement_mat K.length (columnsAt n.noisyCurrent (K.length * 3) (phaseAt K)) rfl
  have hdel := fun {a : Arr2 ℂ} (ha : a.c = bs.length * 3) => deleteCols_phases r3 hsort r2 hRlt ha
  have hrl : n.ratings.length = bs.length * 3 := by rw [z3, hbl, mul_comm]
  obtain ⟨ra, hra, hrac⟩ : ∃ ra, deleteEntries n.ratings todel 0 = .ok ra ∧ ra.length = K.length * 3 :=
    ⟨_, if_pos (fun k hk => lt_of_lt_of_le (by have := hRlt _ ((r2 k).1 hk); rw [x2]; omega) w3), by
      rw [hrl, keep_phases r3 hsort r2]; simp⟩
  have hids := deleteIds_phases r3 hsort r2 hRlt
  have hmap : ((List.range (K.length * 3)).map (fun i => ((i % 3 : ℕ) : Int) + 1)).map (· - 1) = Spec.sequenceIds K.length := by
    unfold Spec.sequenceIds
    rw [List.map_map]
    refine List.map_congr_left (fun i _ => ?_)
    show ((i % 3 : ℕ) : Int) + 1 - 1 = _
    omega
  obtain ⟨sm, hq1, hq2⟩ : ∃ sm, sequenceBus s0 s1 s2 = .ok sm ∧ admittancePhaseToSequence red = .ok sm := by
    obtain ⟨sm, q1, ssq, -⟩ := sequenceBus_ok K.length g2 g3 g4
    obtain ⟨⟨p, hp, -, hback⟩, -⟩ := C61_admittance K.length sm ssq
    refine ⟨sm, q1, ?_⟩
    have hpr : p = red := by
      unfold makeYBus3 at g1
      rw [q1] at g1
      exact Except.ok.inj (hp.symm.trans g1)
    rw [← hpr]
    exact hback
  have hdd : d = ⟨nvs, nis, vs, is, sm, ra, n.fparam, Spec.sequenceIds K.length⟩ := by
    have : networkData w a net (hiddenNodes cf a bs) n = .ok ⟨nvs, nis, vs, is, sm, ra, n.fparam, Spec.sequenceIds K.length⟩ := by
      unfold networkData dropReduced toSequence
      rw [hred, hseq, h3, hbl]
      simp only [bind, Except.bind, if_true, hdel (show n.noisyVoltage.c = _ by rw [w1, x2]), hdel (show n.noisyCurrent.c = _ by rw [w2, x2]),
        hdel hnv, hdel hni, hra, hids, pure, Except.pure, hvs, his, hnvs, hnis, hq2, hmap]
    exact Except.ok.inj (hd.symm.trans this)
  have hsq : ∀ l, Spec.IsSquare K.length ((![s0, s1, s2] : Fin 3 → Arr2 ℂ) l) := by
    intro l
    fin_cases l
    · exact g2
    · exact g3
    · exact g4
  refine ⟨K, ![s0, s1, s2], r3, hsort, by rw [hdd], by rw [hdd]; exact vsc, by rw [hdd]; exact isc, ?_, g6, ⟨![t0, t1, t2], f6⟩, ?_, ?_,
    ⟨(l.1, l.2.1, l.2.2.1), sim, n, by rw [← htm]; exact hno, hsim, by rw [hdd]; exact hvs⟩,
    by rw [hdd]; exact ⟨nvr.trans (z1.trans vsr.symm), nvc, nir.trans (z2.trans isr.symm), nic, hrac, Nat.cast_pos.2 z4⟩, hst⟩
  · rw [hdd]
    exact sequence_assembled (r := ![s0, s1, s2]) hsq hq1
  · intro E hE
    rw [hdd]
    refine grounded3_centred h0 h1 h2 hyy heq (fun c hc => connections_lt hc) hElt hKlt hconst ?_ hE hvs his
    intro k hk p hp t ht'
    by_cases hkh : k ∈ Spec.labelled bs cf.hidden
    · rw [hhid k hkh p hp t ht']
      unfold Spec.hiddenShunt
      rw [if_pos (Finset.mem_sdiff.2 ⟨hkh, hnc k hkh⟩)]
    · rw [hpas k ((Finset.mem_union.1 hk).resolve_left hkh) p hp t ht', hoff _ k hkh, zero_mul, neg_zero]
  · intro z1 z2 z3 z4
    obtain ⟨e1, e2⟩ := e0 z1 z2 z3 z4
    rw [e1, hvs] at hnvs
    rw [e2, his] at hnis
    rw [hdd]
    exact ⟨(Except.ok.inj hnvs).symm, (Except.ok.inj hnis).symm⟩

/-- the standard methods of a three-phase identification in sequence values whose stored data without noise satisfy the centred
equation of one matrix per sequence -/
theorem identify3_estimate {ext : NumExt} {ic : IdConf} (hl : 0 ≤ ic.lambdaLasso) (hinv : Spec.InvContract ext.inv)
    (hex : Spec.Exact ext.solve) (htot : Spec.Total ext.solve) (hpinv' : Spec.PinvContract ext.pinv)
    (hsvd : Spec.SvdContract ext.svdVh) (hsh : Spec.Shapes ext) {d : NetworkData} {m : ℕ} (hids : d.ids = Spec.sequenceIds m)
    (hvc : d.noisyVoltage.c = m * 3) (hic : d.noisyCurrent.c = m * 3) {f : Fin 3 → Arr2 ℂ} (hsq : ∀ l, Spec.IsSquare m (f l))
    (heq : ∀ l, (centreColumns (columnsAt d.noisyVoltage m (Spec.sequencePos l))).matmul (f l) =
      .ok (centreColumns (columnsAt d.noisyCurrent m (Spec.sequencePos l))))
    (hrank : ∀ l, Spec.FullColumnRank (centreColumns (columnsAt d.noisyVoltage m (Spec.sequencePos l)))) {sc : SimConf}
    {b : IdArgs} {st : Store} (hn : Spec.PlainName b.network) (hst : st (resultFile .network b.network) = some (networkNpz d))
    (hb : b.threePhased = true ∧ b.laplacian = false ∧ b.phases = "012") (hstd : Spec.Redone b.standard [b.standard, b.bayesian])
    {r : (Arr2 ℂ × Arr2 ℂ × Arr2 ℂ) × (Arr2 ℂ × List IterationStatus)} (hid : (identify ext ic sc b st).res = .ok r) :
    Assembled d.ids (fun _ => m) Spec.sequencePos f r.1.1 ∧ Assembled d.ids (fun _ => m) Spec.sequencePos f r.1.2.1 ∧ r.1.2.1 = r.1.1 := by
  obtain ⟨all, y0', hload, -, hs1, -, -, -, -, -⟩ := C78_identify3 hn hb.1 hid
  have hall' : all = d := by
    have := C49_network b.network d st (h := []) ⟨hn, by simp⟩
    have e : st.savez (resultFile .network b.network) (networkNpz d) = st := by
      funext f
      by_cases hfn : f = resultFile .network b.network
      · subst hfn; rw [hst]; simp [Store.savez]
      · simp [Store.savez, hfn]
    rw [e] at this
    exact Except.ok.inj (hload.symm.trans this)
  subst hall'
  obtain ⟨hcomp, -⟩ := hs1 hstd
  have hlen : all.ids.length = m * 3 := by rw [hids]; simp [Spec.sequenceIds]
  have hpos : ∀ l : Fin 3, LabelPos all.ids (l.val : Int) m (Spec.sequencePos l) := by
    intro l
    rw [hids]
    exact labelPos_sequence m l
  have hcomp := hcomp st
  rw [if_pos hb.2.2, hb.2.1, C52_standard hsh (by rw [hlen, hvc]) (by rw [hlen, hic]) hpos] at hcomp
  obtain ⟨es, he, ho, ht, -⟩ := hcomp
  have hes : ∀ l, (es l).1 = f l ∧ (es l).2.1 = f l := by
    intro l
    have hc : (centreData false (columnsAt all.noisyVoltage m (Spec.sequencePos l)) (columnsAt all.noisyCurrent m (Spec.sequencePos l))).1.matmul
        (f l) =
        .ok (centreData false (columnsAt all.noisyVoltage m (Spec.sequencePos l)) (columnsAt all.noisyCurrent m (Spec.sequencePos l))).2 := heq l
    obtain ⟨-, hrows, -⟩ := matmul_entry hc
    obtain ⟨vh, hs, hvh⟩ := hsvd (Arr2.ofFn (centreData false (columnsAt all.noisyVoltage m (Spec.sequencePos l))
      (columnsAt all.noisyCurrent m (Spec.sequencePos l))).1.r _ _)
    obtain ⟨L, hL, -⟩ := standard_centred ext ic hl hinv hex htot hpinv' (by rw [(hsq _).1, (hsq _).2]) hc (hrank l)
      (if_pos hrows.symm) hs hvh b.maxIter
    have := he l st
    rw [standardMethods_fst, hL] at this
    rw [← Except.ok.inj this]
    exact ⟨rfl, rfl⟩
  rw [show (fun l => (es l).1) = f from funext fun l => (hes l).1] at ho
  rw [show (fun l => (es l).2.1) = f from funext fun l => (hes l).2] at ht
  exact ⟨ho, ht, Spec.Assembled.unique hpos ht ho⟩

/-- C140, three phases: simulate_network.py without noise in sequence coordinates with hidden nodes that draw the currents of constant
admittances on each phase, then identify_network.py with the standard methods: the estimates are those of the network in which these
admittances are connected, positive and negative sequence exchanged; the stored reference is that of the network in which they are
connected with the opposite sign -/
theorem C140_three_estimate {w : SimWorld} {cf : SimConf} {a : SimArgs} {st : Store} {d : NetworkData} (hn : Spec.PlainName a.network)
    (h3 : a.threePhased = true) (hseq : a.sequence = true) (h : (simulate w cf a st).res = .ok d)
    (hall : a.loads = a.networkSim ∧ a.networkSim = a.noise) (hsd : cf.vm = 0 ∧ cf.cm = 0 ∧ cf.vp = 0 ∧ cf.cp = 0)
    (hpinv : Spec.PinvContract w.pinv)
    {net : Net} {bs : List BusData} (hbs : makeNet3 w a.network = .ok (net, bs)) {y0 y1 y2 y : Arr2 ℂ}
    (h0 : Spec.IsSquare bs.length y0) (h1 : Spec.IsSquare bs.length y1) (h2 : Spec.IsSquare bs.length y2)
    (hyy : makeYBus3 y0 y1 y2 = .ok y) (hy : w.yBus3 net = .ok y)
    (hf : ∀ c res, w.flow3 net c = .ok res → Spec.PowerFlow3 bs y res) {s : ℕ → ℂ}
    (hs : ∀ c res, w.flow3 net c = .ok res → Spec.ConstantImpedance3 bs cf.hidden y s res)
    (hup : ∀ c res, w.flow3 net c = .ok res → Spec.Upright3 res) (hr : Spec.HiddenReducible3 bs cf.hidden s y0 y1 y2)
    {ext : NumExt} {ic : IdConf} (hl : 0 ≤ ic.lambdaLasso) (hinv : Spec.InvContract ext.inv)
    (hex : Spec.Exact ext.solve) (htot : Spec.Total ext.solve) (hpinv' : Spec.PinvContract ext.pinv)
    (hsvd : Spec.SvdContract ext.svdVh) (hsh : Spec.Shapes ext)
    (hrank : ∀ l, Spec.FullColumnRank (centreColumns (columnsAt d.voltage (d.voltage.c / 3) (Spec.sequencePos l)))) {sc : SimConf}
    {b : IdArgs} (hb : b.network = a.network ∧ b.threePhased = true ∧ b.laplacian = false ∧ b.phases = "012")
    (hstd : Spec.Redone b.standard [b.standard, b.bayesian])
    {r : (Arr2 ℂ × Arr2 ℂ × Arr2 ℂ) × (Arr2 ℂ × List IterationStatus)}
    (hid : (identify ext ic sc b (simulate w cf a st).store).res = .ok r) :
    ∃ K, ∃ D E : Fin 3 → Arr2 ℂ, Spec.Lists bs.length (Spec.eliminated3 bs cf.hidden ∪ Spec.connections bs) K ∧ K.Pairwise (· < ·) ∧
      d.ids = Spec.sequenceIds K.length ∧
      (∀ l, Spec.Grounded (![y0, y1, y2] l) (Spec.hiddenShunt bs cf.hidden fun k => - s k) (Spec.connections bs)
        (Spec.eliminated3 bs cf.hidden) K (D l)) ∧
      (∀ l, Spec.Grounded (![y0, y1, y2] l) (Spec.hiddenShunt bs cf.hidden s) (Spec.connections bs)
        (Spec.eliminated3 bs cf.hidden) K (E l)) ∧
      Assembled d.ids (fun _ => K.length) Spec.sequencePos D d.y ∧
      Assembled d.ids (fun _ => K.length) Spec.sequencePos (fun l => E (Spec.exchanged l)) r.1.1 ∧ r.1.2.1 = r.1.1 := by
  obtain ⟨K, D, k1, k2, k3, k4, k5, k6, k7, ⟨E, hE⟩, k9, k10, -, -, hst⟩ := C140_three_data hn h3 hseq h hall hpinv hbs h0 h1 h2 hyy hy hf hs hup hr
  obtain ⟨n1, n2⟩ := k10 hsd.1 hsd.2.1 hsd.2.2.1 hsd.2.2.2
  rw [k4, show K.length * 3 / 3 = K.length by omega] at hrank
  obtain ⟨e1, -, e3⟩ := identify3_estimate hl hinv hex htot hpinv' hsvd hsh k3 (by rw [n1, k4]) (by rw [n2, k5])
    (f := fun l => E (Spec.exchanged l)) (fun l => ⟨(hE _).1, (hE _).2.1⟩) (by rw [n1, n2]; exact k9 E hE) (by rw [n1]; exact hrank)
    (by rw [hb.1]; exact hn) (by rw [hb.1]; exact hst) hb.2 hstd hid
  exact ⟨K, D, E, k1, k2, k3, k7, hE, k6, e1, e3⟩

/-- C140, three phases, the guard: if the hidden nodes draw no current, the estimates have the blocks of the stored reference, positive
and negative sequence exchanged; they are the reference if the two networks of these sequences are the same -/
theorem C140_three_partial {w : SimWorld} {cf : SimConf} {a : SimArgs} {st : Store} {d : NetworkData} (hn : Spec.PlainName a.network)
    (h3 : a.threePhased = true) (hseq : a.sequence = true) (h : (simulate w cf a st).res = .ok d)
    (hall : a.loads = a.networkSim ∧ a.networkSim = a.noise) (hsd : cf.vm = 0 ∧ cf.cm = 0 ∧ cf.vp = 0 ∧ cf.cp = 0)
    (hpinv : Spec.PinvContract w.pinv)
    {net : Net} {bs : List BusData} (hbs : makeNet3 w a.network = .ok (net, bs)) {y0 y1 y2 y : Arr2 ℂ}
    (h0 : Spec.IsSquare bs.length y0) (h1 : Spec.IsSquare bs.length y1) (h2 : Spec.IsSquare bs.length y2)
    (hyy : makeYBus3 y0 y1 y2 = .ok y) (hy : w.yBus3 net = .ok y)
    (hf : ∀ c res, w.flow3 net c = .ok res → Spec.PowerFlow3 bs y res)
    (hs : ∀ c res, w.flow3 net c = .ok res → Spec.ConstantImpedance3 bs cf.hidden y (fun _ => 0) res)
    (hup : ∀ c res, w.flow3 net c = .ok res → Spec.Upright3 res) (hr : Spec.HiddenReducible3 bs cf.hidden (fun _ => 0) y0 y1 y2)
    {ext : NumExt} {ic : IdConf} (hl : 0 ≤ ic.lambdaLasso) (hinv : Spec.InvContract ext.inv)
    (hex : Spec.Exact ext.solve) (htot : Spec.Total ext.solve) (hpinv' : Spec.PinvContract ext.pinv)
    (hsvd : Spec.SvdContract ext.svdVh) (hsh : Spec.Shapes ext)
    (hrank : ∀ l, Spec.FullColumnRank (centreColumns (columnsAt d.voltage (d.voltage.c / 3) (Spec.sequencePos l)))) {sc : SimConf}
    {b : IdArgs} (hb : b.network = a.network ∧ b.threePhased = true ∧ b.laplacian = false ∧ b.phases = "012")
    (hstd : Spec.Redone b.standard [b.standard, b.bayesian])
    {r : (Arr2 ℂ × Arr2 ℂ × Arr2 ℂ) × (Arr2 ℂ × List IterationStatus)}
    (hid : (identify ext ic sc b (simulate w cf a st).store).res = .ok r) :
    ∃ m, d.ids = Spec.sequenceIds m ∧
      Assembled d.ids (fun _ => m) Spec.sequencePos (fun l => blockAt d.y m (Spec.sequencePos (Spec.exchanged l))) r.1.1 ∧
      r.1.2.1 = r.1.1 ∧ (y1 = y2 → r.1.1 = d.y ∧ r.1.2.1 = d.y) := by
  have hz : Spec.hiddenShunt bs cf.hidden (fun k => - (fun _ => (0 : ℂ)) k) = Spec.hiddenShunt bs cf.hidden (fun _ => 0) := by
    simp
  obtain ⟨K, D, k1, k2, k3, k4, k5, k6, k7, -, k9, k10, -, -, hst⟩ := C140_three_data hn h3 hseq h hall hpinv hbs h0 h1 h2 hyy hy hf hs hup hr
  rw [hz] at k7
  obtain ⟨n1, n2⟩ := k10 hsd.1 hsd.2.1 hsd.2.2.1 hsd.2.2.2
  rw [k4, show K.length * 3 / 3 = K.length by omega] at hrank
  have hest : ∀ F : Fin 3 → Arr2 ℂ, (∀ l, Spec.Grounded (![y0, y1, y2] l) (Spec.hiddenShunt bs cf.hidden fun _ => 0) (Spec.connections bs)
      (Spec.eliminated3 bs cf.hidden) K (F l)) →
      Assembled d.ids (fun _ => K.length) Spec.sequencePos (fun l => F (Spec.exchanged l)) r.1.1 ∧ r.1.2.1 = r.1.1 := by
    intro F hF
    obtain ⟨e1, -, e3⟩ := identify3_estimate hl hinv hex htot hpinv' hsvd hsh k3 (by rw [n1, k4]) (by rw [n2, k5])
      (f := fun l => F (Spec.exchanged l)) (fun l => ⟨(hF _).1, (hF _).2.1⟩) (by rw [n1, n2]; exact k9 F hF) (by rw [n1]; exact hrank)
      (by rw [hb.1]; exact hn) (by rw [hb.1]; exact hst) hb.2 hstd hid
    exact ⟨e1, e3⟩
  have hpos : ∀ l : Fin 3, LabelPos d.ids (l.val : Int) K.length (Spec.sequencePos l) := by
    intro l
    rw [k3]
    exact labelPos_sequence _ l
  have hblk : ∀ l, blockAt d.y K.length (Spec.sequencePos l) = D l := by
    intro l
    refine Arr2.ext' (k7 l).1.symm (k7 l).2.1.symm fun i j (hi : i < K.length) (hj : j < K.length) => ?_
    unfold blockAt
    rw [Arr2.ofFn_get _ hi hj, k6.block l i j hi hj]
  obtain ⟨e1, e3⟩ := hest D k7
  refine ⟨K.length, k3, by simp only [hblk]; exact e1, e3, ?_⟩
  rintro rfl
  have hD : ∀ l, Spec.Grounded (![y0, y1, y1] l) (Spec.hiddenShunt bs cf.hidden fun _ => 0) (Spec.connections bs)
      (Spec.eliminated3 bs cf.hidden) K (D (Spec.exchanged l)) := by
    intro l
    have := k7 (Spec.exchanged l)
    fin_cases l <;> exact this
  obtain ⟨e1, -⟩ := hest _ hD
  have hxx : ∀ l, Spec.exchanged (Spec.exchanged l) = l := by decide
  simp only [hxx] at e1
  have : r.1.1 = d.y := Spec.Assembled.unique hpos e1 k6
  exact ⟨this, by rw [e3, this]⟩

end
end Verif
