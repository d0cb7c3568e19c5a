/-
C116: when the simulation of a single-phase network completes.
-/
import Verif.Props.Pipeline
import Verif.Props.Loads2
import Verif.Props.NoiseLaw

namespace Verif
open Finset Matrix Net
open Prog hiding pure bind read save call ofExcept
noncomputable section

/-- one stage after the other -/
theorem simulate_run {w : SimWorld} {cf : SimConf} {a : SimArgs} {st : Store} (h3 : a.threePhased = false)
    (hl : a.redoLoads = true) (hs : a.redoNetsim = true) (hn : a.redoNoise = true) {net : Net} {bs : List BusData} {lp : LoadParams}
    {l : Arr2 ℝ × Arr2 ℝ × List ℝ} {s : Arr2 ℂ × Arr2 ℂ × Arr2 ℂ} {n : NoiseResult} {d : NetworkData}
    (h1 : makeNet w a.network = .ok (net, bs)) (h2 : loadParams w cf a bs = .ok (some lp))
    (h4 : computeLoads w.rng w.z w.files cf.constantness net lp = .ok l) (h5 : simCompute w.flow w.yBus net l.1 l.2.1 = .ok s)
    (h6 : addNoiseAndFilter w.z net s.1 s.2.1 l.2.2 cf.fmeas cf.steps (noiseParams cf a) cf.safety = .ok n)
    (h7 : networkData w a net (hiddenNodes cf a bs) n = .ok d) : (simulate w cf a st).res = .ok d := by
  unfold simulate
  rw [Prog.bind_ok (a := (net, bs)) (by rw [h3]; simpa using h1), Prog.bind_ok (a := some lp) (by simpa using h2)]
  have hst : stages w cf a net (some lp) = stages1 w cf a net (some lp) := by unfold stages; rw [h3]; rfl
  have key : ∀ st, (stages w cf a net (some lp) st).res = .ok n := by
    intro st
    rw [hst]
    unfold stages1
    rw [Prog.bind_ok (a := l) (by simp only [call_run, generateLoads, h4]), Prog.bind_ok (a := s) (by
      unfold netsim1
      rw [if_pos hs]
      simp only [call_run, simulateNet, h5])]
    simp only [call_run, hn, if_true, noiseStage, h6]
  simp only [ofExcept_run]
  rw [Prog.bind_ok (key _), Prog.bind_ok (a := d) (by simpa using h7), Prog.bind_ok (a := ()) (by simp)]
  simp

/-- the simulated and the noisy series exist for all times and ratings -/
theorem series_completes (z : Nat → ℝ) {r : List ℝ} (r2 : ∀ x ∈ r, 0 ≤ x) {voltage current : Arr2 ℂ} {times : List ℝ}
    (hvr : voltage.r = times.length) (hcr : current.r = times.length) (hc : voltage.c = current.c) (r1 : voltage.c ≤ r.length)
    {ts : List ℝ} {f : Nat} {vm cm vp cp : ℝ} (hg : Spec.Grid times ts) (hf : f ≠ 0) (e1 : 0 ≤ vm) (e2 : 0 ≤ cm) (e3 : 0 ≤ vp)
    (e4 : 0 ≤ cp) : ∃ x, noiseSeries z r voltage current times ts f vm cm vp cp = .ok x := by
  set vi : Arr2 ℂ := Arr2.ofFn voltage.r (voltage.c + current.c)
    (fun i j => if j < voltage.c then voltage.get i j else current.get i (j - voltage.c)) with hvi
  have hst : voltage.hstack current = .ok vi := if_pos (hvr.trans hcr.symm)
  have hvic : vi.c = voltage.c + voltage.c := by show voltage.c + current.c = _; rw [← hc]
  have hi : ∀ k, k < vi.c → interp1d times (vi.col k) ts = .ok (ts.map (interpAt times (vi.col k))) :=
    fun k _ => interp1d_ok hg (by rw [col_length]; exact hvr.symm)
  have hsd : ∀ (g g' : ℝ → ℝ), (∀ x, 0 ≤ x → 0 ≤ g x) → (∀ x, 0 ≤ x → 0 ≤ g' x) → ∀ k, k < vi.c →
      ∃ q, 0 ≤ q ∧ stdAt (r.map g ++ r.map g') k = .ok q := by
    intro g g' hg0 hg1 k hk
    have hk' : k < (r.map g ++ r.map g').length := by
      simp only [List.length_append, List.length_map]; omega
    refine ⟨_, ?_, if_pos hk'⟩
    rw [List.getD_eq_getElem _ _ hk']
    have := List.getElem_mem hk'
    rcases List.mem_append.1 this with hm | hm
    · obtain ⟨y, hy, he⟩ := List.mem_map.1 hm
      rw [← he]; exact hg0 y (r2 y hy)
    · obtain ⟨y, hy, he⟩ := List.mem_map.1 hm
      rw [← he]; exact hg1 y (r2 y hy)
  have hno : ∀ k, k < vi.c → ∃ q, polarNoise z (r.map (fun _ => vm) ++ r.map (fun r => cm * r))
      (r.map (fun _ => vp) ++ r.map (fun _ => cp)) k (ts.map (interpAt times (vi.col k))) = .ok q := by
    intro k hk
    obtain ⟨q1, q2, q3⟩ := hsd (fun _ => vm) (fun r => cm * r) (fun _ _ => e1) (fun x hx => mul_nonneg e2 hx) k hk
    obtain ⟨q4, q5, q6⟩ := hsd (fun _ => vp) (fun _ => cp) (fun _ _ => e3) (fun _ _ => e4) k hk
    have : polarNoise z (r.map (fun _ => vm) ++ r.map (fun r => cm * r))
        (r.map (fun _ => vp) ++ r.map (fun _ => cp)) k (ts.map (interpAt times (vi.col k))) =
        addPolarNoise1 z (k * (2 * (ts.map (interpAt times (vi.col k))).length)) (ts.map (interpAt times (vi.col k))) q1 q4 := by
      unfold polarNoise
      rw [q3, q6]
      rfl
    rw [this]
    exact ⟨_, addPolarNoise1_ok _ _ _ q2 q5⟩
  choose! res hres using hno
  obtain ⟨o, ho, or, oc, -⟩ := filter_ok vi times ts f hf _ _ _ hi hres
  obtain ⟨c, hcl, cr, cc, -⟩ := filter_ok vi times ts f hf noNoise _ _ hi (fun k hk => rfl)
  have hsp : ∀ m : Arr2 ℂ, m.c = vi.c → ∃ x, m.split2 = .ok x := by
    intro m hm
    exact ⟨_, if_pos (by omega)⟩
  obtain ⟨x, hx⟩ := hsp o oc
  obtain ⟨x', hx'⟩ := hsp c cc
  refine ⟨(x.1, x.2, x'.1, x'.2), ?_⟩
  unfold noiseSeries
  simp only [hst, ho, hx, hcl, hx', bind, Except.bind, pure, Except.pure]

/-- the noise stage completes -/
theorem stage_completes (z : Nat → ℝ) {net : Net} {voltage current : Arr2 ℂ} {times : List ℝ} (ht : Spec.Times times) {fmeas : ℝ}
    (hfm : 0 ≤ fmeas) {steps : Nat} (hs : 0 < steps) (hN : steps ≤ Spec.rawCount times fmeas) {safety : ℝ} (hsf : 0 ≤ safety)
    (hvr : voltage.r = times.length) (hcr : current.r = times.length) (hc : voltage.c = current.c)
    (hvc : voltage.c ≤ net.load.length) {p : NoiseParams} (h1 : 0 ≤ p.vm) (h2 : 0 ≤ p.cm) (h3 : 0 ≤ p.vp) (h4 : 0 ≤ p.cp) :
    ∃ n, addNoiseAndFilter z net voltage current times fmeas steps p safety = .ok n := by
  obtain ⟨r1, r2⟩ := ratings_spec safety hsf net
  have key : ∀ {ts : List ℝ} {f : Nat} {vm cm vp cp : ℝ}, Spec.Grid times ts → f ≠ 0 → 0 ≤ vm → 0 ≤ cm → 0 ≤ vp → 0 ≤ cp →
      ∃ x, noiseSeries z (ratings safety net) voltage current times ts f vm cm vp cp = .ok x :=
    fun hg hf e1 e2 e3 e4 => series_completes z r2 hvr hcr hc (by rw [r1]; exact hvc) hg hf e1 e2 e3 e4
  obtain ⟨ts, ts', t1, t2, t3, t4, t5, t6⟩ := sampling_ok ht hfm hs hN
  unfold addNoiseAndFilter
  simp only [t1, t2, bind, Except.bind]
  have h0 := Real.sqrt_nonneg (((Spec.rawCount times fmeas / steps : Nat)) : ℝ)
  split
  · obtain ⟨x, hx⟩ := key t5 one_ne_zero (div_nonneg h1 h0) (div_nonneg h2 h0) (div_nonneg h3 h0) (div_nonneg h4 h0)
    simp only [t3, hx]
    exact ⟨_, rfl⟩
  · obtain ⟨x, hx⟩ := key t4 t6 h1 h2 h3 h4
    simp only [hx]
    exact ⟨_, rfl⟩

theorem redo_all {a : SimArgs} (h : a.loads = a.networkSim ∧ a.networkSim = a.noise) :
    a.redoLoads = true ∧ a.redoNetsim = true ∧ a.redoNoise = true := by
  unfold SimArgs.redoLoads SimArgs.redoNetsim SimArgs.redoNoise
  obtain ⟨h1, h2⟩ := h
  rw [h1, h2]
  cases a.noise <;> simp

namespace Spec

/-- the power flow computes voltages of all nodes for loads in `n` steps -/
def FlowRuns (flow : Net → Controls → Except PyErr SimResult) (net : Net) (n nodes : Nat) : Prop :=
  ∀ c : Controls, c.p.r = n → c.q.r = n → c.p.c = net.load.length → c.q.c = net.load.length →
    ∃ res, flow net c = .ok res ∧ (res.vm.r = n ∧ res.vm.c = nodes) ∧ (res.va.r = n ∧ res.va.c = nodes)

/-- nominal powers of a node without sign -/
def DemandNonneg (b : BusData) : Prop := ∀ p q, b.demand = .sym p q → 0 ≤ p ∧ 0 ≤ q

/-- a node with a load or the connection to the grid -/
def LoadOrConnection (b : BusData) : Prop := b.type = 1 ∨ b.type = 3

end Spec

theorem load_length {bs : List BusData} {ls : Option (List LineData)} {net : Net} {ls' : List LineData}
    (h : Net.netData (some bs) ls = .ok (net, ls')) :
    net.load.length ≤ bs.length ∧ (bs.length ≤ net.load.length ↔ ∀ b ∈ bs, Spec.LoadOrConnection b) := by
  obtain ⟨-, -, hl, -⟩ := netData_tables h
  rw [hl, loadRows_loaded (netData_sym h), List.length_map]
  unfold Spec.loaded
  refine ⟨List.length_filter_le _ _, ?_⟩
  constructor
  · intro hle b hb
    have := List.length_filter_eq_length_iff.1 (le_antisymm (List.length_filter_le _ _) hle) b hb
    simpa [Spec.LoadOrConnection] using this
  · intro hall
    refine (List.length_filter_eq_length_iff.2 (fun b hb => ?_)).symm.le
    simpa [Spec.LoadOrConnection] using hall b hb

/-- a run of which the loads are made completes -/
theorem completes_after_loads {w : SimWorld} {cf : SimConf} {a : SimArgs} (st : Store) (h3 : a.threePhased = false) (hseq : a.sequence = false)
    (hall : a.loads = a.networkSim ∧ a.networkSim = a.noise) (hhid : cf.hidden = [])
    (hpinv : Spec.PinvContract w.pinv) (hsd : 0 ≤ cf.vm ∧ 0 ≤ cf.cm ∧ 0 ≤ cf.vp ∧ 0 ≤ cf.cp) (hsf : 0 ≤ cf.safety)
    (hdays : 0 < cf.days) (hfm : 0 ≤ cf.fmeas) (hsteps : 0 < cf.steps)
    (hN : cf.steps ≤ Spec.rawCount (minuteTimes cf.days) cf.fmeas)
    {net : Net} {bs : List BusData} (hbs : makeNet w a.network = .ok (net, bs)) (h0 : 0 < bs.length)
    (hloads : ∀ b ∈ bs, Spec.LoadOrConnection b) {y : Arr2 ℂ}
    (hy : w.yBus net = .ok y) (hruns : Spec.FlowRuns w.flow net (cf.days * 1440) bs.length)
    (hf : ∀ c res, w.flow net c = .ok res → Spec.PowerFlow bs y res) (hr : Spec.Reducible bs y a.laplacian) {lp : LoadParams}
    (h2 : loadParams w cf a bs = .ok (some lp)) {p q : Arr2 ℝ}
    (h6 : computeLoads w.rng w.z w.files cf.constantness net lp = .ok (p, q, minuteTimes cf.days))
    (hpr : p.r = cf.days * 1440) (hqr : q.r = cf.days * 1440) (hpc : p.c = net.load.length) (hqc : q.c = net.load.length) :
    ∃ d, (simulate w cf a st).res = .ok d := by
  have hnet := hbs
  unfold makeNet at hnet
  obtain ⟨b, hb, hnet⟩ := Prior.bind_ok hnet
  obtain ⟨ls, -, hnet⟩ := Prior.bind_ok hnet
  obtain ⟨⟨net', ls'⟩, hnd, hnet⟩ := Prior.bind_ok hnet
  cases hnet
  obtain ⟨k1, k2, k3⟩ := redo_all hall
  obtain ⟨hle, hge⟩ := load_length hnd
  have hlen : net.load.length = bs.length := le_antisymm hle (hge.2 hloads)
  obtain ⟨res, hres, ⟨m1, m2⟩, m3, m4⟩ := hruns ⟨p, q⟩ hpr hqr hpc hqc
  have hP := hf _ _ hres
  obtain ⟨s, hs, s1, s2, s3, s4⟩ : ∃ s, simCompute w.flow w.yBus net p q = .ok s ∧ s.1.r = cf.days * 1440 ∧ s.1.c = bs.length ∧
      s.2.1.r = cf.days * 1440 ∧ s.2.1.c = bs.length := by
    have e1 : simRun w.flow net p q = .ok res := by
      unfold simRun frame
      rw [if_pos hpc, if_pos hqc]
      exact hres
    obtain ⟨v, hv, vr, vc⟩ : ∃ v, polarVoltage res.vm res.va = .ok v ∧ v.r = cf.days * 1440 ∧ v.c = bs.length :=
      ⟨_, if_pos ⟨by rw [m1, m3], by rw [m2, m4]⟩, m1, m2⟩
    obtain ⟨i, hi⟩ : ∃ i, v.matmul y = .ok i := ⟨_, if_pos (by rw [vc, hP.size.1])⟩
    obtain ⟨-, ir, ic, -⟩ := matmul_entry hi
    refine ⟨(v, i, y), ?_, vr, vc, by rw [ir, vr], by rw [ic, hP.size.2]⟩
    unfold simCompute getCurrentAndVoltage
    simp only [hy, e1, hv, hi, bind, Except.bind, pure, Except.pure]
  have htimes := minuteTimes_times hdays
  have htl : (minuteTimes cf.days).length = cf.days * 1440 := by rw [minuteTimes_length]; ring
  obtain ⟨n, hn⟩ := stage_completes w.z (net := net) htimes hfm hsteps hN hsf (s1.trans htl.symm) (s3.trans htl.symm) (by rw [s2, s4])
    (by rw [s2, hlen]) (p := noiseParams cf a) hsd.1 hsd.2.1 hsd.2.2.1 hsd.2.2.2
  obtain ⟨d, hd, -⟩ := network_exact h3 hseq hhid hpinv hnd h0 hy hf hr hs htimes hn
  exact ⟨d, simulate_run h3 k1 k2 k3 hbs h2 h6 hs hn hd⟩

/-- C116: a run of simulate_network.py that recomputes everything for a single-phase network, with random loads and no hidden nodes
configured, completes if every node has a load or is the connection to the grid, nominal powers, noise levels, safety factor and
measuring frequency are not negative, there is at least one day and at least as many samples as steps, and the power flow
converges. -/
theorem C116 {w : SimWorld} {cf : SimConf} {a : SimArgs} (st : Store) (h3 : a.threePhased = false) (hseq : a.sequence = false)
    (hall : a.loads = a.networkSim ∧ a.networkSim = a.noise) (hg : 0 < a.gaussian) (hhid : cf.hidden = [])
    (hpinv : Spec.PinvContract w.pinv) (hsd : 0 ≤ cf.vm ∧ 0 ≤ cf.cm ∧ 0 ≤ cf.vp ∧ 0 ≤ cf.cp) (hsf : 0 ≤ cf.safety)
    (hdays : 0 < cf.days) (hfm : 0 ≤ cf.fmeas) (hsteps : 0 < cf.steps)
    (hN : cf.steps ≤ Spec.rawCount (minuteTimes cf.days) cf.fmeas)
    {net : Net} {bs : List BusData} (hbs : makeNet w a.network = .ok (net, bs)) (h0 : 0 < bs.length)
    (hloads : ∀ b ∈ bs, Spec.LoadOrConnection b ∧ Spec.DemandNonneg b) {y : Arr2 ℂ}
    (hy : w.yBus net = .ok y) (hruns : Spec.FlowRuns w.flow net (cf.days * 1440) bs.length)
    (hf : ∀ c res, w.flow net c = .ok res → Spec.PowerFlow bs y res) (hr : Spec.Reducible bs y a.laplacian) :
    ∃ d, (simulate w cf a st).res = .ok d := by
  have hnet := hbs
  unfold makeNet at hnet
  obtain ⟨b, hb, hnet⟩ := Prior.bind_ok hnet
  obtain ⟨ls, -, hnet⟩ := Prior.bind_ok hnet
  obtain ⟨⟨net', ls'⟩, hnd, hnet⟩ := Prior.bind_ok hnet
  cases hnet
  obtain ⟨k1, k2, k3⟩ := redo_all hall
  have h2 : loadParams w cf a bs = .ok (some (.gaussian a.gaussian cf.days (constantNodes cf a bs))) := if_pos ⟨k1, hg⟩
  -- loads
  have hpos : ∀ l ∈ net.load, 0 ≤ l.p * a.gaussian ∧ 0 ≤ l.q * a.gaussian := by
    intro l hl
    obtain ⟨-, -, hl', -⟩ := netData_tables hnd
    rw [hl'] at hl
    obtain ⟨b, hb, hl⟩ := List.mem_flatMap.1 hl
    obtain ⟨p, q, hd⟩ := netData_sym hnd b hb
    obtain ⟨hp, hq⟩ := (hloads b hb).2 p q hd
    unfold loadRows at hl
    rw [hd] at hl
    split at hl
    · simp only [List.mem_singleton] at hl
      subst hl
      exact ⟨mul_nonneg hp hg.le, mul_nonneg hq hg.le⟩
    · split at hl
      · simp only [List.mem_singleton] at hl
        subst hl
        simp
      · cases hl
  obtain ⟨⟨p0, q0⟩, h4⟩ := rawLoads_gaussian_exists w.rng w.z w.files net cf.days (constantNodes cf a bs) hpos
  obtain ⟨g1, g2⟩ := rawLoads_gaussian h4
  obtain ⟨-, pr, pc, -⟩ := gaussianLoad_ok g1
  obtain ⟨-, qr, qc, -⟩ := gaussianLoad_ok g2
  have pc' : p0.c = net.load.length := by rw [pc]; simp [nominalP]
  have qc' : q0.c = net.load.length := by rw [qc]; simp [nominalQ]
  obtain ⟨⟨p, q⟩, h5⟩ := blendLoads_exists cf.constantness (constantNodes cf a bs) (net := net) (p := p0) (q := q0) pc'.ge qc'.ge
  obtain ⟨bp, bq⟩ := blendLoads_ok h5
  have h6 : computeLoads w.rng w.z w.files cf.constantness net (.gaussian a.gaussian cf.days (constantNodes cf a bs)) =
      .ok (p, q, minuteTimes cf.days) := by
    unfold computeLoads
    rw [h4]
    show (blendLoads cf.constantness (constantNodes cf a bs) net p0 q0 >>= _) = _
    rw [h5]
    rfl
  have hpr : p.r = cf.days * 1440 := by rw [bp.1, pr]; ring
  have hqr : q.r = cf.days * 1440 := by rw [bq.1, qr]; ring
  have hpc : p.c = net.load.length := by rw [bp.2.1, pc']
  have hqc : q.c = net.load.length := by rw [bq.2.1, qc']
  exact completes_after_loads st h3 hseq hall hhid hpinv hsd hsf hdays hfm hsteps hN hbs h0 (fun b hb => (hloads b hb).1) hy hruns hf hr h2 h6
    hpr hqr hpc hqc

/-- C116, a necessary condition: no run that recomputes the noise completes if some node has neither a load nor the connection -/
theorem C116_needs_loads {w : SimWorld} {cf : SimConf} {a : SimArgs} {st : Store} {d : NetworkData} (hn : Spec.PlainName a.network)
    (h3 : a.threePhased = false) (h : (simulate w cf a st).res = .ok d) (hall : a.loads = a.networkSim ∧ a.networkSim = a.noise)
    {net : Net} {bs : List BusData} (hbs : makeNet w a.network = .ok (net, bs)) {y : Arr2 ℂ} (hy : w.yBus net = .ok y)
    (hf : ∀ c res, w.flow net c = .ok res → Spec.IsSquare bs.length y ∧ res.vm.c = bs.length) : ∀ b ∈ bs, Spec.LoadOrConnection b := by
  obtain ⟨net', bs', l, s, n, hnet, -, -, hs, -, hno, -⟩ := C78_simulate hn h3 h
  obtain ⟨k1, k2, k3⟩ := redo_all hall
  obtain ⟨hs, -⟩ := hs ((redoNetsim_iff a).1 k2)
  obtain ⟨hno, -⟩ := hno ((redoNoise_iff a).1 k3)
  rw [hbs] at hnet
  cases hnet
  unfold makeNet at hbs
  obtain ⟨b, hb, hbs⟩ := Prior.bind_ok hbs
  obtain ⟨ls, -, hbs⟩ := Prior.bind_ok hbs
  obtain ⟨⟨net', ls'⟩, hnd, hbs⟩ := Prior.bind_ok hbs
  cases hbs
  refine (load_length hnd).2.1 ?_
  -- sizes
  unfold simCompute at hs
  rw [hy] at hs
  obtain ⟨y', h1, hs⟩ := Prior.bind_ok hs
  cases h1
  obtain ⟨res, hres, hs⟩ := Prior.bind_ok hs
  obtain ⟨o, ho, hs⟩ := Prior.bind_ok hs
  unfold getCurrentAndVoltage at ho
  obtain ⟨v, hv, ho⟩ := Prior.bind_ok ho
  obtain ⟨y', h1, ho⟩ := Prior.bind_ok ho
  cases h1
  obtain ⟨i, hi, ho⟩ := Prior.bind_ok ho
  cases ho
  cases hs
  unfold simRun at hres
  obtain ⟨p', _, hres⟩ := Prior.bind_ok hres
  obtain ⟨q', _, hres⟩ := Prior.bind_ok hres
  obtain ⟨hsq, hvm⟩ := hf _ _ hres
  have hvc : v.c = bs.length := by
    unfold polarVoltage at hv
    split at hv
    · rw [← Except.ok.inj hv]; exact hvm
    · cases hv
  obtain ⟨-, -, hic, -⟩ := matmul_entry hi
  obtain ⟨-, -, hw⟩ := stage_width hno (show v.c = i.c by rw [hvc, hic, hsq.2])
  have hrat : n.ratings = ratings cf.safety net := by
    unfold addNoiseAndFilter at hno
    obtain ⟨⟨m, ts⟩, -, hno⟩ := Prior.bind_ok hno
    obtain ⟨f, -, hno⟩ := Prior.bind_ok hno
    dsimp only at hno
    split at hno
    · obtain ⟨ts', -, hno⟩ := Prior.bind_ok hno
      obtain ⟨⟨nv, ni, v, i⟩, -, hno⟩ := Prior.bind_ok hno
      cases hno
      rfl
    · obtain ⟨⟨nv, ni, v, i⟩, -, hno⟩ := Prior.bind_ok hno
      cases hno
      rfl
  have hw' : v.c ≤ n.ratings.length := hw
  have hlr : (ratings cf.safety net).length = net.load.length := by
    unfold ratings
    have key : ∀ (l : List Nat) (r : List ℝ), (l.foldl (ratingStep net) r).length = r.length := by
      intro l
      induction l with
      | nil => intro r; rfl
      | cons k l ih => intro r; rw [List.foldl_cons, ih, ratingStep_length]
    rw [key]
    simp [baseRatings]
  rw [hrat, hlr, hvc] at hw'
  exact hw'

end
end Verif
