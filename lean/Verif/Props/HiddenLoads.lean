/-
Identification of a simulated network in which hidden nodes are constant impedances (C140): the estimate without noise is the
network with the impedances connected, the stored reference has them with the opposite sign.
-/
import Verif.Props.HiddenRun

namespace Verif
open Finset Net
noncomputable section

/-! ### the equation of a reduced network on centred data -/

/-- data with constant voltages at the nodes `C` and constant impedances at the nodes `S` satisfy, after centring, the equation of
every matrix that is the network seen from the nodes `K` -/
theorem grounded_centred {y voltage current : Arr2 ℂ} {n : ℕ} (hy : Spec.IsSquare n y) (heq : voltage.matmul y = .ok current) {σ : ℕ → ℂ}
    {C S : Finset ℕ} {K : List ℕ} {red : Arr2 ℂ} (hC : ∀ c ∈ C, c < n) (hS : ∀ k ∈ S, k < n) (hK : ∀ k ∈ K, k < n)
    (hG : Spec.Grounded y σ C S K red) (hconst : ∀ c ∈ C, ∀ t, t < voltage.r → voltage.get t c = voltage.get 0 c)
    (hload : ∀ k ∈ S, ∀ t, t < voltage.r → current.get t k = - (σ k * voltage.get t k)) :
    (centreColumns (Spec.columnsAt voltage K.length (fun j => K.getD j 0))).matmul red =
      .ok (centreColumns (Spec.columnsAt current K.length (fun j => K.getD j 0))) := by
  obtain ⟨hvc, hcr, hcc, -⟩ := matmul_entry heq
  obtain ⟨hrr, hrc, hG⟩ := hG
  have hKlt : ∀ b, b < K.length → K.getD b 0 < n := fun b hb => hK _ (getD_mem hb)
  have hcent : ∀ (m : Arr2 ℂ), m.c = n → ∀ t b, t < m.r → b < K.length →
      (centreColumns (Spec.columnsAt m K.length (fun j => K.getD j 0))).get t b = (centreColumns m).get t (K.getD b 0) := by
    intro m hm t b ht hb
    rw [centre_get (Spec.columnsAt m K.length (fun j => K.getD j 0)) ht hb,
      centre_get m ht (by rw [hm]; exact hKlt b hb)]
    unfold Spec.columnsAt
    rw [Arr2.ofFn_get _ ht hb]
    congr 2
    exact Finset.sum_congr rfl (fun s hs => Arr2.ofFn_get _ (Finset.mem_range.1 hs) hb)
  unfold Arr2.matmul
  rw [if_pos (show (centreColumns (Spec.columnsAt voltage K.length (fun j => K.getD j 0))).c = red.r from hrr.symm)]
  refine congrArg Except.ok ?_
  refine Arr2.ofFn_eq (show current.r = voltage.r from hcr) (show K.length = red.c from hrc.symm) ?_
  intro t b ht hb
  have ht' : t < voltage.r := ht
  rw [hrc] at hb
  have hg := hG (fun k => (centreColumns voltage).get t k) ?_ ?_ b hb
  · rw [hcent current (by rw [hcc, hy.2]) t b (by omega) hb, ← centre_currents heq ht' (by rw [hy.2]; exact hKlt b hb), ← hg]
    unfold Spec.currents
    rw [hrr]
    show ∑ a ∈ range K.length, _ = _
    refine Finset.sum_congr rfl (fun a ha => ?_)
    beta_reduce
    rw [hcent voltage (by rw [hvc, hy.1]) t a ht' (Finset.mem_range.1 ha)]
  · intro c hc
    have hT : (voltage.r : ℂ) ≠ 0 := Nat.cast_ne_zero.2 (by omega)
    show (centreColumns voltage).get t c = 0
    rw [centre_get voltage ht' (by rw [hvc, hy.1]; exact hC c hc),
      Finset.sum_congr rfl (fun s hs => hconst c hc s (Finset.mem_range.1 hs)), Finset.sum_const, Finset.card_range, nsmul_eq_mul,
      mul_div_cancel_left₀ _ hT, hconst c hc t ht', sub_self]
  · intro s hs
    have hsl := hS s hs
    rw [centre_currents heq ht' (by rw [hy.2]; exact hsl), centre_get current (by omega) (by rw [hcc, hy.2]; exact hsl), hcr,
      Finset.sum_congr rfl (fun r hr => hload s hs r (Finset.mem_range.1 hr)), hload s hs t ht']
    beta_reduce
    rw [centre_get voltage ht' (by rw [hvc, hy.1]; exact hsl), Finset.sum_neg_distrib, ← Finset.mul_sum]
    ring

/-! ### identification of stored data -/

/-- the standard methods return the matrix whose equation the stored noisy data satisfy after centring -/
theorem identify_estimate {ext : NumExt} {ic : IdConf} (hl : 0 ≤ ic.lambdaLasso) (hinv : Spec.InvContract ext.inv)
    (hex : Spec.Exact ext.solve) (htot : Spec.Total ext.solve) (hpinv' : Spec.PinvContract ext.pinv)
    (hsvd : Spec.SvdContract ext.svdVh) {sc : SimConf} {b : IdArgs} {st : Store} {d : NetworkData} (hn : Spec.PlainName b.network)
    (h3 : b.threePhased = false) (hst : st (resultFile .network b.network) = some (networkNpz d)) (hids : ∀ x ∈ d.ids, x = 1)
    {E : Arr2 ℂ} (hsq : E.r = E.c)
    (heq : (centreData b.laplacian d.noisyVoltage d.noisyCurrent).1.matmul E = .ok (centreData b.laplacian d.noisyVoltage d.noisyCurrent).2)
    (hrank : Spec.FullColumnRank (centreData b.laplacian d.noisyVoltage d.noisyCurrent).1)
    (hstd : Spec.Redone b.standard [b.standard, b.bayesian])
    {r : (Arr2 ℂ × Arr2 ℂ × Arr2 ℂ) × (Arr2 ℂ × List IterationStatus)} (hid : (identify ext ic sc b st).res = .ok r) :
    r.1.1 = E ∧ r.1.2.1 = E := by
  obtain ⟨d', y0, ⟨all, hload, hsel⟩, -, hs1, -, -, -, href⟩ := C78_identify hn h3 hid
  have hall' : all = d := by
    have := C49_network b.network d st (h := []) ⟨hn, by simp⟩
    have e : st.savez (resultFile .network b.network) (networkNpz d) = st := by
      funext f
      by_cases hfn : f = resultFile .network b.network
      · subst hfn; rw [hst]; simp [Store.savez]
      · simp [Store.savez, hfn]
    rw [e] at this
    exact Except.ok.inj (hload.symm.trans this)
  subst hall'
  have hd' : d' = all := by
    unfold selectPhase at hsel
    rw [if_neg] at hsel
    · exact (Except.ok.inj hsel).symm
    · rintro ⟨-, x, hx, hx1⟩
      exact hx1 (hids x hx)
  subst hd'
  obtain ⟨hcomp, hfile⟩ := hs1 hstd
  obtain ⟨-, hrows, -⟩ := matmul_entry heq
  obtain ⟨vh, hs, hvh⟩ := hsvd _
  obtain ⟨L, hL, -⟩ := standard_centred ext ic hl hinv hex htot hpinv' hsq heq hrank (if_pos hrows.symm) hs hvh b.maxIter
  rw [hL] at hcomp
  have hr1 := (Except.ok.inj hcomp).symm
  exact ⟨by rw [hr1], by rw [hr1]⟩

/-! ### hidden constant impedances -/

namespace Spec

/-- the power flow draws at every hidden node, other than a grid connection, the current of the admittance `s` -/
def ConstantImpedance (bs : List BusData) (hidden : List Int) (y : Arr2 ℂ) (s : ℕ → ℂ) (res : SimResult) : Prop :=
  ∀ k ∈ labelled bs hidden \ connections bs, ∀ t < res.vm.r,
    currents y (fun j => phasor (res.vm.get t j) (res.va.get t j)) k = - (s k * phasor (res.vm.get t k) (res.va.get t k))

/-- the admittances connected at the hidden nodes -/
def hiddenShunt (bs : List BusData) (hidden : List Int) (s : ℕ → ℂ) (k : ℕ) : ℂ := if k ∈ labelled bs hidden \ connections bs then s k else 0

/-- the nodes eliminated from the matrix, apart from the grid connections -/
def eliminated (bs : List BusData) (hidden : List Int) : Finset ℕ := (labelled bs hidden ∪ passive bs 0) \ connections bs

end Spec

/-- what the simulation computes from the power flow -/
theorem sim_entries {flow : Net → Controls → Except PyErr SimResult} {yBus : Net → Except PyErr (Arr2 ℂ)} {net : Net} {p q : Arr2 ℝ}
    {s : Arr2 ℂ × Arr2 ℂ × Arr2 ℂ} (h : simCompute flow yBus net p q = .ok s) :
    ∃ c res, flow net c = .ok res ∧ s.1.r = res.vm.r ∧ s.1.c = res.vm.c ∧
      ∀ t j, t < s.1.r → j < s.1.c → s.1.get t j = Spec.phasor (res.vm.get t j) (res.va.get t j) := by
  unfold simCompute at h
  obtain ⟨y', -, h⟩ := Prior.bind_ok h
  obtain ⟨res, hres, h⟩ := Prior.bind_ok h
  obtain ⟨o, ho, h⟩ := Prior.bind_ok h
  unfold simRun at hres
  obtain ⟨p', _, hres⟩ := Prior.bind_ok hres
  obtain ⟨q', _, hres⟩ := Prior.bind_ok hres
  unfold getCurrentAndVoltage at ho
  obtain ⟨v, hv, ho⟩ := Prior.bind_ok ho
  obtain ⟨y'', -, ho⟩ := Prior.bind_ok ho
  obtain ⟨i, hi, ho⟩ := Prior.bind_ok ho
  cases ho
  cases h
  unfold polarVoltage at hv
  split at hv
  · cases hv
    exact ⟨_, _, hres, rfl, rfl, fun t j ht hj => (Arr2.ofFn_get _ ht hj).trans (polar_phasor _ _)⟩
  · cases hv

/-- what the last stage returns for a single-phase network -/
theorem networkData_parts {w : SimWorld} {a : SimArgs} (h3 : a.threePhased = false) (hseq : a.sequence = false) {net : Net} {y : Arr2 ℂ}
    (hy : w.yBus net = .ok y) {hidden : List Int} {n : NoiseResult} {d : NetworkData} (h : networkData w a net hidden n = .ok d) :
    ∃ todel, reduceNetwork w.pinv net y n.voltage n.current hidden a.laplacian = .ok (todel, d.y) ∧
      n.noisyVoltage.deleteCols todel = .ok d.noisyVoltage ∧ n.noisyCurrent.deleteCols todel = .ok d.noisyCurrent ∧
      n.voltage.deleteCols todel = .ok d.voltage ∧ n.current.deleteCols todel = .ok d.current ∧ ∀ x ∈ d.ids, x = 1 := by
  unfold networkData at h
  obtain ⟨⟨todel, red⟩, hr, h⟩ := Prior.bind_ok h
  obtain ⟨d', hdr, h⟩ := Prior.bind_ok h
  rw [hseq] at h
  cases h
  unfold reduction at hr
  rw [h3] at hr
  obtain ⟨yb, hyb, hr⟩ := Prior.bind_ok hr
  rw [hy] at hyb
  cases hyb
  unfold dropReduced at hdr
  obtain ⟨nv, e1, hdr⟩ := Prior.bind_ok hdr
  obtain ⟨ni, e2, hdr⟩ := Prior.bind_ok hdr
  obtain ⟨v, e3, hdr⟩ := Prior.bind_ok hdr
  obtain ⟨i, e4, hdr⟩ := Prior.bind_ok hdr
  obtain ⟨r, -, hdr⟩ := Prior.bind_ok hdr
  obtain ⟨ids, e6, hdr⟩ := Prior.bind_ok hdr
  cases hdr
  refine ⟨todel, hr, e1, e2, e3, e4, ?_⟩
  rw [h3] at e6
  simp only [Bool.false_eq_true, if_false] at e6
  unfold deleteEntries at e6
  split at e6
  · intro x hx
    rw [← Except.ok.inj e6] at hx
    obtain ⟨k, hk, rfl⟩ := List.mem_map.1 hx
    have hk' : k < (tileList [1] net.bus.length).length := by
      unfold Arr2.keepIdx at hk
      exact List.mem_range.1 (List.mem_filter.1 hk).1
    have hall1 : ∀ x ∈ tileList [1] net.bus.length, x = 1 := by
      intro x hx
      unfold tileList at hx
      obtain ⟨l, hl, hx⟩ := List.mem_flatten.1 hx
      rw [List.eq_of_mem_replicate hl] at hx
      simpa using hx
    refine hall1 _ ?_
    rw [List.getD_eq_getElem _ _ hk']
    exact List.getElem_mem hk'
  · cases e6

set_option maxHeartbeats 1000000 in
/-- simulated data with hidden constant impedances: the stored matrix is the network in which the admittances are connected with the
opposite sign, the stored data satisfy the equation of the network in which they are connected -/
theorem C140_data {w : SimWorld} {cf : SimConf} {a : SimArgs} {st : Store} {d : NetworkData} (hn : Spec.PlainName a.network)
    (h3 : a.threePhased = false) (hseq : a.sequence = false) (hlap : a.laplacian = false) (h : (simulate w cf a st).res = .ok d)
    (hall : a.loads = a.networkSim ∧ a.networkSim = a.noise) (hsd : cf.vm = 0 ∧ cf.cm = 0 ∧ cf.vp = 0 ∧ cf.cp = 0)
    (hpinv : Spec.PinvContract w.pinv) {net : Net} {bs : List BusData} (hbs : makeNet w a.network = .ok (net, bs)) (h0 : 0 < bs.length)
    {y : Arr2 ℂ} (hy : w.yBus net = .ok y) (hf : ∀ c res, w.flow net c = .ok res → Spec.PowerFlow bs y res) {s : ℕ → ℂ}
    (hs : ∀ c res, w.flow net c = .ok res → Spec.ConstantImpedance bs cf.hidden y s res)
    (hup : ∀ c res, w.flow net c = .ok res → Spec.Upright res)
    (hlast : ∀ k ∈ Spec.eliminated bs cf.hidden, ∀ c ∈ Spec.connections bs, k < c)
    (hfew : bs.length - (Spec.connections bs).card ≤ 8 ∨
      3 * (bs.length - (Spec.connections bs).card) ≤ 5 * (bs.length - (Spec.eliminated bs cf.hidden ∪ Spec.connections bs).card))
    (hns : Spec.BlockNonsingular (Spec.withShunts y (Spec.hiddenShunt bs cf.hidden s)) (Spec.eliminated bs cf.hidden))
    (hns' : Spec.BlockNonsingular (Spec.withShunts y (Spec.hiddenShunt bs cf.hidden (fun k => - s k))) (Spec.eliminated bs cf.hidden)) :
    ∃ K, Spec.Lists bs.length (Spec.eliminated bs cf.hidden ∪ Spec.connections bs) K ∧ K.Pairwise (· < ·) ∧
      (∃ E, Spec.Grounded y (Spec.hiddenShunt bs cf.hidden s) (Spec.connections bs) (Spec.eliminated bs cf.hidden) K E) ∧
      Spec.Grounded y (Spec.hiddenShunt bs cf.hidden (fun k => - s k)) (Spec.connections bs) (Spec.eliminated bs cf.hidden) K d.y ∧
      (∀ E, Spec.Grounded y (Spec.hiddenShunt bs cf.hidden s) (Spec.connections bs) (Spec.eliminated bs cf.hidden) K E →
        (centreColumns d.noisyVoltage).matmul E = .ok (centreColumns d.noisyCurrent)) ∧
      (∃ l sim n, addNoiseAndFilter w.z net (Prod.fst sim) (Prod.snd sim).1 (minuteTimes cf.days) cf.fmeas cf.steps
          ⟨cf.vm, cf.cm, cf.vp, cf.cp, a.equivalent⟩ cf.safety = .ok n ∧ simCompute w.flow w.yBus net (Prod.fst l) (Prod.snd l) = .ok sim ∧
          d.voltage = Spec.columnsAt n.voltage K.length (fun j => K.getD j 0)) ∧
      d.noisyVoltage = d.voltage ∧ d.noisyCurrent = d.current ∧ (∀ x ∈ d.ids, x = 1) ∧
      (simulate w cf a st).store (resultFile .network a.network) = some (networkNpz d) := by
  classical
  obtain ⟨net', bs', l, sim, n, hnet, hl, -, hsim, -, hno, -, hd, hst⟩ := C78_simulate hn h3 h
  rw [hbs] at hnet
  cases hnet
  have hR : Spec.Redone a.loads [a.loads, a.networkSim, a.noise] := by
    obtain ⟨e1, e2⟩ := hall
    cases hb : a.noise
    · right
      intro f hf
      rw [e1, e2, hb] at hf
      simpa using hf
    · left
      rw [e1, e2, hb]
  obtain ⟨⟨lp, hreq, hlp⟩, -⟩ := hl hR
  obtain ⟨hsim, -⟩ := hsim (by rw [← hall.1]; rw [← hall.1] at hR; exact hR)
  obtain ⟨hno, -⟩ := hno (by rw [← hall.2, ← hall.1]; rw [← hall.2, ← hall.1] at hR; exact hR)
  obtain ⟨-, ls, ls', hnd⟩ := makeNet_data hbs
  obtain ⟨hnn, -⟩ := netData_tables hnd
  have htm : l.2.2 = minuteTimes cf.days := by
    unfold computeLoads at hlp
    obtain ⟨⟨p, q⟩, -, hlp⟩ := Prior.bind_ok hlp
    obtain ⟨⟨p', q'⟩, -, hlp⟩ := Prior.bind_ok hlp
    rw [← Except.ok.inj hlp]
    have hdays : lp.days = cf.days := by rcases hreq with ⟨-, rfl⟩ | ⟨-, -, -, rfl⟩ <;> rfl
    rw [← hdays]
  have ht : Spec.Times l.2.2 := by
    rw [htm] at hno ⊢
    refine minuteTimes_times (Nat.pos_of_ne_zero fun hd0 => ?_)
    unfold addNoiseAndFilter rawTimes at hno
    simp only [hd0, minuteTimes] at hno
    cases hno
  -- the simulated data
  obtain ⟨x1, x2, x3, x4, x5⟩ := sim_exact hsim hy hf
  obtain ⟨c, res, hres, q1, q2, q3⟩ := sim_entries hsim
  obtain ⟨m1, m2, m3, m4⟩ := matmul_entry x1
  have hvc : sim.1.c = sim.2.1.c := by rw [m3, x2, x3.2]
  obtain ⟨e0, R, W, hW, hWp, hAv, hAi⟩ := stage_weights hno ht hvc (by rw [x2]; exact h0)
  have heq := hAv.matmul hAi x1
  obtain ⟨-, -, -, hrows, -⟩ := C86_single hno
  obtain ⟨hst0, -⟩ := C86_single hno
  have hvcol : n.voltage.c = bs.length := by rw [hAv.cols, x2]
  have hicol : n.current.c = bs.length := by rw [hAi.cols, ← hvc, x2]
  have hconst : ∀ c ∈ Spec.connections bs, ∀ t, t < n.voltage.r → n.voltage.get t c = n.voltage.get 0 c := by
    intro c hc t ht'
    have hk := hAv.const hW (j := c) (by rw [x2]; exact connections_lt hc) (fun t ht => x4 c hc t ht)
    rw [hk t ht', hk 0 (lt_of_le_of_lt (Nat.zero_le _) ht')]
  have hpas : ∀ k ∈ Spec.passive bs 0, ∀ t, t < n.voltage.r → n.current.get t k = 0 := by
    intro k hk t ht'
    refine hAi.const hW (j := k) (by rw [← hvc, x2]; exact passive_lt hk) (fun t ht => x5 k hk t (by rw [← m2]; exact ht)) t ?_
    rw [hAi.rows, ← hAv.rows]; exact ht'
  have hhid : ∀ k ∈ Spec.labelled bs cf.hidden \ Spec.connections bs, ∀ t, t < n.voltage.r →
      n.current.get t k = - (s k * n.voltage.get t k) := by
    intro k hk t ht'
    have hkl := labelled_lt (Finset.mem_sdiff.1 hk).1
    have htR : t < R := by rw [← hAv.rows]; exact ht'
    rw [hAi.get t k htR (by rw [← hvc, x2]; exact hkl), hAv.get t k htR (by rw [x2]; exact hkl), Finset.mul_sum, ← Finset.sum_neg_distrib]
    refine Finset.sum_congr rfl fun u hu => ?_
    have hu' : u < sim.1.r := by rw [hAv.orig]; exact Finset.mem_range.1 hu
    have : sim.2.1.get u k = - (s k * sim.1.get u k) := by
      rw [m4 u k hu' (by rw [x3.2]; exact hkl), q3 u k hu' (by rw [x2]; exact hkl), ← hs c res hres k hk u (by rw [← q1]; exact hu')]
      unfold Spec.currents
      rw [x2, x3.1]
      exact Finset.sum_congr rfl (fun j hj => by rw [q3 u j hu' (by rw [x2]; exact Finset.mem_range.1 hj)])
    rw [this]
    ring
  have hmean : ∀ k < bs.length, colMean n.voltage k ≠ 0 := by
    intro k hk
    refine colMean_ne_zero (by omega) ?_
    rw [hAv.rows]
    refine hAv.re_pos hW hWp (by rw [x2]; exact hk) ?_
    intro t ht
    have ht' : t < sim.1.r := by rw [hAv.orig]; exact ht
    obtain ⟨u1, u2, u3⟩ := hup _ _ hres t (by rw [← q1]; exact ht') k (by rw [← q2, x2]; exact hk)
    rw [q3 t k ht' (by rw [x2]; exact hk)]
    exact phasor_re_pos u1 u2 u3
  -- the sets
  have hlab : Spec.labelled bs (hiddenNodes cf a bs) = Spec.labelled bs cf.hidden ∪ Spec.connections bs := by
    ext k
    unfold hiddenNodes
    rw [hlap, h3]
    simp only [Bool.not_false, Bool.and_self, if_true]
    rw [Finset.mem_union, ← labelled_pcc hnn]
    unfold Spec.labelled
    simp only [Finset.mem_filter, List.mem_append]
    constructor
    · rintro ⟨h1, b, hb, h2 | h2⟩
      · exact Or.inl ⟨h1, b, hb, h2⟩
      · exact Or.inr ⟨h1, b, hb, h2⟩
    · rintro (⟨h1, b, hb, h2⟩ | ⟨h1, b, hb, h2⟩)
      · exact ⟨h1, b, hb, Or.inl h2⟩
      · exact ⟨h1, b, hb, Or.inr h2⟩
  have hel : (Spec.labelled bs (hiddenNodes cf a bs) ∪ Spec.passive bs 0) \ Spec.connections bs = Spec.eliminated bs cf.hidden := by
    ext k
    unfold Spec.eliminated
    rw [hlab]
    simp only [Finset.mem_sdiff, Finset.mem_union]
    tauto
  have hun : Spec.labelled bs (hiddenNodes cf a bs) ∪ Spec.passive bs 0 = Spec.eliminated bs cf.hidden ∪ Spec.connections bs := by
    ext k
    unfold Spec.eliminated
    rw [hlab]
    simp only [Finset.mem_sdiff, Finset.mem_union]
    tauto
  have hun' : Spec.labelled bs (hiddenNodes cf a bs) ∪ Spec.passive bs 0 ∪ Spec.connections bs =
      Spec.eliminated bs cf.hidden ∪ Spec.connections bs := by
    rw [hun, Finset.union_assoc, Finset.union_self]
  have hsd' : Spec.labelled bs (hiddenNodes cf a bs) \ Spec.connections bs = Spec.labelled bs cf.hidden \ Spec.connections bs := by
    rw [hlab, Finset.union_sdiff_right]
  have hrank : ∀ k ∈ Spec.labelled bs cf.hidden \ Spec.connections bs, Spec.rank (Spec.connections bs) k = k := by
    intro k hk
    refine rank_before fun c hc hck => ?_
    have := hlast k (by
      unfold Spec.eliminated
      rw [Finset.mem_sdiff] at hk ⊢
      exact ⟨Finset.mem_union_left _ hk.1, hk.2⟩) c hc
    omega
  have hfar : ∀ k ∈ Spec.labelled bs (hiddenNodes cf a bs) ∪ Spec.passive bs 0, ∀ c ∈ Spec.connections bs, c < k →
      c + (Spec.connections bs).card < k ∨ k ∈ Spec.connections bs := by
    intro k hk c hc hck
    by_cases hkc : k ∈ Spec.connections bs
    · exact Or.inr hkc
    · have := hlast k (by rw [← hel]; exact Finset.mem_sdiff.2 ⟨hk, hkc⟩) c hc
      omega
  obtain ⟨todel, hr, d1, d2, d3, d4, d5⟩ := networkData_parts h3 hseq hy hd
  rw [hlap] at hr
  have hid : ∀ b ∈ hiddenNodes cf a bs, b ∈ bs.map BusData.id := by
    obtain ⟨bs', hb', hk⟩ := C137_known hn h
    rw [h3] at hb'
    simp only [Bool.false_eq_true, if_false] at hb'
    rw [(makeNet_data hbs).1] at hb'
    cases hb'
    intro b hb
    unfold hiddenNodes at hb
    split at hb
    · rcases List.mem_append.1 hb with hb | hb
      · exact hk b hb
      · obtain ⟨c, hc, rfl⟩ := List.mem_map.1 hb
        exact List.mem_map_of_mem (List.mem_filter.1 hc).1
    · exact hk b hb
  have hmean' : ∀ k ∈ Spec.labelled bs (hiddenNodes cf a bs) \ Spec.connections bs,
      colMean n.voltage (Spec.rank (Spec.connections bs) k) ≠ 0 := by
    intro k hk
    rw [hsd'] at hk
    rw [hrank k hk]
    exact hmean k (labelled_lt (Finset.mem_sdiff.1 hk).1)
  -- the admittances used with the currents and with their opposites
  have hused : ∀ (ε : ℂ) (cur : Arr2 ℂ), cur.r = n.current.r → (∀ t k, t < n.current.r → k < bs.length → cur.get t k = ε * n.current.get t k) →
      usedShunt bs n.voltage cur (hiddenNodes cf a bs) = Spec.hiddenShunt bs cf.hidden (fun k => - (ε * s k)) := by
    intro ε cur hcr hcur
    funext k
    unfold usedShunt Spec.hiddenShunt
    by_cases hk : k ∈ Spec.labelled bs cf.hidden \ Spec.connections bs
    · have hkl := labelled_lt (Finset.mem_sdiff.1 hk).1
      have hk2 := hk
      rw [← hsd', Finset.mem_sdiff] at hk2
      rw [if_pos hk2, if_pos hk, hrank k hk]
      unfold shuntAt
      rw [div_eq_iff (hmean k hkl)]
      unfold colMean
      have hrr : n.current.r = n.voltage.r := by rw [hAi.rows, hAv.rows]
      rw [hcr, hrr, Finset.sum_congr rfl (fun t ht => by
        rw [hcur t k (by rw [hrr]; exact Finset.mem_range.1 ht) hkl, hhid k hk t (Finset.mem_range.1 ht)]),
        ← Finset.mul_sum, Finset.sum_neg_distrib, ← Finset.mul_sum]
      ring
    · have hk2 := hk
      rw [← hsd', Finset.mem_sdiff] at hk2
      rw [if_neg hk2, if_neg hk]
  have hu1 : usedShunt bs n.voltage n.current (hiddenNodes cf a bs) = Spec.hiddenShunt bs cf.hidden (fun k => - s k) := by
    rw [hused 1 n.current rfl (fun t k _ _ => by rw [one_mul])]
    simp only [one_mul]
  set cur := Arr2.ofFn n.current.r n.current.c (fun t k => - n.current.get t k) with hcur
  have hu2 : usedShunt bs n.voltage cur (hiddenNodes cf a bs) = Spec.hiddenShunt bs cf.hidden s := by
    rw [hused (-1) cur rfl (fun t k ht hk => by rw [hcur, Arr2.ofFn_get _ ht (by rw [hicol]; exact hk)]; ring)]
    congr 1
    funext k
    ring
  obtain ⟨t1, r1, K1, g1, g2, g3, g4, g5⟩ := C58_partial hnd hpinv (voltage := n.voltage) (current := n.current) x3.1 x3.2 hvcol hicol hid
    hfar hmean' (by rw [hu1, hel]; exact hns')
  obtain ⟨t2, E, K2, f1, f2, f3, f4, f5⟩ := C58_partial hnd hpinv (voltage := n.voltage) (current := cur) x3.1 x3.2 hvcol hicol hid
    hfar hmean' (by rw [hu2, hel]; exact hns)
  rw [hr] at g1
  obtain ⟨rfl, rfl⟩ := Prod.mk.inj (Except.ok.inj g1)
  rw [hun'] at g3 f3
  rw [hu1, hel] at g4
  rw [hu2, hel] at f4
  have hlt : ∀ k ∈ Spec.eliminated bs cf.hidden ∪ Spec.connections bs, k < bs.length := by
    intro k hk
    rcases Finset.mem_union.1 hk with hk | hk
    · rcases Finset.mem_union.1 (Finset.mem_sdiff.1 hk).1 with hk | hk
      · exact labelled_lt hk
      · exact passive_lt hk
    · exact connections_lt hk
  have hsz : ∀ {K : List ℕ}, Spec.Lists bs.length (Spec.eliminated bs cf.hidden ∪ Spec.connections bs) K →
      (bs.length - (Spec.connections bs).card ≤ 8 ∨ 3 * (bs.length - (Spec.connections bs).card) ≤ 5 * K.length) := by
    intro K hK
    have := lists_length hlt hK
    rcases hfew with h | h
    · exact Or.inl h
    · right
      rw [show K.length = bs.length - (Spec.eliminated bs cf.hidden ∪ Spec.connections bs).card by omega]
      exact h
  have hK12 : K1 = K2 := lists_unique g3 f3 (g5 (hsz g3)) (f5 (hsz f3))
  subst hK12
  have htf : todel.toFinset = Spec.eliminated bs cf.hidden ∪ Spec.connections bs := by
    ext k; rw [List.mem_toFinset, g2, hun]
  have hKk : Arr2.keepIdx bs.length todel = K1 := by
    have hk := lists_keep bs.length todel
    rw [htf] at hk
    exact lists_unique hk g3 (PySet.kept_sorted bs.length todel) (g5 (hsz g3))
  have hcols : ∀ {m m' : Arr2 ℂ}, m.c = bs.length → m.deleteCols todel = .ok m' → m' = Spec.columnsAt m K1.length (fun j => K1.getD j 0) := by
    intro m m' hm hdel
    unfold Arr2.deleteCols at hdel
    split at hdel
    · rw [hm, hKk] at hdel
      exact (Except.ok.inj hdel).symm
    · cases hdel
  obtain ⟨z1, z2⟩ := e0 hsd.1 hsd.2.1 hsd.2.2.1 hsd.2.2.2
  rw [z1] at d1
  rw [z2] at d2
  have e1 : d.noisyVoltage = d.voltage := Except.ok.inj (d1.symm.trans d3)
  have e2 : d.noisyCurrent = d.current := Except.ok.inj (d2.symm.trans d4)
  refine ⟨K1, g3, g5 (hsz g3), ⟨E, f4⟩, g4, ?_, ⟨(l.1, l.2.1), sim, n, by rw [← htm]; exact hno, hsim, hcols hvcol d3⟩, e1, e2, d5, hst⟩
  intro E f4
  rw [hcols hvcol d1, hcols hicol d2]
  refine grounded_centred x3 heq (fun c hc => connections_lt hc) (fun k hk => hlt k (Finset.mem_union_left _ hk))
    (fun k hk => ((g3.2 k).1 hk).1) f4 hconst ?_
  intro k hk t ht'
  unfold Spec.hiddenShunt
  split
  · rename_i hk'
    exact hhid k hk' t ht'
  · rename_i hk'
    unfold Spec.eliminated at hk
    rw [Finset.mem_sdiff, Finset.mem_union] at hk
    rcases hk.1 with h1 | h1
    · exact absurd (Finset.mem_sdiff.2 ⟨h1, hk.2⟩) hk'
    · rw [hpas k h1 t ht']
      simp

/-- C140: simulate_network.py without noise for a single-phase network in which the hidden nodes draw constant admittances `s`, then
identify_network.py, both without Laplacian: the least squares and the total least squares estimates are the network seen from the
stored nodes with `s` connected at the hidden nodes; the stored reference is the one with `-s` -/
theorem C140_estimate {w : SimWorld} {cf : SimConf} {a : SimArgs} {st : Store} {d : NetworkData} (hn : Spec.PlainName a.network)
    (h3 : a.threePhased = false) (hseq : a.sequence = false) (hlap : a.laplacian = false) (h : (simulate w cf a st).res = .ok d)
    (hall : a.loads = a.networkSim ∧ a.networkSim = a.noise) (hsd : cf.vm = 0 ∧ cf.cm = 0 ∧ cf.vp = 0 ∧ cf.cp = 0)
    (hpinv : Spec.PinvContract w.pinv) {net : Net} {bs : List BusData} (hbs : makeNet w a.network = .ok (net, bs)) (h0 : 0 < bs.length)
    {y : Arr2 ℂ} (hy : w.yBus net = .ok y) (hf : ∀ c res, w.flow net c = .ok res → Spec.PowerFlow bs y res) {s : ℕ → ℂ}
    (hs : ∀ c res, w.flow net c = .ok res → Spec.ConstantImpedance bs cf.hidden y s res)
    (hup : ∀ c res, w.flow net c = .ok res → Spec.Upright res)
    (hlast : ∀ k ∈ Spec.eliminated bs cf.hidden, ∀ c ∈ Spec.connections bs, k < c)
    (hfew : bs.length - (Spec.connections bs).card ≤ 8 ∨
      3 * (bs.length - (Spec.connections bs).card) ≤ 5 * (bs.length - (Spec.eliminated bs cf.hidden ∪ Spec.connections bs).card))
    (hns : Spec.BlockNonsingular (Spec.withShunts y (Spec.hiddenShunt bs cf.hidden s)) (Spec.eliminated bs cf.hidden))
    (hns' : Spec.BlockNonsingular (Spec.withShunts y (Spec.hiddenShunt bs cf.hidden (fun k => - s k))) (Spec.eliminated bs cf.hidden))
    {ext : NumExt} {ic : IdConf} (hl : 0 ≤ ic.lambdaLasso) (hinv : Spec.InvContract ext.inv)
    (hex : Spec.Exact ext.solve) (htot : Spec.Total ext.solve) (hpinv' : Spec.PinvContract ext.pinv)
    (hsvd : Spec.SvdContract ext.svdVh) (hrank : Spec.FullColumnRank (centreColumns d.voltage)) {sc : SimConf}
    {b : IdArgs} (hb : b.network = a.network ∧ b.threePhased = false ∧ b.laplacian = false)
    (hstd : Spec.Redone b.standard [b.standard, b.bayesian])
    {r : (Arr2 ℂ × Arr2 ℂ × Arr2 ℂ) × (Arr2 ℂ × List IterationStatus)}
    (hid : (identify ext ic sc b (simulate w cf a st).store).res = .ok r) :
    ∃ K, Spec.Lists bs.length (Spec.eliminated bs cf.hidden ∪ Spec.connections bs) K ∧ K.Pairwise (· < ·) ∧
      Spec.Grounded y (Spec.hiddenShunt bs cf.hidden s) (Spec.connections bs) (Spec.eliminated bs cf.hidden) K r.1.1 ∧ r.1.2.1 = r.1.1 ∧
      Spec.Grounded y (Spec.hiddenShunt bs cf.hidden (fun k => - s k)) (Spec.connections bs) (Spec.eliminated bs cf.hidden) K d.y := by
  obtain ⟨K, k1, k2, ⟨E, hE⟩, k4, k5, -, e1, e2, e3, hst⟩ := C140_data hn h3 hseq hlap h hall hsd hpinv hbs h0 hy hf hs hup hlast hfew hns hns'
  obtain ⟨hb1, hb3, hbl⟩ := hb
  have hc : centreData b.laplacian d.noisyVoltage d.noisyCurrent = (centreColumns d.noisyVoltage, centreColumns d.noisyCurrent) := by
    rw [hbl]; rfl
  obtain ⟨r1, r2⟩ := identify_estimate hl hinv hex htot hpinv' hsvd (by rw [hb1]; exact hn) hb3 (by rw [hb1]; exact hst) e3
    (hE.1.trans hE.2.1.symm) (by rw [hc]; exact k5 E hE) (by rw [hc, e1]; exact hrank) hstd hid
  exact ⟨K, k1, k2, by rw [r1]; exact hE, by rw [r1, r2], k4⟩

/-- C140, partial: if the hidden nodes draw no current the estimates are the stored reference -/
theorem C140_partial {w : SimWorld} {cf : SimConf} {a : SimArgs} {st : Store} {d : NetworkData} (hn : Spec.PlainName a.network)
    (h3 : a.threePhased = false) (hseq : a.sequence = false) (hlap : a.laplacian = false) (h : (simulate w cf a st).res = .ok d)
    (hall : a.loads = a.networkSim ∧ a.networkSim = a.noise) (hsd : cf.vm = 0 ∧ cf.cm = 0 ∧ cf.vp = 0 ∧ cf.cp = 0)
    (hpinv : Spec.PinvContract w.pinv) {net : Net} {bs : List BusData} (hbs : makeNet w a.network = .ok (net, bs)) (h0 : 0 < bs.length)
    {y : Arr2 ℂ} (hy : w.yBus net = .ok y) (hf : ∀ c res, w.flow net c = .ok res → Spec.PowerFlow bs y res)
    (hs : ∀ c res, w.flow net c = .ok res → Spec.ConstantImpedance bs cf.hidden y (fun _ => 0) res)
    (hup : ∀ c res, w.flow net c = .ok res → Spec.Upright res)
    (hlast : ∀ k ∈ Spec.eliminated bs cf.hidden, ∀ c ∈ Spec.connections bs, k < c)
    (hfew : bs.length - (Spec.connections bs).card ≤ 8 ∨
      3 * (bs.length - (Spec.connections bs).card) ≤ 5 * (bs.length - (Spec.eliminated bs cf.hidden ∪ Spec.connections bs).card))
    (hns : Spec.BlockNonsingular (Spec.withShunts y (fun _ => 0)) (Spec.eliminated bs cf.hidden))
    {ext : NumExt} {ic : IdConf} (hl : 0 ≤ ic.lambdaLasso) (hinv : Spec.InvContract ext.inv)
    (hex : Spec.Exact ext.solve) (htot : Spec.Total ext.solve) (hpinv' : Spec.PinvContract ext.pinv)
    (hsvd : Spec.SvdContract ext.svdVh) (hrank : Spec.FullColumnRank (centreColumns d.voltage)) {sc : SimConf}
    {b : IdArgs} (hb : b.network = a.network ∧ b.threePhased = false ∧ b.laplacian = false)
    (hstd : Spec.Redone b.standard [b.standard, b.bayesian])
    {r : (Arr2 ℂ × Arr2 ℂ × Arr2 ℂ) × (Arr2 ℂ × List IterationStatus)}
    (hid : (identify ext ic sc b (simulate w cf a st).store).res = .ok r) : r.1.1 = d.y ∧ r.1.2.1 = d.y := by
  have hz : Spec.hiddenShunt bs cf.hidden (fun _ => 0) = fun _ => 0 := by
    funext k; unfold Spec.hiddenShunt; split <;> rfl
  have hz' : Spec.hiddenShunt bs cf.hidden (fun k => - (fun _ => (0 : ℂ)) k) = fun _ => 0 := by
    funext k; unfold Spec.hiddenShunt; split <;> simp
  obtain ⟨K, k1, k2, -, k4, k5, -, e1, e2, e3, hst⟩ := C140_data hn h3 hseq hlap h hall hsd hpinv hbs h0 hy hf hs hup hlast hfew
    (by rw [hz]; exact hns) (by rw [hz']; exact hns)
  obtain ⟨hb1, hb3, hbl⟩ := hb
  have hc : centreData b.laplacian d.noisyVoltage d.noisyCurrent = (centreColumns d.noisyVoltage, centreColumns d.noisyCurrent) := by
    rw [hbl]; rfl
  rw [hz'] at k4
  rw [hz] at k5
  exact identify_estimate hl hinv hex htot hpinv' hsvd (by rw [hb1]; exact hn) hb3 (by rw [hb1]; exact hst) e3
    (k4.1.trans k4.2.1.symm) (by rw [hc]; exact k5 _ k4) (by rw [hc, e1]; exact hrank) hstd hid

/-! ### a network with a hidden load -/

/-- a measured load, a hidden one, and the connection -/
def demoBuses140 : List BusData := [⟨1, 1, .sym 1 0, 20, 0, 0⟩, ⟨2, 1, .sym 1 0, 20, 0, 0⟩, ⟨3, 3, .sym 0 0, 20, 0, 0⟩]

/-- admittance matrix of two equal lines in a row -/
def demoY140 : Arr2 ℂ := Arr2.ofFn 3 3 (fun i j => if i = j then (if i = 1 then 2 else 1) else if i + j = 2 then 0 else -1)

/-- voltages at the measured load that grow by one in each step, the admittance `x` at the hidden load -/
def demoFlow140 (x : ℝ) (_ : Net) (_ : Controls) : Except PyErr SimResult :=
  .ok ⟨Arr2.ofFn 1440 3 (fun t j => if j = 0 then 1 + (t : ℝ) else if j = 1 then (2 + (t : ℝ)) / (2 + x) else 1), Arr2.zeros 1440 3⟩

def demoWorld140 (x : ℝ) : SimWorld :=
  { demoWorld115 with buses := fun _ => some demoBuses140, flow := demoFlow140 x, yBus := fun _ => .ok demoY140 }

/-- the second node is hidden -/
def demoConf140 : SimConf := { demoConf115 with hidden := [2] }

theorem demo140_connections : Spec.connections demoBuses140 = {2} := by
  unfold Spec.connections demoBuses140
  ext k
  simp only [mem_filter, mem_range, List.length_cons, List.length_nil, mem_singleton]
  constructor
  · rintro ⟨hk, b, hb, ht⟩
    have : k = 0 ∨ k = 1 ∨ k = 2 := by omega
    rcases this with rfl | rfl | rfl
    · cases hb; simp at ht
    · cases hb; simp at ht
    · rfl
  · rintro rfl
    exact ⟨by omega, _, rfl, rfl⟩

theorem demo140_passive : Spec.passive demoBuses140 0 = ∅ := by
  unfold Spec.passive demoBuses140
  ext k
  simp only [mem_filter, mem_range, List.length_cons, List.length_nil, notMem_empty, iff_false]
  rintro ⟨hk, b, hb, ht⟩
  have : k = 0 ∨ k = 1 ∨ k = 2 := by omega
  rcases this with rfl | rfl | rfl <;> cases hb <;> simp [Spec.Passive, Spec.demandOn] at ht

theorem demo140_labelled : Spec.labelled demoBuses140 [2] = {1} := by
  unfold Spec.labelled demoBuses140
  ext k
  simp only [mem_filter, mem_range, List.length_cons, List.length_nil, mem_singleton]
  constructor
  · rintro ⟨hk, b, hb, ht⟩
    have : k = 0 ∨ k = 1 ∨ k = 2 := by omega
    rcases this with rfl | rfl | rfl
    · cases hb; simp at ht
    · rfl
    · cases hb; simp at ht
  · rintro rfl
    exact ⟨by omega, _, rfl, by simp⟩

theorem demo140_eliminated : Spec.eliminated demoBuses140 [2] = {1} := by
  unfold Spec.eliminated
  rw [demo140_labelled, demo140_passive, demo140_connections]
  decide

theorem demo140_currents (v : ℕ → ℂ) : Spec.currents demoY140 v 0 = v 0 - v 1 ∧ Spec.currents demoY140 v 1 = 2 * v 1 - v 0 - v 2 := by
  have e : ∀ k, Spec.currents demoY140 v k = ∑ j ∈ range 3, v j * demoY140.get j k := fun k => rfl
  rw [e, e]
  simp [Finset.sum_range_succ, demoY140, Arr2.ofFn]
  constructor <;> ring

theorem demo140_net (x : ℝ) : ∃ net, makeNet (demoWorld140 x) "ieee_33" = .ok (net, demoBuses140) := by
  obtain ⟨net, ls', h⟩ := demo73_build demoBuses140 (by simp [demoBuses140]) (by
    intro b hb
    simp only [demoBuses140, List.mem_cons, List.not_mem_nil, or_false] at hb
    rcases hb with rfl | rfl | rfl <;> exact ⟨_, _, rfl⟩)
  refine ⟨net, ?_⟩
  show (netData (some demoBuses140) (some []) >>= fun r => pure (r.1, demoBuses140)) = _
  rw [h]
  rfl

/-- voltages of the power flow of the example -/
theorem demo140_phasor {x : ℝ} (net : Net) (c : Controls) (res : SimResult) (h : demoFlow140 x net c = .ok res) :
    res.vm.r = 1440 ∧ res.vm.c = 3 ∧ (∀ t k, t < 1440 → k < 3 → res.va.get t k = 0 ∧
      res.vm.get t k = if k = 0 then 1 + (t : ℝ) else if k = 1 then (2 + (t : ℝ)) / (2 + x) else 1) := by
  cases h
  refine ⟨rfl, rfl, fun t k ht hk => ⟨?_, Arr2.ofFn_get _ ht hk⟩⟩
  unfold Arr2.zeros
  exact Arr2.ofFn_get _ ht hk

theorem phasor_real (m : ℝ) : Spec.phasor m 0 = (m : ℂ) := by
  rw [← polar_phasor]; simp

theorem demo140_flow {x : ℝ} (net : Net) (c : Controls) (res : SimResult) (h : demoFlow140 x net c = .ok res) :
    Spec.PowerFlow demoBuses140 demoY140 res := by
  obtain ⟨e1, e2, e3⟩ := demo140_phasor net c res h
  refine ⟨⟨rfl, rfl⟩, e2, ?_, ?_⟩
  · intro k hk t ht
    rw [demo140_connections, mem_singleton] at hk
    subst hk
    rw [e1] at ht
    obtain ⟨a1, a2⟩ := e3 t 2 ht (by omega)
    obtain ⟨b1, b2⟩ := e3 0 2 (by omega) (by omega)
    rw [a1, a2, b1, b2]
    simp
  · intro k hk
    rw [demo140_passive] at hk
    cases hk

theorem demo140_impedance {x : ℝ} (hx : 0 ≤ x) (net : Net) (c : Controls) (res : SimResult) (h : demoFlow140 x net c = .ok res) :
    Spec.ConstantImpedance demoBuses140 [2] demoY140 (fun _ => (x : ℂ)) res := by
  obtain ⟨e1, e2, e3⟩ := demo140_phasor net c res h
  intro k hk t ht
  rw [demo140_labelled, demo140_connections] at hk
  have hk1 : k = 1 := by simpa using (mem_sdiff.1 hk).1
  subst hk1
  rw [e1] at ht
  rw [(demo140_currents _).2]
  obtain ⟨a1, a2⟩ := e3 t 0 ht (by omega)
  obtain ⟨b1, b2⟩ := e3 t 1 ht (by omega)
  obtain ⟨c1, c2⟩ := e3 t 2 ht (by omega)
  rw [a1, a2, b1, b2, c1, c2]
  simp only [phasor_real]
  have hne : ((2 : ℂ) + (x : ℂ)) ≠ 0 := by
    have : ((2 + x : ℝ) : ℂ) ≠ 0 := Complex.ofReal_ne_zero.2 (by positivity)
    simpa using this
  simp
  field_simp
  ring

theorem demo140_upright {x : ℝ} (hx : 0 ≤ x) (net : Net) (c : Controls) (res : SimResult) (h : demoFlow140 x net c = .ok res) :
    Spec.Upright res := by
  obtain ⟨e1, e2, e3⟩ := demo140_phasor net c res h
  intro t ht k hk
  rw [e1] at ht
  rw [e2] at hk
  obtain ⟨a1, a2⟩ := e3 t k ht hk
  rw [a1, a2]
  refine ⟨?_, by norm_num, by norm_num⟩
  split
  · positivity
  · split <;> positivity

theorem demo140_regular {σ : ℕ → ℂ} (h : (2 : ℂ) + σ 1 ≠ 0) : Spec.BlockNonsingular (Spec.withShunts demoY140 σ) {1} := by
  intro u hu i hi
  have h1 := hu 1 (by simp)
  rw [sum_singleton] at h1
  have e : (Spec.withShunts demoY140 σ).get 1 1 = 2 + σ 1 := by
    refine (Arr2.ofFn_get (r := 3) (c := 3) _ (by omega) (by omega)).trans ?_
    simp [demoY140, Arr2.ofFn]
  rw [e] at h1
  rw [mem_singleton.1 hi]
  exact (mul_eq_zero.1 h1).resolve_right h

theorem demo140_shunt (s : ℕ → ℂ) : Spec.hiddenShunt demoBuses140 [2] s 1 = s 1 := by
  unfold Spec.hiddenShunt
  rw [demo140_labelled, demo140_connections, if_pos (by decide)]

theorem demo140_simulate {x : ℝ} (hx : 0 ≤ x) (st : Store) : ∃ d, (simulate (demoWorld140 x) demoConf140 demoArgs115 st).res = .ok d := by
  obtain ⟨net, hm⟩ := demo140_net x
  refine C139_completes st rfl rfl ⟨rfl, rfl⟩ (by simp [demoArgs115]) exactPinv_contract ⟨le_rfl, le_rfl, le_rfl, le_rfl⟩
    (by simp [demoConf140, demoConf115]) (by simp [demoConf140, demoConf115]) (by simp [demoConf140, demoConf115])
    (by simp [demoConf140, demoConf115]) (by
      show 1439 ≤ Spec.rawCount (minuteTimes 1) (1 / 60)
      rw [demo115_count]) hm (by simp [demoBuses140]) ?_ (by rw [demo140_connections]; simp) ?_ rfl ⟨rfl, rfl⟩ ?_
    (Or.inr (demo140_upright hx net))
  · intro b hb
    simp only [demoBuses140, List.mem_cons, List.not_mem_nil, or_false] at hb
    rcases hb with rfl | rfl | rfl
    · exact ⟨Or.inl rfl, fun p q hpq => by cases hpq; norm_num⟩
    · exact ⟨Or.inl rfl, fun p q hpq => by cases hpq; norm_num⟩
    · exact ⟨Or.inr rfl, fun p q hpq => by cases hpq; norm_num⟩
  · intro k hk
    have : k = 2 := by simpa [demoConf140] using hk
    subst this
    simp [demoBuses140]
  · intro c hp _ _ _
    exact ⟨_, rfl, ⟨rfl, rfl⟩, rfl, rfl⟩

/-- filtering of a signal that grows by one in each minute of a day, one sample per minute: first and last sample -/
theorem ramp_filtered {z : Nat → ℝ} {net : Net} {voltage current : Arr2 ℂ} {n : NoiseResult} {np : NoiseParams} {safety : ℝ}
    (h : addNoiseAndFilter z net voltage current (minuteTimes 1) (1 / 60) 1439 np safety = .ok n) (he : np.equivalent = false)
    (hr : voltage.r = 1440) (hc : voltage.c = current.c) (h0 : 0 < voltage.c) (hv : ∀ t < 1440, voltage.get t 0 = 1 + (t : ℂ)) :
    n.voltage.r = 1439 ∧ n.voltage.get 0 0 = 1 ∧ n.voltage.get 1438 0 = 1440 := by
  obtain ⟨T, hT⟩ : ∃ T, T = minuteTimes 1 := ⟨_, rfl⟩
  rw [← hT] at h
  have ht : Spec.Times T := by rw [hT]; exact minuteTimes_times one_pos
  have hlast : Spec.last T = 86340 := by rw [hT]; exact demo115_last
  have hlen : T.length = 1440 := by rw [hT, minuteTimes_length]
  clear hT
  obtain ⟨ts, f, t1, t2, t3⟩ := stage_filter h ht hc h0 he
  unfold rawTimes at t1
  obtain ⟨m', hm', t1⟩ := Prior.bind_ok t1
  obtain ⟨ts', hl', t1⟩ := Prior.bind_ok t1
  cases t1
  have hround : pyRound (Spec.last T * (1 / 60)) = 1439 := by
    have : pyRound (1439 : ℝ) = 1439 := by simpa using pyRound_int 1439
    rw [hlast, show (86340 : ℝ) * (1 / 60) = 1439 by norm_num, this]
  have hgrid : Spec.Grid T ts := ht.grid hl'
  rw [hround] at hl'
  unfold linspace at hl'
  rw [if_neg (by norm_num)] at hl'
  have hts := (Except.ok.inj hl').symm
  have htl : ts.length = 1439 := by rw [hts]; simp
  unfold averagingFactor at t2
  rw [htl, if_neg (by norm_num)] at t2
  have hf : f = 1 := by
    rw [← Except.ok.inj t2]
  subst hf
  obtain ⟨o, ho, or, oc, og⟩ := C68_blocks hgrid one_ne_zero (a := voltage) (by rw [hr, hlen])
  have ho' : o = n.voltage := Except.ok.inj (ho.symm.trans t3)
  subst ho'
  obtain ⟨r, r1, r2⟩ := og 0 h0
  rw [htl, Nat.div_one] at or r2
  have hr2 : ∀ t, t < 1439 → n.voltage.get t 0 = r t := by
    intro t ht
    rw [r2 t ht]
    simp
  have hts0 : ts.getD 0 0 = T.getD 0 0 := by
    rw [ht.zero, List.getD_eq_getElem _ _ (by omega)]
    simp [hts]
  have hts1 : ts.getD 1438 0 = T.getD (T.length - 1) 0 := by
    have := hlast
    rw [show T.getD (T.length - 1) 0 = Spec.last T from rfl, List.getD_eq_getElem _ _ (by omega)]
    simp only [hts, List.getElem_map, List.getElem_range]
    rw [this]
    norm_num
  refine ⟨or, ?_, ?_⟩
  · have := r1 0 (by omega)
    rw [hts0] at this
    rw [hr2 0 (by omega), polygon_first ht.sorted this, hv 0 (by omega)]
    simp
  · have := r1 1438 (by omega)
    rw [hts1] at this
    rw [hr2 1438 (by omega), polygon_last ht.sorted this, hlen, hv _ (by omega)]
    norm_num

/-- a single column with two different entries is linearly independent after centring -/
theorem column_rank {v : Arr2 ℂ} (hc : v.c = 1) {t u : ℕ} (ht : t < v.r) (hu : u < v.r) (hne : v.get t 0 ≠ v.get u 0) :
    Spec.FullColumnRank (centreColumns v) := by
  intro x hx
  have hne : ∃ t, t < v.r ∧ (centreColumns v).get t 0 ≠ 0 := by
    by_contra hall
    push Not at hall
    have h0 := hall t ht
    have h1 := hall u hu
    unfold centreColumns at h0 h1
    rw [Arr2.ofFn_get _ ht (by omega)] at h0
    rw [Arr2.ofFn_get _ hu (by omega)] at h1
    exact hne ((sub_eq_zero.1 h0).trans (sub_eq_zero.1 h1).symm)
  obtain ⟨t, ht', hne⟩ := hne
  have h2 : (centreColumns v).c = 1 := hc
  funext j
  have hj0 : (j : ℕ) = 0 := by
    have := j.2
    omega
  have h3 := congrFun hx ⟨t, ht'⟩
  rw [Matrix.mulVec, dotProduct, Finset.sum_eq_single j] at h3
  · rcases mul_eq_zero.1 h3 with h3 | h3
    · exfalso
      refine hne ?_
      rw [← hj0]
      exact h3
    · exact h3
  · intro k _ hk
    refine absurd (Fin.ext ?_) hk
    have := k.2
    omega
  · simp

/-- identification of stored data that satisfy the centred equation of `E`, with a stored Bayesian result -/
theorem demo140_identify (sc : SimConf) {st1 : Store} {d : NetworkData} (hfile : st1 (resultFile .network "ieee_33") = some (networkNpz d))
    (hbay : st1 (resultFile .bayesian "ieee_33") = some (bayesianNpz (Arr2.eye 1, []))) (hids : ∀ x ∈ d.ids, x = 1) {E : Arr2 ℂ}
    (hsq : E.r = E.c) (heq : (centreColumns d.noisyVoltage).matmul E = .ok (centreColumns d.noisyCurrent))
    (hrank : Spec.FullColumnRank (centreColumns d.noisyVoltage)) :
    ∃ r, (identify demoExt115 demoIdConf sc demoIdArgs st1).res = .ok r := by
  have hn := templates_plain "ieee_33" (by decide)
  obtain ⟨-, hrows, -⟩ := matmul_entry heq
  obtain ⟨vh, hs, hvh⟩ := exactSvd_contract _
  obtain ⟨L, hL, -⟩ := standard_centred (lap := false) (v := d.noisyVoltage) (i := d.noisyCurrent) demoExt115 demoIdConf (by simp [demoIdConf])
    exactInv_contract exactSolve_exact exactSolve_total exactPinv_contract hsq heq hrank (if_pos hrows.symm) hs hvh 0
  have hy0 : ∃ y0, halfSum E = .ok y0 ∧ Spec.IsSquare E.r y0 := by
    unfold halfSum Arr2.zipWith
    rw [if_pos ⟨hsq, hsq.symm⟩]
    exact ⟨_, rfl, rfl, hsq.symm⟩
  obtain ⟨y0, hy0, hsq0⟩ := hy0
  obtain ⟨prior, hp, -⟩ := C44_complex_prior E.r 1 y0 hsq0 false true
  have hvc : d.noisyVoltage.c = E.r := (matmul_entry heq).1
  have hbr : resultFile .bayesian "ieee_33" ≠ resultFile .reference "ieee_33" := file_ne hn (by simp)
  have hbs : resultFile .bayesian "ieee_33" ≠ resultFile .standard "ieee_33" := file_ne hn (by simp)
  refine ⟨((E, E, L), (Arr2.eye 1, [])), ?_⟩
  refine (C80_partial rfl rfl _ _).2 ⟨by decide, d, d, y0, _, _, ?_, ?_, rfl, ?_, rfl, hy0, ?_⟩
  · show networkLoad st1 "ieee_33" = _
    have := C49_network "ieee_33" d st1 (h := []) ⟨hn, by simp⟩
    have e : st1.savez (resultFile .network "ieee_33") (networkNpz d) = st1 := by
      funext f
      by_cases hfn : f = resultFile .network "ieee_33"
      · subst hfn; rw [savez_same]; exact hfile.symm
      · simp [Store.savez, hfn]
    rw [e] at this
    exact this
  · unfold selectPhase
    rw [if_neg]
    · rfl
    · rintro ⟨-, x, hx, hne⟩
      exact hne (hids x hx)
  · show (Prog.call _ _).res = _
    simp only [Prog.call_run]
    exact (standardMethods_fst ..).trans hL
  · show (Prog.call (bayesianEiv demoExt115 demoIdConf "ieee_33" (some d.noisyVoltage) (some d.noisyCurrent) _ _ _ y0
      none false false 0 true) _).res = _
    simp only [Prog.call_run]
    rw [bayesian_reload_fst.1]
    have he : eivPrior demoIdConf d.noisyVoltage.c y0 none false = .ok prior := by
      unfold eivPrior
      rw [hvc]
      show (buildComplexPrior E.r 1 y0 false true true false >>= _) = _
      rw [hp]
      rfl
    rw [he]
    show bayesianLoad _ "ieee_33" = _
    have h' : (identifyStandard demoExt115 demoIdConf demoIdArgs d (st1.savez (resultFile .reference demoIdArgs.network)
        (referenceNpz d.y demoIdArgs.phases demoIdArgs.laplacian))).store (resultFile .bayesian "ieee_33") =
          some (bayesianNpz (Arr2.eye 1, [])) := by
      show (Prog.call _ _).store _ = _
      simp only [Prog.call_run]
      rw [standardMethods_frame (show resultFile .bayesian "ieee_33" ≠ resultFile .standard demoIdArgs.network from hbs)]
      show (st1.savez (resultFile .reference "ieee_33") _) _ = _
      rw [savez_other hbr]
      exact hbay
    unfold bayesianLoad
    have e := load_some h'
    rw [e]
    simp [bind, Except.bind, bayesianNpz, npz, Npz.mat, Npz.log, List.lookup, pure, Except.pure]

/-- the network of the example seen from the measured node, with the admittance `σ` at the hidden node -/
theorem demo140_grounded {σ : ℕ → ℂ} (h : (2 : ℂ) + σ 1 ≠ 0) {E : Arr2 ℂ} (hG : Spec.Grounded demoY140 σ {2} {1} [0] E) :
    E.get 0 0 = 1 - 1 / (2 + σ 1) := by
  obtain ⟨e1, e2, e3⟩ := hG
  have := e3 (fun k => if k = 0 then 1 else if k = 1 then 1 / (2 + σ 1) else 0) (by simp) (by
    intro s hs
    rw [mem_singleton.1 hs, (demo140_currents _).2]
    simp
    field_simp
    ring) 0 (by simp)
  have e : ∀ v : ℕ → ℂ, Spec.currents E v 0 = ∑ j ∈ range 1, v j * E.get j 0 := fun v => by
    unfold Spec.currents
    rw [e1]
    rfl
  rw [e, sum_range_one] at this
  simp only [List.getD_cons_zero, if_true, one_mul] at this
  rw [this, (demo140_currents _).1]
  simp

/-- a simulation of the example with the admittance `x` at the hidden node and its identification: estimates and reference -/
theorem demo140_run {x : ℝ} (hx : 0 ≤ x) (hx2 : x ≠ 2) (sc : SimConf) :
    ∃ st d r, (simulate (demoWorld140 x) demoConf140 demoArgs115 st).res = .ok d ∧
      (identify demoExt115 demoIdConf sc demoIdArgs (simulate (demoWorld140 x) demoConf140 demoArgs115 st).store).res = .ok r ∧
      (d.y.r = 1 ∧ d.y.c = 1 ∧ d.y.get 0 0 = 1 - 1 / (2 - x)) ∧
      (r.1.1.r = 1 ∧ r.1.1.c = 1 ∧ r.1.1.get 0 0 = 1 - 1 / (2 + x)) ∧ r.1.2.1 = r.1.1 ∧
      Spec.FullColumnRank (centreColumns d.voltage) := by
  have hn := templates_plain "ieee_33" (by decide)
  obtain ⟨net, hm⟩ := demo140_net x
  set st : Store := Store.savez (fun _ => none) (resultFile .bayesian "ieee_33") (bayesianNpz (Arr2.eye 1, [])) with hst
  obtain ⟨d, hd⟩ := demo140_simulate hx st
  have hel : Spec.eliminated demoBuses140 demoConf140.hidden = {1} := demo140_eliminated
  have hp2 : (2 : ℂ) + (x : ℂ) ≠ 0 := by
    have : ((2 + x : ℝ) : ℂ) ≠ 0 := Complex.ofReal_ne_zero.2 (by positivity)
    simpa using this
  have hm2 : (2 : ℂ) + - (x : ℂ) ≠ 0 := by
    have : ((2 - x : ℝ) : ℂ) ≠ 0 := Complex.ofReal_ne_zero.2 (fun h => hx2 (by linarith))
    rw [← sub_eq_add_neg]
    simpa using this
  have hS1 : (2 : ℂ) + Spec.hiddenShunt demoBuses140 demoConf140.hidden (fun _ => (x : ℂ)) 1 ≠ 0 := by
    rw [show demoConf140.hidden = [2] from rfl, demo140_shunt]; exact hp2
  have hS2 : (2 : ℂ) + Spec.hiddenShunt demoBuses140 demoConf140.hidden (fun k => - (fun _ => (x : ℂ)) k) 1 ≠ 0 := by
    rw [show demoConf140.hidden = [2] from rfl, demo140_shunt]; exact hm2
  have hfew : demoBuses140.length - (Spec.connections demoBuses140).card ≤ 8 ∨
      3 * (demoBuses140.length - (Spec.connections demoBuses140).card) ≤
        5 * (demoBuses140.length - (Spec.eliminated demoBuses140 demoConf140.hidden ∪ Spec.connections demoBuses140).card) := by
    left; rw [demo140_connections]; simp [demoBuses140]
  have hlast : ∀ k ∈ Spec.eliminated demoBuses140 demoConf140.hidden, ∀ c ∈ Spec.connections demoBuses140, k < c := by
    rw [hel, demo140_connections]; simp
  have hns : Spec.BlockNonsingular (Spec.withShunts demoY140 (Spec.hiddenShunt demoBuses140 demoConf140.hidden (fun _ => (x : ℂ))))
      (Spec.eliminated demoBuses140 demoConf140.hidden) := by rw [hel]; exact demo140_regular hS1
  have hns' : Spec.BlockNonsingular (Spec.withShunts demoY140
      (Spec.hiddenShunt demoBuses140 demoConf140.hidden (fun k => - (fun _ => (x : ℂ)) k)))
      (Spec.eliminated demoBuses140 demoConf140.hidden) := by rw [hel]; exact demo140_regular hS2
  obtain ⟨K, k1, k2, ⟨E, hE⟩, k4, k5, ⟨l, sim, n, hno, hsim, hdv⟩, e1, e2, e3, hfile⟩ := C140_data hn rfl rfl rfl hd ⟨rfl, rfl⟩ ⟨rfl, rfl, rfl, rfl⟩
    exactPinv_contract hm (by simp [demoBuses140]) rfl (demo140_flow net) (demo140_impedance hx net) (demo140_upright hx net) hlast hfew hns hns'
  have hK : K = [0] := by
    refine lists_unique k1 ?_ k2 (by simp)
    refine ⟨by simp, fun k => ?_⟩
    rw [hel, demo140_connections]
    show k ∈ [0] ↔ k < 3 ∧ _
    simp
    omega
  subst hK
  obtain ⟨c, res, hres, q1, q2, q3⟩ := sim_entries hsim
  obtain ⟨p1, p2, p3⟩ := demo140_phasor net c res hres
  obtain ⟨x1, x2, x3, -⟩ := sim_exact (bs := demoBuses140) (y := demoY140) hsim rfl (demo140_flow net)
  obtain ⟨-, -, m3, -⟩ := matmul_entry x1
  have hramp := ramp_filtered (voltage := sim.1) (current := sim.2.1) hno rfl (by rw [q1, p1]) (by rw [q2, p2, m3]; rfl)
    (by rw [q2, p2]; omega) (by
      intro t ht
      rw [q3 t 0 (by rw [q1, p1]; exact ht) (by rw [q2, p2]; omega)]
      obtain ⟨a1, a2⟩ := p3 t 0 ht (by omega)
      rw [a1, a2, phasor_real]
      simp)
  obtain ⟨v1, v2, v3⟩ := hramp
  have dget : ∀ t, t < 1439 → d.voltage.get t 0 = n.voltage.get t 0 := by
    intro t ht
    rw [hdv]
    unfold Spec.columnsAt
    rw [Arr2.ofFn_get _ (by rw [v1]; exact ht) (by simp)]
    rfl
  have dr : d.voltage.r = 1439 := by rw [hdv]; exact v1
  have hrank : Spec.FullColumnRank (centreColumns d.voltage) := by
    refine column_rank (t := 0) (u := 1438) (by rw [hdv]; rfl) (by omega) (by omega) ?_
    rw [dget 0 (by omega), dget 1438 (by omega), v2, v3]
    norm_num
  have hbay : (simulate (demoWorld140 x) demoConf140 demoArgs115 st).store (resultFile .bayesian "ieee_33") =
      some (bayesianNpz (Arr2.eye 1, [])) := by
    have hf := (simulate_frame (w := demoWorld140 x) (cf := demoConf140) (a := demoArgs115) (file := resultFile .bayesian "ieee_33") (by
      intro s hs
      refine file_ne hn ?_
      simp only [List.mem_cons, List.not_mem_nil, or_false] at hs
      rcases hs with rfl | rfl | rfl | rfl <;> simp) st).1
    rw [hf, hst]
    exact savez_same ..
  obtain ⟨r, hr⟩ := demo140_identify sc hfile hbay e3 (hE.1.trans hE.2.1.symm) (k5 E hE) (by rw [e1]; exact hrank)
  obtain ⟨K', j1, j2, j3, j4, j5⟩ := C140_estimate hn rfl rfl rfl hd ⟨rfl, rfl⟩ ⟨rfl, rfl, rfl, rfl⟩
    exactPinv_contract hm (by simp [demoBuses140]) rfl (demo140_flow net) (demo140_impedance hx net) (demo140_upright hx net) hlast hfew hns hns'
    (ic := demoIdConf) (by simp [demoIdConf]) exactInv_contract exactSolve_exact exactSolve_total exactPinv_contract exactSvd_contract hrank
    (b := demoIdArgs) ⟨rfl, rfl, rfl⟩ (Or.inl rfl) hr
  have hK' : K' = [0] := lists_unique j1 k1 j2 k2
  subst hK'
  rw [hel, demo140_connections] at j3 j5
  refine ⟨st, d, r, hd, hr, ⟨j5.1, j5.2.1, ?_⟩, ⟨j3.1, j3.2.1, ?_⟩, j4, hrank⟩
  · rw [demo140_grounded hS2 j5, show demoConf140.hidden = [2] from rfl, demo140_shunt, sub_eq_add_neg (2 : ℂ)]
  · rw [demo140_grounded hS1 j3, show demoConf140.hidden = [2] from rfl, demo140_shunt]

/-- C140 violated: simulation without noise and identification of a network with a hidden load, whose measured voltages determine
the estimate: both estimates are the network with the load connected, and differ from the stored reference -/
theorem C140_violated (sc : SimConf) : ∃ st d r, (simulate (demoWorld140 1) demoConf140 demoArgs115 st).res = .ok d ∧
    (identify demoExt115 demoIdConf sc demoIdArgs (simulate (demoWorld140 1) demoConf140 demoArgs115 st).store).res = .ok r ∧
    (demoConf140.vm = 0 ∧ demoConf140.cm = 0 ∧ demoConf140.vp = 0 ∧ demoConf140.cp = 0) ∧
    Spec.FullColumnRank (centreColumns d.voltage) ∧ d.y.get 0 0 = 0 ∧ r.1.1.get 0 0 = 2 / 3 ∧ r.1.2.1.get 0 0 = 2 / 3 := by
  obtain ⟨st, d, r, h1, h2, ⟨-, -, h3⟩, ⟨-, -, h4⟩, h5, h6⟩ := demo140_run (x := 1) (by norm_num) (by norm_num) sc
  exact ⟨st, d, r, h1, h2, ⟨rfl, rfl, rfl, rfl⟩, h6, by rw [h3]; norm_num, by rw [h4]; norm_num, by rw [h5, h4]; norm_num⟩

/-- the hypotheses of C140_estimate and of C140_partial -/
example (sc : SimConf) : ∃ st d r, (simulate (demoWorld140 0) demoConf140 demoArgs115 st).res = .ok d ∧
    (identify demoExt115 demoIdConf sc demoIdArgs (simulate (demoWorld140 0) demoConf140 demoArgs115 st).store).res = .ok r ∧
    d.y.get 0 0 = 1 / 2 ∧ r.1.1.get 0 0 = 1 / 2 := by
  obtain ⟨st, d, r, h1, h2, ⟨-, -, h3⟩, ⟨-, -, h4⟩, -⟩ := demo140_run le_rfl (by norm_num) sc
  exact ⟨st, d, r, h1, h2, by rw [h3]; norm_num, by rw [h4]; norm_num⟩

end
end Verif
