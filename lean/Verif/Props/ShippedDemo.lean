/-
Runs of both programs for the shipped single-phase networks that meet the hypotheses of C115_shipped and C141_shipped: the loads of
one node after the other change, so that the voltages determine the admittance matrix.
-/
import Verif.Props.ShippedPrograms

namespace Verif
open Finset
noncomputable section

/-- the angle in degrees and the modulus of a voltage -/
theorem phasor_polar (v : ℂ) : Spec.phasor ‖v‖ (v.arg * 180 / Real.pi) = v := by
  unfold Spec.phasor
  rw [show v.arg * 180 / Real.pi * Real.pi / 180 = v.arg by field_simp]
  exact Complex.norm_mul_exp_arg_mul_I v

/-- power flow with prescribed voltages `V t k` -/
def givenFlow (V : ℕ → ℕ → ℂ) (net : Net) (c : Controls) : Except PyErr SimResult :=
  .ok ⟨Arr2.ofFn c.p.r net.bus.length (fun t k => ‖V t k‖), Arr2.ofFn c.p.r net.bus.length (fun t k => (V t k).arg * 180 / Real.pi)⟩

def givenWorld (V : ℕ → ℕ → ℂ) : SimWorld := { shippedWorld with flow := givenFlow V }

theorem givenWorld_shipped (V : ℕ → ℕ → ℂ) : (givenWorld V).Shipped := ⟨rfl, rfl, rfl, rfl, rfl⟩

theorem given_powerFlow {bs : List BusData} {ls : List LineData} {net : Net} {y : Arr2 ℂ} (hg : Spec.IsGridMatrix 1 bs ls y)
    (hlen : net.bus.length = bs.length) {V : ℕ → ℕ → ℂ} (hc : ∀ k ∈ Spec.connections bs, ∀ t, V t k = 1)
    (hp : ∀ k ∈ Spec.passive bs 0, ∀ t, Spec.currents y (V t) k = 0) (c : Controls) (res : SimResult)
    (h : givenFlow V net c = .ok res) : Spec.PowerFlow bs y res := by
  cases h
  refine ⟨hg.square, hlen, ?_, ?_⟩
  · intro k hk t ht
    have hk' := connections_lt hk
    have ht' : t < c.p.r := ht
    dsimp only
    rw [Arr2.ofFn_get _ ht' (by omega), Arr2.ofFn_get _ (by omega) (by omega), Arr2.ofFn_get _ ht' (by omega), Arr2.ofFn_get _ (by omega) (by omega),
      hc k hk, hc k hk]
    exact ⟨rfl, rfl⟩
  · intro k hk t ht
    have ht' : t < c.p.r := ht
    rw [← hp k hk t]
    unfold Spec.currents
    refine Finset.sum_congr rfl fun j hj => ?_
    have hj' : j < bs.length := by rw [← hg.square.1]; exact Finset.mem_range.1 hj
    dsimp only
    rw [Arr2.ofFn_get _ ht' (by omega), Arr2.ofFn_get _ ht' (by omega), phasor_polar]

/-- voltages that stay for two minutes are seen by a sample -/
theorem sample_constant {T ts : List ℝ} {s : ℕ} (hT : ∀ k < T.length, T.getD k 0 = 60 * k) (hs : s < 1438)
    (hts : ts.getD s 0 = 60 * (s + s / 1438)) {y : ℕ → ℂ} {w : ℂ} (h : Spec.OnPolygon T y (ts.getD s 0) w) (hy : y (s + 1) = y s) : w = y s := by
  obtain ⟨k, θ, hk, h0, h1, hv, rfl⟩ := h
  rw [hts, hT k (by omega), hT (k + 1) hk] at hv
  push_cast at hv
  have hs' : (s : ℝ) < 1438 := by exact_mod_cast hs
  have hs0 : (0 : ℝ) ≤ s := Nat.cast_nonneg s
  have hv' : (s : ℝ) + s / 1438 = k + θ := by linarith
  have hlt : (s : ℝ) / 1438 < 1 := by rw [div_lt_one (by norm_num)]; exact hs'
  have hge : (0 : ℝ) ≤ s / 1438 := by positivity
  have h2 : k ≤ s := by
    have : (k : ℝ) < s + 1 := by linarith
    exact Nat.lt_succ_iff.1 (by exact_mod_cast this)
  have h3 : s ≤ k + 1 := by
    have : (s : ℝ) ≤ k + 1 := by linarith
    exact_mod_cast this
  rcases Nat.lt_or_ge k s with h4 | h4
  · have h5 : (s : ℝ) = k + 1 := by
      have : s = k + 1 := by omega
      exact_mod_cast this
    have h6 : (0 : ℝ) < s / 1438 := by rw [h5]; positivity
    linarith
  · obtain rfl : k = s := by omega
    rw [hy]
    push_cast
    ring

theorem minute_getD {k : ℕ} (hk : k < (minuteTimes 1).length) : (minuteTimes 1).getD k 0 = 60 * k := by
  rw [List.getD_eq_getElem _ _ hk]
  unfold minuteTimes
  simp
  try ring

/-- the voltages stored for a run with prescribed voltages, each of which stays for two minutes -/
theorem given_stored {V : ℕ → ℕ → ℂ} {name : String} (hn : Spec.PlainName name) {net : Net} {bs : List BusData}
    (hbs : makeNet (givenWorld V) name = .ok (net, bs)) (hp : Spec.Pandapower (givenWorld V) name 1) (hV : ∀ i k, V (2 * i + 1) k = V (2 * i) k)
    {st : Store} {d : NetworkData} (h : (simulate (givenWorld V) demoConf115 { demoArgs115 with network := name } st).res = .ok d) :
    d.voltage.r = 1439 ∧ d.voltage.c = (Spec.remaining bs false).length ∧ ∀ i < 719, ∀ j < (Spec.remaining bs false).length,
      d.voltage.get (2 * i) j = V (2 * i) ((Spec.remaining bs false).getD j 0) := by
  obtain ⟨h0, -, hsz, -, hred⟩ := shipped_setup (givenWorld_shipped V) hbs hp false
  obtain ⟨net', bs', l, s, n, hnet, hl, -, hs, -, hno, -, hd, -⟩ := C78_simulate (a := { demoArgs115 with network := name }) hn rfl h
  rw [hbs] at hnet
  cases hnet
  have hlenb : net.bus.length = bs.length := by
    obtain ⟨ls, -, -, -, hbus, -⟩ := C133_single hbs
    simpa using congrArg List.length hbus.bus
  have hnet := hbs
  unfold makeNet at hnet
  obtain ⟨b, hb, hnet⟩ := Prior.bind_ok hnet
  obtain ⟨ls, -, hnet⟩ := Prior.bind_ok hnet
  obtain ⟨⟨net', ls'⟩, hnd, hnet⟩ := Prior.bind_ok hnet
  cases hnet
  obtain ⟨⟨lp, hlp, hlc⟩, -⟩ := hl (Or.inr (by simp [demoArgs115]))
  obtain ⟨hs, -⟩ := hs (Or.inr (by simp [demoArgs115]))
  obtain ⟨hno, -⟩ := hno (Or.inr (by simp [demoArgs115]))
  have hlp' : lp = .gaussian (1 / 10) 1 none := by
    rcases hlp with ⟨-, rfl⟩ | ⟨h0, -⟩
    · rfl
    · exfalso
      have : (1 / 10 : ℝ) ≤ 0 := h0
      norm_num at this
  subst hlp'
  obtain ⟨p, q, T⟩ := l
  obtain ⟨e1, e2⟩ := C76_gaussian _ _ _ _ _ _ _ _ _ _ _ hlc
  obtain ⟨p0, q0, -, -, ht0⟩ := computeLoads_ok hlc
  replace ht0 : T = minuteTimes 1 := ht0
  have hlast : Spec.last T = 86340 := by rw [ht0]; exact demo115_last
  have ht : Spec.Times T := by rw [ht0]; exact minuteTimes_times one_pos
  -- the simulated voltages
  have hsv : s.1.r = p.r ∧ s.1.c = bs.length ∧ s.2.1.c = bs.length ∧ ∀ t j, t < p.r → j < bs.length → s.1.get t j = V t j := by
    unfold simCompute at hs
    obtain ⟨y, hy, hs⟩ := Prior.bind_ok hs
    obtain ⟨res, hres, hs⟩ := Prior.bind_ok hs
    obtain ⟨o, ho, hs⟩ := Prior.bind_ok hs
    unfold simRun frame at hres
    obtain ⟨p', hp', hres⟩ := Prior.bind_ok hres
    obtain ⟨q', hq', hres⟩ := Prior.bind_ok hres
    split at hp'
    · cases hp'
      have hr := (Except.ok.inj (show Except.ok _ = Except.ok res from hres)).symm
      unfold getCurrentAndVoltage at ho
      obtain ⟨v, hv, ho⟩ := Prior.bind_ok ho
      obtain ⟨y', hy', ho⟩ := Prior.bind_ok ho
      obtain ⟨i, hi, ho⟩ := Prior.bind_ok ho
      cases ho
      cases hs
      have hye : y' = net.makeYBus 1 := (Except.ok.inj (show Except.ok _ = Except.ok y' from hy')).symm
      subst hye
      obtain ⟨-, -, hic, -⟩ := matmul_entry hi
      unfold polarVoltage at hv
      rw [hr, if_pos ⟨rfl, rfl⟩] at hv
      have hv' := (Except.ok.inj hv).symm
      refine ⟨by rw [hv']; rfl, by rw [hv']; exact hlenb, hic.trans hsz.2, ?_⟩
      intro t j ht hj
      show v.get t j = _
      rw [hv']
      refine (Arr2.ofFn_get (r := p.r) (c := net.bus.length) _ ht (by omega)).trans ?_
      dsimp only
      rw [Arr2.ofFn_get _ ht (by omega), Arr2.ofFn_get _ ht (by omega)]
      have := phasor_polar (V t j)
      unfold Spec.phasor at this
      rw [Complex.exp_mul_I] at this
      rw [← Complex.ofReal_cos, ← Complex.ofReal_sin, mul_comm _ Complex.I] at this
      exact this
    · cases hp'
  obtain ⟨sr, sc, sc', sv⟩ := hsv
  have hlen : T.length = 1440 := by rw [ht0, minuteTimes_length]
  have hTk : ∀ k < T.length, T.getD k 0 = 60 * k := by
    intro k hk
    rw [ht0] at hk ⊢
    exact minute_getD hk
  clear ht0
  have hpr : p.r = 1440 := by rw [e1]; exact hlen
  obtain ⟨ts, f, t1, t2, t3⟩ := stage_filter hno ht (by rw [sc, sc']) (by rw [sc]; omega) rfl
  unfold rawTimes at t1
  obtain ⟨m', hm', t1⟩ := Prior.bind_ok t1
  obtain ⟨ts', hl', t1⟩ := Prior.bind_ok t1
  cases t1
  have hround : pyRound (Spec.last T * demoConf115.fmeas) = 1439 := by
    have : pyRound (1439 : ℝ) = 1439 := by simpa using pyRound_int 1439
    rw [hlast]
    show pyRound (86340 * (1 / 60)) = 1439
    rw [show (86340 : ℝ) * (1 / 60) = 1439 by norm_num, this]
  have hgrid : Spec.Grid T ts := ht.grid hl'
  rw [hround] at hl'
  unfold linspace at hl'
  rw [if_neg (by norm_num)] at hl'
  have hts := (Except.ok.inj hl').symm
  have htl : ts.length = 1439 := by rw [hts]; simp
  unfold averagingFactor at t2
  rw [htl, if_neg (by simp [demoConf115])] at t2
  have hf : f = 1 := by
    rw [← Except.ok.inj t2]
    rfl
  subst hf
  obtain ⟨o, ho, or, oc, og⟩ := C68_blocks hgrid one_ne_zero (a := s.1) (by rw [sr, hpr, hlen])
  have ho' : o = n.voltage := Except.ok.inj (ho.symm.trans t3)
  subst ho'
  rw [htl, Nat.div_one] at or
  have htsk : ∀ k < 1438, ts.getD k 0 = 60 * (k + k / 1438) := by
    intro k hk
    rw [List.getD_eq_getElem _ _ (by omega)]
    simp only [hts, List.getElem_map, List.getElem_range]
    rw [hlast]
    norm_num
    ring
  obtain ⟨d', g1, -, -, -, -, g⟩ := network_exact (w := givenWorld V) (cf := demoConf115) (a := { demoArgs115 with network := name }) rfl rfl rfl
    exactPinv_contract hnd h0 rfl (hp.flow net bs hbs) hred hs ht hno
  rw [hd] at g1
  cases g1
  rw [show ({ demoArgs115 with network := name } : SimArgs).laplacian = false from rfl] at g
  refine ⟨by rw [g]; exact or, by rw [g]; rfl, fun i hi j hj => ?_⟩
  have hj2 : (Spec.remaining bs false).getD j 0 < bs.length := by
    rw [List.getD_eq_getElem _ _ hj]
    have := List.getElem_mem hj
    unfold Spec.remaining at this ⊢
    exact List.mem_range.1 (List.mem_filter.1 this).1
  have dget : d.voltage.get (2 * i) j = n.voltage.get (2 * i) ((Spec.remaining bs false).getD j 0) := by
    rw [g]
    unfold Spec.columnsAt
    rw [Arr2.ofFn_get _ (by rw [or]; omega) hj]
  obtain ⟨r, r1, r2⟩ := og ((Spec.remaining bs false).getD j 0) (by rw [sc]; exact hj2)
  rw [htl, Nat.div_one] at r2
  rw [dget, r2 (2 * i) (by omega)]
  simp only [Finset.range_one, Finset.sum_singleton, mul_one, add_zero, Nat.cast_one, div_one]
  have := sample_constant (s := 2 * i) hTk (by omega) (htsk _ (by omega)) (r1 (2 * i) (by omega)) (by
    show s.1.get (2 * i + 1) _ = s.1.get (2 * i) _
    rw [sv _ _ (by omega) hj2, sv _ _ (by omega) hj2, hV])
  rw [this]
  exact sv _ _ (by omega) hj2

theorem shipped_small {name : String} {bs : List BusData} (h : shippedBuses name = some bs) : bs.length ≤ 56 := by
  unfold shippedBuses at h
  split_ifs at h <;> cases h <;> decide

/-- for every shipped single-phase network there is a run without noise after which the centred voltages are linearly independent -/
theorem shipped_excited {name : String} {bs : List BusData} (h : shippedBuses name = some bs) (st : Store) :
    ∃ (w : SimWorld) (d : NetworkData), w.Shipped ∧ Spec.Pandapower w name 1 ∧ Spec.PinvContract w.pinv ∧
      (simulate w demoConf115 { demoArgs115 with network := name } st).res = .ok d ∧ Spec.FullColumnRank (centreColumns d.voltage) := by
  classical
  have hn := shipped_names h
  obtain ⟨ls, n, kv, root, passive, hl, hs⟩ := shipped_cases h
  obtain ⟨net, ls', root', hl', hm, -, -, hgm⟩ := C136_network shippedWorld_shipped h
  rw [hl] at hl'
  cases hl'
  obtain ⟨hg, -⟩ := hgm 1 one_pos
  have hred := hs.reducible one_pos hg false
  set K := Spec.remaining bs false with hK
  have hsmall := shipped_small h
  have hKl : K.length ≤ bs.length := by
    rw [hK]
    unfold Spec.remaining
    exact (List.length_filter_le _ _).trans (by simp)
  have hKmem : ∀ k ∈ K, k < bs.length ∧ k ∉ Spec.connections bs ∧ k ∉ Spec.passive bs 0 := by
    intro k hk
    rw [hK] at hk
    unfold Spec.remaining at hk
    obtain ⟨h1, h2⟩ := List.mem_filter.1 hk
    have h2 : k ∉ Spec.removed bs false := by simpa using h2
    unfold Spec.removed at h2
    simp only [Bool.false_eq_true, if_false, Finset.mem_union, not_or] at h2
    exact ⟨List.mem_range.1 h1, h2⟩
  have hKnd : K.Nodup := by
    rw [hK]
    unfold Spec.remaining
    exact List.nodup_range.filter _
  -- one node after the other changes its voltage
  let W : ℕ → ℕ → ℂ := fun i k => if 0 < i ∧ i ≤ K.length ∧ k = K.getD (i - 1) 0 then 2 else 1
  have hex : ∀ i, ∃ v : ℕ → ℂ, (∀ k, k ∉ Spec.passive bs 0 → v k = W i k) ∧ ∀ s ∈ Spec.passive bs 0, Spec.currents (net.makeYBus 1) v s = 0 :=
    fun i => exists_voltages (fun s hs => by rw [hg.square.1]; exact passive_lt hs) hred.regular (W i)
  choose v hv1 hv2 using hex
  let V : ℕ → ℕ → ℂ := fun t => v (t / 2)
  have hm' : makeNet (givenWorld V) name = .ok (net, bs) := hm
  have hlenb : net.bus.length = bs.length := by
    obtain ⟨ls, -, -, -, hbus, -⟩ := C133_single hm
    simpa using congrArg List.length hbus.bus
  have hconn : ∀ k ∈ Spec.connections bs, ∀ t, V t k = 1 := by
    intro k hk t
    refine (hv1 _ k fun hp => passive_not_connection hp hk).trans ?_
    refine if_neg ?_
    rintro ⟨h1, h2, h3⟩
    refine (hKmem k ?_).2.1 hk
    rw [h3, List.getD_eq_getElem _ _ (by omega)]
    exact List.getElem_mem _
  have hp : Spec.Pandapower (givenWorld V) name 1 := by
    refine ⟨one_pos, fun _ _ _ => rfl, fun net' bs' hm2 c res hres => ?_⟩
    rw [hm'] at hm2
    cases hm2
    exact given_powerFlow hg hlenb hconn (fun k hk t => hv2 _ k hk) c res hres
  obtain ⟨d, hd⟩ := C136_runs (givenWorld_shipped V) (cf := demoConf115) (a := { demoArgs115 with network := name }) st rfl rfl ⟨rfl, rfl⟩
    (by simp [demoArgs115]) rfl exactPinv_contract ⟨le_rfl, le_rfl, le_rfl, le_rfl⟩
    (by simp [demoConf115]) (by simp [demoConf115]) (by simp [demoConf115]) (by simp [demoConf115]) (by
      show 1439 ≤ Spec.rawCount (minuteTimes 1) (1 / 60)
      rw [demo115_count]) h (sn := 1) one_pos (fun _ _ => rfl) (fun net' hm2 c hc _ _ _ => by
        have e : makeNet (givenWorld V) name = .ok (net', bs) := hm2
        rw [hm'] at e
        cases e
        exact ⟨_, rfl, ⟨hc, hlenb⟩, hc, hlenb⟩)
    (fun net' hm2 => hp.flow net' bs hm2)
  obtain ⟨dr, dc, dv⟩ := given_stored hn hm' hp (fun i k => by
    show v ((2 * i + 1) / 2) k = v (2 * i / 2) k
    rw [show (2 * i + 1) / 2 = 2 * i / 2 by omega]) hd
  rw [← hK] at dc dv
  refine ⟨givenWorld V, d, givenWorld_shipped V, hp, exactPinv_contract, hd, ?_⟩
  -- linear independence
  have hval : ∀ i < 719, ∀ j < K.length, d.voltage.get (2 * i) j = if i = j + 1 then 2 else 1 := by
    intro i hi j hj
    rw [dv i hi j hj]
    have hmem : K.getD j 0 ∈ K := by
      rw [List.getD_eq_getElem _ _ hj]
      exact List.getElem_mem _
    refine (hv1 _ _ (hKmem _ hmem).2.2).trans ?_
    show (if 0 < 2 * i / 2 ∧ 2 * i / 2 ≤ K.length ∧ K.getD j 0 = K.getD (2 * i / 2 - 1) 0 then (2 : ℂ) else 1) = _
    rw [show 2 * i / 2 = i by omega]
    by_cases hij : i = j + 1
    · rw [if_pos hij, if_pos ⟨by omega, by omega, by rw [hij]; rfl⟩]
    · rw [if_neg hij, if_neg]
      rintro ⟨h1, h2, h3⟩
      rw [List.getD_eq_getElem _ _ hj, List.getD_eq_getElem _ _ (by omega)] at h3
      have := (List.Nodup.getElem_inj_iff hKnd).1 h3
      omega
  intro x hx
  have hrow : ∀ i < 719, ∑ j : Fin (centreColumns d.voltage).c, (centreColumns d.voltage).get (2 * i) j * x j = 0 := by
    intro i hi
    have := congrFun hx ⟨2 * i, by show 2 * i < d.voltage.r; omega⟩
    exact this
  funext j
  have hjc : (j : ℕ) < K.length := by
    have h1 := j.2
    have h2 : (centreColumns d.voltage).c = d.voltage.c := rfl
    omega
  have h0 := hrow 0 (by omega)
  have h1 := hrow (j + 1) (by omega)
  have hsub : ∑ k : Fin (centreColumns d.voltage).c, (if k = j then x k else 0) = 0 := by
    have e := sub_eq_zero.2 (h1.trans h0.symm)
    rw [← Finset.sum_sub_distrib] at e
    refine (Finset.sum_congr rfl fun k _ => ?_).trans e
    have hkc : (k : ℕ) < K.length := by
      have h1 := k.2
      have h2 : (centreColumns d.voltage).c = d.voltage.c := rfl
      omega
    have hg : ∀ i < 719, (centreColumns d.voltage).get (2 * i) k = (if i = (k : ℕ) + 1 then (2 : ℂ) else 1) -
        (∑ s ∈ range d.voltage.r, d.voltage.get s k) / d.voltage.r := by
      intro i hi
      rw [← hval i hi k hkc]
      exact Arr2.ofFn_get _ (by omega) (by omega)
    rw [hg _ (by omega), hg _ (by omega)]
    by_cases hkj : k = j
    · rw [if_pos hkj, if_pos (by rw [hkj]), if_neg (by omega)]
      ring
    · have : (j : ℕ) + 1 ≠ k + 1 := fun e => hkj (Fin.ext (by omega))
      rw [if_neg hkj, if_neg this, if_neg (by omega)]
      ring
  rw [Finset.sum_ite_eq' Finset.univ j x] at hsub
  simpa using hsub

theorem bayesian_loads {st : Store} {name : String} {r : Arr2 ℂ × List IterationStatus} (h : st (resultFile .bayesian name) = some (bayesianNpz r)) :
    bayesianLoad st name = .ok r := by
  unfold bayesianLoad
  rw [load_some h]
  simp [bind, Except.bind, bayesianNpz, npz, Npz.mat, Npz.log, List.lookup, pure, Except.pure]

/-- the hypotheses of C115_shipped and C141_shipped, and what they state, for every shipped single-phase network -/
theorem demo_C141_shipped {name : String} {bs : List BusData} (h : shippedBuses name = some bs) (sc : SimConf) {K : Nat} (hK : 0 < K) :
    ∃ (w : SimWorld) (st : Store) (d : NetworkData) (r : (Arr2 ℂ × Arr2 ℂ × Arr2 ℂ) × (Arr2 ℂ × List IterationStatus)), w.Shipped ∧
      Spec.Pandapower w name 1 ∧ (simulate w demoConf115 { demoArgs115 with network := name } st).res = .ok d ∧
      (identify demoExt115 demoIdConf sc { demoIdArgs with network := name, maxIter := K }
        (simulate w demoConf115 { demoArgs115 with network := name } st).store).res = .ok r ∧
      r.1.1 = d.y ∧ r.1.2.1 = d.y ∧ r.1.2.2 ≠ d.y := by
  have hn := shipped_names h
  set st : Store := Store.savez (fun _ => none) (resultFile .bayesian name) (bayesianNpz (Arr2.eye 1, [])) with hst
  obtain ⟨w, d, hw, hpp, hpi, hd, hrank⟩ := shipped_excited h st
  obtain ⟨net, bs', -, -, -, hbs, -⟩ := C78_simulate (a := { demoArgs115 with network := name }) hn rfl hd
  obtain ⟨h0, -, -, -, hr⟩ := shipped_setup hw hbs hpp false
  obtain ⟨hclean, hids, hsq, heq, hfile⟩ := C115_data (a := { demoArgs115 with network := name }) hn rfl rfl hd ⟨rfl, rfl⟩ rfl hpi hbs h0
    (hpp.yBus net bs' hbs) (hpp.flow net bs' hbs) hr
  obtain ⟨n1, n2⟩ := hclean rfl rfl rfl rfl
  have hrank' := hrank
  rw [show ({ demoArgs115 with network := name } : SimArgs).laplacian = false from rfl, ← n1, ← n2] at heq
  rw [← n1] at hrank
  obtain ⟨-, hrows, -⟩ := matmul_entry heq
  obtain ⟨vh, hs, hvh⟩ := exactSvd_contract _
  obtain ⟨L, hL, -⟩ := standard_centred demoExt115 demoIdConf (by simp [demoIdConf]) exactInv_contract exactSolve_exact exactSolve_total
    exactPinv_contract hsq heq hrank (if_pos hrows.symm) hs hvh K
  set st1 := (simulate w demoConf115 { demoArgs115 with network := name } st).store with hst1
  have hbay : st1 (resultFile .bayesian name) = some (bayesianNpz (Arr2.eye 1, [])) := by
    have hf := (simulate_frame (w := w) (cf := demoConf115) (a := { demoArgs115 with network := name }) (file := resultFile .bayesian name) (by
      intro s hs
      refine file_ne hn ?_
      simp only [List.mem_cons, List.not_mem_nil, or_false] at hs
      rcases hs with rfl | rfl | rfl | rfl <;> simp) st).1
    rw [hst1, hf, hst]
    exact savez_same ..
  have hy0 : ∃ y0, halfSum d.y = .ok y0 ∧ Spec.IsSquare d.y.r y0 := by
    unfold halfSum Arr2.zipWith
    rw [if_pos ⟨hsq, hsq.symm⟩]
    exact ⟨_, rfl, rfl, hsq.symm⟩
  obtain ⟨y0, hy0, hsq0⟩ := hy0
  obtain ⟨prior, hp, -⟩ := C44_complex_prior d.y.r 1 y0 hsq0 false true
  have hvc : d.noisyVoltage.c = d.y.r := (matmul_entry heq).1
  have hbr : resultFile .bayesian name ≠ resultFile .reference name := file_ne hn (by simp)
  have hbs : resultFile .bayesian name ≠ resultFile .standard name := file_ne hn (by simp)
  have hid : (identify demoExt115 demoIdConf sc { demoIdArgs with network := name, maxIter := K } st1).res = .ok ((d.y, d.y, L), (Arr2.eye 1, [])) := by
    refine (C80_partial rfl rfl _ _).2 ⟨by show checkPhases "1" false = _; decide, d, d, y0, _, _, ?_, ?_, rfl, ?_, rfl, hy0, ?_⟩
    · show networkLoad st1 name = _
      have := C49_network name d st1 (h := []) ⟨hn, by simp⟩
      have e : st1.savez (resultFile .network name) (networkNpz d) = st1 := by
        funext f
        by_cases hfn : f = resultFile .network name
        · subst hfn; rw [savez_same]; exact hfile.symm
        · simp [Store.savez, hfn]
      rw [e] at this
      exact this
    · unfold selectPhase
      rw [if_neg]
      · rfl
      · rintro ⟨-, x, hx, hne⟩
        exact hne (hids x hx)
    · show (Prog.call _ _).res = _
      simp only [Prog.call_run]
      exact (standardMethods_fst ..).trans hL
    · show (Prog.call (bayesianEiv demoExt115 demoIdConf name (some d.noisyVoltage) (some d.noisyCurrent) _ _ _ y0
        none false false 0 true) _).res = _
      simp only [Prog.call_run]
      rw [bayesian_reload_fst.1]
      have he : eivPrior demoIdConf d.noisyVoltage.c y0 none false = .ok prior := by
        unfold eivPrior
        rw [hvc]
        show (buildComplexPrior d.y.r 1 y0 false true true false >>= _) = _
        rw [hp]
        rfl
      rw [he]
      show bayesianLoad _ name = _
      have : (identifyStandard demoExt115 demoIdConf { demoIdArgs with network := name, maxIter := K } d (st1.savez (resultFile .reference name)
          (referenceNpz d.y "1" false))).store (resultFile .bayesian name) = some (bayesianNpz (Arr2.eye 1, [])) := by
        show (Prog.call _ _).store _ = _
        simp only [Prog.call_run]
        rw [standardMethods_frame (show resultFile .bayesian name ≠ resultFile .standard name from hbs), savez_other hbr]
        exact hbay
      have h' : (identifyStandard demoExt115 demoIdConf { demoIdArgs with network := name, maxIter := K } d (st1.savez (resultFile .reference name)
          (referenceNpz d.y "1" false))).store (resultFile .bayesian name) =
            some (bayesianNpz (Arr2.eye 1, [])) := this
      exact bayesian_loads h'
  obtain ⟨c1, c2, c3⟩ := C141_shipped hw (a := { demoArgs115 with network := name }) hn rfl rfl rfl hd ⟨rfl, rfl⟩ ⟨rfl, rfl, rfl, rfl⟩ rfl hpi hpp
    (ext := demoExt115) (ic := demoIdConf) (by simp [demoIdConf]) exactInv_contract exactSolve_exact exactSolve_total exactPinv_contract exactSvd_contract hrank'
    (b := { demoIdArgs with network := name, maxIter := K }) ⟨rfl, rfl, rfl⟩ (Or.inl rfl) hK hid
  exact ⟨w, st, d, _, hw, hpp, hd, hid, c1, c2, c3⟩

end
end Verif
