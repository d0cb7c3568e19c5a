/-
A simulation and an identification that meet the hypotheses of C115 and C116: a load and the connection to the grid.
-/
import Verif.Props.SimulateRun
import Verif.Props.Programs2

namespace Verif
open Finset Matrix Net
open Prog hiding pure bind read save call ofExcept
noncomputable section

/-- the voltages without noise are the filtered ones -/
theorem series_filter {z : Nat → ℝ} {r : List ℝ} {voltage current : Arr2 ℂ} {times ts : List ℝ} {f : Nat} {vm cm vp cp : ℝ}
    {x : Arr2 ℂ × Arr2 ℂ × Arr2 ℂ × Arr2 ℂ} (h4 : noiseSeries z r voltage current times ts f vm cm vp cp = .ok x)
    (hg : Spec.Grid times ts) (hc : voltage.c = current.c) (h0 : 0 < voltage.c) :
    filterAndResample voltage times ts f noNoise = .ok x.2.2.1 := by
  obtain ⟨nv, ni, v, i⟩ := x
  obtain ⟨f0, -⟩ := noiseSeries_shape h4
  unfold noiseSeries at h4
  obtain ⟨vi, k1, h4⟩ := Prior.bind_ok h4
  obtain ⟨noisy, k2, h4⟩ := Prior.bind_ok h4
  obtain ⟨⟨nv', ni'⟩, k3, h4⟩ := Prior.bind_ok h4
  obtain ⟨clean, k4, h4⟩ := Prior.bind_ok h4
  obtain ⟨⟨v', i'⟩, k5, h4⟩ := Prior.bind_ok h4
  cases h4
  obtain ⟨e1, e2, e3⟩ := hstack2_ok k1
  have hrow : vi.r = times.length := filter_rows k4 (by omega)
  obtain ⟨o, ho, hr, hcc, hgt⟩ := filter_noNoise hg f0 hrow
  rw [ho] at k4
  cases k4
  obtain ⟨o', ho', hr', hc', hgt'⟩ := filter_noNoise hg f0 (a := voltage) (by omega)
  rw [ho']
  congr 1
  show o' = v
  obtain ⟨s1, s2, s3, s4⟩ := split2_ok k5
  dsimp only at s1 s3
  refine Arr2.ext' (A := o') (B := v) (by rw [hr', s1, hr]) (by rw [hc', s3, hcc]; omega) ?_
  intro t j ht' hj
  have hv : v.get t j = clean.get t j := by
    unfold Arr2.split2 at k5
    split at k5
    · rw [← (Prod.mk.inj (Except.ok.inj k5)).1, Arr2.ofFn_get _ (by omega) (by omega)]
    · cases k5
  rw [hv, hgt' t j (by omega) (by omega), hgt t j (by omega) (by omega)]
  have hcol : vi.col j = voltage.col j := by
    unfold Arr2.hstack at k1
    rw [if_pos e1] at k1
    rw [← Except.ok.inj k1]
    unfold Arr2.col
    refine List.map_congr_left (fun k hk => ?_)
    have hk' : k < voltage.r := List.mem_range.1 hk
    have hj' : j < voltage.c := by omega
    rw [Arr2.ofFn_get _ hk' (by omega), if_pos hj']
  rw [hcol]

/-- without equivalent noise the stored voltages are the filtered ones -/
theorem stage_filter {z : Nat → ℝ} {net : Net} {voltage current : Arr2 ℂ} {times : List ℝ} {fmeas : ℝ} {steps : Nat} {np : NoiseParams}
    {safety : ℝ} {n : NoiseResult} (h : addNoiseAndFilter z net voltage current times fmeas steps np safety = .ok n)
    (ht : Spec.Times times) (hc : voltage.c = current.c) (h0 : 0 < voltage.c) (he : np.equivalent = false) :
    ∃ ts f, rawTimes times fmeas = .ok (Spec.last times, ts) ∧ averagingFactor ts.length steps = .ok f ∧
      filterAndResample voltage times ts f noNoise = .ok n.voltage := by
  unfold addNoiseAndFilter at h
  obtain ⟨⟨m, ts⟩, h1, h⟩ := Prior.bind_ok h
  obtain ⟨f, h2, h⟩ := Prior.bind_ok h
  have h1' := h1
  unfold rawTimes at h1
  obtain ⟨m', hm, h1⟩ := Prior.bind_ok h1
  obtain ⟨ts', hl, h1⟩ := Prior.bind_ok h1
  cases h1
  rw [ht.npmax] at hm
  cases hm
  dsimp only at h h2
  rw [he] at h
  simp only [Bool.false_eq_true, if_false] at h
  obtain ⟨⟨nv, ni, v, i⟩, h4, h⟩ := Prior.bind_ok h
  cases h
  exact ⟨ts, f, h1', h2, series_filter h4 (ht.grid hl) hc h0⟩

/-! ### the network -/

/-- a load and the connection -/
def demoBuses115 : List BusData := [⟨1, 1, .sym 1 0, 20, 0, 0⟩, ⟨2, 3, .sym 0 0, 20, 0, 0⟩]

/-- admittance matrix of one line -/
def demoY115 : Arr2 ℂ := Arr2.ofFn 2 2 (fun i j => if i = j then 1 else -1)

/-- voltages at the load that grow by one in each step -/
def demoFlow115 (_ : Net) (c : Controls) : Except PyErr SimResult :=
  .ok ⟨Arr2.ofFn c.p.r 2 (fun t j => if j = 0 then 1 + (t : ℝ) else 1), Arr2.zeros c.p.r 2⟩

def demoWorld115 : SimWorld :=
  ⟨⟨fun _ high n => if high = 0 then [] else List.replicate n 0, fun _ high n h => by rw [if_neg h.ne', List.length_replicate],
    fun _ high n x hx => by split at hx <;> [cases hx; (rw [List.eq_of_mem_replicate hx]; omega)]⟩, fun _ => 0, fun _ => none, fun _ => some demoBuses115, fun _ => some [], fun _ => none, fun _ => none, [], demoFlow115,
    fun _ _ => .error .valueError, fun _ => .ok demoY115, fun _ => .error .valueError, exactPinv⟩

/-- one day, one sample per minute, as many steps as samples, no noise -/
def demoConf115 : SimConf := ⟨[], false, 1, [], 1, 1439, 1 / 60, 4, 0, 0, 0, 0⟩

def demoArgs115 : SimArgs := ⟨"ieee_33", "", "", 1 / 10, false, false, false, false, false, false, false⟩

theorem demo115_connections : Spec.connections demoBuses115 = {1} := by
  unfold Spec.connections demoBuses115
  ext k
  simp only [mem_filter, mem_range, List.length_cons, List.length_nil, mem_singleton]
  constructor
  · rintro ⟨hk, b, hb, ht⟩
    have : k = 0 ∨ k = 1 := by omega
    rcases this with rfl | rfl
    · simp only [List.getElem?_cons_zero, Option.some.injEq] at hb
      subst hb
      simp at ht
    · rfl
  · rintro rfl
    exact ⟨by omega, _, rfl, rfl⟩

theorem demo115_passive : Spec.passive demoBuses115 0 = ∅ := by
  unfold Spec.passive demoBuses115
  ext k
  simp only [mem_filter, mem_range, List.length_cons, List.length_nil, notMem_empty, iff_false]
  rintro ⟨hk, b, hb, ht⟩
  have : k = 0 ∨ k = 1 := by omega
  rcases this with rfl | rfl
  · simp only [List.getElem?_cons_zero, Option.some.injEq] at hb
    subst hb
    simp [Spec.Passive, Spec.demandOn] at ht
  · simp only [List.getElem?_cons_succ, List.getElem?_cons_zero, Option.some.injEq] at hb
    subst hb
    simp [Spec.Passive, Spec.demandOn] at ht

theorem demo115_net : ∃ net ls', netData (some demoBuses115) (some []) = .ok (net, ls') ∧
    makeNet demoWorld115 "ieee_33" = .ok (net, demoBuses115) := by
  obtain ⟨net, ls', h⟩ := demo73_build demoBuses115 (by simp [demoBuses115]) (by
    intro b hb
    simp only [demoBuses115, List.mem_cons, List.not_mem_nil, or_false] at hb
    rcases hb with rfl | rfl <;> exact ⟨_, _, rfl⟩)
  refine ⟨net, ls', h, ?_⟩
  show (netData (some demoBuses115) (some []) >>= fun r => pure (r.1, demoBuses115)) = _
  rw [h]
  rfl

theorem demo115_flowY {Y : Arr2 ℂ} (hY : Spec.IsSquare 2 Y) (net : Net) (c : Controls) (res : SimResult)
    (h : demoWorld115.flow net c = .ok res) : Spec.PowerFlow demoBuses115 Y res := by
  have hr := (Except.ok.inj (show Except.ok _ = Except.ok res from h)).symm
  subst hr
  refine ⟨hY, rfl, ?_, ?_⟩
  · intro k hk t ht
    rw [demo115_connections, mem_singleton] at hk
    subst hk
    have ht' : t < c.p.r := ht
    have h0 : 0 < c.p.r := by omega
    constructor
    · rw [Arr2.ofFn_get _ ht' (by omega), Arr2.ofFn_get _ h0 (by omega)]
      simp
    · show (Arr2.zeros c.p.r 2 : Arr2 ℝ).get t 1 = (Arr2.zeros c.p.r 2 : Arr2 ℝ).get 0 1
      unfold Arr2.zeros
      rw [Arr2.ofFn_get _ ht' (by omega), Arr2.ofFn_get _ h0 (by omega)]
  · intro k hk
    rw [demo115_passive] at hk
    cases hk

theorem demo115_flow (net : Net) (c : Controls) (res : SimResult) (h : demoWorld115.flow net c = .ok res) :
    Spec.PowerFlow demoBuses115 demoY115 res := demo115_flowY ⟨rfl, rfl⟩ net c res h

theorem demo115_reducible : Spec.Reducible demoBuses115 demoY115 false := by
  refine ⟨?_, ?_, ?_, ?_, ?_⟩
  · intro _ k hk
    rw [demo115_passive] at hk
    cases hk
  · intro _
    left
    rw [demo115_connections]
    decide
  · intro h; cases h
  · rw [demo115_passive]
    intro u hu j hj
    cases hj
  · intro h; cases h

theorem demo115_last : Spec.last (minuteTimes 1) = 86340 := by
  unfold Spec.last minuteTimes
  rw [List.getD_eq_getElem _ _ (by simp)]
  simp
  norm_num

theorem demo115_count : Spec.rawCount (minuteTimes 1) (1 / 60) = 1439 := by
  rw [(minuteTimes_times one_pos).count, demo115_last]
  have : pyRound (1439 : ℝ) = 1439 := by simpa using pyRound_int 1439
  rw [show (86340 : ℝ) * (1 / 60) = 1439 by norm_num, this]
  rfl

theorem demo115_runs (net : Net) : Spec.FlowRuns demoWorld115.flow net (demoConf115.days * 1440) demoBuses115.length := by
  intro c hp _ _ _
  exact ⟨_, rfl, ⟨hp, rfl⟩, hp, rfl⟩

/-- the hypotheses of C116 -/
theorem demo_C116 (st : Store) : ∃ d, (simulate demoWorld115 demoConf115 demoArgs115 st).res = .ok d := by
  obtain ⟨net, ls', h, hm⟩ := demo115_net
  refine C116 st rfl rfl ⟨rfl, rfl⟩ (by simp [demoArgs115]) rfl exactPinv_contract ⟨le_rfl, le_rfl, le_rfl, le_rfl⟩ (by simp [demoConf115])
    (by simp [demoConf115]) (by simp [demoConf115]) (by simp [demoConf115]) (by
      show 1439 ≤ Spec.rawCount (minuteTimes 1) (1 / 60)
      rw [demo115_count]) hm (by simp [demoBuses115]) ?_ rfl (demo115_runs net) (fun c res => demo115_flow net c res) demo115_reducible
  intro b hb
  simp only [demoBuses115, List.mem_cons, List.not_mem_nil, or_false] at hb
  rcases hb with rfl | rfl
  · exact ⟨Or.inl rfl, fun p q hpq => by cases hpq; norm_num⟩
  · exact ⟨Or.inr rfl, fun p q hpq => by cases hpq; norm_num⟩

/-- values of a polygon at its first and last point -/
theorem polygon_first {old : List ℝ} (hs : old.Pairwise (· < ·)) {y : Nat → ℂ} {w : ℂ} (h : Spec.OnPolygon old y (old.getD 0 0) w) : w = y 0 := by
  obtain ⟨k, θ, hk, h0, h1, hv, rfl⟩ := h
  have hlt : ∀ a b, a < b → b < old.length → old.getD a 0 < old.getD b 0 := by
    intro a b hab hb
    rw [List.getD_eq_getElem _ _ (by omega), List.getD_eq_getElem _ _ hb]
    exact List.pairwise_iff_getElem.1 hs a b _ _ hab
  have h2 := hlt k (k + 1) (by omega) hk
  rcases Nat.eq_zero_or_pos k with rfl | hpos
  · have : θ = 0 := by
      by_contra hne
      have : 0 < θ := lt_of_le_of_ne h0 (Ne.symm hne)
      nlinarith
    rw [this]; simp
  · have h3 := hlt 0 k hpos (by omega)
    exfalso
    nlinarith

theorem polygon_last {old : List ℝ} (hs : old.Pairwise (· < ·)) {y : Nat → ℂ} {w : ℂ}
    (h : Spec.OnPolygon old y (old.getD (old.length - 1) 0) w) : w = y (old.length - 1) := by
  obtain ⟨k, θ, hk, h0, h1, hv, rfl⟩ := h
  have hlt : ∀ a b, a < b → b < old.length → old.getD a 0 < old.getD b 0 := by
    intro a b hab hb
    rw [List.getD_eq_getElem _ _ (by omega), List.getD_eq_getElem _ _ hb]
    exact List.pairwise_iff_getElem.1 hs a b _ _ hab
  have h2 := hlt k (k + 1) (by omega) hk
  by_cases hl : k + 1 = old.length - 1
  · rw [← hl] at hv ⊢
    have : θ = 1 := by
      by_contra hne
      have : θ < 1 := lt_of_le_of_ne h1 hne
      nlinarith
    rw [this]; simp
  · have h3 := hlt (k + 1) (old.length - 1) (by omega) (by omega)
    exfalso
    nlinarith

theorem demo115_remaining : Spec.remaining demoBuses115 false = [0] := by
  unfold Spec.remaining Spec.removed
  rw [demo115_connections, demo115_passive]
  decide

/-- the voltages that a run stores, in both modes -/
theorem demo115_voltage {st : Store} {d : NetworkData} {Y : Arr2 ℂ} (hY : Spec.IsSquare 2 Y) (lap : Bool)
    (hred : Spec.Reducible demoBuses115 Y lap)
    (h : (simulate { demoWorld115 with yBus := fun _ => .ok Y } demoConf115 { demoArgs115 with laplacian := lap } st).res = .ok d) {K : List ℕ}
    (hK : K = Spec.remaining demoBuses115 lap) (hK2 : ∀ k ∈ K, k < 2) :
    d.voltage.r = 1439 ∧ d.voltage.c = K.length ∧ ∀ j, j < K.length →
      (K.getD j 0 = 0 → d.voltage.get 0 j = 1 ∧ d.voltage.get 1438 j = 1440 ∧ ∀ t, t < 1439 → 1 ≤ (d.voltage.get t j).re) ∧
      (K.getD j 0 = 1 → ∀ t, t < 1439 → d.voltage.get t j = 1) := by
  obtain ⟨net', ls', hnd, hm⟩ := demo115_net
  obtain ⟨net, bs, l, s, n, hnet, hl, -, hs, -, hno, -, hd, -⟩ := C78_simulate (templates_plain "ieee_33" (by decide)) rfl h
  have e : makeNet demoWorld115 "ieee_33" = .ok (net, bs) := hnet
  rw [hm] at e
  cases e
  obtain ⟨⟨lp, hlp, hlc⟩, -⟩ := hl (Or.inr (by simp [demoArgs115]))
  obtain ⟨hs, -⟩ := hs (Or.inr (by simp [demoArgs115]))
  obtain ⟨hno, -⟩ := hno (Or.inr (by simp [demoArgs115]))
  have hlp' : lp = .gaussian (1 / 10) 1 none := by
    rcases hlp with ⟨-, rfl⟩ | ⟨h0, -⟩
    · rfl
    · exfalso
      have : (1 / 10 : ℝ) ≤ 0 := h0
      norm_num at this
  subst hlp'
  obtain ⟨p, q, T⟩ := l
  obtain ⟨e1, e2⟩ := C76_gaussian _ _ _ _ _ _ _ _ _ _ _ hlc
  obtain ⟨p0, q0, -, -, ht0⟩ := computeLoads_ok hlc
  replace ht0 : T = minuteTimes 1 := ht0
  have hlast : Spec.last T = 86340 := by rw [ht0]; exact demo115_last
  have ht : Spec.Times T := by rw [ht0]; exact minuteTimes_times one_pos
  -- the simulated voltages
  have hsv : s.1.r = p.r ∧ s.1.c = 2 ∧ s.2.1.c = 2 ∧ ∀ t j, t < p.r → j < 2 → s.1.get t j = if j = 0 then 1 + (t : ℂ) else 1 := by
    unfold simCompute at hs
    obtain ⟨y, hy, hs⟩ := Prior.bind_ok hs
    obtain ⟨res, hres, hs⟩ := Prior.bind_ok hs
    obtain ⟨o, ho, hs⟩ := Prior.bind_ok hs
    unfold simRun frame at hres
    obtain ⟨p', hp', hres⟩ := Prior.bind_ok hres
    obtain ⟨q', hq', hres⟩ := Prior.bind_ok hres
    split at hp'
    · cases hp'
      have hr := (Except.ok.inj (show Except.ok _ = Except.ok res from hres)).symm
      unfold getCurrentAndVoltage at ho
      obtain ⟨v, hv, ho⟩ := Prior.bind_ok ho
      obtain ⟨y', hy', ho⟩ := Prior.bind_ok ho
      obtain ⟨i, hi, ho⟩ := Prior.bind_ok ho
      cases ho
      cases hs
      have hye : y' = Y := (Except.ok.inj (show Except.ok Y = Except.ok y' from hy')).symm
      subst hye
      obtain ⟨-, -, hic, -⟩ := matmul_entry hi
      unfold polarVoltage at hv
      rw [hr, if_pos ⟨rfl, rfl⟩] at hv
      have hv' := (Except.ok.inj hv).symm
      refine ⟨by rw [hv']; rfl, by rw [hv']; rfl, hic.trans hY.2, ?_⟩
      intro t j ht hj
      show v.get t j = _
      rw [hv']
      refine (Arr2.ofFn_get (r := p.r) (c := 2) _ ht hj).trans ?_
      unfold Arr2.zeros
      dsimp only
      rw [Arr2.ofFn_get _ ht hj, Arr2.ofFn_get _ ht hj]
      by_cases h0 : j = 0
      · simp [h0]
      · simp [h0]
    · cases hp'
  obtain ⟨sr, sc, sc', sv⟩ := hsv
  have hlen : T.length = 1440 := by rw [ht0, minuteTimes_length]
  clear ht0
  have hpr : p.r = 1440 := by rw [e1]; exact hlen
  obtain ⟨ts, f, t1, t2, t3⟩ := stage_filter hno ht (by rw [sc, sc']) (by rw [sc]; omega) rfl
  -- the sampling times
  unfold rawTimes at t1
  obtain ⟨m', hm', t1⟩ := Prior.bind_ok t1
  obtain ⟨ts', hl', t1⟩ := Prior.bind_ok t1
  cases t1
  have hround : pyRound (Spec.last T * demoConf115.fmeas) = 1439 := by
    have : pyRound (1439 : ℝ) = 1439 := by simpa using pyRound_int 1439
    rw [hlast]
    show pyRound (86340 * (1 / 60)) = 1439
    rw [show (86340 : ℝ) * (1 / 60) = 1439 by norm_num, this]
  have hgrid : Spec.Grid T ts := ht.grid hl'
  rw [hround] at hl'
  unfold linspace at hl'
  rw [if_neg (by norm_num)] at hl'
  have hts := (Except.ok.inj hl').symm
  have htl : ts.length = 1439 := by rw [hts]; simp
  unfold averagingFactor at t2
  rw [htl, if_neg (by simp [demoConf115])] at t2
  have hf : f = 1 := by
    rw [← Except.ok.inj t2]
    rfl
  subst hf
  obtain ⟨o, ho, or, oc, og⟩ := C68_blocks hgrid one_ne_zero (a := s.1) (by rw [sr, hpr, hlen])
  have ho' : o = n.voltage := Except.ok.inj (ho.symm.trans t3)
  subst ho'
  rw [htl, Nat.div_one] at or
  have hts0 : ts.getD 0 0 = T.getD 0 0 := by
    rw [ht.zero, List.getD_eq_getElem _ _ (by omega)]
    simp [hts]
  have hts1 : ts.getD 1438 0 = T.getD (T.length - 1) 0 := by
    have := hlast
    rw [show T.getD (T.length - 1) 0 = Spec.last T from rfl, List.getD_eq_getElem _ _ (by omega)]
    simp only [hts, List.getElem_map, List.getElem_range]
    rw [this]
    norm_num
  obtain ⟨d', g1, -, -, -, -, g⟩ := network_exact (w := { demoWorld115 with yBus := fun _ => .ok Y }) (cf := demoConf115) (a := { demoArgs115 with laplacian := lap }) rfl rfl rfl
    exactPinv_contract hnd (by simp [demoBuses115]) rfl (fun c res => demo115_flowY hY net' c res) hred hs ht hno
  rw [hd] at g1
  cases g1
  rw [show ({ demoArgs115 with laplacian := lap } : SimArgs).laplacian = lap from rfl, ← hK] at g
  refine ⟨by rw [g]; exact or, by rw [g]; rfl, fun j hj => ?_⟩
  have hj2 : K.getD j 0 < 2 := hK2 _ (by rw [List.getD_eq_getElem _ _ hj]; exact List.getElem_mem _)
  have dget : ∀ t, t < 1439 → d.voltage.get t j = n.voltage.get t (K.getD j 0) := by
    intro t ht
    rw [g]
    unfold Spec.columnsAt
    rw [Arr2.ofFn_get _ (by rw [or]; exact ht) hj]
  obtain ⟨r, r1, r2⟩ := og (K.getD j 0) (by rw [sc]; exact hj2)
  rw [htl, Nat.div_one] at r2
  have hr2 : ∀ t, t < 1439 → d.voltage.get t j = r t := by
    intro t ht
    rw [dget t ht, r2 t ht]
    simp
  refine ⟨fun hk => ⟨?_, ?_, fun t ht => ?_⟩, fun hk t ht => ?_⟩
  · have := r1 0 (by omega)
    rw [hts0] at this
    rw [hr2 0 (by omega), polygon_first ht.sorted this, sv 0 _ (by omega) hj2, if_pos hk]
    simp
  · have := r1 1438 (by omega)
    rw [hts1] at this
    rw [hr2 1438 (by omega), polygon_last ht.sorted this, hlen, sv _ _ (by omega) hj2, if_pos hk]
    norm_num
  · obtain ⟨k, θ, hk', h0, h1, -, hw⟩ := r1 t (by omega)
    rw [hr2 t ht, hw]
    dsimp only
    rw [sv k _ (by omega) hj2, sv (k + 1) _ (by omega) hj2, if_pos hk, if_pos hk]
    simp
    nlinarith [(Nat.cast_nonneg k : (0 : ℝ) ≤ k)]
  · obtain ⟨k, θ, hk', h0, h1, -, hw⟩ := r1 t (by omega)
    rw [hr2 t ht, hw]
    dsimp only
    rw [sv k _ (by omega) hj2, sv (k + 1) _ (by omega) hj2, if_neg (by omega), if_neg (by omega)]
    push_cast
    ring

/-- the voltages of the load are not constant -/
theorem demo115_rank {st : Store} {d : NetworkData} (h : (simulate demoWorld115 demoConf115 demoArgs115 st).res = .ok d) :
    d.voltage.c = 1 ∧ Spec.FullColumnRank (centreData false d.voltage d.current).1 := by
  obtain ⟨dr, dc, hv⟩ := demo115_voltage ⟨rfl, rfl⟩ false demo115_reducible h demo115_remaining.symm (by simp)
  obtain ⟨v0, v1, -⟩ := (hv 0 (by simp)).1 rfl
  refine ⟨dc, ?_⟩
  intro x hx
  have hne : ∃ t, t < 1439 ∧ (centreColumns d.voltage).get t 0 ≠ 0 := by
    by_contra hall
    push Not at hall
    have h0 := hall 0 (by omega)
    have h1 := hall 1438 (by omega)
    unfold centreColumns at h0 h1
    rw [Arr2.ofFn_get _ (by omega) (by rw [dc]; simp), v0] at h0
    rw [Arr2.ofFn_get _ (by omega) (by rw [dc]; simp), v1] at h1
    have : (1 : ℂ) = 1440 := by rw [sub_eq_zero.1 h0]; exact (sub_eq_zero.1 h1).symm
    norm_num at this
  obtain ⟨t, ht', hne⟩ := hne
  funext j
  have hj0 : (j : ℕ) = 0 := by
    have h2 : (centreData false d.voltage d.current).1.c = 1 := dc
    have := j.2
    omega
  have h2 := congrFun hx ⟨t, by show t < d.voltage.r; omega⟩
  rw [Matrix.mulVec, dotProduct, Finset.sum_eq_single j] at h2
  · rcases mul_eq_zero.1 h2 with h3 | h3
    · exfalso
      refine hne ?_
      rw [← hj0]
      exact h3
    · exact h3
  · intro k _ hk
    refine absurd (Fin.ext ?_) hk
    have h2 : (centreData false d.voltage d.current).1.c = 1 := dc
    have := k.2
    omega
  · simp

/-- options and routines of the identification -/
def demoExt115 : NumExt := ⟨exactPinv, exactSvd, exactInv, exactSolve⟩

/-- the hypotheses of C115, and what it states -/
theorem demo_C115 (sc : SimConf) (K : Nat) : ∃ st d r, (simulate demoWorld115 demoConf115 demoArgs115 st).res = .ok d ∧
    (identify demoExt115 demoIdConf sc { demoIdArgs with maxIter := K } (simulate demoWorld115 demoConf115 demoArgs115 st).store).res = .ok r ∧
    r.1.1 = d.y ∧ r.1.2.1 = d.y ∧ d.y.r = 1 := by
  have hn := templates_plain "ieee_33" (by decide)
  obtain ⟨net, ls', hnd, hm⟩ := demo115_net
  set st : Store := Store.savez (fun _ => none) (resultFile .bayesian "ieee_33") (bayesianNpz (Arr2.eye 1, [])) with hst
  obtain ⟨d, hd⟩ := demo_C116 st
  obtain ⟨hwid, hrank⟩ := demo115_rank hd
  obtain ⟨hclean, hids, hsq, heq, hfile⟩ := C115_data hn rfl rfl hd ⟨rfl, rfl⟩ rfl exactPinv_contract hm (by simp [demoBuses115]) rfl
    (fun c res => demo115_flow net c res) demo115_reducible
  obtain ⟨n1, n2⟩ := hclean rfl rfl rfl rfl
  rw [show demoArgs115.laplacian = false from rfl, ← n1, ← n2] at heq
  rw [← n1, ← n2] at hrank
  obtain ⟨-, hrows, -⟩ := matmul_entry heq
  obtain ⟨vh, hs, hvh⟩ := exactSvd_contract _
  obtain ⟨L, hL, -⟩ := standard_centred demoExt115 demoIdConf (by simp [demoIdConf]) exactInv_contract exactSolve_exact exactSolve_total
    exactPinv_contract hsq heq hrank (if_pos hrows.symm) hs hvh K
  set st1 := (simulate demoWorld115 demoConf115 demoArgs115 st).store with hst1
  have hbay : st1 (resultFile .bayesian "ieee_33") = some (bayesianNpz (Arr2.eye 1, [])) := by
    have hf := (simulate_frame (w := demoWorld115) (cf := demoConf115) (a := demoArgs115) (file := resultFile .bayesian "ieee_33") (by
      intro s hs
      refine file_ne hn ?_
      simp only [List.mem_cons, List.not_mem_nil, or_false] at hs
      rcases hs with rfl | rfl | rfl | rfl <;> simp) st).1
    rw [hst1, hf, hst]
    exact savez_same ..
  have hy0 : ∃ y0, halfSum d.y = .ok y0 ∧ Spec.IsSquare d.y.r y0 := by
    unfold halfSum Arr2.zipWith
    rw [if_pos ⟨hsq, hsq.symm⟩]
    exact ⟨_, rfl, rfl, hsq.symm⟩
  obtain ⟨y0, hy0, hsq0⟩ := hy0
  obtain ⟨prior, hp, -⟩ := C44_complex_prior d.y.r 1 y0 hsq0 false true
  have hvc : d.noisyVoltage.c = d.y.r := (matmul_entry heq).1
  have hbr : resultFile .bayesian "ieee_33" ≠ resultFile .reference "ieee_33" := file_ne hn (by simp)
  have hbs : resultFile .bayesian "ieee_33" ≠ resultFile .standard "ieee_33" := file_ne hn (by simp)
  have hid : (identify demoExt115 demoIdConf sc { demoIdArgs with maxIter := K } st1).res = .ok ((d.y, d.y, L), (Arr2.eye 1, [])) := by
    refine (C80_partial rfl rfl _ _).2 ⟨by show checkPhases "1" false = _; decide, d, d, y0, _, _, ?_, ?_, rfl, ?_, rfl, hy0, ?_⟩
    · show networkLoad st1 "ieee_33" = _
      have := C49_network "ieee_33" d st1 (h := []) ⟨hn, by simp⟩
      have e : st1.savez (resultFile .network "ieee_33") (networkNpz d) = st1 := by
        funext f
        by_cases hfn : f = resultFile .network "ieee_33"
        · subst hfn; rw [savez_same]; exact hfile.symm
        · simp [Store.savez, hfn]
      rw [e] at this
      exact this
    · unfold selectPhase
      rw [if_neg]
      · rfl
      · rintro ⟨-, x, hx, hne⟩
        exact hne (hids x hx)
    · show (Prog.call _ _).res = _
      simp only [call_run]
      exact (standardMethods_fst ..).trans hL
    · show (Prog.call (bayesianEiv demoExt115 demoIdConf "ieee_33" (some d.noisyVoltage) (some d.noisyCurrent) _ _ _ y0
        none false false 0 true) _).res = _
      simp only [call_run]
      rw [bayesian_reload_fst.1]
      have he : eivPrior demoIdConf d.noisyVoltage.c y0 none false = .ok prior := by
        unfold eivPrior
        rw [hvc]
        show (buildComplexPrior d.y.r 1 y0 false true true false >>= _) = _
        rw [hp]
        rfl
      rw [he]
      show bayesianLoad _ "ieee_33" = _
      have : (identifyStandard demoExt115 demoIdConf { demoIdArgs with maxIter := K } d (st1.savez (resultFile .reference "ieee_33")
          (referenceNpz d.y "1" false))).store (resultFile .bayesian "ieee_33") = some (bayesianNpz (Arr2.eye 1, [])) := by
        show (Prog.call _ _).store _ = _
        simp only [call_run]
        rw [standardMethods_frame (show resultFile .bayesian "ieee_33" ≠ resultFile .standard demoIdArgs.network from hbs), savez_other hbr]
        exact hbay
      have h' : (identifyStandard demoExt115 demoIdConf { demoIdArgs with maxIter := K } d (st1.savez (resultFile .reference demoIdArgs.network)
          (referenceNpz d.y demoIdArgs.phases demoIdArgs.laplacian))).store (resultFile .bayesian "ieee_33") =
            some (bayesianNpz (Arr2.eye 1, [])) := this
      unfold bayesianLoad
      have e := load_some h'
      rw [e]
      simp [bind, Except.bind, bayesianNpz, npz, Npz.mat, Npz.log, List.lookup, pure, Except.pure]
  obtain ⟨c1, c2, -⟩ := C115 hn rfl rfl hd ⟨rfl, rfl⟩ ⟨rfl, rfl, rfl, rfl⟩ rfl exactPinv_contract hm (by simp [demoBuses115]) rfl
    (fun c res => demo115_flow net c res) demo115_reducible (ic := demoIdConf) (by simp [demoIdConf]) exactInv_contract exactSolve_exact
    exactSolve_total exactPinv_contract exactSvd_contract (by rw [← n1, ← n2]; exact hrank) (b := { demoIdArgs with maxIter := K }) ⟨rfl, rfl, rfl⟩ (Or.inl rfl) hid
  refine ⟨st, d, _, hd, hid, c1, c2, ?_⟩
  rw [← hvc, n1]
  exact hwid

end
end Verif
