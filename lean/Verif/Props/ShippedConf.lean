/-
C182: the number of averaged samples that a run with the shipped configuration stores. The time stamps of the loads end one minute before
the end of the last day, so that one block per minute of the loads does not fit the number of raw samples.
-/
import Verif.Props.HiddenRun
import Verif.Props.SimulateRun3

namespace Verif
open Finset
noncomputable section

namespace Spec

/-- all four stored arrays of measurements have `rows` rows -/
def Rows (d : NetworkData) (rows : ℕ) : Prop :=
  d.noisyVoltage.r = rows ∧ d.noisyCurrent.r = rows ∧ d.voltage.r = rows ∧ d.current.r = rows

end Spec

theorem deleteCols_rows {m m' : Arr2 ℂ} {idx : List ℕ} (h : m.deleteCols idx = .ok m') : m'.r = m.r := by
  unfold Arr2.deleteCols at h
  split at h
  · cases h; rfl
  · cases h

theorem sequence_rows {m m' : Arr2 ℂ} (h : measurementPhaseToSequence m = .ok m') : m'.r = m.r :=
  (matmul_entry h).2.1

/-- reduction and change of coordinates keep the samples -/
theorem networkData_rows {w : SimWorld} {a : SimArgs} {net : Net} {hidden : List Int} {n : NoiseResult} {d : NetworkData}
    (h : networkData w a net hidden n = .ok d) {rows : ℕ}
    (hr : ∀ x ∈ [n.noisyVoltage, n.noisyCurrent, n.voltage, n.current], x.r = rows) : Spec.Rows d rows ∧ d.fparam = n.fparam := by
  simp only [List.mem_cons, List.not_mem_nil, or_false, forall_eq_or_imp, forall_eq] at hr
  obtain ⟨r1, r2, r3, r4⟩ := hr
  unfold networkData at h
  obtain ⟨⟨idx, y⟩, -, h⟩ := Prior.bind_ok h
  obtain ⟨d1, h1, h⟩ := Prior.bind_ok h
  have hd1 : Spec.Rows d1 rows ∧ d1.fparam = n.fparam := by
    unfold dropReduced at h1
    obtain ⟨nv, e1, h1⟩ := Prior.bind_ok h1
    obtain ⟨ni, e2, h1⟩ := Prior.bind_ok h1
    obtain ⟨v, e3, h1⟩ := Prior.bind_ok h1
    obtain ⟨i, e4, h1⟩ := Prior.bind_ok h1
    obtain ⟨r, -, h1⟩ := Prior.bind_ok h1
    obtain ⟨t, -, h1⟩ := Prior.bind_ok h1
    cases h1
    exact ⟨⟨(deleteCols_rows e1).trans r1, (deleteCols_rows e2).trans r2, (deleteCols_rows e3).trans r3, (deleteCols_rows e4).trans r4⟩, rfl⟩
  split at h
  · unfold toSequence at h
    obtain ⟨nv, e1, h⟩ := Prior.bind_ok h
    obtain ⟨ni, e2, h⟩ := Prior.bind_ok h
    obtain ⟨v, e3, h⟩ := Prior.bind_ok h
    obtain ⟨i, e4, h⟩ := Prior.bind_ok h
    obtain ⟨y', -, h⟩ := Prior.bind_ok h
    cases h
    obtain ⟨⟨q1, q2, q3, q4⟩, q5⟩ := hd1
    exact ⟨⟨(sequence_rows e1).trans q1, (sequence_rows e2).trans q2, (sequence_rows e3).trans q3, (sequence_rows e4).trans q4⟩, q5⟩
  · cases h
    exact hd1

/-- rows and averaging factor of one phase -/
theorem single_count {z : Nat → ℝ} {net : Net} {voltage current : Arr2 ℂ} {times : List ℝ} {fmeas : ℝ} {steps : Nat}
    {p : NoiseParams} {safety : ℝ} {res : NoiseResult} (h : addNoiseAndFilter z net voltage current times fmeas steps p safety = .ok res) :
    res.fparam = Spec.rawCount times fmeas / steps ∧
    res.voltage.r = if p.equivalent then (pyRound (times.foldl max (times.getD 0 0) * fmeas / (Spec.rawCount times fmeas / steps : ℕ))).toNat
      else Spec.rawCount times fmeas / (Spec.rawCount times fmeas / steps) := by
  unfold addNoiseAndFilter at h
  obtain ⟨⟨m, ts⟩, h1, h⟩ := Prior.bind_ok h
  obtain ⟨f, h2, h⟩ := Prior.bind_ok h
  obtain ⟨hm, hl⟩ := rawTimes_spec h1
  dsimp only at h h2 hm hl
  unfold averagingFactor at h2
  split at h2
  · cases h2
  cases h2
  rw [hl] at h
  split at h
  · rename_i he
    obtain ⟨ts', h3, h⟩ := Prior.bind_ok h
    obtain ⟨⟨nv, ni, v, i⟩, h4, h⟩ := Prior.bind_ok h
    cases h
    obtain ⟨-, -, -, c, -, -⟩ := noiseSeries_shape h4
    refine ⟨rfl, ?_⟩
    rw [if_pos he]
    unfold equivalentTimes at h3
    split at h3
    · cases h3
    · rw [← hm, ← (linspace_spec h3).1]
      exact c.trans (Nat.div_one _)
  · rename_i he
    obtain ⟨⟨nv, ni, v, i⟩, h4, h⟩ := Prior.bind_ok h
    cases h
    obtain ⟨-, -, -, c, -, -⟩ := noiseSeries_shape h4
    refine ⟨rfl, ?_⟩
    rw [if_neg he]
    exact c.trans (by rw [hl])

/-- rows and averaging factor of three phases -/
theorem three_count {z : Nat → ℝ} {net : Net} {voltage current : Arr2 ℂ} {times : List ℝ} {fmeas : ℝ} {steps : Nat}
    {p : NoiseParams} {safety : List ℝ} {res : NoiseResult} (h : addNoiseAndFilter3 z net voltage current times fmeas steps p safety = .ok res) :
    res.fparam = (if p.equivalent then 1 else Spec.rawCount times fmeas / steps) ∧
    res.voltage.r = if p.equivalent then (pyRound (times.foldl max (times.getD 0 0) * fmeas / (Spec.rawCount times fmeas / steps : ℕ))).toNat
      else Spec.rawCount times fmeas / (Spec.rawCount times fmeas / steps) := by
  unfold addNoiseAndFilter3 at h
  obtain ⟨r, -, h⟩ := Prior.bind_ok h
  obtain ⟨⟨m, ts⟩, h1, h⟩ := Prior.bind_ok h
  obtain ⟨f, h2, h⟩ := Prior.bind_ok h
  obtain ⟨hm, hl⟩ := rawTimes_spec h1
  dsimp only at h h2 hm hl
  unfold averagingFactor at h2
  split at h2
  · cases h2
  cases h2
  rw [hl] at h
  split at h
  · rename_i he
    obtain ⟨ts', h3, h⟩ := Prior.bind_ok h
    obtain ⟨⟨nv, ni, v, i⟩, h4, h⟩ := Prior.bind_ok h
    cases h
    obtain ⟨-, -, -, c, -, -⟩ := noiseSeries_shape h4
    rw [if_pos he, if_pos he]
    refine ⟨rfl, ?_⟩
    unfold equivalentTimes at h3
    split at h3
    · cases h3
    · rw [← hm, ← (linspace_spec h3).1]
      exact c.trans (Nat.div_one _)
  · rename_i he
    obtain ⟨⟨nv, ni, v, i⟩, h4, h⟩ := Prior.bind_ok h
    cases h
    obtain ⟨-, -, -, c, -, -⟩ := noiseSeries_shape h4
    rw [if_neg he, if_neg he]
    refine ⟨rfl, ?_⟩
    exact c.trans (by rw [hl])

/-- the last time stamp of the loads of `days` days -/
theorem minute_max {days : ℕ} (h : 0 < days) : (minuteTimes days).foldl max ((minuteTimes days).getD 0 0) = 60 * (days * 1440 - 1 : ℕ) ∧
    ∀ f : ℝ, Spec.rawCount (minuteTimes days) f = (pyRound (60 * (days * 1440 - 1 : ℕ) * f)).toNat := by
  have ht := minuteTimes_times h
  have hlast : Spec.last (minuteTimes days) = 60 * (days * 1440 - 1 : ℕ) := by
    have hl : (minuteTimes days).length = days * 1440 := by rw [minuteTimes_length]; ring
    unfold Spec.last
    rw [hl]
    unfold minuteTimes
    rw [List.getD_eq_getElem _ _ (by simp; omega)]
    simp [mul_comm]
  refine ⟨?_, fun f => by rw [ht.count, hlast]⟩
  rw [← hlast]
  have := ht.npmax
  cases hT : minuteTimes days with
  | nil => rw [hT] at ht; have := ht.two; simp at this
  | cons t ts =>
    rw [hT] at this
    have e : ts.foldl max t = Spec.last (t :: ts) := Except.ok.inj this
    rw [← e]
    simp

/-- what a run that recomputes everything stores: rows and averaging factor in terms of the number of raw samples and the last
time stamp -/
theorem stored_count {w : SimWorld} {cf : SimConf} {a : SimArgs} {st : Store} {d : NetworkData} (hn : Spec.PlainName a.network)
    (h : (simulate w cf a st).res = .ok d) (hall : a.loads = a.networkSim ∧ a.networkSim = a.noise) {N : ℕ}
    (hN : N = (pyRound (60 * (cf.days * 1440 - 1 : ℕ) * cf.fmeas)).toNat) :
    Spec.Rows d (if a.equivalent then (pyRound (60 * (cf.days * 1440 - 1 : ℕ) * cf.fmeas / (N / cf.steps : ℕ))).toNat else N / (N / cf.steps)) ∧
      d.fparam = (if a.threePhased ∧ a.equivalent then 1 else N / cf.steps) := by
  have hRe : Spec.Redone a.loads [a.loads, a.networkSim, a.noise] := by
    obtain ⟨e1, e2⟩ := hall
    cases hb : a.noise
    · right
      intro f hf
      rw [e1, e2, hb] at hf
      simpa using hf
    · left
      rw [e1, e2, hb]
  have hRn : Spec.Redone a.noise [a.loads, a.networkSim, a.noise] := by rw [hall.1, hall.2] at hRe ⊢; exact hRe
  have hdays : ∀ {lp : LoadParams} {c : Option (List Int)}, Spec.Requested w cf a c lp → lp.days = cf.days := by
    rintro lp c (⟨-, rfl⟩ | ⟨-, -, -, rfl⟩) <;> rfl
  cases h3 : a.threePhased
  · obtain ⟨net, bs, l, s, n, -, hl, -, -, -, hno, -, hd, -⟩ := C78_simulate hn h3 h
    obtain ⟨⟨lp, hrq, hlp⟩, -⟩ := hl hRe
    obtain ⟨hno, -⟩ := hno hRn
    have hT : l.2.2 = minuteTimes cf.days := by
      unfold computeLoads at hlp
      obtain ⟨⟨p, q⟩, -, hlp⟩ := Prior.bind_ok hlp
      obtain ⟨⟨p', q'⟩, -, hlp⟩ := Prior.bind_ok hlp
      rw [← Except.ok.inj hlp, ← hdays hrq]
    rw [hT] at hno
    have hd0 : 0 < cf.days := Nat.pos_of_ne_zero fun h0 => by
      unfold addNoiseAndFilter rawTimes at hno
      simp only [h0, minuteTimes] at hno
      cases hno
    obtain ⟨e1, e2⟩ := single_count hno
    obtain ⟨m1, m2⟩ := minute_max hd0
    obtain ⟨-, -, hrows, -⟩ := C86_single hno
    rw [m1, m2, ← hN] at e2
    rw [m2, ← hN] at e1
    obtain ⟨q1, q2⟩ := networkData_rows hd hrows
    refine ⟨?_, ?_⟩
    · rw [e2] at q1
      exact q1
    · rw [q2, e1]
      simp
  · obtain ⟨net, bs, l, s, n, -, hl, -, -, -, hno, -, hd, -⟩ := C78_simulate3 hn h3 h
    obtain ⟨⟨lp, hrq, hlp⟩, -⟩ := hl hRe
    obtain ⟨hno, -⟩ := hno hRn
    have hT : l.2.2.2 = minuteTimes cf.days := by
      unfold computeLoads3 at hlp
      obtain ⟨⟨p, q, asym⟩, -, hlp⟩ := Prior.bind_ok hlp
      obtain ⟨⟨p', q'⟩, -, hlp⟩ := Prior.bind_ok hlp
      obtain ⟨asym', -, hlp⟩ := Prior.bind_ok hlp
      rw [← Except.ok.inj hlp, ← hdays hrq]
    rw [hT] at hno
    have hd0 : 0 < cf.days := Nat.pos_of_ne_zero fun h0 => by
      unfold addNoiseAndFilter3 rawTimes at hno
      obtain ⟨r, -, hno⟩ := Prior.bind_ok hno
      simp only [h0, minuteTimes] at hno
      cases hno
    obtain ⟨e1, e2⟩ := three_count hno
    obtain ⟨m1, m2⟩ := minute_max hd0
    obtain ⟨-, -, hrows, -⟩ := C86_three hno
    rw [m1, m2, ← hN] at e2
    rw [m2, ← hN] at e1
    obtain ⟨q1, q2⟩ := networkData_rows hd hrows
    refine ⟨?_, ?_⟩
    · rw [e2] at q1
      exact q1
    · rw [q2, e1]
      simp

/-- C182: with one averaged sample per minute of the loads and at least as many of them as the blocks have raw samples, a run without
`--equivalent-noise` averages one raw sample less than a minute has, and stores more averaged samples than configured unless the
blocks are long enough -/
theorem C182 {w : SimWorld} {cf : SimConf} {a : SimArgs} {st : Store} {d : NetworkData} (hn : Spec.PlainName a.network)
    (h : (simulate w cf a st).res = .ok d) (hall : a.loads = a.networkSim ∧ a.networkSim = a.noise) (he : a.equivalent = false) {F : ℕ}
    (hF : 0 < F) (hfm : cf.fmeas = F) (hst : cf.steps = cf.days * 1440) (hle : 60 * F ≤ cf.steps) :
    Spec.Rows d (cf.steps - 1 + (cf.steps - 1) / (60 * F - 1)) ∧ d.fparam = 60 * F - 1 ∧
      (Spec.Rows d cf.steps ↔ cf.steps + 1 < 120 * F) := by
  have hN : (pyRound (60 * (cf.days * 1440 - 1 : ℕ) * cf.fmeas)).toNat = 60 * F * (cf.steps - 1) := by
    have : (60 * ((cf.days * 1440 - 1 : ℕ) : ℝ) * cf.fmeas) = ((60 * F * (cf.steps - 1) : ℕ) : ℤ) := by
      rw [hfm, ← hst]
      push_cast
      ring
    rw [this, pyRound_int]
    rfl
  obtain ⟨h1, h2⟩ := stored_count hn h hall hN.symm
  obtain ⟨S, hS⟩ : ∃ S, cf.steps = S + 1 := ⟨cf.steps - 1, by omega⟩
  obtain ⟨B, hB⟩ : ∃ B, 60 * F = B + 1 := ⟨60 * F - 1, by omega⟩
  rw [he] at h1 h2
  simp only [Bool.false_eq_true, if_false, and_false] at h1 h2
  have hf : 60 * F * (cf.steps - 1) / cf.steps = B := by
    rw [hS, hB, Nat.add_sub_cancel]
    refine Nat.div_eq_of_lt_le ?_ ?_ <;> nlinarith
  have hr : 60 * F * (cf.steps - 1) / B = S + S / B := by
    rw [hS, hB, Nat.add_sub_cancel, Nat.add_mul, one_mul, Nat.mul_add_div (by omega)]
  have hB' : 60 * F - 1 = B := by omega
  have hS' : cf.steps - 1 = S := by omega
  rw [hf] at h2
  rw [hf, hr] at h1
  rw [hB', hS']
  refine ⟨h1, by rw [h2]; have : (60 * F : ℝ) = B + 1 := by exact_mod_cast hB
                 linarith, ?_⟩
  have hdiv : S / B = 1 ↔ S < 2 * B := by
    have hB0 : 0 < B := by omega
    rw [Nat.div_eq_iff hB0]
    omega
  constructor
  · intro h'
    have := h'.1.symm.trans h1.1
    have : S / B = 1 := by omega
    have := hdiv.1 this
    omega
  · intro h'
    have e := hdiv.2 (by omega)
    rw [e] at h1
    rw [hS]
    exact h1

/-- C182 with `--equivalent-noise`: the ratio is rounded instead of truncated, so blocks half as long again as the number of averaged
samples suffice -/
theorem C182_equivalent {w : SimWorld} {cf : SimConf} {a : SimArgs} {st : Store} {d : NetworkData} (hn : Spec.PlainName a.network)
    (h : (simulate w cf a st).res = .ok d) (hall : a.loads = a.networkSim ∧ a.networkSim = a.noise) (he : a.equivalent = true) {F : ℕ}
    (hF : 0 < F) (hfm : cf.fmeas = F) (hst : cf.steps = cf.days * 1440) (hle : 60 * F ≤ cf.steps) :
    Spec.Rows d (cf.steps - 1 + (2 * (cf.steps - 1) + (60 * F - 1)) / (2 * (60 * F - 1))) ∧
      d.fparam = (if a.threePhased then 1 else 60 * F - 1) ∧ (Spec.Rows d cf.steps ↔ 2 * (cf.steps - 1) < 3 * (60 * F - 1)) := by
  have hx : (60 * ((cf.days * 1440 - 1 : ℕ) : ℝ) * cf.fmeas) = ((60 * F * (cf.steps - 1) : ℕ) : ℤ) := by
    rw [hfm, ← hst]
    push_cast
    ring
  have hN : (pyRound (60 * (cf.days * 1440 - 1 : ℕ) * cf.fmeas)).toNat = 60 * F * (cf.steps - 1) := by
    rw [hx, pyRound_int]
    rfl
  obtain ⟨h1, h2⟩ := stored_count hn h hall hN.symm
  rw [hx] at h1
  obtain ⟨S, hS⟩ : ∃ S, cf.steps = S + 1 := ⟨cf.steps - 1, by omega⟩
  obtain ⟨B, hB⟩ : ∃ B, 60 * F = B + 1 := ⟨60 * F - 1, by omega⟩
  rw [he] at h1 h2
  simp only [if_true, and_true] at h1 h2
  have hf : 60 * F * (cf.steps - 1) / cf.steps = B := by
    rw [hS, hB, Nat.add_sub_cancel]
    refine Nat.div_eq_of_lt_le ?_ ?_ <;> nlinarith
  have hB' : 60 * F - 1 = B := by omega
  have hS' : cf.steps - 1 = S := by omega
  have hB0 : 0 < B := by omega
  have hBr : (0 : ℝ) < B := by exact_mod_cast hB0
  have hFr : (60 * F : ℝ) = B + 1 := by exact_mod_cast hB
  rw [hf, hS'] at h1
  rw [hf] at h2
  rw [hB', hS']
  obtain ⟨q, hq⟩ : ∃ q, q = (2 * S + B) / (2 * B) := ⟨_, rfl⟩
  have q1 : 2 * B * q ≤ 2 * S + B := hq ▸ Nat.mul_div_le _ _
  have q2 : 2 * S + B < 2 * B * (q + 1) := hq ▸ Nat.lt_mul_div_succ _ (by omega)
  have q3 : 2 * B * q ≠ 2 * S + B := fun e => by
    have e' : 2 * (B * q) = 2 * S + B := by rw [← e]; ring
    omega
  have q1' : 2 * B * q + 1 ≤ 2 * S + B := by omega
  have r1 : (2 * B * q : ℝ) + 1 ≤ 2 * S + B := by exact_mod_cast q1'
  have r2 : (2 * S + B : ℝ) < 2 * B * (q + 1) := by exact_mod_cast q2
  have hv : (((60 * F * S : ℕ) : ℤ) : ℝ) / (B : ℝ) = S + S / B := by
    push_cast
    rw [hFr]
    field_simp
  have hp : pyRound ((((60 * F * S : ℕ) : ℤ) : ℝ) / (B : ℝ)) = ((S + q : ℕ) : ℤ) := by
    rw [hv]
    refine le_antisymm (pyRound_le ?_) (pyRound_ge ?_)
    · have : (S : ℝ) / B < q + 1 / 2 := by
        rw [div_lt_iff₀ hBr]
        nlinarith
      push_cast
      linarith
    · have : (q : ℝ) - 1 / 2 < S / B := by
        rw [lt_div_iff₀ hBr]
        nlinarith
      push_cast
      linarith
  rw [hp, Int.toNat_natCast] at h1
  rw [← hq]
  refine ⟨h1, h2, ?_⟩
  have hSB : B ≤ S := by omega
  constructor
  · intro h'
    have := h'.1.symm.trans h1.1
    have hq1 : q = 1 := by omega
    rw [hq1] at q2
    omega
  · intro h'
    have hq1 : q = 1 := by
      rw [hq]
      refine Nat.div_eq_of_lt_le ?_ ?_ <;> omega
    rw [hq1] at h1
    rw [hS]
    exact h1

/-- C182, shipped configuration: every run that recomputes everything stores 10082 averaged samples of 2999 raw ones, although
`time_steps` is 10080 -/
theorem C182_shipped {w : SimWorld} {cf : SimConf} {a : SimArgs} {st : Store} {d : NetworkData} (hn : Spec.PlainName a.network)
    (h : (simulate w cf a st).res = .ok d) (hall : a.loads = a.networkSim ∧ a.networkSim = a.noise)
    (hcf : cf.days = shippedConf.days ∧ cf.fmeas = shippedConf.fmeas ∧ cf.steps = shippedConf.steps) :
    Spec.Rows d 10082 ∧ d.fparam = (if a.threePhased ∧ a.equivalent then 1 else 2999) ∧ cf.steps = 10080 := by
  obtain ⟨c1, c2, c3⟩ := hcf
  have d1 : cf.days = 7 := c1
  have d2 : cf.fmeas = 50 := c2
  have d3 : cf.steps = 10080 := c3
  have e : (60 * ((cf.days * 1440 - 1 : ℕ) : ℝ) * cf.fmeas) = ((30237000 : ℤ) : ℝ) := by
    rw [d1, d2]
    norm_num
  have hN : (pyRound (60 * (cf.days * 1440 - 1 : ℕ) * cf.fmeas)).toNat = 30237000 := by
    rw [e, pyRound_int]
    rfl
  obtain ⟨h1, h2⟩ := stored_count hn h hall hN.symm
  rw [e, d3] at h1
  rw [d3] at h2
  refine ⟨?_, by simpa using h2, d3⟩
  have hp : pyRound (((30237000 : ℤ) : ℝ) / ((30237000 / 10080 : ℕ) : ℝ)) = 10082 := by
    refine le_antisymm (pyRound_le ?_) (pyRound_ge ?_) <;> norm_num
  rw [hp] at h1
  simpa using h1

/-- C182_shipped: a run with the whole shipped configuration for the default network -/
theorem demo_C182 (lap eq : Bool) (st : Store) :
    ∃ d, (simulate shippedWorld shippedConf { demoArgs115 with network := "bolognani56", laplacian := lap, equivalent := eq } st).res = .ok d ∧
      Spec.Rows d 10082 ∧ d.fparam = 2999 := by
  have hname : shippedBuses "bolognani56" = some bolognani56Bus := by unfold shippedBuses; rw [if_pos rfl]
  have hb : ∀ net, makeNet shippedWorld "bolognani56" = .ok (net, bolognani56Bus) → net.bus.length = bolognani56Bus.length := by
    intro net hm
    obtain ⟨ls, -, -, -, hbus, -⟩ := C133_single hm
    simpa using congrArg List.length hbus.bus
  obtain ⟨d, hd⟩ := C139_shipped shippedWorld_shipped (cf := shippedConf)
    (a := { demoArgs115 with network := "bolognani56", laplacian := lap, equivalent := eq }) st rfl rfl ⟨rfl, rfl⟩ (by simp [demoArgs115])
    exactPinv_contract (by simp only [shippedConf]; refine ⟨?_, ?_, ?_, ?_⟩ <;> positivity)
    (by simp [shippedConf]) (by simp [shippedConf]) (by simp [shippedConf]) (by simp [shippedConf]) (by
      rw [(minute_max (by simp [shippedConf])).2]
      show 24 * 60 * 7 ≤ (pyRound (60 * ((7 * 1440 - 1 : ℕ) : ℝ) * 50)).toNat
      rw [show (60 * ((7 * 1440 - 1 : ℕ) : ℝ) * 50) = ((30237000 : ℤ) : ℝ) by norm_num, pyRound_int]
      decide) hname C137_buses_partial.1 (sn := 1) one_pos (fun _ _ => rfl)
    (fun net hm c hp _ _ _ => ⟨_, rfl, ⟨hp, hb net hm⟩, hp, hb net hm⟩) (fun net _ c res hres => flat_upright net c res hres)
  obtain ⟨h1, h2, -⟩ := C182_shipped (shipped_names hname) hd ⟨rfl, rfl⟩ ⟨rfl, rfl, rfl⟩
  refine ⟨d, hd, h1, ?_⟩
  rw [h2, if_neg (by rintro ⟨h, -⟩; cases h)]

/-- `C182_equivalent` applies to that run -/
example (lap : Bool) (st : Store) :
    ∃ d, (simulate shippedWorld shippedConf { demoArgs115 with network := "bolognani56", laplacian := lap, equivalent := true } st).res =
      .ok d ∧ ¬ Spec.Rows d 10080 := by
  obtain ⟨d, hd, -⟩ := demo_C182 lap true st
  have hname : shippedBuses "bolognani56" = some bolognani56Bus := by unfold shippedBuses; rw [if_pos rfl]
  obtain ⟨-, -, h3⟩ := C182_equivalent (F := 50) (shipped_names hname) hd ⟨rfl, rfl⟩ rfl (by norm_num) (by simp [shippedConf])
    (by simp [shippedConf]) (by simp [shippedConf])
  exact ⟨d, hd, fun h => absurd (h3.1 h) (by simp [shippedConf])⟩

end
end Verif
