/-
C72, C73, C74, C86: sensor ratings, noise level and number of the simulated measurements.
-/
import Verif.Model.Sampling
import Verif.Props.Network
import Verif.Props.NoiseLaw

namespace Verif
open Finset MeasureTheory ProbabilityTheory Net
open scoped NNReal
noncomputable section

/-! ### rounding, maximum, sampling times -/

theorem pyRound_near (x : ℝ) : |x - pyRound x| ≤ 1 / 2 := by
  unfold pyRound
  split
  · rename_i h
    have hx := Int.floor_add_fract x
    rw [h] at hx
    split
    · rw [abs_le]; constructor <;> linarith
    · push_cast
      rw [abs_le]; constructor <;> linarith
  · exact abs_sub_round x

theorem pyRound_ge {x : ℝ} {n : Int} (h : (n : ℝ) - 1 / 2 < x) : n ≤ pyRound x := by
  have := (abs_le.1 (pyRound_near x)).2
  have h2 : ((n - 1 : Int) : ℝ) < (pyRound x : ℝ) := by push_cast; linarith
  have := Int.cast_lt.1 h2
  omega

theorem pyRound_le {x : ℝ} {n : Int} (h : x < (n : ℝ) + 1 / 2) : pyRound x ≤ n := by
  have := (abs_le.1 (pyRound_near x)).1
  have h2 : (pyRound x : ℝ) < ((n + 1 : Int) : ℝ) := by push_cast; linarith
  have := Int.cast_lt.1 h2
  omega

theorem pyRound_int (n : Int) : pyRound (n : ℝ) = n :=
  le_antisymm (pyRound_le (by linarith)) (pyRound_ge (by linarith))

/-- the even neighbour is taken between two integers -/
theorem pyRound_half (n : Int) : pyRound ((n : ℝ) + 1 / 2) = if Even n then n else n + 1 := by
  have hf : ⌊(n : ℝ) + 1 / 2⌋ = n := by
    rw [Int.floor_eq_iff]; constructor <;> linarith
  have hfr : Int.fract ((n : ℝ) + 1 / 2) = 1 / 2 := by
    rw [Int.fract, hf]; ring
  unfold pyRound
  rw [if_pos hfr, hf]

theorem timesMax_sorted {l : List ℝ} (hs : l.Pairwise (· < ·)) (h0 : l ≠ []) : timesMax l = .ok (l.getD (l.length - 1) 0) := by
  have key : ∀ (xs : List ℝ) (x : ℝ), (x :: xs).Pairwise (· < ·) → xs.foldl max x = (x :: xs).getD xs.length 0 := by
    intro xs
    induction xs with
    | nil => intro x _; rfl
    | cons y ys ih =>
      intro x h
      have hxy : x < y := (List.pairwise_cons.1 h).1 y (by simp)
      rw [List.foldl_cons, max_eq_right hxy.le, ih y (List.pairwise_cons.1 h).2]
      simp
  cases l with
  | nil => exact absurd rfl h0
  | cons x xs =>
    simp only [timesMax, key xs x hs]
    simp

theorem linspace_spec {stop : ℝ} {n : Int} {ts : List ℝ} (h : linspace stop n = .ok ts) : ts.length = n.toNat ∧ 0 ≤ n := by
  unfold linspace at h
  split at h
  · cases h
  · cases h
    exact ⟨by simp, by omega⟩

theorem linspace_range {stop : ℝ} (hs : 0 ≤ stop) {n : Int} {ts : List ℝ} (h : linspace stop n = .ok ts) :
    ∀ v ∈ ts, 0 ≤ v ∧ v ≤ stop := by
  unfold linspace at h
  split at h
  · cases h
  · cases h
    intro v hv
    obtain ⟨k, hk, rfl⟩ := List.mem_map.1 hv
    have hk := List.mem_range.1 hk
    rcases Nat.eq_zero_or_pos k with rfl | hp
    · simp [hs]
    · have hn : (1 : ℝ) ≤ (n : ℝ) - 1 := by
        have : (2 : Int) ≤ n := by omega
        have : (2 : ℝ) ≤ (n : ℝ) := by exact_mod_cast this
        linarith
      have hkn : (k : ℝ) ≤ (n : ℝ) - 1 := by
        have : (k : Int) + 1 ≤ n := by omega
        have : (k : ℝ) + 1 ≤ (n : ℝ) := by exact_mod_cast this
        linarith
      refine ⟨by positivity, ?_⟩
      rw [mul_div_assoc', div_le_iff₀ (by linarith)]
      nlinarith

/-! ### shapes -/

theorem filter_shape {a : Arr2 ℂ} {old new : List ℝ} {f : Nat} {noise : Nat → List ℂ → Except PyErr (List ℂ)} {o : Arr2 ℂ}
    (h : filterAndResample a old new f noise = .ok o) :
    f ≠ 0 ∧ o.r = new.length / f ∧ o.c = a.c ∧ ∀ i, i < a.c → ∃ t x, noise i t = .ok x := by
  unfold filterAndResample at h
  split at h
  · cases h
  · rename_i hf
    dsimp only at h
    obtain ⟨h1, h2⟩ := forRange_visits (s0 := Arr2.zeros (new.length / f) a.c) (s := o)
      (f := fun filtered i => do
        let tmp ← interp1d old (a.col i) new
        let res ← noise i tmp
        Except.ok (Arr2.ofFn (new.length / f) a.c fun t j => if j = i then blockMean f res t else filtered.get t j)) (fun s : Arr2 ℂ => s.r = new.length / f ∧ s.c = a.c) (by
      intro s k s' _ hk
      obtain ⟨x, -, hk⟩ := Prior.bind_ok hk
      obtain ⟨y, -, hk⟩ := Prior.bind_ok hk
      cases hk
      exact ⟨rfl, rfl⟩) a.c ⟨rfl, rfl⟩ h
    refine ⟨hf, h1.1, h1.2, ?_⟩
    intro i hi
    obtain ⟨s, s', -, hk⟩ := h2 i hi
    obtain ⟨x, -, hk⟩ := Prior.bind_ok hk
    obtain ⟨y, hy, -⟩ := Prior.bind_ok hk
    exact ⟨x, y, hy⟩

theorem hstack2_ok {a b c : Arr2 ℂ} (h : a.hstack b = .ok c) : a.r = b.r ∧ c.r = a.r ∧ c.c = a.c + b.c := by
  unfold Arr2.hstack at h
  split at h
  · rename_i hr; cases h; exact ⟨hr, rfl, rfl⟩
  · cases h

theorem split2_ok {a : Arr2 ℂ} {x : Arr2 ℂ × Arr2 ℂ} (h : a.split2 = .ok x) :
    x.1.r = a.r ∧ x.2.r = a.r ∧ x.1.c = a.c / 2 ∧ x.2.c = a.c / 2 := by
  unfold Arr2.split2 at h
  split at h
  · cases h; exact ⟨rfl, rfl, rfl, rfl⟩
  · cases h

theorem noiseSeries_shape {z : Nat → ℝ} {r : List ℝ} {voltage current : Arr2 ℂ} {times ts : List ℝ} {f : Nat}
    {vm cm vp cp : ℝ} {x : Arr2 ℂ × Arr2 ℂ × Arr2 ℂ × Arr2 ℂ}
    (h : noiseSeries z r voltage current times ts f vm cm vp cp = .ok x) :
    f ≠ 0 ∧ x.1.r = ts.length / f ∧ x.2.1.r = ts.length / f ∧ x.2.2.1.r = ts.length / f ∧ x.2.2.2.r = ts.length / f ∧
      voltage.c + current.c ≤ 2 * r.length := by
  unfold noiseSeries at h
  obtain ⟨vi, h1, h⟩ := Prior.bind_ok h
  obtain ⟨noisy, h2, h⟩ := Prior.bind_ok h
  obtain ⟨⟨nv, ni⟩, h3, h⟩ := Prior.bind_ok h
  obtain ⟨clean, h4, h⟩ := Prior.bind_ok h
  obtain ⟨⟨v, i⟩, h5, h⟩ := Prior.bind_ok h
  cases h
  obtain ⟨-, -, hc⟩ := hstack2_ok h1
  obtain ⟨f0, n1, n2, n3⟩ := filter_shape h2
  obtain ⟨-, c1, c2, -⟩ := filter_shape h4
  obtain ⟨s1, s2, s3, s4⟩ := split2_ok h3
  obtain ⟨t1, t2, t3, t4⟩ := split2_ok h5
  refine ⟨f0, s1.trans n1, s2.trans n1, t1.trans c1, t2.trans c1, ?_⟩
  by_contra hgt
  obtain ⟨t, y, hy⟩ := n3 (2 * r.length) (by omega)
  unfold polarNoise at hy
  obtain ⟨m, hm, -⟩ := Prior.bind_ok hy
  unfold stdAt at hm
  rw [if_neg (by simp; omega)] at hm
  cases hm

/-! ### C86 -/

/-- arithmetic of the two sampling modes: `N` raw samples, nearest integer to `M`, are averaged in blocks of `N / steps`, or
replaced by the nearest integer to `M / (N / steps)` ones -/
theorem rows_bounds {M : ℝ} {steps : Nat} (hs : steps ≠ 0) (hN : steps ≤ (pyRound M).toNat) {rows : Nat}
    (hrows : rows = (pyRound M).toNat / ((pyRound M).toNat / steps) ∨
      rows = (pyRound (M / ((pyRound M).toNat / steps : Nat))).toNat) :
    steps ≤ rows ∧ rows ≤ 2 * steps - 1 ∧ (steps ∣ (pyRound M).toNat → rows = steps) := by
  set N := (pyRound M).toNat with hNdef
  set f := N / steps with hf
  have hpos : 0 < steps := Nat.pos_of_ne_zero hs
  have hf1 : 1 ≤ f := (Nat.one_le_div_iff hpos).2 hN
  have hlo : f * steps ≤ N := Nat.div_mul_le_self N steps
  have hhi : N < (f + 1) * steps := by
    have := Nat.lt_div_mul_add (a := N) hpos
    rw [add_mul, one_mul]; exact this
  have hdiv : steps ∣ N → N = f * steps := fun h => (Nat.div_mul_cancel h).symm
  rcases hrows with h | h
  · have hrl : steps ≤ rows := by
      rw [h, Nat.le_div_iff_mul_le hf1, mul_comm]; exact hlo
    have hrh : rows < 2 * steps := by
      rw [h, Nat.div_lt_iff_lt_mul hf1]
      nlinarith
    refine ⟨hrl, by omega, ?_⟩
    intro hd
    rw [h]
    nth_rw 1 [hdiv hd]
    exact Nat.mul_div_cancel_left steps hf1
  · have hNint : pyRound M = (N : Int) := by
      have : 0 < N := by omega
      omega
    have hnear := abs_le.1 (pyRound_near M)
    rw [hNint] at hnear
    have hnear1 : M ≤ N + 1 / 2 := by have := hnear.2; push_cast at this; linarith
    have hnear2 : (N : ℝ) - 1 / 2 ≤ M := by have := hnear.1; push_cast at this; linarith
    rcases Nat.eq_or_lt_of_le hf1 with h1 | h1
    · have : rows = N := by
        rw [h, ← h1]
        simp [hNint]
      rw [this]
      refine ⟨hN, by rw [← h1] at hhi; omega, ?_⟩
      intro hd
      have := hdiv hd
      rw [← h1] at this
      omega
    · have hfR : (2 : ℝ) ≤ f := by exact_mod_cast h1
      have hloR : (f : ℝ) * steps ≤ N := by exact_mod_cast hlo
      have hhiR : (N : ℝ) + 1 ≤ (f + 1) * steps := by exact_mod_cast hhi
      have hsR : (1 : ℝ) ≤ steps := by exact_mod_cast hpos
      have hge : (steps : Int) ≤ pyRound (M / f) := by
        apply pyRound_ge
        push_cast
        rw [lt_div_iff₀ (by linarith)]
        nlinarith
      have hle : pyRound (M / f) ≤ ((2 * steps - 1 : Nat) : Int) := by
        apply pyRound_le
        rw [Nat.cast_sub (by omega)]
        push_cast
        rw [div_lt_iff₀ (by linarith)]
        nlinarith
      refine ⟨by omega, by omega, ?_⟩
      intro hd
      have hle' : pyRound (M / f) ≤ (steps : Int) := by
        apply pyRound_le
        have e : (N : ℝ) = f * steps := by exact_mod_cast hdiv hd
        push_cast
        rw [div_lt_iff₀ (by linarith)]
        nlinarith
      omega

/-- the number of raw samples -/
def Spec.rawCount (times : List ℝ) (fmeas : ℝ) : Nat := (pyRound (times.foldl max (times.getD 0 0) * fmeas)).toNat

theorem rawTimes_spec {times : List ℝ} {fmeas : ℝ} {x : ℝ × List ℝ} (h : rawTimes times fmeas = .ok x) :
    x.1 = times.foldl max (times.getD 0 0) ∧ x.2.length = Spec.rawCount times fmeas := by
  unfold rawTimes at h
  obtain ⟨m, h1, h⟩ := Prior.bind_ok h
  obtain ⟨ts, h2, h⟩ := Prior.bind_ok h
  cases h
  have hm : m = times.foldl max (times.getD 0 0) := by
    cases times with
    | nil => cases h1
    | cons t ts => cases h1; simp
  exact ⟨hm, by rw [(linspace_spec h2).1, hm]; rfl⟩

theorem sampled_rows {times : List ℝ} {fmeas m : ℝ} {ts : List ℝ} {steps f : Nat} {eq : Bool}
    (h1 : rawTimes times fmeas = .ok (m, ts)) (h2 : averagingFactor ts.length steps = .ok f) {rows : Nat}
    (hr : if eq then ∃ ts', equivalentTimes m fmeas f = .ok ts' ∧ rows = ts'.length / 1 else f ≠ 0 ∧ rows = ts.length / f) :
    0 < steps ∧ steps ≤ Spec.rawCount times fmeas ∧ steps ≤ rows ∧ rows ≤ 2 * steps - 1 ∧
      (steps ∣ Spec.rawCount times fmeas → rows = steps) := by
  obtain ⟨hm, hl⟩ := rawTimes_spec h1
  dsimp only at hm hl
  unfold averagingFactor at h2
  split at h2
  · cases h2
  · rename_i hs
    cases h2
    rw [hl] at hr
    have hf0 : Spec.rawCount times fmeas / steps ≠ 0 := by
      cases eq
      · exact hr.1
      · obtain ⟨ts', h, -⟩ := hr
        unfold equivalentTimes at h
        intro h0
        rw [if_pos h0] at h
        cases h
    have hN : steps ≤ Spec.rawCount times fmeas := by
      by_contra hlt
      exact hf0 (Nat.div_eq_of_lt (by omega))
    have hrows : rows = Spec.rawCount times fmeas / (Spec.rawCount times fmeas / steps) ∨
        rows = (pyRound (times.foldl max (times.getD 0 0) * fmeas / (Spec.rawCount times fmeas / steps : Nat))).toNat := by
      cases eq
      · exact Or.inl hr.2
      · obtain ⟨ts', h, he⟩ := hr
        unfold equivalentTimes at h
        rw [if_neg hf0] at h
        right
        rw [he, Nat.div_one, (linspace_spec h).1, hm]
    exact ⟨Nat.pos_of_ne_zero hs, hN, rows_bounds hs hN hrows⟩

/-- C86, one phase: whenever measurements are returned, there were at least `steps` raw samples, all four arrays have the same
number of rows, at least `steps` and at most `2 steps - 1`, and exactly `steps` if this divides the number of raw samples -/
theorem C86_single {z : Nat → ℝ} {net : Net} {voltage current : Arr2 ℂ} {times : List ℝ} {fmeas : ℝ} {steps : Nat}
    {p : NoiseParams} {safety : ℝ} {res : NoiseResult}
    (h : addNoiseAndFilter z net voltage current times fmeas steps p safety = .ok res) :
    0 < steps ∧ steps ≤ Spec.rawCount times fmeas ∧
    (∀ x ∈ [res.noisyVoltage, res.noisyCurrent, res.voltage, res.current], x.r = res.voltage.r) ∧
    steps ≤ res.voltage.r ∧ res.voltage.r ≤ 2 * steps - 1 ∧
    (steps ∣ Spec.rawCount times fmeas → res.voltage.r = steps) := by
  unfold addNoiseAndFilter at h
  obtain ⟨⟨m, ts⟩, h1, h⟩ := Prior.bind_ok h
  obtain ⟨f, h2, h⟩ := Prior.bind_ok h
  dsimp only at h h2
  split at h
  · obtain ⟨ts', h3, h⟩ := Prior.bind_ok h
    obtain ⟨⟨nv, ni, v, i⟩, h4, h⟩ := Prior.bind_ok h
    cases h
    obtain ⟨-, a, b, c, d, -⟩ := noiseSeries_shape h4
    obtain ⟨k1, k2, k3⟩ := sampled_rows (eq := true) h1 h2 (rows := v.r) ⟨ts', h3, c⟩
    refine ⟨k1, k2, ?_, k3⟩
    simp only [List.mem_cons, List.not_mem_nil, or_false]
    rintro x (rfl | rfl | rfl | rfl)
    · exact a.trans c.symm
    · exact b.trans c.symm
    · rfl
    · exact d.trans c.symm
  · obtain ⟨⟨nv, ni, v, i⟩, h4, h⟩ := Prior.bind_ok h
    cases h
    obtain ⟨f0, a, b, c, d, -⟩ := noiseSeries_shape h4
    obtain ⟨k1, k2, k3⟩ := sampled_rows (eq := false) h1 h2 (rows := v.r) ⟨f0, c⟩
    refine ⟨k1, k2, ?_, k3⟩
    simp only [List.mem_cons, List.not_mem_nil, or_false]
    rintro x (rfl | rfl | rfl | rfl)
    · exact a.trans c.symm
    · exact b.trans c.symm
    · rfl
    · exact d.trans c.symm

/-- C86, three phases -/
theorem C86_three {z : Nat → ℝ} {net : Net} {voltage current : Arr2 ℂ} {times : List ℝ} {fmeas : ℝ} {steps : Nat}
    {p : NoiseParams} {safety : List ℝ} {res : NoiseResult}
    (h : addNoiseAndFilter3 z net voltage current times fmeas steps p safety = .ok res) :
    0 < steps ∧ steps ≤ Spec.rawCount times fmeas ∧
    (∀ x ∈ [res.noisyVoltage, res.noisyCurrent, res.voltage, res.current], x.r = res.voltage.r) ∧
    steps ≤ res.voltage.r ∧ res.voltage.r ≤ 2 * steps - 1 ∧
    (steps ∣ Spec.rawCount times fmeas → res.voltage.r = steps) := by
  unfold addNoiseAndFilter3 at h
  obtain ⟨r, -, h⟩ := Prior.bind_ok h
  obtain ⟨⟨m, ts⟩, h1, h⟩ := Prior.bind_ok h
  obtain ⟨f, h2, h⟩ := Prior.bind_ok h
  dsimp only at h h2
  split at h
  · obtain ⟨ts', h3, h⟩ := Prior.bind_ok h
    obtain ⟨⟨nv, ni, v, i⟩, h4, h⟩ := Prior.bind_ok h
    cases h
    obtain ⟨-, a, b, c, d, -⟩ := noiseSeries_shape h4
    obtain ⟨k1, k2, k3⟩ := sampled_rows (eq := true) h1 h2 (rows := v.r) ⟨ts', h3, c⟩
    refine ⟨k1, k2, ?_, k3⟩
    simp only [List.mem_cons, List.not_mem_nil, or_false]
    rintro x (rfl | rfl | rfl | rfl)
    · exact a.trans c.symm
    · exact b.trans c.symm
    · rfl
    · exact d.trans c.symm
  · obtain ⟨⟨nv, ni, v, i⟩, h4, h⟩ := Prior.bind_ok h
    cases h
    obtain ⟨f0, a, b, c, d, -⟩ := noiseSeries_shape h4
    obtain ⟨k1, k2, k3⟩ := sampled_rows (eq := false) h1 h2 (rows := v.r) ⟨f0, c⟩
    refine ⟨k1, k2, ?_, k3⟩
    simp only [List.mem_cons, List.not_mem_nil, or_false]
    rintro x (rfl | rfl | rfl | rfl)
    · exact a.trans c.symm
    · exact b.trans c.symm
    · rfl
    · exact d.trans c.symm

/-! ### success -/

/-- increasing time stamps from zero on -/
structure Spec.Times (times : List ℝ) : Prop where
  two : 2 ≤ times.length
  sorted : times.Pairwise (· < ·)
  zero : times.getD 0 0 = 0

/-- time of the last sample -/
def Spec.last (times : List ℝ) : ℝ := times.getD (times.length - 1) 0

theorem Spec.Times.last_pos {times : List ℝ} (h : Spec.Times times) : 0 < Spec.last times := by
  have h2 := h.two
  have hs := List.pairwise_iff_getElem.1 h.sorted 0 (times.length - 1) (by omega) (by omega) (by omega)
  have hz := h.zero
  rw [List.getD_eq_getElem _ _ (by omega)] at hz
  unfold Spec.last
  rw [List.getD_eq_getElem _ _ (by omega)]
  rw [hz] at hs
  exact hs

theorem Spec.Times.npmax {times : List ℝ} (h : Spec.Times times) : timesMax times = .ok (Spec.last times) :=
  timesMax_sorted h.sorted (by intro h0; have := h.two; rw [h0] at this; simp at this)

theorem Spec.Times.count {times : List ℝ} (h : Spec.Times times) (fmeas : ℝ) :
    Spec.rawCount times fmeas = (pyRound (Spec.last times * fmeas)).toNat := by
  have := h.npmax
  unfold Spec.rawCount
  cases times with
  | nil => have := h.two; simp at this
  | cons t ts =>
    have e : List.foldl max t ts = Spec.last (t :: ts) := Except.ok.inj this
    rw [List.foldl_cons, ← e]
    simp

theorem Spec.Times.grid {times : List ℝ} (h : Spec.Times times) {n : Int} {ts : List ℝ}
    (hl : linspace (Spec.last times) n = .ok ts) : Spec.Grid times ts :=
  ⟨h.two, h.sorted, fun v hv => by rw [h.zero]; exact linspace_range h.last_pos.le hl v hv⟩

theorem linspace_ok (stop : ℝ) {n : Int} (h : 0 ≤ n) : ∃ ts, linspace stop n = .ok ts := by
  unfold linspace
  rw [if_neg (by omega)]
  exact ⟨_, rfl⟩

theorem pyRound_nonneg {x : ℝ} (h : 0 ≤ x) : 0 ≤ pyRound x := pyRound_ge (by push_cast; linarith)

/-- the times at which the noise is added, the block length, and the noise level relative to the configured one -/
theorem sampling_ok {times : List ℝ} (ht : Spec.Times times) {fmeas : ℝ} (hf : 0 ≤ fmeas) {steps : Nat} (hs : 0 < steps)
    (hN : steps ≤ Spec.rawCount times fmeas) :
    ∃ ts ts', rawTimes times fmeas = .ok (Spec.last times, ts) ∧ averagingFactor ts.length steps =
        .ok (Spec.rawCount times fmeas / steps) ∧
      equivalentTimes (Spec.last times) fmeas (Spec.rawCount times fmeas / steps) = .ok ts' ∧
      Spec.Grid times ts ∧ Spec.Grid times ts' ∧ Spec.rawCount times fmeas / steps ≠ 0 := by
  have hpos := ht.last_pos
  obtain ⟨ts, h1⟩ := linspace_ok (Spec.last times) (pyRound_nonneg (mul_nonneg hpos.le hf))
  have hf0 : Spec.rawCount times fmeas / steps ≠ 0 := by
    have := (Nat.one_le_div_iff hs).2 hN
    omega
  obtain ⟨ts', h2⟩ := linspace_ok (Spec.last times) (n := pyRound (Spec.last times * fmeas / (Spec.rawCount times fmeas / steps : Nat)))
    (pyRound_nonneg (div_nonneg (mul_nonneg hpos.le hf) (Nat.cast_nonneg _)))
  refine ⟨ts, ts', ?_, ?_, ?_, ht.grid h1, ht.grid h2, hf0⟩
  · simp only [rawTimes, ht.npmax, h1, bind, Except.bind, pure, Except.pure]
  · unfold averagingFactor
    rw [if_neg (by omega), (linspace_spec h1).1, ht.count]
  · unfold equivalentTimes
    rw [if_neg hf0, h2]

/-- noise and averages of a steady state: relative errors of all voltages and currents -/
theorem noiseSeries_law {Ω : Type} [MeasurableSpace Ω] {P : Measure Ω} [IsProbabilityMeasure P] (z : Nat → Ω → ℝ)
    (hz : ∀ k, HasLaw (z k) (gaussianReal 0 1) P) (hi : iIndepFun z P) {times ts : List ℝ} (hg : Spec.Grid times ts)
    {f : Nat} (hf : f ≠ 0) {r : List ℝ} (hr : ∀ x ∈ r, 0 ≤ x) {voltage current : Arr2 ℂ}
    (hvr : voltage.r = times.length) (hcr : current.r = times.length) (hvc : voltage.c = r.length) (hcc : current.c = r.length)
    {u w : Nat → ℂ} (hu : ∀ t j, t < voltage.r → j < voltage.c → voltage.get t j = u j)
    (hw : ∀ t j, t < current.r → j < current.c → current.get t j = w j) {vm cm : ℝ} (hvm : 0 ≤ vm) (hcm : 0 ≤ cm) :
    ∃ o : Ω → Arr2 ℂ × Arr2 ℂ × Arr2 ℂ × Arr2 ℂ,
      (∀ ω, noiseSeries (fun k => z k ω) r voltage current times ts f vm cm 0 0 = .ok (o ω)) ∧
      ∀ t j, t < ts.length / f → j < r.length →
        (∃ d : Ω → ℝ, (∀ ω, (o ω).1.get t j = u j * (1 + (d ω : ℂ))) ∧
          HasLaw d (gaussianReal 0 (NNReal.mk ((vm / Real.sqrt f) ^ 2) (sq_nonneg _))) P) ∧
        ∃ d : Ω → ℝ, (∀ ω, (o ω).2.1.get t j = w j * (1 + (d ω : ℂ))) ∧
          HasLaw d (gaussianReal 0 (NNReal.mk ((cm * r.getD j 0 / Real.sqrt f) ^ 2) (sq_nonneg _))) P := by
  set vi : Arr2 ℂ := Arr2.ofFn voltage.r (voltage.c + current.c)
    (fun i j => if j < voltage.c then voltage.get i j else current.get i (j - voltage.c)) with hvi
  have hst : voltage.hstack current = .ok vi := if_pos (hvr.trans hcr.symm)
  set sdm := r.map (fun _ => vm) ++ r.map (fun x => cm * x) with hsdm
  have hvic : vi.c = r.length + r.length := by show voltage.c + current.c = _; rw [hvc, hcc]
  have hvir : vi.r = times.length := hvr
  have hsdp : r.map (fun _ => (0 : ℝ)) ++ r.map (fun _ => (0 : ℝ)) = List.replicate vi.c 0 := by
    rw [hvic, List.map_const', List.replicate_append_replicate]
  obtain ⟨o, ho, hlaw⟩ := C71_equivalent z hz hi hg hf hvir (fun j => if j < r.length then u j else w (j - r.length))
    (by
      intro t j ht hj
      rw [hvi, Arr2.ofFn_get _ (show t < voltage.r from ht) (show j < voltage.c + current.c from hj), hvc]
      have hj' : j < r.length + r.length := by rw [← hvic]; exact hj
      by_cases hjr : j < r.length
      · rw [if_pos hjr, if_pos hjr]
        exact hu t j ht (by omega)
      · rw [if_neg hjr, if_neg hjr]
        exact hw t _ (by rw [hcr, ← hvir]; exact ht) (by omega)) sdm
    (by rw [hvic]; simp [hsdm])
    (by
      intro x hx
      rcases List.mem_append.1 hx with h | h
      · obtain ⟨y, -, rfl⟩ := List.mem_map.1 h; exact hvm
      · obtain ⟨y, hy, rfl⟩ := List.mem_map.1 h; exact mul_nonneg hcm (hr y hy))
  obtain ⟨c, hc, cr, cc, -⟩ := filter_noNoise hg hf hvir
  have hshape := fun ω => filter_shape (ho ω)
  have heven : ∀ a : Arr2 ℂ, a.c = vi.c → a.split2 =
      .ok (Arr2.ofFn a.r (a.c / 2) (fun i j => a.get i j), Arr2.ofFn a.r (a.c / 2) (fun i j => a.get i (a.c / 2 + j))) := by
    intro a ha
    unfold Arr2.split2
    rw [if_pos (by rw [ha, hvic]; omega)]
  refine ⟨fun ω => (Arr2.ofFn (o ω).r ((o ω).c / 2) (fun i j => (o ω).get i j),
    Arr2.ofFn (o ω).r ((o ω).c / 2) (fun i j => (o ω).get i ((o ω).c / 2 + j)),
    Arr2.ofFn c.r (c.c / 2) (fun i j => c.get i j), Arr2.ofFn c.r (c.c / 2) (fun i j => c.get i (c.c / 2 + j))), ?_, ?_⟩
  · intro ω
    unfold noiseSeries
    rw [hst]
    simp only [bind, Except.bind]
    rw [hsdp, ho ω]
    simp only [heven (o ω) (hshape ω).2.2.1, hc, heven c cc, pure, Except.pure]
  · intro t j ht hj
    have hhalf : ∀ ω, (o ω).c / 2 = r.length := fun ω => by rw [(hshape ω).2.2.1, hvic]; omega
    constructor
    · obtain ⟨d, h1, h2⟩ := hlaw t j ht (by omega)
      refine ⟨d, ?_, ?_⟩
      · intro ω
        rw [Arr2.ofFn_get _ (by rw [(hshape ω).2.1]; exact ht) (by rw [hhalf]; exact hj), h1 ω, if_pos hj]
      · have : sdm.getD j 0 = vm := by
          rw [hsdm, List.getD_append _ _ _ _ (by simpa using hj), List.getD_eq_getElem _ _ (by simpa using hj), List.getElem_map]
        rw [this] at h2
        exact h2
    · obtain ⟨d, h1, h2⟩ := hlaw t (r.length + j) ht (by omega)
      refine ⟨d, ?_, ?_⟩
      · intro ω
        rw [Arr2.ofFn_get _ (by rw [(hshape ω).2.1]; exact ht) (by rw [hhalf]; exact hj), hhalf, h1 ω, if_neg (by omega),
          Nat.add_sub_cancel_left]
      · have : sdm.getD (r.length + j) 0 = cm * r.getD j 0 := by
          rw [hsdm, List.getD_append_right _ _ _ _ (by simp)]
          simp only [List.length_map, Nat.add_sub_cancel_left]
          rw [List.getD_eq_getElem _ _ (by simpa using hj), List.getElem_map, List.getD_eq_getElem _ _ hj]
        rw [this] at h2
        exact h2

/-! ### ratings -/

theorem ratingStep_length (net : Net) (r : List ℝ) (i : Nat) : (ratingStep net r i).length = r.length := by
  unfold ratingStep
  split
  · split
    · simp
    · rfl
  · rfl

theorem ratingStep_nonneg (net : Net) {r : List ℝ} (h : ∀ x ∈ r, 0 ≤ x) (i : Nat) : ∀ x ∈ ratingStep net r i, 0 ≤ x := by
  unfold ratingStep
  split
  · split
    · intro x hx
      rcases List.mem_or_eq_of_mem_set hx with hx | rfl
      · exact h x hx
      · exact List.sum_nonneg h
    · exact h
  · exact h

theorem ratings_spec (safety : ℝ) (hs : 0 ≤ safety) (net : Net) :
    (ratings safety net).length = net.load.length ∧ ∀ x ∈ ratings safety net, 0 ≤ x := by
  unfold ratings
  have key : ∀ (l : List Nat) (r : List ℝ), (∀ x ∈ r, 0 ≤ x) → (l.foldl (ratingStep net) r).length = r.length ∧
      ∀ x ∈ l.foldl (ratingStep net) r, 0 ≤ x := by
    intro l
    induction l with
    | nil => intro r h; exact ⟨rfl, h⟩
    | cons k l ih =>
      intro r h
      rw [List.foldl_cons]
      obtain ⟨h1, h2⟩ := ih (ratingStep net r k) (ratingStep_nonneg net h k)
      exact ⟨by rw [h1, ratingStep_length], h2⟩
  obtain ⟨h1, h2⟩ := key (List.range net.load.length) (baseRatings safety net) (by
    intro x hx
    obtain ⟨l, -, rfl⟩ := List.mem_map.1 hx
    have := mul_self_nonneg l.p
    have := mul_self_nonneg l.q
    positivity)
  exact ⟨by rw [h1]; simp [baseRatings], h2⟩

/-! ### C72 -/

/-- The claim of C72 for simulated measurements `o` of the steady state `u`, `w` at the nodes with the given ratings: every noisy
value has a normal relative error, with the configured standard deviation (times the rating for currents) over the square root
of the returned factor. -/
def Spec.LevelAsReturned {Ω : Type} [MeasurableSpace Ω] (P : Measure Ω) (o : Ω → NoiseResult) (r : List ℝ) (u w : Nat → ℂ)
    (vm cm : ℝ) : Prop :=
  ∃ F rows : Nat, 0 < F ∧ (∀ ω, (o ω).fparam = F ∧ (o ω).ratings = r ∧ (o ω).noisyVoltage.r = rows ∧
      (o ω).noisyCurrent.r = rows) ∧
    ∀ t j, t < rows → j < r.length →
      (∃ d : Ω → ℝ, (∀ ω, (o ω).noisyVoltage.get t j = u j * (1 + (d ω : ℂ))) ∧
        HasLaw d (gaussianReal 0 (NNReal.mk ((vm / Real.sqrt F) ^ 2) (sq_nonneg _))) P) ∧
      ∃ d : Ω → ℝ, (∀ ω, (o ω).noisyCurrent.get t j = w j * (1 + (d ω : ℂ))) ∧
        HasLaw d (gaussianReal 0 (NNReal.mk ((cm * r.getD j 0 / Real.sqrt F) ^ 2) (sq_nonneg _))) P

/-- C72, one phase, both noise options (steady state without phase noise; for phase noise see C70). -/
theorem C72_single {Ω : Type} [MeasurableSpace Ω] {P : Measure Ω} [IsProbabilityMeasure P] (z : Nat → Ω → ℝ)
    (hz : ∀ k, HasLaw (z k) (gaussianReal 0 1) P) (hi : iIndepFun z P) {times : List ℝ} (ht : Spec.Times times) {fmeas : ℝ}
    (hfm : 0 ≤ fmeas) {steps : Nat} (hs : 0 < steps) (hN : steps ≤ Spec.rawCount times fmeas) {net : Net} {safety : ℝ}
    (hsf : 0 ≤ safety) {voltage current : Arr2 ℂ} (hvr : voltage.r = times.length) (hcr : current.r = times.length)
    (hvc : voltage.c = net.load.length) (hcc : current.c = net.load.length) {u w : Nat → ℂ}
    (hu : ∀ t j, t < voltage.r → j < voltage.c → voltage.get t j = u j)
    (hw : ∀ t j, t < current.r → j < current.c → current.get t j = w j) (p : NoiseParams) (hvm : 0 ≤ p.vm) (hcm : 0 ≤ p.cm)
    (hvp : p.vp = 0) (hcp : p.cp = 0) :
    ∃ o : Ω → NoiseResult,
      (∀ ω, addNoiseAndFilter (fun k => z k ω) net voltage current times fmeas steps p safety = .ok (o ω)) ∧
      Spec.LevelAsReturned P o (ratings safety net) u w p.vm p.cm := by
  obtain ⟨ts, ts', h1, h2, h3, g, g', hf0⟩ := sampling_ok ht hfm hs hN
  obtain ⟨rl, rn⟩ := ratings_spec safety hsf net
  set f := Spec.rawCount times fmeas / steps with hf
  cases he : p.equivalent with
  | true =>
    obtain ⟨o, ho, hl⟩ := noiseSeries_law z hz hi g' one_ne_zero rn hvr hcr (hvc.trans rl.symm) (hcc.trans rl.symm) hu hw
      (vm := p.vm / Real.sqrt f) (cm := p.cm / Real.sqrt f) (div_nonneg hvm (Real.sqrt_nonneg _)) (div_nonneg hcm (Real.sqrt_nonneg _))
    refine ⟨fun ω => ⟨(o ω).1, (o ω).2.1, (o ω).2.2.1, (o ω).2.2.2, ratings safety net, f⟩, ?_, f, ts'.length / 1,
      Nat.pos_of_ne_zero hf0, ?_, ?_⟩
    · intro ω
      unfold addNoiseAndFilter
      simp only [h1, h2, h3, bind, Except.bind, he, if_true, hvp, hcp, zero_div, ho ω, pure, Except.pure]
    · intro ω
      obtain ⟨-, a, b, -⟩ := noiseSeries_shape (ho ω)
      exact ⟨rfl, rfl, a, b⟩
    · intro t j htt hj
      obtain ⟨⟨d, d1, d2⟩, e, e1, e2⟩ := hl t j htt hj
      rw [Nat.cast_one, Real.sqrt_one, div_one] at d2 e2
      refine ⟨⟨d, d1, d2⟩, e, e1, ?_⟩
      have : p.cm / Real.sqrt f * (ratings safety net).getD j 0 = p.cm * (ratings safety net).getD j 0 / Real.sqrt f := by ring
      rw [this] at e2
      exact e2
  | false =>
    obtain ⟨o, ho, hl⟩ := noiseSeries_law z hz hi g hf0 rn hvr hcr (hvc.trans rl.symm) (hcc.trans rl.symm) hu hw hvm hcm
    refine ⟨fun ω => ⟨(o ω).1, (o ω).2.1, (o ω).2.2.1, (o ω).2.2.2, ratings safety net, f⟩, ?_, f, ts.length / f,
      Nat.pos_of_ne_zero hf0, ?_, hl⟩
    · intro ω
      unfold addNoiseAndFilter
      simp only [h1, h2, bind, Except.bind, he, hvp, hcp, ho ω, pure, Except.pure]
      simp
    · intro ω
      obtain ⟨-, a, b, -⟩ := noiseSeries_shape (ho ω)
      exact ⟨rfl, rfl, a, b⟩

/-- C72 partial, three phases: holds without the equivalent-noise option (same setting). Missing: with the option it fails, see
`C72_violated`. -/
theorem C72_three_partial {Ω : Type} [MeasurableSpace Ω] {P : Measure Ω} [IsProbabilityMeasure P] (z : Nat → Ω → ℝ)
    (hz : ∀ k, HasLaw (z k) (gaussianReal 0 1) P) (hi : iIndepFun z P) {times : List ℝ} (ht : Spec.Times times) {fmeas : ℝ}
    (hfm : 0 ≤ fmeas) {steps : Nat} (hs : 0 < steps) (hN : steps ≤ Spec.rawCount times fmeas) {net : Net} {safety : List ℝ}
    {r : List ℝ} (hr : ratings3 safety net = .ok r) (hr0 : ∀ x ∈ r, 0 ≤ x)
    {voltage current : Arr2 ℂ} (hvr : voltage.r = times.length) (hcr : current.r = times.length)
    (hvc : voltage.c = r.length) (hcc : current.c = r.length) {u w : Nat → ℂ}
    (hu : ∀ t j, t < voltage.r → j < voltage.c → voltage.get t j = u j)
    (hw : ∀ t j, t < current.r → j < current.c → current.get t j = w j) (p : NoiseParams) (hvm : 0 ≤ p.vm) (hcm : 0 ≤ p.cm)
    (hvp : p.vp = 0) (hcp : p.cp = 0) (he : p.equivalent = false) :
    ∃ o : Ω → NoiseResult,
      (∀ ω, addNoiseAndFilter3 (fun k => z k ω) net voltage current times fmeas steps p safety = .ok (o ω)) ∧
      Spec.LevelAsReturned P o r u w p.vm p.cm := by
  obtain ⟨ts, ts', h1, h2, h3, g, g', hf0⟩ := sampling_ok ht hfm hs hN
  set f := Spec.rawCount times fmeas / steps with hf
  obtain ⟨o, ho, hl⟩ := noiseSeries_law z hz hi g hf0 hr0 hvr hcr hvc hcc hu hw hvm hcm
  refine ⟨fun ω => ⟨(o ω).1, (o ω).2.1, (o ω).2.2.1, (o ω).2.2.2, r, f⟩, ?_, f, ts.length / f,
    Nat.pos_of_ne_zero hf0, ?_, hl⟩
  · intro ω
    unfold addNoiseAndFilter3
    simp only [hr, h1, h2, bind, Except.bind, he, hvp, hcp, ho ω, pure, Except.pure]
    simp
  · intro ω
    obtain ⟨-, a, b, -⟩ := noiseSeries_shape (ho ω)
    exact ⟨rfl, rfl, a, b⟩

/-- C72 violated: in the three-phase program with the equivalent-noise option, whenever the raw samples are averaged at all (at
least two per returned sample), the voltage noise does not have the level that the returned factor stands for -/
theorem C72_violated {Ω : Type} [MeasurableSpace Ω] {P : Measure Ω} [IsProbabilityMeasure P] (z : Nat → Ω → ℝ)
    (hz : ∀ k, HasLaw (z k) (gaussianReal 0 1) P) (hi : iIndepFun z P) {times : List ℝ} (ht : Spec.Times times) {fmeas : ℝ}
    (hfm : 0 ≤ fmeas) {steps : Nat} (hs : 0 < steps) (hN : 2 * steps ≤ Spec.rawCount times fmeas) {net : Net}
    {safety : List ℝ} {r : List ℝ} (hr : ratings3 safety net = .ok r) (hr0 : ∀ x ∈ r, 0 ≤ x)
    {voltage current : Arr2 ℂ} (hvr : voltage.r = times.length) (hcr : current.r = times.length)
    (hvc : voltage.c = r.length) (hcc : current.c = r.length) {u w : Nat → ℂ}
    (hu : ∀ t j, t < voltage.r → j < voltage.c → voltage.get t j = u j) (hu0 : ∀ j, j < voltage.c → u j ≠ 0)
    (hw : ∀ t j, t < current.r → j < current.c → current.get t j = w j) (p : NoiseParams) (hvm : 0 < p.vm) (hcm : 0 ≤ p.cm)
    (hvp : p.vp = 0) (hcp : p.cp = 0) (he : p.equivalent = true) (hne : 0 < r.length) :
    ∃ o : Ω → NoiseResult,
      (∀ ω, addNoiseAndFilter3 (fun k => z k ω) net voltage current times fmeas steps p safety = .ok (o ω)) ∧
      ¬ Spec.LevelAsReturned P o r u w p.vm p.cm := by
  obtain ⟨ts, ts', h1, h2, h3, g, g', hf0⟩ := sampling_ok ht hfm hs (by omega)
  set f := Spec.rawCount times fmeas / steps with hf
  have hf2 : 2 ≤ f := (Nat.le_div_iff_mul_le hs).2 hN
  obtain ⟨o, ho, hl⟩ := noiseSeries_law z hz hi g' one_ne_zero hr0 hvr hcr hvc hcc hu hw
    (vm := p.vm / Real.sqrt f) (cm := p.cm / Real.sqrt f) (div_nonneg hvm.le (Real.sqrt_nonneg _)) (div_nonneg hcm (Real.sqrt_nonneg _))
  have hok : ∀ ω, addNoiseAndFilter3 (fun k => z k ω) net voltage current times fmeas steps p safety =
      .ok ⟨(o ω).1, (o ω).2.1, (o ω).2.2.1, (o ω).2.2.2, r, 1⟩ := by
    intro ω
    unfold addNoiseAndFilter3
    simp only [hr, h1, h2, h3, bind, Except.bind, he, if_true, hvp, hcp, zero_div, ho ω, pure, Except.pure]
  refine ⟨fun ω => ⟨(o ω).1, (o ω).2.1, (o ω).2.2.1, (o ω).2.2.2, r, 1⟩, hok, ?_⟩
  rintro ⟨F, rows, -, hsh, hall⟩
  have hΩ : Nonempty Ω := by
    by_contra h
    rw [not_nonempty_iff] at h
    have := measure_univ (μ := P)
    rw [Set.univ_eq_empty_iff.2 h, measure_empty] at this
    exact zero_ne_one this
  obtain ⟨ω0⟩ := hΩ
  have hrows : 0 < rows := by
    obtain ⟨-, -, hx, -⟩ := hsh ω0
    obtain ⟨-, -, hsame, hge, -⟩ := C86_three (hok ω0)
    have := hsame (o ω0).1 (by simp)
    dsimp only at this hge hx
    omega
  have hF : F = 1 := ((hsh ω0).1).symm
  have hr1 : rows = ts'.length / 1 := by
    rw [← (hsh ω0).2.2.1]
    exact (noiseSeries_shape (ho ω0)).2.1
  obtain ⟨⟨d, d1, d2⟩, -⟩ := hall 0 0 hrows hne
  obtain ⟨⟨d', d1', d2'⟩, -⟩ := hl 0 0 (by omega) hne
  have hdd : d = d' := by
    funext ω
    have h := (d1 ω).symm.trans (d1' ω)
    have hu00 := hu0 0 (by omega)
    have := mul_left_cancel₀ hu00 h
    have := add_left_cancel this
    exact_mod_cast this
  rw [hdd] at d2
  have heq := d2.map_eq.symm.trans d2'.map_eq
  rw [gaussianReal_ext_iff] at heq
  have heq := congrArg NNReal.toReal heq.2
  have heq : (p.vm / Real.sqrt F) ^ 2 = (p.vm / Real.sqrt f / Real.sqrt (1 : Nat)) ^ 2 := heq
  rw [hF, Nat.cast_one, Real.sqrt_one, div_one, div_one, div_pow, Real.sq_sqrt (Nat.cast_nonneg _)] at heq
  have hfR : (2 : ℝ) ≤ f := by exact_mod_cast hf2
  rw [eq_div_iff (by linarith)] at heq
  have : 0 < p.vm ^ 2 := by positivity
  nlinarith

/-! ### C73 -/

/-- number of grid connections among the first `k` rows of the load table -/
def pccBefore (net : Net) (k : Nat) : Nat := (net.load.take k).countP (fun l => l.bus ∈ net.extGrid)

/-- value of entry `k` of the ratings after `n` iterations -/
def ratingAt (net : Net) (base : Nat → ℝ) (T : ℝ) (n k : Nat) : ℝ :=
  match net.load[k]? with
  | some l => if l.bus ∈ net.extGrid ∧ k < n then 2 ^ pccBefore net k * T else base k
  | none => base k

theorem set_eq_map_range {l : List ℝ} {i : Nat} (hi : i < l.length) (v : ℝ) :
    l.set i v = (List.range l.length).map (fun k => if k = i then v else l.getD k 0) := by
  apply List.ext_getElem
  · simp
  · intro k h1 h2
    have hk : k < l.length := by simpa using h1
    rw [List.getElem_set, List.getElem_map, List.getElem_range]
    by_cases h : i = k
    · rw [if_pos h, if_pos h.symm]
    · rw [if_neg h, if_neg (fun e => h e.symm), List.getD_eq_getElem _ _ hk]

theorem ratings_fold (net : Net) (base : Nat → ℝ) (T : ℝ)
    (hT : ∑ k ∈ range net.load.length, base k = T)
    (h0 : ∀ k l, net.load[k]? = some l → l.bus ∈ net.extGrid → base k = 0) (n : Nat) (hn : n ≤ net.load.length) :
    (List.range n).foldl (ratingStep net) ((List.range net.load.length).map base) =
      (List.range net.load.length).map (ratingAt net base T n) ∧
    ∑ k ∈ range net.load.length, ratingAt net base T n k = 2 ^ pccBefore net n * T := by
  induction n with
  | zero =>
    have : ∀ k, ratingAt net base T 0 k = base k := by
      intro k
      unfold ratingAt
      split
      · rw [if_neg (by omega)]
      · rfl
    refine ⟨?_, ?_⟩
    · rw [List.range_zero, List.foldl_nil, (funext this : ratingAt net base T 0 = base)]
    · simp only [this, hT, pccBefore]
      simp
  | succ n ih =>
    obtain ⟨ih1, ih2⟩ := ih (by omega)
    have hl : net.load[n]? = some net.load[n] := List.getElem?_eq_getElem (by omega)
    have htake : net.load.take (n + 1) = net.load.take n ++ [net.load[n]] := (List.take_concat_get' _ _ (by omega)).symm
    have hcount : pccBefore net (n + 1) = pccBefore net n + if net.load[n].bus ∈ net.extGrid then 1 else 0 := by
      unfold pccBefore
      rw [htake, List.countP_append, List.countP_singleton]
      simp
    rw [List.range_succ, List.foldl_append, ih1, List.foldl_cons, List.foldl_nil]
    unfold ratingStep
    rw [hl]
    by_cases hp : net.load[n].bus ∈ net.extGrid
    · rw [hcount, if_pos hp]
      simp only [if_pos hp]
      have hsum : ((List.range net.load.length).map (ratingAt net base T n)).sum = 2 ^ pccBefore net n * T := by
        rw [list_sum_map_range, ih2]
      have hstep : ∀ k, ratingAt net base T (n + 1) k = if k = n then 2 ^ pccBefore net n * T else ratingAt net base T n k := by
        intro k
        by_cases hk : k = n
        · subst hk
          rw [if_pos rfl]
          unfold ratingAt
          rw [hl]
          simp only
          rw [if_pos ⟨hp, by omega⟩]
        · rw [if_neg hk]
          unfold ratingAt
          split
          · have : (k < n + 1) ↔ (k < n) := by omega
            simp only [this]
          · rfl
      have hn0 : ratingAt net base T n n = 0 := by
        unfold ratingAt
        rw [hl]
        simp only
        rw [if_neg (by omega)]
        exact h0 n _ hl hp
      constructor
      · rw [hsum, set_eq_map_range (by simpa using hn)]
        simp only [List.length_map, List.length_range]
        apply List.map_congr_left
        intro k hk
        rw [hstep k]
        by_cases hkn : k = n
        · rw [if_pos hkn, if_pos hkn]
        · rw [if_neg hkn, if_neg hkn, getD_map_range _ _ _ (List.mem_range.1 hk)]
      · simp only [hstep]
        rw [← Finset.add_sum_erase _ _ (Finset.mem_range.2 (show n < net.load.length by omega)), if_pos rfl]
        rw [← Finset.add_sum_erase _ _ (Finset.mem_range.2 (show n < net.load.length by omega)), hn0, zero_add] at ih2
        rw [Finset.sum_congr rfl (g := fun k => ratingAt net base T n k) (fun k hk => if_neg (Finset.mem_erase.1 hk).1), ih2]
        ring
    · rw [hcount, if_neg hp]
      simp only [if_neg hp]
      have hstep : ∀ k, ratingAt net base T (n + 1) k = ratingAt net base T n k := by
        intro k
        unfold ratingAt
        split
        · rename_i l hk
          by_cases hkn : k = n
          · subst hkn
            rw [hl] at hk
            cases hk
            rw [if_neg (fun h => hp h.1), if_neg (fun h => hp h.1)]
          · have : (k < n + 1) ↔ (k < n) := by omega
            simp only [this]
        · rfl
      rw [(funext hstep : ratingAt net base T (n + 1) = ratingAt net base T n)]
      exact ⟨rfl, by rw [ih2, add_zero]⟩

/-- buses with a row in the load table -/
def Spec.loaded (bs : List BusData) : List BusData := bs.filter (fun b => b.type = 1 ∨ b.type = 3)

/-- squared nominal apparent power of a bus on a phase; none at grid connections -/
def Spec.power2 (b : BusData) (ph : Fin 3) : ℝ :=
  if b.type = 1 then (Spec.demandOn b.demand ph).1 ^ 2 + (Spec.demandOn b.demand ph).2 ^ 2 else 0

/-- the only buses that single-phase networks accept are those with scalar demand -/
theorem createBuses_sym {bs : List BusData} {net net' : Net} (h : net.createBuses bs = .ok net') :
    ∀ b ∈ bs, ∃ p q, b.demand = .sym p q := by
  unfold createBuses at h
  induction bs generalizing net with
  | nil => intro b hb; simp at hb
  | cons c bs ih =>
    rw [forIn'_cons] at h
    obtain ⟨n, h1, h2⟩ := Prior.bind_ok h
    intro b hb
    rcases List.mem_cons.1 hb with rfl | hb
    · unfold createBus at h1
      obtain ⟨m, -, h1⟩ := Prior.bind_ok h1
      cases hd : b.demand with
      | sym p q => exact ⟨p, q, rfl⟩
      | asym p q => rw [hd] at h1; cases h1
    · exact ih h2 b hb

theorem netData_sym {bs : List BusData} {ls : Option (List LineData)} {net : Net} {ls' : List LineData}
    (h : netData (some bs) ls = .ok (net, ls')) : ∀ b ∈ bs, ∃ p q, b.demand = .sym p q := by
  unfold netData at h
  simp only [Option.getD_some, bind, Except.bind] at h
  split at h
  · cases h
  · rename_i n hn
    exact createBuses_sym hn

/-- row of the load table of a bus with scalar demand -/
def loadRow1 (b : BusData) : LoadRow :=
  if b.type = 1 then ⟨b.id, b.id, (Spec.demandOn b.demand 0).1, (Spec.demandOn b.demand 0).2, b.z, b.i⟩ else ⟨b.id, b.id, 0, 0, 0, 0⟩

theorem loadRows_loaded {bs : List BusData} (hs : ∀ b ∈ bs, ∃ p q, b.demand = .sym p q) :
    bs.flatMap loadRows = (Spec.loaded bs).map loadRow1 := by
  unfold Spec.loaded
  induction bs with
  | nil => rfl
  | cons b bs ih =>
    rw [List.flatMap_cons, ih (fun c hc => hs c (by simp [hc])), List.filter_cons]
    obtain ⟨p, q, hd⟩ := hs b (by simp)
    by_cases h1 : b.type = 1
    · simp [loadRows, typeLoad, h1, hd, loadRow1, Spec.demandOn]
    · by_cases h3 : b.type = 3
      · simp [loadRows, typeLoad, typePcc, h3, loadRow1]
      · simp [loadRows, typeLoad, typePcc, h1, h3]

theorem mem_ext_iff {bs : List BusData} (hn : (bs.map BusData.id).Nodup) {b : BusData} (hb : b ∈ bs) :
    b.id ∈ bs.flatMap extRows ↔ b.type = 3 := by
  constructor
  · intro h
    obtain ⟨c, hc, he⟩ := List.mem_flatMap.1 h
    unfold extRows at he
    split at he
    · rename_i h3
      have he : b.id = c.id := by simpa using he
      have : b = c := List.inj_on_of_nodup_map hn hb hc he
      rw [this]; exact h3
    · simp at he
  · intro h
    refine List.mem_flatMap.2 ⟨b, hb, ?_⟩
    unfold extRows typePcc
    rw [if_pos h]
    simp

/-- number of grid connections among the first `k` buses with a row in the load table -/
def Spec.connectionsBefore (bs : List BusData) (k : Nat) : Nat := ((Spec.loaded bs).take k).countP (fun b => b.type = 3)

/-- total squared power of the loads -/
def Spec.total2 (bs : List BusData) : ℝ := (bs.map (fun b => Spec.power2 b 0)).sum

/-- C73: what the ratings are. The `k`-th rating belongs to the `k`-th bus with a load row. It is the safety factor times the
*square* of the apparent power of a load, and for grid connections the sum for all loads, doubled for every earlier grid
connection. -/
theorem C73_values {bs : List BusData} {ls : Option (List LineData)} {net : Net} {ls' : List LineData}
    (h : netData (some bs) ls = .ok (net, ls')) (safety : ℝ) :
    (ratings safety net).length = (Spec.loaded bs).length ∧
    ∀ k b, (Spec.loaded bs)[k]? = some b → (ratings safety net).getD k 0 =
      if b.type = 3 then 2 ^ Spec.connectionsBefore bs k * (safety * Spec.total2 bs) else safety * Spec.power2 b 0 := by
  obtain ⟨hn, hb, hload, -, hext⟩ := netData_tables h
  have hsym := netData_sym h
  rw [loadRows_loaded hsym] at hload
  have hlen : net.load.length = (Spec.loaded bs).length := by rw [hload]; simp
  have hsub : ∀ b ∈ Spec.loaded bs, b ∈ bs := fun b hb => (List.mem_filter.1 hb).1
  have hpcc : ∀ b ∈ Spec.loaded bs, ((loadRow1 b).bus ∈ net.extGrid ↔ b.type = 3) := by
    intro b hb
    rw [hext]
    have : (loadRow1 b).bus = b.id := by unfold loadRow1; split <;> rfl
    rw [this]
    exact mem_ext_iff hn (hsub b hb)
  set base : Nat → ℝ := fun k => safety * (((Spec.loaded bs).map (fun b => Spec.power2 b 0)).getD k 0) with hbase
  have hpow : ∀ b, safety * ((loadRow1 b).p * (loadRow1 b).p + (loadRow1 b).q * (loadRow1 b).q) = safety * Spec.power2 b 0 := by
    intro b
    unfold loadRow1 Spec.power2
    split
    · simp only; ring
    · simp
  have hbr : baseRatings safety net = (List.range net.load.length).map base := by
    unfold baseRatings
    apply List.ext_getElem
    · simp
    · intro k h1 h2
      have hk : k < (Spec.loaded bs).length := by rw [← hlen]; simpa using h1
      simp only [List.getElem_map, List.getElem_range, hload, hbase]
      rw [hpow, List.getD_eq_getElem _ _ (by simpa using hk), List.getElem_map]
  have hT : ∑ k ∈ range net.load.length, base k = safety * Spec.total2 bs := by
    rw [hbase, ← Finset.mul_sum]
    congr 1
    unfold Spec.total2
    have e1 : (bs.map (fun b => Spec.power2 b 0)).sum = ((Spec.loaded bs).map (fun b => Spec.power2 b 0)).sum := by
      have : ∀ l : List BusData, (l.map (fun b => Spec.power2 b 0)).sum = ((Spec.loaded l).map (fun b => Spec.power2 b 0)).sum := by
        intro l
        unfold Spec.loaded
        induction l with
        | nil => rfl
        | cons b l ih =>
          rw [List.map_cons, List.sum_cons, ih, List.filter_cons]
          split
          · rw [List.map_cons, List.sum_cons]
          · rename_i hno
            have : b.type ≠ 1 := by intro h; apply hno; simp [h]
            simp [Spec.power2, this]
      exact this bs
    rw [e1]
    have : ((Spec.loaded bs).map (fun b => Spec.power2 b 0)) =
        (List.range net.load.length).map (fun k => ((Spec.loaded bs).map (fun b => Spec.power2 b 0)).getD k 0) := by
      apply List.ext_getElem
      · simp [hlen]
      · intro k h1 h2
        rw [List.getElem_map (fun k => List.getD _ k 0), List.getElem_range, List.getD_eq_getElem _ _ h1]
    conv_rhs => rw [this]
    rw [list_sum_map_range]
  have hrow : ∀ (k : Nat) b, (Spec.loaded bs)[k]? = some b → net.load[k]? = some (loadRow1 b) := by
    intro k b hk
    rw [hload, List.getElem?_map, hk]; rfl
  have hb0 : ∀ (k : Nat) b, (Spec.loaded bs)[k]? = some b → base k = safety * Spec.power2 b 0 := by
    intro k b hk
    obtain ⟨hlt, rfl⟩ := List.getElem?_eq_some_iff.1 hk
    simp only [hbase]
    rw [List.getD_eq_getElem _ _ (by simpa using hlt), List.getElem_map]
  obtain ⟨h1, -⟩ := ratings_fold net base (safety * Spec.total2 bs) hT (by
    intro k l hk hl
    have hk' : k < (Spec.loaded bs).length := by
      rw [← hlen]; exact (List.getElem?_eq_some_iff.1 hk).1
    have hb := List.getElem?_eq_getElem hk'
    rw [hrow k _ hb] at hk
    cases hk
    rw [hb0 k _ hb]
    have := (hpcc _ (List.getElem_mem hk')).1 hl
    simp [Spec.power2, this]) net.load.length le_rfl
  have hr : ratings safety net = (List.range net.load.length).map (ratingAt net base (safety * Spec.total2 bs) net.load.length) := by
    unfold ratings
    rw [hbr, h1]
  refine ⟨by rw [hr]; simp [hlen], ?_⟩
  intro k b hk
  obtain ⟨hlt, hkb⟩ := List.getElem?_eq_some_iff.1 hk
  have hmem : b ∈ Spec.loaded bs := by rw [← hkb]; exact List.getElem_mem hlt
  rw [hr, getD_map_range _ _ _ (by omega)]
  unfold ratingAt
  rw [hrow k b hk]
  simp only
  have hcount : pccBefore net k = Spec.connectionsBefore bs k := by
    unfold pccBefore Spec.connectionsBefore
    rw [show net.load.take k = ((Spec.loaded bs).take k).map loadRow1 by rw [hload, List.map_take], List.countP_map]
    apply List.countP_congr
    intro c hc
    simp only [Function.comp, decide_eq_true_eq]
    exact hpcc c (List.mem_of_mem_take hc)
  by_cases h3 : b.type = 3
  · rw [if_pos ⟨(hpcc b hmem).2 h3, by omega⟩, if_pos h3, hcount]
  · rw [if_neg (fun hh => h3 ((hpcc b hmem).1 hh.1)), if_neg h3, hb0 k b hk]

/-- C73 violated: the rating of a load bus is not the safety factor times its apparent power, unless this is 0 or 1 (or the factor
is zero) -/
theorem C73_violated {bs : List BusData} {ls : Option (List LineData)} {net : Net} {ls' : List LineData}
    (h : netData (some bs) ls = .ok (net, ls')) {safety : ℝ} (hs : safety ≠ 0) {k : Nat} {b : BusData}
    (hk : (Spec.loaded bs)[k]? = some b) {p q : ℝ} (ht : b.type = 1) (hd : b.demand = .sym p q)
    (h0 : ‖(⟨p, q⟩ : ℂ)‖ ≠ 0) (h1 : ‖(⟨p, q⟩ : ℂ)‖ ≠ 1) :
    (ratings safety net).getD k 0 ≠ safety * ‖(⟨p, q⟩ : ℂ)‖ := by
  rw [(C73_values h safety).2 k b hk, if_neg (by rw [ht]; norm_num)]
  have : Spec.power2 b 0 = ‖(⟨p, q⟩ : ℂ)‖ ^ 2 := by
    rw [Complex.sq_norm, Complex.normSq_mk]
    simp [Spec.power2, ht, hd, Spec.demandOn, sq]
  rw [this]
  intro he
  have he := mul_left_cancel₀ hs he
  have : ‖(⟨p, q⟩ : ℂ)‖ * (‖(⟨p, q⟩ : ℂ)‖ - 1) = 0 := by linear_combination he
  rcases mul_eq_zero.1 this with h' | h'
  · exact h0 h'
  · exact h1 (by linarith)

/-- C73 violated: with two grid connections, the rating of the first one is not the sum of the others (unless there is no load) -/
theorem C73_two_connections_violated {bs : List BusData} {ls : Option (List LineData)} {net : Net} {ls' : List LineData}
    (h : netData (some bs) ls = .ok (net, ls')) {safety : ℝ} (hs : 0 < safety) (ht : Spec.total2 bs ≠ 0) {k k' : Nat}
    (hkk : k < k') {b b' : BusData} (hk : (Spec.loaded bs)[k]? = some b) (hk' : (Spec.loaded bs)[k']? = some b')
    (h3 : b.type = 3) (h3' : b'.type = 3) :
    (ratings safety net).getD k 0 ≠
      ∑ j ∈ (range (ratings safety net).length).erase k, (ratings safety net).getD j 0 := by
  obtain ⟨hl, hv⟩ := C73_values h safety
  have hkl := (List.getElem?_eq_some_iff.1 hk).1
  have hkl' := (List.getElem?_eq_some_iff.1 hk').1
  have hT : 0 < Spec.total2 bs := by
    refine lt_of_le_of_ne (List.sum_nonneg ?_) (Ne.symm ht)
    intro x hx
    obtain ⟨c, -, rfl⟩ := List.mem_map.1 hx
    unfold Spec.power2
    split
    · positivity
    · exact le_rfl
  have hnn : ∀ j, 0 ≤ (ratings safety net).getD j 0 := by
    intro j
    by_cases hj : j < (ratings safety net).length
    · rw [List.getD_eq_getElem _ _ hj]
      exact (ratings_spec safety hs.le net).2 _ (List.getElem_mem hj)
    · rw [List.getD_eq_default _ _ (by omega)]
  have hlt : (ratings safety net).getD k 0 < (ratings safety net).getD k' 0 := by
    rw [hv k b hk, hv k' b' hk', if_pos h3, if_pos h3']
    have hc : Spec.connectionsBefore bs k < Spec.connectionsBefore bs k' := by
      unfold Spec.connectionsBefore
      have hsplit : (Spec.loaded bs).take k' = (Spec.loaded bs).take k ++ ((Spec.loaded bs).take k').drop k := by
        conv_lhs => rw [← List.take_append_drop k ((Spec.loaded bs).take k')]
        rw [List.take_take, min_eq_left hkk.le]
      rw [hsplit, List.countP_append]
      have : 0 < (((Spec.loaded bs).take k').drop k).countP (fun b => decide (b.type = 3)) := by
        rw [List.countP_pos_iff]
        refine ⟨b, ?_, by simpa using h3⟩
        apply List.mem_of_getElem? (i := 0)
        rw [List.getElem?_drop, List.getElem?_take, if_pos (by omega), add_zero]
        exact hk
      omega
    have h2 : (2 : ℝ) ^ Spec.connectionsBefore bs k < 2 ^ Spec.connectionsBefore bs k' := pow_lt_pow_right₀ (by norm_num) hc
    exact mul_lt_mul_of_pos_right h2 (mul_pos hs hT)
  have hle : (ratings safety net).getD k' 0 ≤ ∑ j ∈ (range (ratings safety net).length).erase k, (ratings safety net).getD j 0 :=
    Finset.single_le_sum (f := fun j => (ratings safety net).getD j 0) (fun j _ => hnn j)
      (Finset.mem_erase.2 ⟨by omega, Finset.mem_range.2 (by omega)⟩)
  intro he
  rw [he] at hlt
  exact absurd hle (not_le.2 hlt)

/-- C73 partial: with one grid connection, its rating is the sum of the others, and the others are the safety factor times the
*squared* apparent power. Missing: the apparent power itself and several connections, where the claim fails. -/
theorem C73_partial {bs : List BusData} {ls : Option (List LineData)} {net : Net} {ls' : List LineData}
    (h : netData (some bs) ls = .ok (net, ls')) (safety : ℝ) (hone : (bs.filter (fun b => b.type = 3)).length ≤ 1) {k : Nat}
    {b : BusData} (hk : (Spec.loaded bs)[k]? = some b) :
    (b.type = 1 → ∀ p q, b.demand = .sym p q → (ratings safety net).getD k 0 = safety * ‖(⟨p, q⟩ : ℂ)‖ ^ 2) ∧
    (b.type = 3 → (ratings safety net).getD k 0 =
      ∑ j ∈ (range (ratings safety net).length).erase k, (ratings safety net).getD j 0) := by
  obtain ⟨hl, hv⟩ := C73_values h safety
  constructor
  · intro h1 p q hd
    rw [hv k b hk, if_neg (by rw [h1]; norm_num), Complex.sq_norm, Complex.normSq_mk]
    simp [Spec.power2, h1, hd, Spec.demandOn, sq]
  · intro h3
    have hkl := (List.getElem?_eq_some_iff.1 hk).1
    have hcnt : (Spec.loaded bs).countP (fun b => b.type = 3) ≤ 1 := by
      have : (Spec.loaded bs).filter (fun b => b.type = 3) = bs.filter (fun b => b.type = 3) := by
        unfold Spec.loaded
        rw [List.filter_filter]
        apply List.filter_congr
        intro c _
        by_cases hc : c.type = 3 <;> simp [hc]
      rw [List.countP_eq_length_filter, this]
      exact hone
    have honly : ∀ (j : Nat) c, (Spec.loaded bs)[j]? = some c → c.type = 3 → j = k := by
      intro j c hj hc
      by_contra hne
      have key : ∀ (l : List BusData) (i i' : Nat), i < i' → (∀ x, l[i]? = some x → x.type = 3) → (∃ x, l[i]? = some x) →
          (∃ x, l[i']? = some x ∧ x.type = 3) → 2 ≤ l.countP (fun b => b.type = 3) := by
        intro l i i' hii h1 h2 h3
        obtain ⟨x, hx⟩ := h2
        obtain ⟨x', hx', hx3'⟩ := h3
        rw [← List.take_append_drop (i + 1) l, List.countP_append]
        have a : 0 < (l.take (i + 1)).countP (fun b => decide (b.type = 3)) := by
          rw [List.countP_pos_iff]
          refine ⟨x, ?_, by simpa using h1 x hx⟩
          apply List.mem_of_getElem? (i := i)
          rw [List.getElem?_take, if_pos (by omega)]
          exact hx
        have b : 0 < (l.drop (i + 1)).countP (fun b => decide (b.type = 3)) := by
          rw [List.countP_pos_iff]
          refine ⟨x', ?_, by simpa using hx3'⟩
          apply List.mem_of_getElem? (i := i' - (i + 1))
          rw [List.getElem?_drop, show i + 1 + (i' - (i + 1)) = i' by omega]
          exact hx'
        omega
      rcases Nat.lt_or_gt_of_ne hne with hlt | hlt
      · have := key (Spec.loaded bs) j k hlt (fun x hx => by rw [hj] at hx; cases hx; exact hc) ⟨c, hj⟩ ⟨b, hk, h3⟩
        omega
      · have := key (Spec.loaded bs) k j hlt (fun x hx => by rw [hk] at hx; cases hx; exact h3) ⟨b, hk⟩ ⟨c, hj, hc⟩
        omega
    have hc0 : Spec.connectionsBefore bs k = 0 := by
      unfold Spec.connectionsBefore
      rw [List.countP_eq_zero]
      intro c hc
      obtain ⟨j, hj⟩ := List.getElem?_of_mem hc
      rw [List.getElem?_take] at hj
      split at hj
      · rename_i hjk
        simp only [decide_eq_true_eq]
        intro h3'
        have := honly j c hj h3'
        omega
      · cases hj
    rw [hv k b hk, if_pos h3, hc0, pow_zero, one_mul]
    have hsum : ∑ j ∈ (range (ratings safety net).length).erase k, (ratings safety net).getD j 0 =
        ∑ j ∈ (range (Spec.loaded bs).length).erase k, safety * ((Spec.loaded bs).map (fun b => Spec.power2 b 0)).getD j 0 := by
      rw [hl]
      apply Finset.sum_congr rfl
      intro j hj
      have hj' := Finset.mem_erase.1 hj
      have hjl := Finset.mem_range.1 hj'.2
      have hjb := List.getElem?_eq_getElem hjl
      rw [hv j _ hjb, if_neg (fun h3' => hj'.1 (honly j _ hjb h3')), List.getD_eq_getElem _ _ (by simpa using hjl),
        List.getElem_map]
    rw [hsum, ← Finset.mul_sum]
    congr 1
    have hk0 : ((Spec.loaded bs).map (fun b => Spec.power2 b 0)).getD k 0 = 0 := by
      rw [List.getD_eq_getElem?_getD, List.getElem?_map, hk]
      simp [Spec.power2, h3]
    have hfull := Finset.add_sum_erase (range (Spec.loaded bs).length)
      (fun j => ((Spec.loaded bs).map (fun b => Spec.power2 b 0)).getD j 0) (Finset.mem_range.2 hkl)
    rw [hk0, zero_add] at hfull
    rw [hfull, ← list_sum_map_range]
    have e1 : ∀ l : List BusData, (l.map (fun b => Spec.power2 b 0)).sum = ((Spec.loaded l).map (fun b => Spec.power2 b 0)).sum := by
      intro l
      unfold Spec.loaded
      induction l with
      | nil => rfl
      | cons b l ih =>
        rw [List.map_cons, List.sum_cons, ih, List.filter_cons]
        split
        · rw [List.map_cons, List.sum_cons]
        · rename_i hno
          have : b.type ≠ 1 := by intro h; apply hno; simp [h]
          simp [Spec.power2, this]
    unfold Spec.total2
    rw [e1]
    congr 1
    apply List.ext_getElem
    · simp
    · intro j h1 h2
      rw [List.getElem_map _ (l := List.range _), List.getElem_range, List.getD_eq_getElem _ _ h1]

/-! ### C74, one phase -/

/-- C74, one phase: whenever measurements are returned, there is one rating per measured column, and the one at a column is computed
from the load of the bus of this column -/
theorem C74_single {bs : List BusData} {ls : Option (List LineData)} {net : Net} {ls' : List LineData}
    (h : netData (some bs) ls = .ok (net, ls')) {z : Nat → ℝ} {voltage current : Arr2 ℂ} {times : List ℝ} {fmeas : ℝ}
    {steps : Nat} {p : NoiseParams} {safety : ℝ} {res : NoiseResult} (hv : voltage.c = bs.length) (hc : current.c = bs.length)
    (hres : addNoiseAndFilter z net voltage current times fmeas steps p safety = .ok res) :
    res.ratings.length = bs.length ∧ net.load.map LoadRow.bus = net.bus.map BusRow.index ∧
    ∀ k b, bs[k]? = some b → res.ratings.getD k 0 =
      if b.type = 3 then 2 ^ Spec.connectionsBefore bs k * (safety * Spec.total2 bs) else safety * Spec.power2 b 0 := by
  have hr : res.ratings = ratings safety net ∧ voltage.c + current.c ≤ 2 * (ratings safety net).length := by
    unfold addNoiseAndFilter at hres
    obtain ⟨⟨m, ts⟩, h1, hres⟩ := Prior.bind_ok hres
    obtain ⟨f, h2, hres⟩ := Prior.bind_ok hres
    dsimp only at hres
    split at hres
    · obtain ⟨ts', h3, hres⟩ := Prior.bind_ok hres
      obtain ⟨⟨nv, ni, v, i⟩, h4, hres⟩ := Prior.bind_ok hres
      cases hres
      exact ⟨rfl, (noiseSeries_shape h4).2.2.2.2.2⟩
    · obtain ⟨⟨nv, ni, v, i⟩, h4, hres⟩ := Prior.bind_ok hres
      cases hres
      exact ⟨rfl, (noiseSeries_shape h4).2.2.2.2.2⟩
  obtain ⟨hr1, hr2⟩ := hr
  obtain ⟨hl, hval⟩ := C73_values h safety
  obtain ⟨hn, hb, hload, -, hext⟩ := netData_tables h
  have hle : (Spec.loaded bs).length ≤ bs.length := List.length_filter_le _ _
  have hall : Spec.loaded bs = bs := by
    unfold Spec.loaded at *
    rw [List.filter_eq_self]
    exact List.length_filter_eq_length_iff.1 (by omega)
  rw [loadRows_loaded (netData_sym h), hall] at hload
  rw [hall] at hval hl
  refine ⟨by rw [hr1, hl], ?_, fun k b hk => by rw [hr1]; exact hval k b hk⟩
  rw [hload, hb, List.map_map, List.map_map]
  apply List.map_congr_left
  intro b _
  simp only [Function.comp, busRow]
  unfold loadRow1
  split <;> rfl

/-! ### C74, three phases -/

/-- a fold over the rows of uniquely labelled buses keeps the value of the only matching one -/
theorem foldl_last {ρ : Type} (key : ρ → Int) (val : ρ → ℝ) (rows : BusData → List ρ)
    (hkey : ∀ b, ∀ r ∈ rows b, key r = b.id) (hlen : ∀ b, (rows b).length ≤ 1) {bs : List BusData}
    (hn : (bs.map BusData.id).Nodup) {b : BusData} (hb : b ∈ bs) (s : ℝ) :
    (bs.flatMap rows).foldl (fun acc r => if key r = b.id then val r else acc) s =
      match rows b with
      | [] => s
      | r :: _ => val r := by
  have hskip : ∀ (l : List BusData) (s : ℝ), b.id ∉ l.map BusData.id →
      (l.flatMap rows).foldl (fun acc r => if key r = b.id then val r else acc) s = s := by
    intro l
    induction l with
    | nil => intro s _; rfl
    | cons c l ih =>
      intro s hc
      rw [List.flatMap_cons, List.foldl_append]
      have hne : c.id ≠ b.id := by intro e; apply hc; simp [e]
      have : (rows c).foldl (fun acc r => if key r = b.id then val r else acc) s = s := by
        have hk := hkey c
        generalize rows c = rs at hk
        clear hc
        induction rs with
        | nil => rfl
        | cons r rs ih2 =>
          rw [List.foldl_cons, if_neg (by rw [hk r (by simp)]; exact hne)]
          exact ih2 (fun r' hr' => hk r' (by simp [hr']))
      rw [this]
      exact ih s (fun h => hc (by simp only [List.map_cons, List.mem_cons]; exact Or.inr h))
  induction bs generalizing s with
  | nil => simp at hb
  | cons c bs ih =>
    rw [List.map_cons, List.nodup_cons] at hn
    rw [List.flatMap_cons, List.foldl_append]
    rcases List.mem_cons.1 hb with rfl | hb'
    · rw [hskip bs _ hn.1]
      have h1 := hlen b
      have hk := hkey b
      match h : rows b with
      | [] => rfl
      | [r] => rw [List.foldl_cons, List.foldl_nil, if_pos (hk r (by rw [h]; simp))]
      | r :: r' :: rs => rw [h] at h1; simp at h1
    · have hne : c.id ≠ b.id := by intro e; exact hn.1 (e ▸ List.mem_map_of_mem hb')
      have hz := hskip [c] s (by simpa using fun e => hne e.symm)
      simp only [List.flatMap_cons, List.flatMap_nil, List.append_nil] at hz
      rw [hz]
      exact ih hn.2 hb' s

/-- the nominal power found by the loops is the one of the bus data -/
theorem totalLoad_eq {ts : List String} {bs : List BusData} {ls : Option (List LineData)} {net : Net}
    (h : netData3 ts (some bs) ls = .ok net) {b : BusData} (hb : b ∈ bs) (ph : Fin 3) :
    totalLoad net b.id ph = Spec.power2 b ph := by
  obtain ⟨hn, -, hload, hasym, -⟩ := netData3_tables h
  unfold totalLoad
  simp only [hload, hasym]
  rw [foldl_last LoadRow.bus (fun l => l.p * l.p + l.q * l.q) loadRows loadRows_bus (by
      intro b; unfold loadRows; split
      · split <;> simp
      · split <;> simp) hn hb,
    foldl_last AsymRow.bus (fun l => l.p ph * l.p ph + l.q ph * l.q ph) asymRows asymRows_bus (by
      intro b; unfold asymRows; split
      · split <;> simp
      · simp) hn hb]
  unfold loadRows asymRows Spec.power2 typeLoad
  by_cases h1 : b.type = 1
  · rw [if_pos h1, if_pos h1, if_pos h1]
    cases hd : b.demand with
    | sym p q => simp [Spec.demandOn, sq]
    | asym p q => simp [Spec.demandOn, sq]
  · rw [if_neg h1, if_neg h1, if_neg h1]
    by_cases h3 : b.type = 3
    · simp [typePcc, h3]
    · simp [typePcc, h3]

/-- C74, three phases: the rating of node `i` on phase `ph` is stored at position `ph * n + i`. Exempt are the positions `i` that
have, in the table of symmetric loads, the row of a grid connection: there is the sum over the nodes instead. -/
theorem C74_three_entries {ts : List String} {bs : List BusData} {ls : Option (List LineData)} {net : Net}
    (h : netData3 ts (some bs) ls = .ok net) {safety : List ℝ} (hs : safety.length = 3) {r : List ℝ}
    (hr : ratings3 safety net = .ok r) :
    r.length = 3 * bs.length ∧
    ∀ (ph : Fin 3) (i : Nat) (b : BusData), bs[i]? = some b → (∀ l, net.load[i]? = some l → l.bus ∉ net.extGrid) →
      r.getD (ph * bs.length + i) 0 = safety.getD ph 0 * Spec.power2 b ph := by
  obtain ⟨hn, hbus, -, -, -⟩ := netData3_tables h
  have hlen : net.bus.length = bs.length := by rw [hbus]; simp
  unfold ratings3 at hr
  obtain ⟨a, h1, hr2⟩ := Prior.bind_ok hr
  obtain ⟨a', h2, hr3⟩ := Prior.bind_ok hr2
  clear hr hr2
  unfold baseRatings3 at h1
  rw [if_pos (Or.inl hs)] at h1
  cases h1
  have hkeep := (forRange_visits (s0 := _) (s := a') (f := ratingStep3 net)
    (fun x : Arr2 ℝ => x.r = 3 ∧ x.c = bs.length ∧ ∀ (ph : Fin 3) (i : Nat) (b : BusData), bs[i]? = some b →
      (∀ l, net.load[i]? = some l → l.bus ∉ net.extGrid) → x.get ph i = safety.getD ph 0 * Spec.power2 b ph)
    (by
      rintro x k x' ⟨hx1, hx2, hx3⟩ hk
      unfold ratingStep3 at hk
      split at hk
      · rename_i l hl
        split at hk
        · rename_i hp
          split at hk
          · rename_i hkc
            cases hk
            refine ⟨hx1, hx2, ?_⟩
            intro ph i b hb hi
            have hi' : i < bs.length := (List.getElem?_eq_some_iff.1 hb).1
            rw [Arr2.ofFn_get _ (by rw [hx1]; exact ph.2) (by rw [hx2]; exact hi')]
            rw [if_neg (by rintro rfl; exact hi l hl hp)]
            exact hx3 ph i b hb hi
          · cases hk
        · cases hk; exact ⟨hx1, hx2, hx3⟩
      · cases hk)
    net.load.length (by
      refine ⟨rfl, hlen, ?_⟩
      intro ph i b hb hi
      have hi' : i < bs.length := (List.getElem?_eq_some_iff.1 hb).1
      rw [Arr2.ofFn_get _ ph.2 (by rw [hlen]; exact hi')]
      have : net.bus[i]? = some (busRow b) := by rw [hbus, List.getElem?_map, hb]; rfl
      rw [this, if_neg (by omega)]
      simp only
      have e : (if (ph : Nat) = 0 then (0 : Fin 3) else if (ph : Nat) = 1 then 1 else 2) = ph := by fin_cases ph <;> rfl
      rw [e]
      congr 1
      exact totalLoad_eq h (List.mem_of_getElem? hb) ph) h2).1
  obtain ⟨-, -, hk3⟩ := hkeep
  cases hr3
  refine ⟨by simp [hlen], ?_⟩
  intro ph i b hb hi
  have hi' : i < bs.length := (List.getElem?_eq_some_iff.1 hb).1
  have hp := ph.2
  rw [hlen, getD_map_range _ _ _ (by nlinarith), Nat.mul_comm, Nat.mul_add_div (by omega), Nat.mul_add_mod,
    Nat.div_eq_of_lt hi', Nat.mod_eq_of_lt hi', add_zero]
  exact hk3 ph i b hb hi

/-- C74, three phases, violated: the measured columns are ordered by node, then by phase (column 1 is the second phase of the
first node), but rating 1 is computed from the first phase of the second node -/
theorem C74_three_violated {ts : List String} {bs : List BusData} {ls : Option (List LineData)} {net : Net}
    (h : netData3 ts (some bs) ls = .ok net) {safety : List ℝ} (hs : safety.length = 3) {r : List ℝ}
    (hr : ratings3 safety net = .ok r) {b0 b1 : BusData} (h0 : bs[0]? = some b0) (h1 : bs[1]? = some b1)
    (hload : ∀ l, net.load[1]? = some l → l.bus ∉ net.extGrid)
    (hne : safety.getD 0 0 * Spec.power2 b1 0 ≠ safety.getD 1 0 * Spec.power2 b0 1) :
    r.getD (3 * 0 + 1) 0 ≠ safety.getD 1 0 * Spec.power2 b0 1 := by
  obtain ⟨-, h2⟩ := C74_three_entries h hs hr
  have := h2 0 1 b1 h1 hload
  simp only [Fin.val_zero, zero_mul, zero_add] at this
  simp only [mul_zero, zero_add]
  rw [this]
  exact hne

/-- C74 partial, three phases: the rating is the one of its column where both orders agree, that is at the first phase of the first
node, at the last phase of the last node and in networks with one node. Missing: the other columns, where it is not. -/
theorem C74_three_partial {ts : List String} {bs : List BusData} {ls : Option (List LineData)} {net : Net}
    (h : netData3 ts (some bs) ls = .ok net) {safety : List ℝ} (hs : safety.length = 3) {r : List ℝ}
    (hr : ratings3 safety net = .ok r) {ph : Fin 3} {i : Nat} {b : BusData} (hb : bs[i]? = some b)
    (hload : ∀ l, net.load[i]? = some l → l.bus ∉ net.extGrid)
    (hagree : bs.length = 1 ∨ (i = 0 ∧ ph = 0) ∨ (i + 1 = bs.length ∧ ph = 2)) :
    r.getD (3 * i + ph) 0 = safety.getD ph 0 * Spec.power2 b ph := by
  obtain ⟨-, h2⟩ := C74_three_entries h hs hr
  rw [← h2 ph i b hb hload]
  congr 1
  have hi' : i < bs.length := (List.getElem?_eq_some_iff.1 hb).1
  rcases hagree with h1 | ⟨h1, h3⟩ | ⟨h1, h3⟩
  · rw [h1]; omega
  · subst h1 h3; simp
  · subst h3
    show 3 * i + 2 = 2 * bs.length + i
    omega

/-! ### concrete cases meeting the hypotheses -/

/-- two grid connections and two loads -/
def demoBuses73 : List BusData :=
  [⟨1, 3, .sym 0 0, 20, 0, 0⟩, ⟨2, 1, .sym 3 4, 20, 0, 0⟩, ⟨3, 1, .sym 0 2, 20, 0, 0⟩, ⟨4, 3, .sym 0 0, 20, 0, 0⟩]

theorem demo73_build (bs : List BusData) (hn : (bs.map BusData.id).Nodup) (hd : ∀ b ∈ bs, ∃ p q, b.demand = .sym p q) :
    ∃ net ls', netData (some bs) (some []) = .ok (net, ls') := by
  obtain ⟨net, ls', h, -⟩ := C65_single bs [] hn hd (by simp)
  exact ⟨net, ls', h⟩

/-- C73: the ratings of the connections are 4·(25+4) and twice this, the ones of the loads are 4·25 rather than 4·5 and 4·4 rather
than 4·2 -/
theorem demo_ratings : ∃ net ls', netData (some demoBuses73) (some []) = .ok (net, ls') ∧
    ratings 4 net = [116, 100, 16, 232] := by
  obtain ⟨net, ls', h⟩ := demo73_build demoBuses73 (by simp [demoBuses73]) (by
    intro b hb
    simp only [demoBuses73, List.mem_cons, List.not_mem_nil, or_false] at hb
    rcases hb with rfl | rfl | rfl | rfl <;> exact ⟨_, _, rfl⟩)
  refine ⟨net, ls', h, ?_⟩
  obtain ⟨h1, h2⟩ := C73_values h 4
  have hl : Spec.loaded demoBuses73 = demoBuses73 := by simp [Spec.loaded, demoBuses73]
  have ht : Spec.total2 demoBuses73 = 29 := by
    simp [Spec.total2, demoBuses73, Spec.power2, Spec.demandOn]; norm_num
  rw [hl] at h1 h2
  have hlen : (ratings 4 net).length = 4 := by rw [h1]; rfl
  have e : ∀ k, k < 4 → (ratings 4 net)[k]? = some ((ratings 4 net).getD k 0) := by
    intro k hk
    rw [List.getD_eq_getElem _ _ (by omega), List.getElem?_eq_getElem (by omega)]
  apply List.ext_getElem? fun k => ?_
  match k with
  | 0 => rw [e 0 (by omega), h2 0 _ rfl]; simp [Spec.connectionsBefore, ht]; norm_num
  | 1 => rw [e 1 (by omega), h2 1 _ rfl]; simp [Spec.power2, Spec.demandOn]; norm_num
  | 2 => rw [e 2 (by omega), h2 2 _ rfl]; simp [Spec.power2, Spec.demandOn]; norm_num
  | 3 =>
    rw [e 3 (by omega), h2 3 _ rfl]
    simp [Spec.connectionsBefore, ht, hl]
    simp [demoBuses73, List.countP_cons]
    norm_num
  | k + 4 => rw [List.getElem?_eq_none (by omega)]; simp

/-- hypotheses of C72 and C74: a connection and a load, two samples a second apart, 40 raw samples for 20 steps -/
theorem demo_sampling : ∃ net ls', netData (some [⟨1, 3, .sym 0 0, 20, 0, 0⟩, ⟨2, 1, .sym 3 4, 20, 0, 0⟩]) (some []) = .ok (net, ls') ∧
    net.load.length = 2 ∧ Spec.Times [0, 1] ∧ Spec.rawCount [0, 1] 40 = 40 ∧
    ∃ (Ω : Type) (_ : MeasurableSpace Ω) (P : Measure Ω) (_ : IsProbabilityMeasure P) (z : Nat → Ω → ℝ) (o : Ω → NoiseResult),
      (∀ ω, addNoiseAndFilter (fun k => z k ω) net (Arr2.ofFn 2 2 (fun _ _ => 1)) (Arr2.ofFn 2 2 (fun _ _ => 1)) [0, 1] 40 20
        ⟨1 / 100, 1 / 100, 0, 0, true⟩ 4 = .ok (o ω)) ∧ (∀ ω, (o ω).voltage.r = 20) := by
  obtain ⟨net, ls', h⟩ := demo73_build [⟨1, 3, .sym 0 0, 20, 0, 0⟩, ⟨2, 1, .sym 3 4, 20, 0, 0⟩] (by simp) (by
    intro b hb
    simp only [List.mem_cons, List.not_mem_nil, or_false] at hb
    rcases hb with rfl | rfl <;> exact ⟨_, _, rfl⟩)
  have ht : Spec.Times [0, 1] := ⟨by simp, by simp, rfl⟩
  have hN : Spec.rawCount [0, 1] 40 = 40 := by
    unfold Spec.rawCount
    have : pyRound (40 : ℝ) = 40 := by simpa using pyRound_int 40
    simp [timesMax, this]
  have hl : net.load.length = 2 := by
    obtain ⟨-, -, h2, -⟩ := netData_tables h
    rw [h2]
    simp [loadRows, typeLoad, typePcc]
  refine ⟨net, ls', h, hl, ht, hN, ?_⟩
  obtain ⟨Ω, m, P, hP, z, hz, hi⟩ := exists_standard_normals
  obtain ⟨o, ho, -⟩ := C72_single z hz hi ht (fmeas := 40) (by norm_num) (steps := 20) (by norm_num) (by rw [hN]; norm_num) (net := net)
    (safety := 4) (by norm_num) (voltage := Arr2.ofFn 2 2 (fun _ _ => 1)) (current := Arr2.ofFn 2 2 (fun _ _ => 1)) rfl rfl hl.symm hl.symm
    (u := fun _ => 1) (w := fun _ => 1) (fun t j h1 h2 => Arr2.ofFn_get _ h1 h2) (fun t j h1 h2 => Arr2.ofFn_get _ h1 h2)
    ⟨1 / 100, 1 / 100, 0, 0, true⟩ (by norm_num) (by norm_num) rfl rfl
  refine ⟨Ω, m, P, hP, z, o, ho, fun ω => ?_⟩
  exact (C86_single (ho ω)).2.2.2.2.2 (by rw [hN]; norm_num)

/-- hypotheses of the three-phase parts of C72 and C74: rating 1 is 25 (first phase of the second node), while the second phase of
the first node has no load -/
theorem demo_ratings3 : ∃ net r, netData3 [] (some [⟨1, 3, .sym 0 0, 20, 0, 0⟩, ⟨2, 1, .asym (fun _ => 3) (fun _ => 4), 20, 0, 0⟩])
      (some []) = .ok net ∧ ratings3 [1, 1, 1] net = .ok r ∧ r.length = 6 ∧ r.getD 1 0 = 25 ∧ (∀ x ∈ r, 0 ≤ x) := by
  obtain ⟨net, h, -⟩ := C65_three [] [⟨1, 3, .sym 0 0, 20, 0, 0⟩, ⟨2, 1, .asym (fun _ => 3) (fun _ => 4), 20, 0, 0⟩] [] (by simp)
    (by
      intro b hb ht
      simp only [List.mem_cons, List.not_mem_nil, or_false] at hb
      rcases hb with rfl | rfl
      · exact ⟨_, _, rfl⟩
      · simp at ht) (by simp)
  obtain ⟨-, hb, hl, -, -⟩ := netData3_tables h
  have hl' : net.load = [⟨1, 1, 0, 0, 0, 0⟩] := by rw [hl]; simp [loadRows, typeLoad, typePcc]
  have hbl : net.bus.length = 2 := by rw [hb]; rfl
  obtain ⟨r, hr, hr0⟩ : ∃ r, ratings3 [1, 1, 1] net = .ok r ∧ ∀ x ∈ r, 0 ≤ x := by
    have hb0 : baseRatings3 [1, 1, 1] net = .ok (Arr2.ofFn 3 net.bus.length (fun ph i =>
        (if [(1 : ℝ), 1, 1].length = 1 then [(1 : ℝ), 1, 1].getD 0 0 else [(1 : ℝ), 1, 1].getD ph 0) *
        match net.bus[i]? with
        | some b => totalLoad net b.index (if ph = 0 then 0 else if ph = 1 then 1 else 2)
        | none => 0)) := by
      unfold baseRatings3
      rw [if_pos (Or.inl (by simp))]
      congr 2
    obtain ⟨a, ha, hc, -, hpos⟩ := forRange_inv (fun _ (x : Arr2 ℝ) => x.c = 2 ∧ x.r = 3 ∧ ∀ i j, i < 3 → j < 2 → 0 ≤ x.get i j) net.load.length
      (Arr2.ofFn 3 net.bus.length (fun ph i =>
        (if [(1 : ℝ), 1, 1].length = 1 then [(1 : ℝ), 1, 1].getD 0 0 else [(1 : ℝ), 1, 1].getD ph 0) *
        match net.bus[i]? with
        | some b => totalLoad net b.index (if ph = 0 then 0 else if ph = 1 then 1 else 2)
        | none => 0)) (ratingStep3 net) ⟨hbl, rfl, by
          intro i j hi hj
          rw [Arr2.ofFn_get _ hi (by rw [hbl]; exact hj), if_neg (by simp)]
          refine mul_nonneg ?_ ?_
          · match i with
            | 0 => simp
            | 1 => simp
            | 2 => simp
            | i + 3 => omega
          · have : ∃ b, b ∈ [(⟨1, 3, .sym 0 0, 20, 0, 0⟩ : BusData), ⟨2, 1, .asym (fun _ => 3) (fun _ => 4), 20, 0, 0⟩] ∧
                net.bus[j]? = some (busRow b) := by
              rw [hb]
              match j with
              | 0 => exact ⟨_, by simp, rfl⟩
              | 1 => exact ⟨_, List.mem_cons_of_mem _ (List.mem_singleton.2 rfl), rfl⟩
              | j + 2 => omega
            obtain ⟨b, hb1, hb2⟩ := this
            rw [hb2]
            simp only
            rw [show (busRow b).index = b.id from rfl, totalLoad_eq h hb1]
            unfold Spec.power2
            split
            · positivity
            · exact le_rfl⟩
      (by
        rintro k hk x ⟨hx1, hx2, hx3⟩
        have hk0 : k = 0 := by rw [hl'] at hk; simpa using hk
        subst hk0
        unfold ratingStep3
        rw [hl']
        simp only [List.getElem?_cons_zero]
        split
        · rw [if_pos (by omega)]
          refine ⟨_, rfl, hx1, hx2, ?_⟩
          intro i j hi hj
          rw [Arr2.ofFn_get _ (by omega) (by omega)]
          split
          · unfold Arr2.rowSum
            apply List.sum_nonneg
            intro y hy
            obtain ⟨t, ht, rfl⟩ := List.mem_map.1 hy
            exact hx3 i t hi (by rw [← hx1]; exact List.mem_range.1 ht)
          · exact hx3 i j hi hj
        · exact ⟨_, rfl, hx1, hx2, hx3⟩)
    refine ⟨(List.range (3 * net.bus.length)).map (fun k => a.get (k / net.bus.length) (k % net.bus.length)), ?_, ?_⟩
    · unfold ratings3
      simp only [hb0, bind, Except.bind, ha, pure, Except.pure]
    · intro x hx
      obtain ⟨t, ht, rfl⟩ := List.mem_map.1 hx
      have := List.mem_range.1 ht
      rw [hbl] at this ⊢
      exact hpos _ _ (by omega) (by omega)
  obtain ⟨h1, h2⟩ := C74_three_entries h rfl hr
  refine ⟨net, r, h, hr, h1, ?_, hr0⟩
  have := h2 0 1 _ rfl (by rw [hl']; simp)
  simp only [Fin.val_zero, zero_mul, zero_add] at this
  rw [this]
  simp [Spec.power2, Spec.demandOn]
  norm_num

end
end Verif
