/-
C115: a simulation without noise followed by an identification.
-/
import Verif.Props.Programs
import Verif.Props.Sampling
import Verif.Props.Reduce
import Verif.Props.Identification
import Verif.Lemmas.Svd

namespace Verif
open Finset Matrix Net
noncomputable section

/-! ### filtering without noise -/

theorem filter_rows {a : Arr2 ℂ} {old new : List ℝ} {f : Nat} {noise : Nat → List ℂ → Except PyErr (List ℂ)} {o : Arr2 ℂ}
    (h : filterAndResample a old new f noise = .ok o) (hc : 0 < a.c) : a.r = old.length := by
  unfold filterAndResample at h
  split at h
  · cases h
  · dsimp only at h
    obtain ⟨-, h2⟩ := forRange_visits (s0 := Arr2.zeros (new.length / f) a.c) (s := o)
      (f := fun filtered i => do
        let tmp ← interp1d old (a.col i) new
        let res ← noise i tmp
        Except.ok (Arr2.ofFn (new.length / f) a.c fun t j => if j = i then blockMean f res t else filtered.get t j))
      (fun _ => True) (fun _ _ _ _ _ => trivial) a.c trivial h
    obtain ⟨s, s', -, hk⟩ := h2 0 hc
    obtain ⟨x, hx, -⟩ := Prior.bind_ok hk
    unfold interp1d at hx
    split at hx
    · cases hx
    · rename_i hl
      rw [col_length] at hl
      omega

/-- weights of the samples in the rows of a filtered array -/
structure Averages (R T : Nat) (W : Nat → Nat → ℂ) (a b : Arr2 ℂ) : Prop where
  rows : b.r = R
  orig : a.r = T
  cols : b.c = a.c
  get : ∀ t j, t < R → j < a.c → b.get t j = ∑ k ∈ range T, W t k * a.get k j

theorem Averages.const {R T : Nat} {W : Nat → Nat → ℂ} {a b : Arr2 ℂ} (h : Averages R T W a b) (hW : ∀ t < R, ∑ k ∈ range T, W t k = 1)
    {j : Nat} (hj : j < a.c) {c : ℂ} (hc : ∀ t < a.r, a.get t j = c) : ∀ t < b.r, b.get t j = c := by
  intro t ht
  rw [h.rows] at ht
  rw [h.get t j ht hj, Finset.sum_congr rfl (fun k hk => by rw [hc k (by rw [h.orig]; exact Finset.mem_range.1 hk)]),
    ← Finset.sum_mul, hW t ht, one_mul]

theorem Averages.matmul {R T : Nat} {W : Nat → Nat → ℂ} {v v' i i' y : Arr2 ℂ} (hv : Averages R T W v v') (hi : Averages R T W i i')
    (h : v.matmul y = .ok i) : v'.matmul y = .ok i' := by
  obtain ⟨h1, h2, h3, h4⟩ := matmul_entry h
  refine matmul_of_entries (by rw [hv.cols, h1]) (by rw [hi.rows, hv.rows]) (by rw [hi.cols, h3]) ?_
  intro t j ht hj
  rw [hv.rows] at ht
  rw [hi.get t j ht (by rw [h3]; exact hj), hv.cols]
  have e : ∀ k ∈ range v.c, v'.get t k * y.get k j = ∑ s ∈ range T, W t s * (v.get s k * y.get k j) := by
    intro k hk
    rw [hv.get t k ht (Finset.mem_range.1 hk), Finset.sum_mul]
    exact Finset.sum_congr rfl (fun s _ => by ring)
  rw [Finset.sum_congr rfl e, Finset.sum_comm]
  refine Finset.sum_congr rfl (fun s hs => ?_)
  rw [h4 s j (by rw [hv.orig]; exact Finset.mem_range.1 hs) hj, Finset.mul_sum]

/-- the arrays without noise are the same averages of the simulated ones; with zero standard deviations so are the noisy arrays -/
theorem series_weights {z : Nat → ℝ} {r : List ℝ} {voltage current : Arr2 ℂ} {times ts : List ℝ} {f : Nat} {vm cm vp cp : ℝ}
    {x : Arr2 ℂ × Arr2 ℂ × Arr2 ℂ × Arr2 ℂ} (h : noiseSeries z r voltage current times ts f vm cm vp cp = .ok x)
    (hg : Spec.Grid times ts) (hc : voltage.c = current.c) (h0 : 0 < voltage.c) :
    (vm = 0 → cm = 0 → vp = 0 → cp = 0 → x.1 = x.2.2.1 ∧ x.2.1 = x.2.2.2) ∧
      ∃ R W, (∀ t < R, ∑ k ∈ range times.length, W t k = 1) ∧ (∀ t k, ∃ x : ℝ, 0 ≤ x ∧ W t k = (x : ℂ)) ∧
      Averages R times.length W voltage x.2.2.1 ∧ Averages R times.length W current x.2.2.2 := by
  obtain ⟨f0, -, -, -, -, hlen⟩ := noiseSeries_shape h
  unfold noiseSeries at h
  obtain ⟨vi, h1, h⟩ := Prior.bind_ok h
  obtain ⟨noisy, h2, h⟩ := Prior.bind_ok h
  obtain ⟨⟨nv, ni⟩, h3, h⟩ := Prior.bind_ok h
  obtain ⟨clean, h4, h⟩ := Prior.bind_ok h
  obtain ⟨⟨v, i⟩, h5, h⟩ := Prior.bind_ok h
  cases h
  obtain ⟨e1, e2, e3⟩ := hstack2_ok h1
  have hrow : vi.r = times.length := filter_rows h4 (by omega)
  -- the noise is zero
  have hsd : ∀ (a b : ℝ → ℝ), (∀ x, a x = 0) → (∀ x, b x = 0) → ∀ k < vi.c, stdAt (r.map a ++ r.map b) k = .ok 0 := by
    intro a b ha hb k hk
    unfold stdAt
    rw [if_pos (by simp; omega)]
    congr 1
    rw [List.getD_eq_getElem _ _ (by simp; omega), List.getElem_append]
    split
    · simp [ha]
    · simp [hb]
  refine ⟨?_, ts.length / f, ?_⟩
  · rintro rfl rfl rfl rfl
    have hi : ∀ k, k < vi.c → interp1d times (vi.col k) ts = .ok (ts.map (interpAt times (vi.col k))) :=
      fun k hk => interp1d_ok hg (by rw [col_length, hrow])
    obtain ⟨o, ho, hr, hcc, hgt⟩ := filter_ok vi times ts f f0 noNoise _ _ hi (fun k hk => rfl)
    obtain ⟨o', ho', hr', hc', hg'⟩ := filter_ok vi times ts f f0
      (polarNoise z (r.map (fun _ => 0) ++ r.map (fun r => 0 * r)) (r.map (fun _ => 0) ++ r.map (fun _ => 0))) _
      (fun k => ts.map (interpAt times (vi.col k))) hi (fun k hk => by
        simp only [polarNoise, hsd _ _ (fun _ => rfl) (fun x => zero_mul x) k hk, hsd _ _ (fun _ => rfl) (fun _ => rfl) k hk, bind,
          Except.bind]
        exact C69_series _ _ _)
    rw [ho'] at h2
    rw [ho] at h4
    cases h2; cases h4
    have hnc : noisy = clean := by
      refine Arr2.ext' (A := noisy) (B := clean) (by rw [hr, hr']) (by rw [hcc, hc']) ?_
      intro t j ht hj
      rw [hgt t j (by omega) (by omega), hg' t j (by omega) (by omega)]
    subst hnc
    rw [h3] at h5
    cases h5
    exact ⟨rfl, rfl⟩
  obtain ⟨o, ho, hr, hcc, hm⟩ := filter_mat hg f0 hrow
  rw [ho] at h4
  cases h4
  set W := blockWeights times ts f with hW
  have hsum := fun t => (blockWeights_spec hg f0 t).2
  refine ⟨fun t k => if hk : k < times.length then if ht : t < ts.length / f then (W ⟨t, ht⟩ ⟨k, hk⟩ : ℂ) else 0 else 0, ?_, ?_, ?_⟩
  · intro t ht
    rw [Finset.sum_range]
    have := hsum ⟨t, ht⟩
    simp only [Fin.is_lt, dif_pos, ht, Fin.eta]
    exact_mod_cast this
  · intro t k
    beta_reduce
    split
    · split
      · exact ⟨_, (blockWeights_spec hg f0 _).1 _, rfl⟩
      · exact ⟨0, le_rfl, by simp⟩
    · exact ⟨0, le_rfl, by simp⟩
  · have hget : ∀ t j, t < ts.length / f → j < vi.c → clean.get t j = ∑ k ∈ range times.length,
        (if hk : k < times.length then if ht : t < ts.length / f then (W ⟨t, ht⟩ ⟨k, hk⟩ : ℂ) else 0 else 0) * vi.get k j := by
      intro t j ht hj
      have := congrFun (congrFun hm ⟨t, ht⟩) ⟨j, hj⟩
      rw [Matrix.mul_apply] at this
      rw [Finset.sum_range]
      simp only [Fin.is_lt, dif_pos, ht, Fin.eta]
      exact this
    have hvi : ∀ k j, k < times.length → j < vi.c → vi.get k j = if j < voltage.c then voltage.get k j else current.get k (j - voltage.c) := by
      intro k j hk hj
      unfold Arr2.hstack at h1
      rw [if_pos e1] at h1
      rw [← Except.ok.inj h1, Arr2.ofFn_get _ (by omega) (by omega)]
    unfold Arr2.split2 at h5
    split at h5
    · obtain ⟨rfl, rfl⟩ := Prod.mk.inj (Except.ok.inj h5)
      refine ⟨⟨hr, by omega, ?_, ?_⟩, ⟨hr, by omega, ?_, ?_⟩⟩
      · show clean.c / 2 = voltage.c
        omega
      · intro t j ht hj
        rw [Arr2.ofFn_get _ (by omega) (by omega), hget t j ht (by omega)]
        refine Finset.sum_congr rfl (fun k hk => ?_)
        rw [hvi k j (Finset.mem_range.1 hk) (by omega), if_pos hj]
      · show clean.c / 2 = current.c
        omega
      · intro t j ht hj
        rw [Arr2.ofFn_get _ (by omega) (by omega), hget t _ ht (by omega)]
        refine Finset.sum_congr rfl (fun k hk => ?_)
        rw [hvi k _ (Finset.mem_range.1 hk) (by omega), if_neg (by omega), show clean.c / 2 + j - voltage.c = j by omega]
    · cases h5

theorem series_exact {z : Nat → ℝ} {r : List ℝ} {voltage current : Arr2 ℂ} {times ts : List ℝ} {f : Nat} {vm cm vp cp : ℝ}
    {x : Arr2 ℂ × Arr2 ℂ × Arr2 ℂ × Arr2 ℂ} (h : noiseSeries z r voltage current times ts f vm cm vp cp = .ok x)
    (hg : Spec.Grid times ts) (hc : voltage.c = current.c) (h0 : 0 < voltage.c) :
    (vm = 0 → cm = 0 → vp = 0 → cp = 0 → x.1 = x.2.2.1 ∧ x.2.1 = x.2.2.2) ∧
      ∃ R W, (∀ t < R, ∑ k ∈ range times.length, W t k = 1) ∧
      Averages R times.length W voltage x.2.2.1 ∧ Averages R times.length W current x.2.2.2 := by
  obtain ⟨h1, R, W, h2, -, h3⟩ := series_weights h hg hc h0
  exact ⟨h1, R, W, h2, h3⟩

/-- the noise stage: averages with equal weights for all columns -/
theorem stage_weights {z : Nat → ℝ} {net : Net} {voltage current : Arr2 ℂ} {times : List ℝ} {fmeas : ℝ} {steps : Nat} {np : NoiseParams}
    {safety : ℝ} {n : NoiseResult} (h : addNoiseAndFilter z net voltage current times fmeas steps np safety = .ok n)
    (ht : Spec.Times times) (hc : voltage.c = current.c) (h0 : 0 < voltage.c) :
    (np.vm = 0 → np.cm = 0 → np.vp = 0 → np.cp = 0 → n.noisyVoltage = n.voltage ∧ n.noisyCurrent = n.current) ∧
      ∃ R W, (∀ t < R, ∑ k ∈ range times.length, W t k = 1) ∧ (∀ t k, ∃ x : ℝ, 0 ≤ x ∧ W t k = (x : ℂ)) ∧
      Averages R times.length W voltage n.voltage ∧ Averages R times.length W current n.current := by
  unfold addNoiseAndFilter at h
  obtain ⟨⟨m, ts⟩, h1, h⟩ := Prior.bind_ok h
  obtain ⟨f, h2, h⟩ := Prior.bind_ok h
  unfold rawTimes at h1
  obtain ⟨m', hm, h1⟩ := Prior.bind_ok h1
  obtain ⟨ts', hl, h1⟩ := Prior.bind_ok h1
  cases h1
  rw [ht.npmax] at hm
  cases hm
  dsimp only at h h2
  split at h
  · obtain ⟨ts', h3, h⟩ := Prior.bind_ok h
    unfold equivalentTimes at h3
    split at h3
    · cases h3
    · obtain ⟨⟨nv, ni, v, i⟩, h4, h⟩ := Prior.bind_ok h
      cases h
      obtain ⟨e1, e2⟩ := series_weights h4 (ht.grid h3) hc h0
      exact ⟨fun a b c d => e1 (by rw [a, zero_div]) (by rw [b, zero_div]) (by rw [c, zero_div]) (by rw [d, zero_div]), e2⟩
  · obtain ⟨⟨nv, ni, v, i⟩, h4, h⟩ := Prior.bind_ok h
    cases h
    exact series_weights h4 (ht.grid hl) hc h0

theorem stage_exact {z : Nat → ℝ} {net : Net} {voltage current : Arr2 ℂ} {times : List ℝ} {fmeas : ℝ} {steps : Nat} {np : NoiseParams}
    {safety : ℝ} {n : NoiseResult} (h : addNoiseAndFilter z net voltage current times fmeas steps np safety = .ok n)
    (ht : Spec.Times times) (hc : voltage.c = current.c) (h0 : 0 < voltage.c) :
    (np.vm = 0 → np.cm = 0 → np.vp = 0 → np.cp = 0 → n.noisyVoltage = n.voltage ∧ n.noisyCurrent = n.current) ∧
      ∃ R W, (∀ t < R, ∑ k ∈ range times.length, W t k = 1) ∧
      Averages R times.length W voltage n.voltage ∧ Averages R times.length W current n.current := by
  obtain ⟨h1, R, W, h2, -, h3⟩ := stage_weights h ht hc h0
  exact ⟨h1, R, W, h2, h3⟩

/-- widths of the arrays that the noise stage returns -/
theorem stage_width {z : Nat → ℝ} {net : Net} {voltage current : Arr2 ℂ} {times : List ℝ} {fmeas : ℝ} {steps : Nat} {np : NoiseParams}
    {safety : ℝ} {n : NoiseResult} (h : addNoiseAndFilter z net voltage current times fmeas steps np safety = .ok n)
    (hc : voltage.c = current.c) : n.noisyVoltage.c = voltage.c ∧ n.noisyCurrent.c = voltage.c ∧ voltage.c ≤ n.ratings.length := by
  have key : ∀ {ts : List ℝ} {f : Nat} {vm cm vp cp : ℝ} {x : Arr2 ℂ × Arr2 ℂ × Arr2 ℂ × Arr2 ℂ},
      noiseSeries z (ratings safety net) voltage current times ts f vm cm vp cp = .ok x →
      x.1.c = voltage.c ∧ x.2.1.c = voltage.c ∧ voltage.c ≤ (ratings safety net).length := by
    intro ts f vm cm vp cp x hx
    obtain ⟨-, -, -, -, -, hlen⟩ := noiseSeries_shape hx
    unfold noiseSeries at hx
    obtain ⟨vi, h1, hx⟩ := Prior.bind_ok hx
    obtain ⟨noisy, h2, hx⟩ := Prior.bind_ok hx
    obtain ⟨⟨nv, ni⟩, h3, hx⟩ := Prior.bind_ok hx
    obtain ⟨clean, -, hx⟩ := Prior.bind_ok hx
    obtain ⟨⟨v, i⟩, -, hx⟩ := Prior.bind_ok hx
    cases hx
    obtain ⟨-, -, e3⟩ := hstack2_ok h1
    obtain ⟨-, -, e4, -⟩ := filter_shape h2
    obtain ⟨-, -, e5, e6⟩ := split2_ok h3
    dsimp only at e5 e6 ⊢
    omega
  unfold addNoiseAndFilter at h
  obtain ⟨⟨m, ts⟩, h1, h⟩ := Prior.bind_ok h
  obtain ⟨f, h2, h⟩ := Prior.bind_ok h
  dsimp only at h
  split at h
  · obtain ⟨ts', h3, h⟩ := Prior.bind_ok h
    obtain ⟨⟨nv, ni, v, i⟩, h4, h⟩ := Prior.bind_ok h
    cases h
    exact key h4
  · obtain ⟨⟨nv, ni, v, i⟩, h4, h⟩ := Prior.bind_ok h
    cases h
    exact key h4

theorem minuteTimes_times {days : Nat} (h : 0 < days) : Spec.Times (minuteTimes days) := by
  unfold minuteTimes
  refine ⟨by simp; omega, ?_, ?_⟩
  · rw [List.pairwise_map]
    refine List.pairwise_lt_range.imp (fun {a b} hab => ?_)
    have : (a : ℝ) < b := by exact_mod_cast hab
    linarith
  · rw [List.getD_eq_getElem _ _ (by simp; omega)]
    simp

/-! ### reduction of exact data -/

namespace Spec

/-- voltage with magnitude `m` at `deg` degrees -/
def phasor (m deg : ℝ) : ℂ := (m : ℂ) * Complex.exp (((deg * Real.pi / 180 : ℝ) : ℂ) * Complex.I)

/-- a power flow of the network with the given buses and admittance matrix: the grid connections keep their voltage, the nodes
without power inject no current -/
structure PowerFlow (bs : List BusData) (y : Arr2 ℂ) (res : SimResult) : Prop where
  size : IsSquare bs.length y
  width : res.vm.c = bs.length
  slack : ∀ k ∈ connections bs, ∀ t < res.vm.r, res.vm.get t k = res.vm.get 0 k ∧ res.va.get t k = res.va.get 0 k
  passive : ∀ k ∈ passive bs 0, ∀ t < res.vm.r, currents y (fun j => phasor (res.vm.get t j) (res.va.get t j)) k = 0

/-- networks that `reduce_network` reduces exactly when only grid connections are hidden: no passive node follows a connection
closely (with one connection: immediately), not too many nodes are removed, and the passive nodes can be eliminated -/
structure Reducible (bs : List BusData) (y : Arr2 ℂ) (laplacian : Bool) : Prop where
  far : laplacian = false → ∀ k ∈ passive bs 0, ∀ c ∈ connections bs, c < k → c + (connections bs).card < k
  few : laplacian = false → bs.length - (connections bs).card ≤ 8 ∨
    3 * (bs.length - (connections bs).card) ≤ 5 * (bs.length - (connections bs ∪ passive bs 0).card)
  fewLap : laplacian = true → bs.length ≤ 8 ∨ 3 * bs.length ≤ 5 * (bs.length - (passive bs 0).card)
  regular : BlockNonsingular y (passive bs 0)
  noShunt : laplacian = true → ZeroColSums y

/-- the nodes whose data are not stored -/
def removed (bs : List BusData) (laplacian : Bool) : Finset ℕ := (if laplacian then ∅ else connections bs) ∪ passive bs 0

/-- the stored nodes, in order -/
def remaining (bs : List BusData) (laplacian : Bool) : List ℕ := (List.range bs.length).filter (fun k => k ∉ removed bs laplacian)

end Spec

theorem blockNonsingular_congr {y y' : Arr2 ℂ} {S : Finset ℕ} (h : ∀ i ∈ S, ∀ j ∈ S, y'.get i j = y.get i j)
    (hy : Spec.BlockNonsingular y S) : Spec.BlockNonsingular y' S := by
  intro u hu
  refine hy u (fun j hj => ?_)
  rw [← hu j hj]
  exact Finset.sum_congr rfl (fun i hi => by rw [h i hi j hj])

theorem labelled_nil (bs : List BusData) : Spec.labelled bs [] = ∅ := by
  unfold Spec.labelled
  simp

theorem labelled_pcc {bs : List BusData} (hn : (bs.map BusData.id).Nodup) :
    Spec.labelled bs ((bs.filter (fun b => b.type = typePcc)).map BusData.id) = Spec.connections bs := by
  ext k
  unfold Spec.labelled Spec.connections
  simp only [Finset.mem_filter, Finset.mem_range, List.mem_map, List.mem_filter, decide_eq_true_eq]
  constructor
  · rintro ⟨hk, b, hb, c, ⟨hc, ht⟩, hid⟩
    obtain ⟨m, hm, hcm⟩ := List.getElem_of_mem hc
    obtain ⟨_, hbk⟩ := List.getElem?_eq_some_iff.1 hb
    have : m = k := by
      refine (List.Nodup.getElem_inj_iff hn (hi := by simpa using hm) (hj := by simpa using hk)).1 ?_
      rw [List.getElem_map, List.getElem_map, hcm, hbk, hid]
    subst this
    refine ⟨hk, b, hb, ?_⟩
    rw [← hbk, hcm]; exact ht
  · rintro ⟨hk, b, hb, ht⟩
    exact ⟨hk, b, hb, b, ⟨List.mem_of_getElem? hb, ht⟩, rfl⟩

/-- the stages after the power flow, with exact data: the stored measurements satisfy the equation of the stored matrix -/
theorem reduced_exact {bs : List BusData} {ls : Option (List LineData)} {net : Net} {ls' : List LineData}
    (h : Net.netData (some bs) ls = .ok (net, ls')) {pinv : Arr2 ℂ → Except PyErr (Arr2 ℂ)} (hpinv : Spec.PinvContract pinv)
    {y voltage current : Arr2 ℂ} (hy : Spec.IsSquare bs.length y) (heq : voltage.matmul y = .ok current) {lap : Bool}
    (hr : Spec.Reducible bs y lap)
    (hconst : ∀ c ∈ Spec.connections bs, ∀ t, t < voltage.r → voltage.get t c = voltage.get 0 c)
    (hload : ∀ k ∈ Spec.passive bs 0, ∀ t, t < voltage.r → current.get t k = 0) {hidden : List Int}
    (hh : hidden = if lap then [] else (bs.filter (fun b => b.type = typePcc)).map BusData.id) :
    ∃ todel red v i, reduceNetwork pinv net y voltage current hidden lap = .ok (todel, red) ∧ (∀ k, k ∈ todel ↔ k ∈ Spec.removed bs lap) ∧
      voltage.deleteCols todel = .ok v ∧ current.deleteCols todel = .ok i ∧ red.r = red.c ∧
      (centreData lap v i).1.matmul red = .ok (centreData lap v i).2 := by
  classical
  obtain ⟨hn, -⟩ := netData_tables h
  cases lap with
  | false =>
    have hlab : Spec.labelled bs hidden = Spec.connections bs := by rw [hh]; exact labelled_pcc hn
    have hsd : (Spec.labelled bs hidden ∪ Spec.passive bs 0) \ Spec.connections bs = Spec.passive bs 0 := by
      ext k
      rw [hlab, Finset.mem_sdiff, Finset.mem_union]
      constructor
      · rintro ⟨h1 | h1, h2⟩
        · exact absurd h1 h2
        · exact h1
      · exact fun h1 => ⟨Or.inr h1, passive_not_connection h1⟩
    have hz : ∀ k, usedShunt bs voltage current hidden k = 0 := by
      intro k
      unfold usedShunt
      rw [if_neg]
      rintro ⟨h1, h2⟩
      rw [hlab] at h1
      exact h2 h1
    have hid : ∀ b ∈ hidden, b ∈ bs.map BusData.id := by
      intro b hb
      rw [hh] at hb
      obtain ⟨c, hc, rfl⟩ := List.mem_map.1 hb
      exact List.mem_map_of_mem (List.mem_filter.1 hc).1
    have hfar : ∀ k ∈ Spec.labelled bs hidden ∪ Spec.passive bs 0, ∀ c ∈ Spec.connections bs, c < k →
        c + (Spec.connections bs).card < k ∨ k ∈ Spec.connections bs := by
      intro k hk c hc hck
      rcases Finset.mem_union.1 hk with h1 | h1
      · rw [hlab] at h1; exact Or.inr h1
      · exact Or.inl (hr.far rfl k h1 c hc hck)
    have hmean : ∀ k ∈ Spec.labelled bs hidden \ Spec.connections bs, colMean voltage (Spec.rank (Spec.connections bs) k) ≠ 0 := by
      intro k hk
      rw [hlab, Finset.sdiff_self] at hk
      exact absurd hk (Finset.notMem_empty k)
    have hns : Spec.BlockNonsingular (Spec.withShunts y (usedShunt bs voltage current hidden))
        ((Spec.labelled bs hidden ∪ Spec.passive bs 0) \ Spec.connections bs) := by
      rw [hsd]
      refine blockNonsingular_congr (fun i hi j hj => ?_) hr.regular
      unfold Spec.withShunts
      rw [Arr2.ofFn_get _ (by rw [hy.1]; exact passive_lt hi) (by rw [hy.2]; exact passive_lt hj), hz]
      simp
    obtain ⟨todel, red, v, i, h1, h2, h3, h4, hmem⟩ := C60_reduced h hpinv hy.1 hy.2 heq hid (by rw [hlab]) hfar hmean hns
      (by rw [hlab]; exact hr.few rfl) hconst (fun k hk t ht => by
        rw [hsd] at hk
        rw [hload k hk t ht, hz, zero_mul, neg_zero])
    obtain ⟨-, hcr, hcc, -⟩ := matmul_entry heq
    obtain ⟨h5, -, h6, -⟩ := matmul_entry h4
    refine ⟨todel, red, v, i, h1, fun k => by rw [hmem k, hlab]; rfl, h2, h3, ?_, h4⟩
    have e1 : v.c = i.c := by
      unfold Arr2.deleteCols at h2 h3
      split at h2
      · split at h3
        · rw [← Except.ok.inj h2, ← Except.ok.inj h3]
          show (Arr2.keepIdx voltage.c todel).length = (Arr2.keepIdx current.c todel).length
          rw [hcc, (matmul_entry heq).1, hy.1, hy.2]
        · cases h3
      · cases h2
    have h5' : v.c = red.r := h5
    have h6' : i.c = red.c := h6
    rw [← h5', ← h6', e1]
  | true =>
    have hlab : Spec.labelled bs hidden = ∅ := by rw [hh]; exact labelled_nil bs
    have hsd : (Spec.labelled bs hidden ∪ Spec.passive bs 0) \ Spec.connections bs = Spec.passive bs 0 := by
      ext k
      rw [hlab, Finset.empty_union, Finset.mem_sdiff]
      exact ⟨fun h1 => h1.1, fun h1 => ⟨h1, passive_not_connection h1⟩⟩
    obtain ⟨hvc, hcr, hcc, hent⟩ := matmul_entry heq
    obtain ⟨todel, red, K, h1, h2, h3, h4, h5⟩ := C58_laplacian h hpinv (current := current) hy.1 hy.2 (by rw [hvc, hy.1])
      (by rw [hcc, hy.2]) (hidden := hidden) (by rw [hh]; simp) (by rw [hlab]; simp) (d := fun _ => 0) (by
        funext k
        rw [hlab]; simp) (by
        rw [hsd]
        refine blockNonsingular_congr (fun i hi j hj => ?_) hr.regular
        unfold Spec.withShunts
        rw [Arr2.ofFn_get _ (by rw [hy.1]; exact passive_lt hi) (by rw [hy.2]; exact passive_lt hj)]
        simp)
    rw [hsd] at h3 h4
    have hlen := lists_length (fun s hs => passive_lt hs) h3
    have hsort := h5 (by
      rcases hr.fewLap rfl with hs | hs
      · exact Or.inl hs
      · right
        rw [show K.length = bs.length - (Spec.passive bs 0).card by omega]
        exact hs)
    have hK : Arr2.keepIdx bs.length todel = K := by
      have hk := lists_keep bs.length todel
      rw [show todel.toFinset = Spec.passive bs 0 by
        ext k; rw [List.mem_toFinset, h2, hlab, Finset.empty_union]] at hk
      exact lists_unique hk h3 (PySet.kept_sorted bs.length todel) hsort
    have hdl : ∀ k ∈ todel, k < bs.length := by
      intro k hk
      have := (h2 k).1 hk
      rw [hlab, Finset.empty_union] at this
      exact passive_lt this
    obtain ⟨hrr, hrc, hG⟩ := h4
    have hKlt : ∀ b, b < K.length → K.getD b 0 < bs.length := fun b hb => ((h3.2 _).1 (getD_mem hb)).1
    refine ⟨todel, red, Arr2.ofFn voltage.r K.length (fun t j => voltage.get t (K.getD j 0)),
      Arr2.ofFn current.r K.length (fun t j => current.get t (K.getD j 0)), h1, fun k => by rw [h2 k, hlab]; rfl, ?_, ?_, by rw [hrr, hrc], ?_⟩
    · unfold Arr2.deleteCols
      rw [hvc, hy.1, if_pos hdl, hK]
    · unfold Arr2.deleteCols
      rw [hcc, hy.2, if_pos hdl, hK]
    · have hcur : ∀ t, t < voltage.r → ∀ j, j < bs.length → Spec.currents y (fun k => voltage.get t k) j = current.get t j := by
        intro t ht j hj
        rw [hent t j ht (by rw [hy.2]; exact hj)]
        unfold Spec.currents
        rw [hvc]
      refine C47_global _ _ _ ?_ ?_
      · refine matmul_of_entries hrr.symm hcr hrc.symm ?_
        intro t b ht hb
        have ht' : t < voltage.r := ht
        rw [hrc] at hb
        rw [Arr2.ofFn_get _ (by omega) hb, ← hcur t ht' _ (hKlt b hb),
          ← hG (fun k => voltage.get t k) (by simp) (fun s hs => by
            rw [hcur t ht' s (passive_lt hs), hload s hs t ht']; simp) b hb]
        unfold Spec.currents
        rw [hrr]
        refine Finset.sum_congr rfl (fun a ha => ?_)
        rw [Arr2.ofFn_get _ ht' (Finset.mem_range.1 ha)]
      · have h0 : ∀ j, j < bs.length → Spec.currents y (fun _ => 1) j = 0 := by
          intro j hj
          unfold Spec.currents
          simpa using hr.noShunt rfl j (by rw [hy.2]; exact hj)
        intro b hb
        rw [hrc] at hb
        have := hG (fun _ => 1) (by simp) (fun s hs => by rw [h0 s (passive_lt hs)]; simp) b hb
        rw [h0 _ (hKlt b hb)] at this
        unfold Spec.currents at this
        simpa using this

/-! ### the programs -/

theorem polar_phasor (m deg : ℝ) : (m : ℂ) * ((Real.cos (deg * Real.pi / 180) : ℂ) + Complex.I * (Real.sin (deg * Real.pi / 180) : ℂ)) =
    Spec.phasor m deg := by
  unfold Spec.phasor
  rw [Complex.exp_mul_I, Complex.ofReal_cos, Complex.ofReal_sin, mul_comm Complex.I]

/-- exact data of the power flow -/
theorem sim_exact {flow : Net → Controls → Except PyErr SimResult} {yBus : Net → Except PyErr (Arr2 ℂ)} {net : Net} {p q : Arr2 ℝ}
    {s : Arr2 ℂ × Arr2 ℂ × Arr2 ℂ} (h : simCompute flow yBus net p q = .ok s) {bs : List BusData} {y : Arr2 ℂ} (hy : yBus net = .ok y)
    (hf : ∀ c res, flow net c = .ok res → Spec.PowerFlow bs y res) :
    s.1.matmul y = .ok s.2.1 ∧ s.1.c = bs.length ∧ Spec.IsSquare bs.length y ∧
      (∀ c ∈ Spec.connections bs, ∀ t, t < s.1.r → s.1.get t c = s.1.get 0 c) ∧
      ∀ k ∈ Spec.passive bs 0, ∀ t, t < s.1.r → s.2.1.get t k = 0 := by
  unfold simCompute at h
  rw [hy] at h
  obtain ⟨y', h1, h⟩ := Prior.bind_ok h
  cases h1
  obtain ⟨res, hres, h⟩ := Prior.bind_ok h
  obtain ⟨o, ho, h⟩ := Prior.bind_ok h
  have hP : Spec.PowerFlow bs y res := by
    unfold simRun at hres
    obtain ⟨p', _, hres⟩ := Prior.bind_ok hres
    obtain ⟨q', _, hres⟩ := Prior.bind_ok hres
    exact hf _ _ hres
  unfold getCurrentAndVoltage at ho
  obtain ⟨v, hv, ho⟩ := Prior.bind_ok ho
  obtain ⟨y', h1, ho⟩ := Prior.bind_ok ho
  cases h1
  obtain ⟨i, hi, ho⟩ := Prior.bind_ok ho
  cases ho
  cases h
  unfold polarVoltage at hv
  split at hv
  · rename_i hs
    have hve := (Except.ok.inj hv).symm
    have hget : ∀ t j, t < v.r → j < bs.length → v.get t j = Spec.phasor (res.vm.get t j) (res.va.get t j) := by
      intro t j ht hj
      have htr : t < res.vm.r := by rw [hve] at ht; exact ht
      rw [hve, Arr2.ofFn_get _ htr (by rw [hP.width]; exact hj)]
      exact polar_phasor _ _
    have hr : v.r = res.vm.r := by rw [hve]; rfl
    have hc : v.c = bs.length := by rw [hve]; exact hP.width
    obtain ⟨m1, m2, m3, m4⟩ := matmul_entry hi
    refine ⟨hi, hc, hP.size, ?_, ?_⟩
    · intro c hcc t ht
      have hcl := connections_lt hcc
      obtain ⟨e1, e2⟩ := hP.slack c hcc t (by rw [← hr]; exact ht)
      show v.get t c = v.get 0 c
      rw [hget t c ht hcl, hget 0 c (lt_of_le_of_lt (Nat.zero_le _) ht) hcl, e1, e2]
    · intro k hk t ht
      have hkl := passive_lt hk
      show i.get t k = 0
      rw [m4 t k ht (by rw [hP.size.2]; exact hkl), ← hP.passive k hk t (by rw [← hr]; exact ht)]
      unfold Spec.currents
      rw [hc, hP.size.1]
      exact Finset.sum_congr rfl (fun j hj => by rw [hget t j ht (Finset.mem_range.1 hj)])
  · cases hv

/-- the last stage of the simulation with the data of a power flow: it completes, and the stored arrays without noise satisfy, after
centring, the equation of the stored matrix -/
theorem network_exact {w : SimWorld} {cf : SimConf} {a : SimArgs} (h3 : a.threePhased = false) (hseq : a.sequence = false)
    (hhid : cf.hidden = []) (hpinv : Spec.PinvContract w.pinv) {net : Net} {bs : List BusData} {ls : Option (List LineData)}
    {ls' : List LineData} (hnd : Net.netData (some bs) ls = .ok (net, ls')) (h0 : 0 < bs.length) {y : Arr2 ℂ}
    (hy : w.yBus net = .ok y) (hf : ∀ c res, w.flow net c = .ok res → Spec.PowerFlow bs y res)
    (hr : Spec.Reducible bs y a.laplacian) {p q : Arr2 ℝ} {s : Arr2 ℂ × Arr2 ℂ × Arr2 ℂ}
    (hs : simCompute w.flow w.yBus net p q = .ok s) {times : List ℝ} (ht : Spec.Times times) {np : NoiseParams} {n : NoiseResult}
    (hno : addNoiseAndFilter w.z net s.1 s.2.1 times cf.fmeas cf.steps np cf.safety = .ok n) :
    ∃ d, networkData w a net (hiddenNodes cf a bs) n = .ok d ∧
      (np.vm = 0 → np.cm = 0 → np.vp = 0 → np.cp = 0 → d.noisyVoltage = d.voltage ∧ d.noisyCurrent = d.current) ∧
      (∀ x ∈ d.ids, x = 1) ∧ d.y.r = d.y.c ∧
      (centreData a.laplacian d.voltage d.current).1.matmul d.y = .ok (centreData a.laplacian d.voltage d.current).2 ∧
      d.voltage = Spec.columnsAt n.voltage (Spec.remaining bs a.laplacian).length (fun j => (Spec.remaining bs a.laplacian).getD j 0) := by
  obtain ⟨x1, x2, x3, x4, x5⟩ := sim_exact hs hy hf
  obtain ⟨m1, m2, m3, -⟩ := matmul_entry x1
  have hvc : s.1.c = s.2.1.c := by rw [m3, x2, x3.2]
  obtain ⟨w1, w2, w3⟩ := stage_width hno hvc
  obtain ⟨e0, R, W, hW, hAv, hAi⟩ := stage_exact hno ht hvc (by rw [x2]; exact h0)
  have heq := hAv.matmul hAi x1
  have hconst : ∀ c ∈ Spec.connections bs, ∀ t, t < n.voltage.r → n.voltage.get t c = n.voltage.get 0 c := by
    intro c hc t ht'
    have hk := hAv.const hW (j := c) (by rw [x2]; exact connections_lt hc) (fun t ht => x4 c hc t ht)
    rw [hk t ht', hk 0 (lt_of_le_of_lt (Nat.zero_le _) ht')]
  have hload : ∀ k ∈ Spec.passive bs 0, ∀ t, t < n.voltage.r → n.current.get t k = 0 := by
    intro k hk t ht'
    refine hAi.const hW (j := k) (by rw [← hvc, x2]; exact passive_lt hk) (fun t ht => x5 k hk t (by rw [← m2]; exact ht)) t ?_
    rw [hAi.rows, ← hAv.rows]; exact ht'
  obtain ⟨todel, red, v, i, r1, rm, r2, r3, r4, r5⟩ := reduced_exact hnd hpinv x3 heq hr hconst hload (hidden := hiddenNodes cf a bs) (by
    unfold hiddenNodes
    rw [hhid, h3]
    cases a.laplacian <;> simp)
  have hlt : ∀ k ∈ todel, k < bs.length := by
    unfold Arr2.deleteCols at r2
    split at r2
    · rename_i hlt
      intro k hk
      have := hlt k hk
      rwa [hAv.cols, x2] at this
    · cases r2
  obtain ⟨-, hbus, -⟩ := netData_tables hnd
  have hred : reduction w a net (hiddenNodes cf a bs) n = .ok (todel, red) := by
    unfold reduction
    rw [h3, hy]
    simp only [Bool.false_eq_true, if_false, bind, Except.bind]
    exact r1
  obtain ⟨nv, hnv⟩ : ∃ nv, n.noisyVoltage.deleteCols todel = .ok nv := ⟨_, if_pos (fun k hk => by rw [w1, x2]; exact hlt k hk)⟩
  obtain ⟨ni, hni⟩ : ∃ ni, n.noisyCurrent.deleteCols todel = .ok ni := ⟨_, if_pos (fun k hk => by rw [w2, x2]; exact hlt k hk)⟩
  obtain ⟨ra, hra⟩ : ∃ ra, deleteEntries n.ratings todel 0 = .ok ra :=
    ⟨_, if_pos (fun k hk => lt_of_lt_of_le (by rw [← x2] at hlt; exact hlt k hk) w3)⟩
  have hid := show deleteEntries (tileList [1] net.bus.length) todel 0 = _ from
    if_pos (fun k hk => by unfold tileList; rw [hbus]; simpa using hlt k hk)
  refine ⟨⟨nv, ni, v, i, red, ra, n.fparam, (Arr2.keepIdx (tileList [1] net.bus.length).length todel).map
    (fun k => (tileList [1] net.bus.length).getD k 0)⟩, ?_, ?_, ?_, r4, r5, ?_⟩
  · unfold networkData dropReduced
    rw [hred, hseq, h3]
    simp only [bind, Except.bind, Bool.false_eq_true, if_false, hnv, hni, r2, r3, hra, hid, pure, Except.pure]
  · intro z1 z2 z3 z4
    obtain ⟨e1, e2⟩ := e0 z1 z2 z3 z4
    rw [e1] at hnv
    rw [e2] at hni
    exact ⟨Except.ok.inj (hnv.symm.trans r2), Except.ok.inj (hni.symm.trans r3)⟩
  · intro x hx
    obtain ⟨k, hk, rfl⟩ := List.mem_map.1 hx
    have hk' : k < (tileList [1] net.bus.length).length := by
      unfold Arr2.keepIdx at hk
      exact List.mem_range.1 (List.mem_filter.1 hk).1
    have hall1 : ∀ x ∈ tileList [1] net.bus.length, x = 1 := by
      intro x hx
      unfold tileList at hx
      obtain ⟨l, hl, hx⟩ := List.mem_flatten.1 hx
      rw [List.eq_of_mem_replicate hl] at hx
      simpa using hx
    refine hall1 _ ?_
    show (tileList [1] net.bus.length).getD k 0 ∈ _
    rw [List.getD_eq_getElem _ _ hk']
    exact List.getElem_mem hk'
  · have hk : Arr2.keepIdx n.voltage.c todel = Spec.remaining bs a.laplacian := by
      unfold Arr2.keepIdx Spec.remaining
      rw [hAv.cols, x2]
      refine List.filter_congr (fun k _ => ?_)
      simp only [rm]
    unfold Arr2.deleteCols at r2
    split at r2
    · rw [hk] at r2
      exact (Except.ok.inj r2).symm
    · cases r2

/-- C115, data: a run of simulate_network.py that recomputes everything for a single-phase network, with no hidden nodes configured,
stores measurements without noise that satisfy, after the centring of the identification, the equation of the stored matrix; if
no noise is configured the noisy ones are the same. The power flow keeps the voltages of the connections and injects no
current at nodes without power; positions and number of the passive nodes as for C57 and C58. -/
theorem C115_data {w : SimWorld} {cf : SimConf} {a : SimArgs} {st : Store} {d : NetworkData} (hn : Spec.PlainName a.network)
    (h3 : a.threePhased = false) (hseq : a.sequence = false) (h : (simulate w cf a st).res = .ok d)
    (hall : a.loads = a.networkSim ∧ a.networkSim = a.noise) (hhid : cf.hidden = []) (hpinv : Spec.PinvContract w.pinv)
    {net : Net} {bs : List BusData} (hbs : makeNet w a.network = .ok (net, bs)) (h0 : 0 < bs.length) {y : Arr2 ℂ}
    (hy : w.yBus net = .ok y) (hf : ∀ c res, w.flow net c = .ok res → Spec.PowerFlow bs y res)
    (hr : Spec.Reducible bs y a.laplacian) :
    (cf.vm = 0 → cf.cm = 0 → cf.vp = 0 → cf.cp = 0 → d.noisyVoltage = d.voltage ∧ d.noisyCurrent = d.current) ∧
      (∀ x ∈ d.ids, x = 1) ∧ d.y.r = d.y.c ∧
      (centreData a.laplacian d.voltage d.current).1.matmul d.y = .ok (centreData a.laplacian d.voltage d.current).2 ∧
      (simulate w cf a st).store (resultFile .network a.network) = some (networkNpz d) := by
  obtain ⟨net', bs', l, s, n, hnet, hl, -, hs, -, hno, -, hd, hst⟩ := C78_simulate hn h3 h
  have hR : Spec.Redone a.loads [a.loads, a.networkSim, a.noise] := by
    obtain ⟨e1, e2⟩ := hall
    cases hb : a.noise
    · right
      intro f hf
      rw [e1, e2, hb] at hf
      simpa using hf
    · left
      rw [e1, e2, hb]
  obtain ⟨⟨lp, -, hlp⟩, -⟩ := hl hR
  obtain ⟨hs, -⟩ := hs (by rw [← hall.1]; rw [← hall.1] at hR; exact hR)
  obtain ⟨hno, -⟩ := hno (by rw [← hall.2, ← hall.1]; rw [← hall.2, ← hall.1] at hR; exact hR)
  rw [hbs] at hnet
  cases hnet
  have hnet := hbs
  unfold makeNet at hnet
  obtain ⟨b, hb, hnet⟩ := Prior.bind_ok hnet
  obtain ⟨ls, -, hnet⟩ := Prior.bind_ok hnet
  obtain ⟨⟨net', ls'⟩, hnd, hnet⟩ := Prior.bind_ok hnet
  cases hnet
  -- times
  have ht : Spec.Times l.2.2 := by
    unfold computeLoads at hlp
    obtain ⟨⟨p, q⟩, -, hlp⟩ := Prior.bind_ok hlp
    obtain ⟨⟨p', q'⟩, -, hlp⟩ := Prior.bind_ok hlp
    rw [← Except.ok.inj hlp] at hno ⊢
    refine minuteTimes_times (Nat.pos_of_ne_zero fun hd0 => ?_)
    unfold addNoiseAndFilter rawTimes at hno
    simp only [hd0, minuteTimes] at hno
    cases hno
  obtain ⟨d', g1, g2, g3, g4, g5, -⟩ := network_exact h3 hseq hhid hpinv hnd h0 hy hf hr hs ht hno
  rw [hd] at g1
  cases g1
  exact ⟨g2, g3, g4, g5, hst⟩

/-- the standard methods on data that satisfy the network equation after centring -/
theorem standard_centred (ext : NumExt) (cf : IdConf) (hl : 0 ≤ cf.lambdaLasso) (hinv : Spec.InvContract ext.inv)
    (hex : Spec.Exact ext.solve) (htot : Spec.Total ext.solve) (hpinv : Spec.PinvContract ext.pinv) {v i Y : Arr2 ℂ} (hY : Y.r = Y.c)
    {lap : Bool} (hc : (centreData lap v i).1.matmul Y = .ok (centreData lap v i).2)
    (hrank : Spec.FullColumnRank (centreData lap v i).1) {xz vh : Arr2 ℂ}
    (hxz : hstack (centreData lap v i).1 (centreData lap v i).2 = .ok xz) (hs : ext.svdVh xz = .ok vh)
    (hsvd : Spec.IsSvdVh xz.r xz.c xz vh) (maxIter : Nat) :
    ∃ L, standardCompute ext cf v i lap maxIter = .ok (Y, Y, L) ∧ (maxIter = 0 → L = Y) := by
  obtain ⟨p, hp, hpi⟩ := hpinv (centreData lap v i).1
  obtain ⟨hvc, hir, hic, _⟩ := matmul_entry hc
  have hsh : (centreData lap v i).1.r = v.r ∧ (centreData lap v i).1.c = v.c ∧ (centreData lap v i).2.r = i.r ∧
      (centreData lap v i).2.c = i.c := by cases lap <;> exact ⟨rfl, rfl, rfl, rfl⟩
  obtain ⟨s1, s2, s3, s4⟩ := hsh
  have hsz : xz.r = (centreData lap v i).1.r ∧ xz.c = (centreData lap v i).1.c + (centreData lap v i).2.c := by
    unfold hstack at hxz
    split at hxz
    · rw [← Except.ok.inj hxz]; exact ⟨rfl, rfl⟩
    · cases hxz
  have hols := C29_recovery ext.pinv _ _ p Y hp hpi hrank hc
  have htls := C30_recovery ext.svdVh ext.inv hinv _ _ Y xz vh hrank hc hxz hs (by rw [← hsz.1, ← hsz.2]; exact hsvd)
  obtain ⟨pr, y0, h1, h2, h3⟩ := lasso_setup v.c Y (centreData lap v i).1 (centreData lap v i).2
    ⟨by rw [← s2, hvc], by rw [← s2, hvc, hY]⟩ lap cf maxIter s2 ⟨hir, by rw [hic, ← hY, ← hvc, s2]⟩
  obtain ⟨obj, L, h4, h5⟩ := C93_no_exception h3 hl
    (identifiable_fullColumnRank lap v.c pr cf.lambdaLasso _ s2 hrank) hex htot
  by_cases hm : maxIter > 0
  · refine ⟨L, ?_, fun h => by omega⟩
    simp only [standardCompute, hols, htls, h1, h2, h4, fitted, h5, if_pos hm, bind, Except.bind, pure, Except.pure]
  · refine ⟨Y, ?_, fun _ => rfl⟩
    simp only [standardCompute, hols, htls, h1, if_neg hm, bind, Except.bind, pure, Except.pure]

/-- C115: simulate_network.py without noise, then identify_network.py for the same network and mode, with the standard methods: if
the centred voltages are linearly independent, the ordinary and the total least squares estimates are the stored reference. -/
theorem C115 {w : SimWorld} {cf : SimConf} {a : SimArgs} {st : Store} {d : NetworkData} (hn : Spec.PlainName a.network)
    (h3 : a.threePhased = false) (hseq : a.sequence = false) (h : (simulate w cf a st).res = .ok d)
    (hall : a.loads = a.networkSim ∧ a.networkSim = a.noise) (hsd : cf.vm = 0 ∧ cf.cm = 0 ∧ cf.vp = 0 ∧ cf.cp = 0)
    (hhid : cf.hidden = []) (hpinv : Spec.PinvContract w.pinv) {net : Net} {bs : List BusData}
    (hbs : makeNet w a.network = .ok (net, bs)) (h0 : 0 < bs.length) {y : Arr2 ℂ} (hy : w.yBus net = .ok y)
    (hf : ∀ c res, w.flow net c = .ok res → Spec.PowerFlow bs y res) (hr : Spec.Reducible bs y a.laplacian)
    {ext : NumExt} {ic : IdConf} (hl : 0 ≤ ic.lambdaLasso) (hinv : Spec.InvContract ext.inv)
    (hex : Spec.Exact ext.solve) (htot : Spec.Total ext.solve) (hpinv' : Spec.PinvContract ext.pinv)
    (hsvd : Spec.SvdContract ext.svdVh) (hrank : Spec.FullColumnRank (centreData a.laplacian d.voltage d.current).1) {sc : SimConf}
    {b : IdArgs}
    (hb : b.network = a.network ∧ b.threePhased = false ∧ b.laplacian = a.laplacian)
    (hstd : Spec.Redone b.standard [b.standard, b.bayesian])
    {r : (Arr2 ℂ × Arr2 ℂ × Arr2 ℂ) × (Arr2 ℂ × List IterationStatus)}
    (hid : (identify ext ic sc b (simulate w cf a st).store).res = .ok r) :
    r.1.1 = d.y ∧ r.1.2.1 = d.y ∧
      (identify ext ic sc b (simulate w cf a st).store).store (resultFile .reference a.network) =
        some (referenceNpz d.y b.phases a.laplacian) ∧
      (identify ext ic sc b (simulate w cf a st).store).store (resultFile .standard a.network) = some (standardNpz (d.y, d.y, r.1.2.2)) := by
  obtain ⟨hclean, hids, hsq, heq, hst⟩ := C115_data hn h3 hseq h hall hhid hpinv hbs h0 hy hf hr
  obtain ⟨n1, n2⟩ := hclean hsd.1 hsd.2.1 hsd.2.2.1 hsd.2.2.2
  rw [← n1, ← n2] at heq hrank
  obtain ⟨d', y0, ⟨all, hload, hsel⟩, -, hs1, -, -, -, href⟩ := C78_identify (by rw [hb.1]; exact hn) hb.2.1 hid
  have hall' : all = d := by
    have := C49_network b.network d (simulate w cf a st).store (h := []) ⟨by rw [hb.1]; exact hn, by simp⟩
    rw [hb.1] at this hload
    have e : (simulate w cf a st).store.savez (resultFile .network a.network) (networkNpz d) = (simulate w cf a st).store := by
      funext f
      by_cases hfn : f = resultFile .network a.network
      · subst hfn; rw [hst]; simp [Store.savez]
      · simp [Store.savez, hfn]
    rw [e] at this
    exact Except.ok.inj (hload.symm.trans this)
  subst hall'
  have hd' : d' = all := by
    unfold selectPhase at hsel
    rw [if_neg] at hsel
    · exact (Except.ok.inj hsel).symm
    · rintro ⟨-, x, hx, hx1⟩
      exact hx1 (hids x hx)
  subst hd'
  obtain ⟨hcomp, hfile⟩ := hs1 hstd
  obtain ⟨-, hrows, -⟩ := matmul_entry heq
  obtain ⟨vh, hs, hvh⟩ := hsvd _
  obtain ⟨L, hL, -⟩ := standard_centred ext ic hl hinv hex htot hpinv' hsq heq hrank (if_pos hrows.symm) hs hvh b.maxIter
  rw [hb.2.2, hL] at hcomp
  have hr1 := (Except.ok.inj hcomp).symm
  rw [hb.1] at href hfile
  rw [hb.2.2] at href
  refine ⟨by rw [hr1], by rw [hr1], href, ?_⟩
  rw [hfile, hr1]

end
end Verif
