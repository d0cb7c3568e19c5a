/-
C122: a three-phase simulation without noise, in sequence coordinates, followed by an identification of the sequences.
-/
import Verif.Props.Pipeline
import Verif.Props.Reduce3
import Verif.Props.Lines
import Verif.Props.Phases
import Verif.Props.Programs
import Verif.Props.Simulation

namespace Verif
open Finset Matrix Net
open Spec (LabelPos Assembled columnsAt blockAt)
noncomputable section

/-! ### the sequence equation of a reduced network -/

theorem abc_sq (k : Nat) : blockMat k abcBlock.get * blockMat k abcBlock.get = (3 : ℂ) • blockMat k swapBlock := by
  rw [blockMat_mul]
  ext i j
  simp only [Matrix.smul_apply, smul_eq_mul]
  unfold blockMat
  split
  · have hp : (i : ℕ) % 3 < 3 := by omega
    have hq : (j : ℕ) % 3 < 3 := by omega
    generalize (i : ℕ) % 3 = p at *
    generalize (j : ℕ) % 3 = q at *
    have h0 := rot_sum
    have h1 := rot_mul_neg
    have h2 := rot_sq
    have h3 := rot_neg_sq
    beta_reduce
    rw [Fin.sum_univ_three]
    unfold abcBlock swapBlock
    interval_cases p <;> interval_cases q <;> simp [Arr2.ofFn_get'] <;> grind
  · simp

/-- measurements that satisfy the equation of a network in phase coordinates satisfy, after conversion, the equation with the positive
and the negative sequences exchanged; the converted matrix does not have them exchanged -/
theorem sequence_exact {k : Nat} {r0 r1 r2 red v i vs is : Arr2 ℂ} (h0 : Spec.IsSquare k r0) (h1 : Spec.IsSquare k r1)
    (h2 : Spec.IsSquare k r2) (hred : makeYBus3 r0 r1 r2 = .ok red) (heq : v.matmul red = .ok i)
    (hvs : measurementPhaseToSequence v = .ok vs) (his : measurementPhaseToSequence i = .ok is) :
    ∃ s s', sequenceBus r0 r1 r2 = .ok s ∧ admittancePhaseToSequence red = .ok s ∧ sequenceBus r0 r2 r1 = .ok s' ∧
      vs.matmul s' = .ok is := by
  obtain ⟨s, hs, ssq, sg⟩ := sequenceBus_ok k h0 h1 h2
  obtain ⟨s', hs', ssq', sg'⟩ := sequenceBus_ok k h0 h2 h1
  obtain ⟨⟨p, hp, psq, pm⟩, -⟩ := admittance_mat k s ssq
  have hpr : p = red := by
    unfold makeYBus3 at hred
    rw [hs] at hred
    exact Except.ok.inj (hp.symm.trans hred)
  subst hpr
  obtain ⟨⟨p', hp', -, hback⟩, -⟩ := C61_admittance k s ssq
  rw [hp] at hp'; cases hp'
  refine ⟨s, s', hs, hback, hs', ?_⟩
  obtain ⟨hvc, ir, ic, im⟩ := Arr2.matmul_inv heq
  rw [psq.1] at hvc
  rw [psq.2] at ic
  obtain ⟨-, vs', hv', vr, vc, vm⟩ := measurement_mat k v hvc
  rw [hvs] at hv'; cases hv'
  obtain ⟨-, is', hi', isr, isc, ism⟩ := measurement_mat k i ic
  rw [his] at hi'; cases hi'
  obtain ⟨o, ho, or', oc, om⟩ := Arr2.matmul_mat (A := vs) (B := s') ⟨vr, vc⟩ ssq'
  rw [ho, Arr2.toMat_inj (r := v.r) (c := k * 3) ⟨or', oc⟩ ⟨by rw [isr, ir], isc⟩]
  have im := im v.r (k * 3)
  rw [hvc] at im
  rw [ir] at ism
  -- the exchanged matrix
  have hsw : s'.toMat (k * 3) (k * 3) = blockMat k swapBlock * s.toMat (k * 3) (k * 3) * blockMat k swapBlock := by
    ext a b
    rw [mul_swap, swap_mul]
    obtain ⟨a, ha⟩ := a
    obtain ⟨b, hb⟩ := b
    show s'.get a b = s.get (Spec.swapPhase a) (Spec.swapPhase b)
    have e : ∀ i, i < k * 3 → ∃ a p, a < k ∧ p < 3 ∧ i = a * 3 + p := fun i hi => ⟨i / 3, i % 3, by omega, by omega, by omega⟩
    obtain ⟨a, p, ha', hp, rfl⟩ := e a ha
    obtain ⟨b, q, hb', hq, rfl⟩ := e b hb
    have w : ∀ a p, p < 3 → Spec.swapPhase (a * 3 + p) = a * 3 + (3 - p) % 3 := by
      intro a p hp; unfold Spec.swapPhase; omega
    rw [w a p hp, w b q hq, sg a b _ _ ha' hb' (by omega) (by omega), sg' a b p q ha' hb' hp hq]
    interval_cases p <;> interval_cases q <;> simp
  rw [om, vm, ism, im, pm, hsw]
  generalize v.toMat v.r (k * 3) = V
  generalize s.toMat (k * 3) (k * 3) = M
  have e1 : blockMat k seqBlock.get * blockMat k swapBlock = (1 / 3 : ℂ) • blockMat k abcBlock.get := by
    have : blockMat k swapBlock = (1 / 3 : ℂ) • (blockMat k abcBlock.get * blockMat k abcBlock.get) := by
      rw [abc_sq, smul_smul]; simp
    rw [this, Matrix.mul_smul, ← Matrix.mul_assoc, seq_abc, Matrix.one_mul]
  have e2 : blockMat k swapBlock = (3 : ℂ) • (blockMat k seqBlock.get * blockMat k seqBlock.get) := by
    rw [seq_sq, smul_smul]; simp
  calc V * blockMat k seqBlock.get * (blockMat k swapBlock * M * blockMat k swapBlock)
      = V * (blockMat k seqBlock.get * blockMat k swapBlock) * M * blockMat k swapBlock := by simp only [Matrix.mul_assoc]
    _ = V * blockMat k abcBlock.get * M * (blockMat k seqBlock.get * blockMat k seqBlock.get) := by
      rw [e1, e2]
      simp only [Matrix.mul_smul, Matrix.smul_mul, smul_smul]
      norm_num
    _ = _ := by simp only [Matrix.mul_assoc]

/-- the sequence of a column of converted data -/
theorem columns_exact {k : Nat} {r0 r1 r2 s v i : Arr2 ℂ} (h0 : Spec.IsSquare k r0) (h1 : Spec.IsSquare k r1)
    (h2 : Spec.IsSquare k r2) (hs : sequenceBus r0 r1 r2 = .ok s) (heq : v.matmul s = .ok i) {l : Nat} (hl : l < 3) :
    (columnsAt v k (fun a => a * 3 + l)).matmul (if l = 0 then r0 else if l = 1 then r1 else r2) =
      .ok (columnsAt i k (fun a => a * 3 + l)) := by
  obtain ⟨s', hs', ssq, sg⟩ := sequenceBus_ok k h0 h1 h2
  rw [hs] at hs'; cases hs'
  obtain ⟨e1, e2, e3, e4⟩ := matmul_entry heq
  have hsq : Spec.IsSquare k (if l = 0 then r0 else if l = 1 then r1 else r2) := by
    split
    · exact h0
    · split
      · exact h1
      · exact h2
  refine matmul_of_entries hsq.1.symm e2 hsq.2.symm ?_
  intro t b ht hb
  have ht' : t < v.r := ht
  rw [hsq.2] at hb
  have hb3 : b * 3 + l < k * 3 := by omega
  show ∑ a ∈ range k, _ = _
  unfold columnsAt
  rw [Arr2.ofFn_get _ (by rw [e2]; exact ht') hb, e4 t _ ht' (by rw [ssq.2]; exact hb3), e1, ssq.1, sum_range_mul']
  refine Finset.sum_congr rfl (fun a ha => ?_)
  have ha := Finset.mem_range.1 ha
  rw [Arr2.ofFn_get _ ht' ha, Finset.sum_eq_single l]
  · rw [sg a b l l ha hb hl hl, if_pos rfl]
  · intro q hq hne
    rw [sg a b q l ha hb (Finset.mem_range.1 hq) hl, if_neg hne, mul_zero]
  · intro h; exact absurd (Finset.mem_range.2 hl) h

/-- centring and selection of columns -/
theorem centre_columnsAt {a : Arr2 ℂ} {m : Nat} {f : Nat → Nat} (hf : ∀ j < m, f j < a.c) :
    centreColumns (columnsAt a m f) = columnsAt (centreColumns a) m f := by
  refine Arr2.ext' rfl rfl fun t j (ht : t < a.r) (hj : j < m) => ?_
  unfold centreColumns columnsAt
  refine (Arr2.ofFn_get (r := a.r) (c := m) _ ht hj).trans ?_
  refine Eq.trans ?_ (Arr2.ofFn_get (r := a.r) (c := m) _ ht hj).symm
  rw [Arr2.ofFn_get _ ht hj, Arr2.ofFn_get _ ht (hf j hj)]
  congr 2
  refine Finset.sum_congr rfl (fun s hs => ?_)
  exact Arr2.ofFn_get (r := a.r) (c := m) _ (Finset.mem_range.1 hs) hj

/-! ### removal of the reduced nodes -/

/-- position of the phases of the nodes `K` -/
def phaseAt (K : List ℕ) (i : ℕ) : ℕ := K.getD (i / 3) 0 * 3 + i % 3

theorem keep_phases {n : ℕ} {R : Finset ℕ} {K : List ℕ} (hK : Spec.Lists n R K) (hs : K.Pairwise (· < ·)) {todel : List ℕ}
    (ht : ∀ i, i ∈ todel ↔ i / 3 ∈ R) : Arr2.keepIdx (n * 3) todel = (List.range (K.length * 3)).map (phaseAt K) := by
  have hlt : ∀ a b, a < b → b < K.length → K.getD a 0 < K.getD b 0 := by
    intro a b hab hb
    rw [List.pairwise_iff_getElem] at hs
    have := hs a b (by omega) hb hab
    simpa [List.getD, List.getElem?_eq_getElem hb, List.getElem?_eq_getElem (show a < K.length by omega)] using this
  have h2 : ((List.range (K.length * 3)).map (phaseAt K)).Pairwise (· < ·) := by
    rw [List.pairwise_map]
    refine List.Pairwise.imp_of_mem ?_ (List.pairwise_lt_range (n := K.length * 3))
    intro x y hx hy hxy
    have hy := List.mem_range.1 hy
    unfold phaseAt
    by_cases he : x / 3 = y / 3
    · rw [he]; omega
    · have := hlt (x / 3) (y / 3) (by omega) (by omega)
      omega
  refine PySet.eq_of_perm_sorted ?_ (PySet.kept_sorted _ todel) h2
  refine (List.perm_ext_iff_of_nodup ((PySet.kept_sorted _ todel).imp (fun h => by omega)) (h2.imp (fun h => by omega))).2 fun x => ?_
  show x ∈ (List.range (n * 3)).filter (fun k => k ∉ todel) ↔ _
  simp only [List.mem_filter, List.mem_range, decide_eq_true_eq, List.mem_map, ht]
  constructor
  · rintro ⟨h1, h3⟩
    obtain ⟨a, ha, he⟩ := List.getElem_of_mem ((hK.2 (x / 3)).2 ⟨by omega, h3⟩)
    refine ⟨a * 3 + x % 3, by omega, ?_⟩
    unfold phaseAt
    rw [show (a * 3 + x % 3) / 3 = a by omega, List.getD_eq_getElem _ _ ha, he]
    omega
  · rintro ⟨a, ha, rfl⟩
    have := (hK.2 (K.getD (a / 3) 0)).1 (getD_mem (by omega))
    unfold phaseAt
    rw [show (K.getD (a / 3) 0 * 3 + a % 3) / 3 = K.getD (a / 3) 0 by omega]
    exact ⟨by omega, this.2⟩

theorem phaseAt_lt {n : ℕ} {R : Finset ℕ} {K : List ℕ} (hK : Spec.Lists n R K) {i : ℕ} (hi : i < K.length * 3) : phaseAt K i < n * 3 := by
  have := ((hK.2 (K.getD (i / 3) 0)).1 (getD_mem (by omega))).1
  unfold phaseAt
  omega

theorem tile3_getD (n i : ℕ) (h : i < n * 3) : (tileList [1, 2, 3] n).getD i 0 = ((i % 3 : ℕ) : Int) + 1 := by
  induction n generalizing i with
  | zero => omega
  | succ n ih =>
    unfold tileList
    rw [List.replicate_succ, List.flatten_cons]
    by_cases hi : i < 3
    · interval_cases i <;> rfl
    · have e : ([1, 2, 3] ++ (List.replicate n [1, 2, 3]).flatten : List Int).getD i 0 = (tileList [1, 2, 3] n).getD (i - 3) 0 := by
        unfold tileList
        rw [List.getD_append_right _ _ _ _ (by simpa using hi)]
        rfl
      rw [e, ih (i - 3) (by omega), show (i - 3) % 3 = i % 3 by omega]

theorem tile3_length (n : ℕ) : (tileList [1, 2, 3] n).length = n * 3 := by
  unfold tileList
  simp

theorem deleteCols_phases {n : ℕ} {R : Finset ℕ} {K : List ℕ} (hK : Spec.Lists n R K) (hs : K.Pairwise (· < ·)) {todel : List ℕ}
    (ht : ∀ i, i ∈ todel ↔ i / 3 ∈ R) (hR : ∀ k ∈ R, k < n) {a : Arr2 ℂ} (ha : a.c = n * 3) :
    a.deleteCols todel = .ok (columnsAt a (K.length * 3) (phaseAt K)) := by
  unfold Arr2.deleteCols
  rw [ha, if_pos (fun k hk => by have := hR _ ((ht k).1 hk); omega), keep_phases hK hs ht]
  congr 1
  refine Arr2.ext' rfl (by simp [columnsAt]) fun t j (ht : t < a.r) hj => ?_
  have hj' : j < K.length * 3 := by simpa using hj
  rw [Arr2.ofFn_get _ ht (by simpa using hj'), columnsAt, Arr2.ofFn_get _ ht hj', getD_map_range _ _ _ hj']

theorem deleteIds_phases {n : ℕ} {R : Finset ℕ} {K : List ℕ} (hK : Spec.Lists n R K) (hs : K.Pairwise (· < ·)) {todel : List ℕ}
    (ht : ∀ i, i ∈ todel ↔ i / 3 ∈ R) (hR : ∀ k ∈ R, k < n) :
    deleteEntries (tileList [1, 2, 3] n) todel 0 = .ok ((List.range (K.length * 3)).map (fun i => ((i % 3 : ℕ) : Int) + 1)) := by
  unfold deleteEntries
  rw [tile3_length, if_pos (fun k hk => by have := hR _ ((ht k).1 hk); omega), keep_phases hK hs ht, List.map_map]
  congr 1
  refine List.map_congr_left (fun i hi => ?_)
  have hi := List.mem_range.1 hi
  show (tileList [1, 2, 3] n).getD (phaseAt K i) 0 = _
  rw [tile3_getD _ _ (phaseAt_lt hK hi)]
  unfold phaseAt
  congr 2
  omega

/-- the labels of the sequences of `m` nodes -/
theorem labelPos_sequence (m : ℕ) (l : Fin 3) :
    LabelPos ((List.range (m * 3)).map (fun i => ((i % 3 : ℕ) : Int))) (l.val : Int) m (fun a => a * 3 + l) := by
  refine ⟨fun a b h _ => by omega, fun a h => by simp; omega, fun a h => ?_, fun p hp h => ?_⟩
  · rw [getD_map_range _ _ _ (by omega)]
    have := l.2
    congr 1; omega
  · have hp : p < m * 3 := by simpa using hp
    rw [getD_map_range _ _ _ hp] at h
    have : p % 3 = l := by exact_mod_cast h
    exact ⟨p / 3, by omega, by omega⟩

/-! ### the stages -/

namespace Spec

/-- the phase in column `j` of interleaved data -/
def phaseOf (j : ℕ) : Fin 3 := ⟨j % 3, Nat.mod_lt _ (by norm_num)⟩

/-- the nodes without power on any phase -/
def passive3 (bs : List BusData) : Finset ℕ := passive bs 0 ∩ (passive bs 1 ∩ passive bs 2)

/-- a three-phase power flow: the grid connections keep their voltages, the nodes without power on any phase inject no current -/
structure PowerFlow3 (bs : List BusData) (y : Arr2 ℂ) (res : SimResult3) : Prop where
  size : ∃ T, ∀ p, ((res.vm p).r = T ∧ (res.vm p).c = bs.length) ∧ (res.va p).r = T ∧ (res.va p).c = bs.length
  slack : ∀ k ∈ connections bs, ∀ p, ∀ t < (res.vm 0).r,
    (res.vm p).get t k = (res.vm p).get 0 k ∧ (res.va p).get t k = (res.va p).get 0 k
  passive : ∀ k ∈ passive3 bs, ∀ p < 3, ∀ t < (res.vm 0).r,
    currents y (fun j => phasor ((res.vm (phaseOf j)).get t (j / 3)) ((res.va (phaseOf j)).get t (j / 3))) (k * 3 + p) = 0

/-- three-phase networks that are reduced exactly, in order, when no node is hidden: the last bus is the only connection, not too many
nodes are removed, and the passive nodes can be eliminated in each sequence -/
structure Reducible3 (bs : List BusData) (y0 y1 y2 : Arr2 ℂ) : Prop where
  last : connections bs = {bs.length - 1}
  few : bs.length - 1 ≤ 8 ∨ 3 * (bs.length - 1) ≤ 5 * (bs.length - (passive3 bs ∪ connections bs).card)
  regular : ∀ y, (y = y0 ∨ y = y1 ∨ y = y2) → BlockNonsingular y (passive3 bs)

end Spec

theorem series_width {z : Nat → ℝ} {r : List ℝ} {voltage current : Arr2 ℂ} {times ts : List ℝ} {f : Nat} {vm cm vp cp : ℝ}
    {x : Arr2 ℂ × Arr2 ℂ × Arr2 ℂ × Arr2 ℂ} (h : noiseSeries z r voltage current times ts f vm cm vp cp = .ok x)
    (hc : voltage.c = current.c) : x.1.c = voltage.c ∧ x.2.1.c = voltage.c ∧ voltage.c ≤ r.length := by
  obtain ⟨-, -, -, -, -, hlen⟩ := noiseSeries_shape h
  unfold noiseSeries at h
  obtain ⟨vi, h1, h⟩ := Prior.bind_ok h
  obtain ⟨noisy, h2, h⟩ := Prior.bind_ok h
  obtain ⟨⟨nv, ni⟩, h3, h⟩ := Prior.bind_ok h
  obtain ⟨clean, -, h⟩ := Prior.bind_ok h
  obtain ⟨⟨v, i⟩, -, h⟩ := Prior.bind_ok h
  cases h
  obtain ⟨-, -, e3⟩ := hstack2_ok h1
  obtain ⟨-, -, e4, -⟩ := filter_shape h2
  obtain ⟨-, -, e5, e6⟩ := split2_ok h3
  dsimp only at e5 e6 ⊢
  omega

/-- data with and without noise have the same shape -/
theorem series_shape {z : Nat → ℝ} {r : List ℝ} {voltage current : Arr2 ℂ} {times ts : List ℝ} {f : Nat} {vm cm vp cp : ℝ}
    {x : Arr2 ℂ × Arr2 ℂ × Arr2 ℂ × Arr2 ℂ} (h : noiseSeries z r voltage current times ts f vm cm vp cp = .ok x) :
    x.1.r = x.2.2.1.r ∧ x.2.1.r = x.2.2.2.r ∧ f ≠ 0 := by
  obtain ⟨hf, a1, a2, a3, a4, -⟩ := noiseSeries_shape h
  exact ⟨by omega, by omega, hf⟩

/-- a three-phase simulation stores one rating per phase and node, and data with and without noise of the same length -/
theorem stage3_shape {z : Nat → ℝ} {net : Net} {voltage current : Arr2 ℂ} {times : List ℝ} {fmeas : ℝ} {steps : Nat} {np : NoiseParams}
    {safety : List ℝ} {n : NoiseResult} (h : addNoiseAndFilter3 z net voltage current times fmeas steps np safety = .ok n) :
    n.noisyVoltage.r = n.voltage.r ∧ n.noisyCurrent.r = n.current.r ∧ n.ratings.length = 3 * net.bus.length ∧ 0 < n.fparam := by
  unfold addNoiseAndFilter3 at h
  obtain ⟨r, hr, h⟩ := Prior.bind_ok h
  have hlen : r.length = 3 * net.bus.length := by
    unfold ratings3 at hr
    obtain ⟨a, -, hr⟩ := Prior.bind_ok hr
    obtain ⟨a, -, hr⟩ := Prior.bind_ok hr
    rw [← Except.ok.inj hr]
    simp
  obtain ⟨⟨m, ts⟩, h1, h⟩ := Prior.bind_ok h
  obtain ⟨f, h2, h⟩ := Prior.bind_ok h
  dsimp only at h
  split at h
  · obtain ⟨ts', h3, h⟩ := Prior.bind_ok h
    obtain ⟨⟨nv, ni, v, i⟩, h4, h⟩ := Prior.bind_ok h
    cases h
    obtain ⟨k1, k2, k3⟩ := series_shape h4
    exact ⟨k1, k2, hlen, Nat.one_pos⟩
  · obtain ⟨⟨nv, ni, v, i⟩, h4, h⟩ := Prior.bind_ok h
    cases h
    obtain ⟨k1, k2, k3⟩ := series_shape h4
    exact ⟨k1, k2, hlen, Nat.pos_of_ne_zero k3⟩

/-- the noise stage of a three-phase network: widths, and averages with equal weights for all columns -/
theorem stage3_exact {z : Nat → ℝ} {net : Net} {voltage current : Arr2 ℂ} {times : List ℝ} {fmeas : ℝ} {steps : Nat} {np : NoiseParams}
    {safety : List ℝ} {n : NoiseResult} (h : addNoiseAndFilter3 z net voltage current times fmeas steps np safety = .ok n)
    (ht : Spec.Times times) (hc : voltage.c = current.c) (h0 : 0 < voltage.c) :
    (n.noisyVoltage.c = voltage.c ∧ n.noisyCurrent.c = voltage.c ∧ voltage.c ≤ n.ratings.length) ∧
    (np.vm = 0 → np.cm = 0 → np.vp = 0 → np.cp = 0 → n.noisyVoltage = n.voltage ∧ n.noisyCurrent = n.current) ∧
      ∃ R W, (∀ t < R, ∑ k ∈ range times.length, W t k = 1) ∧
      Averages R times.length W voltage n.voltage ∧ Averages R times.length W current n.current := by
  unfold addNoiseAndFilter3 at h
  obtain ⟨r, -, h⟩ := Prior.bind_ok h
  obtain ⟨⟨m, ts⟩, h1, h⟩ := Prior.bind_ok h
  obtain ⟨f, h2, h⟩ := Prior.bind_ok h
  unfold rawTimes at h1
  obtain ⟨m', hm, h1⟩ := Prior.bind_ok h1
  obtain ⟨ts', hl, h1⟩ := Prior.bind_ok h1
  cases h1
  rw [ht.npmax] at hm
  cases hm
  dsimp only at h h2
  split at h
  · obtain ⟨ts', h3, h⟩ := Prior.bind_ok h
    unfold equivalentTimes at h3
    split at h3
    · cases h3
    · obtain ⟨⟨nv, ni, v, i⟩, h4, h⟩ := Prior.bind_ok h
      cases h
      obtain ⟨e1, e2⟩ := series_exact h4 (ht.grid h3) hc h0
      exact ⟨series_width h4 hc,
        fun a b c d => e1 (by rw [a, zero_div]) (by rw [b, zero_div]) (by rw [c, zero_div]) (by rw [d, zero_div]), e2⟩
  · obtain ⟨⟨nv, ni, v, i⟩, h4, h⟩ := Prior.bind_ok h
    cases h
    exact ⟨series_width h4 hc, series_exact h4 (ht.grid hl) hc h0⟩

theorem polar_eq_phasor {z : ℂ} {m deg : ℝ} (h : Spec.Polar z m deg) : z = Spec.phasor m deg := by
  have h' := polar_of_exp m deg
  rw [polar_phasor] at h'
  obtain ⟨a1, a2, a3⟩ := h
  obtain ⟨b1, b2, b3⟩ := h'
  rcases lt_trichotomy m 0 with hm | hm | hm
  · refine Complex.ext_norm_arg (a1.trans b1.symm) (Complex.arg_coe_angle_eq_iff.1 ((a3 hm).trans (b3 hm).symm))
  · rw [hm, abs_zero, norm_eq_zero] at a1
    rw [a1, hm]
    simp [Spec.phasor]
  · refine Complex.ext_norm_arg (a1.trans b1.symm) (Complex.arg_coe_angle_eq_iff.1 ((a2 hm).trans (b2 hm).symm))

/-- exact data of the three-phase power flow -/
theorem sim3_exact {flow : Net → Controls3 → Except PyErr SimResult3} {yBus : Net → Except PyErr (Arr2 ℂ)} {net : Net} {p q : Arr2 ℝ}
    {asym : List (Arr2 ℝ)} {s : Arr2 ℂ × Arr2 ℂ × Arr2 ℂ} (h : simCompute3 flow yBus net p q asym = .ok s) {bs : List BusData}
    {y : Arr2 ℂ} (hy : yBus net = .ok y) (hsz : Spec.IsSquare (bs.length * 3) y)
    (hf : ∀ c res, flow net c = .ok res → Spec.PowerFlow3 bs y res) :
    s.1.matmul y = .ok s.2.1 ∧ s.1.c = bs.length * 3 ∧
      (∀ c ∈ Spec.connections bs, ∀ p < 3, ∀ t, t < s.1.r → s.1.get t (c * 3 + p) = s.1.get 0 (c * 3 + p)) ∧
      ∀ k ∈ Spec.passive3 bs, ∀ p < 3, ∀ t, t < s.1.r → s.2.1.get t (k * 3 + p) = 0 := by
  unfold simCompute3 at h
  rw [hy] at h
  obtain ⟨y', h1, h⟩ := Prior.bind_ok h
  cases h1
  obtain ⟨res, hres, h⟩ := Prior.bind_ok h
  obtain ⟨o, ho, h⟩ := Prior.bind_ok h
  have hP : Spec.PowerFlow3 bs y res := by
    unfold simRun3 at hres
    obtain ⟨_, _, hres⟩ := Prior.bind_ok hres
    obtain ⟨_, _, hres⟩ := Prior.bind_ok hres
    obtain ⟨_, _, hres⟩ := Prior.bind_ok hres
    obtain ⟨_, _, hres⟩ := Prior.bind_ok hres
    obtain ⟨_, _, hres⟩ := Prior.bind_ok hres
    obtain ⟨_, _, hres⟩ := Prior.bind_ok hres
    obtain ⟨_, _, hres⟩ := Prior.bind_ok hres
    obtain ⟨_, _, hres⟩ := Prior.bind_ok hres
    exact hf _ _ hres
  obtain ⟨T, hT⟩ := hP.size
  obtain ⟨v, i, hvi, hvr, hvc, hpol, hohm⟩ := C84_three res y T bs.length (fun p => (hT p).1) (fun p => (hT p).2) hsz.1
  rw [hvi] at ho
  cases ho
  cases h
  have hmul : v.matmul y = .ok i :=
    matmul_of_entries (by rw [hvc, hsz.1]) hohm.1 hohm.2.1 (fun t j ht hj => (hohm.2.2 t ht j hj).symm)
  have hT0 : (res.vm 0).r = T := (hT 0).1.1
  have hget : ∀ t j, t < T → j < bs.length * 3 →
      v.get t j = Spec.phasor ((res.vm (Spec.phaseOf j)).get t (j / 3)) ((res.va (Spec.phaseOf j)).get t (j / 3)) := by
    intro t j ht hj
    have := polar_eq_phasor (hpol t ht (j / 3) (by omega) (Spec.phaseOf j))
    rw [← this]
    congr 1
    show j = j / 3 * 3 + j % 3
    omega
  obtain ⟨m1, m2, m3, m4⟩ := matmul_entry hmul
  refine ⟨hmul, hvc, ?_, ?_⟩
  · intro c hc p hp t ht
    have hcl := connections_lt hc
    rw [hvr] at ht
    show v.get t _ = v.get 0 _
    rw [hget t _ ht (by omega), hget 0 _ (by omega) (by omega)]
    rw [show (c * 3 + p) / 3 = c by omega]
    obtain ⟨e1, e2⟩ := hP.slack c hc (Spec.phaseOf (c * 3 + p)) t (by omega)
    rw [e1, e2]
  · intro k hk p hp t ht
    rw [hvr] at ht
    have hkl : k < bs.length := passive_lt (Finset.mem_inter.1 hk).1
    show i.get t _ = 0
    rw [m4 t _ (by omega) (by rw [hsz.2]; omega), ← hP.passive k hk p hp t (by omega)]
    unfold Spec.currents
    rw [hvc, hsz.1]
    exact Finset.sum_congr rfl (fun j hj => by rw [hget t j ht (Finset.mem_range.1 hj)])

/-! ### the stored data -/

namespace Spec

/-- the sequence whose matrix the converted data of sequence `l` satisfy -/
def exchanged (l : Fin 3) : Fin 3 := if l = 0 then 0 else if l = 1 then 2 else 1

/-- labels of `m` nodes with the three sequences of each in turn -/
def sequenceIds (m : ℕ) : List Int := (List.range (m * 3)).map (fun i => ((i % 3 : ℕ) : Int))

/-- position of the sequence `l` of node `a` -/
def sequencePos (l : Fin 3) (a : ℕ) : ℕ := a * 3 + l

end Spec

theorem sequence_assembled {k : ℕ} {r : Fin 3 → Arr2 ℂ} (h : ∀ l, Spec.IsSquare k (r l)) {s : Arr2 ℂ}
    (hs : sequenceBus (r 0) (r 1) (r 2) = .ok s) :
    Assembled (Spec.sequenceIds k) (fun _ => k) Spec.sequencePos r s := by
  obtain ⟨s', hs', ssq, sg⟩ := sequenceBus_ok k (h 0) (h 1) (h 2)
  rw [hs] at hs'; cases hs'
  have hlen : (Spec.sequenceIds k).length = k * 3 := by simp [Spec.sequenceIds]
  have hid : ∀ p < k * 3, (Spec.sequenceIds k).getD p 0 = ((p % 3 : ℕ) : Int) := fun p hp => getD_map_range _ _ _ hp
  refine ⟨by rw [hlen]; exact ssq, ?_, ?_, ?_⟩
  · intro l a b ha hb
    unfold Spec.sequencePos
    rw [sg a b l l ha hb l.2 l.2, if_pos rfl]
    fin_cases l <;> rfl
  · intro p q hp hq hne
    rw [hlen] at hp hq
    rw [hid p hp, hid q hq] at hne
    have := sg (p / 3) (q / 3) (p % 3) (q % 3) (by omega) (by omega) (by omega) (by omega)
    rw [show p / 3 * 3 + p % 3 = p by omega, show q / 3 * 3 + q % 3 = q by omega, if_neg (fun e => hne (by rw [e]))] at this
    exact this
  · intro p q hp hq hne
    rw [hlen] at hp
    exact absurd (hid p hp) (hne ⟨p % 3, by omega⟩)

/-- the last stage of a three-phase simulation in sequence coordinates, with the data of a power flow: it completes; the stored matrix
has the reduced sequence matrices as blocks, and the stored data of each sequence satisfy, after centring, the equation of the
matrix of the exchanged sequence -/
theorem network3_exact {w : SimWorld} {cf : SimConf} {a : SimArgs} (h3 : a.threePhased = true) (hseq : a.sequence = true)
    (hhid : cf.hidden = []) (hpinv : Spec.PinvContract w.pinv) {net : Net} {bs : List BusData} {ls : Option (List LineData)}
    (hnd : Net.netData3 w.types3 (some bs) ls = .ok net) {y0 y1 y2 y : Arr2 ℂ} (h0 : Spec.IsSquare bs.length y0)
    (h1 : Spec.IsSquare bs.length y1) (h2 : Spec.IsSquare bs.length y2) (hyy : makeYBus3 y0 y1 y2 = .ok y)
    (hy : w.yBus3 net = .ok y) (hf : ∀ c res, w.flow3 net c = .ok res → Spec.PowerFlow3 bs y res)
    (hr : Spec.Reducible3 bs y0 y1 y2) {p q : Arr2 ℝ} {asym : List (Arr2 ℝ)} {s : Arr2 ℂ × Arr2 ℂ × Arr2 ℂ}
    (hs : simCompute3 w.flow3 w.yBus3 net p q asym = .ok s) {times : List ℝ} (ht : Spec.Times times) {np : NoiseParams}
    {safety : List ℝ} {n : NoiseResult}
    (hno : addNoiseAndFilter3 w.z net s.1 s.2.1 times cf.fmeas cf.steps np safety = .ok n) :
    ∃ d m, ∃ r : Fin 3 → Arr2 ℂ, networkData w a net (hiddenNodes cf a bs) n = .ok d ∧
      (np.vm = 0 → np.cm = 0 → np.vp = 0 → np.cp = 0 → d.noisyVoltage = d.voltage ∧ d.noisyCurrent = d.current) ∧
      d.ids = Spec.sequenceIds m ∧ d.voltage.c = m * 3 ∧ d.current.c = m * 3 ∧ m = bs.length - (Spec.passive3 bs ∪ Spec.connections bs).card ∧
      (∀ l, Spec.IsSquare m (r l)) ∧ (y1 = y2 → r 1 = r 2) ∧
      Assembled d.ids (fun _ => m) Spec.sequencePos r d.y ∧
      (∀ l, (centreColumns (columnsAt d.voltage m (Spec.sequencePos l))).matmul (r (Spec.exchanged l)) =
        .ok (centreColumns (columnsAt d.current m (Spec.sequencePos l)))) ∧
      (d.noisyVoltage.r = d.voltage.r ∧ d.noisyVoltage.c = m * 3 ∧ d.noisyCurrent.r = d.current.r ∧ d.noisyCurrent.c = m * 3 ∧
        d.ratings.length = m * 3 ∧ 0 < d.fparam) ∧
      ∃ K, Spec.Lists bs.length (Spec.passive3 bs ∪ Spec.connections bs) K ∧ K.length = m ∧
        (∀ l, Spec.Grounded (![y0, y1, y2] l) (fun _ => 0) (Spec.connections bs) (Spec.passive3 bs) K (r l)) ∧
        measurementPhaseToSequence (columnsAt n.voltage (m * 3) (phaseAt K)) = .ok d.voltage := by
  obtain ⟨Y', hY', hYsq, -⟩ := C62_networks bs.length h0 h1 h2
  rw [hyy] at hY'; cases hY'
  have hb0 : 0 < bs.length := by
    have : bs.length - 1 < bs.length := connections_lt (by rw [hr.last]; simp)
    omega
  obtain ⟨x1, x2, x4, x5⟩ := sim3_exact hs hy hYsq hf
  obtain ⟨m1, m2, m3, -⟩ := matmul_entry x1
  have hvc : s.1.c = s.2.1.c := by rw [m3, x2, hYsq.2]
  obtain ⟨⟨w1, w2, w3⟩, e0, R, W, hW, hAv, hAi⟩ := stage3_exact hno ht hvc (by rw [x2]; omega)
  have heq := hAv.matmul hAi x1
  have hnv : n.voltage.c = bs.length * 3 := by rw [hAv.cols, x2]
  have hni : n.current.c = bs.length * 3 := by rw [hAi.cols, ← hvc, x2]
  have hconst : ∀ c ∈ Spec.connections bs, ∀ p < 3, ∀ t, t < n.voltage.r → n.voltage.get t (c * 3 + p) = n.voltage.get 0 (c * 3 + p) := by
    intro c hc p hp t ht'
    have hcl := connections_lt hc
    have hk := hAv.const hW (j := c * 3 + p) (by rw [x2]; omega) (fun t ht => x4 c hc p hp t ht)
    rw [hk t ht', hk 0 (lt_of_le_of_lt (Nat.zero_le _) ht')]
  have hload : ∀ k ∈ Spec.passive3 bs, ∀ p < 3, ∀ t, t < n.voltage.r → n.current.get t (k * 3 + p) = 0 := by
    intro k hk p hp t ht'
    have hkl : k < bs.length := passive_lt (Finset.mem_inter.1 hk).1
    refine hAi.const hW (j := k * 3 + p) (by rw [← hvc, x2]; omega) (fun t ht => x5 k hk p hp t (by rw [← m2]; exact ht)) t ?_
    rw [hAi.rows, ← hAv.rows]; exact ht'
  have hhn : hiddenNodes cf a bs = [] := by
    unfold hiddenNodes
    rw [hhid, h3]
    simp
  have hlab : Spec.labelled bs [] ∪ Spec.passive bs 0 ∩ (Spec.passive bs 1 ∩ Spec.passive bs 2) = Spec.passive3 bs := by
    rw [labelled_nil, Finset.empty_union]; rfl
  obtain ⟨todel, red, K, r1, r2, r3, r4, r5, s0, s1, s2, g1, g2, g3, g4, g5, g6⟩ := reduce3_exact (voltage := n.voltage)
    (current := n.current) (hidden := []) (rs := false) (d := fun _ => 0) hnd hpinv h0 h1 h2 hyy hnv hni (by simp) (by simp) hr.last
    (by rw [labelled_nil]; simp) (by rw [labelled_nil]; simp) (by simp) (by
      intro y' hy'
      rw [hlab]
      have hsz : Spec.IsSquare bs.length y' := by
        rcases hy' with rfl | rfl | rfl
        · exact h0
        · exact h1
        · exact h2
      refine blockNonsingular_congr (fun i hi j hj => ?_) (hr.regular y' hy')
      unfold Spec.withShunts
      rw [Arr2.ofFn_get _ (by rw [hsz.1]; exact passive_lt (Finset.mem_inter.1 hi).1)
        (by rw [hsz.2]; exact passive_lt (Finset.mem_inter.1 hj).1)]
      simp)
  rw [hlab] at r2 r3 r4 g6
  obtain ⟨z1, z2, z3, z4⟩ := stage3_shape hno
  have hRlt : ∀ k ∈ Spec.passive3 bs ∪ Spec.connections bs, k < bs.length := by
    intro k hk
    rcases Finset.mem_union.1 hk with h | h
    · exact passive_lt (Finset.mem_inter.1 h).1
    · exact connections_lt h
  have hlen := lists_length hRlt r3
  have hKlen : K.length = bs.length - (Spec.passive3 bs ∪ Spec.connections bs).card := by omega
  have hsort := r5 (by rw [hKlen]; exact hr.few)
  have hKlt : ∀ b, b < K.length → K.getD b 0 < bs.length := fun b hb => ((r3.2 _).1 (getD_mem hb)).1
  obtain ⟨-, hbus, -⟩ := netData3_tables hnd
  have hbl : net.bus.length = bs.length := by rw [hbus]; simp
  -- the equation in phase coordinates
  have hred : reduction w a net (hiddenNodes cf a bs) n = .ok (todel, red) := by
    unfold reduction
    rw [h3, hy, hhn, hseq]
    simp only [if_true, bind, Except.bind]
    exact r1
  obtain ⟨hrr, hrc, hG⟩ := r4
  have hc := C47_columns n.voltage y n.current heq
  obtain ⟨c1, c2, c3, c4⟩ := matmul_entry hc
  have hphase : (centreColumns (columnsAt n.voltage (K.length * 3) (phaseAt K))).matmul red =
      .ok (centreColumns (columnsAt n.current (K.length * 3) (phaseAt K))) := by
    have hlt1 : ∀ j < K.length * 3, phaseAt K j < n.voltage.c := fun j hj => by rw [hnv]; exact phaseAt_lt r3 hj
    have hlt2 : ∀ j < K.length * 3, phaseAt K j < n.current.c := fun j hj => by rw [hni]; exact phaseAt_lt r3 hj
    rw [centre_columnsAt hlt1, centre_columnsAt hlt2]
    have hir : n.current.r = n.voltage.r := by rw [hAi.rows, hAv.rows]
    refine matmul_of_entries hrr.symm (show n.current.r = n.voltage.r from hir) hrc.symm ?_
    intro t j ht' hj
    have ht' : t < n.voltage.r := ht'
    rw [hrc] at hj
    have hcur : ∀ j, j < bs.length * 3 → Spec.currents y (fun k => (centreColumns n.voltage).get t k) j = (centreColumns n.current).get t j := by
      intro j hj
      refine Eq.trans ?_ (c4 t j ht' (by rw [hYsq.2]; exact hj)).symm
      unfold Spec.currents
      rw [← c1]
      rfl
    have hce : ∀ (a : Arr2 ℂ) (k : ℕ), k < a.c → t < a.r → (centreColumns a).get t k = a.get t k - (∑ s ∈ range a.r, a.get s k) / a.r :=
      fun a k hk ht => Arr2.ofFn_get (r := a.r) (c := a.c) _ ht hk
    have hzero : ∀ (a : Arr2 ℂ) (k : ℕ), k < a.c → t < a.r → (∀ s < a.r, a.get s k = a.get 0 k) → (centreColumns a).get t k = 0 := by
      intro a k hk ht hcn
      rw [hce a k hk ht, Finset.sum_congr rfl (fun s hs => hcn s (Finset.mem_range.1 hs)), hcn t ht]
      have : (a.r : ℂ) ≠ 0 := by
        have : 0 < a.r := by omega
        exact_mod_cast this.ne'
      rw [Finset.sum_const, Finset.card_range, nsmul_eq_mul]
      field_simp
      ring
    have := hG (fun k => (centreColumns n.voltage).get t k)
      (fun c hcc p hp => hzero n.voltage _ (by have := connections_lt hcc; omega) ht' (fun s hs => hconst c hcc p hp s hs))
      (fun k hk p hp => by
        have hkl : k < bs.length := passive_lt (Finset.mem_inter.1 hk).1
        rw [hcur _ (by omega), hzero n.current _ (by omega) (by omega) (fun s hs => by
          rw [hload k hk p hp s (by omega), hload k hk p hp 0 (by omega)])]
        simp) (j / 3) (by omega) (j % 3) (by omega)
    rw [show j / 3 * 3 + j % 3 = j by omega, hcur _ (by have := hKlt (j / 3) (by omega); omega)] at this
    unfold columnsAt
    rw [Arr2.ofFn_get _ (show t < (centreColumns n.current).r by show t < n.current.r; omega) hj]
    refine Eq.trans ?_ this
    unfold Spec.currents
    rw [hrr]
    show ∑ k ∈ range (K.length * 3), _ = _
    refine Finset.sum_congr rfl (fun k hk => ?_)
    rw [Arr2.ofFn_get _ (show t < (centreColumns n.voltage).r from ht') (Finset.mem_range.1 hk)]
    rfl
  -- sequence coordinates
  obtain ⟨-, vs, hvs, vsr, vsc, -⟩ := measurement_mat K.length (columnsAt n.voltage (K.length * 3) (phaseAt K)) rfl
  obtain ⟨-, is, his, isr, isc, -⟩ := measurement_mat K.length (columnsAt n.current (K.length * 3) (phaseAt K)) rfl
  obtain ⟨-, nvs, hnvs, nvr, nvc, -⟩ := measurement_mat K.length (columnsAt n.noisyVoltage (K.length * 3) (phaseAt K)) rfl
  obtain ⟨-, nis, hnis, nir, nic, -⟩ := measurement_mat K.length (columnsAt n.noisyCurrent (K.length * 3) (phaseAt K)) rfl
  have hvs' : measurementPhaseToSequence (centreColumns (columnsAt n.voltage (K.length * 3) (phaseAt K))) = .ok (centreColumns vs) :=
    C47_columns _ _ _ hvs
  have his' : measurementPhaseToSequence (centreColumns (columnsAt n.current (K.length * 3) (phaseAt K))) = .ok (centreColumns is) :=
    C47_columns _ _ _ his
  obtain ⟨sm, sm', q1, q2, q3, q4⟩ := sequence_exact g2 g3 g4 g1 hphase hvs' his'
  have hdel := fun {a : Arr2 ℂ} (ha : a.c = bs.length * 3) => deleteCols_phases r3 hsort r2 hRlt ha
  have hrl : n.ratings.length = bs.length * 3 := by rw [z3, hbl, mul_comm]
  obtain ⟨ra, hra, hrac⟩ : ∃ ra, deleteEntries n.ratings todel 0 = .ok ra ∧ ra.length = K.length * 3 :=
    ⟨_, if_pos (fun k hk => lt_of_lt_of_le (by have := hRlt _ ((r2 k).1 hk); rw [x2]; omega) w3), by
      rw [hrl, keep_phases r3 hsort r2]; simp⟩
  have hids := deleteIds_phases r3 hsort r2 hRlt
  have hmap : ((List.range (K.length * 3)).map (fun i => ((i % 3 : ℕ) : Int) + 1)).map (· - 1) = Spec.sequenceIds K.length := by
    unfold Spec.sequenceIds
    rw [List.map_map]
    refine List.map_congr_left (fun i _ => ?_)
    show ((i % 3 : ℕ) : Int) + 1 - 1 = _
    omega
  refine ⟨⟨nvs, nis, vs, is, sm, ra, n.fparam, Spec.sequenceIds K.length⟩, K.length, ![s0, s1, s2], ?_, ?_, rfl, vsc, isc, hKlen, ?_, g5, ?_, ?_, ?_, K, r3, rfl, g6, hvs⟩
  · unfold networkData dropReduced toSequence
    rw [hred, hseq, h3, hbl]
    simp only [bind, Except.bind, if_true, hdel (show n.noisyVoltage.c = _ by rw [w1, x2]), hdel (show n.noisyCurrent.c = _ by rw [w2, x2]),
      hdel hnv, hdel hni, hra, hids, pure, Except.pure, hvs, his, hnvs, hnis, q2, hmap]
  · intro z1 z2 z3 z4
    obtain ⟨e1, e2⟩ := e0 z1 z2 z3 z4
    rw [e1, hvs] at hnvs
    rw [e2, his] at hnis
    exact ⟨(Except.ok.inj hnvs).symm, (Except.ok.inj hnis).symm⟩
  · intro l
    fin_cases l
    · exact g2
    · exact g3
    · exact g4
  · exact sequence_assembled (r := ![s0, s1, s2]) (by
      intro l
      fin_cases l
      · exact g2
      · exact g3
      · exact g4) q1
  · intro l
    have := columns_exact g2 g4 g3 q3 q4 l.2
    have hb : ∀ j < K.length, Spec.sequencePos l j < K.length * 3 := fun j hj => by
      have := l.2
      unfold Spec.sequencePos; omega
    dsimp only
    rw [centre_columnsAt (by rw [vsc]; exact hb), centre_columnsAt (by rw [isc]; exact hb)]
    refine Eq.trans ?_ this
    fin_cases l <;> rfl
  · exact ⟨nvr.trans (z1.trans vsr.symm), nvc, nir.trans (z2.trans isr.symm), nic, hrac, Nat.cast_pos.2 z4⟩

/-! ### the programs -/

/-- C122, data: a run of simulate_network.py that recomputes everything for a three-phase network in sequence coordinates, with no hidden
nodes configured, stores a matrix made of three reduced sequence matrices and no coupling between sequences; the stored data
without noise of each sequence satisfy, after the centring of the identification, the equation of one of these matrices: the zero
sequence its own, the positive sequence that of the negative one and vice versa -/
theorem C122_data {w : SimWorld} {cf : SimConf} {a : SimArgs} {st : Store} {d : NetworkData} (hn : Spec.PlainName a.network)
    (h3 : a.threePhased = true) (hseq : a.sequence = true) (h : (simulate w cf a st).res = .ok d)
    (hall : a.loads = a.networkSim ∧ a.networkSim = a.noise) (hhid : cf.hidden = []) (hpinv : Spec.PinvContract w.pinv)
    {net : Net} {bs : List BusData} (hbs : makeNet3 w a.network = .ok (net, bs)) {y0 y1 y2 y : Arr2 ℂ}
    (h0 : Spec.IsSquare bs.length y0) (h1 : Spec.IsSquare bs.length y1) (h2 : Spec.IsSquare bs.length y2)
    (hyy : makeYBus3 y0 y1 y2 = .ok y) (hy : w.yBus3 net = .ok y)
    (hf : ∀ c res, w.flow3 net c = .ok res → Spec.PowerFlow3 bs y res) (hr : Spec.Reducible3 bs y0 y1 y2) :
    ∃ m, ∃ r : Fin 3 → Arr2 ℂ,
      (cf.vm = 0 → cf.cm = 0 → cf.vp = 0 → cf.cp = 0 → d.noisyVoltage = d.voltage ∧ d.noisyCurrent = d.current) ∧
      d.ids = Spec.sequenceIds m ∧ d.voltage.c = m * 3 ∧ d.current.c = m * 3 ∧ m = bs.length - (Spec.passive3 bs ∪ Spec.connections bs).card ∧
      (∀ l, Spec.IsSquare m (r l)) ∧ (y1 = y2 → r 1 = r 2) ∧
      Assembled d.ids (fun _ => m) Spec.sequencePos r d.y ∧
      (∀ l, (centreColumns (columnsAt d.voltage m (Spec.sequencePos l))).matmul (r (Spec.exchanged l)) =
        .ok (centreColumns (columnsAt d.current m (Spec.sequencePos l)))) ∧
      (simulate w cf a st).store (resultFile .network a.network) = some (networkNpz d) ∧
      (d.noisyVoltage.r = d.voltage.r ∧ d.noisyVoltage.c = m * 3 ∧ d.noisyCurrent.r = d.current.r ∧ d.noisyCurrent.c = m * 3 ∧
        d.ratings.length = m * 3 ∧ 0 < d.fparam) ∧
      ∃ K, Spec.Lists bs.length (Spec.passive3 bs ∪ Spec.connections bs) K ∧ K.length = m ∧
        ∀ l, Spec.Grounded (![y0, y1, y2] l) (fun _ => 0) (Spec.connections bs) (Spec.passive3 bs) K (r l) := by
  obtain ⟨net', bs', l, s, n, hnet, hl, -, hs, -, hno, -, hd, hst⟩ := C78_simulate3 hn h3 h
  have hR : Spec.Redone a.loads [a.loads, a.networkSim, a.noise] := by
    obtain ⟨e1, e2⟩ := hall
    cases hb : a.noise
    · right
      intro f hf
      rw [e1, e2, hb] at hf
      simpa using hf
    · left
      rw [e1, e2, hb]
  obtain ⟨⟨lp, -, hlp⟩, -⟩ := hl hR
  obtain ⟨hs, -⟩ := hs (by rw [← hall.1]; rw [← hall.1] at hR; exact hR)
  obtain ⟨hno, -⟩ := hno (by rw [← hall.2, ← hall.1]; rw [← hall.2, ← hall.1] at hR; exact hR)
  rw [hbs] at hnet
  cases hnet
  have hnet := hbs
  unfold makeNet3 at hnet
  obtain ⟨b, hb, hnet⟩ := Prior.bind_ok hnet
  obtain ⟨ls, -, hnet⟩ := Prior.bind_ok hnet
  obtain ⟨net', hnd, hnet⟩ := Prior.bind_ok hnet
  cases hnet
  -- times
  have ht : Spec.Times l.2.2.2 := by
    unfold computeLoads3 at hlp
    obtain ⟨⟨p, q, as⟩, -, hlp⟩ := Prior.bind_ok hlp
    obtain ⟨⟨p', q'⟩, -, hlp⟩ := Prior.bind_ok hlp
    obtain ⟨as', -, hlp⟩ := Prior.bind_ok hlp
    rw [← Except.ok.inj hlp] at hno ⊢
    refine minuteTimes_times (Nat.pos_of_ne_zero fun hd0 => ?_)
    unfold addNoiseAndFilter3 at hno
    obtain ⟨_, -, hno⟩ := Prior.bind_ok hno
    unfold rawTimes at hno
    simp only [hd0, minuteTimes] at hno
    cases hno
  obtain ⟨d', m, r, g1, g2, g3, g4, g5, g6, g7, g8, g9, g10, g11, K, g12, g13, g14, -⟩ := network3_exact h3 hseq hhid hpinv hnd h0 h1 h2 hyy hy hf hr hs ht hno
  rw [hd] at g1
  cases g1
  exact ⟨m, r, g2, g3, g4, g5, g6, g7, g8, g9, g10, hst, g11, K, g12, g13, g14⟩

/-- C122: simulate_network.py without noise in sequence coordinates, then identify_network.py for the three sequences with the standard
methods: if the centred voltages of each sequence are linearly independent, the ordinary and the total least squares estimates have
the zero-sequence block of the stored reference, and its positive and negative blocks exchanged; so they are the stored reference
if and only if these two blocks agree -/
theorem C122 {w : SimWorld} {cf : SimConf} {a : SimArgs} {st : Store} {d : NetworkData} (hn : Spec.PlainName a.network)
    (h3 : a.threePhased = true) (hseq : a.sequence = true) (h : (simulate w cf a st).res = .ok d)
    (hall : a.loads = a.networkSim ∧ a.networkSim = a.noise) (hsd : cf.vm = 0 ∧ cf.cm = 0 ∧ cf.vp = 0 ∧ cf.cp = 0)
    (hhid : cf.hidden = []) (hpinv : Spec.PinvContract w.pinv)
    {net : Net} {bs : List BusData} (hbs : makeNet3 w a.network = .ok (net, bs)) {y0 y1 y2 y : Arr2 ℂ}
    (h0 : Spec.IsSquare bs.length y0) (h1 : Spec.IsSquare bs.length y1) (h2 : Spec.IsSquare bs.length y2)
    (hyy : makeYBus3 y0 y1 y2 = .ok y) (hy : w.yBus3 net = .ok y)
    (hf : ∀ c res, w.flow3 net c = .ok res → Spec.PowerFlow3 bs y res) (hr : Spec.Reducible3 bs y0 y1 y2)
    {ext : NumExt} {ic : IdConf} (hl : 0 ≤ ic.lambdaLasso) (hinv : Spec.InvContract ext.inv)
    (hex : Spec.Exact ext.solve) (htot : Spec.Total ext.solve) (hpinv' : Spec.PinvContract ext.pinv)
    (hsvd : Spec.SvdContract ext.svdVh) (hsh : Spec.Shapes ext)
    (hrank : ∀ l, Spec.FullColumnRank (centreColumns (columnsAt d.voltage (d.voltage.c / 3) (Spec.sequencePos l)))) {sc : SimConf}
    {b : IdArgs} (hb : b.network = a.network ∧ b.threePhased = true ∧ b.laplacian = false ∧ b.phases = "012")
    (hstd : Spec.Redone b.standard [b.standard, b.bayesian])
    {r : (Arr2 ℂ × Arr2 ℂ × Arr2 ℂ) × (Arr2 ℂ × List IterationStatus)}
    (hid : (identify ext ic sc b (simulate w cf a st).store).res = .ok r) :
    ∃ m, d.ids = Spec.sequenceIds m ∧
      Assembled d.ids (fun _ => m) Spec.sequencePos (fun l => blockAt d.y m (Spec.sequencePos l)) d.y ∧
      Assembled d.ids (fun _ => m) Spec.sequencePos (fun l => blockAt d.y m (Spec.sequencePos (Spec.exchanged l))) r.1.1 ∧
      Assembled d.ids (fun _ => m) Spec.sequencePos (fun l => blockAt d.y m (Spec.sequencePos (Spec.exchanged l))) r.1.2.1 ∧
      (r.1.1 = d.y ↔ blockAt d.y m (Spec.sequencePos 1) = blockAt d.y m (Spec.sequencePos 2)) ∧
      (r.1.2.1 = d.y ↔ blockAt d.y m (Spec.sequencePos 1) = blockAt d.y m (Spec.sequencePos 2)) ∧
      (y1 = y2 → r.1.1 = d.y ∧ r.1.2.1 = d.y) ∧
      (identify ext ic sc b (simulate w cf a st).store).store (resultFile .reference a.network) =
        some (referenceNpz d.y "012" false) ∧
      (identify ext ic sc b (simulate w cf a st).store).store (resultFile .standard a.network) = some (standardNpz r.1) := by
  obtain ⟨m, rs, hclean, hids, hvc, hic, -, hsq, hyeq, hass, heq, hst, -⟩ := C122_data hn h3 hseq h hall hhid hpinv hbs h0 h1 h2 hyy hy hf hr
  obtain ⟨n1, n2⟩ := hclean hsd.1 hsd.2.1 hsd.2.2.1 hsd.2.2.2
  rw [hvc, show m * 3 / 3 = m by omega] at hrank
  obtain ⟨all, y0', hload, -, hs1, -, -, -, -, href⟩ := C78_identify3 (by rw [hb.1]; exact hn) hb.2.1 hid
  have hall' : all = d := by
    have := C49_network b.network d (simulate w cf a st).store (h := []) ⟨by rw [hb.1]; exact hn, by simp⟩
    rw [hb.1] at this hload
    have e : (simulate w cf a st).store.savez (resultFile .network a.network) (networkNpz d) = (simulate w cf a st).store := by
      funext f
      by_cases hfn : f = resultFile .network a.network
      · subst hfn; rw [hst]; simp [Store.savez]
      · simp [Store.savez, hfn]
    rw [e] at this
    exact Except.ok.inj (hload.symm.trans this)
  subst hall'
  obtain ⟨hcomp, hfile⟩ := hs1 hstd
  have hlen : all.ids.length = m * 3 := by rw [hids]; simp [Spec.sequenceIds]
  have hpos : ∀ l : Fin 3, LabelPos all.ids (l.val : Int) m (Spec.sequencePos l) := by
    intro l
    rw [hids]
    exact labelPos_sequence m l
  have hblk : ∀ l, blockAt all.y m (Spec.sequencePos l) = rs l := by
    intro l
    refine Arr2.ext' (hsq l).1.symm (hsq l).2.symm fun i j (hi : i < m) (hj : j < m) => ?_
    unfold blockAt
    rw [Arr2.ofFn_get _ hi hj, hass.block l i j hi hj]
  have hcomp := hcomp st
  rw [if_pos hb.2.2.2, hb.2.2.1, n1, n2, C52_standard hsh (by rw [hlen, hvc]) (by rw [hlen, hic]) hpos] at hcomp
  obtain ⟨es, he, ho, ht, -⟩ := hcomp
  have hes : ∀ l, (es l).1 = rs (Spec.exchanged l) ∧ (es l).2.1 = rs (Spec.exchanged l) := by
    intro l
    have hc : (centreData false (columnsAt all.voltage m (Spec.sequencePos l)) (columnsAt all.current m (Spec.sequencePos l))).1.matmul
        (rs (Spec.exchanged l)) =
        .ok (centreData false (columnsAt all.voltage m (Spec.sequencePos l)) (columnsAt all.current m (Spec.sequencePos l))).2 := heq l
    obtain ⟨-, hrows, -⟩ := matmul_entry hc
    obtain ⟨vh, hs, hvh⟩ := hsvd (Arr2.ofFn (centreData false (columnsAt all.voltage m (Spec.sequencePos l))
      (columnsAt all.current m (Spec.sequencePos l))).1.r _ _)
    obtain ⟨L, hL, -⟩ := standard_centred ext ic hl hinv hex htot hpinv' (by rw [(hsq _).1, (hsq _).2]) hc (hrank l)
      (if_pos hrows.symm) hs hvh b.maxIter
    have := he l st
    rw [standardMethods_fst, hL] at this
    rw [← Except.ok.inj this]
    exact ⟨rfl, rfl⟩
  have hassd : ∀ {f g : Fin 3 → Arr2 ℂ} {Y : Arr2 ℂ}, (∀ l, f l = g l) → Assembled all.ids (fun _ => m) Spec.sequencePos f Y →
      Assembled all.ids (fun _ => m) Spec.sequencePos g Y := by
    intro f g Y hfg hY
    rw [show g = f from funext fun l => (hfg l).symm]
    exact hY
  have hiff : ∀ {Y : Arr2 ℂ}, Assembled all.ids (fun _ => m) Spec.sequencePos (fun l => rs (Spec.exchanged l)) Y →
      (Y = all.y ↔ rs 1 = rs 2) := by
    intro Y hY
    constructor
    · rintro rfl
      refine Arr2.ext' (by rw [(hsq 1).1, (hsq 2).1]) (by rw [(hsq 1).2, (hsq 2).2]) fun i j hi hj => ?_
      rw [(hsq 1).1] at hi
      rw [(hsq 1).2] at hj
      rw [← hass.block 1 i j hi hj, hY.block 1 i j hi hj]
      rfl
    · intro h12
      refine Spec.Assembled.unique hpos hY (hassd ?_ hass)
      intro l
      fin_cases l
      · rfl
      · exact h12
      · exact h12.symm
  have hO := hassd (fun l => (hes l).1) ho
  have hT := hassd (fun l => (hes l).2) ht
  rw [hb.1] at href hfile
  rw [hb.2.2.1, hb.2.2.2] at href
  refine ⟨m, hids, hassd (fun l => (hblk l).symm) hass, hassd (fun l => (hblk _).symm) hO, hassd (fun l => (hblk _).symm) hT, ?_, ?_, ?_, href, hfile⟩
  · rw [hblk, hblk]; exact hiff hO
  · rw [hblk, hblk]; exact hiff hT
  · intro h12
    exact ⟨(hiff hO).2 (hyeq h12), (hiff hT).2 (hyeq h12)⟩

end
end Verif
