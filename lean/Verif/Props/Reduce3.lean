/-
C95 Three-phase reduction; C96 Nodes loaded on some of their phases.
-/
import Verif.Props.Reduce
import Verif.Props.Lines

namespace Verif
open Finset Net
noncomputable section

/-! ### matrices in phase coordinates -/

/-- the entries of the phase-coordinate matrix with sequence matrices `ys 0`, `ys 1`, `ys 2` -/
def PhaseForm (k : ℕ) (ys : ℕ → Arr2 ℂ) (Y : Arr2 ℂ) : Prop :=
  Spec.IsSquare (k * 3) Y ∧ ∀ a b p q, a < k → b < k → p < 3 → q < 3 →
    Y.get (a * 3 + p) (b * 3 + q) = ∑ s ∈ range 3, abcBlock.get p s * (ys s).get a b * seqBlock.get s q

def three (y0 y1 y2 : Arr2 ℂ) (s : ℕ) : Arr2 ℂ := if s = 0 then y0 else if s = 1 then y1 else y2

theorem three_forall {P : Arr2 ℂ → Prop} {y0 y1 y2 : Arr2 ℂ} (h0 : P y0) (h1 : P y1) (h2 : P y2) (s : ℕ) : P (three y0 y1 y2 s) := by
  unfold three
  split
  · exact h0
  · split
    · exact h1
    · exact h2

/-- product with a block diagonal matrix on the left -/
theorem blockMat_mul_left {ι : Type} (k : Nat) (X : Matrix (Fin (k * 3)) ι ℂ) (b : Nat → Nat → ℂ) (i : Fin (k * 3)) (j : ι) :
    (blockMat k b * X) i j = ∑ r : Fin 3, b ((i : ℕ) % 3) r * X ⟨(i : ℕ) / 3 * 3 + r, by have := i.2; omega⟩ j := by
  have ht : (blockMat k b).transpose = blockMat k (fun p q => b q p) := by
    ext i j
    rw [Matrix.transpose_apply]
    unfold blockMat
    by_cases h : (i : ℕ) / 3 = (j : ℕ) / 3
    · rw [if_pos h, if_pos h.symm]
    · rw [if_neg h, if_neg (fun h' => h h'.symm)]
  have := mul_blockMat k X.transpose (fun p q => b q p) j i
  rw [← ht, ← Matrix.transpose_mul, Matrix.transpose_apply] at this
  rw [this]
  exact Finset.sum_congr rfl (fun r _ => by rw [Matrix.transpose_apply, mul_comm])

theorem phaseForm_entries (k : ℕ) {y0 y1 y2 : Arr2 ℂ} (h0 : Spec.IsSquare k y0) (h1 : Spec.IsSquare k y1)
    (h2 : Spec.IsSquare k y2) : ∃ Y, makeYBus3 y0 y1 y2 = .ok Y ∧ PhaseForm k (three y0 y1 y2) Y := by
  obtain ⟨s, hs, ssq, sg⟩ := sequenceBus_ok k h0 h1 h2
  obtain ⟨⟨Y, hY, Ysq, Ym⟩, -⟩ := admittance_mat k s ssq
  refine ⟨Y, by simp only [makeYBus3, hs, bind, Except.bind]; exact hY, Ysq, ?_⟩
  intro a b p q ha hb hp hq
  have i1 : a * 3 + p < k * 3 := by omega
  have i2 : b * 3 + q < k * 3 := by omega
  have := congrFun (congrFun Ym ⟨a * 3 + p, i1⟩) ⟨b * 3 + q, i2⟩
  rw [mul_blockMat] at this
  have e : Y.toMat (k * 3) (k * 3) ⟨a * 3 + p, i1⟩ ⟨b * 3 + q, i2⟩ = Y.get (a * 3 + p) (b * 3 + q) := rfl
  rw [e] at this
  rw [this, ← Fin.sum_univ_eq_sum_range (fun s => abcBlock.get p s * (three y0 y1 y2 s).get a b * seqBlock.get s q)]
  refine Finset.sum_congr rfl (fun r _ => ?_)
  have hdb : (b * 3 + q) / 3 = b := by omega
  have hmb : (b * 3 + q) % 3 = q := by omega
  have hda : (a * 3 + p) / 3 = a := by omega
  have hma : (a * 3 + p) % 3 = p := by omega
  simp only [hmb, hdb]
  congr 1
  rw [blockMat_mul_left]
  simp only [hma, hda]
  have hent : ∀ t : Fin 3, s.toMat (k * 3) (k * 3) ⟨a * 3 + t, by omega⟩ ⟨b * 3 + r, by omega⟩ =
      if (t : ℕ) = (r : ℕ) then (three y0 y1 y2 t).get a b else 0 := by
    intro t
    exact sg a b t r ha hb t.2 r.2
  rw [Finset.sum_congr rfl (fun t _ => by rw [hent t])]
  rw [Finset.sum_eq_single r]
  · rw [if_pos rfl]
  · intro t _ ht
    rw [if_neg (fun h => ht (Fin.ext h)), mul_zero]
  · intro h; exact absurd (Finset.mem_univ _) h

theorem abc_seq_entry {p q : ℕ} (hp : p < 3) (hq : q < 3) :
    ∑ s ∈ range 3, abcBlock.get p s * seqBlock.get s q = if p = q then 1 else 0 := by
  have h0 := rot_sum
  have h1 := rot_mul_neg
  have h2 := rot_sq
  have h3 := rot_neg_sq
  rw [Finset.sum_range_succ, Finset.sum_range_succ, Finset.sum_range_one]
  unfold abcBlock seqBlock
  interval_cases p <;> interval_cases q <;> simp [Arr2.ofFn_get'] <;> grind

theorem seq_abc_entry {p q : ℕ} (hp : p < 3) (hq : q < 3) :
    ∑ s ∈ range 3, seqBlock.get p s * abcBlock.get s q = if p = q then 1 else 0 := by
  have h0 := rot_sum
  have h1 := rot_mul_neg
  have h2 := rot_sq
  have h3 := rot_neg_sq
  rw [Finset.sum_range_succ, Finset.sum_range_succ, Finset.sum_range_one]
  unfold abcBlock seqBlock
  interval_cases p <;> interval_cases q <;> simp [Arr2.ofFn_get'] <;> grind

theorem phaseForm_unique {k : ℕ} {ys : ℕ → Arr2 ℂ} {Y Z : Arr2 ℂ} (h1 : PhaseForm k ys Y) (h2 : PhaseForm k ys Z) : Y = Z := by
  refine Arr2.ext' (by rw [h1.1.1, h2.1.1]) (by rw [h1.1.2, h2.1.2]) ?_
  intro i j hi hj
  rw [h1.1.1] at hi
  rw [h1.1.2] at hj
  have := h1.2 (i / 3) (j / 3) (i % 3) (j % 3) (by omega) (by omega) (by omega) (by omega)
  have h' := h2.2 (i / 3) (j / 3) (i % 3) (j % 3) (by omega) (by omega) (by omega) (by omega)
  rw [show i / 3 * 3 + i % 3 = i by omega, show j / 3 * 3 + j % 3 = j by omega] at this h'
  rw [this, h']

/-- conversion to sequence coordinates and the three sub-matrices -/
theorem phaseForm_stride {k : ℕ} {y0 y1 y2 Y : Arr2 ℂ} (h0 : Spec.IsSquare k y0) (h1 : Spec.IsSquare k y1)
    (h2 : Spec.IsSquare k y2) (hY : PhaseForm k (three y0 y1 y2) Y) :
    ∃ s, admittancePhaseToSequence Y = .ok s ∧ s.stride3 0 = y0 ∧ s.stride3 1 = y1 ∧ s.stride3 2 = y2 := by
  obtain ⟨Z, hZ, hZf⟩ := phaseForm_entries k h0 h1 h2
  have e := phaseForm_unique hY hZf
  subst e
  obtain ⟨s, hs, ssq, sg⟩ := sequenceBus_ok k h0 h1 h2
  simp only [makeYBus3, hs, bind, Except.bind] at hZ
  obtain ⟨⟨p, hp, -, hback⟩, -⟩ := C61_admittance k s ssq
  rw [hZ] at hp
  cases hp
  have hst : ∀ (y : Arr2 ℂ) (r : ℕ), r < 3 → Spec.IsSquare k y → (if r = 0 then y0 else if r = 1 then y1 else y2) = y →
      s.stride3 r = y := by
    intro y r hr hy he
    have hd : (k * 3 + 2 - r) / 3 = k := by omega
    refine Arr2.ofFn_eq (by rw [hy.1, ssq.1, hd]) (by rw [hy.2, ssq.2, hd]) ?_
    intro i j hi hj
    rw [ssq.1, hd] at hi
    rw [ssq.2, hd] at hj
    have := sg i j r r hi hj hr hr
    rw [if_pos rfl, he, mul_comm i 3, mul_comm j 3] at this
    exact this
  exact ⟨s, hback, hst y0 0 (by omega) h0 rfl, hst y1 1 (by omega) h1 rfl, hst y2 2 (by omega) h2 rfl⟩

/-! ### currents in sequence coordinates -/

/-- sequence voltages: `v` times the blocks of `t_abc` -/
def seqVolt (v : ℕ → ℂ) (s : ℕ) (a : ℕ) : ℂ := ∑ p ∈ range 3, v (a * 3 + p) * abcBlock.get p s

theorem sum_triples (k : ℕ) (f : ℕ → ℂ) : ∑ i ∈ range (k * 3), f i = ∑ a ∈ range k, ∑ p ∈ range 3, f (a * 3 + p) := by
  induction k with
  | zero => simp
  | succ k ih =>
    rw [Finset.sum_range_succ, ← ih, show (k + 1) * 3 = k * 3 + 3 by omega, Finset.sum_range_add]

theorem phaseForm_currents {k : ℕ} {ys : ℕ → Arr2 ℂ} {Y : Arr2 ℂ} (hY : PhaseForm k ys Y) (hk : ∀ s, (ys s).r = k) (v : ℕ → ℂ) {b q : ℕ} (hb : b < k)
    (hq : q < 3) : Spec.currents Y v (b * 3 + q) = ∑ s ∈ range 3, Spec.currents (ys s) (seqVolt v s) b * seqBlock.get s q := by
  unfold Spec.currents
  rw [hY.1.1, sum_triples]
  simp only [hk, Finset.sum_mul]
  rw [Finset.sum_comm (s := range 3)]
  refine Finset.sum_congr rfl (fun a ha => ?_)
  rw [Finset.sum_congr rfl (fun p hp => by
    rw [hY.2 a b p q (Finset.mem_range.1 ha) hb (Finset.mem_range.1 hp) hq, Finset.mul_sum])]
  rw [Finset.sum_comm]
  refine Finset.sum_congr rfl (fun s _ => ?_)
  unfold seqVolt
  rw [Finset.sum_mul, Finset.sum_mul]
  exact Finset.sum_congr rfl (fun p _ => by ring)

/-- and back -/
theorem phaseForm_seqCurrents {k : ℕ} {ys : ℕ → Arr2 ℂ} {Y : Arr2 ℂ} (hY : PhaseForm k ys Y) (hk : ∀ s, (ys s).r = k) (v : ℕ → ℂ)
    {b s : ℕ} (hb : b < k) (hs : s < 3) :
    Spec.currents (ys s) (seqVolt v s) b = ∑ q ∈ range 3, Spec.currents Y v (b * 3 + q) * abcBlock.get q s := by
  rw [Finset.sum_congr rfl (fun q hq => by rw [phaseForm_currents hY hk v hb (Finset.mem_range.1 hq), Finset.sum_mul])]
  rw [Finset.sum_comm]
  rw [Finset.sum_congr rfl (fun r hr => by
    rw [Finset.sum_congr rfl (fun q _ => mul_assoc _ _ _), ← Finset.mul_sum, seq_abc_entry (Finset.mem_range.1 hr) hs])]
  rw [Finset.sum_eq_single s]
  · rw [if_pos rfl, mul_one]
  · intro r _ hr; rw [if_neg hr, mul_zero]
  · intro h; exact absurd (Finset.mem_range.2 hs) h

/-- `red` gives the phase currents at the nodes `K` of the three-phase network `y`, whenever the voltages of the nodes `C` are zero
on all phases and the phase currents of the nodes `s ∈ S` are `-d s` times the phase voltages -/
def Spec.Grounded3 (y : Arr2 ℂ) (d : ℕ → ℂ) (C S : Finset ℕ) (K : List ℕ) (red : Arr2 ℂ) : Prop :=
  red.r = K.length * 3 ∧ red.c = K.length * 3 ∧
  ∀ v : ℕ → ℂ, (∀ c ∈ C, ∀ p < 3, v (c * 3 + p) = 0) →
    (∀ s ∈ S, ∀ p < 3, Spec.currents y v (s * 3 + p) = - (d s * v (s * 3 + p))) →
    ∀ b, b < K.length → ∀ p < 3,
      Spec.currents red (fun i => v (K.getD (i / 3) 0 * 3 + i % 3)) (b * 3 + p) = Spec.currents y v (K.getD b 0 * 3 + p)

theorem grounded3_of_seq {k : ℕ} {y0 y1 y2 Y : Arr2 ℂ} (h0 : Spec.IsSquare k y0) (h1 : Spec.IsSquare k y1) (h2 : Spec.IsSquare k y2)
    (hY : PhaseForm k (three y0 y1 y2) Y) {d : ℕ → ℂ} {C S : Finset ℕ} {K : List ℕ} (hC : ∀ c ∈ C, c < k) (hS : ∀ s ∈ S, s < k)
    (hK : ∀ b, b < K.length → K.getD b 0 < k) {r0 r1 r2 : Arr2 ℂ} (g0 : Spec.Grounded y0 d C S K r0) (g1 : Spec.Grounded y1 d C S K r1)
    (g2 : Spec.Grounded y2 d C S K r2) : ∃ red, makeYBus3 r0 r1 r2 = .ok red ∧ Spec.Grounded3 Y d C S K red := by
  obtain ⟨red, hred, hF⟩ := phaseForm_entries K.length (y0 := r0) (y1 := r1) (y2 := r2) ⟨g0.1, g0.2.1⟩ ⟨g1.1, g1.2.1⟩ ⟨g2.1, g2.2.1⟩
  refine ⟨red, hred, hF.1.1, hF.1.2, ?_⟩
  intro v hv hi b hb p hp
  have hk : ∀ s, (three y0 y1 y2 s).r = k := three_forall (P := fun y => y.r = k) h0.1 h1.1 h2.1
  have hr : ∀ s, (three r0 r1 r2 s).r = K.length := three_forall (P := fun y => y.r = K.length) g0.1 g1.1 g2.1
  have hg : ∀ s, Spec.Grounded (three y0 y1 y2 s) d C S K (three r0 r1 r2 s) := by
    intro s
    unfold three
    by_cases h : s = 0
    · rw [if_pos h, if_pos h]; exact g0
    · rw [if_neg h, if_neg h]
      by_cases h' : s = 1
      · rw [if_pos h', if_pos h']; exact g1
      · rw [if_neg h', if_neg h']; exact g2
  rw [phaseForm_currents hF hr _ hb hp, phaseForm_currents hY hk v (hK b hb) hp]
  refine Finset.sum_congr rfl (fun s hs => ?_)
  have hs' := Finset.mem_range.1 hs
  congr 1
  have hvs : ∀ a, a < K.length → seqVolt (fun i => v (K.getD (i / 3) 0 * 3 + i % 3)) s a = seqVolt v s (K.getD a 0) := by
    intro a _
    unfold seqVolt
    refine Finset.sum_congr rfl (fun q hq => ?_)
    have := Finset.mem_range.1 hq
    beta_reduce
    rw [show (a * 3 + q) / 3 = a by omega, show (a * 3 + q) % 3 = q by omega]
  have := (hg s).2.2 (seqVolt v s) ?_ ?_ b hb
  · rw [← this]
    unfold Spec.currents
    rw [hr s]
    exact Finset.sum_congr rfl (fun a ha => by rw [hvs a (Finset.mem_range.1 ha)])
  · intro c hc
    unfold seqVolt
    exact Finset.sum_eq_zero (fun q hq => by rw [hv c hc q (Finset.mem_range.1 hq), zero_mul])
  · intro n hn
    rw [phaseForm_seqCurrents hY hk v (hS n hn) hs']
    unfold seqVolt
    rw [Finset.mul_sum, ← Finset.sum_neg_distrib]
    exact Finset.sum_congr rfl (fun q hq => by rw [hi n hn q (Finset.mem_range.1 hq)]; ring)

/-! ### the stages of the model -/

/-- one grid connection -/
theorem single_grid {bs : List BusData} {net : Net} (hn : (bs.map BusData.id).Nodup) (hb : net.bus = bs.map busRow)
    (he : net.extGrid = bs.flatMap extRows) {p : ℕ} (hp : Spec.connections bs = {p}) (y : Arr2 ℂ) :
    deleteGrids net y = (y.deleteBoth [3 * p, 3 * p + 1, 3 * p + 2]).map (fun y => ([3 * p, 3 * p + 1, 3 * p + 2], y)) := by
  have hidx : net.bus.map BusRow.index = bs.map BusData.id := by rw [hb, List.map_map]; rfl
  have hsub : ∀ b ∈ net.extGrid, b ∈ bs.map BusData.id := by
    intro b h
    rw [he] at h
    obtain ⟨c, hc, hbc⟩ := List.mem_flatMap.1 h
    unfold extRows at hbc
    split at hbc
    · rw [List.mem_singleton.1 hbc]; exact List.mem_map_of_mem hc
    · simp at hbc
  obtain ⟨C, hC, hCn, hCm⟩ := positions_ext hn hb he
  obtain ⟨C', hC', hCe, -⟩ := positions_eq hn hb net.extGrid hsub
  rw [hC] at hC'
  cases hC'
  have h1 : C.toFinset = {p} := by ext k; rw [List.mem_toFinset, hCm, hp]
  have h2 : C.length = 1 := by rw [← List.toFinset_card_of_nodup hCn, h1, Finset.card_singleton]
  have h3 : net.extGrid.length = 1 := by rw [hCe, List.length_map] at h2; exact h2
  obtain ⟨b, hbe⟩ := List.length_eq_one_iff.1 h3
  have h4 : net.posOf b = p := by
    rw [hbe] at hCe
    have : net.posOf b ∈ C.toFinset := by rw [hCe]; simp
    rw [h1, Finset.mem_singleton] at this
    exact this
  have h5 : net.busPos b = .ok p := by
    unfold Net.busPos
    rw [if_pos (by rw [hidx]; exact hsub b (by rw [hbe]; simp)), h4]
  unfold deleteGrids
  rw [hbe, forIn'_cons]
  simp only [h5, bind, Except.bind, pure, Except.pure, List.nil_append]
  cases y.deleteBoth [3 * p, 3 * p + 1, 3 * p + 2] with
  | error e => rfl
  | ok z => simp [forIn', Except.map, pure, Except.pure]

theorem keep_last (m : ℕ) : Arr2.keepIdx ((m + 1) * 3) [3 * m, 3 * m + 1, 3 * m + 2] = List.range (m * 3) := by
  unfold Arr2.keepIdx
  rw [show (m + 1) * 3 = m * 3 + 3 by omega, List.range_add, List.filter_append]
  rw [List.filter_eq_self.2 (by intro k hk; rw [List.mem_range] at hk; simp; omega)]
  rw [List.filter_eq_nil_iff.2 (by
    intro k hk
    rw [List.mem_map] at hk
    obtain ⟨a, ha, rfl⟩ := hk
    rw [List.mem_range] at ha
    simp
    omega), List.append_nil]

theorem keep_last1 (m : ℕ) : Arr2.keepIdx (m + 1) [m] = List.range m := by
  unfold Arr2.keepIdx
  rw [List.range_succ, List.filter_append, List.filter_eq_self.2 (by intro k hk; rw [List.mem_range] at hk; simp; omega)]
  simp

theorem getD_range {m i : ℕ} (h : i < m) : (List.range m).getD i 0 = i := by
  rw [List.getD_eq_getElem _ _ (by simpa using h), List.getElem_range]

/-- deletion of the last node -/
theorem deleteBoth_last {m : ℕ} {Y : Arr2 ℂ} (hY : Spec.IsSquare ((m + 1) * 3) Y) :
    Y.deleteBoth [3 * m, 3 * m + 1, 3 * m + 2] = .ok (Arr2.ofFn (m * 3) (m * 3) Y.get) := by
  unfold Arr2.deleteBoth
  rw [if_pos, hY.1, hY.2, keep_last, List.length_range]
  · congr 1
    refine Arr2.ofFn_eq rfl rfl (fun i j hi hj => ?_)
    rw [getD_range hi, getD_range hj, Arr2.ofFn_get _ hi hj]
  · rw [hY.1, hY.2]
    constructor <;> (intro k hk; simp at hk; omega)

open Classical in
/-- positions passive on all phases -/
theorem reducedPassive_same {bs : List BusData} {net : Net} (hn : (bs.map BusData.id).Nodup) (hb : net.bus = bs.map busRow)
    {rs : Bool} (hsame : rs = true → Spec.passive bs 1 = Spec.passive bs 0 ∧ Spec.passive bs 2 = Spec.passive bs 0) :
    ∃ P, (∀ ph, net.positions (reducedPassive (fun ph => (bs.filter (fun b => Spec.Passive b ph)).map BusData.id) rs ph) = .ok P) ∧
      ∀ k, k ∈ P ↔ k ∈ Spec.passive bs 0 ∩ (Spec.passive bs 1 ∩ Spec.passive bs 2) := by
  have hsub : ∀ ph, ∀ b ∈ (bs.filter (fun b => Spec.Passive b ph)).map BusData.id, b ∈ bs.map BusData.id := by
    intro ph b hb
    obtain ⟨c, hc, rfl⟩ := List.mem_map.1 hb
    exact List.mem_map_of_mem (List.mem_filter.1 hc).1
  cases rs with
  | true =>
    obtain ⟨e1, e2⟩ := hsame rfl
    have hpt : ∀ ph, Spec.passive bs ph = Spec.passive bs 0 → (bs.filter (fun b => Spec.Passive b ph)).map BusData.id =
        (bs.filter (fun b => Spec.Passive b 0)).map BusData.id := by
      intro ph he
      congr 1
      apply List.filter_congr
      intro b hbm
      obtain ⟨i, hi, rfl⟩ := List.getElem_of_mem hbm
      have : i ∈ Spec.passive bs ph ↔ i ∈ Spec.passive bs 0 := by rw [he]
      unfold Spec.passive at this
      simp only [Finset.mem_filter, Finset.mem_range, hi, true_and, List.getElem?_eq_getElem hi, Option.some.injEq,
        exists_eq_left'] at this
      exact decide_eq_decide.2 this
    obtain ⟨P, hP, -, hPm⟩ := positions_eq hn hb _ (hsub 0)
    refine ⟨P, ?_, fun k => ?_⟩
    · intro ph
      unfold reducedPassive
      rw [if_pos rfl]
      have : Spec.passive bs ph = Spec.passive bs 0 := by
        fin_cases ph
        · rfl
        · exact e1
        · exact e2
      rw [hpt ph this]
      exact hP
    · rw [hPm, labelled_passive hn, e1, e2, Finset.inter_self, Finset.inter_self]
  | false =>
    set l := reducedPassive (fun ph => (bs.filter (fun b => Spec.Passive b ph)).map BusData.id) false 0 with hl
    have hmem : ∀ b, b ∈ l ↔ ∀ ph, b ∈ (bs.filter (fun b => Spec.Passive b ph)).map BusData.id := by
      intro b
      rw [hl]
      unfold reducedPassive
      simp only [Bool.false_eq_true, if_false]
      rw [List.mem_mergeSort, List.mem_filter, List.mem_dedup]
      constructor
      · rintro ⟨h0, h12⟩ ph
        have h12' := of_decide_eq_true h12
        fin_cases ph
        · exact h0
        · exact h12'.1
        · exact h12'.2
      · intro h
        exact ⟨h 0, decide_eq_true ⟨h 1, h 2⟩⟩
    obtain ⟨P, hP, -, hPm⟩ := positions_eq hn hb l (fun b hb => hsub 0 b ((hmem b).1 hb 0))
    refine ⟨P, ?_, fun k => ?_⟩
    · intro ph
      have : reducedPassive (fun ph => (bs.filter (fun b => Spec.Passive b ph)).map BusData.id) false ph = l := by
        rw [hl]; unfold reducedPassive; rfl
      rw [this]
      exact hP
    · rw [hPm, Finset.mem_inter, Finset.mem_inter, ← labelled_passive hn, ← labelled_passive hn, ← labelled_passive hn]
      unfold Spec.labelled
      simp only [Finset.mem_filter, hmem]
      constructor
      · rintro ⟨hk, b, hb, h⟩
        exact ⟨⟨hk, b, hb, h 0⟩, ⟨hk, b, hb, h 1⟩, ⟨hk, b, hb, h 2⟩⟩
      · rintro ⟨⟨hk, b, hb, h0⟩, ⟨-, b1, hb1, h1⟩, -, b2, hb2, h2⟩
        rw [hb] at hb1 hb2
        cases hb1
        cases hb2
        refine ⟨hk, b, hb, fun ph => ?_⟩
        fin_cases ph
        · exact h0
        · exact h1
        · exact h2

/-- `y` with the admittances `d`, without the last node -/
def shrunk (m : ℕ) (d : ℕ → ℂ) (y : Arr2 ℂ) : Arr2 ℂ := Arr2.ofFn m m (fun i j => y.get i j + if i = j then d i else 0)

theorem shrunk_phaseForm {m : ℕ} {y0 y1 y2 Y : Arr2 ℂ} (hY : PhaseForm (m + 1) (three y0 y1 y2) Y) (d : ℕ → ℂ) {Z : Arr2 ℂ}
    (hZ : Spec.IsSquare (m * 3) Z) (hZg : ∀ a b p q, a < m → b < m → p < 3 → q < 3 → Z.get (a * 3 + p) (b * 3 + q) =
      Y.get (a * 3 + p) (b * 3 + q) + if a = b ∧ p = q then d a else 0) :
    PhaseForm m (three (shrunk m d y0) (shrunk m d y1) (shrunk m d y2)) Z := by
  refine ⟨hZ, ?_⟩
  intro a b p q ha hb hp hq
  rw [hZg a b p q ha hb hp hq, hY.2 a b p q (by omega) (by omega) hp hq]
  have hg : ∀ s, (three (shrunk m d y0) (shrunk m d y1) (shrunk m d y2) s).get a b =
      (three y0 y1 y2 s).get a b + if a = b then d a else 0 := by
    intro s
    unfold three
    by_cases h : s = 0
    · rw [if_pos h, if_pos h]; exact Arr2.ofFn_get _ ha hb
    · rw [if_neg h, if_neg h]
      by_cases h' : s = 1
      · rw [if_pos h', if_pos h']; exact Arr2.ofFn_get _ ha hb
      · rw [if_neg h', if_neg h']; exact Arr2.ofFn_get _ ha hb
  simp only [hg, mul_add, add_mul, Finset.sum_add_distrib]
  congr 1
  by_cases hab : a = b
  · simp only [if_pos hab]
    rw [Finset.sum_congr rfl (fun s _ => mul_right_comm _ _ _), ← Finset.sum_mul, abc_seq_entry hp hq]
    by_cases hpq : p = q
    · rw [if_pos ⟨hab, hpq⟩, if_pos hpq, one_mul]
    · rw [if_neg (fun h => hpq h.2), if_neg hpq, zero_mul]
  · simp [hab]

open Classical in
/-- the reduction of a three-phase network, with the reduced sequence matrices -/
theorem reduce3_exact {ts : List String} {bs : List BusData} {ls : Option (List LineData)} {net : Net}
    (h : netData3 ts (some bs) ls = .ok net) {pinv : Arr2 ℂ → Except PyErr (Arr2 ℂ)} (hpinv : Spec.PinvContract pinv)
    {y0 y1 y2 Y voltage current : Arr2 ℂ} (h0 : Spec.IsSquare bs.length y0) (h1 : Spec.IsSquare bs.length y1)
    (h2 : Spec.IsSquare bs.length y2) (hY : makeYBus3 y0 y1 y2 = .ok Y) (hvc : voltage.c = bs.length * 3)
    (hic : current.c = bs.length * 3) {hidden : List Int} (hid : ∀ b ∈ hidden, b ∈ bs.map BusData.id) {rs : Bool}
    (hsame : rs = true → Spec.passive bs 1 = Spec.passive bs 0 ∧ Spec.passive bs 2 = Spec.passive bs 0)
    (hlast : Spec.connections bs = {bs.length - 1}) (hhid : bs.length - 1 ∉ Spec.labelled bs hidden) {d : ℕ → ℂ}
    (hd : ∀ k ∈ Spec.labelled bs hidden, ∀ p < 3, colMean voltage (k * 3 + p) ≠ 0 ∧
      colMean current (k * 3 + p) / colMean voltage (k * 3 + p) = d k)
    (hd0 : ∀ k, k ∉ Spec.labelled bs hidden → d k = 0)
    (hns : ∀ y, (y = y0 ∨ y = y1 ∨ y = y2) → Spec.BlockNonsingular (Spec.withShunts y d)
      (Spec.labelled bs hidden ∪ Spec.passive bs 0 ∩ (Spec.passive bs 1 ∩ Spec.passive bs 2))) :
    ∃ todel red K, reduceNetwork3 pinv net Y voltage current hidden rs = .ok (todel, red) ∧
      (∀ i, i ∈ todel ↔ i / 3 ∈ Spec.labelled bs hidden ∪ Spec.passive bs 0 ∩ (Spec.passive bs 1 ∩ Spec.passive bs 2) ∪
        Spec.connections bs) ∧
      Spec.Lists bs.length (Spec.labelled bs hidden ∪ Spec.passive bs 0 ∩ (Spec.passive bs 1 ∩ Spec.passive bs 2) ∪
        Spec.connections bs) K ∧
      Spec.Grounded3 Y d (Spec.connections bs)
        (Spec.labelled bs hidden ∪ Spec.passive bs 0 ∩ (Spec.passive bs 1 ∩ Spec.passive bs 2)) K red ∧
      (bs.length - 1 ≤ 8 ∨ 3 * (bs.length - 1) ≤ 5 * K.length → K.Pairwise (· < ·)) ∧
      ∃ r0 r1 r2, makeYBus3 r0 r1 r2 = .ok red ∧ Spec.IsSquare K.length r0 ∧ Spec.IsSquare K.length r1 ∧ Spec.IsSquare K.length r2 ∧
        (y1 = y2 → r1 = r2) ∧ ∀ l : Fin 3, Spec.Grounded (![y0, y1, y2] l) d (Spec.connections bs)
          (Spec.labelled bs hidden ∪ Spec.passive bs 0 ∩ (Spec.passive bs 1 ∩ Spec.passive bs 2)) K (![r0, r1, r2] l) := by
  obtain ⟨hn, hb, -, -, hext⟩ := netData3_tables h
  obtain ⟨P, hP, hPm⟩ := reducedPassive_same hn hb hsame
  obtain ⟨H, hH, -, hHm⟩ := positions_eq hn hb hidden hid
  have hpos : bs.length - 1 < bs.length := connections_lt (by rw [hlast]; simp)
  obtain ⟨m, hm⟩ : ∃ m, bs.length = m + 1 := ⟨bs.length - 1, by omega⟩
  have hm1 : bs.length - 1 = m := by omega
  rw [hm1] at hlast hhid
  set S := Spec.labelled bs hidden ∪ Spec.passive bs 0 ∩ (Spec.passive bs 1 ∩ Spec.passive bs 2) with hS
  have hSlt : ∀ k ∈ S, k < m := by
    intro k hk
    rw [hS, Finset.mem_union, Finset.mem_inter] at hk
    rcases hk with hk | hk
    · have := labelled_lt hk
      have h' : k ≠ m := fun e => hhid (e ▸ hk)
      omega
    · have := passive_lt hk.1
      have h' : k ≠ m := fun e => passive_not_connection hk.1 (by rw [hlast, e]; simp)
      omega
  have hHlt : ∀ k ∈ H, k < m := fun k hk => hSlt k (Finset.mem_union_left _ ((hHm k).1 hk))
  obtain ⟨Y', hY', hF⟩ := phaseForm_entries bs.length h0 h1 h2
  rw [hY] at hY'
  cases hY'
  have hFm : PhaseForm (m + 1) (three y0 y1 y2) Y := hm ▸ hF
  -- the shunts
  have hpm : ∀ (a b p q : ℕ), p < 3 → q < 3 → (a * 3 + p = b * 3 + q ↔ a = b ∧ p = q) := by intros; omega
  set idx3 := H.map (3 * ·) ++ H.map (3 * · + 1) ++ H.map (3 * · + 2) with hidx3
  have hidx3m : ∀ i, i ∈ idx3 ↔ i / 3 ∈ H := by
    intro i
    rw [hidx3, List.mem_append, List.mem_append, List.mem_map, List.mem_map, List.mem_map]
    constructor
    · rintro ((⟨k, hk, rfl⟩ | ⟨k, hk, rfl⟩) | ⟨k, hk, rfl⟩)
      · rw [show 3 * k / 3 = k by omega]; exact hk
      · rw [show (3 * k + 1) / 3 = k by omega]; exact hk
      · rw [show (3 * k + 2) / 3 = k by omega]; exact hk
    · intro hi
      rcases (show i % 3 = 0 ∨ i % 3 = 1 ∨ i % 3 = 2 by omega) with e | e | e
      · exact Or.inl (Or.inl ⟨i / 3, hi, by omega⟩)
      · exact Or.inl (Or.inr ⟨i / 3, hi, by omega⟩)
      · exact Or.inr ⟨i / 3, hi, by omega⟩
  set Y1 : Arr2 ℂ := Arr2.ofFn (m * 3) (m * 3) Y.get with hY1
  have hadd : addShunts Y1 voltage current idx3 = .ok (Arr2.ofFn (m * 3) (m * 3) (fun i j => Y1.get i j +
      if i = j ∧ i ∈ idx3 then shuntAt voltage current i else 0)) := by
    unfold addShunts
    rw [if_pos, if_neg]
    · rfl
    · rintro ⟨i, hi, h0⟩
      have := (hd (i / 3) ((hHm _).1 ((hidx3m i).1 hi)) (i % 3) (by omega)).1
      rw [show i / 3 * 3 + i % 3 = i by omega] at this
      exact this h0
    · intro i hi
      have := hHlt _ ((hidx3m i).1 hi)
      refine ⟨?_, by omega, by omega⟩
      show i < m * 3
      omega
  set Y2 : Arr2 ℂ := Arr2.ofFn (m * 3) (m * 3) (fun i j => Y1.get i j + if i = j ∧ i ∈ idx3 then shuntAt voltage current i else 0) with hY2
  have hF2 : PhaseForm m (three (shrunk m d y0) (shrunk m d y1) (shrunk m d y2)) Y2 := by
    refine shrunk_phaseForm hFm d ⟨rfl, rfl⟩ ?_
    intro a b p q ha hb' hp hq
    have e1 : a * 3 + p < m * 3 := by omega
    have e2 : b * 3 + q < m * 3 := by omega
    rw [hY2, Arr2.ofFn_get _ e1 e2, hY1, Arr2.ofFn_get _ e1 e2]
    congr 1
    have hdiv : (a * 3 + p) / 3 = a := by omega
    by_cases hab : a = b ∧ p = q
    · rw [if_pos hab]
      by_cases haH : a ∈ H
      · rw [if_pos ⟨(hpm a b p q hp hq).2 hab, (hidx3m _).2 (by rw [hdiv]; exact haH)⟩]
        exact (hd a ((hHm a).1 haH) p hp).2
      · rw [if_neg (fun h => haH (by have := (hidx3m _).1 h.2; rwa [hdiv] at this)), hd0 a (fun h => haH ((hHm a).2 h))]
    · rw [if_neg (fun h => hab ((hpm a b p q hp hq).1 h.1)), if_neg hab]
  have hsq : ∀ y, Spec.IsSquare m (shrunk m d y) := fun y => ⟨rfl, rfl⟩
  obtain ⟨sq, hseq, st0, st1, st2⟩ := phaseForm_stride (hsq y0) (hsq y1) (hsq y2) hF2
  -- Kron reduction of the three sequences
  have hidxS : ∀ k, k ∈ P ++ H ↔ ∃ s ∈ S, Spec.rank ([m] : List ℕ).toFinset s = k := by
    intro k
    have hrk : ∀ s ∈ S, Spec.rank ([m] : List ℕ).toFinset s = s := by
      intro s hs
      refine rank_before (fun c hc => ?_)
      rw [List.mem_toFinset, List.mem_singleton] at hc
      have := hSlt s hs
      omega
    rw [List.mem_append, hPm, hHm]
    constructor
    · rintro (hk | hk)
      · exact ⟨k, Finset.mem_union_right _ hk, hrk k (Finset.mem_union_right _ hk)⟩
      · exact ⟨k, Finset.mem_union_left _ hk, hrk k (Finset.mem_union_left _ hk)⟩
    · rintro ⟨s, hs, rfl⟩
      rw [hrk s hs]
      rcases Finset.mem_union.1 hs with h | h
      · exact Or.inr h
      · exact Or.inl h
  set K := (PySet.complement m (P ++ H)).map (fun a => (Arr2.keepIdx bs.length [m]).getD a 0) with hKd
  have hkron : ∀ y, Spec.IsSquare bs.length y → Spec.BlockNonsingular (Spec.withShunts y d) S →
      ∃ red, kronReduction pinv (P ++ H) (shrunk m d y) = .ok red ∧ Spec.Lists bs.length (S ∪ ([m] : List ℕ).toFinset) K ∧
        Spec.Grounded y d ([m] : List ℕ).toFinset S K red := by
    intro y hy hnsy
    have hkl : (Arr2.keepIdx bs.length [m]) = List.range m := by rw [hm]; exact keep_last1 m
    refine grounded_of_kron hpinv hy.1 (C := [m]) (by simp) (by simp; omega) (S := S) (fun s hs => ⟨by have := hSlt s hs; omega, by
      have := hSlt s hs
      simp; omega⟩) (y2 := shrunk m d y) (by rw [hkl, List.length_range]; rfl) (by rw [hkl, List.length_range]; rfl) ?_ hidxS ?_ hnsy hy.2
    · intro a b ha hb'
      have ha' : a < m := ha
      have hb'' : b < m := hb'
      rw [hkl, getD_range ha', getD_range hb'']
      exact Arr2.ofFn_get _ ha' hb''
    · intro k _ _ hkS
      exact hd0 k (fun hk => hkS (Finset.mem_union_left _ hk))
  obtain ⟨r0, hr0, hL, g0⟩ := hkron y0 h0 (hns y0 (Or.inl rfl))
  obtain ⟨r1, hr1, -, g1⟩ := hkron y1 h1 (hns y1 (Or.inr (Or.inl rfl)))
  obtain ⟨r2, hr2, -, g2⟩ := hkron y2 h2 (hns y2 (Or.inr (Or.inr rfl)))
  have htf : ([m] : List ℕ).toFinset = Spec.connections bs := by rw [hlast]; simp
  rw [htf] at hL g0 g1 g2
  obtain ⟨red, hred, hG⟩ := grounded3_of_seq h0 h1 h2 hF (C := Spec.connections bs) (S := S) (K := K)
    (fun c hc => connections_lt hc) (fun s hs => by have := hSlt s hs; omega)
    (fun b hb' => ((hL.2 _).1 (getD_mem hb')).1) g0 g1 g2
  refine ⟨[3 * m, 3 * m + 1, 3 * m + 2] ++ (P ++ H).map (3 * ·) ++ (P ++ H).map (3 * · + 1) ++ (P ++ H).map (3 * · + 2), red, K,
    ?_, ?_, hL, hG, ?_, r0, r1, r2, hred, ⟨g0.1, g0.2.1⟩, ⟨g1.1, g1.2.1⟩, ⟨g2.1, g2.2.1⟩, ?_, ?_⟩
  · unfold reduceNetwork3
    rw [single_grid hn hb hext hlast, deleteBoth_last hFm.1]
    simp only [Except.map, bind, Except.bind, C64_three h, pure, Except.pure, hP, hH]
    rw [← hidx3, ← hY1, hadd]
    simp only [hseq, st0, st1, st2, hr0, hr1, hr2]
    unfold makeYBus3 at hred
    simp only [bind, Except.bind] at hred
    split at hred
    · cases hred
    · rename_i sb hsb
      simp only [hsb, hred]
  · intro i
    have hPH : ∀ k, k ∈ P ++ H ↔ k ∈ S := by
      intro k
      rw [List.mem_append, hPm, hHm, hS, Finset.mem_union]
      tauto
    rw [Finset.mem_union, hlast, Finset.mem_singleton, ← hPH]
    rw [List.mem_append, List.mem_append, List.mem_append, List.mem_map, List.mem_map, List.mem_map]
    constructor
    · rintro (((hi | ⟨k, hk, rfl⟩) | ⟨k, hk, rfl⟩) | ⟨k, hk, rfl⟩)
      · right; simp at hi; omega
      · left; rw [show 3 * k / 3 = k by omega]; exact hk
      · left; rw [show (3 * k + 1) / 3 = k by omega]; exact hk
      · left; rw [show (3 * k + 2) / 3 = k by omega]; exact hk
    · rintro (hi | hi)
      · rcases (show i % 3 = 0 ∨ i % 3 = 1 ∨ i % 3 = 2 by omega) with e | e | e
        · exact Or.inl (Or.inl (Or.inr ⟨i / 3, hi, by omega⟩))
        · exact Or.inl (Or.inr ⟨i / 3, hi, by omega⟩)
        · exact Or.inr ⟨i / 3, hi, by omega⟩
      · left; left; left
        simp
        omega
  · intro hsz
    rw [hm1, hKd, List.length_map] at hsz
    have hs : PySet.complement m (P ++ H) = PySet.kept m (P ++ H) := by
      refine PySet.complement_sorted _ _ ?_
      rw [← (PySet.complement_perm m (P ++ H)).length_eq]
      exact hsz
    rw [hKd, hs, List.pairwise_map]
    refine (PySet.kept_sorted m (P ++ H)).imp_of_mem ?_
    intro a b _ hb' hab
    have hbm : b < m := ((lists_kept m (P ++ H)).2 b).1 hb' |>.1
    refine keep_increasing ?_ hab
    rw [hm, keep_last1, List.length_range]
    exact hbm
  · rintro rfl
    rw [hr1] at hr2
    exact Except.ok.inj hr2
  · intro l
    fin_cases l
    · exact g0
    · exact g1
    · exact g2

open Classical in
/-- C95 partial: when the only grid connection is the last bus, the hidden nodes and the nodes passive on all phases are eliminated
exactly, for networks built from sequence matrices and hidden loads with the same admittance on the three phases (and, with
`reduce_single`, networks where each node is passive on all phases or none). Missing: connections elsewhere, unbalanced hidden
loads, partially passive nodes. -/
theorem C95_partial {ts : List String} {bs : List BusData} {ls : Option (List LineData)} {net : Net}
    (h : netData3 ts (some bs) ls = .ok net) {pinv : Arr2 ℂ → Except PyErr (Arr2 ℂ)} (hpinv : Spec.PinvContract pinv)
    {y0 y1 y2 Y voltage current : Arr2 ℂ} (h0 : Spec.IsSquare bs.length y0) (h1 : Spec.IsSquare bs.length y1)
    (h2 : Spec.IsSquare bs.length y2) (hY : makeYBus3 y0 y1 y2 = .ok Y) (hvc : voltage.c = bs.length * 3)
    (hic : current.c = bs.length * 3) {hidden : List Int} (hid : ∀ b ∈ hidden, b ∈ bs.map BusData.id) {rs : Bool}
    (hsame : rs = true → Spec.passive bs 1 = Spec.passive bs 0 ∧ Spec.passive bs 2 = Spec.passive bs 0)
    (hlast : Spec.connections bs = {bs.length - 1}) (hhid : bs.length - 1 ∉ Spec.labelled bs hidden) {d : ℕ → ℂ}
    (hd : ∀ k ∈ Spec.labelled bs hidden, ∀ p < 3, colMean voltage (k * 3 + p) ≠ 0 ∧
      colMean current (k * 3 + p) / colMean voltage (k * 3 + p) = d k)
    (hd0 : ∀ k, k ∉ Spec.labelled bs hidden → d k = 0)
    (hns : ∀ y, (y = y0 ∨ y = y1 ∨ y = y2) → Spec.BlockNonsingular (Spec.withShunts y d)
      (Spec.labelled bs hidden ∪ Spec.passive bs 0 ∩ (Spec.passive bs 1 ∩ Spec.passive bs 2))) :
    ∃ todel red K, reduceNetwork3 pinv net Y voltage current hidden rs = .ok (todel, red) ∧
      (∀ i, i ∈ todel ↔ i / 3 ∈ Spec.labelled bs hidden ∪ Spec.passive bs 0 ∩ (Spec.passive bs 1 ∩ Spec.passive bs 2) ∪
        Spec.connections bs) ∧
      Spec.Lists bs.length (Spec.labelled bs hidden ∪ Spec.passive bs 0 ∩ (Spec.passive bs 1 ∩ Spec.passive bs 2) ∪
        Spec.connections bs) K ∧
      Spec.Grounded3 Y d (Spec.connections bs)
        (Spec.labelled bs hidden ∪ Spec.passive bs 0 ∩ (Spec.passive bs 1 ∩ Spec.passive bs 2)) K red ∧
      (bs.length - 1 ≤ 8 ∨ 3 * (bs.length - 1) ≤ 5 * K.length → K.Pairwise (· < ·)) := by
  obtain ⟨todel, red, K, e1, e2, e3, e4, e5, -⟩ := reduce3_exact h hpinv h0 h1 h2 hY hvc hic hid hsame hlast hhid hd hd0 hns
  exact ⟨todel, red, K, e1, e2, e3, e4, e5⟩

open Classical in
/-- C95 violated: when the only connection is not the last bus and the last bus is hidden, the reduction stops with an `IndexError`,
because the indices are not shifted after the removal of the connection -/
theorem C95_violated {ts : List String} {bs : List BusData} {ls : Option (List LineData)} {net : Net}
    (h : netData3 ts (some bs) ls = .ok net) {pinv : Arr2 ℂ → Except PyErr (Arr2 ℂ)} {Y voltage current : Arr2 ℂ}
    (hY : Spec.IsSquare (bs.length * 3) Y) {hidden : List Int} (hid : ∀ b ∈ hidden, b ∈ bs.map BusData.id) (rs : Bool) {p : ℕ}
    (hp : Spec.connections bs = {p}) (hlast : bs.length - 1 ∈ Spec.labelled bs hidden) :
    reduceNetwork3 pinv net Y voltage current hidden rs = .error .indexError := by
  obtain ⟨hn, hb, -, -, hext⟩ := netData3_tables h
  obtain ⟨H, hH, -, hHm⟩ := positions_eq hn hb hidden hid
  have hpn : p < bs.length := connections_lt (by rw [hp]; simp)
  have hpos : ∀ ph, ∃ P, net.positions (reducedPassive (fun ph => (bs.filter (fun b => Spec.Passive b ph)).map BusData.id) rs ph) = .ok P := by
    intro ph
    have hsub : ∀ ph, ∀ b ∈ (bs.filter (fun b => Spec.Passive b ph)).map BusData.id, b ∈ bs.map BusData.id := by
      intro ph b hb
      obtain ⟨c, hc, rfl⟩ := List.mem_map.1 hb
      exact List.mem_map_of_mem (List.mem_filter.1 hc).1
    obtain ⟨P, hP, -⟩ := positions_eq hn hb (reducedPassive (fun ph => (bs.filter (fun b => Spec.Passive b ph)).map BusData.id) rs ph) (by
      intro b hb
      cases rs with
      | true => exact hsub ph b hb
      | false =>
        unfold reducedPassive at hb
        simp only [Bool.false_eq_true, if_false] at hb
        rw [List.mem_mergeSort, List.mem_filter, List.mem_dedup] at hb
        exact hsub 0 b hb.1)
    exact ⟨P, hP⟩
  obtain ⟨P0, hP0⟩ := hpos 0
  obtain ⟨P1, hP1⟩ := hpos 1
  obtain ⟨P2, hP2⟩ := hpos 2
  have hdel : ∃ y, Y.deleteBoth [3 * p, 3 * p + 1, 3 * p + 2] = .ok y ∧ y.r + 3 = bs.length * 3 := by
    unfold Arr2.deleteBoth
    rw [if_pos]
    · refine ⟨_, rfl, ?_⟩
      show (Arr2.keepIdx Y.r _).length + 3 = _
      rw [hY.1]
      have := keepIdx_length (bs.length * 3) [3 * p, 3 * p + 1, 3 * p + 2] (by simp) (by intro k hk; simp at hk; omega)
      simpa using this
    · rw [hY.1, hY.2]
      constructor <;> (intro k hk; simp at hk; omega)
  obtain ⟨y, hy, hyr⟩ := hdel
  have hadd : addShunts y voltage current (H.map (3 * ·) ++ H.map (3 * · + 1) ++ H.map (3 * · + 2)) = .error .indexError := by
    unfold addShunts
    rw [if_neg]
    intro hall
    have := (hall (3 * (bs.length - 1)) (by
      rw [List.mem_append, List.mem_append]
      exact Or.inl (Or.inl (List.mem_map_of_mem ((hHm _).2 hlast))))).1
    omega
  unfold reduceNetwork3
  rw [single_grid hn hb hext hp, hy]
  simp only [Except.map, bind, Except.bind, C64_three h, hP0, hP1, hP2, hH, hadd]

open Classical in
/-- C96 violated: with `reduce_single` (and no hidden nodes, connection anywhere), a network where the first two phases do not have
the same number of passive nodes cannot be reduced -/
theorem C96_violated {ts : List String} {bs : List BusData} {ls : Option (List LineData)} {net : Net}
    (h : netData3 ts (some bs) ls = .ok net) {pinv : Arr2 ℂ → Except PyErr (Arr2 ℂ)} {Y voltage current : Arr2 ℂ}
    (hY : Spec.IsSquare (bs.length * 3) Y) {p : ℕ} (hp : Spec.connections bs = {p})
    (hne : (Spec.passive bs 0).card ≠ (Spec.passive bs 1).card) (res : List ℕ × Arr2 ℂ) :
    reduceNetwork3 pinv net Y voltage current [] true ≠ .ok res := by
  intro hr
  obtain ⟨hn, hb, -, -, hext⟩ := netData3_tables h
  have hpn : p < bs.length := connections_lt (by rw [hp]; simp)
  have hpos : ∀ ph, ∃ P, net.positions (reducedPassive (fun ph => (bs.filter (fun b => Spec.Passive b ph)).map BusData.id) true ph) = .ok P ∧
      P.toFinset = Spec.passive bs ph := by
    intro ph
    obtain ⟨P, hP, -, hPm⟩ := positions_eq hn hb ((bs.filter (fun b => Spec.Passive b ph)).map BusData.id) (by
      intro b hb
      obtain ⟨c, hc, rfl⟩ := List.mem_map.1 hb
      exact List.mem_map_of_mem (List.mem_filter.1 hc).1)
    refine ⟨P, hP, ?_⟩
    ext k
    rw [List.mem_toFinset, hPm, labelled_passive hn]
  obtain ⟨P0, hP0, e0⟩ := hpos 0
  obtain ⟨P1, hP1, e1⟩ := hpos 1
  obtain ⟨P2, hP2, e2⟩ := hpos 2
  have hdel : ∃ y, Y.deleteBoth [3 * p, 3 * p + 1, 3 * p + 2] = .ok y ∧ y.r = (bs.length - 1) * 3 ∧ y.c = (bs.length - 1) * 3 := by
    unfold Arr2.deleteBoth
    rw [if_pos]
    · have := keepIdx_length (bs.length * 3) [3 * p, 3 * p + 1, 3 * p + 2] (by simp) (by intro k hk; simp at hk; omega)
      simp at this
      refine ⟨_, rfl, ?_, ?_⟩
      · show (Arr2.keepIdx Y.r _).length = _
        rw [hY.1]; omega
      · show (Arr2.keepIdx Y.c _).length = _
        rw [hY.2]; omega
    · rw [hY.1, hY.2]
      constructor <;> (intro k hk; simp at hk; omega)
  obtain ⟨y, hy, hyr, hyc⟩ := hdel
  have hHe : net.positions [] = .ok [] := by unfold Net.positions; rfl
  have hadd : addShunts y voltage current [] = .ok (Arr2.ofFn y.r y.c (fun i j => y.get i j +
      if i = j ∧ i ∈ ([] : List ℕ) then shuntAt voltage current i else 0)) := by
    unfold addShunts
    rw [if_pos (by simp), if_neg (by simp)]
  obtain ⟨-, sq, hseq, ssq, -⟩ := admittance_mat (bs.length - 1) (Arr2.ofFn y.r y.c (fun i j => y.get i j +
      if i = j ∧ i ∈ ([] : List ℕ) then shuntAt voltage current i else 0)) ⟨hyr, hyc⟩
  unfold reduceNetwork3 at hr
  rw [single_grid hn hb hext hp, hy] at hr
  simp only [Except.map, bind, Except.bind, C64_three h, hP0, hP1, hP2, hHe, List.map_nil, List.append_nil, hadd, hseq] at hr
  split at hr
  · cases hr
  rename_i r0 hr0
  split at hr
  · cases hr
  rename_i r1 hr1
  split at hr
  · cases hr
  rename_i r2 hr2
  split at hr
  · cases hr
  rename_i sb hsb
  have hs0 : (sq.stride3 0).r = bs.length - 1 := by show (sq.r + 2 - 0) / 3 = _; rw [ssq.1]; omega
  have hs1 : (sq.stride3 1).r = bs.length - 1 := by show (sq.r + 2 - 1) / 3 = _; rw [ssq.1]; omega
  obtain ⟨l0, b0⟩ := kron_rows hr0
  obtain ⟨l1, b1⟩ := kron_rows hr1
  rw [hs0] at l0 b0
  rw [hs1] at l1 b1
  have k0 := lists_length (S := P0.toFinset) (fun s hs => b0 s (List.mem_toFinset.1 hs)) (lists_complement _ P0)
  have k1 := lists_length (S := P1.toFinset) (fun s hs => b1 s (List.mem_toFinset.1 hs)) (lists_complement _ P1)
  rw [e0, ← l0] at k0
  rw [e1, ← l1] at k1
  unfold sequenceBus at hsb
  simp only [bind, Except.bind] at hsb
  split at hsb
  · cases hsb
  rename_i z hz
  unfold Arr2.zipWith at hz
  split at hz
  · rename_i hsh
    have : r0.r * 3 = r1.r * 3 := hsh.1
    omega
  · cases hz

/-! ### concrete cases -/

/-- a load, a node without load and the grid connection -/
def buses95 : List BusData := [⟨1, 1, .sym 1 0, 20, 0, 0⟩, ⟨2, 1, .sym 0 0, 20, 0, 0⟩, ⟨3, 3, .sym 0 0, 20, 0, 0⟩]

open Classical in
theorem sets95 : (∀ ph, Spec.passive buses95 ph = {1}) ∧ Spec.connections buses95 = {2} ∧ Spec.labelled buses95 [] = ∅ := by
  have hlt : ∀ k, k < buses95.length ↔ k < 3 := fun k => Iff.rfl
  refine ⟨fun ph => ?_, ?_, ?_⟩
  · ext k
    simp only [Spec.passive, Finset.mem_filter, Finset.mem_range, Finset.mem_singleton]
    rw [hlt]
    constructor
    · rintro ⟨hk, b, hb, h1, h2⟩
      interval_cases k
      · cases hb; simp [Spec.demandOn] at h2
      · rfl
      · cases hb; simp at h1
    · rintro rfl
      exact ⟨by omega, _, rfl, by simp, by simp [Spec.demandOn]⟩
  · ext k
    simp only [Spec.connections, Finset.mem_filter, Finset.mem_range, Finset.mem_singleton]
    rw [hlt]
    constructor
    · rintro ⟨hk, b, hb, ht⟩
      interval_cases k
      · cases hb; simp at ht
      · cases hb; simp at ht
      · rfl
    · rintro rfl
      exact ⟨by omega, _, rfl, rfl⟩
  · simp [Spec.labelled]

/-- C95: three different sequence networks; the node without load is eliminated -/
example : ∃ net Y todel red K, netData3 [] (some buses95) (some []) = .ok net ∧
    makeYBus3 (chain59 1 2) (chain59 3 4) (chain59 5 6) = .ok Y ∧
    reduceNetwork3 exactPinv net Y (Arr2.ofFn 1 9 (fun _ _ => 1)) (Arr2.ofFn 1 9 (fun _ _ => 0)) [] true = .ok (todel, red) ∧
    Spec.Lists 3 {1, 2} K ∧ Spec.Grounded3 Y (fun _ => 0) {2} {1} K red := by
  obtain ⟨net, h, -⟩ := C65_three [] buses95 [] (by simp [buses95]) (by
    intro b hb _
    simp only [buses95, List.mem_cons, List.not_mem_nil, or_false] at hb
    rcases hb with rfl | rfl | rfl <;> exact ⟨_, _, rfl⟩) (by simp)
  obtain ⟨s1, s2, s3⟩ := sets95
  have hsq : ∀ a b, Spec.IsSquare buses95.length (chain59 a b) := fun a b => ⟨rfl, rfl⟩
  obtain ⟨Y, hY, -⟩ := phaseForm_entries buses95.length (hsq 1 2) (hsq 3 4) (hsq 5 6)
  have hns : ∀ a b : ℂ, a + b ≠ 0 → Spec.BlockNonsingular (Spec.withShunts (chain59 a b) (fun _ => 0)) {1} := by
    intro a b hab u hu i hi
    have := hu 1 (by simp)
    rw [Finset.sum_singleton] at this
    unfold Spec.withShunts at this
    rw [Arr2.ofFn_get _ (show 1 < (chain59 a b).r from (by decide : 1 < 3)) (show 1 < (chain59 a b).c from (by decide : 1 < 3))] at this
    unfold chain59 at this
    rw [Arr2.ofFn_get _ (by omega) (by omega)] at this
    simp at this
    rw [Finset.mem_singleton.1 hi]
    rcases this with h | h
    · exact h
    · exact absurd h hab
  have hset : (∅ ∪ {1} ∩ ({1} ∩ {1}) : Finset ℕ) = {1} := by decide
  obtain ⟨todel, red, K, h1, -, h3, h4, -⟩ := C95_partial h exactPinv_contract (hsq 1 2) (hsq 3 4) (hsq 5 6) hY
    (voltage := Arr2.ofFn 1 9 (fun _ _ => 1)) (current := Arr2.ofFn 1 9 (fun _ _ => 0)) rfl rfl (hidden := []) (by simp) (rs := true)
    (by intro _; rw [s1, s1, s1]; exact ⟨rfl, rfl⟩) (by rw [s2]; rfl) (by rw [s3]; simp) (d := fun _ => 0) (by rw [s3]; simp)
    (fun _ _ => rfl) (by
      rw [s1, s1, s1, s3, hset]
      rintro y (rfl | rfl | rfl)
      · exact hns 1 2 (by norm_num)
      · exact hns 3 4 (by norm_num)
      · exact hns 5 6 (by norm_num))
  rw [s1, s1, s1, s2, s3, hset] at h3
  rw [s1, s1, s1, s2, s3, hset] at h4
  exact ⟨net, Y, todel, red, K, h, hY, h1, h3, h4⟩

/-- C95 violated: the connection first and the last node hidden -/
example : ∃ net, netData3 [] (some busesFirst) (some []) = .ok net ∧ ∀ pinv voltage current rs,
    reduceNetwork3 pinv net (Arr2.eye 9) voltage current [3] rs = .error .indexError := by
  obtain ⟨net, h, -⟩ := C65_three [] busesFirst [] (by simp [busesFirst]) (by
    intro b hb _
    simp only [busesFirst, List.mem_cons, List.not_mem_nil, or_false] at hb
    rcases hb with rfl | rfl | rfl <;> exact ⟨_, _, rfl⟩) (by simp)
  refine ⟨net, h, fun pinv voltage current rs => ?_⟩
  refine C95_violated h (Y := Arr2.eye 9) ⟨rfl, rfl⟩ (by simp [busesFirst]) rs (p := 0) ?_ ?_
  · ext k
    simp only [Spec.connections, Finset.mem_filter, Finset.mem_range, Finset.mem_singleton]
    rw [show k < busesFirst.length ↔ k < 3 from Iff.rfl]
    constructor
    · rintro ⟨hk, b, hb, ht⟩
      interval_cases k
      · rfl
      · cases hb; simp at ht
      · cases hb; simp at ht
    · rintro rfl
      exact ⟨by omega, _, rfl, rfl⟩
  · unfold Spec.labelled
    rw [Finset.mem_filter]
    exact ⟨by decide, _, rfl, by simp⟩

/-- a node loaded on its first phase only and the grid connection -/
def buses96 : List BusData := [⟨1, 1, .asym ![1, 0, 0] ![0, 0, 0], 20, 0, 0⟩, ⟨2, 3, .sym 0 0, 20, 0, 0⟩]

open Classical in
/-- C96 violated: this network cannot be reduced -/
example : ∃ net, netData3 [] (some buses96) (some []) = .ok net ∧ ∀ pinv voltage current res,
    reduceNetwork3 pinv net (Arr2.eye 6) voltage current [] true ≠ .ok res := by
  obtain ⟨net, h, -⟩ := C65_three [] buses96 [] (by simp [buses96]) (by
    intro b hb ht
    simp only [buses96, List.mem_cons, List.not_mem_nil, or_false] at hb
    rcases hb with rfl | rfl
    · simp at ht
    · exact ⟨_, _, rfl⟩) (by simp)
  refine ⟨net, h, fun pinv voltage current res => ?_⟩
  have hlt : ∀ k, k < buses96.length ↔ k < 2 := fun k => Iff.rfl
  have e0 : Spec.passive buses96 0 = ∅ := by
    ext k
    simp only [Spec.passive, Finset.mem_filter, Finset.mem_range, Finset.notMem_empty, iff_false]
    rw [hlt]
    rintro ⟨hk, b, hb, h1, h2⟩
    interval_cases k
    · cases hb; simp [Spec.demandOn] at h2
    · cases hb; simp at h1
  have e1 : Spec.passive buses96 1 = {0} := by
    ext k
    simp only [Spec.passive, Finset.mem_filter, Finset.mem_range, Finset.mem_singleton]
    rw [hlt]
    constructor
    · rintro ⟨hk, b, hb, h1, h2⟩
      interval_cases k
      · rfl
      · cases hb; simp at h1
    · rintro rfl
      exact ⟨by omega, _, rfl, by simp, by simp [Spec.demandOn]⟩
  refine C96_violated h (Y := Arr2.eye 6) ⟨rfl, rfl⟩ (p := 1) ?_ (by rw [e0, e1]; simp) res
  ext k
  simp only [Spec.connections, Finset.mem_filter, Finset.mem_range, Finset.mem_singleton]
  rw [hlt]
  constructor
  · rintro ⟨hk, b, hb, ht⟩
    interval_cases k
    · cases hb; simp at ht
    · rfl
  · rintro rfl
    exact ⟨by omega, _, rfl, rfl⟩

end
end Verif
