/-
A three-phase simulation and an identification that meet the hypotheses of C122, C123, C124 and C128: a load and the connection to
the grid, with different lines in the three sequences.
-/
import Verif.Props.NoisyPipeline3

namespace Verif
open Finset Matrix Net
open Spec (LabelPos Assembled columnsAt blockAt)
open Prog hiding pure bind read save call ofExcept
noncomputable section

/-- without equivalent noise the stored voltages of a three-phase network are the filtered ones -/
theorem stage3_filter {z : Nat → ℝ} {net : Net} {voltage current : Arr2 ℂ} {times : List ℝ} {fmeas : ℝ} {steps : Nat} {np : NoiseParams}
    {safety : List ℝ} {n : NoiseResult} (h : addNoiseAndFilter3 z net voltage current times fmeas steps np safety = .ok n)
    (ht : Spec.Times times) (hc : voltage.c = current.c) (h0 : 0 < voltage.c) (he : np.equivalent = false) :
    ∃ ts f, rawTimes times fmeas = .ok (Spec.last times, ts) ∧ averagingFactor ts.length steps = .ok f ∧
      filterAndResample voltage times ts f noNoise = .ok n.voltage := by
  unfold addNoiseAndFilter3 at h
  obtain ⟨r, -, h⟩ := Prior.bind_ok h
  obtain ⟨⟨m, ts⟩, h1, h⟩ := Prior.bind_ok h
  obtain ⟨f, h2, h⟩ := Prior.bind_ok h
  have h1' := h1
  unfold rawTimes at h1
  obtain ⟨m', hm, h1⟩ := Prior.bind_ok h1
  obtain ⟨ts', hl, h1⟩ := Prior.bind_ok h1
  cases h1
  rw [ht.npmax] at hm
  cases hm
  dsimp only at h h2
  rw [he] at h
  simp only [Bool.false_eq_true, if_false] at h
  obtain ⟨⟨nv, ni, v, i⟩, h4, h⟩ := Prior.bind_ok h
  cases h
  exact ⟨ts, f, h1', h2, series_filter h4 (ht.grid hl) hc h0⟩

/-- a column that is not constant -/
theorem rank_column {x : Arr2 ℂ} (hc : x.c = 1) {a b : ℕ} (ha : a < x.r) (hb : b < x.r) (hne : x.get a 0 ≠ x.get b 0) :
    Spec.FullColumnRank (centreColumns x) := by
  intro v hv
  have hex : ∃ t, t < x.r ∧ (centreColumns x).get t 0 ≠ 0 := by
    by_contra hall
    push Not at hall
    have h0 := hall a ha
    have h1 := hall b hb
    unfold centreColumns at h0 h1
    rw [Arr2.ofFn_get _ ha (by omega)] at h0
    rw [Arr2.ofFn_get _ hb (by omega)] at h1
    exact hne ((sub_eq_zero.1 h0).trans (sub_eq_zero.1 h1).symm)
  obtain ⟨t, ht', hne⟩ := hex
  have hc' : (centreColumns x).c = 1 := hc
  funext j
  have hj0 : (j : ℕ) = 0 := by have := j.2; omega
  have h2 := congrFun hv ⟨t, ht'⟩
  rw [Matrix.mulVec, dotProduct, Finset.sum_eq_single j] at h2
  · rcases mul_eq_zero.1 h2 with h3 | h3
    · exfalso
      refine hne ?_
      rw [← hj0]
      exact h3
    · exact h3
  · intro k _ hk
    refine absurd (Fin.ext ?_) hk
    have := k.2
    omega
  · simp

/-! ### the network -/

/-- matrix of the line of one sequence -/
def demoY128 (g : ℂ) : Arr2 ℂ := Arr2.ofFn 2 2 (fun i j => if i = j then g else -g)

/-- the voltage of phase a at the load grows by one in each step -/
def demoFlow128 (_ : Net) (_ : Controls3) : Except PyErr SimResult3 :=
  .ok ⟨fun p => Arr2.ofFn 1440 2 (fun t j => if p = 0 ∧ j = 0 then 1 + (t : ℝ) else 1), fun _ => Arr2.zeros 1440 2⟩

def demoWorld128 (g : Fin 3 → ℂ) : SimWorld :=
  { demoWorld115 with
    files := fun _ => some (flatFile 1440), buses3 := fun _ => some demoBuses115, lines3 := fun _ => some [], types3 := [], flow3 := demoFlow128
    yBus3 := fun _ => makeYBus3 (demoY128 (g 0)) (demoY128 (g 1)) (demoY128 (g 2)) }

/-- the first week of the profiles, one day, one sample per minute, no noise -/
def demoConf128 : SimConf := ⟨[], false, 1, [0], 1, 1439, 1 / 60, 4, 0, 0, 0, 0⟩

def demoArgs128 : SimArgs := ⟨"ieee_33", "p", "q", 0, false, false, false, true, true, false, false⟩

theorem demo128_passive : Spec.passive3 demoBuses115 = ∅ := by
  unfold Spec.passive3
  rw [demo115_passive, Finset.empty_inter]

theorem demo128_reducible (g : Fin 3 → ℂ) : Spec.Reducible3 demoBuses115 (demoY128 (g 0)) (demoY128 (g 1)) (demoY128 (g 2)) := by
  refine ⟨demo115_connections, Or.inl (by decide), ?_⟩
  intro y _
  rw [demo128_passive]
  intro u hu j hj
  cases hj

theorem demo128_net (g : Fin 3 → ℂ) : ∃ net, netData3 [] (some demoBuses115) (some []) = .ok net ∧
    makeNet3 (demoWorld128 g) "ieee_33" = .ok (net, demoBuses115) := by
  obtain ⟨net, h, -⟩ := C65_three [] demoBuses115 [] (by simp [demoBuses115]) (by
    intro b hb _
    simp only [demoBuses115, List.mem_cons, List.not_mem_nil, or_false] at hb
    rcases hb with rfl | rfl <;> exact ⟨_, _, rfl⟩) (by simp)
  refine ⟨net, h, ?_⟩
  show (netData3 [] (some demoBuses115) (some []) >>= fun r => pure (r, demoBuses115)) = _
  rw [h]
  rfl

theorem demo128_flow {y : Arr2 ℂ} (g : Fin 3 → ℂ) (net : Net) (c : Controls3) (res : SimResult3) (h : (demoWorld128 g).flow3 net c = .ok res) :
    Spec.PowerFlow3 demoBuses115 y res := by
  have hr := (Except.ok.inj (show Except.ok _ = Except.ok res from h)).symm
  subst hr
  refine ⟨⟨1440, fun p => ⟨⟨rfl, rfl⟩, rfl, rfl⟩⟩, ?_, ?_⟩
  · intro k hk p t ht
    rw [demo115_connections, mem_singleton] at hk
    subst hk
    have ht' : t < 1440 := ht
    constructor
    · rw [Arr2.ofFn_get _ ht' (by omega), Arr2.ofFn_get _ (by omega) (by omega)]
      simp
    · show (Arr2.zeros 1440 2 : Arr2 ℝ).get t 1 = (Arr2.zeros 1440 2 : Arr2 ℝ).get 0 1
      unfold Arr2.zeros
      rw [Arr2.ofFn_get _ ht' (by omega), Arr2.ofFn_get _ (by omega) (by omega)]
  · intro k hk
    rw [demo128_passive] at hk
    cases hk

theorem demo128_bus (g : Fin 3 → ℂ) : ∃ y, makeYBus3 (demoY128 (g 0)) (demoY128 (g 1)) (demoY128 (g 2)) = .ok y ∧ Spec.IsSquare (2 * 3) y := by
  obtain ⟨y, hy, hsq, -⟩ := C62_networks 2 (y0 := demoY128 (g 0)) (y1 := demoY128 (g 1)) (y2 := demoY128 (g 2)) ⟨rfl, rfl⟩ ⟨rfl, rfl⟩ ⟨rfl, rfl⟩
  exact ⟨y, hy, hsq⟩

/-- the hypotheses of C123 -/
theorem demo_C123 (g : Fin 3 → ℂ) (st : Store) : ∃ d, (simulate (demoWorld128 g) demoConf128 demoArgs128 st).res = .ok d := by
  obtain ⟨net, h, hm⟩ := demo128_net g
  obtain ⟨y, hy, -⟩ := demo128_bus g
  refine C123 (weeks := [0]) st rfl rfl ⟨rfl, rfl⟩ le_rfl (by rfl) ⟨by simp, by simp, ?_⟩ rfl exactPinv_contract ⟨le_rfl, le_rfl, le_rfl, le_rfl⟩
    (by simp [demoConf128]) (by simp [demoConf128]) (by simp [demoConf128]) (by simp [demoConf128]) (by
      show 1439 ≤ Spec.rawCount (minuteTimes 1) (1 / 60)
      rw [demo115_count]) hm ?_ ⟨rfl, rfl⟩ ⟨rfl, rfl⟩ ⟨rfl, rfl⟩ hy hy ?_ (fun c res => demo128_flow g net c res) (demo128_reducible g)
  · intro f _
    refine ⟨flatFile 1440, rfl, ?_, Nat.one_pos, fun t ht => flatFile_ne ht⟩
    intro w hw
    simp only [List.mem_singleton] at hw
    subst hw
    show 0 * 10080 + 1 * 1440 / [0].length ≤ 1440
    simp
  · intro b hb
    simp only [demoBuses115, List.mem_cons, List.not_mem_nil, or_false] at hb
    rcases hb with rfl | rfl
    · exact ⟨fun p q hpq => by cases hpq; norm_num, fun p q hpq => by cases hpq⟩
    · exact ⟨fun p q hpq => by cases hpq; norm_num, fun p q hpq => by cases hpq⟩
  · intro c _ _ _ _ _
    exact ⟨_, rfl, fun p => rfl⟩

theorem demo128_sim {g : Fin 3 → ℂ} {net : Net} {p q : Arr2 ℝ} {asym : List (Arr2 ℝ)} {s : Arr2 ℂ × Arr2 ℂ × Arr2 ℂ}
    (hs : simCompute3 (demoWorld128 g).flow3 (demoWorld128 g).yBus3 net p q asym = .ok s) :
    s.1.r = 1440 ∧ s.1.c = 6 ∧ s.2.1.c = 6 ∧ (∀ t, t < 1440 → s.1.get t 0 = 1 + (t : ℂ)) ∧ ∀ t, t < 1440 → s.1.get t 1 = 1 ∧ s.1.get t 2 = 1 := by
  obtain ⟨y, hy, hsq⟩ := demo128_bus g
  have hy' : (demoWorld128 g).yBus3 net = .ok y := hy
  unfold simCompute3 at hs
  rw [hy'] at hs
  obtain ⟨y', h1, hs⟩ := Prior.bind_ok hs
  cases h1
  obtain ⟨res, hres, hs⟩ := Prior.bind_ok hs
  obtain ⟨o, ho, hs⟩ := Prior.bind_ok hs
  unfold simRun3 at hres
  obtain ⟨_, _, hres⟩ := Prior.bind_ok hres
  obtain ⟨_, _, hres⟩ := Prior.bind_ok hres
  obtain ⟨_, _, hres⟩ := Prior.bind_ok hres
  obtain ⟨_, _, hres⟩ := Prior.bind_ok hres
  obtain ⟨_, _, hres⟩ := Prior.bind_ok hres
  obtain ⟨_, _, hres⟩ := Prior.bind_ok hres
  obtain ⟨_, _, hres⟩ := Prior.bind_ok hres
  obtain ⟨_, _, hres⟩ := Prior.bind_ok hres
  have hr := (Except.ok.inj (show Except.ok _ = Except.ok res from hres)).symm
  obtain ⟨v, i, hvi, hvr, hvc, hpol, hohm⟩ := C84_three res y 1440 2 (fun p => by rw [hr]; exact ⟨rfl, rfl⟩) (fun p => by rw [hr]; exact ⟨rfl, rfl⟩) hsq.1
  subst hr
  rw [hvi] at ho
  cases ho
  cases hs
  have hget : ∀ t, t < 1440 → ∀ p : Fin 3, v.get t p = if p = 0 then 1 + (t : ℂ) else 1 := by
    intro t ht p
    have := polar_eq_phasor (hpol t ht 0 (by omega) p)
    rw [zero_mul, zero_add] at this
    rw [this]
    dsimp only
    unfold Arr2.zeros
    rw [Arr2.ofFn_get _ ht (by omega), Arr2.ofFn_get _ ht (by omega)]
    unfold Spec.phasor
    by_cases hp : p = 0
    · simp [hp]
    · simp [hp]
  refine ⟨hvr, hvc, hohm.2.1.trans hsq.2, fun t ht => (hget t ht 0).trans rfl, fun t ht => ⟨(hget t ht 1).trans rfl, (hget t ht 2).trans rfl⟩⟩

/-- the voltages of all sequences of the load vary; the stored matrix has the three lines on its diagonal -/
theorem demo128_data {g : Fin 3 → ℂ} {st : Store} {d : NetworkData} (h : (simulate (demoWorld128 g) demoConf128 demoArgs128 st).res = .ok d) :
    d.voltage.c = 3 ∧ (∀ l, Spec.FullColumnRank (centreColumns (columnsAt d.voltage 1 (Spec.sequencePos l)))) ∧
      ∀ l, blockAt d.y 1 (Spec.sequencePos l) = Arr2.ofFn 1 1 (fun _ _ => g l) := by
  obtain ⟨net', hnd, hm⟩ := demo128_net g
  obtain ⟨y, hy, -⟩ := demo128_bus g
  obtain ⟨net, bs, l, s, n, hnet, hl, -, hs, -, hno, -, hd, -⟩ := C78_simulate3 (templates_plain "ieee_33" (by decide)) rfl h
  have e : makeNet3 (demoWorld128 g) "ieee_33" = .ok (net, bs) := hnet
  rw [hm] at e
  cases e
  obtain ⟨⟨lp, hlp, hlc⟩, -⟩ := hl (Or.inr (by simp [demoArgs128]))
  obtain ⟨hs, -⟩ := hs (Or.inr (by simp [demoArgs128]))
  obtain ⟨hno, -⟩ := hno (Or.inr (by simp [demoArgs128]))
  have hlp' : lp.days = 1 := by
    rcases hlp with ⟨h0, -⟩ | ⟨-, -, -, rfl⟩
    · exact absurd h0 (lt_irrefl _)
    · rfl
  obtain ⟨p, q, as, T⟩ := l
  have ht0 : T = minuteTimes 1 := by
    unfold computeLoads3 at hlc
    obtain ⟨⟨p, q, as⟩, -, hlc⟩ := Prior.bind_ok hlc
    obtain ⟨⟨p', q'⟩, -, hlc⟩ := Prior.bind_ok hlc
    obtain ⟨as', -, hlc⟩ := Prior.bind_ok hlc
    rw [hlp'] at hlc
    have := Except.ok.inj hlc
    simp only [Prod.mk.injEq] at this
    exact this.2.2.2.symm
  have hlast : Spec.last T = 86340 := by rw [ht0]; exact demo115_last
  have ht : Spec.Times T := by rw [ht0]; exact minuteTimes_times one_pos
  have hlen : T.length = 1440 := by rw [ht0, minuteTimes_length]
  clear ht0
  obtain ⟨sr, sc, sc', sv, sv'⟩ := demo128_sim hs
  dsimp only at hno
  obtain ⟨ts, f, t1, t2, t3⟩ := stage3_filter hno ht (by rw [sc, sc']) (by rw [sc]; omega) rfl
  -- the sampling times
  unfold rawTimes at t1
  obtain ⟨m', hm', t1⟩ := Prior.bind_ok t1
  obtain ⟨ts', hl', t1⟩ := Prior.bind_ok t1
  cases t1
  have hround : pyRound (Spec.last T * demoConf128.fmeas) = 1439 := by
    have : pyRound (1439 : ℝ) = 1439 := by simpa using pyRound_int 1439
    rw [hlast]
    show pyRound (86340 * (1 / 60)) = 1439
    rw [show (86340 : ℝ) * (1 / 60) = 1439 by norm_num, this]
  have hgrid : Spec.Grid T ts := ht.grid hl'
  rw [hround] at hl'
  unfold linspace at hl'
  rw [if_neg (by norm_num)] at hl'
  have hts := (Except.ok.inj hl').symm
  have htl : ts.length = 1439 := by rw [hts]; simp
  unfold averagingFactor at t2
  rw [htl, if_neg (by simp [demoConf128])] at t2
  have hf : f = 1 := by
    rw [← Except.ok.inj t2]
    rfl
  subst hf
  obtain ⟨o, ho, or, oc, og⟩ := C68_blocks hgrid one_ne_zero (a := s.1) (by rw [sr, hlen])
  have ho' : o = n.voltage := Except.ok.inj (ho.symm.trans t3)
  subst ho'
  rw [htl, Nat.div_one] at or
  have hts0 : ts.getD 0 0 = T.getD 0 0 := by
    rw [ht.zero, List.getD_eq_getElem _ _ (by omega)]
    simp [hts]
  have hts1 : ts.getD 1438 0 = T.getD (T.length - 1) 0 := by
    have := hlast
    rw [show T.getD (T.length - 1) 0 = Spec.last T from rfl, List.getD_eq_getElem _ _ (by omega)]
    simp only [hts, List.getElem_map, List.getElem_range]
    rw [this]
    norm_num
  have hends : ∀ j < 6, n.voltage.get 0 j = s.1.get 0 j ∧ n.voltage.get 1438 j = s.1.get 1439 j := by
    intro j hj
    obtain ⟨r, r1, r2⟩ := og j (by rw [sc]; exact hj)
    rw [htl, Nat.div_one] at r2
    have hr2 : ∀ t, t < 1439 → n.voltage.get t j = r t := by
      intro t ht
      rw [r2 t ht]
      simp
    constructor
    · have := r1 0 (by omega)
      rw [hts0] at this
      rw [hr2 0 (by omega), polygon_first ht.sorted this]
    · have := r1 1438 (by omega)
      rw [hts1] at this
      rw [hr2 1438 (by omega), polygon_last ht.sorted this, hlen]
  obtain ⟨d', m, r, g1, -, -, g4, -, g6, g7, -, g9, -, -, K, g12, g13, g14, g15⟩ := network3_exact (w := demoWorld128 g) (cf := demoConf128)
    (a := demoArgs128) rfl rfl rfl exactPinv_contract hnd ⟨rfl, rfl⟩ ⟨rfl, rfl⟩ ⟨rfl, rfl⟩ hy hy (fun c res => demo128_flow g _ c res)
    (demo128_reducible g) hs ht hno
  rw [hd] at g1
  cases g1
  rw [demo128_passive, demo115_connections, Finset.empty_union] at g12 g6
  have hm1 : m = 1 := by rw [g6]; rfl
  subst hm1
  have hK0 : K = [0] := by
    obtain ⟨a, rfl⟩ := List.length_eq_one_iff.1 g13
    have h0 : (0 : ℕ) ∈ [a] := (g12.2 0).2 ⟨by decide, by decide⟩
    simp only [List.mem_singleton] at h0
    rw [h0]
  subst hK0
  -- sequence voltages
  unfold measurementPhaseToSequence at g15
  obtain ⟨q1, q2, q3, q4⟩ := matmul_entry g15
  have q2 : d.voltage.r = n.voltage.r := q2
  have hT : ∀ k < 3, ∀ l < 3, (tMatrix (1 * 3) seqBlock).get k l = seqBlock.get k l := by
    intro k hk l hl
    have := congrFun (congrFun (tMatrix_mat 1 seqBlock ⟨rfl, rfl⟩).2.2 ⟨k, by omega⟩) ⟨l, by omega⟩
    refine Eq.trans this ?_
    show (if k / 3 = l / 3 then seqBlock.get (k % 3) (l % 3) else 0) = _
    rw [if_pos (by omega), Nat.mod_eq_of_lt hk, Nat.mod_eq_of_lt hl]
  have hdv : ∀ t < 1439, ∀ l < 3, d.voltage.get t l =
      n.voltage.get t 0 * seqBlock.get 0 l + n.voltage.get t 1 * seqBlock.get 1 l + n.voltage.get t 2 * seqBlock.get 2 l := by
    intro t ht l hl
    rw [q4 t l (by show t < n.voltage.r; omega) (by rw [← q3, g4]; omega)]
    show ∑ k ∈ range (1 * 3), _ * (tMatrix (1 * 3) seqBlock).get k l = _
    have hc : ∀ k < 3, (columnsAt n.voltage (1 * 3) (phaseAt [0])).get t k = n.voltage.get t k := by
      intro k hk
      unfold columnsAt
      rw [Arr2.ofFn_get _ (by omega) (by omega)]
      unfold phaseAt
      rw [show k / 3 = 0 by omega, show k % 3 = k by omega]
      simp
    rw [show 1 * 3 = 3 from rfl, Finset.sum_range_succ, Finset.sum_range_succ, Finset.sum_range_succ, Finset.sum_range_zero, zero_add]
    have h0 := hT 0 (by omega) l hl
    have h1 := hT 1 (by omega) l hl
    have h2 := hT 2 (by omega) l hl
    rw [show 1 * 3 = 3 from rfl] at h0 h1 h2 hc
    rw [h0, h1, h2, hc 0 (by omega), hc 1 (by omega), hc 2 (by omega)]
  refine ⟨g4, ?_, ?_⟩
  · intro l
    refine rank_column (a := 0) (b := 1438) rfl (by show 0 < d.voltage.r; omega) (by show 1438 < d.voltage.r; omega) ?_
    unfold columnsAt
    rw [Arr2.ofFn_get _ (by omega) (by omega), Arr2.ofFn_get _ (by omega) (by omega)]
    have hp : Spec.sequencePos l 0 = l := by unfold Spec.sequencePos; omega
    rw [hp, hdv 0 (by omega) l l.2, hdv 1438 (by omega) l l.2, (hends 0 (by omega)).1, (hends 0 (by omega)).2, (hends 1 (by omega)).1,
      (hends 1 (by omega)).2, (hends 2 (by omega)).1, (hends 2 (by omega)).2, sv _ (by omega), sv _ (by omega), (sv' _ (by omega)).1,
      (sv' 1439 (by omega)).1, (sv' 0 (by omega)).2, (sv' 1439 (by omega)).2]
    have hs0 : seqBlock.get 0 l = 1 / 3 := by
      unfold seqBlock
      rw [Arr2.ofFn_get _ (by omega) l.2]
      simp
    rw [hs0]
    intro hc
    have : ((1 : ℂ) + (0 : ℕ)) * (1 / 3) = (1 + (1439 : ℕ)) * (1 / 3) := add_right_cancel (add_right_cancel hc)
    norm_num at this
  · intro l
    have hb : ∀ i j, i < 1 → j < 1 → d.y.get (Spec.sequencePos l i) (Spec.sequencePos l j) = (r l).get i j := fun i j hi hj =>
      g9.block l i j hi hj
    obtain ⟨e1, e2, e3⟩ := g14 l
    have := e3 (fun k => if k = 0 then 1 else 0) (by
      intro c hc
      rw [demo115_connections, mem_singleton] at hc
      subst hc
      rfl) (by
      intro k hk
      rw [demo128_passive] at hk
      cases hk) 0 (by decide)
    have hrr : (r l).r = 1 := e1
    have hy2 : ![demoY128 (g 0), demoY128 (g 1), demoY128 (g 2)] l = demoY128 (g l) := by fin_cases l <;> rfl
    unfold Spec.currents at this
    rw [hrr, hy2, Finset.sum_range_one] at this
    have hv : (demoY128 (g l)).get 0 0 = g l := by
      unfold demoY128
      rw [Arr2.ofFn_get _ (by omega) (by omega), if_pos rfl]
    have hval : (r l).get 0 0 = g l := by
      have h2 : (demoY128 (g l)).r = 2 := rfl
      rw [h2, Finset.sum_range_succ, Finset.sum_range_one] at this
      simpa [hv] using this
    refine Arr2.ext' rfl rfl fun i j (hi : i < 1) (hj : j < 1) => ?_
    unfold blockAt
    rw [Arr2.ofFn_get _ hi hj, Arr2.ofFn_get _ hi hj, hb i j hi hj]
    obtain rfl : i = 0 := by omega
    obtain rfl : j = 0 := by omega
    exact hval

theorem demoExt_shapes : Spec.Shapes demoExt115 := by
  refine ⟨fun a b h => ?_, fun a b h => ?_, fun a b h => ?_⟩
  · obtain ⟨p, hp, h1⟩ := exactPinv_contract a
    have h : exactPinv a = .ok b := h
    rw [hp] at h
    cases h
    exact ⟨h1.rows, h1.cols⟩
  · rw [← Except.ok.inj (show Except.ok _ = Except.ok b from h)]
    exact ⟨rfl, rfl⟩
  · have h : exactInv a = .ok b := h
    unfold exactInv at h
    split at h
    · rename_i hu
      rw [← Except.ok.inj h]
      exact ⟨rfl, hu.1⟩
    · cases h

/-- one node: the blocks are the entries of the diagonal -/
theorem assembled_one {ys : Fin 3 → Arr2 ℂ} {y : Arr2 ℂ} {v : Fin 3 → ℂ}
    (h : Assembled (Spec.sequenceIds 1) (fun _ => 1) Spec.sequencePos ys y) (hv : ∀ l, (ys l).get 0 0 = v l) : y = Arr2.diag [v 0, v 1, v 2] := by
  obtain ⟨sr, sc⟩ := h.square
  refine Arr2.ext' sr sc fun i j hi hj => ?_
  have hi : i < 3 := by rw [sr] at hi; exact hi
  have hj : j < 3 := by rw [sc] at hj; exact hj
  unfold Arr2.diag
  rw [Arr2.ofFn_get _ (by exact hi) (by exact hj)]
  by_cases hij : i = j
  · subst hij
    have := h.block ⟨i, hi⟩ 0 0 one_pos one_pos
    rw [hv] at this
    have hp : Spec.sequencePos ⟨i, hi⟩ 0 = i := by unfold Spec.sequencePos; simp
    rw [hp] at this
    rw [this, if_pos rfl]
    interval_cases i <;> rfl
  · rw [if_neg hij]
    refine h.cross i j hi hj ?_
    interval_cases i <;> interval_cases j <;> first | exact absurd rfl hij | decide

/-- no error -/
theorem errorBound_zero {B Y : Arr2 ℂ} {σ : ℝ} (hσ : 0 < σ) (hY : Spec.IsSquare 1 Y) (h : Spec.ErrorBound B Y σ 0) : B.get 0 0 = Y.get 0 0 := by
  obtain ⟨hr, hc⟩ := hY
  have := h (fun _ => 1)
  rw [zero_mul] at this
  have hz := len_eq_zero.1 (le_antisymm (nonpos_of_mul_nonpos_right this hσ) (len_nonneg _))
  have h0 := congrFun hz ⟨0, by omega⟩
  rw [Matrix.mulVec, dotProduct, Finset.sum_eq_single ⟨0, by omega⟩] at h0
  · simpa [Arr2.toMat, sub_eq_zero] using h0
  · intro k _ hk
    exact absurd (Fin.ext (by have := k.2; omega)) hk
  · simp

/-- identification of the three sequences with all methods -/
def demoId128 : IdArgs := ⟨"ieee_33", 50, false, false, false, "012", true, false, false, false, false, false⟩

theorem demo128_nodes : 1 = demoBuses115.length - (Spec.passive3 demoBuses115 ∪ Spec.connections demoBuses115).card := by
  rw [demo128_passive, demo115_connections, Finset.empty_union]
  rfl

/-- The hypotheses of C128, and with them those of C124. The estimates have the values `g 0`, `g 2`, `g 1` on the diagonal, where the
stored reference has `g 0`, `g 1`, `g 2`. -/
theorem demo_C128 (g : Fin 3 → ℂ) (sc : SimConf) (st : Store) : ∃ d r, (simulate (demoWorld128 g) demoConf128 demoArgs128 st).res = .ok d ∧
    (identify demoExt115 ⟨1, 1, 1, 1, 1, true, true, true⟩ sc demoId128
      (simulate (demoWorld128 g) demoConf128 demoArgs128 st).store).res = .ok r ∧
    d.y = Arr2.diag [g 0, g 1, g 2] ∧ r.1.1 = Arr2.diag [g 0, g 2, g 1] ∧ r.1.2.1 = Arr2.diag [g 0, g 2, g 1] := by
  have hn := templates_plain "ieee_33" (by decide)
  obtain ⟨net, hnd, hm⟩ := demo128_net g
  obtain ⟨y, hy, -⟩ := demo128_bus g
  obtain ⟨d, hd⟩ := demo_C123 g st
  obtain ⟨hwid, hrank, hblk⟩ := demo128_data hd
  obtain ⟨m, rs, hclean, hids, hvc, -⟩ := C122_data hn rfl rfl hd ⟨rfl, rfl⟩ rfl exactPinv_contract hm ⟨rfl, rfl⟩ ⟨rfl, rfl⟩ ⟨rfl, rfl⟩ hy hy
    (fun c res => demo128_flow g net c res) (demo128_reducible g)
  obtain ⟨n1, n2⟩ := hclean rfl rfl rfl rfl
  choose σ hσ0 hσ using fun l => atLeast_of_rank (hrank l)
  obtain ⟨r, B, T, h1, h2, h3, h4, h5, -⟩ := C128 (sc := sc) (ic := ⟨1, 1, 1, 1, 1, true, true, true⟩) (b := demoId128) (ext := demoExt115)
    (ε := fun _ => 0) (σ := σ) hn rfl rfl hd ⟨rfl, rfl⟩ rfl exactPinv_contract hm ⟨rfl, rfl⟩ ⟨rfl, rfl⟩ ⟨rfl, rfl⟩ hy hy
    (fun c res => demo128_flow g net c res) (demo128_reducible g) demo128_nodes one_pos (by norm_num) (by norm_num) exactInv_contract
    exactSolve_exact exactSolve_total exactPinv_contract exactSvd_contract demoExt_shapes
    ⟨rfl, by decide, rfl, rfl, rfl, rfl, rfl, rfl, by decide, fun h => absurd h (by decide)⟩ rfl rfl rfl rfl
    (fun l => ⟨le_rfl, by have := hσ0 l; linarith⟩) hσ (by
      intro l p q
      rw [n1, n2, sub_self, sub_self, Matrix.zero_mulVec, Matrix.zero_mulVec, add_zero, zero_mul, len_zero])
    (fun l => .inr ⟨by norm_num, ⟨rfl, rfl, by norm_num⟩, fun T _ => by
      intro e he
      simp [Spec.offPairs] at he, fun h => by cases h⟩)
  have hval : ∀ l, (blockAt d.y 1 (Spec.sequencePos l)).get 0 0 = g l := by
    intro l
    rw [hblk, Arr2.ofFn_get _ one_pos one_pos]
  refine ⟨d, r, hd, h1, assembled_one h2 hval, ?_, ?_⟩
  · refine assembled_one (v := fun l => g (Spec.exchanged l)) h3 fun l => ?_
    exact (errorBound_zero (by have := hσ0 l; linarith) ⟨rfl, rfl⟩ (h5 l).1).trans (hval _)
  · refine assembled_one (v := fun l => g (Spec.exchanged l)) h4 fun l => ?_
    exact (errorBound_zero (hσ0 l) ⟨rfl, rfl⟩ (by have := (h5 l).2; rwa [mul_zero, sub_zero] at this)).trans (hval _)

end
end Verif
