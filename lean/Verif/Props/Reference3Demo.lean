/-
A three-phase network with two loads and a grid connection, simulated and identified in sequence values, for C166 and C167.
-/
import Verif.Props.Reference3
import Verif.Props.PipelineDemo3

namespace Verif
open Finset
open Spec (LabelPos Assembled columnsAt blockAt)
open Net (netData3)
noncomputable section

/-- two columns, three rows of which are not on a line -/
theorem rank_pair {x : Arr2 ℂ} (hc : x.c = 2) {i j k : ℕ} (hi : i < x.r) (hj : j < x.r) (hk : k < x.r)
    (hne : (x.get i 0 - x.get k 0) * (x.get j 1 - x.get k 1) - (x.get j 0 - x.get k 0) * (x.get i 1 - x.get k 1) ≠ 0) :
    Spec.FullColumnRank (centreColumns x) := by
  have hsh : (centreColumns x).r = x.r ∧ (centreColumns x).c = 2 := ⟨rfl, hc⟩
  unfold Spec.FullColumnRank
  rw [hsh.1, hsh.2]
  intro w hw
  have hrow : ∀ a b, a < x.r → b < x.r → (x.get a 0 - x.get b 0) * w 0 + (x.get a 1 - x.get b 1) * w 1 = 0 := by
    intro a b ha hb
    have h1 := congrFun hw ⟨a, ha⟩
    have h2 := congrFun hw ⟨b, hb⟩
    rw [Matrix.mulVec, dotProduct, Fin.sum_univ_two] at h1 h2
    have e : ∀ (t : ℕ) (ht : t < x.r) (q : Fin 2), (centreColumns x).toMat x.r 2 ⟨t, ht⟩ q = (centreColumns x).get t q := fun _ _ _ => rfl
    rw [e, e] at h1 h2
    unfold centreColumns at h1 h2
    rw [Arr2.ofFn_get _ ha (by rw [hc]; decide), Arr2.ofFn_get _ ha (by rw [hc]; decide)] at h1
    rw [Arr2.ofFn_get _ hb (by rw [hc]; decide), Arr2.ofFn_get _ hb (by rw [hc]; decide)] at h2
    simp only [Pi.zero_apply, Fin.coe_ofNat_eq_mod, Nat.zero_mod, Nat.one_mod] at h1 h2
    linear_combination h1 - h2
  have r1 := hrow i k hi hk
  have r2 := hrow j k hj hk
  have w0 : w 0 = 0 := by
    have : ((x.get i 0 - x.get k 0) * (x.get j 1 - x.get k 1) - (x.get j 0 - x.get k 0) * (x.get i 1 - x.get k 1)) * w 0 = 0 := by
      linear_combination (x.get j 1 - x.get k 1) * r1 - (x.get i 1 - x.get k 1) * r2
    exact (mul_eq_zero.1 this).resolve_left hne
  have w1 : w 1 = 0 := by
    have : ((x.get i 0 - x.get k 0) * (x.get j 1 - x.get k 1) - (x.get j 0 - x.get k 0) * (x.get i 1 - x.get k 1)) * w 1 = 0 := by
      linear_combination (x.get i 0 - x.get k 0) * r2 - (x.get j 0 - x.get k 0) * r1
    exact (mul_eq_zero.1 this).resolve_left hne
  funext q
  fin_cases q
  · exact w0
  · exact w1

/-! ### the network -/

def demoBuses167 : List BusData := [⟨1, 1, .sym 1 0, 20, 0, 0⟩, ⟨2, 1, .sym 1 0, 20, 0, 0⟩, ⟨3, 3, .sym 0 0, 20, 0, 0⟩]

/-- matrix of the lines of one sequence -/
def demoY167 (g : ℂ) : Arr2 ℂ :=
  Arr2.ofFn 3 3 (fun i j => if i = j then (if i = 1 then 2 * g else g) else if i + j = 2 then 0 else -g)

/-- voltage of phase a at the loads -/
def demoVolt167 (t j : ℕ) : ℝ := if j = 0 then 1 + (t : ℝ) else if j = 1 ∧ t = 0 then 2 else 1

def demoFlow167 (_ : Net) (_ : Controls3) : Except PyErr SimResult3 :=
  .ok ⟨fun p => Arr2.ofFn 1440 3 (fun t j => if p = 0 then demoVolt167 t j else 1), fun _ => Arr2.zeros 1440 3⟩

def demoWorld167 (g : Fin 3 → ℂ) : SimWorld :=
  { demoWorld128 g with
    buses3 := fun _ => some demoBuses167, flow3 := demoFlow167
    yBus3 := fun _ => makeYBus3 (demoY167 (g 0)) (demoY167 (g 1)) (demoY167 (g 2)) }

theorem demo167_bus {k : ℕ} (hk : k < 3) {b : BusData} (hb : demoBuses167[k]? = some b) :
    b = if k = 0 then ⟨1, 1, .sym 1 0, 20, 0, 0⟩ else if k = 1 then ⟨2, 1, .sym 1 0, 20, 0, 0⟩ else ⟨3, 3, .sym 0 0, 20, 0, 0⟩ := by
  unfold demoBuses167 at hb
  interval_cases k <;> simpa using hb.symm

theorem demo167_connections : Spec.connections demoBuses167 = {2} := by
  unfold Spec.connections
  ext k
  simp only [mem_filter, mem_range, mem_singleton]
  constructor
  · rintro ⟨hk, b, hb, ht⟩
    have hk : k < 3 := hk
    rw [demo167_bus hk hb] at ht
    by_contra h2
    split at ht
    · simp at ht
    · split at ht
      · simp at ht
      · omega
  · rintro rfl
    exact ⟨by decide, _, rfl, rfl⟩

theorem demo167_passive : Spec.passive3 demoBuses167 = ∅ := by
  have : Spec.passive demoBuses167 0 = ∅ := by
    unfold Spec.passive
    ext k
    simp only [mem_filter, mem_range, notMem_empty, iff_false]
    rintro ⟨hk, b, hb, ht⟩
    have hk : k < 3 := hk
    rw [demo167_bus hk hb] at ht
    split at ht
    · simp [Spec.Passive, Spec.demandOn] at ht
    · split at ht
      · simp [Spec.Passive, Spec.demandOn] at ht
      · simp [Spec.Passive, Spec.demandOn] at ht
  unfold Spec.passive3
  rw [this, Finset.empty_inter]

theorem demo167_reducible (g : Fin 3 → ℂ) : Spec.Reducible3 demoBuses167 (demoY167 (g 0)) (demoY167 (g 1)) (demoY167 (g 2)) := by
  refine ⟨demo167_connections, Or.inl (by decide), ?_⟩
  intro y _
  rw [demo167_passive]
  intro u hu j hj
  cases hj

theorem demo167_symm (g : ℂ) : Spec.IsSymm (demoY167 g) := by
  refine ⟨rfl, fun i j => ?_⟩
  unfold demoY167
  rw [Arr2.ofFn_get', Arr2.ofFn_get']
  by_cases h : i < 3 ∧ j < 3
  · rw [if_pos h, if_pos h.symm]
    by_cases e : i = j
    · subst e; rfl
    · rw [if_neg e, if_neg (Ne.symm e), add_comm]
  · rw [if_neg h, if_neg fun h' => h h'.symm]

theorem demo167_net (g : Fin 3 → ℂ) : ∃ net, netData3 [] (some demoBuses167) (some []) = .ok net ∧
    makeNet3 (demoWorld167 g) "ieee_33" = .ok (net, demoBuses167) := by
  obtain ⟨net, h, -⟩ := C65_three [] demoBuses167 [] (by simp [demoBuses167]) (by
    intro b hb _
    simp only [demoBuses167, List.mem_cons, List.not_mem_nil, or_false] at hb
    rcases hb with rfl | rfl | rfl <;> exact ⟨_, _, rfl⟩) (by simp)
  refine ⟨net, h, ?_⟩
  show (netData3 [] (some demoBuses167) (some []) >>= fun r => pure (r, demoBuses167)) = _
  rw [h]
  rfl

theorem demo167_flow {y : Arr2 ℂ} (g : Fin 3 → ℂ) (net : Net) (c : Controls3) (res : SimResult3) (h : (demoWorld167 g).flow3 net c = .ok res) :
    Spec.PowerFlow3 demoBuses167 y res := by
  have hr := (Except.ok.inj (show Except.ok _ = Except.ok res from h)).symm
  subst hr
  refine ⟨⟨1440, fun p => ⟨⟨rfl, rfl⟩, rfl, rfl⟩⟩, ?_, ?_⟩
  · intro k hk p t ht
    rw [demo167_connections, mem_singleton] at hk
    subst hk
    have ht' : t < 1440 := ht
    constructor
    · rw [Arr2.ofFn_get _ ht' (by omega), Arr2.ofFn_get _ (by omega) (by omega)]
      simp [demoVolt167]
    · show (Arr2.zeros 1440 3 : Arr2 ℝ).get t 2 = (Arr2.zeros 1440 3 : Arr2 ℝ).get 0 2
      unfold Arr2.zeros
      rw [Arr2.ofFn_get _ ht' (by omega), Arr2.ofFn_get _ (by omega) (by omega)]
  · intro k hk
    rw [demo167_passive] at hk
    cases hk

theorem demo167_ybus (g : Fin 3 → ℂ) : ∃ y, makeYBus3 (demoY167 (g 0)) (demoY167 (g 1)) (demoY167 (g 2)) = .ok y ∧ Spec.IsSquare (3 * 3) y := by
  obtain ⟨y, hy, hsq, -⟩ := C62_networks 3 (y0 := demoY167 (g 0)) (y1 := demoY167 (g 1)) (y2 := demoY167 (g 2)) ⟨rfl, rfl⟩ ⟨rfl, rfl⟩ ⟨rfl, rfl⟩
  exact ⟨y, hy, hsq⟩

theorem demo167_runs (g : Fin 3 → ℂ) (st : Store) : ∃ d, (simulate (demoWorld167 g) demoConf128 demoArgs128 st).res = .ok d := by
  obtain ⟨net, h, hm⟩ := demo167_net g
  obtain ⟨y, hy, -⟩ := demo167_ybus g
  refine C123 (weeks := [0]) st rfl rfl ⟨rfl, rfl⟩ le_rfl (by rfl) ⟨by simp, by simp, ?_⟩ rfl exactPinv_contract ⟨le_rfl, le_rfl, le_rfl, le_rfl⟩
    (by simp [demoConf128]) (by simp [demoConf128]) (by simp [demoConf128]) (by simp [demoConf128]) (by
      show 1439 ≤ Spec.rawCount (minuteTimes 1) (1 / 60)
      rw [demo115_count]) hm ?_ ⟨rfl, rfl⟩ ⟨rfl, rfl⟩ ⟨rfl, rfl⟩ hy hy ?_ (fun c res => demo167_flow g net c res) (demo167_reducible g)
  · intro f _
    refine ⟨flatFile 1440, rfl, ?_, Nat.one_pos, fun t ht => flatFile_ne ht⟩
    intro w hw
    simp only [List.mem_singleton] at hw
    subst hw
    show 0 * 10080 + 1 * 1440 / [0].length ≤ 1440
    simp
  · intro b hb
    simp only [demoBuses167, List.mem_cons, List.not_mem_nil, or_false] at hb
    rcases hb with rfl | rfl | rfl
    all_goals exact ⟨fun p q hpq => by cases hpq; norm_num, fun p q hpq => by cases hpq⟩
  · intro c _ _ _ _ _
    exact ⟨_, rfl, fun p => rfl⟩

theorem demo167_sim {g : Fin 3 → ℂ} {net : Net} {p q : Arr2 ℝ} {asym : List (Arr2 ℝ)} {s : Arr2 ℂ × Arr2 ℂ × Arr2 ℂ}
    (hs : simCompute3 (demoWorld167 g).flow3 (demoWorld167 g).yBus3 net p q asym = .ok s) :
    s.1.r = 1440 ∧ s.1.c = 9 ∧ s.2.1.c = 9 ∧ ∀ t, t < 1440 → ∀ j, j < 3 → ∀ p : Fin 3,
      s.1.get t (j * 3 + p) = if p = 0 then ((demoVolt167 t j : ℝ) : ℂ) else 1 := by
  obtain ⟨y, hy, hsq⟩ := demo167_ybus g
  have hy' : (demoWorld167 g).yBus3 net = .ok y := hy
  unfold simCompute3 at hs
  rw [hy'] at hs
  obtain ⟨y', h1, hs⟩ := Prior.bind_ok hs
  cases h1
  obtain ⟨res, hres, hs⟩ := Prior.bind_ok hs
  obtain ⟨o, ho, hs⟩ := Prior.bind_ok hs
  unfold simRun3 at hres
  obtain ⟨_, _, hres⟩ := Prior.bind_ok hres
  obtain ⟨_, _, hres⟩ := Prior.bind_ok hres
  obtain ⟨_, _, hres⟩ := Prior.bind_ok hres
  obtain ⟨_, _, hres⟩ := Prior.bind_ok hres
  obtain ⟨_, _, hres⟩ := Prior.bind_ok hres
  obtain ⟨_, _, hres⟩ := Prior.bind_ok hres
  obtain ⟨_, _, hres⟩ := Prior.bind_ok hres
  obtain ⟨_, _, hres⟩ := Prior.bind_ok hres
  have hr := (Except.ok.inj (show Except.ok _ = Except.ok res from hres)).symm
  obtain ⟨v, i, hvi, hvr, hvc, hpol, hohm⟩ := C84_three res y 1440 3 (fun p => by rw [hr]; exact ⟨rfl, rfl⟩) (fun p => by rw [hr]; exact ⟨rfl, rfl⟩) hsq.1
  subst hr
  rw [hvi] at ho
  cases ho
  cases hs
  refine ⟨hvr, hvc, hohm.2.1.trans hsq.2, fun t ht j hj p => ?_⟩
  rw [polar_eq_phasor (hpol t ht j hj p)]
  dsimp only
  unfold Arr2.zeros
  rw [Arr2.ofFn_get _ ht (by omega), Arr2.ofFn_get _ ht (by omega)]
  unfold Spec.phasor
  by_cases hp : p = 0
  · simp [hp]
  · simp [hp]

theorem demo167_minute {k : ℕ} (hk : k < 1440) : (minuteTimes 1).getD k 0 = (k : ℝ) * 60 := by
  unfold minuteTimes
  rw [List.getD_eq_getElem _ _ (by simpa using hk)]
  simp

/-- the first load's voltage grows linearly between the samples, the second's falls in the first minute -/
theorem demo167_polygon {j : ℕ} {τ : ℝ} {w : ℂ} (h : Spec.OnPolygon (minuteTimes 1) (fun t => ((demoVolt167 t j : ℝ) : ℂ)) τ w) :
    (j = 0 → w = 1 + τ / 60) ∧ (j = 1 → τ = 0 → w = 2) ∧ (j = 1 → 60 ≤ τ → w = 1) := by
  obtain ⟨k, θ, hk, h0, h1, hv, rfl⟩ := h
  rw [minuteTimes_length] at hk
  have hk : k + 1 < 1440 := hk
  rw [demo167_minute (by omega), demo167_minute hk] at hv
  have hv : τ = ((k : ℝ) + θ) * 60 := by rw [hv]; push_cast; ring
  refine ⟨?_, ?_, ?_⟩
  · rintro rfl
    rw [hv]
    simp only [demoVolt167, if_pos]
    push_cast
    ring
  · rintro rfl hτ
    have hk0 : (k : ℝ) = 0 := by
      have : (0 : ℝ) ≤ k := Nat.cast_nonneg k
      nlinarith
    have hθ : θ = 0 := by nlinarith
    have hk0 : k = 0 := by exact_mod_cast hk0
    subst hk0 hθ
    simp [demoVolt167]
  · rintro rfl hτ
    rcases Nat.eq_zero_or_pos k with rfl | hpos
    · have hθ : θ = 1 := by
        push_cast at hv
        nlinarith
      subst hθ
      simp [demoVolt167]
    · simp [demoVolt167, hpos.ne']

theorem demo167_kept {K : List ℕ} (h : Spec.Lists 3 {2} K) (hl : K.length = 2) : K = [0, 1] ∨ K = [1, 0] := by
  obtain ⟨a, b, rfl⟩ := List.length_eq_two.1 hl
  have h0 : (0 : ℕ) ∈ [a, b] := (h.2 0).2 ⟨by decide, by decide⟩
  have h1 : (1 : ℕ) ∈ [a, b] := (h.2 1).2 ⟨by decide, by decide⟩
  simp only [List.mem_cons, List.not_mem_nil, or_false] at h0 h1
  rcases h0 with h0 | h0 <;> rcases h1 with h1 | h1
  · omega
  · left; rw [h0, h1]
  · right; rw [h0, h1]
  · omega

/-- the voltages of all sequences of both loads vary independently; the stored matrix has the lines in its blocks -/
theorem demo167_data {g : Fin 3 → ℂ} {st : Store} {d : NetworkData} (h : (simulate (demoWorld167 g) demoConf128 demoArgs128 st).res = .ok d) :
    (∀ l, Spec.FullColumnRank (centreColumns (columnsAt d.voltage 2 (Spec.sequencePos l)))) ∧
      ∀ l, (blockAt d.y 2 (Spec.sequencePos l)).get 1 0 = -g l ∧ (blockAt d.y 2 (Spec.sequencePos l)).get 0 1 = -g l := by
  obtain ⟨net', hnd, hm⟩ := demo167_net g
  obtain ⟨y, hy, -⟩ := demo167_ybus g
  obtain ⟨net, bs, l, s, n, hnet, hl, -, hs, -, hno, -, hd, -⟩ := C78_simulate3 (templates_plain "ieee_33" (by decide)) rfl h
  have e : makeNet3 (demoWorld167 g) "ieee_33" = .ok (net, bs) := hnet
  rw [hm] at e
  cases e
  obtain ⟨⟨lp, hlp, hlc⟩, -⟩ := hl (Or.inr (by simp [demoArgs128]))
  obtain ⟨hs, -⟩ := hs (Or.inr (by simp [demoArgs128]))
  obtain ⟨hno, -⟩ := hno (Or.inr (by simp [demoArgs128]))
  have hlp' : lp.days = 1 := by
    rcases hlp with ⟨h0, -⟩ | ⟨-, -, -, rfl⟩
    · exact absurd h0 (lt_irrefl _)
    · rfl
  obtain ⟨p, q, as, T⟩ := l
  have ht0 : T = minuteTimes 1 := by
    unfold computeLoads3 at hlc
    obtain ⟨⟨p, q, as⟩, -, hlc⟩ := Prior.bind_ok hlc
    obtain ⟨⟨p', q'⟩, -, hlc⟩ := Prior.bind_ok hlc
    obtain ⟨as', -, hlc⟩ := Prior.bind_ok hlc
    rw [hlp'] at hlc
    have := Except.ok.inj hlc
    simp only [Prod.mk.injEq] at this
    exact this.2.2.2.symm
  have hlast : Spec.last T = 86340 := by rw [ht0]; exact demo115_last
  have ht : Spec.Times T := by rw [ht0]; exact minuteTimes_times one_pos
  have hlen : T.length = 1440 := by rw [ht0, minuteTimes_length]
  obtain ⟨sr, sc, sc', sv⟩ := demo167_sim hs
  dsimp only at hno
  obtain ⟨ts, f, t1, t2, t3⟩ := stage3_filter hno ht (by rw [sc, sc']) (by rw [sc]; omega) rfl
  -- the sampling times
  unfold rawTimes at t1
  obtain ⟨m', hm', t1⟩ := Prior.bind_ok t1
  obtain ⟨ts', hl', t1⟩ := Prior.bind_ok t1
  cases t1
  have hround : pyRound (Spec.last T * demoConf128.fmeas) = 1439 := by
    have : pyRound (1439 : ℝ) = 1439 := by simpa using pyRound_int 1439
    rw [hlast]
    show pyRound (86340 * (1 / 60)) = 1439
    rw [show (86340 : ℝ) * (1 / 60) = 1439 by norm_num, this]
  have hgrid : Spec.Grid T ts := ht.grid hl'
  rw [hround] at hl'
  unfold linspace at hl'
  rw [if_neg (by norm_num)] at hl'
  have hts := (Except.ok.inj hl').symm
  have htl : ts.length = 1439 := by rw [hts]; simp
  unfold averagingFactor at t2
  rw [htl, if_neg (by simp [demoConf128])] at t2
  have hf : f = 1 := by
    rw [← Except.ok.inj t2]
    rfl
  subst hf
  obtain ⟨o, ho, or, oc, og⟩ := C68_blocks hgrid one_ne_zero (a := s.1) (by rw [sr, hlen])
  have ho' : o = n.voltage := Except.ok.inj (ho.symm.trans t3)
  subst ho'
  rw [htl, Nat.div_one] at or
  have htk : ∀ k, k < 1439 → ts.getD k 0 = (k : ℝ) * (86340 / 1438) := by
    intro k hk
    rw [List.getD_eq_getElem _ _ (by omega)]
    simp only [hts, List.getElem_map, List.getElem_range]
    rw [hlast]
    norm_num
  have hval : ∀ k : ℕ, k < 1439 → ∀ j < 9, Spec.OnPolygon (minuteTimes 1) (fun t => s.1.get t j) ((k : ℝ) * (86340 / 1438)) (n.voltage.get k j) := by
    intro k hk j hj
    obtain ⟨r, r1, r2⟩ := og j (by rw [sc]; exact hj)
    rw [htl, Nat.div_one] at r2
    rw [r2 k hk]
    have := r1 k (by omega)
    rw [htk k hk, ht0] at this
    simpa using this
  have hcongr : ∀ {a b : ℕ → ℂ} {τ : ℝ} {w : ℂ}, (∀ t < 1440, a t = b t) → Spec.OnPolygon (minuteTimes 1) a τ w → Spec.OnPolygon (minuteTimes 1) b τ w := by
    rintro a b τ w hab ⟨k, θ, h1, h2, h3, h4, h5⟩
    rw [minuteTimes_length] at h1
    refine ⟨k, θ, by rw [minuteTimes_length]; exact h1, h2, h3, h4, ?_⟩
    rw [h5, hab k (by omega), hab (k + 1) (by omega)]
  -- voltages of phase a
  have hva : ∀ k : ℕ, k < 1439 → ∀ j < 3, Spec.OnPolygon (minuteTimes 1) (fun t => ((demoVolt167 t j : ℝ) : ℂ)) ((k : ℝ) * (86340 / 1438))
      (n.voltage.get k (j * 3)) := fun k hk j hj =>
    hcongr (fun t ht => by simpa using sv t ht j hj 0) (hval k hk (j * 3) (by omega))
  -- voltages of the other phases
  have hvb : ∀ k : ℕ, k < 1439 → ∀ j < 3, ∀ p, 0 < p → p < 3 → n.voltage.get k (j * 3 + p) = 1 := by
    intro k hk j hj p hp hp3
    have := hcongr (b := fun _ => 1) (fun t ht => by
      have := sv t ht j hj ⟨p, hp3⟩
      rw [if_neg (by intro h; have := congrArg Fin.val h; simp at this; omega)] at this
      exact this) (hval k hk (j * 3 + p) (by omega))
    obtain ⟨k, θ, -, -, -, -, h5⟩ := this
    rw [h5]
    push_cast
    ring
  obtain ⟨d', m, r, g1, -, -, g4, -, g6, g7, -, g9, -, -, K, g12, g13, g14, g15⟩ := network3_exact (w := demoWorld167 g) (cf := demoConf128)
    (a := demoArgs128) rfl rfl rfl exactPinv_contract hnd ⟨rfl, rfl⟩ ⟨rfl, rfl⟩ ⟨rfl, rfl⟩ hy hy (fun c res => demo167_flow g _ c res)
    (demo167_reducible g) hs ht hno
  rw [hd] at g1
  cases g1
  rw [demo167_passive, demo167_connections, Finset.empty_union] at g12 g6
  have hm1 : m = 2 := by rw [g6]; rfl
  subst hm1
  have hK : K = [0, 1] ∨ K = [1, 0] := demo167_kept g12 g13
  -- sequence voltages
  unfold measurementPhaseToSequence at g15
  obtain ⟨q1, q2, q3, q4⟩ := matmul_entry g15
  have q2 : d.voltage.r = n.voltage.r := q2
  have hT : ∀ a < 2, ∀ l < 3, ∀ k < 6, (tMatrix (2 * 3) seqBlock).get k (a * 3 + l) = if k / 3 = a then seqBlock.get (k % 3) l else 0 := by
    intro a ha l hl k hk
    have := congrFun (congrFun (tMatrix_mat 2 seqBlock ⟨rfl, rfl⟩).2.2 ⟨k, by omega⟩) ⟨a * 3 + l, by omega⟩
    refine Eq.trans this ?_
    show (if k / 3 = (a * 3 + l) / 3 then seqBlock.get (k % 3) ((a * 3 + l) % 3) else 0) = _
    rw [show (a * 3 + l) / 3 = a by omega, show (a * 3 + l) % 3 = l by omega]
  have hdv : ∀ t < 1439, ∀ a < 2, ∀ l < 3, d.voltage.get t (a * 3 + l) =
      n.voltage.get t (K.getD a 0 * 3) * seqBlock.get 0 l + seqBlock.get 1 l + seqBlock.get 2 l := by
    intro t ht a ha l hl
    have hKa : K.getD a 0 < 3 := by
      rcases hK with rfl | rfl <;> interval_cases a <;> simp
    rw [q4 t (a * 3 + l) (by show t < n.voltage.r; omega) (by rw [← q3, g4]; omega)]
    show ∑ k ∈ range (2 * 3), _ * (tMatrix (2 * 3) seqBlock).get k (a * 3 + l) = _
    have hc : ∀ k < 6, (columnsAt n.voltage (2 * 3) (phaseAt K)).get t k = n.voltage.get t (K.getD (k / 3) 0 * 3 + k % 3) := by
      intro k hk
      unfold columnsAt
      rw [Arr2.ofFn_get _ (by omega) (by omega)]
      rfl
    have hsum : ∀ k ∈ range (2 * 3), (columnsAt n.voltage (2 * 3) (phaseAt K)).get t k * (tMatrix (2 * 3) seqBlock).get k (a * 3 + l) =
        if k / 3 = a then n.voltage.get t (K.getD a 0 * 3 + k % 3) * seqBlock.get (k % 3) l else 0 := by
      intro k hk
      have hk := Finset.mem_range.1 hk
      rw [hc k hk, hT a ha l hl k hk]
      split
      · rename_i h; rw [h]
      · rw [mul_zero]
    rw [Finset.sum_congr rfl hsum]
    clear hsum hc
    have h1 := hvb t ht (K.getD a 0) hKa 1 (by omega) (by omega)
    have h2 := hvb t ht (K.getD a 0) hKa 2 (by omega) (by omega)
    generalize K.getD a 0 = κ at h1 h2 ⊢
    interval_cases a
    · simp only [show 2 * 3 = 6 from rfl, Finset.sum_range_succ, Finset.sum_range_zero]
      norm_num
      rw [h1, h2]
      ring
    · simp only [show 2 * 3 = 6 from rfl, Finset.sum_range_succ, Finset.sum_range_zero]
      norm_num
      rw [h1, h2]
      ring
  refine ⟨?_, ?_⟩
  · intro l
    have hs0 : seqBlock.get 0 l = 1 / 3 := by
      unfold seqBlock
      rw [Arr2.ofFn_get _ (by omega) l.2]
      simp
    have hx : ∀ t < 1439, ∀ a < 2, (columnsAt d.voltage 2 (Spec.sequencePos l)).get t a =
        n.voltage.get t (K.getD a 0 * 3) / 3 + seqBlock.get 1 l + seqBlock.get 2 l := by
      intro t ht a ha
      unfold columnsAt
      rw [Arr2.ofFn_get _ (by omega) ha]
      refine (hdv t ht a ha l l.2).trans ?_
      rw [hs0]
      ring
    obtain ⟨a1, -, -⟩ := demo167_polygon (hva 0 (by omega) 0 (by omega))
    obtain ⟨a2, -, -⟩ := demo167_polygon (hva 1 (by omega) 0 (by omega))
    obtain ⟨a3, -, -⟩ := demo167_polygon (hva 1438 (by omega) 0 (by omega))
    obtain ⟨-, b1, -⟩ := demo167_polygon (hva 0 (by omega) 1 (by omega))
    obtain ⟨-, -, b2⟩ := demo167_polygon (hva 1 (by omega) 1 (by omega))
    obtain ⟨-, -, b3⟩ := demo167_polygon (hva 1438 (by omega) 1 (by omega))
    have a1 := a1 rfl
    have a2 := a2 rfl
    have a3 := a3 rfl
    have b1 := b1 rfl (by norm_num)
    have b2 := b2 rfl (by norm_num)
    have b3 := b3 rfl (by norm_num)
    refine rank_pair (i := 0) (j := 1) (k := 1438) rfl (by show 0 < d.voltage.r; omega) (by show 1 < d.voltage.r; omega)
      (by show 1438 < d.voltage.r; omega) ?_
    rw [hx 0 (by omega) 0 (by omega), hx 0 (by omega) 1 (by omega), hx 1 (by omega) 0 (by omega), hx 1 (by omega) 1 (by omega),
      hx 1438 (by omega) 0 (by omega), hx 1438 (by omega) 1 (by omega)]
    rcases hK with rfl | rfl
    · simp only [List.getD_cons_zero, List.getD_cons_succ]
      rw [a1, a2, a3, b1, b2, b3]
      push_cast
      intro h
      ring_nf at h
      norm_num at h
    · simp only [List.getD_cons_zero, List.getD_cons_succ]
      rw [a1, a2, a3, b1, b2, b3]
      push_cast
      intro h
      ring_nf at h
      norm_num at h
  · intro l
    have hb : ∀ i j, i < 2 → j < 2 → (blockAt d.y 2 (Spec.sequencePos l)).get i j = (r l).get i j := by
      intro i j hi hj
      unfold blockAt
      rw [Arr2.ofFn_get _ hi hj]
      exact g9.block l i j hi hj
    obtain ⟨e1, e2, e3⟩ := g14 l
    have hy2 : ![demoY167 (g 0), demoY167 (g 1), demoY167 (g 2)] l = demoY167 (g l) := by fin_cases l <;> rfl
    rw [hy2, demo167_connections, demo167_passive] at e3
    have hrr : (r l).r = 2 := by rw [e1]; exact g13
    have hyr : (demoY167 (g l)).r = 3 := rfl
    have ent : ∀ i j, i < 3 → j < 3 → (demoY167 (g l)).get i j =
        if i = j then (if i = 1 then 2 * g l else g l) else if i + j = 2 then 0 else -g l := fun i j hi hj => Arr2.ofFn_get _ hi hj
    have key : ∀ a < 2, ∀ b < 2, (r l).get a b = (demoY167 (g l)).get (K.getD a 0) (K.getD b 0) := by
      intro a ha b hb
      have := e3 (fun k => if k = K.getD a 0 then 1 else 0) (by
        intro c hc
        rw [mem_singleton] at hc
        subst hc
        refine if_neg ?_
        rcases hK with rfl | rfl <;> interval_cases a <;> simp) (by
        intro k hk
        cases hk) b (by omega)
      unfold Spec.currents at this
      rw [hrr, hyr] at this
      simp only [Finset.sum_range_succ, Finset.sum_range_zero] at this
      rcases hK with rfl | rfl <;> interval_cases a <;> interval_cases b <;> simpa using this
    rw [hb 1 0 (by omega) (by omega), hb 0 1 (by omega) (by omega), key 1 (by omega) 0 (by omega), key 0 (by omega) 1 (by omega)]
    rcases hK with rfl | rfl <;> simp [ent]

theorem demo167_nodes : 2 = demoBuses167.length - (Spec.passive3 demoBuses167 ∪ Spec.connections demoBuses167).card := by
  rw [demo167_passive, demo167_connections, Finset.empty_union]
  rfl

theorem sequenceNoise_quiet {m : ℕ} {d : NetworkData} (n1 : d.noisyVoltage = d.voltage) (n2 : d.noisyCurrent = d.current) (l : Fin 3) :
    Spec.sequenceNoise m d l = 0 := by
  unfold Spec.sequenceNoise
  rw [n1, n2]
  have e : ∀ A : Arr2 ℂ, Spec.size (Spec.diff A A) = 0 := by
    intro A
    unfold Spec.size Spec.diff
    simp [Arr2.ofFn_get']
  rw [e, e]
  simp

/-- Both programs return on this network, with and without weights, and the estimates obey the bounds of C167. -/
theorem demo167 (weighted : Bool) {g : Fin 3 → ℂ} (hg : ∀ l, (g l).re ≠ 0 ∧ (g l).im ≠ 0) {sc : SimConf} (hsc : 0 < sc.vm ∧ 0 < sc.vp) (st : Store) :
    ∃ (d : NetworkData) (r : (Arr2 ℂ × Arr2 ℂ × Arr2 ℂ) × (Arr2 ℂ × List IterationStatus)) (σ : Fin 3 → ℝ) (L E : Fin 3 → Arr2 ℂ) (η η' : Fin 3 → ℝ),
      (simulate (demoWorld167 g) demoConf128 demoArgs128 st).res = .ok d ∧
      (identify demoExt115 ⟨1, 1, 1, 1, 1, true, true, true⟩ sc (demoArgs166 weighted)
        (simulate (demoWorld167 g) demoConf128 demoArgs128 st).store).res = .ok r ∧
      (∀ l, 0 < σ l ∧ Spec.Admissible false (blockAt d.y 2 (Spec.sequencePos l)) ∧ (blockAt d.y 2 (Spec.sequencePos l)).get 1 0 = -g l) ∧
      Assembled (Spec.sequenceIds 2) (fun _ => 2) Spec.sequencePos L r.1.2.2 ∧
      (∀ l, Spec.ErrorBound (L l) (blockAt d.y 2 (Spec.sequencePos (Spec.exchanged l))) (σ l - 0) (η l)) ∧
      Assembled (Spec.sequenceIds 2) (fun _ => 2) Spec.sequencePos E r.2.1 ∧
      ∀ l, Spec.ErrorBound (E l) (blockAt d.y 2 (Spec.sequencePos (Spec.exchanged l))) (σ l - η' l) (η' l) := by
  have hn := templates_plain "ieee_33" (by decide)
  obtain ⟨net, hnd, hm⟩ := demo167_net g
  obtain ⟨y, hy, -⟩ := demo167_ybus g
  obtain ⟨d, hd⟩ := demo167_runs g st
  obtain ⟨hrank, hblk⟩ := demo167_data hd
  obtain ⟨m, rs, hclean, -⟩ := C122_data (w := demoWorld167 g) (cf := demoConf128) (a := demoArgs128) hn rfl rfl hd ⟨rfl, rfl⟩ rfl exactPinv_contract hm ⟨rfl, rfl⟩ ⟨rfl, rfl⟩ ⟨rfl, rfl⟩ hy hy
      (fun c res => demo167_flow g net c res) (demo167_reducible g)
  obtain ⟨n1, n2⟩ := hclean rfl rfl rfl rfl
  obtain ⟨-, -, -, -, -, -, -, q8, q9⟩ := stored_data3 (w := demoWorld167 g) (cf := demoConf128) (a := demoArgs128) hn rfl rfl hd ⟨rfl, rfl⟩ rfl exactPinv_contract hm ⟨rfl, rfl⟩ ⟨rfl, rfl⟩ ⟨rfl, rfl⟩ hy hy
      (fun c res => demo167_flow g net c res) (demo167_reducible g)
    demo167_nodes (b := demoArgs166 weighted) rfl
  choose σ hσ0 hσ using fun l => atLeast_of_rank (hrank l)
  have hsym := And.intro (demo167_symm (g 0)) (And.intro (demo167_symm (g 1)) (demo167_symm (g 2)))
  have h3p : (demoArgs166 weighted).threePhased = true := by
    show ("012" == "012" || "012" == "123") = true
    decide
  have hit : 0 < (demoArgs166 weighted).maxIter := by
    show 0 < 50
    decide
  have hz : ∀ l, (0 : ℝ) = Spec.sequenceNoise 2 d l := fun l => (sequenceNoise_quiet n1 n2 l).symm
  obtain ⟨r, B, T, hr, -⟩ := C128 (sc := sc) (ic := ⟨1, 1, 1, 1, 1, true, true, true⟩) (b := demoArgs166 weighted) (ext := demoExt115)
    (ε := fun _ => 0) (σ := σ) (w := demoWorld167 g) (cf := demoConf128) (a := demoArgs128) hn rfl rfl hd ⟨rfl, rfl⟩ rfl exactPinv_contract hm ⟨rfl, rfl⟩ ⟨rfl, rfl⟩ ⟨rfl, rfl⟩ hy hy
      (fun c res => demo167_flow g net c res) (demo167_reducible g) demo167_nodes two_pos (by norm_num) (by norm_num)
    exactInv_contract exactSolve_exact exactSolve_total exactPinv_contract exactSvd_contract demoExt_shapes
    ⟨rfl, h3p, rfl, rfl, rfl, rfl, rfl, rfl, hit, fun h => by cases h⟩ rfl rfl rfl rfl
    (fun l => ⟨le_rfl, by have := hσ0 l; linarith⟩) hσ (by
      intro l p q
      rw [n1, n2, sub_self, sub_self, Matrix.zero_mulVec, Matrix.zero_mulVec, add_zero, zero_mul, len_zero])
    (fun l => .inr ⟨by norm_num, ⟨rfl, rfl, by norm_num⟩, fun T hT => by
      rw [n1, n2] at hT
      obtain ⟨B, hB, hsz, he⟩ := C117_tls exactSvd_contract exactInv_contract (ε := 0) ⟨q8 l, ⟨rfl, rfl⟩, ⟨rfl, rfl⟩, fun p q => by
        rw [sub_self, sub_self, Matrix.zero_mulVec, Matrix.zero_mulVec, add_zero, zero_mul, len_zero]⟩ (hσ l) le_rfl
        (by have := hσ0 l; linarith)
      have hB' : tlsFit demoExt115.svdVh demoExt115.inv _ _ = .ok B := hB
      rw [hB'] at hT
      cases hT
      simp only [mul_zero, sub_zero] at he
      obtain rfl := errorBound_exact (n := 2) (hσ0 l) hsz ⟨rfl, rfl⟩ he
      intro e he im
      rw [mem_offPairs] at he
      have h1 : e.1 = 1 := by omega
      have h2 : e.2 = 0 := by omega
      have hb := hblk (Spec.exchanged l)
      have hgl := hg (Spec.exchanged l)
      cases im
      · simp [Spec.symPart, Spec.part, h1, h2, hb.1, hb.2, Arr2.ofFn_get']
        intro h
        exact hgl.1 (by linarith)
      · simp [Spec.symPart, Spec.part, h1, h2, hb.1, hb.2, Arr2.ofFn_get']
        intro h
        exact hgl.2 (by linarith), fun _ => ⟨by norm_num, hsc.1, hsc.2, fun h => by cases h⟩⟩)
  obtain ⟨L, hL, hLe⟩ := C167_lasso (w := demoWorld167 g) (cf := demoConf128) (a := demoArgs128) hn rfl rfl hd ⟨rfl, rfl⟩ rfl exactPinv_contract hm ⟨rfl, rfl⟩ ⟨rfl, rfl⟩ ⟨rfl, rfl⟩ hy hy
      (fun c res => demo167_flow g net c res) (demo167_reducible g) hsym demo167_nodes
    (ic := ⟨1, 1, 1, 1, 1, true, true, true⟩) (ext := demoExt115) (by norm_num) exactSolve_exact exactPinv_contract demoExt_shapes (b := demoArgs166 weighted)
    ⟨rfl, rfl, rfl⟩ (.inr (by simp [demoArgs166])) hit hr rfl rfl (ε := fun _ => 0) hz hσ hσ0 (fun _ => rfl) (fun _ => rfl)
  have hadm := (C167 (w := demoWorld167 g) (cf := demoConf128) (a := demoArgs128) hn rfl rfl hd ⟨rfl, rfl⟩ rfl exactPinv_contract hm ⟨rfl, rfl⟩ ⟨rfl, rfl⟩ ⟨rfl, rfl⟩ hy hy
      (fun c res => demo167_flow g net c res) (demo167_reducible g) hsym demo167_nodes).2
  refine ⟨d, r, σ, L, ?_⟩
  cases weighted with
  | false =>
    obtain ⟨yt, gs, prior, -, -, h3⟩ := C167_bayesian (w := demoWorld167 g) (cf := demoConf128) (a := demoArgs128) hn rfl rfl hd ⟨rfl, rfl⟩ rfl exactPinv_contract hm ⟨rfl, rfl⟩ ⟨rfl, rfl⟩ ⟨rfl, rfl⟩ hy hy
      (fun c res => demo167_flow g net c res) (demo167_reducible g) hsym demo167_nodes two_pos
      (ic := ⟨1, 1, 1, 1, 1, true, true, true⟩) (ext := demoExt115) (by norm_num) exactInv_contract exactSolve_exact exactSolve_total
      exactSvd_contract demoExt_shapes (b := demoArgs166 false) ⟨rfl, rfl, rfl, rfl⟩ (.inr (by simp [demoArgs166])) (.inr (by simp [demoArgs166]))
      hit (fun h => by cases h) hr rfl rfl (ε := fun _ => 0) hz hσ (fun l => by have := hσ0 l; linarith) (fun _ => rfl)
    obtain ⟨E, hE, hEe⟩ := h3 _ (fun _ => rfl) _ (.inl rfl)
    exact ⟨E, _, _, hd, hr, fun l => ⟨hσ0 l, hadm l, (hblk l).1⟩, hL, hLe, hE, hEe⟩
  | true =>
    obtain ⟨yt, gs, prior, W, -, h2, h3⟩ := C167_weighted (w := demoWorld167 g) (cf := demoConf128) (a := demoArgs128) hn rfl rfl hd ⟨rfl, rfl⟩ rfl exactPinv_contract hm ⟨rfl, rfl⟩ ⟨rfl, rfl⟩ ⟨rfl, rfl⟩ hy hy
      (fun c res => demo167_flow g net c res) (demo167_reducible g) hsym demo167_nodes le_rfl
      (ic := ⟨1, 1, 1, 1, 1, true, true, true⟩) (ext := demoExt115) (by norm_num) exactInv_contract exactSolve_exact
      exactSvd_contract demoExt_shapes (sc := sc) hsc (b := demoArgs166 true) ⟨rfl, rfl, rfl, rfl, rfl⟩ (.inr (by simp [demoArgs166]))
      (.inr (by simp [demoArgs166])) hit (fun h => by cases h) hr rfl rfl (ε := fun _ => 0) hz hσ (fun l => by have := hσ0 l; linarith) (fun _ => rfl)
    choose q Q hq using fun l => (h2 l).2.2.2.2
    obtain ⟨E, hE, hEe⟩ := h3 q Q hq _ (fun _ => rfl) _ (.inl rfl)
    exact ⟨E, _, _, hd, hr, fun l => ⟨hσ0 l, hadm l, (hblk l).1⟩, hL, hLe, hE, hEe⟩

end
end Verif
