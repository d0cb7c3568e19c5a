/-
Runs of both programs for the shipped three-phase networks that meet the hypotheses of C122_shipped and C141_three_shipped: the voltages
of one node after the other change, in all sequences.
-/
import Verif.Props.ShippedDemo
import Verif.Props.LassoExact3

namespace Verif
open Finset Net
open Spec (LabelPos Assembled columnsAt blockAt)
noncomputable section

/-! ### conversion of the voltages -/

/-- the phases of given sequence voltages `s l k` -/
def phaseVoltage (s : ℕ → ℕ → ℂ) (j : ℕ) : ℂ := ∑ l ∈ range 3, s l (j / 3) * abcBlock.get l (j % 3)

theorem phaseVoltage_seq (s : ℕ → ℕ → ℂ) (k : ℕ) {l : ℕ} (hl : l < 3) :
    ∑ p ∈ range 3, phaseVoltage s (k * 3 + p) * seqBlock.get p l = s l k := by
  have h1 : ∀ p ∈ range 3, phaseVoltage s (k * 3 + p) * seqBlock.get p l = ∑ a ∈ range 3, s a k * (abcBlock.get a p * seqBlock.get p l) := by
    intro p hp
    have hp := mem_range.1 hp
    unfold phaseVoltage
    rw [show (k * 3 + p) / 3 = k by omega, show (k * 3 + p) % 3 = p by omega, Finset.sum_mul]
    exact Finset.sum_congr rfl fun a _ => by ring
  rw [Finset.sum_congr rfl h1, Finset.sum_comm, Finset.sum_eq_single l]
  · rw [← Finset.mul_sum, abc_seq_entry hl hl, if_pos rfl, mul_one]
  · intro a ha hne
    rw [← Finset.mul_sum, abc_seq_entry (mem_range.1 ha) hl, if_neg hne, mul_zero]
  · intro h
    exact absurd (mem_range.2 hl) h

/-- entries of converted measurements -/
theorem measurement_entry {k : ℕ} {v vs : Arr2 ℂ} (hc : v.c = k * 3) (h : measurementPhaseToSequence v = .ok vs) :
    vs.r = v.r ∧ vs.c = k * 3 ∧ ∀ t a l, t < v.r → a < k → l < 3 → vs.get t (a * 3 + l) = ∑ p ∈ range 3, v.get t (a * 3 + p) * seqBlock.get p l := by
  obtain ⟨t1, t2, t3⟩ := tMatrix_mat k seqBlock block_shapes.2
  unfold measurementPhaseToSequence at h
  rw [hc] at h
  obtain ⟨m1, m2, m3, m4⟩ := matmul_entry h
  rw [t2] at m3
  refine ⟨m2, m3, fun t a l ht ha hl => ?_⟩
  rw [m4 t _ ht (by rw [t2]; omega), hc, sum_range_mul', Finset.sum_eq_single a]
  · refine Finset.sum_congr rfl fun p hp => ?_
    have hp := mem_range.1 hp
    have := congrFun (congrFun t3 ⟨a * 3 + p, by omega⟩) ⟨a * 3 + l, by omega⟩
    rw [show (tMatrix (k * 3) seqBlock).get (a * 3 + p) (a * 3 + l) = seqBlock.get p l from ?_]
    refine this.trans ?_
    unfold blockMat
    show (if (a * 3 + p) / 3 = (a * 3 + l) / 3 then seqBlock.get ((a * 3 + p) % 3) ((a * 3 + l) % 3) else 0) = _
    rw [if_pos (by omega), show (a * 3 + p) % 3 = p by omega, show (a * 3 + l) % 3 = l by omega]
  · intro b hb hne
    have hb := mem_range.1 hb
    refine Finset.sum_eq_zero fun p hp => ?_
    have hp := mem_range.1 hp
    have := congrFun (congrFun t3 ⟨b * 3 + p, by omega⟩) ⟨a * 3 + l, by omega⟩
    rw [show (tMatrix (k * 3) seqBlock).get (b * 3 + p) (a * 3 + l) = 0 from ?_, mul_zero]
    refine this.trans ?_
    unfold blockMat
    show (if (b * 3 + p) / 3 = (a * 3 + l) / 3 then seqBlock.get ((b * 3 + p) % 3) ((a * 3 + l) % 3) else 0) = _
    rw [if_neg (by omega)]
  · intro h
    exact absurd (mem_range.2 ha) h

/-- sequence voltages without current in each sequence network, positive and negative sequence exchanged, give phases without current -/
theorem phase_passive {n : ℕ} {y0 y1 y2 y : Arr2 ℂ} (h0 : Spec.IsSquare n y0) (h1 : Spec.IsSquare n y1) (h2 : Spec.IsSquare n y2)
    (hyy : makeYBus3 y0 y1 y2 = .ok y) {s : ℕ → ℕ → ℂ} {k : ℕ} (hk : k < n) (z0 : Spec.currents y0 (s 0) k = 0)
    (z1 : Spec.currents y2 (s 1) k = 0) (z2 : Spec.currents y1 (s 2) k = 0) {p : ℕ} (hp : p < 3) :
    Spec.currents y (phaseVoltage s) (k * 3 + p) = 0 := by
  obtain ⟨Y, hY, hsq, -⟩ := C62_networks n h0 h1 h2
  rw [hyy] at hY
  cases hY
  set v : Arr2 ℂ := Arr2.ofFn 1 (n * 3) (fun _ j => phaseVoltage s j) with hv
  obtain ⟨i, hi, ir, ic, -⟩ := Arr2.matmul_mat (A := v) (B := y) (m := 1) (k := n * 3) (n := n * 3) ⟨rfl, rfl⟩ hsq
  obtain ⟨-, vs, hvs, -⟩ := measurement_mat n v rfl
  obtain ⟨-, is, his, -⟩ := measurement_mat n i ic
  obtain ⟨-, s', -, -, hs', heq⟩ := sequence_exact h0 h1 h2 hyy hi hvs his
  obtain ⟨v1, v2, v3⟩ := measurement_entry (k := n) rfl hvs
  obtain ⟨i1, i2, i3⟩ := measurement_entry ic his
  have hvl : ∀ a < n, ∀ l < 3, vs.get 0 (a * 3 + l) = s l a := by
    intro a ha l hl
    rw [v3 0 a l one_pos ha hl, ← phaseVoltage_seq s a hl]
    refine Finset.sum_congr rfl fun p hp => ?_
    have hp := mem_range.1 hp
    rw [hv, Arr2.ofFn_get _ one_pos (by omega)]
  have hzero : ∀ l < 3, is.get 0 (k * 3 + l) = 0 := by
    intro l hl
    have e := columns_exact h0 h2 h1 hs' heq hl
    have hsq' : Spec.IsSquare n (if l = 0 then y0 else if l = 1 then y2 else y1) := by
      split
      · exact h0
      · split
        · exact h2
        · exact h1
    obtain ⟨-, -, -, e4⟩ := matmul_entry e
    have := e4 0 k (by show 0 < vs.r; rw [v1]; exact one_pos) (by rw [hsq'.2]; exact hk)
    unfold columnsAt at this
    rw [Arr2.ofFn_get _ (by rw [i1, ir]; exact one_pos) hk] at this
    rw [this]
    show ∑ a ∈ range n, _ = _
    have hc : ∀ a ∈ range n, (Arr2.ofFn vs.r n (fun t j => vs.get t (j * 3 + l))).get 0 a * (if l = 0 then y0 else if l = 1 then y2 else y1).get a k =
        s l a * (if l = 0 then y0 else if l = 1 then y2 else y1).get a k := by
      intro a ha
      have ha := mem_range.1 ha
      rw [Arr2.ofFn_get _ (by rw [v1]; exact one_pos) ha, hvl a ha l hl]
    rw [Finset.sum_congr rfl hc]
    unfold Spec.currents at z0 z1 z2
    rw [h0.1] at z0
    rw [h2.1] at z1
    rw [h1.1] at z2
    interval_cases l
    · exact z0
    · exact z1
    · exact z2
  have hcur : Spec.currents y (phaseVoltage s) (k * 3 + p) = i.get 0 (k * 3 + p) := by
    obtain ⟨-, -, -, m4⟩ := matmul_entry hi
    rw [m4 0 _ one_pos (by rw [hsq.2]; omega)]
    unfold Spec.currents
    rw [hsq.1]
    refine Finset.sum_congr rfl fun j hj => ?_
    have hj : j < n * 3 := mem_range.1 hj
    rw [hv, Arr2.ofFn_get _ one_pos hj]
  rw [hcur]
  have hback : ∑ l ∈ range 3, is.get 0 (k * 3 + l) * abcBlock.get l p = i.get 0 (k * 3 + p) := by
    have h1 : ∀ l ∈ range 3, is.get 0 (k * 3 + l) * abcBlock.get l p = ∑ q ∈ range 3, i.get 0 (k * 3 + q) * (seqBlock.get q l * abcBlock.get l p) := by
      intro l hl
      rw [i3 0 k l (by rw [ir]; exact one_pos) hk (mem_range.1 hl), Finset.sum_mul]
      exact Finset.sum_congr rfl fun a _ => by ring
    rw [Finset.sum_congr rfl h1, Finset.sum_comm, Finset.sum_eq_single p]
    · rw [← Finset.mul_sum, seq_abc_entry hp hp, if_pos rfl, mul_one]
    · intro a ha hne
      rw [← Finset.mul_sum, seq_abc_entry (mem_range.1 ha) hp, if_neg hne, mul_zero]
    · intro h
      exact absurd (mem_range.2 hp) h
  rw [← hback]
  exact Finset.sum_eq_zero fun l hl => by rw [hzero l (mem_range.1 hl), zero_mul]

/-- every column differs in a row of its own -/
theorem rank_steps {A : Arr2 ℂ} {m : ℕ} (hc : A.c = m) (hr : 0 < A.r) {e : ℕ → ℕ} (he : ∀ i < m, e i < A.r) (hval0 : ∀ j < m, A.get 0 j = 1)
    (hval : ∀ i < m, ∀ j < m, A.get (e i) j = if i = j then 2 else 1) : Spec.FullColumnRank (centreColumns A) := by
  intro x hx
  have hrow : ∀ t < A.r, ∑ j : Fin (centreColumns A).c, (centreColumns A).get t j * x j = 0 := fun t ht => congrFun hx ⟨t, ht⟩
  have hcc : (centreColumns A).c = m := hc
  funext j
  have hjc : (j : ℕ) < m := by have := j.2; omega
  have h0 := hrow 0 hr
  have h1 := hrow (e j) (he j hjc)
  have hsub : ∑ k : Fin (centreColumns A).c, (if k = j then x k else 0) = 0 := by
    have e' := sub_eq_zero.2 (h1.trans h0.symm)
    rw [← Finset.sum_sub_distrib] at e'
    refine (Finset.sum_congr rfl fun k _ => ?_).trans e'
    have hkc : (k : ℕ) < m := by have := k.2; omega
    have hg : ∀ t < A.r, (centreColumns A).get t k = A.get t k - (∑ s ∈ range A.r, A.get s k) / A.r := fun t ht =>
      Arr2.ofFn_get _ ht (by omega)
    rw [hg _ (he j hjc), hg _ hr, hval j hjc k hkc, hval0 k hkc]
    by_cases hkj : k = j
    · rw [if_pos hkj, if_pos (by rw [hkj])]
      ring
    · have : (j : ℕ) ≠ k := fun e => hkj (Fin.ext e.symm)
      rw [if_neg hkj, if_neg this]
      ring
  rw [Finset.sum_ite_eq' Finset.univ j x] at hsub
  simpa using hsub

/-! ### a power flow with prescribed voltages -/

/-- power flow with prescribed phase voltages `U t (3 k + p)` of `n` nodes for a day -/
def givenFlow3 (n : ℕ) (U : ℕ → ℕ → ℂ) (_ : Net) (_ : Controls3) : Except PyErr SimResult3 :=
  .ok ⟨fun p => Arr2.ofFn 1440 n (fun t k => ‖U t (k * 3 + p)‖), fun p => Arr2.ofFn 1440 n (fun t k => (U t (k * 3 + p)).arg * 180 / Real.pi)⟩

def givenWorld3 (n : ℕ) (U : ℕ → ℕ → ℂ) (y : Arr2 ℂ) : SimWorld := { shippedWorld3 with flow3 := givenFlow3 n U, yBus3 := fun _ => .ok y }

theorem givenWorld3_shipped (n : ℕ) (U : ℕ → ℕ → ℂ) (y : Arr2 ℂ) : (givenWorld3 n U y).Shipped := ⟨rfl, rfl, rfl, rfl, rfl⟩

theorem given_powerFlow3 {bs : List BusData} {y : Arr2 ℂ} (hy : y.r = bs.length * 3) {U : ℕ → ℕ → ℂ}
    (hc : ∀ k ∈ Spec.connections bs, ∀ t, ∀ p < 3, U t (k * 3 + p) = U 0 (k * 3 + p))
    (hp : ∀ k ∈ Spec.passive3 bs, ∀ t, ∀ p < 3, Spec.currents y (U t) (k * 3 + p) = 0) (net : Net) (c : Controls3) (res : SimResult3)
    (h : givenFlow3 bs.length U net c = .ok res) : Spec.PowerFlow3 bs y res := by
  cases h
  refine ⟨⟨1440, fun p => ⟨⟨rfl, rfl⟩, rfl, rfl⟩⟩, ?_, ?_⟩
  · intro k hk p t ht
    have hk' := connections_lt hk
    have ht' : t < 1440 := ht
    dsimp only
    rw [Arr2.ofFn_get _ ht' hk', Arr2.ofFn_get _ (by omega) hk', Arr2.ofFn_get _ ht' hk', Arr2.ofFn_get _ (by omega) hk', hc k hk t p p.2]
    exact ⟨rfl, rfl⟩
  · intro k hk p hp3 t ht
    have ht' : t < 1440 := ht
    rw [← hp k hk t p hp3]
    unfold Spec.currents
    refine Finset.sum_congr rfl fun j hj => ?_
    have hj' : j < bs.length * 3 := by rw [← hy]; exact mem_range.1 hj
    dsimp only
    rw [Arr2.ofFn_get _ ht' (by omega), Arr2.ofFn_get _ ht' (by omega), phasor_polar]
    unfold Spec.phaseOf
    dsimp only
    rw [show j / 3 * 3 + j % 3 = j by omega]

/-- the options of a run for all sequences -/
def demoArgs3 (name : String) : SimArgs := { demoArgs128 with network := name }

/-- the voltages stored for a run with prescribed sequence voltages, each of which stays for two minutes -/
theorem given_stored3 {V : ℕ → ℕ → ℕ → ℂ} {name : String} (hn : Spec.PlainName name) {net : Net} {bs : List BusData} {y0 y1 y2 y : Arr2 ℂ}
    {U : ℕ → ℕ → ℂ} (hU : U = fun t => phaseVoltage (V t))
    (hbs : makeNet3 (givenWorld3 bs.length U y) name = .ok (net, bs))
    (h0 : Spec.IsSquare bs.length y0) (h1 : Spec.IsSquare bs.length y1) (h2 : Spec.IsSquare bs.length y2) (hyy : makeYBus3 y0 y1 y2 = .ok y)
    (hf : ∀ c res, givenFlow3 bs.length U net c = .ok res → Spec.PowerFlow3 bs y res) (hr : Spec.Reducible3 bs y0 y1 y2)
    (hV : ∀ i, V (2 * i + 1) = V (2 * i))
    {st : Store} {d : NetworkData} (h : (simulate (givenWorld3 bs.length U y) demoConf128 (demoArgs3 name) st).res = .ok d) :
    ∃ K, Spec.Lists bs.length (Spec.passive3 bs ∪ Spec.connections bs) K ∧ d.voltage.r = 1439 ∧ d.voltage.c = K.length * 3 ∧
      ∀ i < 719, ∀ j < K.length, ∀ l < 3, d.voltage.get (2 * i) (j * 3 + l) = V (2 * i) l (K.getD j 0) := by
  obtain ⟨Y, hY, hsq, -⟩ := C62_networks bs.length h0 h1 h2
  rw [hyy] at hY
  cases hY
  obtain ⟨net', bs', l, s, n, hnet, hl, -, hs, -, hno, -, hd, -⟩ := C78_simulate3 (a := demoArgs3 name) hn rfl h
  have e : makeNet3 (givenWorld3 bs.length U y) name = .ok (net', bs') := hnet
  rw [hbs] at e
  cases e
  obtain ⟨-, ls, hnd⟩ := makeNet3_data hbs
  obtain ⟨⟨lp, hlp, hlc⟩, -⟩ := hl (Or.inr (by simp [demoArgs3, demoArgs128]))
  obtain ⟨hs, -⟩ := hs (Or.inr (by simp [demoArgs3, demoArgs128]))
  obtain ⟨hno, -⟩ := hno (Or.inr (by simp [demoArgs3, demoArgs128]))
  have hlp' : lp.days = 1 := by
    rcases hlp with ⟨h0, -⟩ | ⟨-, -, -, rfl⟩
    · exact absurd h0 (lt_irrefl _)
    · rfl
  obtain ⟨p, q, as, T⟩ := l
  have ht0 : T = minuteTimes 1 := by
    unfold computeLoads3 at hlc
    obtain ⟨⟨p, q, as⟩, -, hlc⟩ := Prior.bind_ok hlc
    obtain ⟨⟨p', q'⟩, -, hlc⟩ := Prior.bind_ok hlc
    obtain ⟨as', -, hlc⟩ := Prior.bind_ok hlc
    rw [hlp'] at hlc
    have := Except.ok.inj hlc
    simp only [Prod.mk.injEq] at this
    exact this.2.2.2.symm
  have hlast : Spec.last T = 86340 := by rw [ht0]; exact demo115_last
  have ht : Spec.Times T := by rw [ht0]; exact minuteTimes_times one_pos
  have hlen : T.length = 1440 := by rw [ht0, minuteTimes_length]
  have hTk : ∀ k < T.length, T.getD k 0 = 60 * k := by
    intro k hk
    rw [ht0] at hk ⊢
    exact minute_getD hk
  clear ht0
  -- the simulated voltages
  have hsv : s.1.r = 1440 ∧ s.1.c = bs.length * 3 ∧ s.2.1.c = bs.length * 3 ∧ ∀ t < 1440, ∀ j < bs.length * 3, s.1.get t j = U t j := by
    unfold simCompute3 at hs
    obtain ⟨y', h1, hs⟩ := Prior.bind_ok hs
    cases h1
    obtain ⟨res, hres, hs⟩ := Prior.bind_ok hs
    obtain ⟨o, ho, hs⟩ := Prior.bind_ok hs
    unfold simRun3 at hres
    obtain ⟨_, _, hres⟩ := Prior.bind_ok hres
    obtain ⟨_, _, hres⟩ := Prior.bind_ok hres
    obtain ⟨_, _, hres⟩ := Prior.bind_ok hres
    obtain ⟨_, _, hres⟩ := Prior.bind_ok hres
    obtain ⟨_, _, hres⟩ := Prior.bind_ok hres
    obtain ⟨_, _, hres⟩ := Prior.bind_ok hres
    obtain ⟨_, _, hres⟩ := Prior.bind_ok hres
    obtain ⟨_, _, hres⟩ := Prior.bind_ok hres
    have hr := (Except.ok.inj (show Except.ok _ = Except.ok res from hres)).symm
    obtain ⟨v, i, hvi, hvr, hvc, hpol, hohm⟩ := C84_three res y 1440 bs.length (fun p => by rw [hr]; exact ⟨rfl, rfl⟩)
      (fun p => by rw [hr]; exact ⟨rfl, rfl⟩) hsq.1
    subst hr
    have hvi' : getCurrentAndVoltage3 _ ((givenWorld3 bs.length U y).yBus3 net) = _ := hvi
    rw [hvi'] at ho
    cases ho
    cases hs
    refine ⟨hvr, hvc, hohm.2.1.trans hsq.2, fun t ht j hj => ?_⟩
    have := polar_eq_phasor (hpol t ht (j / 3) (by omega) (Spec.phaseOf j))
    have hj3 : j / 3 * 3 + ((Spec.phaseOf j : Fin 3) : ℕ) = j := by
      unfold Spec.phaseOf
      dsimp only
      omega
    rw [hj3] at this
    refine this.trans ?_
    dsimp only
    rw [Arr2.ofFn_get _ ht (by omega), Arr2.ofFn_get _ ht (by omega), phasor_polar, hj3]
  obtain ⟨sr, sc, sc', sv⟩ := hsv
  have hpos : 0 < bs.length := by
    have := hr.last
    have h : bs.length - 1 ∈ Spec.connections bs := by rw [this]; exact mem_singleton_self _
    have := connections_lt h
    omega
  dsimp only at hno
  obtain ⟨ts, f, t1, t2, t3⟩ := stage3_filter hno ht (by rw [sc, sc']) (by rw [sc]; omega) rfl
  -- the sampling times
  unfold rawTimes at t1
  obtain ⟨m', hm', t1⟩ := Prior.bind_ok t1
  obtain ⟨ts', hl', t1⟩ := Prior.bind_ok t1
  cases t1
  have hround : pyRound (Spec.last T * demoConf128.fmeas) = 1439 := by
    have : pyRound (1439 : ℝ) = 1439 := by simpa using pyRound_int 1439
    rw [hlast]
    show pyRound (86340 * (1 / 60)) = 1439
    rw [show (86340 : ℝ) * (1 / 60) = 1439 by norm_num, this]
  have hgrid : Spec.Grid T ts := ht.grid hl'
  rw [hround] at hl'
  unfold linspace at hl'
  rw [if_neg (by norm_num)] at hl'
  have hts := (Except.ok.inj hl').symm
  have htl : ts.length = 1439 := by rw [hts]; simp
  unfold averagingFactor at t2
  rw [htl, if_neg (by simp [demoConf128])] at t2
  have hf1 : f = 1 := by
    rw [← Except.ok.inj t2]
    rfl
  subst hf1
  obtain ⟨o, ho, or, oc, og⟩ := C68_blocks hgrid one_ne_zero (a := s.1) (by rw [sr, hlen])
  have ho' : o = n.voltage := Except.ok.inj (ho.symm.trans t3)
  subst ho'
  rw [htl, Nat.div_one] at or
  have htsk : ∀ k < 1438, ts.getD k 0 = 60 * (k + k / 1438) := by
    intro k hk
    rw [List.getD_eq_getElem _ _ (by omega)]
    simp only [hts, List.getElem_map, List.getElem_range]
    rw [hlast]
    norm_num
    ring
  have hnv : ∀ i < 719, ∀ j < bs.length * 3, n.voltage.get (2 * i) j = U (2 * i) j := by
    intro i hi j hj
    obtain ⟨r, r1, r2⟩ := og j (by rw [sc]; exact hj)
    rw [htl, Nat.div_one] at r2
    rw [r2 (2 * i) (by omega)]
    simp only [Finset.range_one, Finset.sum_singleton, mul_one, add_zero, Nat.cast_one, div_one]
    have := sample_constant (s := 2 * i) hTk (by omega) (htsk _ (by omega)) (r1 (2 * i) (by omega)) (by
      show s.1.get (2 * i + 1) _ = s.1.get (2 * i) _
      rw [sv _ (by omega) _ hj, sv _ (by omega) _ hj, hU]
      dsimp only
      rw [hV])
    rw [this]
    exact sv _ (by omega) _ hj
  obtain ⟨d', m, r, g1, -, -, g4, -, g6, g7, -, g9, -, -, K, g12, g13, g14, g15⟩ := network3_exact (w := givenWorld3 bs.length U y) (cf := demoConf128)
    (a := demoArgs3 name) rfl rfl rfl exactPinv_contract hnd h0 h1 h2 hyy rfl hf hr hs ht hno
  rw [hd] at g1
  cases g1
  subst g13
  obtain ⟨q1, q2, q3⟩ := measurement_entry (k := K.length) rfl g15
  have hcr : (columnsAt n.voltage (K.length * 3) (phaseAt K)).r = 1439 := or
  refine ⟨K, g12, q1.trans hcr, q2, fun i hi j hj l hl => ?_⟩
  rw [q3 _ j l (by omega) hj hl, ← phaseVoltage_seq (V (2 * i)) (K.getD j 0) hl]
  refine Finset.sum_congr rfl fun p hp => ?_
  have hp := mem_range.1 hp
  have hlt := phaseAt_lt g12 (i := j * 3 + p) (by omega)
  unfold columnsAt
  rw [Arr2.ofFn_get _ (by rw [or]; omega) (by omega), hnv i hi _ hlt, hU]
  unfold phaseAt
  rw [show (j * 3 + p) / 3 = j by omega, show (j * 3 + p) % 3 = p by omega]

theorem shipped3_small {name : String} {bs : List BusData} (h : shippedBuses3 name = some bs) : bs.length ≤ 56 := by
  unfold shippedBuses3 at h
  split_ifs at h <;> cases h <;> decide

theorem shipped3_names {name : String} {bs : List BusData} (h : shippedBuses3 name = some bs) :
    Spec.PlainName name ∧ ∀ b ∈ bs, Spec.DemandNonneg3 b := by
  unfold shippedBuses3 at h
  split_ifs at h with c1 c2 c3
  all_goals
    simp only [Option.some.injEq] at h
    subst h
  · exact ⟨templates_plain _ (by rw [c1]; decide), cigreFeeder3_nonneg⟩
  · exact ⟨templates_plain _ (by rw [c2]; decide), test3Phase_nonneg⟩
  · exact ⟨templates_plain _ (by rw [c3]; decide), ieee123Center_nonneg⟩

/-- for every shipped three-phase network there is a run without noise after which the centred voltages of each sequence are linearly
independent -/
theorem shipped3_excited {name : String} {bs : List BusData} (h : shippedBuses3 name = some bs) (st : Store) :
    ∃ (w : SimWorld) (d : NetworkData) (net : Net) (ls : List LineData) (y0 y1 y2 y : Arr2 ℂ),
      w.Shipped ∧ (simulate w demoConf128 (demoArgs3 name) st).res = .ok d ∧ Spec.PinvContract w.pinv ∧
      makeNet3 w name = .ok (net, bs) ∧ shippedLines3 name = some ls ∧
      Spec.GridBesides 1 bs (Spec.sequenceLines Spec.zero ls) y0 ∧ Spec.GridBesides 1 bs (Spec.sequenceLines Spec.positive ls) y1 ∧
      Spec.GridBesides 1 bs (Spec.sequenceLines Spec.positive ls) y2 ∧ makeYBus3 y0 y1 y2 = .ok y ∧ w.yBus3 net = .ok y ∧
      (∀ c res, w.flow3 net c = .ok res → Spec.PowerFlow3 bs y res) ∧
      ∀ l, Spec.FullColumnRank (centreColumns (columnsAt d.voltage (d.voltage.c / 3) (Spec.sequencePos l))) := by
  classical
  obtain ⟨hn, hnn⟩ := shipped3_names h
  have hsmall := shipped3_small h
  obtain ⟨-, ls, -, hls, -⟩ := C136_three (w := shippedWorld3) ⟨rfl, rfl, rfl, rfl, rfl⟩ h
  obtain ⟨y0, y1, y2, y, g0, g1, g2, hyy⟩ := sequence_matrices h hls (sn := 1)
  obtain ⟨-, hr⟩ := C136_three_matrices h hls one_pos g0 g1 g2
  have hRlt : ∀ k ∈ Spec.passive3 bs, k < bs.length := fun k hk => passive_lt (mem_inter.1 hk).1
  -- one node after the other changes its voltages
  let Q := (range bs.length).filter (fun k => k ∉ Spec.passive3 bs ∪ Spec.connections bs)
  let W : ℕ → ℕ → ℂ := fun i k => if k ∈ Q ∧ i = k + 1 then 2 else 1
  have hex : ∀ z : Arr2 ℂ, (z = y0 ∨ z = y1 ∨ z = y2) → ∀ i, ∃ v : ℕ → ℂ, (∀ k, k ∉ Spec.passive3 bs → v k = W i k) ∧
      ∀ s ∈ Spec.passive3 bs, Spec.currents z v s = 0 := by
    intro z hz i
    refine exists_voltages (fun s hs => ?_) (hr.regular z hz) (W i)
    have : z.r = bs.length := by rcases hz with rfl | rfl | rfl <;> [exact g0.1.1; exact g1.1.1; exact g2.1.1]
    rw [this]
    exact hRlt s hs
  choose v0 a0 b0 using hex y0 (Or.inl rfl)
  choose v1 a1 b1 using hex y2 (Or.inr (Or.inr rfl))
  choose v2 a2 b2 using hex y1 (Or.inr (Or.inl rfl))
  let V : ℕ → ℕ → ℕ → ℂ := fun t l k => if l = 0 then v0 (t / 2) k else if l = 1 then v1 (t / 2) k else v2 (t / 2) k
  have hVW : ∀ t l k, k ∉ Spec.passive3 bs → V t l k = W (t / 2) k := by
    intro t l k hk
    show (if l = 0 then v0 (t / 2) k else if l = 1 then v1 (t / 2) k else v2 (t / 2) k) = _
    rw [a0 _ k hk, a1 _ k hk, a2 _ k hk]
    simp
  let U : ℕ → ℕ → ℂ := fun t => phaseVoltage (V t)
  have hyr : y.r = bs.length * 3 := by
    obtain ⟨Y, hY, hsq, -⟩ := C62_networks bs.length g0.1 g1.1 g2.1
    rw [hyy] at hY
    cases hY
    exact hsq.1
  have hf : ∀ (net : Net) c res, givenFlow3 bs.length U net c = .ok res → Spec.PowerFlow3 bs y res := by
    intro net
    refine given_powerFlow3 hyr ?_ ?_ net
    · intro k hk t p hp
      have hkp : k ∉ Spec.passive3 bs := fun h' => passive_not_connection (mem_inter.1 h').1 hk
      show ∑ l ∈ range 3, _ = ∑ l ∈ range 3, _
      refine Finset.sum_congr rfl fun l _ => ?_
      rw [show (k * 3 + p) / 3 = k by omega, hVW _ _ _ hkp, hVW _ _ _ hkp]
      have hq : k ∉ Q := fun h' => (mem_filter.1 h').2 (mem_union_right _ hk)
      show (if k ∈ Q ∧ t / 2 = k + 1 then (2 : ℂ) else 1) * _ = (if k ∈ Q ∧ 0 / 2 = k + 1 then (2 : ℂ) else 1) * _
      rw [if_neg (fun h' => hq h'.1), if_neg (fun h' => hq h'.1)]
    · intro k hk t p hp
      exact phase_passive (s := V t) g0.1 g1.1 g2.1 hyy (hRlt k hk) (b0 (t / 2) k hk) (b1 (t / 2) k hk) (b2 (t / 2) k hk) hp
  obtain ⟨net, ls', -, hls', hm, -⟩ := C136_three (givenWorld3_shipped bs.length U y) h
  obtain ⟨d, hd⟩ := C123 (w := givenWorld3 bs.length U y) (cf := demoConf128) (a := demoArgs3 name) st rfl rfl ⟨rfl, rfl⟩ le_rfl (weeks := [0]) rfl
    ⟨by simp, by simp, fun f _ => ⟨_, rfl, by simp [demoConf128, flatFile], by simp [flatFile], fun t ht => flatFile_ne ht⟩⟩
    rfl exactPinv_contract ⟨le_rfl, le_rfl, le_rfl, le_rfl⟩
    (by simp [demoConf128]) (by simp [demoConf128]) (by simp [demoConf128]) (by simp [demoConf128]) (by
      show 1439 ≤ Spec.rawCount (minuteTimes 1) (1 / 60)
      rw [demo115_count]) hm hnn g0.1 g1.1 g2.1 hyy rfl (fun c hp _ _ _ _ => ⟨_, rfl, fun _ => by
        show 1440 = demoConf128.days * 1440
        rfl⟩) (hf net) hr
  obtain ⟨K, hK, hvr, hvc, hget⟩ := given_stored3 (V := V) hn rfl hm g0.1 g1.1 g2.1 hyy (hf net) hr (fun i => by
    show (fun l k => if l = 0 then v0 ((2 * i + 1) / 2) k else if l = 1 then v1 ((2 * i + 1) / 2) k else v2 ((2 * i + 1) / 2) k) = _
    rw [show (2 * i + 1) / 2 = 2 * i / 2 by omega]) hd
  refine ⟨_, d, net, ls, y0, y1, y2, y, givenWorld3_shipped bs.length U y, hd, exactPinv_contract, hm, hls, g0, g1, g2, hyy, rfl, hf net, fun l => ?_⟩
  rw [hvc, show K.length * 3 / 3 = K.length by omega]
  have hmem : ∀ j < K.length, K.getD j 0 ∈ K := by
    intro j hj
    rw [List.getD_eq_getElem _ _ hj]
    exact List.getElem_mem _
  have hKlt : ∀ j < K.length, K.getD j 0 < bs.length := fun j hj => ((hK.2 _).1 (hmem j hj)).1
  have hcol : ∀ i < 719, ∀ j < K.length, (columnsAt d.voltage K.length (Spec.sequencePos l)).get (2 * i) j = if i = K.getD j 0 + 1 then 2 else 1 := by
    intro i hi j hj
    have hq := (hK.2 _).1 (hmem j hj)
    unfold columnsAt
    rw [Arr2.ofFn_get _ (by omega) hj]
    have hp : Spec.sequencePos l j = j * 3 + l := by unfold Spec.sequencePos; omega
    rw [hp, hget i hi j hj l l.2, hVW _ _ _ (fun h' => hq.2 (mem_union_left _ h')), show 2 * i / 2 = i by omega]
    show (if K.getD j 0 ∈ Q ∧ i = K.getD j 0 + 1 then (2 : ℂ) else 1) = _
    have : K.getD j 0 ∈ Q := mem_filter.2 ⟨mem_range.2 hq.1, hq.2⟩
    simp only [this, true_and]
  refine rank_steps (e := fun i => 2 * (K.getD i 0 + 1)) rfl (by show 0 < d.voltage.r; omega) ?_ ?_ ?_
  · intro i hi
    have := hKlt i hi
    show 2 * (K.getD i 0 + 1) < d.voltage.r
    omega
  · intro j hj
    rw [show (0 : ℕ) = 2 * 0 from rfl, hcol 0 (by omega) j hj, if_neg (by omega)]
  · intro i hi j hj
    have := hKlt i hi
    rw [hcol _ (by omega) j hj]
    by_cases hij : i = j
    · rw [if_pos hij, if_pos (by rw [hij])]
    · rw [if_neg hij, if_neg]
      intro h'
      have h'' : K.getD i 0 = K.getD j 0 := Nat.add_right_cancel h'
      have hi' : i < K.length := hi
      have hj' : j < K.length := hj
      rw [List.getD_eq_getElem _ _ hi', List.getD_eq_getElem _ _ hj'] at h''
      exact hij ((List.Nodup.getElem_inj_iff hK.1).1 h'')

/-! ### identification -/

theorem scatter_one {ids : List Int} {a : Arr2 ℂ} (ha : Spec.IsSquare ids.length a) (i : Int) :
    ∃ a', a.scatter ids i (Arr2.eye 1) = .ok a' ∧ Spec.IsSquare ids.length a' := by
  unfold Arr2.scatter
  rw [if_pos ⟨ha.1.symm, ha.2.symm⟩]
  dsimp only
  split
  · exact ⟨_, rfl, ha⟩
  · rw [if_pos (show (Arr2.eye (α := ℂ) 1).r * (Arr2.eye (α := ℂ) 1).c = 1 from rfl)]
    exact ⟨_, rfl, ha⟩

/-- a stored matrix with a single entry is read for each label -/
theorem reload_one {ext : NumExt} {cf : IdConf} {name : String} {v c : Arr2 ℂ} {ids : List Int} {vsd isd : SdPolar} {ratings : List ℝ} {y0 : Arr2 ℂ}
    {weighted pmu : Bool} (hd : Spec.PhaseData ids v c ratings y0 none) (h0 : 0 ∈ ids) {st : Store}
    (hl : bayesianLoad st name = .ok (Arr2.eye 1, [])) :
    ∃ r, (bayesianEiv3 ext cf name v c ids vsd isd ratings y0 none false weighted 0 pmu st).res = .ok r := by
  have hstep : ∀ (a : Arr2 ℂ) (i : Int), Spec.IsSquare ids.length a → ∃ a', Spec.IsSquare ids.length a' ∧
      (bayesianStep ext cf name v c ids vsd isd ratings y0 none false weighted 0 pmu a i st).res = .ok (a', []) ∧
      (bayesianStep ext cf name v c ids vsd isd ratings y0 none false weighted 0 pmu a i st).store = st := by
    intro a i ha
    obtain ⟨m, f, hp⟩ := exists_labelPos ids i
    obtain ⟨a', ha', hsq⟩ := scatter_one ha i
    refine ⟨a', hsq, ?_, (quiet (fun file => bayesianStep_reload file) st).1⟩
    rw [bayesianStep_run hd hp]
    unfold labelRun
    rw [bayesian_reload_fst.1]
    obtain ⟨p, hpr, -⟩ := eiv_prior cf m (blockAt y0 m f) ⟨rfl, rfl⟩ none false (fun y hy => by cases hy) (fun h => by cases h.1)
    have hpr' : eivPrior cf (columnsAt v m f).c (blockAt y0 m f) (Option.map (fun y => blockAt y m f) none) false = .ok p := hpr
    rw [hpr']
    dsimp only [bind, Except.bind]
    rw [hl]
    dsimp only
    rw [ha']
  unfold bayesianEiv3
  rw [if_pos h0]
  obtain ⟨a0, q0, r0, s0⟩ := hstep (Arr2.zeros y0.r y0.c) 0 ⟨hd.init.1, hd.init.2⟩
  obtain ⟨a1, q1, r1, s1⟩ := hstep a0 1 q0
  obtain ⟨a2, q2, r2, s2⟩ := hstep a1 2 q1
  refine ⟨(a2, []), ?_⟩
  rw [Prog.bind_ok r0, s0]
  dsimp only
  rw [Prog.bind_ok r1, s1]
  dsimp only
  rw [Prog.bind_ok r2, s2]
  rfl

/-- identification of the three sequences; the result of the Bayesian method is read -/
def demoId3 (name : String) (K : ℕ) : IdArgs := ⟨name, K, true, false, false, "012", true, false, false, false, false, false⟩

/-- the hypotheses of C122_shipped and C141_three_shipped, and what they state, for every shipped three-phase network -/
theorem demo_C141_three_shipped {name : String} {bs : List BusData} (h : shippedBuses3 name = some bs) (sc : SimConf) {K : ℕ} (hK : 0 < K) :
    ∃ (w : SimWorld) (st : Store) (d : NetworkData) (r : (Arr2 ℂ × Arr2 ℂ × Arr2 ℂ) × (Arr2 ℂ × List IterationStatus)), w.Shipped ∧
      (simulate w demoConf128 (demoArgs3 name) st).res = .ok d ∧
      (identify demoExt115 demoIdConf sc (demoId3 name K) (simulate w demoConf128 (demoArgs3 name) st).store).res = .ok r ∧
      r.1.1 = d.y ∧ r.1.2.1 = d.y ∧ r.1.2.2 ≠ d.y := by
  obtain ⟨hn, -⟩ := shipped3_names h
  set st : Store := Store.savez (fun _ => none) (resultFile .bayesian name) (bayesianNpz (Arr2.eye 1, [])) with hst
  obtain ⟨w, d, net, ls, y0, y1, y2, y, hw, hd, hpi, hm, hls, g0, g1, g2, hyy, hy, hf, hrank⟩ := shipped3_excited h st
  obtain ⟨-, hr⟩ := C136_three_matrices h hls one_pos g0 g1 g2
  obtain ⟨m, rs, hclean, hids, hvc, hic, hmm, hsq, -, hass, heq, hfile, ⟨n3, n4, n5, n6, n7, -⟩, -⟩ := C122_data (a := demoArgs3 name) hn rfl rfl hd ⟨rfl, rfl⟩ rfl hpi hm
    g0.1 g1.1 g2.1 hyy hy hf hr
  obtain ⟨n1, n2⟩ := hclean rfl rfl rfl rfl
  have hrank' := hrank
  have hm0 : 0 < m := by rw [hmm]; exact shipped3_nonempty h
  rw [hvc, show m * 3 / 3 = m by omega] at hrank
  set st1 := (simulate w demoConf128 (demoArgs3 name) st).store with hst1
  have hbay : st1 (resultFile .bayesian name) = some (bayesianNpz (Arr2.eye 1, [])) := by
    have hf := (simulate_frame (w := w) (cf := demoConf128) (a := demoArgs3 name) (file := resultFile .bayesian name) (by
      intro s hs
      refine file_ne hn ?_
      simp only [List.mem_cons, List.not_mem_nil, or_false] at hs
      rcases hs with rfl | rfl | rfl | rfl <;> simp) st).1
    rw [hst1, hf, hst]
    exact savez_same ..
  have hlen : d.ids.length = m * 3 := by rw [hids]; simp [Spec.sequenceIds]
  have hpos : ∀ l : Fin 3, LabelPos d.ids (l.val : Int) m (Spec.sequencePos l) := by
    intro l
    rw [hids]
    exact labelPos_sequence m l
  have hstd : ∀ l, ∃ L, standardCompute demoExt115 demoIdConf (columnsAt d.noisyVoltage m (Spec.sequencePos l))
      (columnsAt d.noisyCurrent m (Spec.sequencePos l)) false K = .ok (rs (Spec.exchanged l), rs (Spec.exchanged l), L) := by
    intro l
    rw [n1, n2]
    obtain ⟨-, hrows, -⟩ := matmul_entry (heq l)
    obtain ⟨vh, hs, hvh⟩ := exactSvd_contract (Arr2.ofFn (centreColumns (columnsAt d.voltage m (Spec.sequencePos l))).r
      ((centreColumns (columnsAt d.voltage m (Spec.sequencePos l))).c + (centreColumns (columnsAt d.current m (Spec.sequencePos l))).c) _)
    obtain ⟨L, hL, -⟩ := standard_centred (lap := false) demoExt115 demoIdConf (by simp [demoIdConf]) exactInv_contract exactSolve_exact exactSolve_total
      exactPinv_contract ((hsq _).1.trans (hsq _).2.symm) (heq l) (hrank l) (if_pos hrows.symm) hs hvh K
    exact ⟨L, hL⟩
  choose L hL using hstd
  obtain ⟨r, hr1, -, rT, -⟩ := standardMethods3_ok (ext := demoExt115) (cf := demoIdConf) (name := name) (v := d.noisyVoltage) (c := d.noisyCurrent)
    (lap := false) (iters := K) demoExt_shapes (by rw [hlen, n4]) (by rw [hlen, n6]) hpos
    (rs := fun l => (rs (Spec.exchanged l), rs (Spec.exchanged l), L l)) hL
    (st1.savez (resultFile .reference name) (referenceNpz d.y "012" false))
  have hstand : (identifyStandard demoExt115 demoIdConf (demoId3 name K) d (st1.savez (resultFile .reference name)
      (referenceNpz d.y "012" false))).res = .ok r := hr1
  obtain ⟨yi, hyi, hsqi, -⟩ := halfSum_square rT.square
  have hd' : Spec.PhaseData d.ids d.noisyVoltage d.noisyCurrent d.ratings yi none :=
    ⟨by rw [hlen, n4], by rw [hlen, n6], by rw [hlen, n7], hsqi, fun y hy => by cases hy⟩
  have h0 : (0 : Int) ∈ d.ids := by
    rw [hids]
    exact List.mem_map.2 ⟨0, List.mem_range.2 (by omega), rfl⟩
  have hbr : resultFile .bayesian name ≠ resultFile .reference name := file_ne hn (by simp)
  have hbs : resultFile .bayesian name ≠ resultFile .standard name := file_ne hn (by simp)
  obtain ⟨b, hb⟩ := reload_one (ext := demoExt115) (cf := demoIdConf) (name := name) (vsd := averagedSd sc.vm sc.vp d.fparam)
    (isd := averagedSd sc.cm sc.cp d.fparam) (weighted := false) (pmu := true) hd' h0
    (st := (identifyStandard demoExt115 demoIdConf (demoId3 name K) d (st1.savez (resultFile .reference name)
      (referenceNpz d.y "012" false))).store) (by
      refine bayesian_loads ?_
      have := (standardMethods3_frame (ext := demoExt115) (cf := demoIdConf) (name := name) (v := some d.noisyVoltage)
        (c := some d.noisyCurrent) (ids := some d.ids) (lap := false) (iters := K) hbs (st1.savez (resultFile .reference name)
        (referenceNpz d.y "012" false))).1
      refine Eq.trans this ?_
      rw [savez_other hbr]
      exact hbay)
  have hload : networkLoad st1 name = .ok d := by
    have := C49_network name d st1 (h := []) ⟨hn, by simp⟩
    have e : st1.savez (resultFile .network name) (networkNpz d) = st1 := by
      funext f
      by_cases hfn : f = resultFile .network name
      · subst hfn; rw [savez_same]; exact hfile.symm
      · simp [Store.savez, hfn]
    rw [e] at this
    exact this
  have hid : (identify demoExt115 demoIdConf sc (demoId3 name K) st1).res = .ok (r, b) :=
    identify_of rfl rfl (by show checkPhases "012" true = _; decide) hload rfl hstand hyi hb
  obtain ⟨c1, c2, c3⟩ := C141_three_shipped hw (a := demoArgs3 name) hn rfl rfl hd ⟨rfl, rfl⟩ ⟨rfl, rfl, rfl, rfl⟩ rfl hpi hm hls one_pos g0 g1 g2 hyy hy hf
    (ext := demoExt115) (ic := demoIdConf) (by simp [demoIdConf]) exactInv_contract exactSolve_exact exactSolve_total exactPinv_contract exactSvd_contract
    demoExt_shapes hrank' (b := demoId3 name K) ⟨rfl, rfl, rfl⟩ (Or.inl rfl) hK hid
  exact ⟨w, st, d, _, hw, hd, hid, c1, c2, c3⟩

end
end Verif
