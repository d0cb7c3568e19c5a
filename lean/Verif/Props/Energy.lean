/-
C151, C152: the power that enters a simulated network is lost in its lines, and the stored matrices are those of passive networks
unless nodes with load are hidden.
-/
import Verif.Props.Connected
import Verif.Props.HiddenLoads

namespace Verif
open Finset Net
noncomputable section

namespace Spec

/-- complex power in per unit that enters `n` nodes with voltages `v` and injected currents `i` -/
def power (n : ℕ) (v i : ℕ → ℂ) : ℂ := ∑ k ∈ range n, v k * (starRingEnd ℂ) (i k)

/-- voltage of the bus with number `b` -/
def voltageOf (bs : List BusData) (v : ℕ → ℂ) (b : Int) : ℂ := v ((bs.map BusData.id).idxOf b)

/-- complex power lost in the lines in service -/
def lineLosses (sn : ℝ) (bs : List BusData) (ls : List LineData) (v : ℕ → ℂ) : ℂ :=
  ((ls.filter (fun l => 0 < l.status)).map (fun l =>
    (starRingEnd ℂ) (branch sn bs l) * (Complex.normSq (voltageOf bs v l.startBus - voltageOf bs v l.endBus) : ℂ))).sum

/-- whatever the voltages, the network does not deliver active power -/
def NoSource (y : Arr2 ℂ) : Prop := ∀ v : ℕ → ℂ, 0 ≤ (power y.r v (currents y v)).re

/-- it even consumes active power, unless all voltages are zero -/
def Dissipative (y : Arr2 ℂ) : Prop := ∀ v : ℕ → ℂ, (∃ k < y.r, v k ≠ 0) → 0 < (power y.r v (currents y v)).re

end Spec

theorem power_conj {n : ℕ} {y : Arr2 ℂ} (hr : y.r = n) (v : ℕ → ℂ) :
    (starRingEnd ℂ) (Spec.power n v (Spec.currents y v)) = ∑ i ∈ range n, ∑ j ∈ range n, v i * y.get i j * (starRingEnd ℂ) (v j) := by
  unfold Spec.power Spec.currents
  rw [map_sum, Finset.sum_comm, hr]
  refine Finset.sum_congr rfl fun j _ => ?_
  rw [map_mul, Complex.conj_conj, Finset.mul_sum]
  exact Finset.sum_congr rfl fun i _ => by ring

/-- power of a network without shunts -/
theorem power_energy {n : ℕ} {y : Arr2 ℂ} (hr : y.r = n) (hs : ∀ i j, y.get i j = y.get j i) (hz : ∀ i < n, ∑ j ∈ range n, y.get i j = 0)
    (v : ℕ → ℂ) : -2 * (starRingEnd ℂ) (Spec.power n v (Spec.currents y v)) =
      ∑ i ∈ range n, ∑ j ∈ range n, y.get i j * (Complex.normSq (v i - v j) : ℂ) := by
  rw [power_conj hr, energy hs hz v]

/-- the two positions of a line in service -/
theorem line_pairs {n : ℕ} {p q : ℕ} (hp : p < n) (hq : q < n) (b : ℂ) (v : ℕ → ℂ) :
    ∑ i ∈ range n, ∑ j ∈ range n, (if i ≠ j ∧ ((i = p ∧ j = q) ∨ (j = p ∧ i = q)) then b * (Complex.normSq (v i - v j) : ℂ) else 0) =
      2 * (b * (Complex.normSq (v p - v q) : ℂ)) := by
  by_cases hpq : p = q
  · subst hpq
    rw [sub_self, map_zero, Complex.ofReal_zero, mul_zero, mul_zero]
    refine Finset.sum_eq_zero fun i _ => Finset.sum_eq_zero fun j _ => if_neg ?_
    rintro ⟨h, ⟨h1, h2⟩ | ⟨h1, h2⟩⟩ <;> exact h (by rw [h1, h2])
  · have hsplit : ∀ i j, (if i ≠ j ∧ ((i = p ∧ j = q) ∨ (j = p ∧ i = q)) then b * (Complex.normSq (v i - v j) : ℂ) else 0) =
        (if i = p then (if j = q then b * (Complex.normSq (v p - v q) : ℂ) else 0) else 0) +
        (if i = q then (if j = p then b * (Complex.normSq (v p - v q) : ℂ) else 0) else 0) := by
      intro i j
      by_cases h1 : i = p
      · subst h1
        by_cases h2 : j = q
        · subst h2; simp [hpq]
        · simp [h2, hpq]
      · by_cases h2 : i = q
        · subst h2
          by_cases h3 : j = p
          · subst h3
            simp [h1, ← Complex.normSq_neg (v i - v j)]
          · simp [h1, h3]
        · simp [h1, h2]
    simp only [hsplit, Finset.sum_add_distrib]
    rw [Finset.sum_eq_single p, Finset.sum_eq_single q (f := fun i => ∑ j ∈ range n, if i = q then _ else _)]
    · simp [hp, hq, two_mul]
    · intro i _ hi; simp [hi]
    · intro h; exact absurd (Finset.mem_range.2 hq) h
    · intro i _ hi; simp [hi]
    · intro h; exact absurd (Finset.mem_range.2 hp) h

theorem idxOf_eq {bs : List BusData} (hn : (bs.map BusData.id).Nodup) {i : ℕ} (hi : i < bs.length) (b : Int) :
    b = bs[i].id ↔ (b ∈ bs.map BusData.id ∧ i = (bs.map BusData.id).idxOf b) := by
  constructor
  · rintro rfl
    have h := List.Nodup.idxOf_getElem hn i (by simpa using hi)
    rw [List.getElem_map] at h
    exact ⟨List.mem_map.2 ⟨_, List.getElem_mem hi, rfl⟩, h.symm⟩
  · rintro ⟨h, rfl⟩
    have := List.getElem_idxOf (xs := bs.map BusData.id) (x := b) (List.idxOf_lt_length_of_mem h)
    rw [List.getElem_map] at this
    exact this.symm

/-- C151: the power that enters all nodes of the network is what its lines lose -/
theorem C151_balance {sn : ℝ} {bs : List BusData} {ls : List LineData} {y : Arr2 ℂ} (hb : Spec.Buildable bs ls)
    (hg : Spec.IsGridMatrix sn bs ls y) (v : ℕ → ℂ) :
    Spec.power bs.length v (Spec.currents y v) = Spec.lineLosses sn bs ls v := by
  have hen := power_energy hg.square.1 (gridMatrix_symm hg) hg.rows v
  have hterm : ∀ i ∈ range bs.length, ∀ j ∈ range bs.length, y.get i j * (Complex.normSq (v i - v j) : ℂ) =
      - ((ls.filter (fun l => 0 < l.status)).map (fun l => if i ≠ j ∧ ((i = (bs.map BusData.id).idxOf l.startBus ∧
        j = (bs.map BusData.id).idxOf l.endBus) ∨ (j = (bs.map BusData.id).idxOf l.startBus ∧ i = (bs.map BusData.id).idxOf l.endBus))
        then Spec.branch sn bs l * (Complex.normSq (v i - v j) : ℂ) else 0)).sum := by
    intro i hi j hj
    have hi := Finset.mem_range.1 hi
    have hj := Finset.mem_range.1 hj
    by_cases hij : i = j
    · subst hij
      simp
    rw [hg.off i j hi hj hij, neg_mul, neg_inj, ← List.sum_map_mul_right]
    have hmem : ∀ l ∈ ls, 0 < l.status → (((l.startBus = bs[i].id ∧ l.endBus = bs[j].id) ∨ (l.startBus = bs[j].id ∧ l.endBus = bs[i].id)) ↔
        (i ≠ j ∧ ((i = (bs.map BusData.id).idxOf l.startBus ∧
        j = (bs.map BusData.id).idxOf l.endBus) ∨ (j = (bs.map BusData.id).idxOf l.startBus ∧ i = (bs.map BusData.id).idxOf l.endBus)))) := by
      intro l hl hs
      obtain ⟨m1, m2, -⟩ := hb.ends l hl hs
      rw [idxOf_eq hb.nodup hi, idxOf_eq hb.nodup hj, idxOf_eq hb.nodup hi, idxOf_eq hb.nodup hj]
      tauto
    clear hen hg
    induction ls with
    | nil => rfl
    | cons l ls ih =>
      have ih' := ih ⟨hb.nodup, hb.sym, fun l hl => hb.ends l (List.mem_cons_of_mem _ hl)⟩ (fun l hl => hmem l (List.mem_cons_of_mem _ hl))
      by_cases hs : 0 < l.status
      · rw [List.filter_cons_of_pos (p := fun l : LineData => decide (0 < l.status)) (by simpa using hs), List.map_cons, List.sum_cons, ← ih']
        have hm := hmem l (by simp) hs
        by_cases hc : (l.startBus = bs[i].id ∧ l.endBus = bs[j].id) ∨ (l.startBus = bs[j].id ∧ l.endBus = bs[i].id)
        · rw [List.filter_cons_of_pos (by simpa using ⟨hs, hc⟩), List.map_cons, List.sum_cons, if_pos (hm.1 hc)]
        · rw [List.filter_cons_of_neg (by simp only [decide_eq_true_eq]; exact fun h => hc h.2), if_neg (fun h => hc (hm.2 h)), zero_add]
      · rw [List.filter_cons_of_neg (p := fun l : LineData => decide (0 < l.status)) (by simpa using hs), ← ih',
          List.filter_cons_of_neg (by simp only [decide_eq_true_eq]; exact fun h => hs h.1)]
  have hsum : ∑ i ∈ range bs.length, ∑ j ∈ range bs.length, y.get i j * (Complex.normSq (v i - v j) : ℂ) =
      -2 * (starRingEnd ℂ) (Spec.lineLosses sn bs ls v) := by
    rw [Finset.sum_congr rfl fun i hi => Finset.sum_congr rfl fun j hj => hterm i hi j hj]
    simp only [Finset.sum_neg_distrib]
    rw [neg_mul, neg_inj, Finset.sum_congr rfl (fun i _ => sum_list_comm _ _ _), sum_list_comm]
    unfold Spec.lineLosses
    rw [map_list_sum, List.map_map, ← List.sum_map_mul_left]
    congr 1
    refine List.map_congr_left fun l hl => ?_
    obtain ⟨hl, hs⟩ := List.mem_filter.1 hl
    obtain ⟨m1, m2, -⟩ := hb.ends l hl (by simpa using hs)
    rw [line_pairs (by simpa using List.idxOf_lt_length_of_mem m1) (by simpa using List.idxOf_lt_length_of_mem m2)]
    simp [Spec.voltageOf]
  rw [hsum] at hen
  have h2 : (-2 : ℂ) ≠ 0 := by norm_num
  exact (starRingEnd ℂ).injective (mul_left_cancel₀ h2 hen)

/-- C151: the losses are not negative, and zero exactly when lines join nodes of equal voltage only -/
theorem C151_losses {sn : ℝ} (hsn : 0 < sn) {bs : List BusData} {ls : List LineData} (hb : Spec.Buildable bs ls) (hR : Spec.Resistive bs ls)
    (v : ℕ → ℂ) : 0 ≤ (Spec.lineLosses sn bs ls v).re ∧
      ((Spec.lineLosses sn bs ls v).re = 0 ↔ ∀ i j, Spec.Joined bs ls i j → v i = v j) := by
  have hre : (Spec.lineLosses sn bs ls v).re = ((ls.filter (fun l => 0 < l.status)).map (fun l => (Spec.branch sn bs l).re *
      Complex.normSq (Spec.voltageOf bs v l.startBus - Spec.voltageOf bs v l.endBus))).sum := by
    unfold Spec.lineLosses
    change Complex.reAddGroupHom (List.sum _) = _
    rw [map_list_sum, List.map_map]
    congr 1
    refine List.map_congr_left fun l _ => ?_
    simp [Complex.re_mul_ofReal]
  have hpos : ∀ l ∈ ls.filter (fun l => 0 < l.status), 0 < (Spec.branch sn bs l).re := by
    intro l hl
    obtain ⟨h1, h2⟩ := List.mem_filter.1 hl
    obtain ⟨h3, h4⟩ := hR l h1 (by simpa using h2)
    exact branch_re_pos hsn h3 h4
  have hnn : ∀ x ∈ (ls.filter (fun l => 0 < l.status)).map (fun l => (Spec.branch sn bs l).re *
      Complex.normSq (Spec.voltageOf bs v l.startBus - Spec.voltageOf bs v l.endBus)), 0 ≤ x := by
    intro x hx
    obtain ⟨l, hl, rfl⟩ := List.mem_map.1 hx
    exact mul_nonneg (hpos l hl).le (Complex.normSq_nonneg _)
  rw [hre]
  refine ⟨List.sum_nonneg hnn, ?_⟩
  constructor
  · intro h0 i j hij
    obtain ⟨hi, hj, l, hl, hs, he⟩ := hij
    have hlm : l ∈ ls.filter (fun l => 0 < l.status) := List.mem_filter.2 ⟨hl, by simpa using hs⟩
    have hmm := List.mem_map_of_mem (f := fun l => (Spec.branch sn bs l).re *
      Complex.normSq (Spec.voltageOf bs v l.startBus - Spec.voltageOf bs v l.endBus)) hlm
    have hz := le_antisymm ((List.single_le_sum hnn _ hmm).trans h0.le) (hnn _ hmm)
    have hv : Spec.voltageOf bs v l.startBus = Spec.voltageOf bs v l.endBus := by
      rcases mul_eq_zero.1 hz with h | h
      · exact absurd h (hpos l hlm).ne'
      · exact sub_eq_zero.1 (Complex.normSq_eq_zero.1 h)
    unfold Spec.voltageOf at hv
    rcases he with ⟨e1, e2⟩ | ⟨e1, e2⟩
    · rw [← ((idxOf_eq hb.nodup hi _).1 e1).2, ← ((idxOf_eq hb.nodup hj _).1 e2).2] at hv
      exact hv
    · rw [← ((idxOf_eq hb.nodup hj _).1 e1).2, ← ((idxOf_eq hb.nodup hi _).1 e2).2] at hv
      exact hv.symm
  · intro h
    refine List.sum_eq_zero fun x hx => ?_
    obtain ⟨l, hl, rfl⟩ := List.mem_map.1 hx
    obtain ⟨h1, h2⟩ := List.mem_filter.1 hl
    have hs : 0 < l.status := by simpa using h2
    obtain ⟨m1, m2, -⟩ := hb.ends l h1 hs
    have hi : (bs.map BusData.id).idxOf l.startBus < bs.length := by simpa using List.idxOf_lt_length_of_mem m1
    have hj : (bs.map BusData.id).idxOf l.endBus < bs.length := by simpa using List.idxOf_lt_length_of_mem m2
    have hv := h _ _ ⟨hi, hj, l, h1, hs, Or.inl ⟨(idxOf_eq hb.nodup hi _).2 ⟨m1, rfl⟩, (idxOf_eq hb.nodup hj _).2 ⟨m2, rfl⟩⟩⟩
    unfold Spec.voltageOf
    rw [hv, sub_self, map_zero, mul_zero]

theorem sim_matmul {flow : Net → Controls → Except PyErr SimResult} {yBus : Net → Except PyErr (Arr2 ℂ)} {net : Net} {p q : Arr2 ℝ}
    {s : Arr2 ℂ × Arr2 ℂ × Arr2 ℂ} (h : simCompute flow yBus net p q = .ok s) {y : Arr2 ℂ} (hy : yBus net = .ok y) :
    s.1.matmul y = .ok s.2.1 ∧ s.2.2 = y := by
  unfold simCompute at h
  rw [hy] at h
  obtain ⟨y', h1, h⟩ := Prior.bind_ok h
  cases h1
  obtain ⟨res, hres, h⟩ := Prior.bind_ok h
  obtain ⟨o, ho, h⟩ := Prior.bind_ok h
  unfold getCurrentAndVoltage at ho
  obtain ⟨v, hv, ho⟩ := Prior.bind_ok ho
  obtain ⟨y', h1, ho⟩ := Prior.bind_ok ho
  cases h1
  obtain ⟨i, hi, ho⟩ := Prior.bind_ok ho
  cases ho
  cases h
  exact ⟨hi, rfl⟩

/-- C151: in what a simulation returns, at every time the power that enters all nodes is what the lines of the template lose -/
theorem C151_simulated {w : SimWorld} {name : String} {net : Net} {bs : List BusData} (hbs : makeNet w name = .ok (net, bs)) {sn : ℝ}
    (hy : w.yBus net = .ok (net.makeYBus sn)) {p q : Arr2 ℝ} {s : Arr2 ℂ × Arr2 ℂ × Arr2 ℂ}
    (hs : simCompute w.flow w.yBus net p q = .ok s) :
    ∃ ls, w.lines name = some ls ∧ ∀ t, t < s.1.r →
      Spec.power bs.length (s.1.get t) (s.2.1.get t) = Spec.lineLosses sn bs ls (s.1.get t) := by
  obtain ⟨ls, h1, hl, hb, -⟩ := C133_single hbs
  obtain ⟨ls', hl', hg⟩ := C133_ybus hbs sn
  rw [hl] at hl'
  cases hl'
  refine ⟨ls, hl, fun t ht => ?_⟩
  rw [← C151_balance hb hg]
  obtain ⟨e1, e2⟩ := sim_matmul hs hy
  obtain ⟨m1, m2, m3, m4⟩ := matmul_entry e1
  have hyr : (net.makeYBus sn).r = bs.length := hg.square.1
  have hyc : (net.makeYBus sn).c = bs.length := hg.square.2
  unfold Spec.power
  refine Finset.sum_congr rfl fun k hk => ?_
  rw [m4 t k ht (by rw [hyc]; exact Finset.mem_range.1 hk), Spec.currents, m1]

theorem currents_shunts {y : Arr2 ℂ} (hy : y.c = y.r) (d v : ℕ → ℂ) {s : ℕ} (hs : s < y.r) :
    Spec.currents (Spec.withShunts y d) v s = Spec.currents y v s + d s * v s := by
  unfold Spec.currents
  have hr : (Spec.withShunts y d).r = y.r := rfl
  have hget : ∀ i ∈ range y.r, v i * (Spec.withShunts y d).get i s = v i * y.get i s + if i = s then d s * v s else 0 := by
    intro i hi
    unfold Spec.withShunts
    rw [Arr2.ofFn_get _ (Finset.mem_range.1 hi) (by rw [hy]; exact hs)]
    split
    · rename_i h; rw [h]; ring
    · ring
  rw [hr, Finset.sum_congr rfl hget, Finset.sum_add_distrib, Finset.sum_ite_eq' (range y.r) s, if_pos (Finset.mem_range.2 hs)]

theorem sum_kept {n : ℕ} {S : Finset ℕ} (hS : ∀ s ∈ S, s < n) {K : List ℕ} (hK : Spec.Lists n S K) (f : ℕ → ℂ) :
    ∑ k ∈ range n, f k = ∑ a ∈ range K.length, f (K.getD a 0) + ∑ s ∈ S, f s := by
  have h1 : ∑ a ∈ range K.length, f (K.getD a 0) = ∑ k ∈ K.toFinset, f k := by
    rw [List.sum_toFinset _ hK.1, ← Fin.sum_univ_eq_sum_range (fun a => f (K.getD a 0)), ← List.sum_ofFn]
    congr 1
    refine List.ext_getElem (by simp) fun a h1 h2 => ?_
    simp at h1 h2
    simp [h1]
  have h2 : range n = K.toFinset ∪ S := by
    ext k
    rw [Finset.mem_union, List.mem_toFinset, hK.2, Finset.mem_range]
    exact ⟨fun h => by tauto, fun h => h.elim And.left (hS k)⟩
  rw [h1, h2, Finset.sum_union]
  refine Finset.disjoint_left.2 fun k hk hs => ?_
  exact ((hK.2 k).1 (List.mem_toFinset.1 hk)).2 hs

/-- power of a reduced network: that of the whole network with the voltages which the eliminated nodes take, and of their shunts -/
theorem grounded_power {y red : Arr2 ℂ} {n : ℕ} (hy : Spec.IsSquare n y) {d : ℕ → ℂ} {C S : Finset ℕ} (hC : ∀ c ∈ C, c < n)
    (hS : ∀ s ∈ S, s < n) (hCS : Disjoint C S) (hns : Spec.BlockNonsingular (Spec.withShunts y d) S) {K : List ℕ}
    (hK : Spec.Lists n (C ∪ S) K) (hr : Spec.Grounded y d C S K red) (u : ℕ → ℂ) :
    ∃ v : ℕ → ℂ, (∀ a < K.length, v (K.getD a 0) = u a) ∧ (∀ c ∈ C, v c = 0) ∧ (∀ s ∈ S, Spec.currents y v s = - (d s * v s)) ∧
      Spec.power red.r u (Spec.currents red u) =
        Spec.power n v (Spec.currents y v) + ∑ s ∈ S, (starRingEnd ℂ) (d s) * (Complex.normSq (v s) : ℂ) := by
  obtain ⟨v, hv, hc⟩ := exists_voltages (y := Spec.withShunts y d) (fun s hs => show s < y.r by rw [hy.1]; exact hS s hs) hns
    (fun k => if k ∈ K then u (K.idxOf k) else 0)
  have hvK : ∀ a < K.length, v (K.getD a 0) = u a := by
    intro a ha
    have hm : K.getD a 0 ∈ K := getD_mem ha
    have hn := ((hK.2 _).1 hm).2
    rw [hv _ (fun h => hn (Finset.mem_union_right _ h)), if_pos hm]
    congr 1
    rw [List.getD_eq_getElem _ _ ha]
    exact List.Nodup.idxOf_getElem hK.1 a ha
  have hvC : ∀ c ∈ C, v c = 0 := by
    intro c hc
    rw [hv c (Finset.disjoint_left.1 hCS hc), if_neg]
    intro h
    exact ((hK.2 c).1 h).2 (Finset.mem_union_left _ hc)
  have hcS : ∀ s ∈ S, Spec.currents y v s = - (d s * v s) := by
    intro s hs
    have := hc s hs
    rw [currents_shunts (hy.2.trans hy.1.symm) d v (by rw [hy.1]; exact hS s hs)] at this
    exact eq_neg_of_add_eq_zero_left this
  refine ⟨v, hvK, hvC, hcS, ?_⟩
  have hsub : ∀ s ∈ C ∪ S, s < n := fun s hs => (Finset.mem_union.1 hs).elim (hC s) (hS s)
  have e1 : Spec.power n v (Spec.currents y v) = ∑ a ∈ range K.length, u a * (starRingEnd ℂ) (Spec.currents red u a) -
      ∑ s ∈ S, (starRingEnd ℂ) (d s) * (Complex.normSq (v s) : ℂ) := by
    unfold Spec.power
    rw [sum_kept hsub hK, Finset.sum_union hCS, Finset.sum_eq_zero (s := C) (fun c hc => by rw [hvC c hc, zero_mul]), zero_add,
      sub_eq_add_neg, ← Finset.sum_neg_distrib]
    congr 1
    · refine Finset.sum_congr rfl fun a ha => ?_
      have ha := Finset.mem_range.1 ha
      rw [← hr.2.2 v hvC hcS a ha, hvK a ha]
      congr 2
      unfold Spec.currents
      refine Finset.sum_congr rfl fun i hi => ?_
      show v (K.getD i 0) * _ = _
      rw [hvK i (by rw [← hr.1]; exact Finset.mem_range.1 hi)]
    · refine Finset.sum_congr rfl fun s hs => ?_
      rw [hcS s hs, map_neg, map_mul, ← Complex.mul_conj]
      ring
  rw [e1, sub_add_cancel, Spec.power, hr.1]

theorem grounded_of_equivalent {y red : Arr2 ℂ} {S : Finset ℕ} {K : List ℕ} (h : Spec.Equivalent y S K red) :
    Spec.Grounded y (fun _ => 0) ∅ S K red :=
  ⟨h.1, h.2.1, fun v _ hs => h.2.2 v fun s hm => by rw [hs s hm, zero_mul, neg_zero]⟩

theorem withShunts_zero {y : Arr2 ℂ} : Spec.withShunts y (fun _ => 0) = y :=
  Arr2.ext' (A := Spec.withShunts y (fun _ => 0)) (B := y) rfl rfl fun i j hi hj => by
    have hi : i < y.r := hi
    have hj : j < y.c := hj
    unfold Spec.withShunts
    rw [Arr2.ofFn_get _ hi hj, ite_self, add_zero]

/-- C151: elimination of nodes without current keeps the power: it is that of the whole network with the voltages which these nodes
take -/
theorem C151_reduced {y red : Arr2 ℂ} {n : ℕ} (hy : Spec.IsSquare n y) {S : Finset ℕ} (hS : ∀ s ∈ S, s < n) (hns : Spec.BlockNonsingular y S)
    {K : List ℕ} (hK : Spec.Lists n S K) (hr : Spec.Equivalent y S K red) (u : ℕ → ℂ) :
    ∃ v : ℕ → ℂ, (∀ a < K.length, v (K.getD a 0) = u a) ∧ (∀ s ∈ S, Spec.currents y v s = 0) ∧
      Spec.power red.r u (Spec.currents red u) = Spec.power n v (Spec.currents y v) := by
  obtain ⟨v, h1, -, h3, h4⟩ := grounded_power hy (C := ∅) (d := fun _ => 0) (by simp) hS (by simp) (by rw [withShunts_zero]; exact hns)
    (by rw [Finset.empty_union]; exact hK) (grounded_of_equivalent hr) u
  refine ⟨v, h1, fun s hs => by rw [h3 s hs, zero_mul, neg_zero], ?_⟩
  rw [h4]
  simp

/-! ### C152: stored matrices -/

theorem equal_connected {bs : List BusData} {ls : List LineData} {v : ℕ → ℂ} (h : ∀ i j, Spec.Joined bs ls i j → v i = v j) {i j : ℕ}
    (hij : Spec.Connected bs ls i j) : v i = v j := by
  induction hij with
  | refl => rfl
  | tail _ h2 ih => exact ih.trans (h _ _ h2)

/-- loads that consume power do not prevent an elimination -/
theorem shunts_nonsingular {sn : ℝ} (hsn : 0 < sn) {bs : List BusData} {ls : List LineData} {y : Arr2 ℂ} (hb : Spec.Buildable bs ls)
    (hg : Spec.IsGridMatrix sn bs ls y) (hR : Spec.Resistive bs ls) {d : ℕ → ℂ} {S : Finset ℕ} (hS : ∀ s ∈ S, s < bs.length)
    (hd : ∀ s ∈ S, 0 ≤ (d s).re) (hconn : ∀ i ∈ S, ∃ j, j < bs.length ∧ j ∉ S ∧ Spec.Connected bs ls i j) :
    Spec.BlockNonsingular (Spec.withShunts y d) S := by
  intro u hu
  set v : ℕ → ℂ := fun k => if k ∈ S then u k else 0 with hv
  have hcur : ∀ s ∈ S, Spec.currents y v s = - (d s * v s) := by
    intro s hs
    have h1 := currents_shunts (hg.square.2.trans hg.square.1.symm) d v (s := s) (by rw [hg.square.1]; exact hS s hs)
    have h2 : Spec.currents (Spec.withShunts y d) v s = 0 := by
      rw [← hu s hs, Spec.currents]
      refine (Finset.sum_subset (s₁ := S) ?_ ?_).symm.trans ?_
      · intro i hi
        exact Finset.mem_range.2 (show i < y.r by rw [hg.square.1]; exact hS i hi)
      · intro i _ hi
        simp only [hv, if_neg hi, zero_mul]
      · exact Finset.sum_congr rfl fun i hi => by simp only [hv, if_pos hi]
    rw [h2] at h1
    exact eq_neg_of_add_eq_zero_left h1.symm
  have hpow : (Spec.power bs.length v (Spec.currents y v)).re = - ∑ s ∈ S, (d s).re * Complex.normSq (v s) := by
    unfold Spec.power
    rw [← Finset.sum_subset (s₁ := S) (fun i hi => Finset.mem_range.2 (hS i hi)) (fun i _ hi => by simp only [hv, if_neg hi, zero_mul]),
      Complex.re_sum, ← Finset.sum_neg_distrib]
    refine Finset.sum_congr rfl fun s hs => ?_
    rw [hcur s hs, map_neg, map_mul, show v s * -((starRingEnd ℂ) (d s) * (starRingEnd ℂ) (v s)) =
      -((starRingEnd ℂ) (d s) * (v s * (starRingEnd ℂ) (v s))) by ring, Complex.mul_conj, Complex.neg_re, Complex.re_mul_ofReal,
      Complex.conj_re]
  rw [C151_balance hb hg] at hpow
  obtain ⟨l1, l2⟩ := C151_losses hsn hb hR v
  have hnn : 0 ≤ ∑ s ∈ S, (d s).re * Complex.normSq (v s) := Finset.sum_nonneg fun s hs => mul_nonneg (hd s hs) (Complex.normSq_nonneg _)
  have heq := l2.1 (by linarith)
  intro i hi
  obtain ⟨j, _, hj, hij⟩ := hconn i hi
  have h := equal_connected heq hij
  simp only [hv, if_pos hi, if_neg hj] at h
  exact h

/-- a network whose grounded nodes and loaded nodes are eliminated -/
theorem grounded_noSource {sn : ℝ} (hsn : 0 < sn) {bs : List BusData} {ls : List LineData} {y red : Arr2 ℂ} (hb : Spec.Buildable bs ls)
    (hg : Spec.IsGridMatrix sn bs ls y) (hR : Spec.Resistive bs ls) {d : ℕ → ℂ} {C S : Finset ℕ} (hC : ∀ c ∈ C, c < bs.length)
    (hS : ∀ s ∈ S, s < bs.length) (hCS : Disjoint C S) (hns : Spec.BlockNonsingular (Spec.withShunts y d) S) {K : List ℕ}
    (hK : Spec.Lists bs.length (C ∪ S) K) (hr : Spec.Grounded y d C S K red) (hd : ∀ s ∈ S, 0 ≤ (d s).re) :
    Spec.NoSource red ∧ ((∀ k ∈ K, ∃ c ∈ C, Spec.Connected bs ls k c) → Spec.Dissipative red) := by
  have key : ∀ u : ℕ → ℂ, ∃ v : ℕ → ℂ, (∀ a < K.length, v (K.getD a 0) = u a) ∧ (∀ c ∈ C, v c = 0) ∧
      (Spec.lineLosses sn bs ls v).re ≤ (Spec.power red.r u (Spec.currents red u)).re := by
    intro u
    obtain ⟨v, h1, h2, -, h4⟩ := grounded_power hg.square hC hS hCS hns hK hr u
    refine ⟨v, h1, h2, ?_⟩
    rw [h4, C151_balance hb hg, Complex.add_re, Complex.re_sum]
    refine le_add_of_nonneg_right (Finset.sum_nonneg fun s hs => ?_)
    rw [Complex.re_mul_ofReal, Complex.conj_re]
    exact mul_nonneg (hd s hs) (Complex.normSq_nonneg _)
  refine ⟨fun u => ?_, fun hconn u hu => ?_⟩
  · obtain ⟨v, -, -, h⟩ := key u
    exact (C151_losses hsn hb hR v).1.trans h
  · obtain ⟨v, h1, h2, h⟩ := key u
    obtain ⟨l1, l2⟩ := C151_losses hsn hb hR v
    refine lt_of_lt_of_le (lt_of_le_of_ne l1 fun h0 => ?_) h
    have heq := l2.1 h0.symm
    obtain ⟨k, hk, hne⟩ := hu
    rw [hr.1] at hk
    obtain ⟨c, hc, hkc⟩ := hconn _ (getD_mem hk)
    exact hne (by rw [← h1 k hk, equal_connected heq hkc, h2 c hc])

/-- a matrix that dissipates is invertible: the currents determine the voltages -/
theorem dissipative_injective {y : Arr2 ℂ} (h : Spec.Dissipative y) (v w : ℕ → ℂ)
    (he : ∀ k < y.r, Spec.currents y v k = Spec.currents y w k) : ∀ k < y.r, v k = w k := by
  by_contra hne
  push Not at hne
  obtain ⟨k, hk, hne⟩ := hne
  have hp := h (fun k => v k - w k) ⟨k, hk, sub_ne_zero.2 hne⟩
  have hz : Spec.power y.r (fun k => v k - w k) (Spec.currents y fun k => v k - w k) = 0 := by
    unfold Spec.power
    refine Finset.sum_eq_zero fun k hk => ?_
    have : Spec.currents y (fun k => v k - w k) k = Spec.currents y v k - Spec.currents y w k := by
      unfold Spec.currents
      rw [← Finset.sum_sub_distrib]
      exact Finset.sum_congr rfl fun i _ => by ring
    rw [this, he k (Finset.mem_range.1 hk), sub_self, map_zero, mul_zero]
  rw [hz] at hp
  exact lt_irrefl _ hp

/-- C152 partial, reduction: if the admittances that the code adds at hidden nodes have no negative conductance, the reduced matrix
delivers no power; with the connection removed it consumes power at all voltages, if lines lead from every node to a connection.
Missing: hidden nodes where the added conductance is negative, as it is for loads, and connections directly before eliminated
nodes. -/
theorem C152_reduced_partial {w : SimWorld} {name : String} {net : Net} {bs : List BusData} (hbs : makeNet w name = .ok (net, bs))
    {ls : List LineData} (hls : w.lines name = some ls) (hR : Spec.Resistive bs ls) {sn : ℝ} (hsn : 0 < sn)
    {pinv : Arr2 ℂ → Except PyErr (Arr2 ℂ)} (hpinv : Spec.PinvContract pinv) {voltage current : Arr2 ℂ} (hvc : voltage.c = bs.length)
    (hic : current.c = bs.length) {hidden : List Int} (hid : ∀ b ∈ hidden, b ∈ bs.map BusData.id)
    (hfar : ∀ k ∈ Spec.labelled bs hidden ∪ Spec.passive bs 0, ∀ c ∈ Spec.connections bs, c < k →
      c + (Spec.connections bs).card < k ∨ k ∈ Spec.connections bs)
    (hmean : ∀ k ∈ Spec.labelled bs hidden \ Spec.connections bs, colMean voltage (Spec.rank (Spec.connections bs) k) ≠ 0)
    (hcond : ∀ k ∈ Spec.labelled bs hidden \ Spec.connections bs,
      0 ≤ (shuntAt voltage current (Spec.rank (Spec.connections bs) k)).re)
    (hconn : ∀ k < bs.length, ∃ c ∈ Spec.connections bs, Spec.Connected bs ls k c) :
    ∃ todel red, reduceNetwork pinv net (net.makeYBus sn) voltage current hidden false = .ok (todel, red) ∧
      Spec.NoSource red ∧ Spec.Dissipative red := by
  obtain ⟨ls1, -, hl1, hb, -⟩ := C133_single hbs
  obtain ⟨ls2, hl2, hg⟩ := C133_ybus hbs sn
  rw [hls] at hl1 hl2
  cases hl1
  cases hl2
  obtain ⟨-, lo, lo', hnd⟩ := makeNet_data hbs
  set S := (Spec.labelled bs hidden ∪ Spec.passive bs 0) \ Spec.connections bs with hSd
  have hS : ∀ s ∈ S, s < bs.length := by
    intro s hs
    rcases Finset.mem_union.1 (Finset.mem_sdiff.1 hs).1 with h | h
    · exact labelled_lt h
    · exact passive_lt h
  have hd : ∀ s ∈ S, 0 ≤ (usedShunt bs voltage current hidden s).re := by
    intro s hs
    unfold usedShunt
    split
    · rename_i h
      exact hcond s (Finset.mem_sdiff.2 h)
    · exact le_rfl
  have hns := shunts_nonsingular hsn hb hg hR hS hd (fun i hi => by
    obtain ⟨c, hc, hic⟩ := hconn i (hS i hi)
    exact ⟨c, connections_lt hc, fun h => (Finset.mem_sdiff.1 h).2 hc, hic⟩)
  obtain ⟨todel, red, K, h1, -, h3, h4, -⟩ := C58_partial hnd hpinv hg.square.1 hg.square.2 hvc hic hid hfar hmean hns
  have hK : Spec.Lists bs.length (Spec.connections bs ∪ S) K := by
    refine ⟨h3.1, fun k => (h3.2 k).trans ?_⟩
    rw [hSd, Finset.union_sdiff_self_eq_union, Finset.union_comm]
  obtain ⟨g1, g2⟩ := grounded_noSource hsn hb hg hR (fun c hc => connections_lt hc) hS Finset.disjoint_sdiff hns hK h4 hd
  exact ⟨todel, red, h1, g1, g2 fun k hk => hconn k ((hK.2 k).1 hk).1⟩

/-- C152 partial, program: a run of simulate_network.py that recomputes everything for a single-phase network with resistive lines, with
any noise and no hidden nodes configured, stores a matrix that delivers no power, and without `--laplacian` one that consumes power
at all voltages. -/
theorem C152_partial {w : SimWorld} {cf : SimConf} {a : SimArgs} {st : Store} {d : NetworkData} (hn : Spec.PlainName a.network)
    (h3 : a.threePhased = false) (hseq : a.sequence = false) (h : (simulate w cf a st).res = .ok d)
    (hall : a.loads = a.networkSim ∧ a.networkSim = a.noise) (hhid : cf.hidden = []) (hpinv : Spec.PinvContract w.pinv)
    {net : Net} {bs : List BusData} (hbs : makeNet w a.network = .ok (net, bs)) (h0 : 0 < bs.length)
    {ls : List LineData} (hls : w.lines a.network = some ls) (hR : Spec.Resistive bs ls) {sn : ℝ} (hsn : 0 < sn)
    (hy : w.yBus net = .ok (net.makeYBus sn))
    (hfar : a.laplacian = false → ∀ k ∈ Spec.passive bs 0, ∀ c ∈ Spec.connections bs, c < k → c + (Spec.connections bs).card < k)
    (hconn : ∀ k < bs.length, ∃ c ∈ Spec.connections bs, Spec.Connected bs ls k c) :
    Spec.NoSource d.y ∧ (a.laplacian = false → Spec.Dissipative d.y) := by
  obtain ⟨net', bs', l, s, n, hnet, hl, -, hs, -, hno, -, hd, hst⟩ := C78_simulate hn h3 h
  have hRe : Spec.Redone a.loads [a.loads, a.networkSim, a.noise] := by
    obtain ⟨e1, e2⟩ := hall
    cases hb : a.noise
    · right
      intro f hf
      rw [e1, e2, hb] at hf
      simpa using hf
    · left
      rw [e1, e2, hb]
  obtain ⟨⟨lp, -, hlp⟩, -⟩ := hl hRe
  obtain ⟨hs, -⟩ := hs (by rw [← hall.1]; rw [← hall.1] at hRe; exact hRe)
  obtain ⟨hno, -⟩ := hno (by rw [← hall.2, ← hall.1]; rw [← hall.2, ← hall.1] at hRe; exact hRe)
  rw [hbs] at hnet
  cases hnet
  have ht : Spec.Times l.2.2 := by
    unfold computeLoads at hlp
    obtain ⟨⟨p, q⟩, -, hlp⟩ := Prior.bind_ok hlp
    obtain ⟨⟨p', q'⟩, -, hlp⟩ := Prior.bind_ok hlp
    rw [← Except.ok.inj hlp] at hno ⊢
    refine minuteTimes_times (Nat.pos_of_ne_zero fun hd0 => ?_)
    unfold addNoiseAndFilter rawTimes at hno
    simp only [hd0, minuteTimes] at hno
    cases hno
  obtain ⟨ls1, -, hl1, hb, -⟩ := C133_single hbs
  obtain ⟨ls2, hl2, hg⟩ := C133_ybus hbs sn
  rw [hls] at hl1 hl2
  cases hl1
  cases hl2
  obtain ⟨-, lo, lo', hnd⟩ := makeNet_data hbs
  obtain ⟨x1, -⟩ := sim_matmul hs hy
  obtain ⟨m1, m2, m3, -⟩ := matmul_entry x1
  have hvb : s.1.c = bs.length := m1.trans hg.square.1
  have hvc : s.1.c = s.2.1.c := by rw [m3, hvb, hg.square.2]
  obtain ⟨-, R, W, hW, hAv, hAi⟩ := stage_exact hno ht hvc (by rw [hvb]; exact h0)
  have hnv : n.voltage.c = bs.length := by rw [hAv.cols, hvb]
  have hni : n.current.c = bs.length := by rw [hAi.cols, ← hvc, hvb]
  obtain ⟨todel, hred, -⟩ := networkData_parts h3 hseq hy hd
  have hnod := hb.nodup
  have hhn : hiddenNodes cf a bs = if a.laplacian then [] else (bs.filter (fun b => b.type = typePcc)).map BusData.id := by
    unfold hiddenNodes
    rw [hhid, h3]
    cases a.laplacian <;> simp
  cases hlap : a.laplacian with
  | false =>
    rw [hlap] at hhn hred
    have hlab : Spec.labelled bs (hiddenNodes cf a bs) = Spec.connections bs := by rw [hhn]; exact labelled_pcc hnod
    obtain ⟨todel', red, r1, r2, r3⟩ := C152_reduced_partial hbs hls hR hsn hpinv hnv hni (hidden := hiddenNodes cf a bs)
      (by
        intro b hbm
        rw [hhn] at hbm
        obtain ⟨b', hb', rfl⟩ := List.mem_map.1 hbm
        exact List.mem_map.2 ⟨b', (List.mem_filter.1 hb').1, rfl⟩)
      (by
        intro k hk c hc hck
        rw [hlab] at hk
        rcases Finset.mem_union.1 hk with hk | hk
        · exact Or.inr hk
        · exact Or.inl (hfar hlap k hk c hc hck))
      (by rw [hlab, Finset.sdiff_self]; simp) (by rw [hlab, Finset.sdiff_self]; simp) hconn
    rw [hred] at r1
    cases r1
    exact ⟨r2, fun _ => r3⟩
  | true =>
    rw [hlap] at hhn hred
    have hlab : Spec.labelled bs (hiddenNodes cf a bs) = ∅ := by rw [hhn]; exact labelled_nil bs
    have hS : (Spec.labelled bs (hiddenNodes cf a bs) ∪ Spec.passive bs 0) \ Spec.connections bs = Spec.passive bs 0 := by
      rw [hlab, Finset.empty_union]
      refine Finset.sdiff_eq_self_of_disjoint (Finset.disjoint_left.2 fun k hk hc => passive_not_connection hk hc)
    have hns : Spec.BlockNonsingular (Spec.withShunts (net.makeYBus sn) (fun _ => 0)) (Spec.passive bs 0) :=
      shunts_nonsingular hsn hb hg hR (fun s hs => passive_lt hs) (fun _ _ => le_rfl) (fun i hi => by
        obtain ⟨c, hc, hic⟩ := hconn i (passive_lt hi)
        exact ⟨c, connections_lt hc, fun h => passive_not_connection h hc, hic⟩)
    obtain ⟨todel', red, K, r1, -, r3, r4, -⟩ := C58_laplacian hnd hpinv hg.square.1 hg.square.2 hnv hni (hidden := hiddenNodes cf a bs)
      (by rw [hhn]; simp) (by rw [hlab]; simp) (d := fun _ => 0) (by rw [hlab]; simp) (by rw [hS]; exact hns)
    rw [hS] at r3 r4
    rw [hred] at r1
    cases r1
    refine ⟨(grounded_noSource hsn hb hg hR (C := ∅) (by simp) (fun s hs => passive_lt hs) (by simp) hns
      (by rw [Finset.empty_union]; exact r3) r4 (fun _ _ => le_rfl)).1, fun h => nomatch h⟩

/-- C152 violated: a run without noise for a resistive line of three nodes, whose hidden node consumes power at a constant admittance,
stores a matrix that delivers power -/
theorem C152_violated (sc : SimConf) : ∃ st d r, (simulate (demoWorld140 (3 / 2)) demoConf140 demoArgs115 st).res = .ok d ∧
    (identify demoExt115 demoIdConf sc demoIdArgs (simulate (demoWorld140 (3 / 2)) demoConf140 demoArgs115 st).store).res = .ok r ∧
    Spec.NoSource demoY140 ∧ (∀ net, (demoWorld140 (3 / 2)).yBus net = .ok demoY140) ∧
    (∀ net c res, demoFlow140 (3 / 2) net c = .ok res →
      Spec.ConstantImpedance demoBuses140 demoConf140.hidden demoY140 (fun _ => 3 / 2) res) ∧
    ¬ Spec.NoSource d.y ∧ Spec.Dissipative r.1.1 := by
  obtain ⟨st, d, r, h1, h2, ⟨h3, h3', h4⟩, ⟨h5, h5', h6⟩, -⟩ := demo140_run (x := 3 / 2) (by norm_num) (by norm_num) sc
  refine ⟨st, d, r, h1, h2, ?_, fun _ => rfl, ?_, ?_, ?_⟩
  · intro v
    have e : Spec.power demoY140.r v (Spec.currents demoY140 v) = v 0 * (starRingEnd ℂ) (v 0 - v 1) +
        v 1 * (starRingEnd ℂ) (2 * v 1 - v 0 - v 2) + v 2 * (starRingEnd ℂ) (v 2 - v 1) := by
      show ∑ k ∈ range 3, _ = _
      have e2 : Spec.currents demoY140 v 2 = v 2 - v 1 := by
        show ∑ j ∈ range 3, v j * demoY140.get j 2 = _
        simp [Finset.sum_range_succ, demoY140, Arr2.ofFn]
        ring
      rw [Finset.sum_range_succ, Finset.sum_range_succ, Finset.sum_range_succ, Finset.sum_range_zero, zero_add,
        (demo140_currents v).1, (demo140_currents v).2, e2]
    rw [e]
    simp only [Complex.add_re, Complex.mul_re, Complex.conj_re, Complex.conj_im, Complex.sub_re, Complex.sub_im, Complex.mul_im,
      Complex.re_ofNat, Complex.im_ofNat]
    nlinarith [sq_nonneg ((v 0).re - (v 1).re), sq_nonneg ((v 0).im - (v 1).im), sq_nonneg ((v 2).re - (v 1).re),
      sq_nonneg ((v 2).im - (v 1).im)]
  · intro net c res hf
    have := demo140_impedance (x := 3 / 2) (by norm_num) net c res hf
    rw [show (((3 / 2 : ℝ)) : ℂ) = 3 / 2 by push_cast; rfl] at this
    exact this
  · intro hN
    have := hN (fun _ => 1)
    rw [h3] at this
    unfold Spec.power Spec.currents at this
    rw [Finset.sum_range_one, h3, Finset.sum_range_one, h4] at this
    rw [show (1 : ℂ) - 1 / (2 - ((3 / 2 : ℝ) : ℂ)) = -1 by push_cast; norm_num] at this
    norm_num at this
  · intro v hv
    obtain ⟨k, hk, hvk⟩ := hv
    rw [h5] at hk ⊢
    obtain rfl : k = 0 := by omega
    unfold Spec.power Spec.currents
    rw [Finset.sum_range_one, h5, Finset.sum_range_one, h6]
    rw [show (1 : ℂ) - 1 / (2 + ((3 / 2 : ℝ) : ℂ)) = ((5 / 7 : ℝ) : ℂ) by push_cast; norm_num]
    rw [map_mul, Complex.conj_ofReal, ← mul_assoc, Complex.mul_conj, ← Complex.ofReal_mul, Complex.ofReal_re]
    exact mul_pos (Complex.normSq_pos.2 hvk) (by norm_num)

/-- C152 partial: what holds for all shipped single-phase networks when no nodes are hidden -/
theorem C152_shipped_partial {w : SimWorld} (hw : w.Shipped) {cf : SimConf} {a : SimArgs} {st : Store} {d : NetworkData}
    (hn : Spec.PlainName a.network) (h3 : a.threePhased = false) (hseq : a.sequence = false) (h : (simulate w cf a st).res = .ok d)
    (hall : a.loads = a.networkSim ∧ a.networkSim = a.noise) (hhid : cf.hidden = []) (hpinv : Spec.PinvContract w.pinv)
    {sn : ℝ} (hsn : 0 < sn) (hy : ∀ net bs, makeNet w a.network = .ok (net, bs) → w.yBus net = .ok (net.makeYBus sn)) :
    Spec.NoSource d.y ∧ (a.laplacian = false → Spec.Dissipative d.y) := by
  obtain ⟨net, bs, -, -, -, hnet, -⟩ := C78_simulate hn h3 h
  obtain ⟨ls, e1, e2, -⟩ := C133_single hnet
  have e1' := e1
  rw [hw.buses] at e1
  obtain ⟨ls', n, kv, root, passive, hl, hs⟩ := shipped_cases e1
  rw [hw.lines, hl] at e2
  cases e2
  have hlen := hs.feeder.length
  have hin := hs.feeder.inside
  obtain ⟨ls2, hl2, hg⟩ := C133_ybus hnet sn
  rw [hw.lines, hl] at hl2
  cases hl2
  refine C152_partial hn h3 hseq h hall hhid hpinv hnet (by omega) (by rw [hw.lines, hl]) hs.resistive hsn (hy net bs hnet) ?_ ?_
  · intro hlap
    exact (hs.reducible hsn hg false).1 rfl
  · intro k hk
    exact ⟨root, by rw [hs.connections]; simp, hs.feeder.connected k (by rw [← hlen]; exact hk)⟩

/-! ### examples -/

/-- the hypotheses of C151: the line between the two nodes loses the square of the voltage difference -/
theorem demo_C151 {y : Arr2 ℂ} (hg : Spec.IsGridMatrix 400 demoBuses115 demoLines133 y) :
    Spec.power 2 (fun k => if k = 0 then 1 else Complex.I) (Spec.currents y (fun k => if k = 0 then 1 else Complex.I)) = 2 ∧
    0 < (Spec.lineLosses 400 demoBuses115 demoLines133 (fun k => if k = 0 then 1 else Complex.I)).re := by
  have e : Spec.power 2 (fun k => if k = 0 then 1 else Complex.I) (Spec.currents y (fun k => if k = 0 then 1 else Complex.I)) = 2 := by
    have hy := demo133_grid hg
    subst hy
    unfold Spec.power Spec.currents
    show ∑ k ∈ range 2, _ * (starRingEnd ℂ) (∑ j ∈ range 2, _) = _
    simp [Finset.sum_range_succ, demoY115, Arr2.ofFn]
    ring_nf
    simp
    norm_num
  refine ⟨e, ?_⟩
  rw [← C151_balance demo133_buildable hg]
  show 0 < (Spec.power 2 _ _).re
  rw [e]
  norm_num

/-- the hypotheses of C152 -/
theorem demo_C152 (lap : Bool) (st : Store) :
    ∃ d, (simulate shippedWorld demoConf115 { demoArgs115 with laplacian := lap } st).res = .ok d ∧ Spec.NoSource d.y ∧
      (lap = false → Spec.Dissipative d.y) := by
  obtain ⟨d, hd⟩ := demo_C136 (name := "ieee_33") (bs := ieee33Bus) (by unfold shippedBuses; simp) lap st
  exact ⟨d, hd, C152_shipped_partial shippedWorld_shipped (templates_plain "ieee_33" (by decide)) rfl rfl hd ⟨rfl, rfl⟩ rfl
    exactPinv_contract (sn := 1) one_pos (fun _ _ _ => rfl)⟩

end
end Verif
