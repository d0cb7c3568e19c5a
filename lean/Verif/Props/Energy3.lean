/-
C151, C152 for three phases: power of a three-phase network by symmetrical components, and passivity of the stored matrices.
-/
import Verif.Props.SequencePower
import Verif.Props.PipelineDemo3

namespace Verif
open Finset Spec
noncomputable section

namespace Spec

/-- the symmetrical component of the voltages on which the matrix with index `s` acts -/
def component (v : ℕ → ℂ) (s a : ℕ) : ℂ :=
  (v (3 * a) + alpha ^ (2 * s) * v (3 * a + 1) + alpha ^ (4 * s) * v (3 * a + 2)) / 3

/-- voltages with a single symmetrical component -/
def onlyComponent (u : ℕ → ℂ) (s : ℕ) (j : ℕ) : ℂ := u (j / 3) * alpha ^ (s * (j % 3))

/-- the network consumes active power whenever the nodes `C` are at zero voltage and some other node is not -/
def Dissipates (C : Finset ℕ) (y : Arr2 ℂ) : Prop :=
  ∀ v : ℕ → ℂ, (∀ c ∈ C, v c = 0) → (∃ k < y.r, v k ≠ 0) → 0 < (power y.r v (currents y v)).re

end Spec

theorem power_scale (n : ℕ) (y : Arr2 ℂ) (v : ℕ → ℂ) (c : ℂ) :
    Spec.power n (fun k => c * v k) (Spec.currents y fun k => c * v k) = (Complex.normSq c : ℂ) * Spec.power n v (Spec.currents y v) := by
  have : ∀ k, Spec.currents y (fun k => c * v k) k = c * Spec.currents y v k := by
    intro k
    unfold Spec.currents
    rw [Finset.mul_sum]
    exact Finset.sum_congr rfl fun i _ => by ring
  unfold Spec.power
  rw [Finset.mul_sum]
  refine Finset.sum_congr rfl fun k _ => ?_
  rw [this, map_mul, ← Complex.mul_conj]
  ring

theorem seqVolt_component (v : ℕ → ℂ) {s : ℕ} (hs : s < 3) (a : ℕ) : seqVolt v s a = 3 * Spec.component v s a := by
  unfold seqVolt Spec.component
  rw [Finset.sum_range_succ, Finset.sum_range_succ, Finset.sum_range_one, (block_powers (by norm_num : 0 < 3) hs).1,
    (block_powers (by norm_num : 1 < 3) hs).1, (block_powers (by norm_num : 2 < 3) hs).1, mul_comm a 3]
  simp only [mul_zero, zero_mul, pow_zero, add_zero, mul_one, show 2 * 2 = 4 by norm_num]
  ring

/-- C151 for three phases: the power that enters a network built by `make_y_bus` is three times the sum of the powers of the symmetrical
components in the zero, positive and negative sequence networks. -/
theorem C151_three {k : ℕ} {y0 y1 y2 Y : Arr2 ℂ} (h0 : Spec.IsSquare k y0) (h1 : Spec.IsSquare k y1) (h2 : Spec.IsSquare k y2)
    (hY : makeYBus3 y0 y1 y2 = .ok Y) (v : ℕ → ℂ) :
    Spec.power (3 * k) v (Spec.currents Y v) = 3 * (Spec.power k (component v 0) (Spec.currents y0 (component v 0)) +
      Spec.power k (component v 1) (Spec.currents y1 (component v 1)) + Spec.power k (component v 2) (Spec.currents y2 (component v 2))) := by
  obtain ⟨Y', hY', hF⟩ := phaseForm_entries k h0 h1 h2
  rw [hY] at hY'
  cases hY'
  have hk : ∀ s, (three y0 y1 y2 s).r = k := three_forall (P := fun y => y.r = k) h0.1 h1.1 h2.1
  have hcur : ∀ s < 3, ∀ b < k, 3 * Spec.currents (three y0 y1 y2 s) (component v s) b =
      Spec.currents Y v (3 * b) + Spec.alpha ^ (2 * s) * Spec.currents Y v (3 * b + 1) + Spec.alpha ^ (4 * s) * Spec.currents Y v (3 * b + 2) := by
    intro s hs b hb
    have := phaseForm_seqCurrents hF hk v hb hs
    have e : Spec.currents (three y0 y1 y2 s) (seqVolt v s) b = 3 * Spec.currents (three y0 y1 y2 s) (component v s) b := by
      unfold Spec.currents
      rw [Finset.mul_sum]
      exact Finset.sum_congr rfl fun i _ => by rw [seqVolt_component v hs]; ring
    rw [← e, this, Finset.sum_range_succ, Finset.sum_range_succ, Finset.sum_range_one, (block_powers (by norm_num : 0 < 3) hs).1,
      (block_powers (by norm_num : 1 < 3) hs).1, (block_powers (by norm_num : 2 < 3) hs).1, mul_comm b 3]
    simp only [mul_zero, zero_mul, pow_zero, add_zero, mul_one, show 2 * 2 = 4 by norm_num]
    ring
  have e0 : three y0 y1 y2 0 = y0 := rfl
  have e1 : three y0 y1 y2 1 = y1 := rfl
  have e2 : three y0 y1 y2 2 = y2 := rfl
  unfold Spec.power
  rw [mul_comm 3 k, sum_triples, ← Finset.sum_add_distrib, ← Finset.sum_add_distrib, Finset.mul_sum]
  refine Finset.sum_congr rfl fun b hb => ?_
  have hb := Finset.mem_range.1 hb
  have c0 := hcur 0 (by norm_num) b hb
  have c1 := hcur 1 (by norm_num) b hb
  have c2 := hcur 2 (by norm_num) b hb
  rw [e0] at c0
  rw [e1] at c1
  rw [e2] at c2
  rw [Finset.sum_range_succ, Finset.sum_range_succ, Finset.sum_range_one, mul_comm b 3, add_zero]
  have a8 : Spec.alpha ^ 8 = Spec.alpha ^ 2 := by
    rw [show (8 : ℕ) = 4 * 2 by norm_num, pow_mul, alpha_four]
  simp only [mul_zero, pow_zero, one_mul, mul_one, show 2 * 2 = 4 by norm_num, show 4 * 2 = 8 by norm_num, a8, alpha_four] at c0 c1 c2
  rw [parseval_three, ← c0, ← c1, ← c2]
  unfold Spec.component
  simp only [mul_zero, pow_zero, one_mul, mul_one, show 2 * 2 = 4 by norm_num, show 4 * 2 = 8 by norm_num, a8, alpha_four]
  simp only [mul_div_cancel_left₀ _ (by norm_num : (3 : ℂ) ≠ 0)]
  ring

/-- C151 for three phases, networks of lines: the power is three times that lost in the lines of the three sequence networks. -/
theorem C151_three_lines {sn : ℝ} {bs : List BusData} {l0 l1 l2 : List LineData} {y0 y1 y2 Y : Arr2 ℂ}
    (b0 : Spec.Buildable bs l0) (b1 : Spec.Buildable bs l1) (b2 : Spec.Buildable bs l2) (g0 : Spec.IsGridMatrix sn bs l0 y0)
    (g1 : Spec.IsGridMatrix sn bs l1 y1) (g2 : Spec.IsGridMatrix sn bs l2 y2) (hY : makeYBus3 y0 y1 y2 = .ok Y) (v : ℕ → ℂ) :
    Spec.power (3 * bs.length) v (Spec.currents Y v) = 3 * (Spec.lineLosses sn bs l0 (component v 0) +
      Spec.lineLosses sn bs l1 (component v 1) + Spec.lineLosses sn bs l2 (component v 2)) := by
  rw [C151_three g0.square g1.square g2.square hY, C151_balance b0 g0, C151_balance b1 g1, C151_balance b2 g2]

/-- components of voltages with a single one -/
theorem component_single (u : ℕ → ℂ) {s r : ℕ} (hs : s < 3) (hr : r < 3) (a : ℕ) :
    component (onlyComponent u s) r a = if r = s then u a else 0 := by
  unfold Spec.component Spec.onlyComponent
  rw [show 3 * a / 3 = a by omega, show (3 * a + 1) / 3 = a by omega, show (3 * a + 2) / 3 = a by omega, show 3 * a % 3 = 0 by omega,
    show (3 * a + 1) % 3 = 1 by omega, show (3 * a + 2) % 3 = 2 by omega]
  have h3 := alpha_cube
  have hs' := alpha_sum
  generalize Spec.alpha = α at *
  interval_cases s <;> interval_cases r <;> simp <;> grind

theorem components_zero {v : ℕ → ℂ} {a : ℕ} (h : ∀ s < 3, component v s a = 0) : v (3 * a) = 0 ∧ v (3 * a + 1) = 0 ∧ v (3 * a + 2) = 0 := by
  have c0 := h 0 (by norm_num)
  have c1 := h 1 (by norm_num)
  have c2 := h 2 (by norm_num)
  unfold Spec.component at c0 c1 c2
  have h3 := alpha_cube
  have hs' := alpha_sum
  generalize Spec.alpha = α at *
  generalize v (3 * a) = x at *
  generalize v (3 * a + 1) = y at *
  generalize v (3 * a + 2) = z at *
  simp at c0 c1 c2
  refine ⟨?_, ?_, ?_⟩ <;> grind

theorem power_three_re {k : ℕ} {y0 y1 y2 Y : Arr2 ℂ} (h0 : Spec.IsSquare k y0) (h1 : Spec.IsSquare k y1) (h2 : Spec.IsSquare k y2)
    (hY : makeYBus3 y0 y1 y2 = .ok Y) (v : ℕ → ℂ) : Y.r = 3 * k ∧
    (Spec.power Y.r v (Spec.currents Y v)).re = 3 * ((Spec.power k (component v 0) (Spec.currents y0 (component v 0))).re +
      (Spec.power k (component v 1) (Spec.currents y1 (component v 1))).re + (Spec.power k (component v 2) (Spec.currents y2 (component v 2))).re) := by
  obtain ⟨Y', hY', hF⟩ := phaseForm_entries k h0 h1 h2
  rw [hY] at hY'
  cases hY'
  have hr : Y.r = 3 * k := by rw [hF.1.1, mul_comm]
  refine ⟨hr, ?_⟩
  rw [hr, C151_three h0 h1 h2 hY, show (3 : ℂ) = ((3 : ℝ) : ℂ) by norm_num, Complex.re_ofReal_mul]
  simp

/-- C152 for three phases: the matrix of a three-phase network delivers no power if and only if none of its three sequence matrices does;
the same for the consumption of power. -/
theorem C152_three {k : ℕ} {y0 y1 y2 Y : Arr2 ℂ} (h0 : Spec.IsSquare k y0) (h1 : Spec.IsSquare k y1) (h2 : Spec.IsSquare k y2)
    (hY : makeYBus3 y0 y1 y2 = .ok Y) :
    (Spec.NoSource Y ↔ Spec.NoSource y0 ∧ Spec.NoSource y1 ∧ Spec.NoSource y2) ∧
    (Spec.Dissipative Y ↔ Spec.Dissipative y0 ∧ Spec.Dissipative y1 ∧ Spec.Dissipative y2) := by
  have key := power_three_re h0 h1 h2 hY
  have hr := (key fun _ => 0).1
  have hz : ∀ y : Arr2 ℂ, Spec.power k (fun _ => 0) (Spec.currents y fun _ => 0) = 0 := fun y => by simp [Spec.power]
  have hone : ∀ u : ℕ → ℂ, ∀ s < 3, (Spec.power Y.r (onlyComponent u s) (Spec.currents Y (onlyComponent u s))).re =
      3 * (Spec.power k u (Spec.currents (three y0 y1 y2 s) u)).re := by
    intro u s hs
    have e : ∀ r < 3, component (onlyComponent u s) r = if r = s then u else fun _ => 0 := by
      intro r hr
      funext a
      rw [component_single u hs hr a]
      split <;> rfl
    rw [(key _).2, e 0 (by norm_num), e 1 (by norm_num), e 2 (by norm_num)]
    interval_cases s <;> simp [hz, three]
  have hk : ∀ s, (three y0 y1 y2 s).r = k := three_forall (P := fun y => y.r = k) h0.1 h1.1 h2.1
  constructor
  · constructor
    · intro h
      have : ∀ s < 3, Spec.NoSource (three y0 y1 y2 s) := by
        intro s hs u
        rw [hk]
        have := h (onlyComponent u s)
        rw [hone u s hs] at this
        linarith
      exact ⟨this 0 (by norm_num), this 1 (by norm_num), this 2 (by norm_num)⟩
    · rintro ⟨a0, a1, a2⟩ v
      have b0 := a0 (component v 0)
      have b1 := a1 (component v 1)
      have b2 := a2 (component v 2)
      rw [h0.1] at b0
      rw [h1.1] at b1
      rw [h2.1] at b2
      rw [(key v).2]
      linarith
  · constructor
    · intro h
      have : ∀ s < 3, Spec.Dissipative (three y0 y1 y2 s) := by
        rintro s hs u ⟨j, hj, hne⟩
        rw [hk] at hj ⊢
        have := h (onlyComponent u s) ⟨3 * j, by omega, by
          unfold Spec.onlyComponent
          rw [show 3 * j / 3 = j by omega, show 3 * j % 3 = 0 by omega, mul_zero, pow_zero, mul_one]
          exact hne⟩
        rw [hone u s hs] at this
        linarith
      exact ⟨this 0 (by norm_num), this 1 (by norm_num), this 2 (by norm_num)⟩
    · rintro ⟨a0, a1, a2⟩ v ⟨j, hj, hne⟩
      have nn : ∀ {y : Arr2 ℂ} (u : ℕ → ℂ), Spec.IsSquare k y → Spec.Dissipative y → 0 ≤ (Spec.power k u (Spec.currents y u)).re := by
        intro y u hy hd
        by_cases hu : ∃ a < k, u a ≠ 0
        · have := hd u (by rw [hy.1]; exact hu)
          rw [hy.1] at this
          exact this.le
        · push Not at hu
          have : Spec.power k u (Spec.currents y u) = 0 := Finset.sum_eq_zero fun a ha => by rw [hu a (Finset.mem_range.1 ha), zero_mul]
          rw [this, Complex.zero_re]
      have pos : ∀ {y : Arr2 ℂ} (u : ℕ → ℂ), Spec.IsSquare k y → Spec.Dissipative y → u (j / 3) ≠ 0 →
          0 < (Spec.power k u (Spec.currents y u)).re := by
        intro y u hy hd hu
        have := hd u ⟨j / 3, by rw [hy.1]; omega, hu⟩
        rwa [hy.1] at this
      have n0 := nn (component v 0) h0 a0
      have n1 := nn (component v 1) h1 a1
      have n2 := nn (component v 2) h2 a2
      rw [(key v).2]
      by_cases c0 : component v 0 (j / 3) = 0
      · by_cases c1 : component v 1 (j / 3) = 0
        · by_cases c2 : component v 2 (j / 3) = 0
          · exfalso
            obtain ⟨z0, z1, z2⟩ := components_zero (v := v) (a := j / 3) (fun s hs => by interval_cases s <;> assumption)
            have : j = 3 * (j / 3) ∨ j = 3 * (j / 3) + 1 ∨ j = 3 * (j / 3) + 2 := by omega
            rcases this with e | e | e <;> rw [e] at hne <;> contradiction
          · have := pos (component v 2) h2 a2 c2
            linarith
        · have := pos (component v 1) h1 a1 c1
          linarith
      · have := pos (component v 0) h0 a0 c0
        linarith

/-- power in a matrix without coupling between sequences -/
theorem assembled_power {m : ℕ} {r : Fin 3 → Arr2 ℂ} {y : Arr2 ℂ} (hr : ∀ l, Spec.IsSquare m (r l))
    (h : Assembled (Spec.sequenceIds m) (fun _ => m) Spec.sequencePos r y) (v : ℕ → ℂ) : y.r = m * 3 ∧
    Spec.power y.r v (Spec.currents y v) = ∑ l : Fin 3, Spec.power m (fun a => v (a * 3 + l)) (Spec.currents (r l) fun a => v (a * 3 + l)) := by
  have hlen : (Spec.sequenceIds m).length = m * 3 := by simp [Spec.sequenceIds]
  have hyr : y.r = m * 3 := h.square.1.trans hlen
  refine ⟨hyr, ?_⟩
  have hids : ∀ p < m * 3, (Spec.sequenceIds m).getD p 0 = ((p % 3 : ℕ) : Int) := by
    intro p hp
    simp [Spec.sequenceIds, List.getD, hp]
  have hcur : ∀ b < m, ∀ l : Fin 3, Spec.currents y v (b * 3 + l) = Spec.currents (r l) (fun a => v (a * 3 + l)) b := by
    intro b hb l
    unfold Spec.currents
    rw [hyr, (hr l).1, sum_triples]
    refine Finset.sum_congr rfl fun a ha => ?_
    have ha := Finset.mem_range.1 ha
    rw [Finset.sum_eq_single (l : ℕ)]
    · have := h.block l a b ha hb
      unfold Spec.sequencePos at this
      rw [this]
    · intro p hp hne
      have hp := Finset.mem_range.1 hp
      rw [h.cross (a * 3 + p) (b * 3 + l) (by rw [hlen]; omega) (by rw [hlen]; omega), mul_zero]
      rw [hids _ (by omega), hids _ (by omega)]
      intro he
      have he : (a * 3 + p) % 3 = (b * 3 + l) % 3 := by exact_mod_cast he
      omega
    · intro hn
      exact absurd (Finset.mem_range.2 l.2) hn
  unfold Spec.power
  rw [hyr, sum_triples, Finset.sum_comm, ← Fin.sum_univ_eq_sum_range (fun p => ∑ a ∈ range m, v (a * 3 + p) * (starRingEnd ℂ) (Spec.currents y v (a * 3 + p)))]
  refine Finset.sum_congr rfl fun l _ => ?_
  exact Finset.sum_congr rfl fun a ha => by rw [hcur a (Finset.mem_range.1 ha)]

/-- C152 partial for three phases: a run of simulate_network.py in sequence coordinates that recomputes everything, with any noise and no
hidden nodes configured, stores a matrix that delivers no power if the three sequence networks deliver none, and that consumes power at all
voltages if each sequence network does when the connection to the grid is at zero voltage. Missing: hidden nodes. -/
theorem C152_three_partial {w : SimWorld} {cf : SimConf} {a : SimArgs} {st : Store} {d : NetworkData} (hn : Spec.PlainName a.network)
    (h3 : a.threePhased = true) (hseq : a.sequence = true) (h : (simulate w cf a st).res = .ok d)
    (hall : a.loads = a.networkSim ∧ a.networkSim = a.noise) (hhid : cf.hidden = []) (hpinv : Spec.PinvContract w.pinv)
    {net : Net} {bs : List BusData} (hbs : makeNet3 w a.network = .ok (net, bs)) {y0 y1 y2 y : Arr2 ℂ}
    (h0 : Spec.IsSquare bs.length y0) (h1 : Spec.IsSquare bs.length y1) (h2 : Spec.IsSquare bs.length y2)
    (hyy : makeYBus3 y0 y1 y2 = .ok y) (hy : w.yBus3 net = .ok y)
    (hf : ∀ c res, w.flow3 net c = .ok res → Spec.PowerFlow3 bs y res) (hr : Spec.Reducible3 bs y0 y1 y2) :
    (Spec.NoSource y0 → Spec.NoSource y1 → Spec.NoSource y2 → Spec.NoSource d.y) ∧
    (Spec.Dissipates (connections bs) y0 → Spec.Dissipates (connections bs) y1 → Spec.Dissipates (connections bs) y2 →
      Spec.Dissipative d.y) := by
  obtain ⟨m, r, -, hids, -, -, -, hsq, -, hA, -, -, -, K, hK, hKl, hG⟩ :=
    C122_data hn h3 hseq h hall hhid hpinv hbs h0 h1 h2 hyy hy hf hr
  rw [hids] at hA
  have hC : ∀ c ∈ connections bs, c < bs.length := fun c hc => connections_lt hc
  have hS : ∀ c ∈ passive3 bs, c < bs.length := fun c hc => passive_lt (Finset.mem_inter.1 hc).1
  have hCS : Disjoint (connections bs) (passive3 bs) := Finset.disjoint_left.2 fun k hc hp => passive_not_connection (Finset.mem_inter.1 hp).1 hc
  have hsq3 : ∀ l : Fin 3, Spec.IsSquare bs.length (![y0, y1, y2] l) := by
    intro l
    fin_cases l
    · exact h0
    · exact h1
    · exact h2
  have hgp : ∀ (l : Fin 3) (u : ℕ → ℂ), ∃ v : ℕ → ℂ, (∀ a < K.length, v (K.getD a 0) = u a) ∧ (∀ c ∈ connections bs, v c = 0) ∧
      Spec.power m u (Spec.currents (r l) u) = Spec.power bs.length v (Spec.currents (![y0, y1, y2] l) v) := by
    intro l u
    obtain ⟨v, v1, v2, -, v4⟩ := grounded_power (hsq3 l) (d := fun _ => 0) hC hS hCS (by
      rw [withShunts_zero]
      refine hr.regular _ ?_
      fin_cases l
      · exact Or.inl rfl
      · exact Or.inr (Or.inl rfl)
      · exact Or.inr (Or.inr rfl)) (by rw [Finset.union_comm]; exact hK) (hG l) u
    refine ⟨v, v1, v2, ?_⟩
    rw [(hsq l).1] at v4
    rw [v4]
    simp
  constructor
  · intro n0 n1 n2 u
    rw [(assembled_power hsq hA u).2, Complex.re_sum]
    refine Finset.sum_nonneg fun l _ => ?_
    obtain ⟨v, -, -, e⟩ := hgp l fun a => u (a * 3 + l)
    rw [e]
    fin_cases l
    · have := n0 v; rw [h0.1] at this; exact this
    · have := n1 v; rw [h1.1] at this; exact this
    · have := n2 v; rw [h2.1] at this; exact this
  · intro n0 n1 n2 u hu
    obtain ⟨j, hj, hne⟩ := hu
    obtain ⟨hyr, e⟩ := assembled_power hsq hA u
    rw [e, Complex.re_sum]
    have pos : ∀ (l : Fin 3) (v : ℕ → ℂ), (∀ c ∈ connections bs, v c = 0) → (∃ k < bs.length, v k ≠ 0) →
        0 < (Spec.power bs.length v (Spec.currents (![y0, y1, y2] l) v)).re := by
      intro l v hc hk
      fin_cases l
      · have := n0 v hc (by rw [h0.1]; exact hk); rw [h0.1] at this; exact this
      · have := n1 v hc (by rw [h1.1]; exact hk); rw [h1.1] at this; exact this
      · have := n2 v hc (by rw [h2.1]; exact hk); rw [h2.1] at this; exact this
    have nn : ∀ l : Fin 3, 0 ≤ (Spec.power m (fun a => u (a * 3 + l)) (Spec.currents (r l) fun a => u (a * 3 + l))).re := by
      intro l
      obtain ⟨v, -, v2, e⟩ := hgp l fun a => u (a * 3 + l)
      rw [e]
      by_cases hk : ∃ k < bs.length, v k ≠ 0
      · exact (pos l v v2 hk).le
      · push Not at hk
        have : Spec.power bs.length v (Spec.currents (![y0, y1, y2] l) v) = 0 :=
          Finset.sum_eq_zero fun a ha => by rw [hk a (Finset.mem_range.1 ha), zero_mul]
        rw [this, Complex.zero_re]
    refine Finset.sum_pos' (fun l _ => nn l) ⟨⟨j % 3, by omega⟩, Finset.mem_univ _, ?_⟩
    obtain ⟨v, v1, v2, e⟩ := hgp ⟨j % 3, by omega⟩ fun a => u (a * 3 + j % 3)
    show 0 < (Spec.power m (fun a => u (a * 3 + j % 3)) (Spec.currents (r ⟨j % 3, by omega⟩) fun a => u (a * 3 + j % 3))).re
    rw [e]
    have hj3 : j / 3 < K.length := by rw [hKl]; omega
    refine pos _ v v2 ⟨K.getD (j / 3) 0, ?_, ?_⟩
    · exact (hK.2 _).1 (getD_mem hj3) |>.1
    · rw [v1 _ hj3, show j / 3 * 3 + j % 3 = j by omega]
      exact hne

/-- resistive lines from every node to a connection: the network consumes power when the connections are at zero voltage -/
theorem grid_dissipates {sn : ℝ} (hsn : 0 < sn) {bs : List BusData} {ls : List LineData} {y : Arr2 ℂ} (hb : Spec.Buildable bs ls)
    (hg : Spec.IsGridMatrix sn bs ls y) (hR : Spec.Resistive bs ls) {C : Finset ℕ}
    (hconn : ∀ k < bs.length, ∃ c ∈ C, Spec.Connected bs ls k c) : Spec.NoSource y ∧ Spec.Dissipates C y := by
  refine ⟨fun v => ?_, fun v hc hk => ?_⟩
  · rw [hg.square.1, C151_balance hb hg]
    exact (C151_losses hsn hb hR v).1
  · obtain ⟨l1, l2⟩ := C151_losses hsn hb hR v
    rw [hg.square.1] at hk ⊢
    rw [C151_balance hb hg]
    refine lt_of_le_of_ne l1 fun h0 => ?_
    obtain ⟨k, hk, hne⟩ := hk
    obtain ⟨c, hc', hkc⟩ := hconn k hk
    exact hne (by rw [equal_connected (l2.1 h0.symm) hkc, hc c hc'])

/-- C152 partial, three-phase networks of resistive lines whose sequence networks connect every node to the grid: the stored matrix consumes
power at all voltages, so the currents determine the voltages. -/
theorem C152_three_lines_partial {w : SimWorld} {cf : SimConf} {a : SimArgs} {st : Store} {d : NetworkData} (hn : Spec.PlainName a.network)
    (h3 : a.threePhased = true) (hseq : a.sequence = true) (h : (simulate w cf a st).res = .ok d)
    (hall : a.loads = a.networkSim ∧ a.networkSim = a.noise) (hhid : cf.hidden = []) (hpinv : Spec.PinvContract w.pinv)
    {net : Net} {bs : List BusData} (hbs : makeNet3 w a.network = .ok (net, bs)) {y0 y1 y2 y : Arr2 ℂ} {sn : ℝ} (hsn : 0 < sn)
    {l0 l1 l2 : List LineData} (b0 : Spec.Buildable bs l0) (b1 : Spec.Buildable bs l1) (b2 : Spec.Buildable bs l2)
    (g0 : Spec.IsGridMatrix sn bs l0 y0) (g1 : Spec.IsGridMatrix sn bs l1 y1) (g2 : Spec.IsGridMatrix sn bs l2 y2)
    (r0 : Spec.Resistive bs l0) (r1 : Spec.Resistive bs l1) (r2 : Spec.Resistive bs l2)
    (hconn : ∀ k < bs.length, ∃ c ∈ Spec.connections bs, Spec.Connected bs l0 k c ∧ Spec.Connected bs l1 k c ∧ Spec.Connected bs l2 k c)
    (hyy : makeYBus3 y0 y1 y2 = .ok y) (hy : w.yBus3 net = .ok y)
    (hf : ∀ c res, w.flow3 net c = .ok res → Spec.PowerFlow3 bs y res) (hr : Spec.Reducible3 bs y0 y1 y2) :
    Spec.NoSource d.y ∧ Spec.Dissipative d.y ∧
      ∀ u v : ℕ → ℂ, (∀ k < d.y.r, Spec.currents d.y u k = Spec.currents d.y v k) → ∀ k < d.y.r, u k = v k := by
  obtain ⟨s0, d0⟩ := grid_dissipates hsn b0 g0 r0 fun k hk => (hconn k hk).imp fun c hc => ⟨hc.1, hc.2.1⟩
  obtain ⟨s1, d1⟩ := grid_dissipates hsn b1 g1 r1 fun k hk => (hconn k hk).imp fun c hc => ⟨hc.1, hc.2.2.1⟩
  obtain ⟨s2, d2⟩ := grid_dissipates hsn b2 g2 r2 fun k hk => (hconn k hk).imp fun c hc => ⟨hc.1, hc.2.2.2⟩
  obtain ⟨p1, p2⟩ := C152_three_partial hn h3 hseq h hall hhid hpinv hbs g0.square g1.square g2.square hyy hy hf hr
  exact ⟨p1 s0 s1 s2, p2 d0 d1 d2, fun u v he => dissipative_injective (p2 d0 d1 d2) u v he⟩

/-! ### cases -/

/-- a line with admittance `g` between two nodes -/
theorem demo152_power (g : ℂ) (v : ℕ → ℂ) :
    Spec.power 2 v (Spec.currents (demoY128 g) v) = (starRingEnd ℂ) g * (Complex.normSq (v 0 - v 1) : ℂ) := by
  have e : ∀ i < 2, ∀ j < 2, (demoY128 g).get i j = if i = j then g else -g := fun i hi j hj => Arr2.ofFn_get _ hi hj
  have hr : (demoY128 g).r = 2 := rfl
  unfold Spec.power Spec.currents
  rw [hr]
  simp only [Finset.sum_range_succ, Finset.sum_range_zero, zero_add, e 0 (by norm_num) 0 (by norm_num), e 0 (by norm_num) 1 (by norm_num),
    e 1 (by norm_num) 0 (by norm_num), e 1 (by norm_num) 1 (by norm_num), if_true, zero_ne_one, one_ne_zero, if_false, map_add, map_mul, map_neg,
    ← Complex.mul_conj, map_sub]
  ring

/-- the hypotheses of C152_three_partial: a run for a line whose three sequence conductances are positive stores a matrix that consumes power -/
example (g : Fin 3 → ℂ) (hg : ∀ l, 0 < (g l).re) (st : Store) :
    ∃ d, (simulate (demoWorld128 g) demoConf128 demoArgs128 st).res = .ok d ∧ Spec.NoSource d.y ∧ Spec.Dissipative d.y := by
  have hn := templates_plain "ieee_33" (by decide)
  obtain ⟨net, hnd, hm⟩ := demo128_net g
  obtain ⟨y, hy, -⟩ := demo128_bus g
  obtain ⟨d, hd⟩ := demo_C123 g st
  obtain ⟨p1, p2⟩ := C152_three_partial hn rfl rfl hd ⟨rfl, rfl⟩ rfl exactPinv_contract hm ⟨rfl, rfl⟩ ⟨rfl, rfl⟩ ⟨rfl, rfl⟩ hy hy
    (fun c res => demo128_flow g net c res) (demo128_reducible g)
  have hs : ∀ l, Spec.NoSource (demoY128 (g l)) := by
    intro l v
    show 0 ≤ (Spec.power 2 v _).re
    rw [demo152_power, Complex.re_mul_ofReal, Complex.conj_re]
    exact mul_nonneg (hg l).le (Complex.normSq_nonneg _)
  have hd' : ∀ l, Spec.Dissipates (connections demoBuses115) (demoY128 (g l)) := by
    rintro l v hc ⟨k, hk, hne⟩
    show 0 < (Spec.power 2 v _).re
    rw [demo152_power, Complex.re_mul_ofReal, Complex.conj_re]
    have h1 : v 1 = 0 := hc 1 (by rw [demo115_connections]; simp)
    have hk : k < 2 := hk
    refine mul_pos (hg l) (Complex.normSq_pos.2 ?_)
    rw [h1, sub_zero]
    interval_cases k
    · exact hne
    · exact absurd h1 hne
  exact ⟨d, hd, p1 (hs 0) (hs 1) (hs 2), p2 (hd' 0) (hd' 1) (hd' 2)⟩

/-- C151_three and C152_three: three sequence networks of one line; the one of positive sequence is a source -/
example : ∃ Y, makeYBus3 (demoY128 1) (demoY128 (-1)) (demoY128 1) = .ok Y ∧ ¬ Spec.NoSource Y ∧
    ∃ v : ℕ → ℂ, Spec.power 6 v (Spec.currents Y v) = -3 := by
  obtain ⟨Y, hY, -⟩ := phaseForm_entries 2 (y0 := demoY128 1) (y1 := demoY128 (-1)) (y2 := demoY128 1) ⟨rfl, rfl⟩ ⟨rfl, rfl⟩ ⟨rfl, rfl⟩
  refine ⟨Y, hY, fun h => ?_, onlyComponent (fun a => if a = 0 then 1 else 0) 1, ?_⟩
  · have := ((C152_three (k := 2) ⟨rfl, rfl⟩ ⟨rfl, rfl⟩ ⟨rfl, rfl⟩ hY).1.1 h).2.1 (fun a => if a = 0 then 1 else 0)
    change 0 ≤ (Spec.power 2 _ _).re at this
    rw [demo152_power] at this
    norm_num at this
  · have e : ∀ r < 3, component (onlyComponent (fun a => if a = 0 then 1 else 0) 1) r = fun a => if r = 1 then (if a = 0 then 1 else 0) else 0 := by
      intro r hr
      funext a
      exact component_single _ (by norm_num) hr a
    rw [show (6 : ℕ) = 3 * 2 by norm_num, C151_three (k := 2) (y0 := demoY128 1) (y1 := demoY128 (-1)) (y2 := demoY128 1) ⟨rfl, rfl⟩ ⟨rfl, rfl⟩ ⟨rfl, rfl⟩ hY, e 0 (by norm_num), e 1 (by norm_num), e 2 (by norm_num)]
    rw [demo152_power, demo152_power, demo152_power]
    norm_num

end
end Verif
