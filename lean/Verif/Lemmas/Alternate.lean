/-
Alternating minimisation with reweighted penalties: a sequence of vectors, each minimising the cost for the best second variable
of the previous one plus the penalties weighted at the previous one, stays bounded, its changes vanish and its limit points are
minimisers in each variable.
-/
import Verif.Lemmas.Converge
import Mathlib.Analysis.SpecialFunctions.Pow.Continuity

namespace Verif
open Finset Filter Topology
noncomputable section

/-- cost of parameters and a second variable, with penalties on the parameters -/
structure Alt (F : Type) (N k : Nat) where
  cost : (Fin N → ℝ) → F → ℝ
  R : (Fin N → ℝ) →ₗ[ℝ] (Fin k → ℝ)
  c : Fin k → ℝ
  order : Fin k → ℝ
  α : ℝ
  lam : ℝ

namespace Alt
variable {F : Type} {N k : Nat} (P : Alt F N k)

def res (y : Fin N → ℝ) (i : Fin k) : ℝ := P.R y i - P.c i

def w (y : Fin N → ℝ) (i : Fin k) : ℝ := weight P.α (P.order i) (P.res y i)

/-- sum of the penalties -/
def pen (y : Fin N → ℝ) : ℝ := ∑ i, Spec.smooth P.α (P.order i) (P.res y i)

/-- squares weighted at `y` -/
def model (y v : Fin N → ℝ) : ℝ := ∑ i, (P.res v i) ^ 2 / P.w y i

/-- objective -/
def obj (y : Fin N → ℝ) (d : F) : ℝ := P.cost y d + P.lam * P.pen y

/-- `d` is the best second variable for `y` -/
def Best (y : Fin N → ℝ) (d : F) : Prop := ∀ d', P.cost y d ≤ P.cost y d'

/-- `y'` is the best vector for `d` and the weights at `y` -/
def Next (y : Fin N → ℝ) (d : F) (y' : Fin N → ℝ) : Prop :=
  ∀ v, P.cost y' d + P.lam * P.model y y' ≤ P.cost v d + P.lam * P.model y v

/-- best in each variable -/
def Stationary (y : Fin N → ℝ) (d : F) : Prop := P.Best y d ∧ ∀ v, P.obj y d ≤ P.obj v d

/-- well posed -/
structure Good [NormedAddCommGroup F] : Prop where
  alpha : 0 < P.α
  lam : 0 < P.lam
  order : ∀ i, P.order i = 1 ∨ P.order i = 2
  inj : ∀ v, P.R v = 0 → v = 0
  cont : Continuous (fun q : (Fin N → ℝ) × F => P.cost q.1 q.2)
  nonneg : ∀ y d, 0 ≤ P.cost y d
  convex : ∀ d y v (t : ℝ), 0 ≤ t → t ≤ 1 → P.cost (y + t • (v - y)) d ≤ (1 - t) * P.cost y d + t * P.cost v d
  coercive : ∀ C, ∃ B : ℝ, ∀ y d, P.cost y d ≤ C → ‖d‖ ≤ B
  unique : ∀ y d d', P.Best y d → P.Best y d' → d = d'

variable {P} [NormedAddCommGroup F]

theorem w_pos (h : P.Good) (y : Fin N → ℝ) (i : Fin k) : 0 < P.w y i := weight_pos h.alpha _

theorem pen_nonneg (h : P.Good) (y : Fin N → ℝ) : 0 ≤ P.pen y := Finset.sum_nonneg (fun i _ => smooth_nonneg h.alpha _)

theorem res_line (y v : Fin N → ℝ) (t : ℝ) (i : Fin k) : P.res (y + t • (v - y)) i = P.res y i + t * (P.res v i - P.res y i) := by
  unfold res
  rw [map_add, map_smul, map_sub, Pi.add_apply, Pi.smul_apply, Pi.sub_apply, smul_eq_mul]
  ring

theorem pen_major (h : P.Good) (y v : Fin N → ℝ) : P.pen v - P.pen y ≤ P.model y v - P.model y y := by
  unfold pen model
  rw [← Finset.sum_sub_distrib, ← Finset.sum_sub_distrib]
  refine Finset.sum_le_sum (fun i _ => ?_)
  have := smooth_major h.alpha (h.order i) (P.res y i) (P.res v i)
  rw [sub_div] at this
  exact this

theorem model_line (h : P.Good) (y u v : Fin N → ℝ) (t : ℝ) : P.model y (u + t • (v - u)) = P.model y u +
    t * (2 * ∑ i, P.res u i * (P.res v i - P.res u i) / P.w y i) + t ^ 2 * ∑ i, (P.res v i - P.res u i) ^ 2 / P.w y i := by
  unfold model
  rw [Finset.mul_sum, Finset.mul_sum, Finset.mul_sum, ← Finset.sum_add_distrib, ← Finset.sum_add_distrib]
  refine Finset.sum_congr rfl (fun i _ => ?_)
  have := (w_pos h y i).ne'
  rw [res_line]
  field_simp
  ring

/-- the best vector is unique -/
theorem next_unique (h : P.Good) {y u v : Fin N → ℝ} {d : F} (hu : P.Next y d u)
    (hv : P.cost v d + P.lam * P.model y v ≤ P.cost u d + P.lam * P.model y u) : v = u := by
  have h1 := hu (u + (1 / 2 : ℝ) • (v - u))
  have h2 := h.convex d u v (1 / 2) (by norm_num) (by norm_num)
  have h3 := model_line h y u v (1 / 2)
  have h4 := model_line h y u v 1
  rw [one_smul, add_sub_cancel] at h4
  set S := ∑ i, (P.res v i - P.res u i) ^ 2 / P.w y i with hS
  have p : ∀ i ∈ Finset.univ, 0 ≤ (P.res v i - P.res u i) ^ 2 / P.w y i :=
    fun i _ => div_nonneg (sq_nonneg _) (w_pos h y i).le
  have hS0 : 0 ≤ S := Finset.sum_nonneg p
  have hlS : P.lam * S ≤ 0 := by
    rw [h3] at h1
    have h5 : P.lam * P.model y v = P.lam * (P.model y u + 1 * (2 * ∑ i, P.res u i * (P.res v i - P.res u i) / P.w y i) +
      1 ^ 2 * S) := by rw [h4]
    linarith
  have hz : S = 0 := le_antisymm (by
    by_contra hn
    have := mul_pos h.lam (not_le.1 hn)
    linarith) hS0
  refine sub_eq_zero.1 (h.inj (v - u) ?_)
  funext i
  have h6 := (Finset.sum_eq_zero_iff_of_nonneg p).1 hz i (Finset.mem_univ i)
  rcases div_eq_zero_iff.1 h6 with h7 | h7
  · have := pow_eq_zero_iff (two_ne_zero) |>.1 h7
    unfold res at this
    show P.R (v - u) i = 0
    rw [map_sub, Pi.sub_apply]
    linarith
  · exact absurd h7 (w_pos h y i).ne'

/-- a vector that is best for the weights at itself minimises the objective -/
theorem min_of_next (h : P.Good) {y : Fin N → ℝ} {d : F} (hy : P.Next y d y) (v : Fin N → ℝ) : P.obj y d ≤ P.obj v d := by
  set G := 2 * ∑ i, P.res y i * (P.res v i - P.res y i) / P.w y i with hG
  set S := ∑ i, (P.res v i - P.res y i) ^ 2 / P.w y i with hS
  have hpen : G ≤ P.pen v - P.pen y := by
    unfold pen
    rw [hG, Finset.mul_sum, ← Finset.sum_sub_distrib]
    exact Finset.sum_le_sum (fun i _ => (smooth_tangent h.alpha (h.order i) (P.res y i) (P.res v i)).1)
  have key : ∀ t : ℝ, 0 < t → t ≤ 1 → 0 ≤ P.cost v d - P.cost y d + P.lam * G + t * (P.lam * S) := by
    intro t h0 h1
    have a1 := hy (y + t • (v - y))
    have a2 := h.convex d y v t h0.le h1
    rw [model_line h y y v t, ← hG, ← hS] at a1
    have : 0 ≤ t * (P.cost v d - P.cost y d + P.lam * G + t * (P.lam * S)) := by nlinarith
    by_contra hn
    have := mul_neg_of_pos_of_neg h0 (not_le.1 hn)
    linarith
  have hlim : Tendsto (fun n : ℕ => P.cost v d - P.cost y d + P.lam * G + (1 / ((n : ℝ) + 1)) * (P.lam * S)) atTop
      (𝓝 (P.cost v d - P.cost y d + P.lam * G + 0 * (P.lam * S))) :=
    tendsto_const_nhds.add (tendsto_one_div_add_atTop_nhds_zero_nat.mul tendsto_const_nhds)
  have h0 := ge_of_tendsto' hlim (fun n => key _ (by positivity) (by
    rw [div_le_one (by positivity)]
    have : (0 : ℝ) ≤ n := Nat.cast_nonneg n
    linarith))
  have := mul_le_mul_of_nonneg_left hpen h.lam.le
  unfold obj
  linarith

/-- a step does not increase the objective -/
theorem step_le (h : P.Good) {y y' : Fin N → ℝ} {d : F} (hn : P.Next y d y') (v : Fin N → ℝ) :
    P.obj y' d ≤ P.cost v d + P.lam * (P.pen y + P.model y v - P.model y y) := by
  have h1 := mul_le_mul_of_nonneg_left (pen_major h y y') h.lam.le
  have h2 := hn v
  unfold obj
  linarith

theorem step_strict (h : P.Good) {y y' : Fin N → ℝ} {d : F} (hn : P.Next y d y') (hne : y' ≠ y) : P.obj y' d < P.obj y d := by
  have h1 := mul_le_mul_of_nonneg_left (pen_major h y y') h.lam.le
  have h2 : P.cost y' d + P.lam * P.model y y' < P.cost y d + P.lam * P.model y y := by
    by_contra hh
    exact hne (next_unique h hn (not_lt.1 hh)).symm
  unfold obj
  linarith

/-- a step stays exactly at the points that are best in each variable -/
theorem fixed_iff (h : P.Good) {y y' : Fin N → ℝ} {d : F} (hb : P.Best y d) (hn : P.Next y d y') :
    y' = y ↔ ∃ d', P.Stationary y d' := by
  constructor
  · rintro rfl
    exact ⟨d, hb, min_of_next h hn⟩
  · rintro ⟨d', hb', hm⟩
    obtain rfl := h.unique y d d' hb hb'
    by_contra hne
    have := step_strict h hn hne
    have := hm y'
    linarith

theorem pen_continuous (h : P.Good) : Continuous P.pen := by
  have hR : Continuous P.R := LinearMap.continuous_of_finiteDimensional P.R
  have hs : ∀ o, Continuous (Spec.smooth P.α o) := by
    intro o
    unfold Spec.smooth
    split
    · fun_prop
    · refine continuous_const.mul (continuous_abs.sub (continuous_const.mul (Continuous.log (by fun_prop) ?_)))
      intro r
      have : 0 ≤ |r| / P.α := div_nonneg (abs_nonneg r) h.alpha.le
      linarith
  unfold pen res
  exact continuous_finset_sum _ (fun i _ => (hs _).comp (((continuous_apply i).comp hR).sub continuous_const))

theorem model_continuous (h : P.Good) : Continuous (fun q : (Fin N → ℝ) × (Fin N → ℝ) => P.model q.1 q.2) := by
  have hR : Continuous P.R := LinearMap.continuous_of_finiteDimensional P.R
  have hres : ∀ i, Continuous (fun y => P.res y i) := fun i => ((continuous_apply i).comp hR).sub continuous_const
  unfold model
  refine continuous_finset_sum _ (fun i _ => Continuous.div₀ (((hres i).comp continuous_snd).pow 2) ?_ (fun q => (w_pos h q.1 i).ne'))
  have hw : Continuous (fun y => P.w y i) := by
    unfold w weight
    refine ((hres i).abs.rpow_const (fun y => Or.inr ?_)).add continuous_const
    rcases h.order i with e | e <;> rw [e] <;> norm_num
  exact hw.comp continuous_fst

theorem cost_tendsto (h : P.Good) {u : ℕ → Fin N → ℝ} {e : ℕ → F} {u' : Fin N → ℝ} {e' : F} (hu : Tendsto u atTop (𝓝 u'))
    (he : Tendsto e atTop (𝓝 e')) : Tendsto (fun n => P.cost (u n) (e n)) atTop (𝓝 (P.cost u' e')) := by
  have h1 := h.cont.tendsto (u', e')
  have h2 : Tendsto (fun n => (u n, e n)) atTop (𝓝 (u', e')) := hu.prodMk_nhds he
  exact h1.comp h2

theorem model_tendsto (h : P.Good) {u v : ℕ → Fin N → ℝ} {u' v' : Fin N → ℝ} (hu : Tendsto u atTop (𝓝 u'))
    (hv : Tendsto v atTop (𝓝 v')) : Tendsto (fun n => P.model (u n) (v n)) atTop (𝓝 (P.model u' v')) := by
  have h0 := model_continuous h
  generalize P.model = m at h0
  have h1 := h0.tendsto (u', v')
  have h2 : Tendsto (fun n => (u n, v n)) atTop (𝓝 (u', v')) := hu.prodMk_nhds hv
  exact h1.comp h2

/-- sets where the penalties are bounded are bounded -/
theorem pen_bounded (h : P.Good) (C : ℝ) : ∃ B : ℝ, ∀ y, P.pen y ≤ C → ‖y‖ ≤ B := by
  obtain ⟨K, hK, ha⟩ := LinearMap.exists_antilipschitzWith P.R (LinearMap.ker_eq_bot'.2 h.inj)
  have hα := h.alpha
  refine ⟨K * (‖P.c‖ + ((1 + P.α) * (|C| + 1) + 2 * P.α)), fun y hy => ?_⟩
  have h1 := ha.le_mul_dist y 0
  rw [dist_zero_right, map_zero, dist_zero_right] at h1
  refine h1.trans (mul_le_mul_of_nonneg_left ?_ (NNReal.coe_nonneg K))
  have hC := abs_nonneg C
  have hc := norm_nonneg P.c
  refine (pi_norm_le_iff_of_nonneg (by positivity)).2 (fun i => ?_)
  have p2 : ∀ i ∈ Finset.univ, 0 ≤ Spec.smooth P.α (P.order i) (P.res y i) := fun i _ => smooth_nonneg h.alpha _
  have h2 : Spec.smooth P.α (P.order i) (P.res y i) ≤ |C| :=
    (Finset.single_le_sum p2 (Finset.mem_univ i)).trans (hy.trans (le_abs_self C))
  have h3 := smooth_coercive (order := P.order i) hα (P.res y i)
  have h4 : |P.c i| ≤ ‖P.c‖ := norm_le_pi_norm P.c i
  have h5 : |P.R y i| ≤ |P.res y i| + |P.c i| := by
    have := abs_add_le (P.R y i - P.c i) (P.c i)
    rw [sub_add_cancel] at this
    exact this
  have h6 : (1 + P.α) * (Spec.smooth P.α (P.order i) (P.res y i) + 1) ≤ (1 + P.α) * (|C| + 1) :=
    mul_le_mul_of_nonneg_left (by linarith) (by linarith)
  rw [Real.norm_eq_abs]
  linarith

set_option maxHeartbeats 1000000 in
/-- alternating minimisation: bounded, with vanishing changes, and limit points that are best in each variable -/
theorem accumulates [ProperSpace F] (h : P.Good) (y : ℕ → Fin N → ℝ) (d : ℕ → F) (hb : ∀ n, P.Best (y n) (d n))
    (hn : ∀ n, P.Next (y n) (d n) (y (n + 1))) :
    (∃ B : ℝ, ∀ n, ‖y n‖ ≤ B) ∧ Tendsto (fun n => y (n + 1) - y n) atTop (𝓝 0) ∧
    (∀ n, P.obj (y (n + 1)) (d (n + 1)) ≤ P.obj (y n) (d n)) ∧
    ∀ (φ : ℕ → ℕ) (y' : Fin N → ℝ), StrictMono φ → Tendsto (y ∘ φ) atTop (𝓝 y') → ∃ d', P.Stationary y' d' := by
  have hstep : ∀ n v, P.obj (y (n + 1)) (d (n + 1)) ≤ P.cost v (d n) + P.lam * (P.pen (y n) + P.model (y n) v -
      P.model (y n) (y n)) := by
    intro n v
    have h1 := step_le h (hn n) v
    have h2 := hb (n + 1) (d n)
    unfold obj at h1 ⊢
    linarith
  have hdesc : ∀ n, P.obj (y (n + 1)) (d (n + 1)) ≤ P.obj (y n) (d n) := by
    intro n
    refine (hstep n (y n)).trans (le_of_eq ?_)
    unfold obj
    ring
  have hmono : Antitone (fun n => P.obj (y n) (d n)) := antitone_nat_of_succ_le hdesc
  have h0 : ∀ n, 0 ≤ P.obj (y n) (d n) := fun n => add_nonneg (h.nonneg _ _) (mul_nonneg h.lam.le (pen_nonneg h _))
  have hbdd : BddBelow (Set.range (fun n => P.obj (y n) (d n))) := ⟨0, by rintro _ ⟨n, rfl⟩; exact h0 n⟩
  set L := ⨅ n, P.obj (y n) (d n) with hLd
  have hL : Tendsto (fun n => P.obj (y n) (d n)) atTop (𝓝 L) := tendsto_atTop_ciInf hmono hbdd
  set C := P.obj (y 0) (d 0) with hC
  have hle : ∀ n, P.obj (y n) (d n) ≤ C := fun n => hmono (Nat.zero_le n)
  obtain ⟨By, hBy⟩ := pen_bounded h (C / P.lam)
  have hy : ∀ n, ‖y n‖ ≤ By := by
    intro n
    refine hBy _ ((le_div_iff₀ h.lam).2 ?_)
    have h1 := hle n
    have h2 := h.nonneg (y n) (d n)
    unfold obj at h1
    linarith [mul_comm P.lam (P.pen (y n))]
  obtain ⟨Bd, hBd⟩ := h.coercive C
  have hd : ∀ n, ‖d n‖ ≤ Bd := by
    intro n
    refine hBd (y n) _ ?_
    have h1 := hle n
    have h2 := mul_nonneg h.lam.le (pen_nonneg h (y n))
    unfold obj at h1
    linarith
  -- joint limits are best for the weights at themselves
  have hlimit : ∀ (ψ : ℕ → ℕ) (y' : Fin N → ℝ) (d' : F), StrictMono ψ → Tendsto (y ∘ ψ) atTop (𝓝 y') →
      Tendsto (d ∘ ψ) atTop (𝓝 d') → P.Best y' d' ∧ P.Next y' d' y' := by
    intro ψ y' d' hψ hy' hd'
    have hpen : Tendsto (fun n => P.pen (y (ψ n))) atTop (𝓝 (P.pen y')) := ((pen_continuous h).tendsto y').comp hy'
    refine ⟨fun e => ?_, fun v => ?_⟩
    · have h1 := cost_tendsto h hy' hd'
      have h2 : Tendsto (fun n => P.cost (y (ψ n)) e) atTop (𝓝 (P.cost y' e)) :=
        cost_tendsto h hy' tendsto_const_nhds
      exact le_of_tendsto_of_tendsto' h1 h2 (fun n => hb (ψ n) e)
    · have hobj : P.obj y' d' = L := by
        refine tendsto_nhds_unique ?_ (hL.comp hψ.tendsto_atTop)
        exact (cost_tendsto h hy' hd').add (hpen.const_mul P.lam)
      have h1 : L ≤ P.cost v d' + P.lam * (P.pen y' + P.model y' v - P.model y' y') := by
        refine ge_of_tendsto' ((cost_tendsto h (tendsto_const_nhds (x := v)) hd').add ((hpen.add (model_tendsto h hy' (tendsto_const_nhds (x := v)))).sub
          (model_tendsto h hy' hy') |>.const_mul P.lam)) (fun n => ?_)
        exact (ciInf_le hbdd (ψ n + 1)).trans (hstep (ψ n) v)
      rw [← hobj] at h1
      unfold obj at h1
      linarith
  have hKd : IsCompact (Metric.closedBall (0 : F) Bd) := isCompact_closedBall 0 Bd
  have hKy : IsCompact (Metric.closedBall (0 : Fin N → ℝ) By) := isCompact_closedBall 0 By
  refine ⟨⟨By, hy⟩, ?_, hdesc, ?_⟩
  · -- vanishing changes
    refine tendsto_of_subseq_tendsto (fun ns hns => ?_)
    obtain ⟨φ0, hφ0, hφ0'⟩ := strictMono_subseq_of_tendsto_atTop hns
    obtain ⟨y1, _, φ1, hφ1, hy1⟩ := hKy.tendsto_subseq (x := fun n => y (ns (φ0 n))) (fun n => mem_closedBall_zero_iff.2 (hy _))
    obtain ⟨d1, _, φ2, hφ2, hd1⟩ := hKd.tendsto_subseq (x := fun n => d (ns (φ0 (φ1 n)))) (fun n => mem_closedBall_zero_iff.2 (hd _))
    obtain ⟨y2, _, φ3, hφ3, hy2⟩ := hKy.tendsto_subseq (x := fun n => y (ns (φ0 (φ1 (φ2 n))) + 1))
      (fun n => mem_closedBall_zero_iff.2 (hy _))
    set ψ : ℕ → ℕ := fun n => ns (φ0 (φ1 (φ2 (φ3 n)))) with hψd
    have hψ : StrictMono ψ := (hφ0'.comp hφ1).comp (hφ2.comp hφ3)
    have ly : Tendsto (y ∘ ψ) atTop (𝓝 y1) := hy1.comp (hφ2.comp hφ3).tendsto_atTop
    have ld : Tendsto (d ∘ ψ) atTop (𝓝 d1) := hd1.comp hφ3.tendsto_atTop
    have ly2 : Tendsto (fun n => y (ψ n + 1)) atTop (𝓝 y2) := hy2
    have hN := (hlimit ψ y1 d1 hψ ly ld).2
    have h2 : P.cost y2 d1 + P.lam * P.model y1 y2 ≤ P.cost y1 d1 + P.lam * P.model y1 y1 := by
      refine le_of_tendsto_of_tendsto' ((cost_tendsto h ly2 ld).add ((model_tendsto h ly ly2).const_mul P.lam))
        ((cost_tendsto h (tendsto_const_nhds (x := y1)) ld).add ((model_tendsto h ly (tendsto_const_nhds (x := y1))).const_mul P.lam))
        (fun n => hn (ψ n) y1)
    have he := next_unique h hN h2
    refine ⟨fun n => φ0 (φ1 (φ2 (φ3 n))), ?_⟩
    have := ly2.sub ly
    rw [he, sub_self] at this
    exact this
  · intro φ y' hφ hy'
    obtain ⟨d', _, φ1, hφ1, hd1⟩ := hKd.tendsto_subseq (x := fun n => d (φ n)) (fun n => mem_closedBall_zero_iff.2 (hd _))
    obtain ⟨a, b⟩ := hlimit (φ ∘ φ1) y' d' (hφ.comp hφ1) (hy'.comp hφ1.tendsto_atTop) hd1
    exact ⟨d', a, min_of_next h b⟩

end Alt
end
end Verif
