/-
Convergence of iteratively reweighted least squares: a sequence of vectors, each solving the normal equations with the weights of
the previous one, tends to the minimiser of the smoothed objective.
-/
import Verif.Lemmas.Majorize
import Mathlib.Analysis.Normed.Module.FiniteDimension
import Mathlib.Topology.Sequences
import Mathlib.Topology.Algebra.Order.LiminfLimsup
import Mathlib.Topology.Order.MonotoneConvergence

namespace Verif
open Finset Filter Topology
noncomputable section

/-! ### the smoothed penalty -/

theorem smooth_nonneg {α order : ℝ} (hα : 0 < α) (r : ℝ) : 0 ≤ Spec.smooth α order r := by
  unfold Spec.smooth
  split
  · positivity
  · have h := Real.log_le_sub_one_of_pos (x := 1 + |r| / α) (by positivity)
    have h2 : α * Real.log (1 + |r| / α) ≤ α * (|r| / α) := mul_le_mul_of_nonneg_left (by linarith) hα.le
    have h3 : α * (|r| / α) = |r| := by field_simp
    linarith

/-- the penalty bounds the residual -/
theorem smooth_coercive {α order : ℝ} (hα : 0 < α) (r : ℝ) : |r| ≤ (1 + α) * (Spec.smooth α order r + 1) + 2 * α := by
  have h0 := smooth_nonneg (order := order) hα r
  unfold Spec.smooth at h0 ⊢
  split
  · have e : (1 + α) * (r ^ 2 / (1 + α) + 1) = r ^ 2 + (1 + α) := by field_simp
    rw [e]
    nlinarith [sq_nonneg (|r| - 1), sq_abs r, abs_nonneg r]
  · rename_i ho
    rw [if_neg ho] at h0
    have h := Real.log_le_sub_one_of_pos (x := (1 + |r| / α) / 2) (by positivity)
    rw [Real.log_div (by positivity) (by norm_num)] at h
    have h2 : Real.log 2 ≤ 1 := by have := Real.log_le_sub_one_of_pos (x := 2) (by norm_num); linarith
    have h4 : Real.log (1 + |r| / α) ≤ |r| / α / 2 + 1 := by linarith
    have h5 : α * Real.log (1 + |r| / α) ≤ α * (|r| / α / 2 + 1) := mul_le_mul_of_nonneg_left h4 hα.le
    have h6 : α * (|r| / α / 2 + 1) = |r| / 2 + α := by field_simp
    nlinarith [abs_nonneg r]

/-- reciprocal weight -/
def weight (α order r : ℝ) : ℝ := |r| ^ ((2 : ℝ) - order) + α

theorem weight_pos {α order : ℝ} (hα : 0 < α) (r : ℝ) : 0 < weight α order r := by unfold weight; positivity

theorem weight_ge {α order : ℝ} (r : ℝ) : α ≤ weight α order r := by
  have : 0 ≤ |r| ^ ((2 : ℝ) - order) := by positivity
  unfold weight; linarith

theorem weight_le {α order : ℝ} (ho : order = 1 ∨ order = 2) (r : ℝ) : weight α order r ≤ 1 + |r| + α := by
  unfold weight
  rcases ho with rfl | rfl
  · rw [show (2 : ℝ) - 1 = 1 by norm_num, Real.rpow_one]; linarith
  · rw [show (2 : ℝ) - 2 = 0 by norm_num, Real.rpow_zero]; linarith [abs_nonneg r]

theorem log_gap {α p q : ℝ} (hα : 0 < α) (hp : 0 ≤ p) (hq : 0 ≤ q) :
    p / (p + α) * (q - p) ≤ (q - α * Real.log (1 + q / α)) - (p - α * Real.log (1 + p / α)) ∧
    ((q - α * Real.log (1 + q / α)) - (p - α * Real.log (1 + p / α)) ≤ p / (p + α) * (q - p) → q = p) := by
  have hp' : 0 < p + α := by linarith
  have hq' : 0 < q + α := by linarith
  have e : Real.log (1 + q / α) - Real.log (1 + p / α) = Real.log ((q + α) / (p + α)) := by
    rw [← Real.log_div (by positivity) (by positivity)]
    congr 1
    field_simp
    ring
  have e2 : q - p - α * ((q + α) / (p + α) - 1) = p / (p + α) * (q - p) := by field_simp; ring
  have h := Real.log_le_sub_one_of_pos (x := (q + α) / (p + α)) (by positivity)
  refine ⟨?_, ?_⟩
  · have h2 := mul_le_mul_of_nonneg_left h hα.le
    rw [← e] at h2
    linarith
  · intro hle
    by_contra hne
    have hne' : (q + α) / (p + α) ≠ 1 := by
      intro h1
      rw [div_eq_one_iff_eq hp'.ne'] at h1
      exact hne (by linarith)
    have h3 := Real.log_lt_sub_one_of_pos (x := (q + α) / (p + α)) (by positivity) hne'
    have h2 := mul_lt_mul_of_pos_left h3 hα
    rw [← e] at h2
    linarith

/-- the penalty is convex: it lies above its tangents, and touches them only at their point -/
theorem smooth_tangent {α order : ℝ} (hα : 0 < α) (ho : order = 1 ∨ order = 2) (r r' : ℝ) :
    2 * (r * (r' - r) / weight α order r) ≤ Spec.smooth α order r' - Spec.smooth α order r ∧
    (Spec.smooth α order r' - Spec.smooth α order r ≤ 2 * (r * (r' - r) / weight α order r) → r' = r) := by
  rcases ho with rfl | rfl
  · have hw : weight α 1 r = |r| + α := by
      unfold weight; rw [show (2 : ℝ) - 1 = 1 by norm_num, Real.rpow_one]
    obtain ⟨h1, h2⟩ := log_gap hα (abs_nonneg r) (abs_nonneg r')
    have hp : 0 < |r| + α := by have := abs_nonneg r; linarith
    have e : |r| / (|r| + α) * (|r'| - |r|) - r * (r' - r) / (|r| + α) = (|r| * |r'| - r * r') / (|r| + α) := by
      rw [← sub_eq_zero]; field_simp; rw [show |r| * (|r'| - |r|) = |r| * |r'| - |r| ^ 2 by ring, sq_abs]; ring
    have hm : r * r' ≤ |r| * |r'| := by rw [← abs_mul]; exact le_abs_self _
    have h3 : 0 ≤ (|r| * |r'| - r * r') / (|r| + α) := div_nonneg (by linarith) hp.le
    unfold Spec.smooth
    rw [if_neg (by norm_num), if_neg (by norm_num), hw]
    refine ⟨by linarith, ?_⟩
    intro hle
    have habs := h2 (by linarith)
    have h4 : (|r| * |r'| - r * r') / (|r| + α) = 0 := by linarith
    have h5 : |r| * |r'| - r * r' = 0 := by
      rcases div_eq_zero_iff.1 h4 with h | h
      · exact h
      · exact absurd h hp.ne'
    rw [habs] at h5
    have h6 : |r| * |r| = r * r := abs_mul_abs_self r
    have h7 : r * (r - r') = 0 := by nlinarith
    rcases mul_eq_zero.1 h7 with h | h
    · rw [h, abs_zero, abs_eq_zero] at habs
      rw [h, habs]
    · linarith
  · have hw : weight α 2 r = 1 + α := by
      unfold weight; rw [show (2 : ℝ) - 2 = 0 by norm_num, Real.rpow_zero]
    unfold Spec.smooth
    rw [if_pos rfl, if_pos rfl, hw]
    have hp : 0 < 1 + α := by linarith
    have e : r' ^ 2 / (1 + α) - r ^ 2 / (1 + α) - 2 * (r * (r' - r) / (1 + α)) = (r' - r) ^ 2 / (1 + α) := by
      field_simp; ring
    have h3 : 0 ≤ (r' - r) ^ 2 / (1 + α) := by positivity
    refine ⟨by linarith, ?_⟩
    intro hle
    have h4 : (r' - r) ^ 2 / (1 + α) = 0 := by linarith
    rcases div_eq_zero_iff.1 h4 with h | h
    · have := pow_eq_zero_iff (two_ne_zero) |>.1 h; linarith
    · exact absurd h hp.ne'

/-! ### the problem -/

/-- regression problem with penalties: `A` maps parameters to data, `R` to the residuals of the prior before centring -/
structure Irls (N m k : Nat) where
  A : (Fin N → ℝ) →ₗ[ℝ] (Fin m → ℝ)
  b : Fin m → ℝ
  R : (Fin N → ℝ) →ₗ[ℝ] (Fin k → ℝ)
  c : Fin k → ℝ
  order : Fin k → ℝ
  α : ℝ
  lam : ℝ

namespace Irls
variable {N m k : Nat} (P : Irls N m k)

def res (y : Fin N → ℝ) (i : Fin k) : ℝ := P.R y i - P.c i

def w (y : Fin N → ℝ) (i : Fin k) : ℝ := weight P.α (P.order i) (P.res y i)

/-- objective -/
def obj (y : Fin N → ℝ) : ℝ := ∑ j, (P.b j - P.A y j) ^ 2 + P.lam * ∑ i, Spec.smooth P.α (P.order i) (P.res y i)

/-- `y'` solves the normal equations with the weights at `y` (tested with all directions) -/
def Step (y y' : Fin N → ℝ) : Prop :=
  ∀ v, ∑ j, (P.A y' j - P.b j) * P.A v j + P.lam * ∑ i, P.res y' i * P.R v i / P.w y i = 0

/-- well posed -/
structure Good : Prop where
  alpha : 0 < P.α
  lam : 0 ≤ P.lam
  order : ∀ i, P.order i = 1 ∨ P.order i = 2
  inj : ∀ v, P.A v = 0 → (0 < P.lam → P.R v = 0) → v = 0

variable {P}

theorem w_pos (h : P.Good) (y : Fin N → ℝ) (i : Fin k) : 0 < P.w y i := weight_pos h.alpha _

/-- a step decreases the objective at least by the weighted square of the change -/
theorem step_gap (h : P.Good) {y y' : Fin N → ℝ} (hs : P.Step y y') :
    P.obj y' + (∑ j, (P.A (y - y') j) ^ 2 + P.lam * ∑ i, (P.R (y - y') i) ^ 2 / P.w y i) ≤ P.obj y := by
  have h0 := hs (y - y')
  have e1 : ∑ j, (P.b j - P.A y j) ^ 2 = ∑ j, (P.b j - P.A y' j) ^ 2 + ∑ j, (P.A (y - y') j) ^ 2 +
      2 * ∑ j, (P.A y' j - P.b j) * P.A (y - y') j := by
    rw [Finset.mul_sum, ← Finset.sum_add_distrib, ← Finset.sum_add_distrib]
    refine Finset.sum_congr rfl (fun j _ => ?_)
    rw [map_sub, Pi.sub_apply]; ring
  have e2 : ∑ i, ((P.res y' i) ^ 2 - (P.res y i) ^ 2) / P.w y i = - ∑ i, (P.R (y - y') i) ^ 2 / P.w y i -
      2 * ∑ i, P.res y' i * P.R (y - y') i / P.w y i := by
    rw [Finset.mul_sum, ← Finset.sum_neg_distrib, ← Finset.sum_sub_distrib]
    refine Finset.sum_congr rfl (fun i _ => ?_)
    have := (w_pos h y i).ne'
    rw [map_sub, Pi.sub_apply]
    unfold res
    field_simp
    ring
  have e3 : ∑ i, Spec.smooth P.α (P.order i) (P.res y' i) - ∑ i, Spec.smooth P.α (P.order i) (P.res y i) ≤
      ∑ i, ((P.res y' i) ^ 2 - (P.res y i) ^ 2) / P.w y i := by
    rw [← Finset.sum_sub_distrib]
    exact Finset.sum_le_sum (fun i _ => smooth_major h.alpha (h.order i) _ _)
  rw [e2] at e3
  have e4 := mul_le_mul_of_nonneg_left e3 h.lam
  unfold obj
  rw [e1]
  linarith

/-- gradient of half the objective in direction `v` -/
def slope (P : Irls N m k) (y v : Fin N → ℝ) : ℝ :=
  ∑ j, (P.A y j - P.b j) * P.A v j + P.lam * ∑ i, P.res y i * P.R v i / P.w y i

/-- the objective is convex -/
theorem obj_tangent (h : P.Good) (y v : Fin N → ℝ) :
    P.obj y + 2 * P.slope y (v - y) + ∑ j, (P.A (v - y) j) ^ 2 ≤ P.obj v := by
  have e1 : ∑ j, (P.b j - P.A v j) ^ 2 = ∑ j, (P.b j - P.A y j) ^ 2 + ∑ j, (P.A (v - y) j) ^ 2 +
      2 * ∑ j, (P.A y j - P.b j) * P.A (v - y) j := by
    rw [Finset.mul_sum, ← Finset.sum_add_distrib, ← Finset.sum_add_distrib]
    refine Finset.sum_congr rfl (fun j _ => ?_)
    rw [map_sub, Pi.sub_apply]; ring
  have e3 : 2 * ∑ i, P.res y i * P.R (v - y) i / P.w y i ≤
      ∑ i, Spec.smooth P.α (P.order i) (P.res v i) - ∑ i, Spec.smooth P.α (P.order i) (P.res y i) := by
    rw [← Finset.sum_sub_distrib, Finset.mul_sum]
    refine Finset.sum_le_sum (fun i _ => ?_)
    have := (smooth_tangent h.alpha (h.order i) (P.res y i) (P.res v i)).1
    rw [show P.R (v - y) i = P.res v i - P.res y i by rw [map_sub, Pi.sub_apply]; unfold res; ring]
    exact this
  have e4 := mul_le_mul_of_nonneg_left e3 h.lam
  unfold obj slope
  rw [e1]
  linarith

/-- a point with zero gradient is the only minimiser -/
theorem stationary_unique (h : P.Good) {y : Fin N → ℝ} (h0 : ∀ v, P.slope y v = 0) {v : Fin N → ℝ} (hv : P.obj v ≤ P.obj y) :
    v = y := by
  have e1 : ∑ j, (P.b j - P.A v j) ^ 2 = ∑ j, (P.b j - P.A y j) ^ 2 + ∑ j, (P.A (v - y) j) ^ 2 +
      2 * ∑ j, (P.A y j - P.b j) * P.A (v - y) j := by
    rw [Finset.mul_sum, ← Finset.sum_add_distrib, ← Finset.sum_add_distrib]
    refine Finset.sum_congr rfl (fun j _ => ?_)
    rw [map_sub, Pi.sub_apply]; ring
  have hR : ∀ i, P.R (v - y) i = P.res v i - P.res y i := by
    intro i; rw [map_sub, Pi.sub_apply]; unfold res; ring
  have e3 : ∀ i, 0 ≤ Spec.smooth P.α (P.order i) (P.res v i) - Spec.smooth P.α (P.order i) (P.res y i) -
      2 * (P.res y i * P.R (v - y) i / P.w y i) := by
    intro i
    have := (smooth_tangent h.alpha (h.order i) (P.res y i) (P.res v i)).1
    rw [hR]
    unfold w
    linarith
  have hs := h0 (v - y)
  have hsum : ∑ j, (P.A (v - y) j) ^ 2 + P.lam * ∑ i, (Spec.smooth P.α (P.order i) (P.res v i) -
      Spec.smooth P.α (P.order i) (P.res y i) - 2 * (P.res y i * P.R (v - y) i / P.w y i)) ≤ 0 := by
    rw [Finset.sum_sub_distrib, Finset.sum_sub_distrib, ← Finset.mul_sum]
    unfold obj at hv
    unfold slope at hs
    rw [e1] at hv
    linarith
  have p1 : 0 ≤ ∑ j, (P.A (v - y) j) ^ 2 := Finset.sum_nonneg (fun _ _ => sq_nonneg _)
  have p2 := Finset.sum_nonneg (fun i (_ : i ∈ Finset.univ) => e3 i)
  have p3 := mul_nonneg h.lam p2
  have hA : P.A (v - y) = 0 := by
    have : ∑ j, (P.A (v - y) j) ^ 2 = 0 := by linarith
    funext j
    have := (Finset.sum_eq_zero_iff_of_nonneg (fun _ _ => sq_nonneg _)).1 this j (Finset.mem_univ j)
    exact pow_eq_zero_iff (two_ne_zero) |>.1 this
  have := h.inj (v - y) hA (fun hl => by
    have h1 : P.lam * ∑ i, (Spec.smooth P.α (P.order i) (P.res v i) -
      Spec.smooth P.α (P.order i) (P.res y i) - 2 * (P.res y i * P.R (v - y) i / P.w y i)) = 0 := by linarith
    have h2 := (mul_eq_zero.1 h1).resolve_left hl.ne'
    funext i
    have h3 := (Finset.sum_eq_zero_iff_of_nonneg (fun i _ => e3 i)).1 h2 i (Finset.mem_univ i)
    have h4 := (smooth_tangent h.alpha (h.order i) (P.res y i) (P.res v i)).2 (by
      rw [hR] at h3
      unfold w at h3
      linarith)
    rw [hR, h4, sub_self]
    rfl)
  exact sub_eq_zero.1 this

theorem stationary_min (h : P.Good) {y : Fin N → ℝ} (h0 : ∀ v, P.slope y v = 0) (v : Fin N → ℝ) : P.obj y ≤ P.obj v := by
  have := obj_tangent h y v
  rw [h0] at this
  have p1 : 0 ≤ ∑ j, (P.A (v - y) j) ^ 2 := Finset.sum_nonneg (fun _ _ => sq_nonneg _)
  linarith

theorem fixed_iff (h : P.Good) {y y' : Fin N → ℝ} (hs : P.Step y y') : y' = y ↔ ∀ v, P.obj y ≤ P.obj v := by
  constructor
  · rintro rfl v
    exact stationary_min h (fun v => hs v) v
  · intro hm
    have hg := step_gap h hs
    have h1 := hm y'
    have p1 : 0 ≤ ∑ j, (P.A (y - y') j) ^ 2 := Finset.sum_nonneg (fun _ _ => sq_nonneg _)
    have p2 : ∀ i ∈ Finset.univ, 0 ≤ (P.R (y - y') i) ^ 2 / P.w y i := fun i _ => div_nonneg (sq_nonneg _) (w_pos h y i).le
    have p3 := mul_nonneg h.lam (Finset.sum_nonneg p2)
    have hA : P.A (y - y') = 0 := by
      have : ∑ j, (P.A (y - y') j) ^ 2 = 0 := by linarith
      funext j
      have := (Finset.sum_eq_zero_iff_of_nonneg (fun _ _ => sq_nonneg _)).1 this j (Finset.mem_univ j)
      exact pow_eq_zero_iff (two_ne_zero) |>.1 this
    have := h.inj (y - y') hA (fun hl => by
      have h1 : P.lam * ∑ i, (P.R (y - y') i) ^ 2 / P.w y i = 0 := by linarith
      have h2 := (mul_eq_zero.1 h1).resolve_left hl.ne'
      funext i
      have h3 := (Finset.sum_eq_zero_iff_of_nonneg p2).1 h2 i (Finset.mem_univ i)
      rcases div_eq_zero_iff.1 h3 with h | h'
      · exact pow_eq_zero_iff (two_ne_zero) |>.1 h
      · exact absurd h' (w_pos h y i).ne')
    exact (sub_eq_zero.1 this).symm

theorem obj_nonneg (h : P.Good) (y : Fin N → ℝ) : 0 ≤ P.obj y := by
  have p1 : 0 ≤ ∑ j, (P.b j - P.A y j) ^ 2 := Finset.sum_nonneg (fun _ _ => sq_nonneg _)
  have p2 : 0 ≤ ∑ i, Spec.smooth P.α (P.order i) (P.res y i) := Finset.sum_nonneg (fun i _ => smooth_nonneg h.alpha _)
  exact add_nonneg p1 (mul_nonneg h.lam p2)

theorem obj_continuous (h : P.Good) : Continuous P.obj := by
  have hA : Continuous P.A := LinearMap.continuous_of_finiteDimensional P.A
  have hR : Continuous P.R := LinearMap.continuous_of_finiteDimensional P.R
  have hs : ∀ o, Continuous (Spec.smooth P.α o) := by
    intro o
    unfold Spec.smooth
    split
    · fun_prop
    · refine continuous_const.mul (continuous_abs.sub (continuous_const.mul (Continuous.log (by fun_prop) ?_)))
      intro r
      have : 0 ≤ |r| / P.α := div_nonneg (abs_nonneg r) h.alpha.le
      linarith
  unfold obj res
  refine Continuous.add (continuous_finset_sum _ (fun j _ => ?_)) (continuous_const.mul (continuous_finset_sum _ (fun i _ => ?_)))
  · exact (continuous_const.sub ((continuous_apply j).comp hA)).pow 2
  · exact (hs _).comp (((continuous_apply i).comp hR).sub continuous_const)

/-- data and residuals together -/
def both (P : Irls N m k) : (Fin N → ℝ) →ₗ[ℝ] (Fin m → ℝ) × (Fin k → ℝ) := P.A.prod (P.lam • P.R)

theorem both_inj (h : P.Good) : LinearMap.ker P.both = ⊥ := by
  rw [LinearMap.ker_eq_bot']
  intro v hv
  have h1 : P.A v = 0 := congrArg Prod.fst hv
  have h2 : P.lam • P.R v = 0 := congrArg Prod.snd hv
  exact h.inj v h1 (fun hl => (smul_eq_zero.1 h2).resolve_left hl.ne')

theorem both_bound (h : P.Good) : ∃ K : ℝ, 0 < K ∧ ∀ v, ‖v‖ ≤ K * ‖P.both v‖ := by
  obtain ⟨K, hK, ha⟩ := LinearMap.exists_antilipschitzWith P.both (both_inj h)
  refine ⟨K, by exact_mod_cast hK, fun v => ?_⟩
  have := ha.le_mul_dist v 0
  rwa [dist_zero_right, map_zero, dist_zero_right] at this

/-- sets where the objective is bounded are bounded -/
theorem sublevel_bounded (h : P.Good) (F : ℝ) : ∃ B : ℝ, ∀ y, P.obj y ≤ F → ‖y‖ ≤ B := by
  obtain ⟨K, hK, hb⟩ := both_bound h
  set c := P.lam * ((1 + P.α) * 1 + 2 * P.α) + (1 + P.α) * |F| + P.lam * ‖P.c‖
  refine ⟨K * (max (1 + |F| + ‖P.b‖) c), fun y hy => (hb y).trans (mul_le_mul_of_nonneg_left ?_ hK.le)⟩
  have hα := h.alpha
  have p1 : ∀ j ∈ Finset.univ, 0 ≤ (P.b j - P.A y j) ^ 2 := fun _ _ => sq_nonneg _
  have p2 : ∀ i ∈ Finset.univ, 0 ≤ Spec.smooth P.α (P.order i) (P.res y i) := fun i _ => smooth_nonneg h.alpha _
  have s1 := Finset.sum_nonneg p1
  have s2 := mul_nonneg h.lam (Finset.sum_nonneg p2)
  have hF : F ≤ |F| := le_abs_self F
  unfold obj at hy
  have hc : 0 ≤ c := by
    have := h.lam
    have := abs_nonneg F
    have := norm_nonneg P.c
    positivity
  refine (Prod.norm_def (P.both y)).le.trans (max_le_max ?_ ?_)
  · show ‖P.A y‖ ≤ _
    refine (pi_norm_le_iff_of_nonneg (by have := abs_nonneg F; have := norm_nonneg P.b; linarith)).2 (fun j => ?_)
    have h1 : (P.b j - P.A y j) ^ 2 ≤ F := by
      have := Finset.single_le_sum p1 (Finset.mem_univ j)
      linarith
    have h2 : |P.b j - P.A y j| ≤ 1 + |F| := by
      have := sq_abs (P.b j - P.A y j)
      nlinarith [sq_nonneg (|P.b j - P.A y j| - 1), abs_nonneg (P.b j - P.A y j)]
    have h3 : |P.b j| ≤ ‖P.b‖ := norm_le_pi_norm P.b j
    rw [Real.norm_eq_abs]
    have h4 : |P.A y j| ≤ |P.b j| + |P.b j - P.A y j| := by
      have := abs_sub (P.b j) (P.b j - P.A y j)
      rwa [sub_sub_cancel] at this
    linarith
  · show ‖P.lam • P.R y‖ ≤ c
    refine (pi_norm_le_iff_of_nonneg hc).2 (fun i => ?_)
    rw [Pi.smul_apply, smul_eq_mul, Real.norm_eq_abs, abs_mul, abs_of_nonneg h.lam]
    have h1 : P.lam * Spec.smooth P.α (P.order i) (P.res y i) ≤ F := by
      have := mul_le_mul_of_nonneg_left (Finset.single_le_sum p2 (Finset.mem_univ i)) h.lam
      linarith
    have h2 := mul_le_mul_of_nonneg_left (smooth_coercive (order := P.order i) hα (P.res y i)) h.lam
    have h3 : |P.c i| ≤ ‖P.c‖ := norm_le_pi_norm P.c i
    have h4 : |P.R y i| ≤ |P.res y i| + |P.c i| := by
      have := abs_add_le (P.R y i - P.c i) (P.c i)
      rw [sub_add_cancel] at this
      exact this
    have h5 := mul_le_mul_of_nonneg_left h4 h.lam
    have h6 := mul_le_mul_of_nonneg_left h3 h.lam
    have h7 : (1 + P.α) * (P.lam * Spec.smooth P.α (P.order i) (P.res y i)) ≤ (1 + P.α) * |F| :=
      mul_le_mul_of_nonneg_left (h1.trans hF) (by linarith)
    show _ ≤ P.lam * ((1 + P.α) * 1 + 2 * P.α) + (1 + P.α) * |F| + P.lam * ‖P.c‖
    nlinarith

/-- steps converge to the unique minimiser -/
theorem converges (h : P.Good) (y : ℕ → Fin N → ℝ) (hs : ∀ n, P.Step (y n) (y (n + 1))) :
    ∃ y', (∀ v, P.obj y' ≤ P.obj v) ∧ (∀ v, P.obj v ≤ P.obj y' → v = y') ∧ Tendsto y atTop (𝓝 y') := by
  have hα := h.alpha
  have hmono : Antitone (fun n => P.obj (y n)) := by
    refine antitone_nat_of_succ_le (fun n => ?_)
    have hg := step_gap h (hs n)
    have p1 : 0 ≤ ∑ j, (P.A (y n - y (n + 1)) j) ^ 2 := Finset.sum_nonneg (fun _ _ => sq_nonneg _)
    have p2 : 0 ≤ ∑ i, (P.R (y n - y (n + 1)) i) ^ 2 / P.w (y n) i :=
      Finset.sum_nonneg (fun i _ => div_nonneg (sq_nonneg _) (w_pos h _ i).le)
    have p3 := mul_nonneg h.lam p2
    linarith
  obtain ⟨B, hB⟩ := sublevel_bounded h (P.obj (y 0))
  have hBy : ∀ n, ‖y n‖ ≤ B := fun n => hB _ (hmono (Nat.zero_le n))
  have hbdd : BddBelow (Set.range (fun n => P.obj (y n))) := ⟨0, by rintro _ ⟨n, rfl⟩; exact obj_nonneg h _⟩
  set L := ⨅ n, P.obj (y n)
  have hL : Tendsto (fun n => P.obj (y n)) atTop (𝓝 L) := tendsto_atTop_ciInf hmono hbdd
  have hd0 : Tendsto (fun n => P.obj (y n) - P.obj (y (n + 1))) atTop (𝓝 0) := by
    have := hL.sub (hL.comp (tendsto_add_atTop_nat 1))
    rwa [sub_self] at this
  -- bounded images
  obtain ⟨CA, hCA⟩ : ∃ C : ℝ, ∀ v, ‖P.A v‖ ≤ C * ‖v‖ :=
    ⟨_, fun v => (LinearMap.toContinuousLinearMap P.A).le_opNorm v⟩
  obtain ⟨CR, hCR⟩ : ∃ C : ℝ, ∀ v, ‖P.R v‖ ≤ C * ‖v‖ :=
    ⟨_, fun v => (LinearMap.toContinuousLinearMap P.R).le_opNorm v⟩
  have hB0 : 0 ≤ B := (norm_nonneg _).trans (hBy 0)
  obtain ⟨W, hW0, hW⟩ : ∃ W : ℝ, 0 < W ∧ ∀ n i, P.w (y n) i ≤ W := by
    refine ⟨1 + (|CR| * B + ‖P.c‖) + P.α, by positivity, fun n i => ?_⟩
    refine (weight_le (h.order i) _).trans ?_
    have h1 : |P.R (y n) i| ≤ |CR| * B := by
      have h1 := norm_le_pi_norm (P.R (y n)) i
      have h2 := hCR (y n)
      have h3 : CR * ‖y n‖ ≤ |CR| * B := mul_le_mul (le_abs_self _) (hBy n) (norm_nonneg _) (abs_nonneg _)
      rw [Real.norm_eq_abs] at h1
      linarith
    have h2 : |P.c i| ≤ ‖P.c‖ := norm_le_pi_norm P.c i
    have h3 : |P.res (y n) i| ≤ |P.R (y n) i| + |P.c i| := abs_sub _ _
    linarith
  -- the changes vanish
  have hAd : ∀ j, Tendsto (fun n => P.A (y n - y (n + 1)) j) atTop (𝓝 0) := by
    intro j
    have : Tendsto (fun n => (P.A (y n - y (n + 1)) j) ^ 2) atTop (𝓝 0) := by
      refine squeeze_zero (fun n => sq_nonneg _) (fun n => ?_) hd0
      have hg := step_gap h (hs n)
      have p2 : 0 ≤ ∑ i, (P.R (y n - y (n + 1)) i) ^ 2 / P.w (y n) i :=
        Finset.sum_nonneg (fun i _ => div_nonneg (sq_nonneg _) (w_pos h _ i).le)
      have p3 := mul_nonneg h.lam p2
      have := Finset.single_le_sum (f := fun j => (P.A (y n - y (n + 1)) j) ^ 2) (fun _ _ => sq_nonneg _) (Finset.mem_univ j)
      linarith
    have h2 := (Real.continuous_sqrt.tendsto 0).comp this
    simp only [Function.comp_def, Real.sqrt_zero, Real.sqrt_sq_eq_abs] at h2
    exact (tendsto_zero_iff_abs_tendsto_zero _).2 h2
  have hRd : ∀ i, Tendsto (fun n => P.lam * P.R (y n - y (n + 1)) i) atTop (𝓝 0) := by
    intro i
    have : Tendsto (fun n => (P.lam * P.R (y n - y (n + 1)) i) ^ 2) atTop (𝓝 0) := by
      have hz : Tendsto (fun n => P.lam * W * (P.obj (y n) - P.obj (y (n + 1)))) atTop (𝓝 0) := by
        have := hd0.const_mul (P.lam * W)
        rwa [mul_zero] at this
      refine squeeze_zero (fun n => sq_nonneg _) (fun n => ?_) hz
      have hg := step_gap h (hs n)
      have p1 : 0 ≤ ∑ j, (P.A (y n - y (n + 1)) j) ^ 2 := Finset.sum_nonneg (fun _ _ => sq_nonneg _)
      have h1 := Finset.single_le_sum (f := fun i => (P.R (y n - y (n + 1)) i) ^ 2 / P.w (y n) i)
        (fun i _ => div_nonneg (sq_nonneg _) (w_pos h _ i).le) (Finset.mem_univ i)
      have h2 := mul_le_mul_of_nonneg_left h1 h.lam
      have h3 : (P.R (y n - y (n + 1)) i) ^ 2 / W ≤ (P.R (y n - y (n + 1)) i) ^ 2 / P.w (y n) i :=
        div_le_div_of_nonneg_left (sq_nonneg _) (w_pos h _ i) (hW n i)
      have h4 := mul_le_mul_of_nonneg_left h3 h.lam
      have h5 : P.lam * ((P.R (y n - y (n + 1)) i) ^ 2 / W) ≤ P.obj (y n) - P.obj (y (n + 1)) := by linarith
      have h6 := mul_le_mul_of_nonneg_left h5 (mul_nonneg h.lam hW0.le)
      have e : P.lam * W * (P.lam * ((P.R (y n - y (n + 1)) i) ^ 2 / W)) = (P.lam * P.R (y n - y (n + 1)) i) ^ 2 := by
        field_simp
      rwa [e] at h6
    have h2 := (Real.continuous_sqrt.tendsto 0).comp this
    simp only [Function.comp_def, Real.sqrt_zero, Real.sqrt_sq_eq_abs] at h2
    exact (tendsto_zero_iff_abs_tendsto_zero _).2 h2
  -- the limit is below every value
  have hinf : ∀ v, L ≤ P.obj v := by
    intro v
    have hsl : Tendsto (fun n => P.slope (y n) (v - y n)) atTop (𝓝 0) := by
      have he : ∀ n, P.slope (y n) (v - y n) = ∑ j, P.A (y n - y (n + 1)) j * P.A (v - y n) j +
          ∑ i, P.lam * P.R (y n - y (n + 1)) i * (P.R (v - y n) i / P.w (y n) i) := by
        intro n
        have h0 := hs n (v - y n)
        have e1 : ∑ j, P.A (y n - y (n + 1)) j * P.A (v - y n) j = ∑ j, (P.A (y n) j - P.b j) * P.A (v - y n) j -
            ∑ j, (P.A (y (n + 1)) j - P.b j) * P.A (v - y n) j := by
          rw [← Finset.sum_sub_distrib]
          refine Finset.sum_congr rfl (fun j _ => ?_)
          rw [map_sub P.A (y n) (y (n + 1)), Pi.sub_apply]; ring
        have e2 : ∑ i, P.lam * P.R (y n - y (n + 1)) i * (P.R (v - y n) i / P.w (y n) i) =
            P.lam * ∑ i, P.res (y n) i * P.R (v - y n) i / P.w (y n) i -
            P.lam * ∑ i, P.res (y (n + 1)) i * P.R (v - y n) i / P.w (y n) i := by
          rw [Finset.mul_sum, Finset.mul_sum, ← Finset.sum_sub_distrib]
          refine Finset.sum_congr rfl (fun i _ => ?_)
          rw [map_sub P.R (y n) (y (n + 1)), Pi.sub_apply]
          unfold res
          ring
        rw [e1, e2]
        unfold slope
        linarith
      have hvb : ∀ n, ‖v - y n‖ ≤ ‖v‖ + B := fun n => (norm_sub_le _ _).trans (by have := hBy n; linarith)
      simp only [he]
      rw [show (0 : ℝ) = ∑ _j : Fin m, (0 : ℝ) + ∑ _i : Fin k, (0 : ℝ) by simp]
      refine Tendsto.add (tendsto_finset_sum _ (fun j _ => ?_)) (tendsto_finset_sum _ (fun i _ => ?_))
      · refine (hAd j).zero_mul_isBoundedUnder_le ⟨|CA| * (‖v‖ + B), ?_⟩
        refine eventually_map.2 (Eventually.of_forall (fun n => ?_))
        have h1 := norm_le_pi_norm (P.A (v - y n)) j
        have h2 := hCA (v - y n)
        have h3 : CA * ‖v - y n‖ ≤ |CA| * (‖v‖ + B) := mul_le_mul (le_abs_self _) (hvb n) (norm_nonneg _) (abs_nonneg _)
        simp only [Function.comp_apply]
        linarith
      · refine (hRd i).zero_mul_isBoundedUnder_le ⟨|CR| * (‖v‖ + B) / P.α, ?_⟩
        refine eventually_map.2 (Eventually.of_forall (fun n => ?_))
        have h1 := norm_le_pi_norm (P.R (v - y n)) i
        have h2 := hCR (v - y n)
        have h3 : CR * ‖v - y n‖ ≤ |CR| * (‖v‖ + B) := mul_le_mul (le_abs_self _) (hvb n) (norm_nonneg _) (abs_nonneg _)
        simp only [Function.comp_apply]
        rw [norm_div, Real.norm_eq_abs (P.w (y n) i), abs_of_pos (w_pos h _ i)]
        exact div_le_div₀ (by positivity) (by linarith) hα (weight_ge _)
    have h2 : Tendsto (fun n => P.obj (y n) + 2 * P.slope (y n) (v - y n)) atTop (𝓝 L) := by
      have := hL.add (hsl.const_mul 2)
      simpa using this
    refine le_of_tendsto' h2 (fun n => ?_)
    have := obj_tangent h (y n) v
    have p1 : 0 ≤ ∑ j, (P.A (v - y n) j) ^ 2 := Finset.sum_nonneg (fun _ _ => sq_nonneg _)
    linarith
  -- a limit point
  have hK : IsCompact (Metric.closedBall (0 : Fin N → ℝ) B) := isCompact_closedBall 0 B
  have hmem : ∀ n, y n ∈ Metric.closedBall (0 : Fin N → ℝ) B := fun n => mem_closedBall_zero_iff.2 (hBy n)
  obtain ⟨y', _, φ, hφ, hlim⟩ := hK.tendsto_subseq hmem
  have hval : ∀ (x : Fin N → ℝ) (ψ : ℕ → ℕ), StrictMono ψ → Tendsto (y ∘ ψ) atTop (𝓝 x) → P.obj x = L := by
    intro x ψ hψ hx
    exact tendsto_nhds_unique (((obj_continuous h).tendsto x).comp hx) (hL.comp hψ.tendsto_atTop)
  have hobj := hval y' φ hφ hlim
  have hminy : ∀ v, P.obj y' ≤ P.obj v := fun v => hobj ▸ hinf v
  -- uniqueness
  have huniq : ∀ v, P.obj v ≤ P.obj y' → v = y' := by
    intro v hv
    -- the midpoint would be strictly better
    by_contra hne
    set z := (1 / 2 : ℝ) • (v + y') with hz
    have hzv : v - z = (1 / 2 : ℝ) • (v - y') := by rw [hz]; module
    have hzy : y' - z = -((1 / 2 : ℝ) • (v - y')) := by rw [hz]; module
    have hsl : P.slope z (v - z) + P.slope z (y' - z) = 0 := by
      rw [hzy, hzv]
      unfold slope
      simp only [map_neg, Pi.neg_apply, mul_neg, neg_div, Finset.sum_neg_distrib]
      ring
    have t1 := obj_tangent h z v
    have t2 := obj_tangent h z y'
    have m1 := hminy z
    have q1 : 0 ≤ ∑ j, (P.A (v - z) j) ^ 2 := Finset.sum_nonneg (fun _ _ => sq_nonneg _)
    have q2 : 0 ≤ ∑ j, (P.A (y' - z) j) ^ 2 := Finset.sum_nonneg (fun _ _ => sq_nonneg _)
    have hAz : P.A (v - y') = 0 := by
      have h0 : ∑ j, (P.A (v - z) j) ^ 2 = 0 := by linarith
      have : P.A (v - z) = 0 := by
        funext j
        have := (Finset.sum_eq_zero_iff_of_nonneg (fun _ _ => sq_nonneg _)).1 h0 j (Finset.mem_univ j)
        exact pow_eq_zero_iff (two_ne_zero) |>.1 this
      rw [hzv, map_smul] at this
      exact (smul_eq_zero.1 this).resolve_left (by norm_num)
    refine hne (sub_eq_zero.1 (h.inj (v - y') hAz (fun hl => ?_)))
    -- strict convexity of the penalties
    have key : ∀ u : Fin N → ℝ, P.A (u - z) = 0 → P.obj u = P.obj z + 2 * P.slope z (u - z) +
        P.lam * ∑ i, (Spec.smooth P.α (P.order i) (P.res u i) - Spec.smooth P.α (P.order i) (P.res z i) -
          2 * (P.res z i * (P.res u i - P.res z i) / P.w z i)) := by
      intro u hu
      have hAu : P.A u = P.A z := by rw [map_sub] at hu; exact sub_eq_zero.1 hu
      have hR : ∀ i, P.R (u - z) i = P.res u i - P.res z i := by
        intro i; rw [map_sub, Pi.sub_apply]; unfold res; ring
      unfold obj slope
      rw [Finset.sum_sub_distrib, Finset.sum_sub_distrib, ← Finset.mul_sum]
      simp only [hu, hAu, hR, Pi.zero_apply, mul_zero, Finset.sum_const_zero]
      ring
    have hpos : ∀ (u : Fin N → ℝ) i, 0 ≤ Spec.smooth P.α (P.order i) (P.res u i) - Spec.smooth P.α (P.order i) (P.res z i) -
          2 * (P.res z i * (P.res u i - P.res z i) / P.w z i) := by
      intro u i
      have := (smooth_tangent hα (h.order i) (P.res z i) (P.res u i)).1
      unfold w
      linarith
    have k1 := key v (by rw [hzv, map_smul, hAz, smul_zero])
    have k2 := key y' (by rw [hzy, map_neg, map_smul, hAz, smul_zero, neg_zero])
    have p1 := Finset.sum_nonneg (fun i (_ : i ∈ Finset.univ) => hpos v i)
    have p2 := Finset.sum_nonneg (fun i (_ : i ∈ Finset.univ) => hpos y' i)
    have z1 : P.lam * ∑ i, (Spec.smooth P.α (P.order i) (P.res v i) - Spec.smooth P.α (P.order i) (P.res z i) -
          2 * (P.res z i * (P.res v i - P.res z i) / P.w z i)) = 0 := by
      have := mul_nonneg h.lam p1
      have := mul_nonneg h.lam p2
      linarith
    have z2 := (mul_eq_zero.1 z1).resolve_left hl.ne'
    funext i
    have z3 := (Finset.sum_eq_zero_iff_of_nonneg (fun i _ => hpos v i)).1 z2 i (Finset.mem_univ i)
    have z4 := (smooth_tangent hα (h.order i) (P.res z i) (P.res v i)).2 (by unfold w at z3; linarith)
    have z5 : P.R (v - z) i = 0 := by
      rw [map_sub, Pi.sub_apply]
      unfold res at z4
      linarith
    rw [hzv, map_smul, Pi.smul_apply, smul_eq_mul] at z5
    show P.R (v - y') i = 0
    linarith
  refine ⟨y', hminy, huniq, ?_⟩
  refine hK.tendsto_nhds_of_unique_mapClusterPt (Eventually.of_forall hmem) (fun x _ hx => ?_)
  obtain ⟨ψ, hψ, hψl⟩ := TopologicalSpace.FirstCountableTopology.tendsto_subseq hx
  exact huniq x ((hval x ψ hψ hψl).trans hobj.symm).le

end Irls
end
end Verif
