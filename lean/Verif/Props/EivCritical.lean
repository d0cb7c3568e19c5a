/-
C150: the balanced matrices are exactly the critical points of the objective of the weighted fit: the derivative vanishes in every
joint direction of the matrix and of the correction of the voltages.
-/
import Verif.Props.EivConverge
import Verif.Props.IdentifyRun
import Verif.Props.BayesWeights
import Mathlib.Analysis.Calculus.LocalExtr.Basic
import Mathlib.Analysis.Calculus.Deriv.Mul
import Mathlib.Analysis.Calculus.Deriv.Pow
import Mathlib.Analysis.Complex.RealDeriv

namespace Verif
open Finset Matrix Filter Topology
noncomputable section

/-! ### derivatives of the penalties -/

theorem smooth_deriv {α order : ℝ} (hα : 0 < α) (ho : order = 1 ∨ order = 2) (r : ℝ) :
    HasDerivAt (Spec.smooth α order) (2 * (r / weight α order r)) r := by
  have hw := weight_pos (order := order) hα r
  rw [hasDerivAt_iff_isLittleO]
  have hb : (fun r' => Spec.smooth α order r' - Spec.smooth α order r - (r' - r) • (2 * (r / weight α order r))) =O[𝓝 r]
      fun r' => (r' - r) ^ 2 := by
    refine Asymptotics.IsBigO.of_bound (1 / weight α order r) (Eventually.of_forall (fun r' => ?_))
    have h1 := (smooth_tangent hα ho r r').1
    have h2 := smooth_major hα ho r r'
    have h2 : Spec.smooth α order r' - Spec.smooth α order r ≤ (r' ^ 2 - r ^ 2) / weight α order r := h2
    have e1 : (r' ^ 2 - r ^ 2) / weight α order r = 2 * (r * (r' - r) / weight α order r) + 1 / weight α order r * (r' - r) ^ 2 := by
      field_simp; ring
    have e2 : (r' - r) • (2 * (r / weight α order r)) = 2 * (r * (r' - r) / weight α order r) := by
      rw [smul_eq_mul]; field_simp
    rw [e2, Real.norm_eq_abs, Real.norm_eq_abs, abs_of_nonneg (sq_nonneg (r' - r)), abs_of_nonneg (by linarith)]
    linarith
  have h2 := Asymptotics.isLittleO_pow_sub_sub r one_lt_two
  simp only [Real.norm_eq_abs, sq_abs] at h2
  exact hb.trans_isLittleO h2

namespace Alt
variable {F : Type} {N k : Nat} {P : Alt F N k}

theorem res_add (y v : Fin N → ℝ) (t : ℝ) (i : Fin k) : P.res (y + t • v) i = P.res y i + t * P.R v i := by
  unfold res
  rw [map_add, map_smul, Pi.add_apply, Pi.smul_apply, smul_eq_mul]
  ring

theorem pen_deriv (hα : 0 < P.α) (ho : ∀ i, P.order i = 1 ∨ P.order i = 2) (y v : Fin N → ℝ) : ∃ g, HasDerivAt (fun t : ℝ => P.pen (y + t • v)) g 0 := by
  unfold pen
  refine ⟨_, HasDerivAt.fun_sum (u := Finset.univ) (A := fun i (t : ℝ) => Spec.smooth P.α (P.order i) (P.res (y + t • v) i))
    (A' := fun i => 2 * (P.res y i / P.w y i) * P.R v i) (fun i _ => ?_)⟩
  have h1 : HasDerivAt (fun t : ℝ => P.res (y + t • v) i) (P.R v i) 0 := by
    simp only [res_add]
    have := ((hasDerivAt_id (0 : ℝ)).mul_const (P.R v i)).const_add (P.res y i)
    simpa using this
  have h2 := smooth_deriv hα (ho i) (P.res (y + (0 : ℝ) • v) i)
  have h3 := HasDerivAt.comp (0 : ℝ) h2 h1
  rw [zero_smul, add_zero] at h3
  exact h3

theorem pen_convex [NormedAddCommGroup F] (hα : 0 < P.α) (ho : ∀ i, P.order i = 1 ∨ P.order i = 2) (y v : Fin N → ℝ) {t : ℝ} (h0 : 0 ≤ t) (h1 : t ≤ 1) :
    P.pen (y + t • (v - y)) ≤ (1 - t) * P.pen y + t * P.pen v := by
  unfold pen
  rw [Finset.mul_sum, Finset.mul_sum, ← Finset.sum_add_distrib]
  refine Finset.sum_le_sum (fun i _ => ?_)
  have a1 := (smooth_tangent hα (ho i) (P.res (y + t • (v - y)) i) (P.res y i)).1
  have a2 := (smooth_tangent hα (ho i) (P.res (y + t • (v - y)) i) (P.res v i)).1
  have b1 := mul_le_mul_of_nonneg_left a1 (sub_nonneg.2 h1)
  have b2 := mul_le_mul_of_nonneg_left a2 h0
  have hz : (1 - t) * (2 * (P.res (y + t • (v - y)) i * (P.res y i - P.res (y + t • (v - y)) i) /
      weight P.α (P.order i) (P.res (y + t • (v - y)) i))) + t * (2 * (P.res (y + t • (v - y)) i * (P.res v i - P.res (y + t • (v - y)) i) /
      weight P.α (P.order i) (P.res (y + t • (v - y)) i))) = 0 := by
    rw [res_line]
    ring
  linarith

end Alt

/-- a function that lies below its chords and has zero derivative at 0 is not smaller at 1 -/
theorem chord_min {g : ℝ → ℝ} (hc : ∀ t, 0 ≤ t → t ≤ 1 → g t ≤ (1 - t) * g 0 + t * g 1) (hd : HasDerivAt g 0 0) : g 0 ≤ g 1 := by
  have h1 : Tendsto (fun n : ℕ => (1 / ((n : ℝ) + 1))⁻¹ * (g (0 + 1 / ((n : ℝ) + 1)) - g 0)) atTop (𝓝 0) := by
    have h2 := hd.tendsto_slope_zero_right
    have h3 : Tendsto (fun n : ℕ => 1 / ((n : ℝ) + 1)) atTop (𝓝[>] 0) := by
      refine tendsto_nhdsWithin_iff.2 ⟨tendsto_one_div_add_atTop_nhds_zero_nat, Eventually.of_forall (fun n => ?_)⟩
      exact Set.mem_Ioi.2 (by positivity)
    exact h2.comp h3
  have h2 := le_of_tendsto' h1 (b := g 1 - g 0) (fun n => by
    have hp : (0 : ℝ) < (n : ℝ) + 1 := by positivity
    have ht : 1 / ((n : ℝ) + 1) ≤ 1 := (div_le_one hp).2 (by linarith [Nat.cast_nonneg (α := ℝ) n])
    have h3 := hc (1 / ((n : ℝ) + 1)) (by positivity) ht
    rw [zero_add, one_div, inv_inv, ← one_div]
    have h4 : g (1 / ((n : ℝ) + 1)) - g 0 ≤ 1 / ((n : ℝ) + 1) * (g 1 - g 0) := by linarith
    have h5 := mul_le_mul_of_nonneg_left h4 hp.le
    rwa [← mul_assoc, mul_one_div_cancel hp.ne', one_mul] at h5)
  linarith

/-! ### derivative of the cost -/

/-- the point between two matrices, `t` of the way -/
def Spec.between (A B : Arr2 ℂ) (t : ℝ) : Arr2 ℂ := Arr2.ofFn A.r A.c (fun i j => A.get i j + (t : ℂ) * (B.get i j - A.get i j))

/-- derivative of a quadratic form in a direction -/
def bil (W : Arr2 ℝ) (v g : List ℝ) : ℝ :=
  ∑ i ∈ range W.r, ∑ j ∈ range W.c, (g.getD i 0 * W.get i j * v.getD j 0 + v.getD i 0 * W.get i j * g.getD j 0)

theorem wquad_deriv (W : Arr2 ℝ) {v : ℝ → List ℝ} {g : List ℝ} (h : ∀ k, HasDerivAt (fun t => (v t).getD k 0) (g.getD k 0) 0) :
    HasDerivAt (fun t => Spec.wquad W (v t)) (bil W (v 0) g) 0 := by
  unfold Spec.wquad bil
  refine HasDerivAt.fun_sum (fun i _ => HasDerivAt.fun_sum (fun j _ => ?_))
  exact ((h i).mul_const (W.get i j)).mul (h j)

theorem stack_deriv {r c : Nat} {E : ℝ → Arr2 ℂ} {G : Arr2 ℂ} (hE : ∀ t, (E t).r = r ∧ (E t).c = c) (hG : G.r = r ∧ G.c = c)
    (h : ∀ i j, i < r → j < c → HasDerivAt (fun t : ℝ => (E t).get i j) (G.get i j) 0) (k : Nat) :
    HasDerivAt (fun t => (Spec.stackReal (E t)).getD k 0) ((Spec.stackReal G).getD k 0) 0 := by
  by_cases hk : k < 2 * (c * r)
  · have h1 : ∀ t, (Spec.stackReal (E t)).getD k 0 = if k < c * r then ((E t).get (k % r) (k / r)).re
        else ((E t).get ((k - c * r) % r) ((k - c * r) / r)).im := by
      intro t
      rw [stackReal_getD (E t) k (by rw [(hE t).1, (hE t).2]; exact hk), (hE t).1, (hE t).2]
    rw [stackReal_getD G k (by rw [hG.1, hG.2]; exact hk), hG.1, hG.2]
    simp only [h1]
    have hr : 0 < r := by
      rcases Nat.eq_zero_or_pos r with h0 | h0
      · rw [h0] at hk; simp at hk
      · exact h0
    split
    · rename_i hlt
      exact (Complex.reCLM.hasFDerivAt (x := (E 0).get (k % r) (k / r))).comp_hasDerivAt (0 : ℝ)
        (h (k % r) (k / r) (Nat.mod_lt _ hr) ((Nat.div_lt_iff_lt_mul hr).2 hlt))
    · rename_i hge
      exact (Complex.imCLM.hasFDerivAt (x := (E 0).get ((k - c * r) % r) ((k - c * r) / r))).comp_hasDerivAt (0 : ℝ)
        (h ((k - c * r) % r) ((k - c * r) / r) (Nat.mod_lt _ hr) ((Nat.div_lt_iff_lt_mul hr).2 (by omega)))
  · have h1 : ∀ A : Arr2 ℂ, A.r = r → A.c = c → (Spec.stackReal A).getD k 0 = 0 := by
      intro A h1 h2
      rw [List.getD_eq_getElem?_getD, List.getElem?_eq_none (by rw [stackReal_length, h1, h2]; omega)]; rfl
    simp only [fun t => h1 (E t) (hE t).1 (hE t).2, h1 G hG.1 hG.2]
    exact hasDerivAt_const _ _

theorem line_deriv (a b : ℂ) : HasDerivAt (fun t : ℝ => a + (t : ℂ) * b) b 0 := by
  have h := ((Complex.ofRealCLM.hasDerivAt (x := (0 : ℝ))).mul_const b).const_add a
  simpa using h

/-- derivative of the residual towards another matrix and another correction -/
def resDir (x z Y D A B : Arr2 ℂ) : Arr2 ℂ :=
  Arr2.ofFn z.r z.c (fun i j => - ∑ k ∈ range x.c, (-(B.get i k) * Y.get k j + (x.get i k - D.get i k) * A.get k j))

theorem residual_deriv {x z Y D A B : Arr2 ℂ} {U G : ℝ → Arr2 ℂ} (hU : ∀ t i j, (U t).get i j = Y.get i j + (t : ℂ) * A.get i j)
    (hG : ∀ t i j, (G t).get i j = D.get i j + (t : ℂ) * B.get i j) {i j : Nat} (hi : i < z.r) (hj : j < z.c) :
    HasDerivAt (fun t : ℝ => (Spec.residual x z (U t) (G t)).get i j) ((resDir x z Y D A B).get i j) 0 := by
  unfold resDir
  rw [Arr2.ofFn_get _ hi hj]
  simp only [residual_get hi hj]
  refine HasDerivAt.const_sub _ (HasDerivAt.fun_sum (fun k _ => ?_))
  have h1 : HasDerivAt (fun t : ℝ => x.get i k - (G t).get i k) (-(B.get i k)) 0 := by
    simp only [hG]
    exact (line_deriv _ _).const_sub _
  have h2 : HasDerivAt (fun t : ℝ => (U t).get k j) (A.get k j) 0 := by
    simp only [hU]
    exact line_deriv _ _
  have h3 := h1.fun_mul h2
  have e1 : (U 0).get k j = Y.get k j := by rw [hU]; simp
  have e2 : (G 0).get i k = D.get i k := by rw [hG]; simp
  rw [e1, e2] at h3
  exact h3

theorem cost_deriv {x z Y D A B : Arr2 ℂ} {U G : ℝ → Arr2 ℂ} {n : Nat} (xW zW : Arr2 ℝ) (hz : z.r = x.r ∧ z.c = n)
    (hB : B.r = x.r ∧ B.c = n) (hGs : ∀ t, (G t).r = x.r ∧ (G t).c = n)
    (hU : ∀ t i j, (U t).get i j = Y.get i j + (t : ℂ) * A.get i j)
    (hG : ∀ t i j, (G t).get i j = D.get i j + (t : ℂ) * B.get i j) :
    HasDerivAt (fun t : ℝ => Spec.eivCost xW zW x z (U t) (G t))
      (bil zW (Spec.stackReal (Spec.residual x z (U 0) (G 0))) (Spec.stackReal (resDir x z Y D A B)) +
        bil xW (Spec.stackReal (G 0)) (Spec.stackReal B)) 0 := by
  unfold Spec.eivCost
  refine (wquad_deriv zW (v := fun t => Spec.stackReal (Spec.residual x z (U t) (G t))) (stack_deriv (r := z.r) (c := z.c)
    (E := fun t => Spec.residual x z (U t) (G t)) (G := resDir x z Y D A B) (fun t => ⟨rfl, rfl⟩) ⟨rfl, rfl⟩
    (fun i j hi hj => residual_deriv hU hG hi hj))).add (wquad_deriv xW (v := fun t => Spec.stackReal (G t))
    (stack_deriv (E := G) (G := B) hGs hB (fun i j _ _ => ?_)))
  simp only [hG]
  exact line_deriv _ _

theorem bil_add (W : Arr2 ℝ) (v : List ℝ) {g g1 g2 : List ℝ} (h : ∀ k, g.getD k 0 = g1.getD k 0 + g2.getD k 0) :
    bil W v g = bil W v g1 + bil W v g2 := by
  unfold bil
  rw [← Finset.sum_add_distrib]
  refine Finset.sum_congr rfl (fun i _ => ?_)
  rw [← Finset.sum_add_distrib]
  refine Finset.sum_congr rfl (fun j _ => ?_)
  rw [h, h]
  ring

theorem stack_add {P Q R : Arr2 ℂ} (hQ : Q.r = P.r ∧ Q.c = P.c) (hR : R.r = P.r ∧ R.c = P.c)
    (h : ∀ i j, R.get i j = P.get i j + Q.get i j) (k : Nat) :
    (Spec.stackReal R).getD k 0 = (Spec.stackReal P).getD k 0 + (Spec.stackReal Q).getD k 0 := by
  by_cases hk : k < 2 * (P.c * P.r)
  · rw [stackReal_getD R k (by rw [hR.1, hR.2]; exact hk), stackReal_getD P k hk,
      stackReal_getD Q k (by rw [hQ.1, hQ.2]; exact hk), hR.1, hR.2, hQ.1, hQ.2]
    split <;> rw [h] <;> simp
  · have h1 : ∀ A : Arr2 ℂ, A.r = P.r → A.c = P.c → (Spec.stackReal A).getD k 0 = 0 := by
      intro A h1 h2
      rw [List.getD_eq_getElem?_getD, List.getElem?_eq_none (by rw [stackReal_length, h1, h2]; omega)]; rfl
    rw [h1 R hR.1 hR.2, h1 P rfl rfl, h1 Q hQ.1 hQ.2, add_zero]

/-- the derivative of the cost in a joint direction is the sum of those in each variable -/
theorem cost_joint {x z Y D V E : Arr2 ℂ} {n : Nat} (xW zW : Arr2 ℝ) (hz : z.r = x.r ∧ z.c = n) (hY : Spec.IsSquare n Y)
    (hV : Spec.IsSquare n V) (hD : D.r = x.r ∧ D.c = n) (hE : E.r = x.r ∧ E.c = n) : ∃ a b,
    HasDerivAt (fun t : ℝ => Spec.eivCost xW zW x z (Spec.between Y V t) D) a 0 ∧
    HasDerivAt (fun t : ℝ => Spec.eivCost xW zW x z Y (Spec.between D E t)) b 0 ∧
    HasDerivAt (fun t : ℝ => Spec.eivCost xW zW x z (Spec.between Y V t) (Spec.between D E t)) (a + b) 0 := by
  have hget : ∀ {P Q : Arr2 ℂ}, Q.r = P.r → Q.c = P.c → ∀ (t : ℝ) i j, (Spec.between P Q t).get i j =
      P.get i j + (t : ℂ) * (Arr2.ofFn P.r P.c (fun i j => Q.get i j - P.get i j)).get i j := by
    intro P Q h1 h2 t i j
    unfold Spec.between
    rw [Arr2.ofFn_get', Arr2.ofFn_get']
    split
    · rfl
    · rename_i hn
      rw [P.oob i j hn]; simp
  have hzero : ∀ {P : Arr2 ℂ}, ∀ (t : ℝ) i j, P.get i j = P.get i j + (t : ℂ) * (Arr2.zeros P.r P.c : Arr2 ℂ).get i j := by
    intro P t i j
    rw [zeros_get']; simp
  have h0 : ∀ {P Q : Arr2 ℂ}, Spec.between P Q 0 = P := by
    intro P Q
    refine Arr2.ext' rfl rfl (fun i j hi hj => ?_)
    have hi : i < P.r := hi
    have hj : j < P.c := hj
    unfold Spec.between
    rw [Arr2.ofFn_get _ hi hj]; simp
  set A := Arr2.ofFn Y.r Y.c (fun i j => V.get i j - Y.get i j) with hA
  set B := Arr2.ofFn D.r D.c (fun i j => E.get i j - D.get i j) with hB
  have hUs := hget (P := Y) (Q := V) (hV.1.trans hY.1.symm) (hV.2.trans hY.2.symm)
  have hGs := hget (P := D) (Q := E) (hE.1.trans hD.1.symm) (hE.2.trans hD.2.symm)
  have d1 := cost_deriv (x := x) (z := z) (Y := Y) (D := D) (A := A) (B := Arr2.zeros D.r D.c) (U := fun t => Spec.between Y V t)
    (G := fun _ => D) xW zW hz hD (fun _ => hD) hUs hzero
  have d2 := cost_deriv (x := x) (z := z) (Y := Y) (D := D) (A := Arr2.zeros Y.r Y.c) (B := B) (U := fun _ => Y)
    (G := fun t => Spec.between D E t) xW zW hz hD (fun _ => hD) hzero hGs
  have d3 := cost_deriv (x := x) (z := z) (Y := Y) (D := D) (A := A) (B := B) (U := fun t => Spec.between Y V t)
    (G := fun t => Spec.between D E t) xW zW hz hD (fun _ => hD) hUs hGs
  refine ⟨_, _, d1, d2, ?_⟩
  simp only [h0] at d3 ⊢
  rw [bil_add zW _ (g := Spec.stackReal (resDir x z Y D A B)) (g1 := Spec.stackReal (resDir x z Y D A (Arr2.zeros D.r D.c)))
    (g2 := Spec.stackReal (resDir x z Y D (Arr2.zeros Y.r Y.c) B)) (stack_add ⟨rfl, rfl⟩ ⟨rfl, rfl⟩ (fun i j => ?_)),
    bil_add xW _ (g := Spec.stackReal B) (g1 := Spec.stackReal (Arr2.zeros D.r D.c)) (g2 := Spec.stackReal B)
      (stack_add ⟨rfl, rfl⟩ ⟨rfl, rfl⟩ (fun i j => by rw [zeros_get', zero_add]))] at d3
  · have e : ∀ p q r s : ℝ, p + q + (r + s) = p + r + (q + s) := by intros; ring
    rwa [e] at d3
  · unfold resDir
    rw [Arr2.ofFn_get', Arr2.ofFn_get', Arr2.ofFn_get']
    split
    · rw [← neg_add, ← Finset.sum_add_distrib]
      congr 1
      refine Finset.sum_congr rfl (fun k _ => ?_)
      rw [zeros_get', zeros_get']
      ring
    · simp

theorem between_zero (P Q : Arr2 ℂ) : Spec.between P Q 0 = P := by
  refine Arr2.ext' rfl rfl (fun i j hi hj => ?_)
  have hi : i < P.r := hi
  have hj : j < P.c := hj
  unfold Spec.between
  rw [Arr2.ofFn_get _ hi hj]; simp

theorem between_one {P Q : Arr2 ℂ} (hr : Q.r = P.r) (hc : Q.c = P.c) : Spec.between P Q 1 = Q := by
  refine Arr2.ext' hr.symm hc.symm (fun i j hi hj => ?_)
  have hi : i < P.r := hi
  have hj : j < P.c := hj
  unfold Spec.between
  rw [Arr2.ofFn_get _ hi hj]; simp

theorem between_self (P : Arr2 ℂ) (t : ℝ) : Spec.between P P t = P := by
  refine Arr2.ext' rfl rfl (fun i j hi hj => ?_)
  have hi : i < P.r := hi
  have hj : j < P.c := hj
  unfold Spec.between
  rw [Arr2.ofFn_get _ hi hj]; simp

theorem between_get {P Q : Arr2 ℂ} (hr : Q.r = P.r) (hc : Q.c = P.c) (t : ℝ) (i j : Nat) :
    (Spec.between P Q t).get i j = P.get i j + (t : ℂ) * (Q.get i j - P.get i j) := by
  unfold Spec.between
  rw [Arr2.ofFn_get']
  split
  · rfl
  · rename_i hn
    rw [P.oob i j hn, Q.oob i j (by rw [hr, hc]; exact hn)]; simp

/-- the objective of the weighted fit has zero derivative at `(Y, D)` towards every other admissible matrix and correction -/
def Spec.EivCritical (lap : Bool) (n : Nat) (cfg : RegConfig) (xW zW : Arr2 ℝ) (x z Y D : Arr2 ℂ) : Prop :=
  Spec.IsSquare n Y ∧ Spec.Admissible lap Y ∧ D.r = x.r ∧ D.c = n ∧
  ∀ V E, Spec.IsSquare n V → Spec.Admissible lap V → E.r = x.r → E.c = n →
    HasDerivAt (fun t : ℝ => Spec.eivObjective lap n cfg xW zW x z (Spec.between Y V t) (Spec.between D E t)) 0 0

/-- C150: a matrix and a correction that are optimal for each other are a critical point of the objective in both variables
jointly, and conversely. -/
theorem C150_critical {lap : Bool} {n : Nat} {cfg : RegConfig} {x z yInit : Arr2 ℂ} (h : FitSetup lap n cfg x z yInit)
    (hl : 0 ≤ cfg.lam) (ho : ∀ t ∈ Spec.terms cfg.prior, t.order = 1 ∨ t.order = 2) {xW zW : Arr2 ℝ}
    (hxW : Spec.IsWeight (2 * (n * x.r)) xW) (hzW : Spec.IsWeight (2 * (n * x.r)) zW) (Y D : Arr2 ℂ) :
    Spec.EivBalanced lap n cfg xW zW x z Y D ↔ Spec.EivCritical lap n cfg xW zW x z Y D := by
  obtain ⟨dt, hdt, _⟩ := dt_closed (α := ℂ) lap n
  obtain ⟨e, he, _⟩ := e_closed (α := ℂ) lap n
  set P := altOf lap n cfg.prior cfg.lam dt xW zW x z with hP
  have hPα : 0 < P.α := h.alpha
  have hPo : ∀ i, P.order i = 1 ∨ P.order i = 2 := fun i => ho _ (List.getElem_mem _)
  -- the objective between two matrices
  have hpen : ∀ Y V, Spec.IsSquare n Y → Spec.Admissible lap Y → Spec.IsSquare n V → Spec.Admissible lap V →
      (∀ t : ℝ, Spec.IsSquare n (Spec.between Y V t) ∧ Spec.Admissible lap (Spec.between Y V t)) ∧
      ∃ y v, ∀ (t : ℝ) (G : Arr2 ℂ), G.r = x.r → G.c = n → Spec.eivObjective lap n cfg xW zW x z (Spec.between Y V t) G =
        Spec.eivCost xW zW x z (Spec.between Y V t) G + cfg.lam * P.pen (y + t • (v - y)) := by
    intro Y V hY hYa hV hVa
    obtain ⟨y, _, hyl, hym⟩ := toParams_ok lap n hdt he hY
    obtain ⟨v, _, hvl, hvm⟩ := toParams_ok lap n hdt he hV
    have hY' : Y = parMat lap n dt (toVec (nReal lap n) y) := by
      have := hym hYa
      rw [parMat_ok lap n hdt hyl] at this
      exact (Except.ok.inj this).symm
    have hV' : V = parMat lap n dt (toVec (nReal lap n) v) := by
      have := hvm hVa
      rw [parMat_ok lap n hdt hvl] at this
      exact (Except.ok.inj this).symm
    have hm : ∀ t : ℝ, toMatrix n dt (ofVec (toVec (nReal lap n) y + t • (toVec (nReal lap n) v - toVec (nReal lap n) y))) =
        .ok (Spec.between Y V t) := by
      intro t
      rw [parMat_ok lap n hdt (ofVec_length _), toVec_ofVec]
      congr 1
      refine Arr2.ext' hY.1.symm hY.2.symm (fun i j _ _ => ?_)
      rw [between_get (hV.1.trans hY.1.symm) (hV.2.trans hY.2.symm), parMat_line, ← hY', ← hV']
    refine ⟨fun t => toMatrix_admissible lap n hdt (hm t), toVec (nReal lap n) y, toVec (nReal lap n) v, fun t G hr hc => ?_⟩
    obtain ⟨a1, a2⟩ := alt_obj h hdt xW zW (ofVec_length _) (hm t) ⟨hr, hc⟩
    rw [toVec_ofVec] at a1 a2
    rw [← a1, ← a2]
    rfl
  constructor
  · rintro ⟨hY, hYa, hr, hc, hb, hm⟩
    refine ⟨hY, hYa, hr, hc, fun V E hV hVa hEr hEc => ?_⟩
    obtain ⟨hbt, y, v, hobj⟩ := hpen Y V hY hYa hV hVa
    obtain ⟨a, b, d1, d2, d3⟩ := cost_joint xW zW h.zs hY hV ⟨hr, hc⟩ ⟨hEr, hEc⟩
    obtain ⟨g, dp⟩ := Alt.pen_deriv hPα hPo y (v - y)
    have ha : a + cfg.lam * g = 0 := by
      have hd : HasDerivAt (fun t : ℝ => Spec.eivObjective lap n cfg xW zW x z (Spec.between Y V t) D) (a + cfg.lam * g) 0 := by
        simp only [fun t => hobj t D hr hc]
        exact d1.add (dp.const_mul cfg.lam)
      refine IsLocalMin.hasDerivAt_eq_zero (Filter.Eventually.of_forall (fun t => ?_)) hd
      have := hm _ (hbt t).1 (hbt t).2
      simpa only [between_zero] using this
    have hb0 : b = 0 := by
      refine IsLocalMin.hasDerivAt_eq_zero (Filter.Eventually.of_forall (fun t => ?_)) d2
      have := hb (Spec.between D E t) hr hc
      unfold Spec.eivObjective at this
      simp only [between_zero]
      linarith
    simp only [fun t => hobj t (Spec.between D E t) hr hc]
    have := d3.add (dp.const_mul cfg.lam)
    have e0 : a + b + cfg.lam * g = 0 := by rw [hb0]; linarith
    rwa [e0] at this
  · rintro ⟨hY, hYa, hr, hc, hd⟩
    refine ⟨hY, hYa, hr, hc, fun E hEr hEc => ?_, fun V hV hVa => ?_⟩
    · have h1 := hd Y E hY hYa hEr hEc
      simp only [between_self] at h1
      have h2 := chord_min (fun t h0 h1 => ?_) h1
      · simpa only [between_zero, between_one (hEr.trans hr.symm) (hEc.trans hc.symm)] using h2
      · simp only [between_zero, between_one (hEr.trans hr.symm) (hEc.trans hc.symm)]
        have hg := between_get (hEr.trans hr.symm) (hEc.trans hc.symm) t
        unfold Spec.eivObjective Spec.eivCost
        have c1 := wquad_line hzW h0 h1 (stack_line (P := Spec.residual x z Y D) (Q := Spec.residual x z Y E)
          (R := Spec.residual x z Y (Spec.between D E t)) h.zs h.zs h.zs t (fun i j hi hj =>
            residual_line_correction t hg (by rw [h.zs.1]; exact hi) (by rw [h.zs.2]; exact hj)))
        have c2 := wquad_line hxW h0 h1 (stack_line (P := D) (Q := E) (R := Spec.between D E t) ⟨hr, hc⟩ ⟨hEr, hEc⟩ ⟨hr, hc⟩ t
          (fun i j _ _ => hg i j))
        linarith
    · have h1 := hd V D hV hVa hr hc
      simp only [between_self] at h1
      obtain ⟨hbt, y, v, hobj⟩ := hpen Y V hY hYa hV hVa
      have h2 := chord_min (fun t h0 h1 => ?_) h1
      · simpa only [between_zero, between_one (hV.1.trans hY.1.symm) (hV.2.trans hY.2.symm)] using h2
      · rw [hobj t D hr hc, hobj 0 D hr hc, hobj 1 D hr hc]
        simp only [between_zero, between_one (hV.1.trans hY.1.symm) (hV.2.trans hY.2.symm), zero_smul, one_smul, add_zero,
          add_sub_cancel]
        have hg := between_get (hV.1.trans hY.1.symm) (hV.2.trans hY.2.symm) t
        have c1 := wquad_line hzW h0 h1 (stack_line (P := Spec.residual x z Y D) (Q := Spec.residual x z V D)
          (R := Spec.residual x z (Spec.between Y V t) D) h.zs h.zs h.zs t (fun i j hi hj =>
            residual_line_matrix t hg (by rw [h.zs.1]; exact hi) (by rw [h.zs.2]; exact hj)))
        have c2 := mul_le_mul_of_nonneg_left (Alt.pen_convex hPα hPo y v h0 h1) hl
        unfold Spec.eivCost
        linarith

/-- the estimates of the weighted fit after more and more iterations come and stay arbitrarily close to critical points -/
theorem C150_fit {lap : Bool} {n : Nat} {cfg : RegConfig} {x z yInit : Arr2 ℂ} (h : FitSetup lap n cfg x z yInit)
    (hl : 0 < cfg.lam) (ho : ∀ t ∈ Spec.terms cfg.prior, t.order = 1 ∨ t.order = 2)
    (hsp : Spec.Spanning cfg.prior (nReal lap n)) {xW zW : Arr2 ℝ} (hxW : Spec.PosDef (2 * (n * x.r)) xW)
    {solve : Solver} (hex : Spec.Exact solve) (htot : Spec.Total solve) (inv : Arr2 ℂ → Except PyErr (Arr2 ℂ)) (ε : ℝ) (hε : 0 < ε) :
    ∃ K0, ∀ K, K0 ≤ K → ∀ ta tr, ta ≤ 0 → tr ≤ 0 → ∃ obj Y' Y D,
      eivFit solve inv { cfg with maxIter := K, absTol := ta, relTol := tr } RegObj.fresh x z (some xW) (some zW) yInit =
        (.ok (), obj) ∧ obj.admittance = some Y' ∧ Spec.EivCritical lap n cfg xW xW x z Y D ∧
      ∀ i j, i < n → j < n → ‖Y'.get i j - Y.get i j‖ < ε := by
  obtain ⟨M, h1, _, _, h2⟩ := C148_fit (zW := zW) h hl ho hsp hxW hex htot inv
  obtain ⟨K0, hK⟩ := h2 ε hε
  refine ⟨K0, fun K hk ta tr ha hr => ?_⟩
  obtain ⟨obj, ho1, ho2⟩ := h1 K ta tr ha hr
  obtain ⟨Y, D, hb, hc⟩ := hK K hk
  exact ⟨obj, _, Y, D, ho1, ho2, (C150_critical h hl.le ho hxW.1 hxW.1 Y D).1 hb, hc⟩

/-- critical points exist with one node and one sample -/
example (c : ℂ) : ∃ Y D, FitSetup false 1 (oneCfg 1) (scalarArr 1) (scalarArr c) Y ∧
    Spec.EivCritical false 1 (oneCfg 1) (scaledEye 2 3) (scaledEye 2 3) (scalarArr 1) (scalarArr c) Y D := by
  have h := one_setup 1 c 0
  have hw : Spec.PosDef (2 * (1 * (scalarArr 1).r)) (scaledEye 2 3) := scaledEye_posDef 2 (by norm_num)
  obtain ⟨_, _, _, _, _, _, ⟨_, Y, D, _, hb, _⟩, _⟩ := C148_limits h (by norm_num [oneCfg])
    (by simp [oneCfg, onePrior, Spec.terms]) one_spanning hw hw.1 exactSolve_exact exactSolve_total (fun a => .ok a)
  exact ⟨Y, D, ⟨h.dt, h.e, h.xc, h.zs, hb.1, h.prior, h.alpha⟩,
    (C150_critical h (by norm_num [oneCfg]) (by simp [oneCfg, onePrior, Spec.terms]) hw.1 hw.1 Y D).1 hb⟩

/-- `bayesian_eiv` with weights and zero tolerances: with enough iterations it returns, and stores, an estimate as close as wanted
to a critical point of one objective -/
theorem C150_run {ext : NumExt} {cf : IdConf} (hex : Spec.Exact ext.solve) (htot : Spec.Total ext.solve) (hl : 0 < cf.lambdaEiv)
    (ha : cf.absTol ≤ 0) (hr : cf.relTol ≤ 0) {v i y0 : Arr2 ℂ} (hy0 : Spec.IsSquare v.c y0) (hsh : i.r = v.r ∧ i.c = v.c)
    (ye : Option (Arr2 ℂ)) (lap pmu : Bool) (hye : ∀ y, ye = some y → 29 ≤ v.c ∧ Spec.IsSquare v.c y ∧ lap = false)
    (h90 : ¬ (lap = true ∧ cf.contrastEachRow = true ∧ cf.regularizeDiag = true)) (hseen : Spec.LinesSeen v.c y0)
    (hdet : lap = true ∨ (cf.contrastEachRow = true ∧ cf.regularizeDiag = true ∧ cf.lambdaprime ≠ 0))
    (vsd isd : SdPolar) (ratings : List ℝ) (hn : v.c ≠ 1) (hm : 0 < vsd.m) (hp : 0 < vsd.p) (hrt : ratings ≠ [])
    (hv : pmu = false → ∀ t j, t < v.r → j < v.c → v.get t j ≠ 0) (name : String) (st : Store) :
    ∃ prior cv ci W wi, eivPrior cf v.c y0 ye lap = .ok prior ∧
      eivWeights v i vsd isd ratings true pmu = .ok (cv, ci, some W, some wi) ∧
      ∀ ε : ℝ, 0 < ε → ∃ K0, ∀ K, K0 ≤ K → ∃ Y' log Y D,
        bayesianEiv ext cf name (some v) (some i) vsd isd ratings y0 ye lap true K pmu st =
          (.ok (Y', log), st.savez (resultFile .bayesian name) (bayesianNpz (Y', log))) ∧
        Spec.EivCritical lap v.c (regConfig cf prior cf.lambdaEiv lap 0) W W (centreData lap cv ci).1 (centreData lap cv ci).2 Y D ∧
        ∀ a b, a < v.c → b < v.c → ‖Y'.get a b - Y.get a b‖ < ε := by
  obtain ⟨prior, hpr, hpa, hpu, hps, hpo⟩ := eiv_prior cf v.c y0 hy0 ye lap hye h90
  obtain ⟨cv, ci, W, wi, hw, h1, h2, hW⟩ := eivWeights_ok v i vsd isd ratings pmu hn hm hp hrt hsh hv
  refine ⟨prior, cv, ci, W, wi, hpr, hw, fun ε hε => ?_⟩
  obtain ⟨s1, s2, s3, s4⟩ := centreData_shape lap cv ci
  have hs : FitSetup lap v.c (regConfig cf prior cf.lambdaEiv lap 0) (centreData lap cv ci).1 (centreData lap cv ci).2 y0 :=
    ⟨rfl, rfl, by rw [s2, h1.2], ⟨by rw [s3, s1, h1.1, h2.1], by rw [s4, h2.2]⟩, hy0, hpu, hpa⟩
  rw [← h1.1, ← s1] at hW
  obtain ⟨K0, hK⟩ := C150_fit (zW := wi) hs hl (fun t ht => .inl (hpo t ht)) (hps hseen hdet) hW hex htot ext.inv ε hε
  refine ⟨K0 + 1, fun K hk => ?_⟩
  obtain ⟨obj, Y', Y, D, ho, hoY, hcrit, hclose⟩ := hK K (by omega) cf.absTol cf.relTol ha hr
  refine ⟨Y', obj.iterations, Y, D, ?_, hcrit, hclose⟩
  have ho : eivFit ext.solve ext.inv (regConfig cf prior cf.lambdaEiv lap K) .fresh (centreData lap cv ci).1 (centreData lap cv ci).2
      (some W) (some wi) y0 = (.ok (), obj) := ho
  have hc : eivCompute ext cf prior v i vsd isd ratings y0 lap true K pmu = .ok (Y', obj.iterations) := by
    simp only [eivCompute, hw, Bind.bind, Except.bind, ho, fitted, hoY]
  have hK0 : decide (K > 0) = true := by simp; omega
  simp only [bayesianEiv, hpr, hK0, hc]

/-- `C150_run` applies to two samples of two nodes -/
example (pmu : Bool) (st : Store) : ∃ K0, ∀ K, K0 ≤ K → ∃ r, (bayesianEiv ⟨exactPinv, exactSvd, exactInv, exactSolve⟩
    ⟨1, 1, 1, 0, 0, true, true, true⟩ "a" (some demoV126) (some demoV126) ⟨1, 1⟩ ⟨1, 1⟩ [1, 1] demoY126 none false true K pmu st).1 =
      .ok r := by
  obtain ⟨_, _, _, _, _, _, _, h⟩ := C150_run (ext := ⟨exactPinv, exactSvd, exactInv, exactSolve⟩)
    (cf := ⟨1, 1, 1, 0, 0, true, true, true⟩) exactSolve_exact exactSolve_total one_pos le_rfl le_rfl (v := demoV126) (i := demoV126)
    (y0 := demoY126) ⟨rfl, rfl⟩ ⟨rfl, rfl⟩ none false pmu (fun y h => by cases h) (fun h => by cases h.1) demoY126_seen
    (.inr ⟨rfl, rfl, one_ne_zero⟩) ⟨1, 1⟩ ⟨1, 1⟩ [1, 1] (by decide) one_pos one_pos (by simp)
    (fun _ t j (ht : t < 2) (hj : j < 2) => by
        unfold demoV126
        rw [Arr2.ofFn_get _ ht hj]
        split <;> norm_num) "a" st
  obtain ⟨K0, hK⟩ := h 1 one_pos
  refine ⟨K0, fun K hk => ?_⟩
  obtain ⟨Y', log, _, _, h1, _⟩ := hK K hk
  exact ⟨(Y', log), by rw [h1]⟩

end
end Verif
