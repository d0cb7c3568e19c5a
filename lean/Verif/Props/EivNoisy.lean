/-
C161: the weighted error-in-variables regression on noisy data: every estimate of a fit is close to the true matrix when noise,
error of the initial guess and regularisation are small.
-/
import Verif.Lemmas.Size
import Verif.Lemmas.Converge
import Verif.Props.EivUnit
import Verif.Props.EivConverge
import Verif.Props.Stability
import Mathlib.Algebra.Order.Chebyshev

namespace Verif
open Finset Matrix
noncomputable section

/-- the weights lie between `c` and `C` times the unit weights -/
def Spec.WeightsBetween (c C : ℝ) (W : Arr2 ℝ) : Prop :=
  ∀ v : List ℝ, c * ∑ k ∈ range W.r, v.getD k 0 ^ 2 ≤ Spec.wquad W v ∧ Spec.wquad W v ≤ C * ∑ k ∈ range W.r, v.getD k 0 ^ 2

/-- smoothed penalty of a matrix -/
def Spec.penalty (lap : Bool) (n : Nat) (cfg : RegConfig) (Y : Arr2 ℂ) : ℝ :=
  ((Spec.terms cfg.prior).map (fun t => Spec.smooth cfg.prior.alpha t.order (t.resid cfg.prior.n (Spec.params lap n Y)))).sum

/-- bound on the sizes of the corrections of a fit of `n` nodes: `κ` is the root of the ratio of the extreme weights, `ε` the noise,
`S` the size of the true voltages, `d` the error of the initial guess and `ρ` the penalty of the initial guess, relative to the
smallest weight -/
def Spec.eivShift (n : Nat) (κ ε S d ρ : ℝ) : ℝ :=
  Real.sqrt ((κ * (κ * (ε + S * d) + (S + ε + κ * (ε + S * d)) * ((1 + Real.sqrt n) * d))) ^ 2 + ρ)

theorem stack_sq {T n : Nat} (D : Arr2 ℂ) (hr : D.r = T) (hc : D.c = n) :
    ∑ k ∈ range (2 * (n * T)), (Spec.stackReal D).getD k 0 ^ 2 = fsize (D.toMat T n) ^ 2 := by
  have h1 := stack_normSq D hr hc
  rw [← Fin.sum_univ_eq_sum_range (fun k => (Spec.stackReal D).getD k 0 ^ 2)]
  rw [fsize_sq, Finset.sum_comm]
  refine Eq.trans ?_ (h1.trans ?_)
  · exact Finset.sum_congr rfl fun k _ => pow_two _
  · rw [← Fin.sum_univ_eq_sum_range (fun j => ∑ i ∈ range T, Complex.normSq (D.get i j)) n]
    refine Finset.sum_congr rfl fun j _ => ?_
    rw [← Fin.sum_univ_eq_sum_range (fun i => Complex.normSq (D.get i j)) T]
    exact Finset.sum_congr rfl fun i _ => Complex.normSq_eq_norm_sq _

theorem residual_mat {x z Y D : Arr2 ℂ} {T n : Nat} (hx : x.c = n) (hz : z.r = T ∧ z.c = n) :
    (Spec.residual x z Y D).toMat T n = z.toMat T n - (x.toMat T n - D.toMat T n) * Y.toMat n n := by
  ext i j
  show (Spec.residual x z Y D).get i j = _
  unfold Spec.residual
  rw [Arr2.ofFn_get _ (by rw [hz.1]; exact i.2) (by rw [hz.2]; exact j.2), Matrix.sub_apply, mul_apply, hx,
    ← Fin.sum_univ_eq_sum_range (fun k => (x.get i k - D.get i k) * Y.get k j)]
  rfl

/-- the misfit between multiples of the sizes of the residual and the correction -/
theorem cost_between {x z Y D : Arr2 ℂ} {n : Nat} (hx : x.c = n) (hz : z.r = x.r ∧ z.c = n) (hD : D.r = x.r ∧ D.c = n)
    {xW zW : Arr2 ℝ} (hxW : xW.r = 2 * (n * x.r)) (hzW : zW.r = 2 * (n * x.r)) {c C : ℝ}
    (hbx : Spec.WeightsBetween c C xW) (hbz : Spec.WeightsBetween c C zW) :
    c * (fsize (z.toMat x.r n - (x.toMat x.r n - D.toMat x.r n) * Y.toMat n n) ^ 2 + fsize (D.toMat x.r n) ^ 2) ≤
        Spec.eivCost xW zW x z Y D ∧
      Spec.eivCost xW zW x z Y D ≤
        C * (fsize (z.toMat x.r n - (x.toMat x.r n - D.toMat x.r n) * Y.toMat n n) ^ 2 + fsize (D.toMat x.r n) ^ 2) := by
  have h1 := hbz (Spec.stackReal (Spec.residual x z Y D))
  have h2 := hbx (Spec.stackReal D)
  rw [hzW, stack_sq (Spec.residual x z Y D) hz.1 hz.2, residual_mat hx hz] at h1
  rw [hxW, stack_sq D hD.1 hD.2] at h2
  unfold Spec.eivCost
  constructor
  · nlinarith [h1.1, h2.1]
  · nlinarith [h1.2, h2.2]

theorem penalty_nonneg (lap : Bool) (n : Nat) (cfg : RegConfig) (ha : 0 < cfg.prior.alpha) (Y : Arr2 ℂ) :
    0 ≤ Spec.penalty lap n cfg Y := by
  unfold Spec.penalty
  refine List.sum_nonneg ?_
  intro a ha'
  obtain ⟨t, _, rfl⟩ := List.mem_map.1 ha'
  exact smooth_nonneg ha _

/-- the corrections of a weighted fit started anywhere: all objectives are at most the one of the projected initial guess with the
first correction, which is optimal for the transpose of the initial guess -/
theorem eiv_objectives {lap : Bool} {n : Nat} {cfg : RegConfig} {x z yInit : Arr2 ℂ} (h : FitSetup lap n cfg x z yInit)
    (hl : 0 ≤ cfg.lam) (ho : ∀ t ∈ Spec.terms cfg.prior, t.order = 1 ∨ t.order = 2)
    {xW zW : Arr2 ℝ} (hxW : Spec.IsWeight (2 * (n * x.r)) xW)
    (hzW : Spec.IsWeight (2 * (n * x.r)) zW) {solve : Solver} (hex : Spec.Exact solve)
    {inv : Arr2 ℂ → Except PyErr (Arr2 ℂ)} {res : Except PyErr Unit} {obj : RegObj}
    (hfit : eivBody solve inv cfg RegObj.fresh x z (some xW) (some zW) yInit = (res, obj)) :
    obj.iterations = [] ∨ ∃ D1, (D1.r = x.r ∧ D1.c = n) ∧
      (∀ D', D'.r = x.r → D'.c = n → Spec.eivCost xW zW x z yInit.T D1 ≤ Spec.eivCost xW zW x z yInit.T D') ∧
      ∀ e ∈ obj.iterations, Spec.IsSquare n e.params ∧ ∃ D, (D.r = x.r ∧ D.c = n) ∧
        Spec.eivObjective lap n cfg xW zW x z e.params D ≤
          Spec.eivObjective lap n cfg xW zW x z (Spec.projection lap n yInit) D1 := by
  obtain ⟨dt, A, y0, s, run, hdt, hA, hst, hsy, hY0, hrun, hlog⟩ := eiv_log h hfit
  rw [hlog]
  cases run with
  | nil => exact Or.inl rfl
  | cons q l =>
    right
    obtain ⟨g1, g2⟩ := hrun
    obtain ⟨D1, y1, hr, hc, hopt, hs1, hY1, -, hmin⟩ := eivStep_at_T h hl hxW hzW hex hdt hA hst (by rw [hsy]; exact h.init)
      (s' := q.1) (t := q.2) g1
    rw [hsy] at hopt
    obtain ⟨hsq1, hadm1⟩ := toMatrix_admissible lap n hdt hY1
    have hfirst : Spec.eivObjective lap n cfg xW zW x z q.1.yMat D1 ≤
        Spec.eivObjective lap n cfg xW zW x z (Spec.projection lap n yInit) D1 :=
      eivStep_descent h hl ho hdt hst.1 hs1.1 hY0 hY1 le_rfl hmin
    refine ⟨D1, ⟨hr, hc⟩, hopt, ?_⟩
    -- the remaining iterations
    have key : ∀ (l : List (FitState × ℝ)) (s : FitState) (it : Nat) (y : List ℝ) (D0 : Arr2 ℂ), StateAt cfg.prior (nReal lap n) y s →
        toMatrix n dt y = .ok s.yMat → D0.r = x.r → D0.c = n →
        Spec.IsRun (eivWeightedStep solve cfg x dt A (Spec.stackReal x) (Spec.stackReal z) xW zW) s l →
        ∀ e ∈ Spec.entries it l, Spec.IsSquare n e.params ∧ ∃ D, (D.r = x.r ∧ D.c = n) ∧
          Spec.eivObjective lap n cfg xW zW x z e.params D ≤ Spec.eivObjective lap n cfg xW zW x z s.yMat D0 := by
      intro l
      induction l with
      | nil => intro s it y D0 _ _ _ _ _ e he; simp [Spec.entries] at he
      | cons p l ih =>
        intro s it y D0 hs hY hr0 hc0 hrun e he
        obtain ⟨k1, k2⟩ := hrun
        obtain ⟨hsq, hadm⟩ := toMatrix_admissible lap n hdt hY
        obtain ⟨D, y', a1, a2, a3, a4, a5, -, a6⟩ := eivStep_at h hl hxW hzW hex hdt hA hs hsq hadm.1 (s' := p.1) (t := p.2) k1
        have hstep := eivStep_descent h hl ho hdt hs.1 a4.1 hY a5 (a3 D0 hr0 hc0) a6
        simp only [Spec.entries, List.mem_cons] at he
        rcases he with rfl | he
        · exact ⟨(toMatrix_admissible lap n hdt a5).1, D, ⟨a1, a2⟩, hstep⟩
        · obtain ⟨b1, D', b2, b3⟩ := ih p.1 (it + 1) y' D a4 a5 a1 a2 k2 e he
          exact ⟨b1, D', b2, b3.trans hstep⟩
    intro e he
    simp only [Spec.entries, List.mem_cons] at he
    rcases he with rfl | he
    · exact ⟨hsq1, D1, ⟨hr, hc⟩, hfirst⟩
    · obtain ⟨b1, D', b2, b3⟩ := key l q.1 1 y1 D1 hs1 hY1 hr hc g2 e he
      exact ⟨b1, D', b2, b3.trans hfirst⟩

/-- the projection on admissible matrices enlarges a matrix at most by the root of its dimension -/
theorem projection_size (lap : Bool) (n : Nat) (M : Arr2 ℂ) :
    fsize ((Spec.projection lap n M).toMat n n) ≤ Real.sqrt n * fsize (M.toMat n n) := by
  let B : Matrix (Fin n) (Fin n) ℂ := fun i j => (M.get i j + M.get j i) / 2
  have hB : fsize B ≤ fsize (M.toMat n n) := by
    have h1 : fsize (B + B) ≤ fsize (M.toMat n n) + fsize (M.toMat n n) := by
      have e : B + B = M.toMat n n + (M.toMat n n).transpose := by
        ext i j
        show (M.get i j + M.get j i) / 2 + (M.get i j + M.get j i) / 2 = M.get i j + M.get j i
        ring
      rw [e]
      refine (fsize_add_le _ _).trans ?_
      rw [fsize_transpose]
    have h2 : fsize (B + B) = 2 * fsize B := by
      refine (pow_left_inj₀ (fsize_nonneg _) (mul_nonneg two_pos.le (fsize_nonneg _)) two_ne_zero).1 ?_
      rw [mul_pow, fsize_sq, fsize_sq, Finset.mul_sum]
      refine Finset.sum_congr rfl fun i _ => ?_
      rw [Finset.mul_sum]
      refine Finset.sum_congr rfl fun j _ => ?_
      rw [Matrix.add_apply, ← two_mul, norm_mul, mul_pow]
      norm_num
    linarith
  refine le_trans ?_ (mul_le_mul_of_nonneg_left hB (Real.sqrt_nonneg _))
  refine (pow_le_pow_iff_left₀ (fsize_nonneg _) (mul_nonneg (Real.sqrt_nonneg _) (fsize_nonneg _)) two_ne_zero).1 ?_
  rw [mul_pow, Real.sq_sqrt (Nat.cast_nonneg n), fsize_sq, fsize_sq, Finset.mul_sum]
  refine Finset.sum_le_sum fun i _ => ?_
  have hn : 1 ≤ n := Nat.succ_le_of_lt (Nat.lt_of_le_of_lt (Nat.zero_le _) i.2)
  have hn' : (1 : ℝ) ≤ n := by exact_mod_cast hn
  have hoff : ∀ j ∈ Finset.univ.erase i, ‖(Spec.projection lap n M).toMat n n i j‖ ^ 2 = ‖B i j‖ ^ 2 := by
    intro j hj
    have hij : (i : ℕ) ≠ j := fun h => (Finset.mem_erase.1 hj).1 (Fin.ext h.symm)
    congr 2
    show (Spec.projection lap n M).get i j = _
    unfold Spec.projection
    rw [Arr2.ofFn_get _ i.2 j.2, if_neg (fun h => hij h.2)]
  have hE : 0 ≤ ∑ j ∈ Finset.univ.erase i, ‖B i j‖ ^ 2 := Finset.sum_nonneg fun _ _ => sq_nonneg _
  rw [← Finset.add_sum_erase _ _ (Finset.mem_univ i), ← Finset.add_sum_erase (a := i) _ (fun j => ‖B i j‖ ^ 2) (Finset.mem_univ i),
    Finset.sum_congr rfl hoff]
  have hd : ‖(Spec.projection lap n M).toMat n n i i‖ ^ 2 ≤
      ‖B i i‖ ^ 2 + ((n : ℝ) - 1) * ∑ j ∈ Finset.univ.erase i, ‖B i j‖ ^ 2 := by
    by_cases hl : lap = true
    · have e : (Spec.projection lap n M).toMat n n i i = - ∑ j ∈ Finset.univ.erase i, B i j := by
        show (Spec.projection lap n M).get i i = _
        unfold Spec.projection
        rw [Arr2.ofFn_get _ i.2 i.2, if_pos ⟨hl, rfl⟩]
        congr 1
        have e1 := Finset.add_sum_erase (range n) (fun x => (M.get i x + M.get x i) / 2) (Finset.mem_range.2 i.2)
        have e2 := Finset.add_sum_erase Finset.univ (fun j : Fin n => B i j) (Finset.mem_univ i)
        rw [← Fin.sum_univ_eq_sum_range (fun x => (M.get i x + M.get x i) / 2) n] at e1
        exact add_left_cancel (e1.trans e2.symm)
      rw [e, norm_neg]
      have h1 : ‖∑ j ∈ Finset.univ.erase i, B i j‖ ^ 2 ≤ (∑ j ∈ Finset.univ.erase i, ‖B i j‖) ^ 2 :=
        pow_le_pow_left₀ (norm_nonneg _) (norm_sum_le _ _) 2
      have h2 := sq_sum_le_card_mul_sum_sq (s := Finset.univ.erase i) (f := fun j => ‖B i j‖)
      rw [Finset.card_erase_of_mem (Finset.mem_univ i), Finset.card_univ, Fintype.card_fin, Nat.cast_sub hn, Nat.cast_one] at h2
      exact (h1.trans h2).trans (le_add_of_nonneg_left (sq_nonneg _))
    · have e : (Spec.projection lap n M).toMat n n i i = B i i := by
        show (Spec.projection lap n M).get i i = _
        unfold Spec.projection
        rw [Arr2.ofFn_get _ i.2 i.2, if_neg (fun h => hl h.1)]
      rw [e]
      exact le_add_of_nonneg_right (mul_nonneg (by linarith) hE)
  have h3 : ‖B i i‖ ^ 2 ≤ n * ‖B i i‖ ^ 2 := le_mul_of_one_le_left (sq_nonneg _) hn'
  calc _ ≤ ‖B i i‖ ^ 2 + ((n : ℝ) - 1) * ∑ j ∈ Finset.univ.erase i, ‖B i j‖ ^ 2 + ∑ j ∈ Finset.univ.erase i, ‖B i j‖ ^ 2 :=
        add_le_add hd le_rfl
    _ ≤ _ := by rw [mul_add]; linarith

theorem projection_sub (lap : Bool) (n : Nat) {M Y : Arr2 ℂ} (hM : Spec.IsSquare n M) (hY : Spec.IsSquare n Y) (had : Spec.Admissible lap Y) :
    (Spec.projection lap n M).toMat n n - Y.toMat n n = (Spec.projection lap n (Spec.diff M Y)).toMat n n := by
  have hd : ∀ i j, (Spec.diff M Y).get i j = M.get i j - Y.get i j := diff_get (hY.1.trans hM.1.symm) (hY.2.trans hM.2.symm)
  have hp := projection_admissible lap n hY had
  ext i j
  show (Spec.projection lap n M).get i j - Y.get i j = (Spec.projection lap n (Spec.diff M Y)).get i j
  conv_lhs => rw [← hp]
  unfold Spec.projection
  rw [Arr2.ofFn_get _ i.2 j.2, Arr2.ofFn_get _ i.2 j.2, Arr2.ofFn_get _ i.2 j.2]
  simp only [hd]
  split
  · rw [neg_sub_neg, ← neg_sub, ← Finset.sum_sub_distrib]
    congr 1
    refine Finset.sum_congr rfl fun k _ => ?_
    ring
  · ring

theorem diff_toMat {x x0 : Arr2 ℂ} {m n : Nat} (hx : x.r = m ∧ x.c = n) (h0 : x0.r = m ∧ x0.c = n) :
    (Spec.diff x x0).toMat m n = x.toMat m n - x0.toMat m n := by
  ext i j
  exact diff_get (h0.1.trans hx.1.symm) (h0.2.trans hx.2.symm) i j

/-- the error of an estimate from the misfits of the corrections of its fit -/
theorem stability_core {T n : Nat} {X Z X0 Z0 E1 E : Matrix (Fin T) (Fin n) ℂ} {Q G P V : Matrix (Fin n) (Fin n) ℂ}
    {c C ε d σ ρ q1 q2 q3 : ℝ} (hc : 0 < c) (hC : c ≤ C) (hε : 0 ≤ ε)
    (hnoise : fsize (X - X0) ^ 2 + fsize (Z - Z0) ^ 2 ≤ ε ^ 2) (hd : fsize (G - Q) ≤ d)
    (b1 : c * (fsize (Z - (X - E1) * G.transpose) ^ 2 + fsize E1 ^ 2) ≤ q1)
    (b3 : q1 ≤ C * (fsize (Z - (X - (X - X0)) * G.transpose) ^ 2 + fsize (X - X0) ^ 2))
    (b4 : q2 ≤ C * (fsize (Z - (X - E1) * P) ^ 2 + fsize E1 ^ 2))
    (b5 : c * (fsize (Z - (X - E) * V) ^ 2 + fsize E ^ 2) ≤ q3) (b6 : fsize (P - Q) ≤ Real.sqrt n * d) (hpen : q3 ≤ q2 + ρ) (hp0 : 0 ≤ ρ)
    (hz0 : Z0 = X0 * Q) (hQ : Q.transpose = Q) (hσ : ∀ v, σ * Spec.len v ≤ Spec.len (X0.mulVec v)) (q : Fin n → ℂ) :
    (σ - (ε + Spec.eivShift n (Real.sqrt (C / c)) ε (fsize X0) d (ρ / c))) * Spec.len ((V - Q).mulVec q) ≤
      (ε + Spec.eivShift n (Real.sqrt (C / c)) ε (fsize X0) d (ρ / c)) * Spec.len (Fin.append (Q.mulVec q) q) := by
  have hC0 : 0 < C := hc.trans_le hC
  have hd0 : 0 ≤ d := (fsize_nonneg _).trans hd
  have hS := fsize_nonneg X0
  set S := fsize X0 with hSdef
  set κ := Real.sqrt (C / c) with hκ
  have hκ0 : 0 ≤ κ := Real.sqrt_nonneg _
  have hκ2 : κ ^ 2 = C / c := Real.sq_sqrt (div_nonneg hC0.le hc.le)
  have hxε : fsize (X - X0) ≤ ε := by
    refine (pow_le_pow_iff_left₀ (fsize_nonneg _) hε two_ne_zero).1 ?_
    nlinarith [sq_nonneg (fsize (Z - Z0))]
  -- the first correction
  set t := κ * (ε + S * d) with ht
  have ht0 : 0 ≤ t := by positivity
  have h1 : fsize (Z - (X - E1) * G.transpose) ^ 2 + fsize E1 ^ 2 ≤ t ^ 2 := by
    have e1 : Z - (X - (X - X0)) * G.transpose = (Z - Z0) - X0 * (G - Q).transpose := by
      rw [hz0, sub_sub_cancel, transpose_sub, hQ, Matrix.mul_sub]; abel
    have e2 : fsize (Z - (X - (X - X0)) * G.transpose) ≤ fsize (Z - Z0) + S * d := by
      rw [e1]
      refine (fsize_sub_le _ _).trans (add_le_add le_rfl ((fsize_mul_le _ _).trans ?_))
      rw [fsize_transpose]
      exact mul_le_mul_of_nonneg_left hd hS
    have e3 : fsize (Z - (X - (X - X0)) * G.transpose) ^ 2 + fsize (X - X0) ^ 2 ≤ (ε + S * d) ^ 2 := by
      have e4 : fsize (Z - (X - (X - X0)) * G.transpose) ^ 2 + fsize (X - X0) ^ 2 ≤
          (fsize (Z - Z0) + S * d) ^ 2 + fsize (X - X0) ^ 2 := add_le_add (pow_le_pow_left₀ (fsize_nonneg _) e2 2) le_rfl
      have e5 := hypot_add_le (t := fsize (X - X0)) (fsize_nonneg (Z - Z0)) (mul_nonneg hS hd0)
      have e6 : Real.sqrt (fsize (Z - Z0) ^ 2 + fsize (X - X0) ^ 2) ≤ ε := by
        rw [Real.sqrt_le_iff]; exact ⟨hε, by linarith⟩
      have e7 := e5.trans (add_le_add e6 le_rfl)
      rw [Real.sqrt_le_iff] at e7
      exact e4.trans e7.2
    have e8 : c * (fsize (Z - (X - E1) * G.transpose) ^ 2 + fsize E1 ^ 2) ≤ C * (ε + S * d) ^ 2 :=
      (b1.trans b3).trans (mul_le_mul_of_nonneg_left e3 hC0.le)
    rw [ht, mul_pow, hκ2, div_mul_eq_mul_div, le_div_iff₀ hc, mul_comm]
    exact e8
  have hE1 : fsize E1 ≤ t := by
    refine (pow_le_pow_iff_left₀ (fsize_nonneg _) ht0 two_ne_zero).1 ?_
    nlinarith [sq_nonneg (fsize (Z - (X - E1) * G.transpose))]
  -- the projected guess
  set r := (S + ε + t) * ((1 + Real.sqrt n) * d) with hr
  have hr0 : 0 ≤ r := by positivity
  have h2 : fsize (Z - (X - E1) * P) ^ 2 + fsize E1 ^ 2 ≤ (t + r) ^ 2 := by
    have e1 : Z - (X - E1) * P = (Z - (X - E1) * G.transpose) + (X - E1) * (G.transpose - P) := by
      rw [Matrix.mul_sub]; abel
    have e2 : fsize (X - E1) ≤ S + ε + t := by
      have : X - E1 = X0 + (X - X0) - E1 := by abel
      rw [this]
      exact (fsize_sub_le _ _).trans (add_le_add ((fsize_add_le _ _).trans (add_le_add le_rfl hxε)) hE1)
    have e3 : fsize (G.transpose - P) ≤ (1 + Real.sqrt n) * d := by
      have : G.transpose - P = (G - Q).transpose - (P - Q) := by rw [transpose_sub, hQ]; abel
      rw [this, add_mul, one_mul]
      refine (fsize_sub_le _ _).trans (add_le_add ?_ b6)
      rw [fsize_transpose]; exact hd
    have e4 : fsize (Z - (X - E1) * P) ≤ fsize (Z - (X - E1) * G.transpose) + r := by
      rw [e1]
      refine (fsize_add_le _ _).trans (add_le_add le_rfl ((fsize_mul_le _ _).trans ?_))
      exact mul_le_mul e2 e3 (fsize_nonneg _) (by positivity)
    have e5 : fsize (Z - (X - E1) * P) ^ 2 + fsize E1 ^ 2 ≤ (fsize (Z - (X - E1) * G.transpose) + r) ^ 2 + fsize E1 ^ 2 :=
      add_le_add (pow_le_pow_left₀ (fsize_nonneg _) e4 2) le_rfl
    have e6 := hypot_add_le (t := fsize E1) (fsize_nonneg (Z - (X - E1) * G.transpose)) hr0
    have e7 : Real.sqrt (fsize (Z - (X - E1) * G.transpose) ^ 2 + fsize E1 ^ 2) ≤ t := by
      rw [Real.sqrt_le_iff]; exact ⟨ht0, h1⟩
    have e8 := e6.trans (add_le_add e7 le_rfl)
    rw [Real.sqrt_le_iff] at e8
    exact e5.trans e8.2
  -- the corrections of the estimate
  set η := Spec.eivShift n κ ε S d (ρ / c) with hη
  have hη0 : 0 ≤ η := Real.sqrt_nonneg _
  have h3 : Real.sqrt (fsize E ^ 2 + fsize (Z - (X - E) * V) ^ 2) ≤ η := by
    rw [hη]
    unfold Spec.eivShift
    apply Real.sqrt_le_sqrt
    rw [← ht, ← hr, mul_pow, hκ2]
    have e1 : c * (fsize (Z - (X - E) * V) ^ 2 + fsize E ^ 2) ≤ C * (t + r) ^ 2 + ρ :=
      b5.trans (hpen.trans (add_le_add (b4.trans (mul_le_mul_of_nonneg_left h2 hC0.le)) le_rfl))
    rw [div_mul_eq_mul_div, ← add_div, le_div_iff₀ hc]
    linarith
  -- the estimate
  have h4 : Real.sqrt (fsize (X - X0) ^ 2 + fsize (Z - Z0) ^ 2) ≤ ε := by
    rw [Real.sqrt_le_iff]; exact ⟨hε, hnoise⟩
  have e1 : X0.mulVec ((V - Q).mulVec q) =
      ((X - X0).mulVec (-(V.mulVec q)) + (Z - Z0).mulVec q) - (E.mulVec (-(V.mulVec q)) + (Z - (X - E) * V).mulVec q) := by
    rw [hz0]
    simp only [mulVec_sub, sub_mulVec, mulVec_neg, ← mulVec_mulVec]
    abel
  have e2 := side_len_le (X - X0) (Z - Z0) (-(V.mulVec q)) q
  have e3 := side_len_le E (Z - (X - E) * V) (-(V.mulVec q)) q
  rw [len_append_neg] at e2 e3
  have hl := len_nonneg (Fin.append (V.mulVec q) q)
  have e4 : σ * Spec.len ((V - Q).mulVec q) ≤ (ε + η) * Spec.len (Fin.append (V.mulVec q) q) := by
    refine (hσ _).trans ?_
    rw [e1, add_mul]
    exact (len_sub_le _ _).trans (add_le_add (e2.trans (mul_le_mul_of_nonneg_right h4 hl))
      (e3.trans (mul_le_mul_of_nonneg_right h3 hl)))
  have e5 : Spec.len (Fin.append (V.mulVec q) q) ≤ Spec.len (Fin.append (Q.mulVec q) q) + Spec.len ((V - Q).mulVec q) := by
    have e8 : Fin.append (V.mulVec q) q = Fin.append (Q.mulVec q) q + Fin.append ((V - Q).mulVec q) 0 := by
      rw [← append_add', add_zero, sub_mulVec]
      congr 1
      abel
    rw [e8]
    refine (len_add_le _ _).trans ?_
    rw [len_append_zero]
  have e6 := mul_le_mul_of_nonneg_left e5 (add_nonneg hε hη0)
  rw [mul_add] at e6
  rw [sub_mul]
  linarith

/-- C161: with weights between `c` and `C`, data with noise of size `ε` and an initial guess with error `d`, the error of every
logged estimate, started anywhere, is bounded by the noise plus the corrections the objective allows. -/
theorem C161_body {lap : Bool} {n : Nat} {cfg : RegConfig} {x z yInit : Arr2 ℂ} (h : FitSetup lap n cfg x z yInit)
    (hl : 0 ≤ cfg.lam) (ho : ∀ t ∈ Spec.terms cfg.prior, t.order = 1 ∨ t.order = 2)
    {xW zW : Arr2 ℝ} (hxW : Spec.IsWeight (2 * (n * x.r)) xW) (hzW : Spec.IsWeight (2 * (n * x.r)) zW) {c C : ℝ} (hc : 0 < c) (hC : c ≤ C)
    (hbx : Spec.WeightsBetween c C xW) (hbz : Spec.WeightsBetween c C zW) {solve : Solver} (hex : Spec.Exact solve)
    {inv : Arr2 ℂ → Except PyErr (Arr2 ℂ)} {res : Except PyErr Unit} {obj : RegObj}
    (hfit : eivBody solve inv cfg RegObj.fresh x z (some xW) (some zW) yInit = (res, obj))
    {x0 z0 Y : Arr2 ℂ} (hY : Spec.IsSquare n Y) (had : Spec.Admissible lap Y) (hz0 : x0.matmul Y = .ok z0) (hx0 : x0.r = x.r)
    {ε d σ : ℝ} (hε : 0 ≤ ε) (hnoise : Spec.size (Spec.diff x x0) ^ 2 + Spec.size (Spec.diff z z0) ^ 2 ≤ ε ^ 2)
    (hd : Spec.size (Spec.diff yInit Y) ≤ d) (hσ : Spec.AtLeast x0 σ) :
    ∀ e ∈ obj.iterations, Spec.ErrorBound e.params Y
      (σ - (ε + Spec.eivShift n (Real.sqrt (C / c)) ε (Spec.size x0) d (cfg.lam * Spec.penalty lap n cfg (Spec.projection lap n yInit) / c)))
      (ε + Spec.eivShift n (Real.sqrt (C / c)) ε (Spec.size x0) d (cfg.lam * Spec.penalty lap n cfg (Spec.projection lap n yInit) / c)) := by
  intro e he
  rcases eiv_objectives h hl ho hxW hzW hex hfit with h0 | ⟨D1, hD1, hopt, hall⟩
  · rw [h0] at he; simp at he
  obtain ⟨hesq, D, hD, hobj⟩ := hall e he
  obtain ⟨a1, a2, a3, a4⟩ := Arr2.matmul_inv hz0
  have hx0c : x0.c = n := a1.trans hY.1
  have hz0s : z0.r = x.r ∧ z0.c = n := ⟨a2.trans hx0, a3.trans hY.2⟩
  have hxs : x.r = x.r ∧ x.c = n := ⟨rfl, h.xc⟩
  have hz0m : z0.toMat x.r n = x0.toMat x.r n * Y.toMat n n := by
    have := a4 x.r n
    rw [hx0c] at this
    exact this
  have hYT : (Y.toMat n n).transpose = Y.toMat n n := by rw [← Arr2.toMat_T, transpose_symm hY had.1]
  set T := x.r with hT
  rw [size_fsize (A := Spec.diff x x0) (m := T) (n := n) hxs.1 hxs.2, size_fsize (A := Spec.diff z z0) (m := T) (n := n) h.zs.1 h.zs.2,
    diff_toMat hxs ⟨hx0, hx0c⟩, diff_toMat h.zs hz0s] at hnoise
  rw [size_fsize (A := Spec.diff yInit Y) (m := n) (n := n) h.init.1 h.init.2, diff_toMat ⟨h.init.1, h.init.2⟩ ⟨hY.1, hY.2⟩] at hd
  rw [size_fsize (A := x0) (m := T) (n := n) hx0 hx0c]
  -- the first correction
  have b1 := (cost_between (Y := yInit.T) h.xc h.zs hD1 hxW.rows hzW.rows hbx hbz).1
  have b2 := hopt (Spec.diff x x0) rfl h.xc
  have b3 := (cost_between (Y := yInit.T) (D := Spec.diff x x0) h.xc h.zs ⟨rfl, h.xc⟩ hxW.rows hzW.rows hbx hbz).2
  have b4 := (cost_between (Y := Spec.projection lap n yInit) h.xc h.zs hD1 hxW.rows hzW.rows hbx hbz).2
  have b5 := (cost_between (Y := e.params) h.xc h.zs hD hxW.rows hzW.rows hbx hbz).1
  rw [diff_toMat hxs ⟨hx0, hx0c⟩] at b3
  have b6 : fsize ((Spec.projection lap n yInit).toMat n n - Y.toMat n n) ≤ Real.sqrt n * d := by
    rw [projection_sub lap n h.init hY had]
    refine (projection_size lap n _).trans (mul_le_mul_of_nonneg_left ?_ (Real.sqrt_nonneg _))
    rw [diff_toMat ⟨h.init.1, h.init.2⟩ ⟨hY.1, hY.2⟩]
    exact hd
  have hpen : Spec.eivCost xW zW x z e.params D ≤ Spec.eivCost xW zW x z (Spec.projection lap n yInit) D1 +
      cfg.lam * Spec.penalty lap n cfg (Spec.projection lap n yInit) := by
    have h1 := mul_nonneg hl (penalty_nonneg lap n cfg h.alpha e.params)
    have h2 : Spec.eivCost xW zW x z e.params D + cfg.lam * Spec.penalty lap n cfg e.params ≤
        Spec.eivCost xW zW x z (Spec.projection lap n yInit) D1 + cfg.lam * Spec.penalty lap n cfg (Spec.projection lap n yInit) := hobj
    linarith
  have hp0 := mul_nonneg hl (penalty_nonneg lap n cfg h.alpha (Spec.projection lap n yInit))
  rw [Arr2.toMat_T] at b1 b3
  have hσ' : ∀ v, σ * Spec.len v ≤ Spec.len ((x0.toMat T n).mulVec v) := by
    have := hσ
    unfold Spec.AtLeast at this
    rw [hx0, hx0c] at this
    exact this
  unfold Spec.ErrorBound
  rw [hY.1, hY.2]
  generalize Spec.eivCost xW zW x z yInit.T D1 = q1 at *
  generalize Spec.eivCost xW zW x z yInit.T (Spec.diff x x0) = q0 at *
  generalize Spec.eivCost xW zW x z (Spec.projection lap n yInit) D1 = q2 at *
  generalize Spec.eivCost xW zW x z e.params D = q3 at *
  generalize cfg.lam * Spec.penalty lap n cfg (Spec.projection lap n yInit) = ρ at *
  generalize x.toMat T n = X at *
  generalize z.toMat T n = Z at *
  generalize x0.toMat T n = X0 at *
  generalize z0.toMat T n = Z0 at *
  generalize Y.toMat n n = Q at *
  generalize yInit.toMat n n = G at *
  generalize (Spec.projection lap n yInit).toMat n n = P at *
  generalize D1.toMat T n = E1 at *
  generalize D.toMat T n = E at *
  generalize e.params.toMat n n = V at *
  exact stability_core hc hC hε hnoise hd b1 (b2.trans b3) b4 b5 b6 hpen hp0 hz0m hYT hσ'

/-- C161 for `fit`, which uses the weights of the voltages for the currents too, and its result -/
theorem C161_fit {lap : Bool} {n : Nat} {cfg : RegConfig} {x z yInit : Arr2 ℂ} (h : FitSetup lap n cfg x z yInit)
    (hl : 0 ≤ cfg.lam) (ho : ∀ t ∈ Spec.terms cfg.prior, t.order = 1 ∨ t.order = 2)
    {xW : Arr2 ℝ} (hxW : Spec.IsWeight (2 * (n * x.r)) xW) (zW : Arr2 ℝ) {c C : ℝ} (hc : 0 < c) (hC : c ≤ C)
    (hbx : Spec.WeightsBetween c C xW) {solve : Solver} (hex : Spec.Exact solve)
    {inv : Arr2 ℂ → Except PyErr (Arr2 ℂ)} {res : Except PyErr Unit} {obj : RegObj}
    (hfit : eivFit solve inv cfg RegObj.fresh x z (some xW) (some zW) yInit = (res, obj))
    {x0 z0 Y : Arr2 ℂ} (hY : Spec.IsSquare n Y) (had : Spec.Admissible lap Y) (hz0 : x0.matmul Y = .ok z0) (hx0 : x0.r = x.r)
    {ε d σ : ℝ} (hε : 0 ≤ ε) (hnoise : Spec.size (Spec.diff x x0) ^ 2 + Spec.size (Spec.diff z z0) ^ 2 ≤ ε ^ 2)
    (hd : Spec.size (Spec.diff yInit Y) ≤ d) (hσ : Spec.AtLeast x0 σ) {η : ℝ}
    (hη : η = ε + Spec.eivShift n (Real.sqrt (C / c)) ε (Spec.size x0) d
      (cfg.lam * Spec.penalty lap n cfg (Spec.projection lap n yInit) / c)) :
    (∀ e ∈ obj.iterations, Spec.ErrorBound e.params Y (σ - η) η) ∧
    (res = .ok () → 0 < cfg.maxIter → ∃ Y', obj.admittance = some Y' ∧ Spec.ErrorBound Y' Y (σ - η) η) := by
  have hall := C161_body h hl ho hxW hxW hc hC hbx hbx hex (inv := inv) (res := res) (obj := obj) hfit hY had hz0 hx0 hε hnoise hd hσ
  rw [← hη] at hall
  refine ⟨hall, fun hr hm => ?_⟩
  subst hr
  obtain ⟨-, h2⟩ := C33_eiv solve inv cfg x z _ _ yInit hfit
  obtain ⟨-, -, -, e, he, hadm⟩ := h2 hm
  exact ⟨e.params, hadm, hall e (List.mem_of_getLast? he)⟩

/-- the bound tends to zero with the noise, the error of the initial guess and the penalty -/
theorem C161_small (n : Nat) (κ S : ℝ) {δ : ℝ} (hδ : 0 < δ) : ∃ r, 0 < r ∧ ∀ ε d ρ, 0 ≤ ε → ε ≤ r → 0 ≤ d → d ≤ r → 0 ≤ ρ → ρ ≤ r →
    ε + Spec.eivShift n κ ε S d ρ < δ := by
  let f : ℝ × ℝ × ℝ → ℝ := fun p => p.1 + Spec.eivShift n κ p.1 S p.2.1 p.2.2
  have hf : Continuous f := by
    unfold f Spec.eivShift
    fun_prop
  have h0 : f 0 = 0 := by simp [f, Spec.eivShift]
  have h1 : f ⁻¹' Set.Iio δ ∈ nhds (0 : ℝ × ℝ × ℝ) :=
    (isOpen_Iio.preimage hf).mem_nhds (by show f 0 < δ; rw [h0]; exact hδ)
  obtain ⟨r, hr, hb⟩ := Metric.mem_nhds_iff.1 h1
  refine ⟨r / 2, half_pos hr, fun ε d ρ a1 a2 a3 a4 a5 a6 => ?_⟩
  have : (ε, d, ρ) ∈ Metric.ball (0 : ℝ × ℝ × ℝ) r := by
    rw [Metric.mem_ball, dist_zero_right, Prod.norm_def, Prod.norm_def, max_lt_iff, max_lt_iff]
    simp only [Real.norm_eq_abs]
    rw [abs_of_nonneg a1, abs_of_nonneg a3, abs_of_nonneg a5]
    exact ⟨by linarith, by linarith, by linarith⟩
  exact hb this

/-- the size of an error from its bound along every direction -/
theorem errorBound_size {B Y : Arr2 ℂ} {n : Nat} (hB : Spec.IsSquare n B) (hY : Spec.IsSquare n Y) {c d : ℝ} (hc : 0 < c) (hd : 0 ≤ d)
    (h : Spec.ErrorBound B Y c d) : Spec.size (Spec.diff B Y) ≤ d / c * Real.sqrt (Spec.size Y ^ 2 + n) := by
  rw [size_fsize (A := Spec.diff B Y) (m := n) (n := n) hB.1 hB.2, diff_toMat ⟨hB.1, hB.2⟩ ⟨hY.1, hY.2⟩,
    size_fsize (A := Y) (m := n) (n := n) hY.1 hY.2]
  unfold Spec.ErrorBound at h
  rw [hY.1, hY.2] at h
  have h0 : 0 ≤ fsize (Y.toMat n n) ^ 2 + n := by positivity
  refine (pow_le_pow_iff_left₀ (fsize_nonneg _) (mul_nonneg (div_nonneg hd hc.le) (Real.sqrt_nonneg _)) two_ne_zero).1 ?_
  rw [mul_pow, Real.sq_sqrt h0, fsize_cols, fsize_cols (Y.toMat n n)]
  have e : ∑ j : Fin n, Spec.len ((Y.toMat n n).mulVec (Pi.single j 1)) ^ 2 + (n : ℝ) =
      ∑ j : Fin n, Spec.len (Fin.append ((Y.toMat n n).mulVec (Pi.single j 1)) (Pi.single j 1)) ^ 2 := by
    have e1 : ∀ j : Fin n, Spec.len (Pi.single j (1 : ℂ)) ^ 2 = 1 := by
      intro j
      rw [len_sq, Finset.sum_eq_single j]
      · simp
      · intro k _ hk; simp [hk]
      · intro h; exact absurd (Finset.mem_univ j) h
    simp only [len_append, e1, Finset.sum_add_distrib, Finset.sum_const, Finset.card_univ, Fintype.card_fin, nsmul_eq_mul, mul_one]
  rw [e, Finset.mul_sum]
  refine Finset.sum_le_sum fun j _ => ?_
  rw [← mul_pow]
  refine pow_le_pow_left₀ (len_nonneg _) ?_ 2
  rw [div_mul_eq_mul_div, le_div_iff₀ hc, mul_comm]
  exact h _

/-- positive definite weights lie between multiples of the unit weights -/
theorem PosDef.between {m : Nat} {W : Arr2 ℝ} (h : Spec.PosDef m W) : ∃ c C, 0 < c ∧ c ≤ C ∧ Spec.WeightsBetween c C W := by
  obtain ⟨hW, hpd⟩ := h
  let f : (Fin m → ℝ) → ℝ := fun v => v ⬝ᵥ (W.toMat m m).mulVec v
  have hf : Continuous f := by
    unfold f
    simp only [dotProduct, mulVec]
    fun_prop
  have hhom : ∀ (a : ℝ) (v : Fin m → ℝ), f (a • v) = a ^ 2 * f v := by
    intro a v
    show (a • v) ⬝ᵥ (W.toMat m m).mulVec (a • v) = _
    rw [mulVec_smul, smul_dotProduct, dotProduct_smul, smul_eq_mul, smul_eq_mul]
    ring
  have hpos : ∀ v : Fin m → ℝ, v ≠ 0 → 0 < f v := by
    intro v hv
    refine lt_of_le_of_ne ((IsWeight.mat hW).2 v) fun h0 => hv ?_
    have h1 := hpd (ofVec v) (ofVec_length v) (by rw [wquad_eq ⟨hW.rows, hW.cols⟩, toVec_ofVec]; exact h0.symm)
    have h2 := congrArg (toVec m) h1
    rwa [toVec_ofVec, toVec_replicate_zero] at h2
  let K : Set (Fin m → ℝ) := {v | ∑ k, v k ^ 2 = 1}
  have hK : IsCompact K := by
    refine Metric.isCompact_of_isClosed_isBounded (isClosed_eq (by fun_prop) continuous_const) ?_
    refine (Metric.isBounded_closedBall (x := (0 : Fin m → ℝ)) (r := 1)).subset fun v hv => ?_
    rw [mem_closedBall_zero_iff, pi_norm_le_iff_of_nonneg zero_le_one]
    intro k
    rw [Real.norm_eq_abs, ← sq_le_one_iff_abs_le_one, ← (show ∑ k, v k ^ 2 = 1 from hv)]
    exact Finset.single_le_sum (f := fun k => v k ^ 2) (fun _ _ => sq_nonneg _) (Finset.mem_univ k)
  have hscale : ∀ v : Fin m → ℝ, v ≠ 0 → 0 < ∑ k, v k ^ 2 ∧ (Real.sqrt (∑ k, v k ^ 2))⁻¹ • v ∈ K := by
    intro v hv
    have h1 : 0 < ∑ k, v k ^ 2 := by
      refine lt_of_le_of_ne (Finset.sum_nonneg fun _ _ => sq_nonneg _) fun h0 => hv ?_
      funext k
      have := (Finset.sum_eq_zero_iff_of_nonneg (fun k _ => sq_nonneg (v k))).1 h0.symm k (Finset.mem_univ k)
      exact pow_eq_zero_iff two_ne_zero |>.1 this
    refine ⟨h1, ?_⟩
    show ∑ k, ((Real.sqrt (∑ k, v k ^ 2))⁻¹ • v) k ^ 2 = 1
    simp only [Pi.smul_apply, smul_eq_mul, mul_pow, inv_pow, ← Finset.mul_sum]
    rw [Real.sq_sqrt h1.le, inv_mul_cancel₀ h1.ne']
  have hlist : ∀ v : List ℝ, ∑ k ∈ range W.r, v.getD k 0 ^ 2 = ∑ k : Fin m, toVec m v k ^ 2 := by
    intro v
    rw [hW.rows, ← Fin.sum_univ_eq_sum_range (fun k => v.getD k 0 ^ 2) m]
    rfl
  have hzero : f 0 = 0 := by show (0 : Fin m → ℝ) ⬝ᵥ _ = 0; rw [zero_dotProduct]
  rcases K.eq_empty_or_nonempty with hE | hE
  · refine ⟨1, 1, one_pos, le_rfl, fun v => ?_⟩
    have hv : toVec m v = 0 := by
      by_contra hne
      have := (hscale _ hne).2
      rw [hE] at this
      exact this
    rw [hlist, wquad_eq ⟨hW.rows, hW.cols⟩, hv]
    simp
  · obtain ⟨a, ha, hmin⟩ := hK.exists_isMinOn hE hf.continuousOn
    obtain ⟨b, hb, hmax⟩ := hK.exists_isMaxOn hE hf.continuousOn
    have ha0 : a ≠ 0 := by
      rintro rfl
      have : ∑ k : Fin m, (0 : Fin m → ℝ) k ^ 2 = 1 := ha
      simp at this
    refine ⟨f a, f b, hpos a ha0, hmax ha, fun v => ?_⟩
    rw [hlist, wquad_eq ⟨hW.rows, hW.cols⟩]
    show f a * _ ≤ f (toVec m v) ∧ f (toVec m v) ≤ f b * _
    by_cases hv : toVec m v = 0
    · rw [hv, hzero]; simp
    · obtain ⟨h1, h2⟩ := hscale _ hv
      have h3 : f a ≤ _ := hmin h2
      have h4 : _ ≤ f b := hmax h2
      rw [hhom, inv_pow, Real.sq_sqrt h1.le, inv_mul_eq_div] at h3 h4
      rw [le_div_iff₀ h1] at h3
      rw [div_le_iff₀ h1] at h4
      exact ⟨h3, h4⟩

end
end Verif
