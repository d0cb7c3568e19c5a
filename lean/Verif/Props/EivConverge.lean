/-
C148: limits of the iterations of the weighted `BayesianEIVRegression.fit`: bounded, with vanishing changes, and every limit is a
point where neither the matrix nor the correction of the voltages can be improved alone.
-/
import Verif.Lemmas.Alternate
import Verif.Props.Converge
import Verif.Props.Eiv

namespace Verif
open Finset Matrix Filter Topology
noncomputable section

/-! ### stacked matrices along lines -/

theorem stack_line {P Q R : Arr2 ℂ} {r c : Nat} (hP : P.r = r ∧ P.c = c) (hQ : Q.r = r ∧ Q.c = c) (hR : R.r = r ∧ R.c = c)
    (t : ℝ) (h : ∀ i j, i < r → j < c → R.get i j = P.get i j + (t : ℂ) * (Q.get i j - P.get i j)) :
    toVec (2 * (c * r)) (Spec.stackReal R) = toVec (2 * (c * r)) (Spec.stackReal P) +
      t • (toVec (2 * (c * r)) (Spec.stackReal Q) - toVec (2 * (c * r)) (Spec.stackReal P)) := by
  have h' : ∀ i j, R.get i j = P.get i j + (t : ℂ) * (Q.get i j - P.get i j) := by
    intro i j
    by_cases hij : i < r ∧ j < c
    · exact h i j hij.1 hij.2
    · rw [R.oob i j (by rw [hR.1, hR.2]; exact hij), P.oob i j (by rw [hP.1, hP.2]; exact hij),
        Q.oob i j (by rw [hQ.1, hQ.2]; exact hij)]
      ring
  funext k
  have hk := k.2
  show (Spec.stackReal R).getD k 0 = (Spec.stackReal P).getD k 0 + t * ((Spec.stackReal Q).getD k 0 - (Spec.stackReal P).getD k 0)
  rw [stackReal_getD R k (by rw [hR.1, hR.2]; exact hk), stackReal_getD P k (by rw [hP.1, hP.2]; exact hk),
    stackReal_getD Q k (by rw [hQ.1, hQ.2]; exact hk), hR.1, hR.2, hP.1, hP.2, hQ.1, hQ.2]
  split <;> rw [h'] <;> simp

/-- a quadratic form along a line -/
theorem quad_line {m : Nat} (W : Matrix (Fin m) (Fin m) ℝ) (hW : W.transpose = W) (a b : Fin m → ℝ) (t : ℝ) :
    (a + t • (b - a)) ⬝ᵥ W.mulVec (a + t • (b - a)) =
      (1 - t) * (a ⬝ᵥ W.mulVec a) + t * (b ⬝ᵥ W.mulVec b) - t * (1 - t) * ((b - a) ⬝ᵥ W.mulVec (b - a)) := by
  have hs : ∀ u v : Fin m → ℝ, u ⬝ᵥ W.mulVec v = v ⬝ᵥ W.mulVec u := by
    intro u v
    rw [dotProduct_mulVec, ← mulVec_transpose, hW, dotProduct_comm]
  simp only [mulVec_add, mulVec_smul, mulVec_sub, add_dotProduct, dotProduct_add, smul_dotProduct, dotProduct_smul,
    sub_dotProduct, dotProduct_sub, smul_eq_mul]
  rw [hs b a]
  ring

theorem wquad_line {m : Nat} {W : Arr2 ℝ} (hW : Spec.IsWeight m W) {u v w : List ℝ} {t : ℝ} (h0 : 0 ≤ t) (h1 : t ≤ 1)
    (h : toVec m w = toVec m u + t • (toVec m v - toVec m u)) :
    Spec.wquad W w ≤ (1 - t) * Spec.wquad W u + t * Spec.wquad W v := by
  obtain ⟨hs, hp⟩ := IsWeight.mat hW
  rw [wquad_eq ⟨hW.rows, hW.cols⟩, wquad_eq ⟨hW.rows, hW.cols⟩, wquad_eq ⟨hW.rows, hW.cols⟩, h, quad_line _ hs]
  have := mul_nonneg (mul_nonneg h0 (sub_nonneg.2 h1)) (hp (toVec m v - toVec m u))
  linarith

/-- a positive definite form of a finite-dimensional space bounds the square of the norm -/
theorem quad_coercive {F : Type} [NormedAddCommGroup F] [NormedSpace ℝ F] [ProperSpace F] {f : F → ℝ} (hc : Continuous f)
    (hom : ∀ (s : ℝ) d, f (s • d) = s ^ 2 * f d) (pos : ∀ d, d ≠ 0 → 0 < f d) : ∃ c : ℝ, 0 < c ∧ ∀ d, c * ‖d‖ ^ 2 ≤ f d := by
  have hf0 : f 0 = 0 := by
    have := hom 0 0
    rwa [zero_smul, zero_pow two_ne_zero, zero_mul] at this
  by_cases hne : (Metric.sphere (0 : F) 1).Nonempty
  · obtain ⟨d0, hd0, hmin⟩ := (isCompact_sphere (0 : F) 1).exists_isMinOn hne hc.continuousOn
    have hd0' : ‖d0‖ = 1 := mem_sphere_zero_iff_norm.1 hd0
    refine ⟨f d0, pos d0 (by rintro rfl; rw [norm_zero] at hd0'; exact zero_ne_one hd0'), fun d => ?_⟩
    by_cases hd : d = 0
    · rw [hd, norm_zero, hf0]; simp
    · have hn : ‖d‖ ≠ 0 := norm_ne_zero_iff.2 hd
      have h1 := hmin (mem_sphere_zero_iff_norm.2 (show ‖(‖d‖⁻¹) • d‖ = 1 by
        rw [norm_smul, norm_inv, norm_norm, inv_mul_cancel₀ hn]))
      have h2 := hom (‖d‖⁻¹) d
      have h1 : f d0 ≤ f (‖d‖⁻¹ • d) := h1
      rw [h2] at h1
      have h3 := mul_le_mul_of_nonneg_right h1 (sq_nonneg ‖d‖)
      have e : ‖d‖⁻¹ ^ 2 * f d * ‖d‖ ^ 2 = f d := by field_simp
      rwa [e] at h3
  · refine ⟨1, one_pos, fun d => ?_⟩
    have hd : d = 0 := by
      by_contra hd
      have hn : ‖d‖ ≠ 0 := norm_ne_zero_iff.2 hd
      exact hne ⟨‖d‖⁻¹ • d, mem_sphere_zero_iff_norm.2 (by rw [norm_smul, norm_inv, norm_norm, inv_mul_cancel₀ hn])⟩
    rw [hd, norm_zero, hf0]; simp

/-! ### matrices of vectors -/

/-- matrix of a function on indices -/
def arrOf {r c : Nat} (d : Fin r → Fin c → ℂ) : Arr2 ℂ :=
  Arr2.ofFn r c (fun i j => if h : i < r ∧ j < c then d ⟨i, h.1⟩ ⟨j, h.2⟩ else 0)

theorem arrOf_get {r c : Nat} (d : Fin r → Fin c → ℂ) {i j : Nat} (hi : i < r) (hj : j < c) :
    (arrOf d).get i j = d ⟨i, hi⟩ ⟨j, hj⟩ := by
  unfold arrOf
  rw [Arr2.ofFn_get _ hi hj, dif_pos ⟨hi, hj⟩]

theorem arrOf_of {r c : Nat} {D : Arr2 ℂ} (hr : D.r = r) (hc : D.c = c) :
    arrOf (fun (i : Fin r) (j : Fin c) => D.get i j) = D :=
  Arr2.ext' hr.symm hc.symm (fun _ _ hi hj => arrOf_get _ hi hj)

/-- matrix of parameters -/
def parMat (lap : Bool) (n : Nat) (dt : Arr2 ℂ) (y : Fin (nReal lap n) → ℝ) : Arr2 ℂ :=
  Arr2.ofFn n n (fun i j => ∑ k ∈ range (nParams lap n), dt.get (j * n + i) k *
    (((ofVec y).getD k 0 : ℂ) + ((ofVec y).getD (nParams lap n + k) 0 : ℂ) * Complex.I))

theorem parMat_ok (lap : Bool) (n : Nat) {dt : Arr2 ℂ} (hdt : dtMatrix ℂ lap n = .ok dt) {y : List ℝ}
    (hy : y.length = nReal lap n) : toMatrix n dt y = .ok (parMat lap n dt (toVec (nReal lap n) y)) := by
  obtain ⟨Y, _, _, _, _, _, hY⟩ := toMatrix_ok lap n hdt hy
  have hsq := (toMatrix_admissible lap n hdt hY).1
  rw [hY]
  congr 1
  refine Arr2.ext' hsq.1 hsq.2 (fun i j hi hj => ?_)
  have hv : ofVec (toVec (nReal lap n) y) = y := toVec_inj (ofVec_length _) hy (toVec_ofVec _)
  rw [hsq.1] at hi
  rw [hsq.2] at hj
  unfold parMat
  rw [toMatrix_entry lap n hdt hy hY hi hj, Arr2.ofFn_get _ hi hj, hv]

theorem ofVec_getD {N : Nat} (y : Fin N → ℝ) (k : Nat) : (ofVec y).getD k 0 = if h : k < N then y ⟨k, h⟩ else 0 := by
  split
  · rename_i h
    exact congrFun (toVec_ofVec y) ⟨k, h⟩
  · rename_i h
    rw [List.getD_eq_getElem?_getD, List.getElem?_eq_none (by rw [ofVec_length]; omega)]; rfl

theorem parMat_cont (lap : Bool) (n : Nat) (dt : Arr2 ℂ) (i j : Nat) : Continuous (fun y => (parMat lap n dt y).get i j) := by
  have hk : ∀ k, Continuous (fun y : Fin (nReal lap n) → ℝ => (ofVec y).getD k 0) := by
    intro k
    simp only [ofVec_getD]
    split
    · exact continuous_apply _
    · exact continuous_const
  unfold parMat
  simp only [Arr2.ofFn_get']
  split
  · refine continuous_finset_sum _ (fun k _ => continuous_const.mul ?_)
    exact (Complex.continuous_ofReal.comp (hk _)).add ((Complex.continuous_ofReal.comp (hk _)).mul continuous_const)
  · exact continuous_const

theorem parMat_line (lap : Bool) (n : Nat) (dt : Arr2 ℂ) (y v : Fin (nReal lap n) → ℝ) (t : ℝ) (i j : Nat) :
    (parMat lap n dt (y + t • (v - y))).get i j = (parMat lap n dt y).get i j +
      (t : ℂ) * ((parMat lap n dt v).get i j - (parMat lap n dt y).get i j) := by
  have hk : ∀ k, (ofVec (y + t • (v - y))).getD k 0 = (ofVec y).getD k 0 + t * ((ofVec v).getD k 0 - (ofVec y).getD k 0) := by
    intro k
    rw [ofVec_getD, ofVec_getD, ofVec_getD]
    split
    · rfl
    · simp
  unfold parMat
  simp only [Arr2.ofFn_get']
  split
  · rw [← Finset.sum_sub_distrib, Finset.mul_sum, ← Finset.sum_add_distrib]
    refine Finset.sum_congr rfl (fun k _ => ?_)
    rw [hk, hk]
    push_cast
    ring
  · simp

theorem parMat_sub (lap : Bool) (n : Nat) (dt : Arr2 ℂ) (y v : Fin (nReal lap n) → ℝ) (i j : Nat) :
    (parMat lap n dt (y - v)).get i j = (parMat lap n dt y).get i j - (parMat lap n dt v).get i j := by
  have hk : ∀ k, (ofVec (y - v)).getD k 0 = (ofVec y).getD k 0 - (ofVec v).getD k 0 := by
    intro k
    rw [ofVec_getD, ofVec_getD, ofVec_getD]
    split
    · rfl
    · simp
  unfold parMat
  simp only [Arr2.ofFn_get']
  split
  · rw [← Finset.sum_sub_distrib]
    refine Finset.sum_congr rfl (fun k _ => ?_)
    rw [hk, hk]
    push_cast
    ring
  · simp

theorem arrOf_cont {r c : Nat} (i j : Nat) : Continuous (fun d : Fin r → Fin c → ℂ => (arrOf d).get i j) := by
  unfold arrOf
  simp only [Arr2.ofFn_get']
  split
  · rename_i h
    exact (continuous_apply (⟨j, h.2⟩ : Fin c)).comp (continuous_apply (⟨i, h.1⟩ : Fin r))
  · exact continuous_const

theorem arrOf_line {r c : Nat} (d e : Fin r → Fin c → ℂ) (t : ℝ) (i j : Nat) :
    (arrOf (d + t • (e - d))).get i j = (arrOf d).get i j + (t : ℂ) * ((arrOf e).get i j - (arrOf d).get i j) := by
  unfold arrOf
  simp only [Arr2.ofFn_get']
  split
  · rename_i h
    show d _ _ + t • (e _ _ - d _ _) = _
    rw [Complex.real_smul]
  · simp

theorem stack_cont {X : Type} [TopologicalSpace X] {E : X → Arr2 ℂ} {r c : Nat} (hE : ∀ q, (E q).r = r ∧ (E q).c = c)
    (hc : ∀ i j, Continuous (fun q => (E q).get i j)) (k : Nat) : Continuous (fun q => (Spec.stackReal (E q)).getD k 0) := by
  by_cases hk : k < 2 * (c * r)
  · have : ∀ q, (Spec.stackReal (E q)).getD k 0 = if k < c * r then ((E q).get (k % r) (k / r)).re
        else ((E q).get ((k - c * r) % r) ((k - c * r) / r)).im := by
      intro q
      rw [stackReal_getD (E q) k (by rw [(hE q).1, (hE q).2]; exact hk), (hE q).1, (hE q).2]
    simp only [this]
    split
    · exact Complex.continuous_re.comp (hc _ _)
    · exact Complex.continuous_im.comp (hc _ _)
  · have : ∀ q, (Spec.stackReal (E q)).getD k 0 = 0 := by
      intro q
      rw [List.getD_eq_getElem?_getD, List.getElem?_eq_none (by rw [stackReal_length, (hE q).1, (hE q).2]; omega)]; rfl
    simp only [this]
    exact continuous_const

theorem wquad_cont {X : Type} [TopologicalSpace X] (W : Arr2 ℝ) {v : X → List ℝ} (hv : ∀ k, Continuous (fun q => (v q).getD k 0)) :
    Continuous (fun q => Spec.wquad W (v q)) := by
  unfold Spec.wquad
  exact continuous_finset_sum _ (fun i _ => continuous_finset_sum _ (fun j _ => ((hv i).mul continuous_const).mul (hv j)))

/-! ### the fit as alternating minimisation -/

/-- the problem behind a weighted fit -/
def altOf (lap : Bool) (n : Nat) (p : Prior) (lam : ℝ) (dt : Arr2 ℂ) (xW zW : Arr2 ℝ) (x z : Arr2 ℂ) :
    Alt (Fin x.r → Fin n → ℂ) (nReal lap n) (Spec.terms p).length where
  cost := fun y d => Spec.eivCost xW zW x z (parMat lap n dt y) (arrOf d)
  R := (irlsOf (nReal lap n) 0 p lam (Arr2.zeros 0 0) []).R
  c := fun i => (Spec.terms p)[i].center
  order := fun i => (Spec.terms p)[i].order
  α := p.alpha
  lam := lam

section
variable {lap : Bool} {n : Nat} {p : Prior} {lam : ℝ} {dt : Arr2 ℂ} {xW zW : Arr2 ℝ} {x z : Arr2 ℂ}

theorem alt_res (v : List ℝ) (i : Fin (Spec.terms p).length) :
    (altOf lap n p lam dt xW zW x z).res (toVec (nReal lap n) v) i = (Spec.terms p)[i].resid (nReal lap n) v :=
  irls_res (nReal lap n) 0 p lam (Arr2.zeros 0 0) [] v i

theorem alt_w (v : List ℝ) (i : Fin (Spec.terms p).length) :
    (altOf lap n p lam dt xW zW x z).w (toVec (nReal lap n) v) i = (Spec.terms p)[i].scale (nReal lap n) p.alpha v := by
  unfold Alt.w
  rw [alt_res]
  rfl

theorem list_sum_fin {β : Type} (l : List β) (f : β → ℝ) : (l.map f).sum = ∑ i : Fin l.length, f l[i] := by
  rw [← List.sum_ofFn]
  congr 1
  refine List.ext_getElem (by simp) (fun i h1 h2 => by simp)

theorem alt_pen (v : List ℝ) : (altOf lap n p lam dt xW zW x z).pen (toVec (nReal lap n) v) =
    ((Spec.terms p).map (fun t => Spec.smooth p.alpha t.order (t.resid (nReal lap n) v))).sum := by
  rw [list_sum_fin]
  unfold Alt.pen
  refine Finset.sum_congr rfl (fun i _ => ?_)
  rw [alt_res]
  rfl

theorem alt_model (y v : List ℝ) : (altOf lap n p lam dt xW zW x z).model (toVec (nReal lap n) y) (toVec (nReal lap n) v) =
    Spec.model p (nReal lap n) y v := by
  unfold Spec.model
  rw [list_sum_fin]
  unfold Alt.model
  refine Finset.sum_congr rfl (fun i _ => ?_)
  rw [alt_res, alt_w]

theorem residual_get {Y D : Arr2 ℂ} {i j : Nat} (hi : i < z.r) (hj : j < z.c) : (Spec.residual x z Y D).get i j =
    z.get i j - ∑ k ∈ range x.c, (x.get i k - D.get i k) * Y.get k j := by
  unfold Spec.residual
  rw [Arr2.ofFn_get _ hi hj]

theorem residual_line_matrix {Y V U D : Arr2 ℂ} (t : ℝ) (h : ∀ i j, U.get i j = Y.get i j + (t : ℂ) * (V.get i j - Y.get i j))
    {i j : Nat} (hi : i < z.r) (hj : j < z.c) : (Spec.residual x z U D).get i j = (Spec.residual x z Y D).get i j +
      (t : ℂ) * ((Spec.residual x z V D).get i j - (Spec.residual x z Y D).get i j) := by
  rw [residual_get hi hj, residual_get hi hj, residual_get hi hj, sub_sub_sub_cancel_left, ← Finset.sum_sub_distrib,
    Finset.mul_sum, sub_add, ← Finset.sum_sub_distrib]
  congr 1
  refine Finset.sum_congr rfl (fun k _ => ?_)
  rw [h]
  ring

theorem residual_line_correction {Y D E G : Arr2 ℂ} (t : ℝ) (h : ∀ i j, G.get i j = D.get i j + (t : ℂ) * (E.get i j - D.get i j))
    {i j : Nat} (hi : i < z.r) (hj : j < z.c) : (Spec.residual x z Y G).get i j = (Spec.residual x z Y D).get i j +
      (t : ℂ) * ((Spec.residual x z Y E).get i j - (Spec.residual x z Y D).get i j) := by
  rw [residual_get hi hj, residual_get hi hj, residual_get hi hj, sub_sub_sub_cancel_left, ← Finset.sum_sub_distrib,
    Finset.mul_sum, sub_add, ← Finset.sum_sub_distrib]
  congr 1
  refine Finset.sum_congr rfl (fun k _ => ?_)
  rw [h]
  ring

theorem zeros_get' (r c i j : Nat) : (Arr2.zeros r c : Arr2 ℂ).get i j = 0 := by
  unfold Arr2.zeros
  rw [Arr2.ofFn_get', ite_self]

theorem arrOf_zero (r c : Nat) : arrOf (0 : Fin r → Fin c → ℂ) = Arr2.zeros r c := by
  refine Arr2.ext' rfl rfl (fun i j hi hj => ?_)
  rw [zeros_get']
  exact arrOf_get (r := r) (c := c) 0 hi hj

theorem stack_arrOf_zero {r c : Nat} {d : Fin r → Fin c → ℂ} (h : Spec.stackReal (arrOf d) = List.replicate (2 * (c * r)) 0) :
    d = 0 := by
  have h1 : arrOf d = Arr2.zeros r c := by
    refine vec_inj rfl rfl (makeRealVector_inj ?_)
    rw [stackReal_eq, stackReal_eq, h, stackReal_zeros]
  funext i j
  have h2 := arrOf_get d i.2 j.2
  rw [h1, zeros_get'] at h2
  exact h2.symm

/-- the weighted size of a correction -/
theorem correction_pos {m : Nat} {W : Arr2 ℝ} {r c : Nat} (hm : m = 2 * (c * r)) (hW : Spec.PosDef m W) {d : Fin r → Fin c → ℂ}
    (hd : d ≠ 0) : 0 < Spec.wquad W (Spec.stackReal (arrOf d)) := by
  subst hm
  refine lt_of_le_of_ne (hW.1.psd _) (fun h0 => hd (stack_arrOf_zero (hW.2 _ ?_ h0.symm)))
  rw [stackReal_length]
  rfl

theorem correction_scale {m : Nat} {W : Arr2 ℝ} {r c : Nat} (hm : m = 2 * (c * r)) (hW : Spec.IsWeight m W) (s : ℝ)
    (d : Fin r → Fin c → ℂ) :
    Spec.wquad W (Spec.stackReal (arrOf (s • d))) = s ^ 2 * Spec.wquad W (Spec.stackReal (arrOf d)) := by
  subst hm
  have h0 : toVec (2 * (c * r)) (Spec.stackReal (arrOf (0 : Fin r → Fin c → ℂ))) = 0 := by
    rw [arrOf_zero, stackReal_zeros]
    exact toVec_replicate_zero _
  have h1 := stack_line (P := arrOf (0 : Fin r → Fin c → ℂ)) (Q := arrOf d) (R := arrOf (s • d)) (r := r) (c := c) ⟨rfl, rfl⟩
    ⟨rfl, rfl⟩ ⟨rfl, rfl⟩ s (fun i j _ _ => by
      have := arrOf_line 0 d s i j
      rwa [sub_zero, zero_add] at this)
  rw [h0, zero_add, sub_zero] at h1
  rw [wquad_eq ⟨hW.rows, hW.cols⟩, wquad_eq ⟨hW.rows, hW.cols⟩, h1, mulVec_smul, dotProduct_smul, smul_dotProduct,
    smul_eq_mul, smul_eq_mul]
  ring

theorem alt_good (hl : 0 < lam) (hα : 0 < p.alpha) (ho : ∀ t ∈ Spec.terms p, t.order = 1 ∨ t.order = 2)
    (hsp : Spec.Spanning p (nReal lap n)) (hz : z.r = x.r ∧ z.c = n) (hxW : Spec.PosDef (2 * (n * x.r)) xW)
    (hzW : Spec.IsWeight (2 * (n * x.r)) zW) : (altOf lap n p lam dt xW zW x z).Good where
  alpha := hα
  lam := hl
  order := fun i => ho _ (List.getElem_mem _)
  inj := by
    intro v hv
    have := hsp (ofVec v) (ofVec_length v) (by
      intro t ht
      obtain ⟨i, hi, rfl⟩ := List.getElem_of_mem ht
      have h1 := congrFun hv ⟨i, hi⟩
      have h2 := irls_R (nReal lap n) 0 p lam (Arr2.zeros 0 0) [] (ofVec v) ⟨i, hi⟩
      rw [toVec_ofVec] at h2
      exact h2.symm.trans h1)
    rw [← toVec_ofVec v, this]
    exact toVec_replicate_zero _
  cont := by
    show Continuous (fun q : (Fin (nReal lap n) → ℝ) × (Fin x.r → Fin n → ℂ) =>
      Spec.wquad zW (Spec.stackReal (Spec.residual x z (parMat lap n dt q.1) (arrOf q.2))) + Spec.wquad xW (Spec.stackReal (arrOf q.2)))
    refine (wquad_cont _ (stack_cont (r := z.r) (c := z.c)
      (E := fun q : (Fin (nReal lap n) → ℝ) × (Fin x.r → Fin n → ℂ) => Spec.residual x z (parMat lap n dt q.1) (arrOf q.2))
      (fun _ => ⟨rfl, rfl⟩) (fun i j => ?_))).add
      (wquad_cont _ (stack_cont (r := x.r) (c := n) (E := fun q : (Fin (nReal lap n) → ℝ) × (Fin x.r → Fin n → ℂ) => arrOf q.2)
        (fun _ => ⟨rfl, rfl⟩) (fun i j => (arrOf_cont i j).comp continuous_snd)))
    unfold Spec.residual
    simp only [Arr2.ofFn_get']
    split
    · exact continuous_const.sub (continuous_finset_sum _ (fun k _ => (continuous_const.sub ((arrOf_cont i k).comp continuous_snd)).mul
        ((parMat_cont lap n dt k j).comp continuous_fst)))
    · exact continuous_const
  nonneg := fun y d => add_nonneg (hzW.psd _) (hxW.1.psd _)
  convex := by
    intro d y v t h0 h1
    show Spec.eivCost _ _ _ _ _ _ ≤ (1 - t) * Spec.eivCost _ _ _ _ _ _ + t * Spec.eivCost _ _ _ _ _ _
    unfold Spec.eivCost
    have := wquad_line hzW h0 h1 (u := Spec.stackReal (Spec.residual x z (parMat lap n dt y) (arrOf d)))
      (v := Spec.stackReal (Spec.residual x z (parMat lap n dt v) (arrOf d)))
      (w := Spec.stackReal (Spec.residual x z (parMat lap n dt (y + t • (v - y))) (arrOf d)))
      (stack_line (P := Spec.residual x z (parMat lap n dt y) (arrOf d)) (Q := Spec.residual x z (parMat lap n dt v) (arrOf d))
        (R := Spec.residual x z (parMat lap n dt (y + t • (v - y))) (arrOf d)) hz hz hz t (fun i j hi hj =>
          residual_line_matrix t (parMat_line lap n dt y v t) (by rw [hz.1]; exact hi) (by rw [hz.2]; exact hj)))
    linarith
  coercive := by
    intro C
    obtain ⟨c, hc, hb⟩ := quad_coercive (F := Fin x.r → Fin n → ℂ) (f := fun d => Spec.wquad xW (Spec.stackReal (arrOf d)))
      (wquad_cont _ (stack_cont (r := x.r) (c := n) (fun _ => ⟨rfl, rfl⟩) (fun i j => arrOf_cont i j)))
      (correction_scale rfl hxW.1) (fun d hd => correction_pos rfl hxW hd)
    refine ⟨1 + |C| / c, fun y d hd => ?_⟩
    have h1 : Spec.eivCost xW zW x z (parMat lap n dt y) (arrOf d) ≤ C := hd
    unfold Spec.eivCost at h1
    have h2 := hzW.psd (Spec.stackReal (Spec.residual x z (parMat lap n dt y) (arrOf d)))
    have h3 := hb d
    have h4 : ‖d‖ ^ 2 ≤ |C| / c := by
      rw [le_div_iff₀ hc]
      have := le_abs_self C
      linarith
    nlinarith [sq_nonneg (‖d‖ - 1), norm_nonneg d]
  unique := by
    intro y d d' hb hb'
    by_contra hne
    have hx0 := correction_pos (m := 2 * (n * x.r)) rfl hxW (d := d' - d) (sub_ne_zero.2 (Ne.symm hne))
    have h1 : Spec.eivCost xW zW x z (parMat lap n dt y) (arrOf d) ≤ Spec.eivCost xW zW x z (parMat lap n dt y)
      (arrOf (d + (1 / 2 : ℝ) • (d' - d))) := hb _
    have h2 : Spec.eivCost xW zW x z (parMat lap n dt y) (arrOf d') ≤ Spec.eivCost xW zW x z (parMat lap n dt y)
      (arrOf (d + (1 / 2 : ℝ) • (d' - d))) := hb' _
    unfold Spec.eivCost at h1 h2
    have h3 := wquad_line hzW (t := 1 / 2) (by norm_num) (by norm_num)
      (stack_line (P := Spec.residual x z (parMat lap n dt y) (arrOf d)) (Q := Spec.residual x z (parMat lap n dt y) (arrOf d'))
        (R := Spec.residual x z (parMat lap n dt y) (arrOf (d + (1 / 2 : ℝ) • (d' - d)))) hz hz hz (1 / 2) (fun i j hi hj =>
          residual_line_correction _ (arrOf_line d d' _) (by rw [hz.1]; exact hi) (by rw [hz.2]; exact hj)))
    have h4 : Spec.wquad xW (Spec.stackReal (arrOf (d + (1 / 2 : ℝ) • (d' - d)))) =
        (1 - 1 / 2) * Spec.wquad xW (Spec.stackReal (arrOf d)) + 1 / 2 * Spec.wquad xW (Spec.stackReal (arrOf d')) -
          1 / 2 * (1 - 1 / 2) * Spec.wquad xW (Spec.stackReal (arrOf (d' - d))) := by
      have hw : xW.r = 2 * (n * x.r) ∧ xW.c = 2 * (n * x.r) := ⟨hxW.1.rows, hxW.1.cols⟩
      rw [wquad_eq hw, wquad_eq hw, wquad_eq hw, wquad_eq hw, stack_line (P := arrOf d) (Q := arrOf d')
        (R := arrOf (d + (1 / 2 : ℝ) • (d' - d))) (r := x.r) (c := n) ⟨rfl, rfl⟩ ⟨rfl, rfl⟩ ⟨rfl, rfl⟩ (1 / 2)
        (fun i j _ _ => arrOf_line d d' _ i j), stack_sub (P := arrOf d') (Q := arrOf d) (R := arrOf (d' - d)) (r := x.r) (c := n)
        ⟨rfl, rfl⟩ ⟨rfl, rfl⟩ ⟨rfl, rfl⟩ (fun i j hi hj => by rw [arrOf_get _ hi hj, arrOf_get _ hi hj, arrOf_get _ hi hj]; rfl),
        quad_line _ (IsWeight.mat hxW.1).1]
    linarith

end

/-- matrix and correction that are best for each other: no other admissible matrix is better for the correction, and no other
correction is better for the matrix -/
def Spec.EivBalanced (lap : Bool) (n : Nat) (cfg : RegConfig) (xW zW : Arr2 ℝ) (x z Y D : Arr2 ℂ) : Prop :=
  Spec.IsSquare n Y ∧ Spec.Admissible lap Y ∧ D.r = x.r ∧ D.c = n ∧
  (∀ D', D'.r = x.r → D'.c = n →
    Spec.eivObjective lap n cfg xW zW x z Y D ≤ Spec.eivObjective lap n cfg xW zW x z Y D') ∧
  ∀ V, Spec.IsSquare n V → Spec.Admissible lap V →
    Spec.eivObjective lap n cfg xW zW x z Y D ≤ Spec.eivObjective lap n cfg xW zW x z V D

theorem alt_obj {lap : Bool} {n : Nat} {cfg : RegConfig} {x z yInit : Arr2 ℂ} (h : FitSetup lap n cfg x z yInit) {dt : Arr2 ℂ}
    (hdt : dtMatrix ℂ lap n = .ok dt) (xW zW : Arr2 ℝ) {y : List ℝ} {Y D : Arr2 ℂ} (hy : y.length = nReal lap n)
    (hY : toMatrix n dt y = .ok Y) (hD : D.r = x.r ∧ D.c = n) :
    (altOf lap n cfg.prior cfg.lam dt xW zW x z).obj (toVec (nReal lap n) y) (fun i j => D.get i j) =
      Spec.eivObjective lap n cfg xW zW x z Y D ∧
    (altOf lap n cfg.prior cfg.lam dt xW zW x z).cost (toVec (nReal lap n) y) (fun i j => D.get i j) =
      Spec.eivCost xW zW x z Y D := by
  have hc : (altOf lap n cfg.prior cfg.lam dt xW zW x z).cost (toVec (nReal lap n) y) (fun i j => D.get i j) =
      Spec.eivCost xW zW x z Y D := by
    show Spec.eivCost xW zW x z (parMat lap n dt (toVec (nReal lap n) y)) (arrOf (fun i j => D.get i j)) = _
    rw [arrOf_of hD.1 hD.2]
    rw [parMat_ok lap n hdt hy] at hY
    rw [Except.ok.inj hY]
  refine ⟨?_, hc⟩
  unfold Alt.obj Spec.eivObjective
  rw [hc, alt_pen, params_of_toMatrix lap n hdt hy hY, h.prior.size]
  rfl

theorem balanced_iff {lap : Bool} {n : Nat} {cfg : RegConfig} {x z yInit : Arr2 ℂ} (h : FitSetup lap n cfg x z yInit) {dt : Arr2 ℂ}
    (hdt : dtMatrix ℂ lap n = .ok dt) (xW zW : Arr2 ℝ) {y : List ℝ} {Y : Arr2 ℂ} (hy : y.length = nReal lap n)
    (hY : toMatrix n dt y = .ok Y) :
    (∃ d, (altOf lap n cfg.prior cfg.lam dt xW zW x z).Stationary (toVec (nReal lap n) y) d) ↔
      ∃ D, Spec.EivBalanced lap n cfg xW zW x z Y D := by
  obtain ⟨hsq, had⟩ := toMatrix_admissible lap n hdt hY
  have hd : ∀ d : Fin x.r → Fin n → ℂ, d = fun (i : Fin x.r) (j : Fin n) => (arrOf d).get i j := by
    intro d
    funext i j
    exact (arrOf_get d i.2 j.2).symm
  constructor
  · rintro ⟨d, hb, hm⟩
    refine ⟨arrOf d, hsq, had, rfl, rfl, fun D' hr hc => ?_, fun V hV hVa => ?_⟩
    · have h1 := hb (fun i j => D'.get i j)
      rw [hd d, (alt_obj h hdt xW zW hy hY ⟨hr, hc⟩).2, (alt_obj h hdt xW zW hy hY (D := arrOf d) ⟨rfl, rfl⟩).2] at h1
      unfold Spec.eivObjective
      linarith
    · obtain ⟨e, he, _⟩ := e_closed (α := ℂ) lap n
      obtain ⟨v, _, hvl, hvm⟩ := toParams_ok lap n hdt he hV
      have h1 := hm (toVec (nReal lap n) v)
      rw [hd d, (alt_obj h hdt xW zW hy hY (D := arrOf d) ⟨rfl, rfl⟩).1,
        (alt_obj h hdt xW zW hvl (hvm hVa) (D := arrOf d) ⟨rfl, rfl⟩).1] at h1
      exact h1
  · rintro ⟨D, _, _, hr, hc, hb, hm⟩
    refine ⟨fun i j => D.get i j, fun d' => ?_, fun v => ?_⟩
    · rw [hd d', (alt_obj h hdt xW zW hy hY ⟨hr, hc⟩).2, (alt_obj h hdt xW zW hy hY (D := arrOf d') ⟨rfl, rfl⟩).2]
      have := hb (arrOf d') rfl rfl
      unfold Spec.eivObjective at this
      linarith
    · obtain ⟨V, _, _, _, _, _, hV⟩ := toMatrix_ok lap n hdt (ofVec_length v)
      obtain ⟨a1, a2⟩ := toMatrix_admissible lap n hdt hV
      have h1 := (alt_obj h hdt xW zW (ofVec_length v) hV ⟨hr, hc⟩).1
      rw [toVec_ofVec] at h1
      rw [(alt_obj h hdt xW zW hy hY ⟨hr, hc⟩).1, h1]
      exact hm V a1 a2

/-- a weighted iteration from a symmetric matrix as a step of alternating minimisation -/
theorem alt_step {lap : Bool} {n : Nat} {cfg : RegConfig} {x z yInit : Arr2 ℂ} (h : FitSetup lap n cfg x z yInit)
    (hl : 0 ≤ cfg.lam) {xW zW : Arr2 ℝ} (hxW : Spec.IsWeight (2 * (n * x.r)) xW)
    (hzW : Spec.IsWeight (2 * (n * x.r)) zW) {solve : Solver} (hex : Spec.Exact solve) {dt : Arr2 ℂ}
    (hdt : dtMatrix ℂ lap n = .ok dt) {A : Arr2 ℝ} (hA : regressionMatrix n x dt = .ok A) {y : List ℝ} {s s' : FitState}
    {t : ℝ} (hs : StateAt cfg.prior (nReal lap n) y s) (hY : toMatrix n dt y = .ok s.yMat)
    (hstep : eivWeightedStep solve cfg x dt A (Spec.stackReal x) (Spec.stackReal z) xW zW s = .ok (s', t)) :
    ∃ y' d, StateAt cfg.prior (nReal lap n) y' s' ∧ toMatrix n dt y' = .ok s'.yMat ∧
      (altOf lap n cfg.prior cfg.lam dt xW zW x z).Best (toVec (nReal lap n) y) d ∧
      (altOf lap n cfg.prior cfg.lam dt xW zW x z).Next (toVec (nReal lap n) y) d (toVec (nReal lap n) y') := by
  obtain ⟨hsq, had⟩ := toMatrix_admissible lap n hdt hY
  obtain ⟨D, y', hDr, hDc, hDmin, hs', hY', _, hmin⟩ := eivStep_at h hl hxW hzW hex hdt hA hs hsq had.1 hstep
  have hd : ∀ d : Fin x.r → Fin n → ℂ, d = fun (i : Fin x.r) (j : Fin n) => (arrOf d).get i j := by
    intro d
    funext i j
    exact (arrOf_get d i.2 j.2).symm
  refine ⟨y', fun i j => D.get i j, hs', hY', fun d' => ?_, fun v => ?_⟩
  · rw [hd d', (alt_obj h hdt xW zW hs.1 hY ⟨hDr, hDc⟩).2, (alt_obj h hdt xW zW hs.1 hY (D := arrOf d') ⟨rfl, rfl⟩).2]
    exact hDmin _ rfl rfl
  · obtain ⟨V, _, _, _, _, _, hV⟩ := toMatrix_ok lap n hdt (ofVec_length v)
    have h1 := (alt_obj h hdt xW zW (ofVec_length v) hV ⟨hDr, hDc⟩).2
    have h2 := alt_model (lap := lap) (n := n) (p := cfg.prior) (lam := cfg.lam) (dt := dt) (xW := xW) (zW := zW) (x := x) (z := z) y
      (ofVec v)
    rw [toVec_ofVec] at h1 h2
    rw [(alt_obj h hdt xW zW hs'.1 hY' ⟨hDr, hDc⟩).2, h1, h2, alt_model]
    exact hmin (ofVec v) V (ofVec_length v) hV

/-- entries that stay bounded, and whose limits all have a property, come close to matrices with that property -/
theorem approach {n : Nat} {M : ℕ → Arr2 ℂ} {S : Arr2 ℂ → Prop} {B : ℝ}
    (hb : ∀ K i j, i < n → j < n → ‖(M K).get i j‖ ≤ B)
    (hS : ∀ (φ : ℕ → ℕ) (Y : Arr2 ℂ), StrictMono φ → Spec.IsSquare n Y →
      (∀ i j, i < n → j < n → Tendsto (fun k => (M (φ k)).get i j) atTop (𝓝 (Y.get i j))) → S Y) :
    (∃ (φ : ℕ → ℕ) (Y : Arr2 ℂ), StrictMono φ ∧ Spec.IsSquare n Y ∧ S Y ∧
      ∀ i j, i < n → j < n → Tendsto (fun k => (M (φ k)).get i j) atTop (𝓝 (Y.get i j))) ∧
    ∀ ε : ℝ, 0 < ε → ∃ K0, ∀ K, K0 ≤ K → ∃ Y, Spec.IsSquare n Y ∧ S Y ∧
      ∀ i j, i < n → j < n → ‖(M K).get i j - Y.get i j‖ < ε := by
  let f : ℕ → Fin n → Fin n → ℂ := fun K i j => (M K).get i j
  have hf : ∀ K, ‖f K‖ ≤ |B| := by
    intro K
    refine (pi_norm_le_iff_of_nonneg (abs_nonneg B)).2 (fun i => (pi_norm_le_iff_of_nonneg (abs_nonneg B)).2 (fun j => ?_))
    exact (hb K i j i.2 j.2).trans (le_abs_self B)
  have hK : IsCompact (Metric.closedBall (0 : Fin n → Fin n → ℂ) |B|) := isCompact_closedBall 0 _
  have hsub : ∀ ψ : ℕ → ℕ, StrictMono ψ → ∃ (φ : ℕ → ℕ) (Y : Arr2 ℂ), StrictMono φ ∧ Spec.IsSquare n Y ∧ S Y ∧
      Tendsto (fun k => f (ψ (φ k))) atTop (𝓝 (fun i j => Y.get i j)) ∧
      ∀ i j, i < n → j < n → Tendsto (fun k => (M (ψ (φ k))).get i j) atTop (𝓝 (Y.get i j)) := by
    intro ψ hψ
    obtain ⟨g, _, φ, hφ, hlim⟩ := hK.tendsto_subseq (x := fun k => f (ψ k)) (fun k => mem_closedBall_zero_iff.2 (hf _))
    have hg : (fun (i j : Fin n) => (arrOf g).get i j) = g := by
      funext i j
      exact arrOf_get g i.2 j.2
    have he : ∀ i j, i < n → j < n → Tendsto (fun k => (M (ψ (φ k))).get i j) atTop (𝓝 ((arrOf g).get i j)) := by
      intro i j hi hj
      rw [arrOf_get g hi hj]
      exact (tendsto_pi_nhds.1 (tendsto_pi_nhds.1 hlim ⟨i, hi⟩)) ⟨j, hj⟩
    refine ⟨φ, arrOf g, hφ, ⟨rfl, rfl⟩, hS (ψ ∘ φ) _ (hψ.comp hφ) ⟨rfl, rfl⟩ he, ?_, he⟩
    rw [hg]
    exact hlim
  refine ⟨?_, ?_⟩
  · obtain ⟨φ, Y, h1, h2, h3, _, h4⟩ := hsub id strictMono_id
    exact ⟨φ, Y, h1, h2, h3, h4⟩
  · intro ε hε
    by_contra hcon
    push Not at hcon
    have hfr : ∃ᶠ K in atTop, ∀ Y, Spec.IsSquare n Y → S Y → ∃ i j, i < n ∧ j < n ∧ ε ≤ ‖(M K).get i j - Y.get i j‖ := by
      rw [frequently_atTop]
      exact hcon
    obtain ⟨ψ, hψ, hbad⟩ := extraction_of_frequently_atTop hfr
    obtain ⟨φ, Y, _, hsq, hSY, hlim, _⟩ := hsub ψ hψ
    have h1 := (Metric.tendsto_nhds.1 hlim ε hε).exists
    obtain ⟨k, hk⟩ := h1
    obtain ⟨i, j, hi, hj, hle⟩ := hbad (φ k) Y hsq hSY
    have h2 := dist_le_pi_dist (f (ψ (φ k))) (fun i j => Y.get i j) ⟨i, hi⟩
    have h3 := dist_le_pi_dist (f (ψ (φ k)) ⟨i, hi⟩) (fun j => Y.get i j) ⟨j, hj⟩
    rw [dist_eq_norm] at h3
    have h4 : ‖(M (ψ (φ k))).get i j - Y.get i j‖ < ε := lt_of_le_of_lt (h3.trans h2) hk
    linarith

set_option maxHeartbeats 1000000 in
/-- C148: with order-1 and order-2 terms, a positive regularisation, a prior leaving no direction free, positive definite voltage
weights and a solver of regular systems, there is one sequence of matrices such that the matrix of the weighted fit with zero
tolerances and `K` iterations is the `K`-th and the log of a fit with any tolerances is an initial part of it. Its entries are
bounded and their changes tend to zero. Every limit of a subsequence is balanced: it is the best matrix for a correction of the
voltages that is best for it. There is such a limit, and the sequence comes and stays arbitrarily close to the balanced matrices. -/
theorem C148_limits {lap : Bool} {n : Nat} {cfg : RegConfig} {x z yInit : Arr2 ℂ} (h : FitSetup lap n cfg x z yInit)
    (hl : 0 < cfg.lam) (ho : ∀ t ∈ Spec.terms cfg.prior, t.order = 1 ∨ t.order = 2)
    (hsp : Spec.Spanning cfg.prior (nReal lap n)) {xW zW : Arr2 ℝ} (hxW : Spec.PosDef (2 * (n * x.r)) xW)
    (hzW : Spec.IsWeight (2 * (n * x.r)) zW) {solve : Solver} (hex : Spec.Exact solve) (htot : Spec.Total solve)
    (inv : Arr2 ℂ → Except PyErr (Arr2 ℂ)) :
    ∃ M : ℕ → Arr2 ℂ,
      (∀ K ta tr, ta ≤ 0 → tr ≤ 0 → ∃ obj, eivBody solve inv { cfg with maxIter := K, absTol := ta, relTol := tr }
        RegObj.fresh x z (some xW) (some zW) yInit = (.ok (), obj) ∧ obj.admittance = some (M K)) ∧
      (∀ K ta tr res obj, eivBody solve inv { cfg with maxIter := K, absTol := ta, relTol := tr } RegObj.fresh x z (some xW)
        (some zW) yInit = (res, obj) → res = .ok () ∧ ∀ k e, obj.iterations[k]? = some e → e.params = M (k + 1)) ∧
      (∃ B : ℝ, ∀ K i j, i < n → j < n → ‖(M K).get i j‖ ≤ B) ∧
      (∀ i j, i < n → j < n → Tendsto (fun K => (M (K + 1)).get i j - (M K).get i j) atTop (𝓝 0)) ∧
      (∀ (φ : ℕ → ℕ) (Y : Arr2 ℂ), StrictMono φ → Spec.IsSquare n Y →
        (∀ i j, i < n → j < n → Tendsto (fun k => (M (φ k)).get i j) atTop (𝓝 (Y.get i j))) →
        ∃ D, Spec.EivBalanced lap n cfg xW zW x z Y D) ∧
      (∃ (φ : ℕ → ℕ) (Y D : Arr2 ℂ), StrictMono φ ∧ Spec.EivBalanced lap n cfg xW zW x z Y D ∧
        ∀ i j, i < n → j < n → Tendsto (fun k => (M (φ k)).get i j) atTop (𝓝 (Y.get i j))) ∧
      ∀ ε : ℝ, 0 < ε → ∃ K0, ∀ K, K0 ≤ K → ∃ Y D, Spec.EivBalanced lap n cfg xW zW x z Y D ∧
        ∀ i j, i < n → j < n → ‖(M K).get i j - Y.get i j‖ < ε := by
  have hK : ∀ K ta tr, FitSetup lap n { cfg with maxIter := K, absTol := ta, relTol := tr } x z yInit :=
    fun K ta tr => ⟨h.dt, h.e, h.xc, h.zs, h.init, h.prior, h.alpha⟩
  obtain ⟨dt, A, y0, s, hdt, hA, hst, hsy, hY0, _⟩ := eivSetup_ok h solve inv
  set N := nReal lap n with hN
  set P := altOf lap n cfg.prior cfg.lam dt xW zW x z with hP
  have hgood : P.Good := alt_good hl h.alpha ho hsp h.zs hxW hzW
  set step := eivWeightedStep solve cfg x dt A (Spec.stackReal x) (Spec.stackReal z) xW zW with hstepd
  let next : FitState → FitState := fun s => match step s with | .ok q => q.1 | .error _ => s
  have hnext : ∀ s, (∃ y, StateAt cfg.prior N y s) ∧ Spec.IsSquare n s.yMat → ∃ t, step s = .ok (next s, t) ∧
      StateOwn lap n cfg.prior dt (next s) := by
    rintro s ⟨⟨y, hs⟩, hsq⟩
    obtain ⟨s', t, y', h6, h7⟩ := eivStep_total h hl hsp hxW hzW hex htot hdt hA hs hsq
    have hn : next s = s' := by
      show (match step s with | .ok q => q.1 | .error _ => s) = s'
      rw [hstepd, h6]
    refine ⟨t, by rw [hn]; exact h6, ?_⟩
    rw [hn]
    obtain ⟨y2, hy2, hy2m⟩ := eivStep_own h hex hs h6
    have hp := params_of_toMatrix lap n hdt hy2.1 hy2m
    exact ⟨by rw [hp]; exact hy2, by rw [hp]; exact hy2m⟩
  have hown : ∀ s, StateOwn lap n cfg.prior dt s → (∃ y, StateAt cfg.prior N y s) ∧ Spec.IsSquare n s.yMat :=
    fun s hs => ⟨⟨_, hs.1⟩, (toMatrix_admissible lap n hdt hs.2).1⟩
  have hs0 : (∃ y, StateAt cfg.prior N y s) ∧ Spec.IsSquare n s.yMat := ⟨⟨y0, hst⟩, by rw [hsy]; exact h.init⟩
  have hiter : ∀ k, StateOwn lap n cfg.prior dt (next^[k + 1] s) := by
    intro k
    induction k with
    | zero => exact (hnext s hs0).choose_spec.2
    | succ k ih =>
      rw [Function.iterate_succ_apply']
      exact (hnext _ (hown _ ih)).choose_spec.2
  -- the sequence of parameters
  let ys : ℕ → Fin N → ℝ := fun k => toVec N (Spec.params lap n (next^[k + 1] s).yMat)
  have hsteps : ∀ k, ∃ d, P.Best (ys k) d ∧ P.Next (ys k) d (ys (k + 1)) := by
    intro k
    obtain ⟨t, h1, h2⟩ := hnext _ (hown _ (hiter k))
    obtain ⟨y', d, a1, a2, a3, a4⟩ := alt_step h hl.le hxW.1 hzW hex hdt hA (hiter k).1 (hiter k).2 h1
    refine ⟨d, a3, ?_⟩
    have : ys (k + 1) = toVec N y' := by
      show toVec N (Spec.params lap n (next^[k + 1 + 1] s).yMat) = _
      rw [Function.iterate_succ_apply' next (k + 1), params_of_toMatrix lap n hdt a1.1 a2]
    rw [this]
    exact a4
  choose ds hbest hnx using hsteps
  obtain ⟨⟨B, hB⟩, hdiff, _, hacc⟩ := Alt.accumulates hgood ys ds hbest hnx
  have hmat : ∀ k, (next^[k + 1] s).yMat = parMat lap n dt (ys k) := by
    intro k
    have := (hiter k).2
    rw [parMat_ok lap n hdt (hiter k).1.1] at this
    exact (Except.ok.inj this).symm
  -- fits
  have hfit : ∀ K ta tr, eivBody solve inv { cfg with maxIter := K, absTol := ta, relTol := tr } RegObj.fresh x z (some xW)
      (some zW) yInit = finishFit RegObj.fresh (fitLoop { cfg with maxIter := K, absTol := ta, relTol := tr } step K 0 s
        RegObj.fresh.iterations) := by
    intro K ta tr
    obtain ⟨dt', A', y0', s', hdt', hA', hst', hsy', hY0', hf, _⟩ := eivSetup_ok (hK K ta tr) solve inv
    rw [hdt] at hdt'; cases hdt'
    rw [hA] at hA'; cases hA'
    have hyy : y0' = y0 := toMatrix_inj lap n hdt hst'.1 hst.1 hY0' hY0
    subst hyy
    have hss : s' = s := by
      obtain ⟨_, a1, a2⟩ := hst
      obtain ⟨_, b1, b2⟩ := hst'
      cases s; cases s'
      simp only at a1 a2 b1 b2 hsy hsy'
      subst a1 a2 b1 b2 hsy hsy'
      rfl
    subst hss
    exact hf _ _ _
  have hbound : ∃ B : ℝ, ∀ K i j, i < n → j < n → ‖((next^[K] s).yMat).get i j‖ ≤ B := by
    obtain ⟨C, hC⟩ : ∃ C : ℝ, ∀ y ∈ Metric.closedBall (0 : Fin N → ℝ) B, ∀ i j, i < n → j < n →
        ‖(parMat lap n dt y).get i j‖ ≤ C := by
      have hcomp : IsCompact (Metric.closedBall (0 : Fin N → ℝ) B) := isCompact_closedBall 0 B
      have h1 : Continuous (fun y => (fun (i j : Fin n) => (parMat lap n dt y).get i j : Fin n → Fin n → ℂ)) :=
        continuous_pi (fun i => continuous_pi (fun j => parMat_cont lap n dt i j))
      obtain ⟨C, hC⟩ := hcomp.exists_bound_of_continuousOn h1.continuousOn
      refine ⟨C, fun y hy i j hi hj => ?_⟩
      have h2 := norm_le_pi_norm (fun (i j : Fin n) => (parMat lap n dt y).get i j : Fin n → Fin n → ℂ) ⟨i, hi⟩
      have h3 := norm_le_pi_norm (fun (j : Fin n) => (parMat lap n dt y).get i j) ⟨j, hj⟩
      exact h3.trans (h2.trans (hC y hy))
    obtain ⟨C0, hC0⟩ : ∃ C : ℝ, ∀ i j, i < n → j < n → ‖yInit.get i j‖ ≤ C := by
      refine ⟨‖(fun (i j : Fin n) => yInit.get i j : Fin n → Fin n → ℂ)‖, fun i j hi hj => ?_⟩
      have h2 := norm_le_pi_norm (fun (i j : Fin n) => yInit.get i j : Fin n → Fin n → ℂ) ⟨i, hi⟩
      have h3 := norm_le_pi_norm (fun (j : Fin n) => yInit.get i j) ⟨j, hj⟩
      exact h3.trans h2
    refine ⟨max C0 C, fun K i j hi hj => ?_⟩
    cases K with
    | zero =>
      show ‖s.yMat.get i j‖ ≤ _
      rw [hsy]
      exact (hC0 i j hi hj).trans (le_max_left _ _)
    | succ K =>
      rw [hmat]
      exact (hC _ (mem_closedBall_zero_iff.2 (hB K)) i j hi hj).trans (le_max_right _ _)
  have hlimit : ∀ (φ : ℕ → ℕ) (Y : Arr2 ℂ), StrictMono φ → Spec.IsSquare n Y →
        (∀ i j, i < n → j < n → Tendsto (fun k => ((next^[φ k] s).yMat).get i j) atTop (𝓝 (Y.get i j))) →
        ∃ D, Spec.EivBalanced lap n cfg xW zW x z Y D := by
    intro φ Y hφ hsq hlim
    -- a convergent subsequence of the parameters
    have hcomp : IsCompact (Metric.closedBall (0 : Fin N → ℝ) B) := isCompact_closedBall 0 B
    obtain ⟨y', _, ψ, hψ, hy'⟩ := hcomp.tendsto_subseq (x := fun k => ys (φ (k + 1) - 1)) (fun k => mem_closedBall_zero_iff.2 (hB _))
    have hpos : ∀ k, 1 ≤ φ (k + 1) := fun k => (Nat.le_add_left 1 k).trans (hφ.id_le (k + 1))
    have hmono : StrictMono (fun k => φ (ψ k + 1) - 1) := by
      intro a b hab
      have h1 := hφ (Nat.succ_lt_succ (hψ hab))
      have h2 := hpos (ψ a)
      show φ (ψ a + 1) - 1 < φ (ψ b + 1) - 1
      have h3 : φ (ψ a + 1) < φ (ψ b + 1) := h1
      omega
    have hst' := hacc (fun k => φ (ψ k + 1) - 1) y' hmono hy'
    have hYeq : Y = parMat lap n dt y' := by
      refine Arr2.ext' hsq.1 hsq.2 (fun i j hi hj => ?_)
      rw [hsq.1] at hi
      rw [hsq.2] at hj
      have h1 : Tendsto (fun k => ((next^[φ (ψ k + 1)] s).yMat).get i j) atTop (𝓝 (Y.get i j)) :=
        (hlim i j hi hj).comp ((tendsto_add_atTop_nat 1).comp hψ.tendsto_atTop)
      have h2 : Tendsto (fun k => (parMat lap n dt (ys (φ (ψ k + 1) - 1))).get i j) atTop (𝓝 ((parMat lap n dt y').get i j)) :=
        ((parMat_cont lap n dt i j).tendsto y').comp hy'
      refine tendsto_nhds_unique h1 (h2.congr (fun k => ?_))
      rw [← hmat, Nat.sub_add_cancel (hpos _)]
    have hYm : toMatrix n dt (ofVec y') = .ok Y := by
      rw [parMat_ok lap n hdt (ofVec_length y'), toVec_ofVec, hYeq]
    refine (balanced_iff h hdt xW zW (ofVec_length y') hYm).1 ?_
    rw [toVec_ofVec]
    exact hst'
  obtain ⟨Bm, hBm⟩ := hbound
  obtain ⟨hex1, happ⟩ := approach (M := fun K => (next^[K] s).yMat) (S := fun Y => ∃ D, Spec.EivBalanced lap n cfg xW zW x z Y D)
    hBm hlimit
  refine ⟨fun K => (next^[K] s).yMat, ?_, ?_, ⟨Bm, hBm⟩, ?_, hlimit, ?_, ?_⟩
  · intro K ta tr ha hr
    rw [hfit K ta tr]
    have hl1 := fitLoop_iterate (cfg := { cfg with maxIter := K, absTol := ta, relTol := tr }) ha hr (step := step)
      (Good := fun s => (∃ y, StateAt cfg.prior N y s) ∧ Spec.IsSquare n s.yMat) (next := next) (fun s hs => by
        obtain ⟨t, h1, h2⟩ := hnext s hs
        exact ⟨t, h1, hown _ h2⟩) K 0 s hs0 RegObj.fresh.iterations rfl
    generalize hr : fitLoop { cfg with maxIter := K, absTol := ta, relTol := tr } step K 0 s RegObj.fresh.iterations = q at hl1
    obtain ⟨q1, q2⟩ := q
    simp only at hl1
    subst hl1
    refine ⟨_, rfl, rfl⟩
  · intro K ta tr res obj hobj
    rw [hfit K ta tr] at hobj
    generalize hr : fitLoop { cfg with maxIter := K, absTol := ta, relTol := tr } step K 0 s RegObj.fresh.iterations = q at hobj
    obtain ⟨rs, log'⟩ := q
    obtain ⟨run, r1, r2, r3, _, r5⟩ := fitLoop_spec _ _ K 0 s [] log' rs rfl hr
    rw [List.nil_append] at r3
    obtain ⟨g1, g2⟩ := iterate_run (Good := fun s => (∃ y, StateAt cfg.prior N y s) ∧ Spec.IsSquare n s.yMat) (next := next)
      (fun s hs => by
        obtain ⟨t, h1, h2⟩ := hnext s hs
        exact ⟨t, h1, hown _ h2⟩) run s hs0 r1
    have hlog : obj.iterations = Spec.entries 0 run := by
      cases rs <;> simp only [finishFit, Prod.mk.injEq] at hobj <;> rw [← hobj.2, ← r3]
    refine ⟨?_, ?_⟩
    · cases rs with
      | ok s' => exact (congrArg Prod.fst hobj).symm
      | error e =>
        exfalso
        obtain ⟨t, h1, _⟩ := hnext _ g1
        rw [r5.2.1] at h1
        cases h1
    · intro k e he
      rw [hlog, entries_get] at he
      cases hq : run[k]? with
      | none => rw [hq] at he; cases he
      | some q =>
        rw [hq] at he
        cases he
        exact congrArg FitState.yMat (g2 k q hq)
  · intro i j hi hj
    rw [← tendsto_add_atTop_iff_nat 1]
    have he : ∀ k, (next^[k + 1 + 1] s).yMat.get i j - (next^[k + 1] s).yMat.get i j =
        (parMat lap n dt (ys (k + 1) - ys k)).get i j := by
      intro k
      rw [hmat, hmat, parMat_sub]
    have h0 : (parMat lap n dt 0).get i j = 0 := by rw [← sub_self (0 : Fin N → ℝ), parMat_sub, sub_self]
    have h1 := ((parMat_cont lap n dt i j).tendsto 0).comp hdiff
    rw [h0] at h1
    exact h1.congr (fun k => (he k).symm)
  · obtain ⟨φ, Y, h1, h2, ⟨D, h3⟩, h4⟩ := hex1
    exact ⟨φ, Y, D, h1, h3, h4⟩
  · intro ε hε
    obtain ⟨K0, hK0⟩ := happ ε hε
    refine ⟨K0, fun K hKK => ?_⟩
    obtain ⟨Y, _, ⟨D, h3⟩, h4⟩ := hK0 K hKK
    exact ⟨Y, D, h3, h4⟩

/-- the same for `fit`, which uses the voltage weights for the currents too -/
theorem C148_fit {lap : Bool} {n : Nat} {cfg : RegConfig} {x z yInit : Arr2 ℂ} (h : FitSetup lap n cfg x z yInit)
    (hl : 0 < cfg.lam) (ho : ∀ t ∈ Spec.terms cfg.prior, t.order = 1 ∨ t.order = 2)
    (hsp : Spec.Spanning cfg.prior (nReal lap n)) {xW zW : Arr2 ℝ} (hxW : Spec.PosDef (2 * (n * x.r)) xW)
    {solve : Solver} (hex : Spec.Exact solve) (htot : Spec.Total solve) (inv : Arr2 ℂ → Except PyErr (Arr2 ℂ)) :
    ∃ M : ℕ → Arr2 ℂ,
      (∀ K ta tr, ta ≤ 0 → tr ≤ 0 → ∃ obj, eivFit solve inv { cfg with maxIter := K, absTol := ta, relTol := tr }
        RegObj.fresh x z (some xW) (some zW) yInit = (.ok (), obj) ∧ obj.admittance = some (M K)) ∧
      (∀ i j, i < n → j < n → Tendsto (fun K => (M (K + 1)).get i j - (M K).get i j) atTop (𝓝 0)) ∧
      (∃ (φ : ℕ → ℕ) (Y D : Arr2 ℂ), StrictMono φ ∧ Spec.EivBalanced lap n cfg xW xW x z Y D ∧
        ∀ i j, i < n → j < n → Tendsto (fun k => (M (φ k)).get i j) atTop (𝓝 (Y.get i j))) ∧
      ∀ ε : ℝ, 0 < ε → ∃ K0, ∀ K, K0 ≤ K → ∃ Y D, Spec.EivBalanced lap n cfg xW xW x z Y D ∧
        ∀ i j, i < n → j < n → ‖(M K).get i j - Y.get i j‖ < ε := by
  obtain ⟨M, h1, _, _, h2, _, h3, h4⟩ := C148_limits h hl ho hsp hxW hxW.1 hex htot inv
  exact ⟨M, h1, h2, h3, h4⟩

/-- the hypotheses are met with one node and one sample -/
example (c y : ℂ) : FitSetup false 1 (oneCfg 1) (scalarArr 1) (scalarArr c) (scalarArr y) ∧ 0 < (oneCfg 1).lam ∧
    (∀ t ∈ Spec.terms (oneCfg 1).prior, t.order = 1 ∨ t.order = 2) ∧ Spec.Spanning (oneCfg 1).prior (nReal false 1) ∧
    Spec.PosDef (2 * (1 * (scalarArr 1).r)) (scaledEye 2 3) :=
  ⟨one_setup 1 c y, by norm_num [oneCfg], by simp [oneCfg, onePrior, Spec.terms], one_spanning, scaledEye_posDef 2 (by norm_num)⟩

/-! ### C149 fixed points -/

/-- one weighted iteration compared with the matrix it starts from: it stays exactly at the balanced matrices, and otherwise
improves the objective strictly, for the correction that is best for the old matrix -/
def Spec.EivSettles (lap : Bool) (n : Nat) (cfg : RegConfig) (xW zW : Arr2 ℝ) (x z Y Y' : Arr2 ℂ) : Prop :=
  (Y' = Y ↔ ∃ D, Spec.EivBalanced lap n cfg xW zW x z Y D) ∧
  ((¬ ∃ D, Spec.EivBalanced lap n cfg xW zW x z Y D) → ∃ D, D.r = x.r ∧ D.c = n ∧
    (∀ D', D'.r = x.r → D'.c = n → Spec.eivCost xW zW x z Y D ≤ Spec.eivCost xW zW x z Y D') ∧
    Spec.eivObjective lap n cfg xW zW x z Y' D < Spec.eivObjective lap n cfg xW zW x z Y D)

theorem eivSettles_step {lap : Bool} {n : Nat} {cfg : RegConfig} {x z yInit : Arr2 ℂ} (h : FitSetup lap n cfg x z yInit)
    (hl : 0 < cfg.lam) (ho : ∀ t ∈ Spec.terms cfg.prior, t.order = 1 ∨ t.order = 2)
    (hsp : Spec.Spanning cfg.prior (nReal lap n)) {xW zW : Arr2 ℝ} (hxW : Spec.PosDef (2 * (n * x.r)) xW)
    (hzW : Spec.IsWeight (2 * (n * x.r)) zW) {solve : Solver} (hex : Spec.Exact solve) {dt : Arr2 ℂ}
    (hdt : dtMatrix ℂ lap n = .ok dt) {A : Arr2 ℝ} (hA : regressionMatrix n x dt = .ok A) {y : List ℝ} {s s' : FitState}
    {t : ℝ} (hs : StateAt cfg.prior (nReal lap n) y s) (hY : toMatrix n dt y = .ok s.yMat)
    (hstep : eivWeightedStep solve cfg x dt A (Spec.stackReal x) (Spec.stackReal z) xW zW s = .ok (s', t)) :
    Spec.EivSettles lap n cfg xW zW x z s.yMat s'.yMat := by
  obtain ⟨y', d, hs', hY', hb, hn⟩ := alt_step h hl.le hxW.1 hzW hex hdt hA hs hY hstep
  have hgood := alt_good (lap := lap) (n := n) (dt := dt) hl h.alpha ho hsp h.zs hxW hzW
  have hfix := Alt.fixed_iff hgood hb hn
  rw [balanced_iff h hdt xW zW hs.1 hY] at hfix
  have hsame : s'.yMat = s.yMat ↔ toVec (nReal lap n) y' = toVec (nReal lap n) y := by
    constructor
    · intro he
      rw [he] at hY'
      rw [toMatrix_inj lap n hdt hs'.1 hs.1 hY' hY]
    · intro he
      rw [toVec_inj hs'.1 hs.1 he, hY] at hY'
      exact (Except.ok.inj hY').symm
  refine ⟨by rw [hsame]; exact hfix, fun hno => ?_⟩
  have hd : d = fun (i : Fin x.r) (j : Fin n) => (arrOf d).get i j := by
    funext i j
    exact (arrOf_get d i.2 j.2).symm
  refine ⟨arrOf d, rfl, rfl, fun D' hr hc => ?_, ?_⟩
  · have h1 := hb (fun i j => D'.get i j)
    rw [hd, (alt_obj h hdt xW zW hs.1 hY ⟨hr, hc⟩).2, (alt_obj h hdt xW zW hs.1 hY (D := arrOf d) ⟨rfl, rfl⟩).2] at h1
    exact h1
  · have h1 := Alt.step_strict hgood hn (fun he => hno (hfix.1 he))
    rw [hd, (alt_obj h hdt xW zW hs.1 hY (D := arrOf d) ⟨rfl, rfl⟩).1,
      (alt_obj h hdt xW zW hs'.1 hY' (D := arrOf d) ⟨rfl, rfl⟩).1] at h1
    exact h1

theorem eivSettles_run {lap : Bool} {n : Nat} {cfg : RegConfig} {x z yInit : Arr2 ℂ} (h : FitSetup lap n cfg x z yInit)
    (hl : 0 < cfg.lam) (ho : ∀ t ∈ Spec.terms cfg.prior, t.order = 1 ∨ t.order = 2)
    (hsp : Spec.Spanning cfg.prior (nReal lap n)) {xW zW : Arr2 ℝ} (hxW : Spec.PosDef (2 * (n * x.r)) xW)
    (hzW : Spec.IsWeight (2 * (n * x.r)) zW) {solve : Solver} (hex : Spec.Exact solve) {dt : Arr2 ℂ}
    (hdt : dtMatrix ℂ lap n = .ok dt) {A : Arr2 ℝ} (hA : regressionMatrix n x dt = .ok A) (run : List (FitState × ℝ))
    (s : FitState) (y : List ℝ) (hs : StateAt cfg.prior (nReal lap n) y s)
    (hrun : Spec.IsRun (eivWeightedStep solve cfg x dt A (Spec.stackReal x) (Spec.stackReal z) xW zW) s run) :
    (toMatrix n dt y = .ok s.yMat → ∀ e, run[0]? = some e → Spec.EivSettles lap n cfg xW zW x z s.yMat e.1.yMat) ∧
    ∀ i e e', run[i]? = some e → run[i + 1]? = some e' → Spec.EivSettles lap n cfg xW zW x z e.1.yMat e'.1.yMat := by
  induction run generalizing s y with
  | nil => exact ⟨by simp, by simp⟩
  | cons q l ih =>
    obtain ⟨h1, h2⟩ := hrun
    obtain ⟨y', hs', hY'⟩ := eivStep_own h hex (s' := q.1) (t := q.2) hs h1
    obtain ⟨i1, i2⟩ := ih q.1 y' hs' h2
    refine ⟨?_, ?_⟩
    · intro hY e he
      simp at he
      subst he
      exact eivSettles_step h hl ho hsp hxW hzW hex hdt hA hs hY h1
    · intro i e e' he he'
      cases i with
      | zero =>
        simp only [List.getElem?_cons_zero, Option.some.injEq] at he
        subst he
        simp only [List.getElem?_cons_succ] at he'
        exact i1 hY' e' he'
      | succ i =>
        simp only [List.getElem?_cons_succ] at he he'
        exact i2 i e e' he he'

/-- C149: an iteration of the weighted fit reproduces the matrix it starts from exactly when that matrix is balanced, and otherwise
improves the objective strictly, for every iteration after the first and, when the initial guess is admissible, for the first. -/
theorem C149_fixed_points {lap : Bool} {n : Nat} {cfg : RegConfig} {x z yInit : Arr2 ℂ} (h : FitSetup lap n cfg x z yInit)
    (hl : 0 < cfg.lam) (ho : ∀ t ∈ Spec.terms cfg.prior, t.order = 1 ∨ t.order = 2)
    (hsp : Spec.Spanning cfg.prior (nReal lap n)) {xW zW : Arr2 ℝ} (hxW : Spec.PosDef (2 * (n * x.r)) xW)
    (hzW : Spec.IsWeight (2 * (n * x.r)) zW) {solve : Solver} (hex : Spec.Exact solve)
    {inv : Arr2 ℂ → Except PyErr (Arr2 ℂ)} {res : Except PyErr Unit} {obj : RegObj}
    (hfit : eivBody solve inv cfg RegObj.fresh x z (some xW) (some zW) yInit = (res, obj)) :
    (Spec.projection lap n yInit = yInit → ∀ e, obj.iterations[0]? = some e →
      Spec.EivSettles lap n cfg xW zW x z yInit e.params) ∧
    ∀ i e e', obj.iterations[i]? = some e → obj.iterations[i + 1]? = some e' →
      Spec.EivSettles lap n cfg xW zW x z e.params e'.params := by
  obtain ⟨dt, A, y0, s, run, hdt, hA, hst, hsy, hY0, hrun, hlog⟩ := eiv_log h hfit
  obtain ⟨d1, d2⟩ := eivSettles_run h hl ho hsp hxW hzW hex hdt hA run s y0 hst hrun
  rw [hlog]
  refine ⟨?_, ?_⟩
  · intro hp e he
    rw [entries_get] at he
    cases hq : run[0]? with
    | none => rw [hq] at he; cases he
    | some q =>
      rw [hq] at he; cases he
      have := d1 (by rw [hY0, hp, hsy]) q hq
      rwa [hsy] at this
  · intro i e e' he he'
    rw [entries_get] at he he'
    cases hq : run[i]? with
    | none => rw [hq] at he; cases he
    | some q =>
      cases hq' : run[i + 1]? with
      | none => rw [hq'] at he'; cases he'
      | some q' =>
        rw [hq] at he; rw [hq'] at he'
        cases he; cases he'
        exact d2 i q q' hq hq'

theorem projection_admissible (lap : Bool) (n : Nat) {Y : Arr2 ℂ} (hsq : Spec.IsSquare n Y) (had : Spec.Admissible lap Y) :
    Spec.projection lap n Y = Y := by
  refine Arr2.ext' hsq.1.symm hsq.2.symm (fun i j hi hj => ?_)
  have hsym : ∀ a b, (Y.get a b + Y.get b a) / 2 = Y.get a b := by
    intro a b
    rw [had.1.2 b a]
    ring
  have hi : i < n := hi
  have hj : j < n := hj
  unfold Spec.projection
  rw [Arr2.ofFn_get _ hi hj]
  simp only [hsym]
  split
  · rename_i hc
    obtain ⟨hlap, rfl⟩ := hc
    have h1 := had.2 hlap i (by rw [hsq.1]; exact hi)
    rw [hsq.2, ← Finset.add_sum_erase _ _ (Finset.mem_range.2 hi)] at h1
    exact (eq_neg_of_add_eq_zero_left h1).symm
  · rfl

/-- an estimate started at a balanced matrix returns it, whatever the number of iterations and the tolerances -/
theorem C149_stays {lap : Bool} {n : Nat} {cfg : RegConfig} {x z yInit : Arr2 ℂ} (h : FitSetup lap n cfg x z yInit)
    (hl : 0 < cfg.lam) (ho : ∀ t ∈ Spec.terms cfg.prior, t.order = 1 ∨ t.order = 2)
    (hsp : Spec.Spanning cfg.prior (nReal lap n)) {xW zW : Arr2 ℝ} (hxW : Spec.PosDef (2 * (n * x.r)) xW)
    (hzW : Spec.IsWeight (2 * (n * x.r)) zW) {solve : Solver} (hex : Spec.Exact solve)
    (hbal : ∃ D, Spec.EivBalanced lap n cfg xW zW x z yInit D)
    {inv : Arr2 ℂ → Except PyErr (Arr2 ℂ)} {res : Except PyErr Unit} {obj : RegObj}
    (hfit : eivBody solve inv cfg RegObj.fresh x z (some xW) (some zW) yInit = (res, obj)) :
    ∀ (i : Nat) (e : IterationStatus), obj.iterations[i]? = some e → e.params = yInit := by
  obtain ⟨h1, h2⟩ := C149_fixed_points h hl ho hsp hxW hzW hex hfit
  have hp : Spec.projection lap n yInit = yInit := by
    obtain ⟨D, hsq, had, _⟩ := hbal
    exact projection_admissible lap n hsq had
  intro i
  induction i with
  | zero => exact fun e he => (h1 hp e he).1.2 hbal
  | succ i ih =>
    intro e' he'
    have hlt : i < obj.iterations.length := by
      have := (List.getElem?_eq_some_iff.1 he').1
      omega
    have he := List.getElem?_eq_getElem hlt
    have hi := ih _ he
    have := (h2 i _ e' he he').1.2 (by rw [hi]; exact hbal)
    rw [this, hi]

/-- a fit with one node and one sample can be started at a balanced matrix -/
example (c : ℂ) : ∃ Y D, FitSetup false 1 (oneCfg 1) (scalarArr 1) (scalarArr c) Y ∧
    Spec.EivBalanced false 1 (oneCfg 1) (scaledEye 2 3) (scaledEye 2 3) (scalarArr 1) (scalarArr c) Y D := by
  have h := one_setup 1 c 0
  have hw : Spec.PosDef (2 * (1 * (scalarArr 1).r)) (scaledEye 2 3) := scaledEye_posDef 2 (by norm_num)
  obtain ⟨_, _, _, _, _, _, ⟨_, Y, D, _, hb, _⟩, _⟩ := C148_limits h (by norm_num [oneCfg])
    (by simp [oneCfg, onePrior, Spec.terms]) one_spanning hw hw.1 exactSolve_exact exactSolve_total (fun a => .ok a)
  exact ⟨Y, D, ⟨h.dt, h.e, h.xc, h.zs, hb.1, h.prior, h.alpha⟩, hb⟩

end
end Verif
