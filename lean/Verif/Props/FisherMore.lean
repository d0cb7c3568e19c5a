/-
C159: further samples and the reported variances of the parameters.
-/
import Verif.Props.FisherRank

namespace Verif
open Finset Matrix
noncomputable section

/-- the data `x'` contains the samples of `x` first, with the same covariance of their currents -/
structure Spec.Extends (x : Arr2 ℂ) (zCov : Arr2 ℝ) (x' : Arr2 ℂ) (zCov' : Arr2 ℝ) : Prop where
  rows : x.r ≤ x'.r
  cols : x'.c = x.c
  data : ∀ t < x.r, ∀ j < x.c, x'.get t j = x.get t j
  cov : ∀ k < x.r, ∀ l < x.r, ∀ i < 2 * x.c, ∀ j < 2 * x.c,
    zCov'.get (i * x'.r + k) (j * x'.r + l) = zCov.get (i * x.r + k) (j * x.r + l)

/-- the voltage errors of all samples are independent and contribute the same variance `s` to the residuals -/
def Spec.SameVoltageErrors (T n : Nat) (xCov : Arr2 ℝ) (y : List ℝ) (s : ℝ) : Prop :=
  ∀ k < T, ∀ l < T, Spec.sampleCov T n xCov y k l = if k = l then s else 0

/-- the inverse of the larger of two positive semidefinite matrices has the smaller diagonal -/
theorem inverse_diag_le {m : Nat} {A B C D : Matrix (Fin m) (Fin m) ℝ} (hs : Aᵀ = A) (hA : ∀ v, 0 ≤ v ⬝ᵥ A *ᵥ v)
    (hAC : A * C = 1) (hBD : B * D = 1) (hle : ∀ v, v ⬝ᵥ A *ᵥ v ≤ v ⬝ᵥ B *ᵥ v) (a : Fin m) : D a a ≤ C a a := by
  set e : Fin m → ℝ := Pi.single a 1
  have hu : A *ᵥ (C *ᵥ e) = e := by rw [mulVec_mulVec, hAC, one_mulVec]
  have hv : B *ᵥ (D *ᵥ e) = e := by rw [mulVec_mulVec, hBD, one_mulVec]
  have cu : (C *ᵥ e) ⬝ᵥ e = C a a := by simp [e]
  have cv : (D *ᵥ e) ⬝ᵥ e = D a a := by simp [e]
  have h1 := hle (D *ᵥ e)
  rw [hv, cv] at h1
  have h2 := hA (D *ᵥ e - C *ᵥ e)
  have hx : (C *ᵥ e) ⬝ᵥ A *ᵥ (D *ᵥ e) = D a a := by
    rw [dotProduct_mulVec, ← mulVec_transpose, hs, hu, dotProduct_comm, cv]
  rw [mulVec_sub, hu, dotProduct_sub, sub_dotProduct, sub_dotProduct, hx, cv, cu] at h2
  linarith

/-- the pairs of the residual covariance for equal voltage errors -/
theorem residual_same {x : Arr2 ℂ} {xCov zCov : Arr2 ℝ} {yMat : Arr2 ℂ} (h : Spec.FisherArgs x xCov zCov yMat) {s : ℝ}
    (hs : Spec.SameVoltageErrors x.r x.c xCov (makeRealVector (vectorizeMatrix yMat)) s) {W : Arr2 ℝ}
    (hW : fisherW x xCov zCov yMat = .ok W) {j t : Nat} (hj : j < x.c) (ht : t < x.r) :
    W.get (x.c * x.r + (j * x.r + t)) (x.c * x.r + (j * x.r + t)) = s + zCov.get ((x.c + j) * x.r + t) ((x.c + j) * x.r + t) ∧
    W.get (j * x.r + t) (j * x.r + t) = s + zCov.get (j * x.r + t) (j * x.r + t) ∧
    W.get (j * x.r + t) (x.c * x.r + (j * x.r + t)) = zCov.get (j * x.r + t) ((x.c + j) * x.r + t) := by
  obtain ⟨W', hW', -, -, hg⟩ := residual_cov ⟨h.samples, h.nodes⟩ h.xShape h.zShape h.square
  obtain rfl := Except.ok.inj (hW.symm.trans hW')
  have hT := h.samples
  have hn := h.nodes
  have e : x.c * x.r + (j * x.r + t) = (x.c + j) * x.r + t := by ring
  have hj1 : j < 2 * x.c := by omega
  have hj2 : x.c + j < 2 * x.c := by omega
  rw [e, hg t _ t _ ht hj2 ht hj2, hg t _ t _ ht hj1 ht hj1, hg t _ t _ ht hj1 ht hj2, if_pos rfl, if_pos rfl]
  refine ⟨?_, ?_, ?_⟩
  · rw [hs _ (Nat.mod_lt _ hT) _ (Nat.mod_lt _ hT), if_pos rfl]
  · rw [hs _ (Nat.mod_lt _ hT) _ (Nat.mod_lt _ hT), if_pos rfl]
  · split
    · rename_i hq
      rw [hs _ (Nat.mod_lt _ hT) _ (Nat.mod_lt _ hT), if_neg, zero_add]
      intro hm
      have e1 := Nat.div_add_mod (t * (2 * x.c) + j) x.r
      have e2 := Nat.div_add_mod (t * (2 * x.c) + (x.c + j)) x.r
      rw [hq, hm, e2] at e1
      omega
    · rw [zero_add]

/-- C159, what is proved: when the voltage errors of all samples are independent and contribute the same variance to the residuals,
further samples increase none of the reported variances. Missing with respect to C159: other voltage errors (`C159_violated`). -/
theorem C159_partial {x x' : Arr2 ℂ} {xCov zCov xCov' zCov' : Arr2 ℝ} {yMat : Arr2 ℂ} (h : Spec.FisherArgs x xCov zCov yMat)
    (h' : Spec.FisherArgs x' xCov' zCov' yMat) (hX : Spec.IsWeight (2 * x.c * x.r) xCov) (hX' : Spec.IsWeight (2 * x'.c * x'.r) xCov')
    (hZ : Spec.PosDef (2 * x.c * x.r) zCov) (hZ' : Spec.PosDef (2 * x'.c * x'.r) zCov') (hext : Spec.Extends x zCov x' zCov') {s : ℝ}
    (hs : Spec.SameVoltageErrors x.r x.c xCov (makeRealVector (vectorizeMatrix yMat)) s)
    (hs' : Spec.SameVoltageErrors x'.r x'.c xCov' (makeRealVector (vectorizeMatrix yMat)) s)
    (hre : Spec.Independent Complex.re x) (him : Spec.Independent Complex.im x) {inv : Arr2 ℝ → Except PyErr (Arr2 ℝ)}
    (hinv : Spec.RealInv inv) :
    ∃ F C F' C', fisherInfo inv x (some xCov) (some zCov) yMat = .ok (F, C) ∧
      fisherInfo inv x' (some xCov') (some zCov') yMat = .ok (F', C') ∧ ∀ a < 2 * (x.c * x.c), C'.get a a ≤ C.get a a := by
  have hmore : ∀ f : ℂ → ℝ, Spec.Independent f x → Spec.Independent f x' := by
    intro f hf w hw j hj
    rw [hext.cols] at hj
    refine hf w (fun t ht => ?_) j hj
    rw [← hw t (by have := hext.rows; omega), hext.cols]
    exact Finset.sum_congr rfl fun i hi => by rw [hext.data t ht i (Finset.mem_range.1 hi)]
  obtain ⟨F, C, hF, pF, pC, hFC⟩ := C158_partial h hX hZ hre him hinv
  obtain ⟨F', C', hF', pF', pC', hFC'⟩ := C158_partial h' hX' hZ' (hmore _ hre) (hmore _ him) hinv
  refine ⟨F, C, F', C', hF, hF', fun a ha => ?_⟩
  rw [hext.cols] at pF' pC' hFC'
  obtain ⟨W, hW, hp⟩ := residual_pairs h hX hZ
  obtain ⟨W', hW', hp'⟩ := residual_pairs h' hX' hZ'
  obtain ⟨F1, hF1, -⟩ := fisherF_form x W
  obtain ⟨F2, hF2, -⟩ := fisherF_form x' W'
  have i1 : F1 = F := by
    simp only [fisherInfo, hW, hF1, bind, Except.bind] at hF
    cases hi : inv F1 with
    | error q => rw [hi] at hF; cases hF
    | ok q => rw [hi] at hF; cases hF; rfl
  have i2 : F2 = F' := by
    simp only [fisherInfo, hW', hF2, bind, Except.bind] at hF'
    cases hi : inv F2 with
    | error q => rw [hi] at hF'; cases hF'
    | ok q => rw [hi] at hF'; cases hF'; rfl
  subst i1 i2
  refine inverse_diag_le (IsWeight.mat pF.1).1 (IsWeight.mat pF.1).2 hFC hFC' (fun v => ?_) ⟨a, ha⟩
  -- the quadratic forms
  have hform : ∀ G : Arr2 ℝ, G.r = 2 * (x.c * x.c) ∧ G.c = 2 * (x.c * x.c) →
      v ⬝ᵥ G.toMat (2 * (x.c * x.c)) (2 * (x.c * x.c)) *ᵥ v =
        ∑ a ∈ range (2 * (x.c * x.c)), ∑ b ∈ range (2 * (x.c * x.c)), (List.ofFn v).getD a 0 * G.get a b * (List.ofFn v).getD b 0 := by
    intro G hG
    have := wquad_eq hG (List.ofFn v)
    rw [show toVec (2 * (x.c * x.c)) (List.ofFn v) = v by funext i; simp [toVec]] at this
    rw [← this]
    unfold Spec.wquad
    rw [hG.1, hG.2]
  rw [hform F1 ⟨pF.1.rows, pF.1.cols⟩, hform F2 ⟨pF'.1.rows, pF'.1.cols⟩]
  have q' := fisher_quad x' W' F2 hF2 (fun a => (List.ofFn v).getD a 0)
  rw [fisher_quad x W F1 hF1 (fun a => (List.ofFn v).getD a 0)]
  rw [hext.cols] at q'
  rw [q', sum_range_mul', sum_range_mul']
  refine Finset.sum_le_sum fun j hj => ?_
  have hj := Finset.mem_range.1 hj
  have hj' : j < x'.c := by rw [hext.cols]; exact hj
  have hnn : ∀ t ∈ range x'.r, ∀ α β : ℝ,
      0 ≤ (fisherWeights (x.c * x'.r) W').1.getD (j * x'.r + t) 0 * α ^ 2 +
        2 * (fisherWeights (x.c * x'.r) W').2.1.getD (j * x'.r + t) 0 * α * β +
        (fisherWeights (x.c * x'.r) W').2.2.getD (j * x'.r + t) 0 * β ^ 2 := by
    intro t ht α β
    have hpN : j * x'.r + t < x'.c * x'.r := mul_add_lt hj' (Finset.mem_range.1 ht)
    obtain ⟨q1, q2, q3⟩ := hp' _ hpN
    obtain ⟨e1, e2, e3⟩ := fisherWeights_closed _ W' hpN q1 q2 q3
    rw [← hext.cols, e1, e2, e3]
    exact (pair_term q1 q2 q3 α β).1
  refine le_trans (le_of_eq ?_) (Finset.sum_le_sum_of_subset_of_nonneg
    (Finset.range_mono hext.rows) fun t ht _ => hnn t ht _ _)
  refine Finset.sum_congr rfl fun t ht => ?_
  have ht := Finset.mem_range.1 ht
  have ht' : t < x'.r := lt_of_lt_of_le ht hext.rows
  have hpN : j * x.r + t < x.c * x.r := mul_add_lt hj ht
  have hpN' : j * x'.r + t < x'.c * x'.r := mul_add_lt hj' ht'
  obtain ⟨q1, q2, q3⟩ := hp _ hpN
  obtain ⟨q1', q2', q3'⟩ := hp' _ hpN'
  obtain ⟨e1, e2, e3⟩ := fisherWeights_closed _ W hpN q1 q2 q3
  obtain ⟨e1', e2', e3'⟩ := fisherWeights_closed _ W' hpN' q1' q2' q3'
  obtain ⟨w1, w2, w3⟩ := residual_same h hs hW hj ht
  obtain ⟨w1', w2', w3'⟩ := residual_same h' hs' hW' hj' ht'
  have c1 := hext.cov t ht t ht j (by omega) j (by omega)
  have c2 := hext.cov t ht t ht (x.c + j) (by omega) (x.c + j) (by omega)
  have c3 := hext.cov t ht t ht j (by omega) (x.c + j) (by omega)
  rw [w1, w2, w3] at e1 e2 e3
  rw [w1', w2', w3', hext.cols, c1, c2, c3] at e1' e2' e3'
  rw [e1, e2, e3, e1', e2', e3']
  have k1 : ∀ (f : ℂ → ℝ) (u : Nat → ℝ), ∑ i ∈ range x.c, f (x'.get t i) * u (j * x.c + i) =
      ∑ i ∈ range x.c, f (x.get t i) * u (j * x.c + i) := fun f u =>
    Finset.sum_congr rfl fun i hi => by rw [hext.data t ht i (Finset.mem_range.1 hi)]
  have kr := kron_apply Complex.re x (fun a => (List.ofFn v).getD a 0) ht hj
  have ki := kron_apply Complex.im x (fun a => (List.ofFn v).getD (x.c * x.c + a) 0) ht hj
  have kr' := kron_apply Complex.re x' (fun a => (List.ofFn v).getD a 0) ht' hj'
  have ki' := kron_apply Complex.im x' (fun a => (List.ofFn v).getD (x.c * x.c + a) 0) ht' hj'
  rw [hext.cols, k1 Complex.re (fun a => (List.ofFn v).getD a 0)] at kr'
  rw [hext.cols, k1 Complex.im (fun a => (List.ofFn v).getD (x.c * x.c + a) 0)] at ki'
  unfold Spec.kronRe Spec.kronIm
  rw [hext.cols, kr, ki, kr', ki']

/-! ### C159 is violated -/

/-- `T` samples of one node -/
def demoX159 (T : Nat) : Arr2 ℂ := Arr2.ofFn T 1 (fun _ _ => 1 + Complex.I)

/-- variances of the voltages: the real part of the second sample has the variance `v` -/
def demoC159 (T : Nat) (v : ℝ) : Arr2 ℝ := Arr2.ofFn (2 * T) (2 * T) (fun i j => if i = j then (if i = 1 ∧ T = 2 then v else 1) else 0)

theorem diag_posDef (m : Nat) (d : Nat → ℝ) (hd : ∀ i < m, 0 < d i) :
    Spec.PosDef m (Arr2.ofFn m m (fun i j => if i = j then d i else 0)) := by
  have hq : ∀ v : List ℝ, Spec.wquad (Arr2.ofFn m m (fun i j => if i = j then d i else 0)) v = ∑ i ∈ range m, d i * v.getD i 0 ^ 2 := by
    intro v
    unfold Spec.wquad
    refine Finset.sum_congr rfl fun i hi => ?_
    have hi : i < m := Finset.mem_range.1 hi
    rw [Finset.sum_eq_single i]
    · rw [Arr2.ofFn_get _ hi hi, if_pos rfl]; ring
    · intro j hj hne
      have hj : j < m := Finset.mem_range.1 hj
      rw [Arr2.ofFn_get _ hi hj, if_neg (Ne.symm hne)]; ring
    · intro h; exact absurd (Finset.mem_range.2 hi) h
  have hnn : ∀ v : List ℝ, ∀ i ∈ range m, 0 ≤ d i * v.getD i 0 ^ 2 := fun v i hi =>
    mul_nonneg (hd i (Finset.mem_range.1 hi)).le (sq_nonneg _)
  refine ⟨⟨rfl, rfl, fun i j => ?_, fun v => by rw [hq]; exact Finset.sum_nonneg (hnn v)⟩, fun v hv h0 => ?_⟩
  · rw [Arr2.ofFn_get', Arr2.ofFn_get']
    by_cases h : i = j
    · subst h; rfl
    · rw [if_neg h, if_neg (Ne.symm h)]; simp
  · rw [hq, Finset.sum_eq_zero_iff_of_nonneg (hnn v)] at h0
    apply List.ext_getElem (by simp [hv])
    intro k hk _
    rw [List.getElem_replicate]
    have hg : v.getD k 0 = v[k] := by rw [List.getD_eq_getElem?_getD, List.getElem?_eq_getElem hk]; rfl
    have hkm : k < m := by omega
    rw [← hg]
    have := h0 k (Finset.mem_range.2 hkm)
    rw [mul_eq_zero, or_iff_right (hd k hkm).ne', pow_eq_zero_iff two_ne_zero] at this
    exact this

theorem demoX159_independent {T : Nat} (hT : 0 < T) : Spec.Independent Complex.re (demoX159 T) ∧ Spec.Independent Complex.im (demoX159 T) := by
  have hc : (demoX159 T).c = 1 := rfl
  constructor <;>
  · intro w hw j hj
    have h0 := hw 0 hT
    rw [hc] at hj h0
    obtain rfl : j = 0 := by omega
    rw [Finset.sum_range_one, show (demoX159 T).get 0 0 = 1 + Complex.I from Arr2.ofFn_get _ hT one_pos] at h0
    simpa using h0

theorem demo159_args {T : Nat} (hT : 0 < T) (v : ℝ) : Spec.FisherArgs (demoX159 T) (demoC159 T v) (scaledEye (2 * T) 1) (Arr2.eye 1) :=
  ⟨hT, one_pos, ⟨by show 2 * T = 2 * 1 * T; ring, by show 2 * T = 2 * 1 * T; ring⟩, ⟨by show 2 * T = 2 * 1 * T; ring, by show 2 * T = 2 * 1 * T; ring⟩, ⟨rfl, rfl⟩⟩

theorem demo159_y : makeRealVector (vectorizeMatrix (Arr2.eye 1 : Arr2 ℂ)) = [1, 0] := by
  simp [makeRealVector, vectorizeMatrix, Arr2.eye, Arr2.ofFn_get', List.range_succ]

/-- the upper left entry of the covariance of the example -/
theorem demo159_cov {T : Nat} (hT : T = 1 ∨ T = 2) {v : ℝ} (hv : 0 < v) {inv : Arr2 ℝ → Except PyErr (Arr2 ℝ)} (hinv : Spec.RealInv inv) :
    ∃ F C, fisherInfo inv (demoX159 T) (some (demoC159 T v)) (some (scaledEye (2 * T) 1)) (Arr2.eye 1) = .ok (F, C) ∧
      C.get 0 0 = if T = 1 then 2 else (v + 1) / 2 := by
  have hT0 : 0 < T := by omega
  have ha := demo159_args hT0 v
  have pX : Spec.PosDef (2 * (demoX159 T).c * (demoX159 T).r) (demoC159 T v) := by
    rw [show 2 * (demoX159 T).c * (demoX159 T).r = 2 * T by show 2 * 1 * T = _; ring]
    exact diag_posDef (2 * T) (fun i => if i = 1 ∧ T = 2 then v else 1) fun i _ => by split <;> [exact hv; exact one_pos]
  have pZ : Spec.PosDef (2 * (demoX159 T).c * (demoX159 T).r) (scaledEye (2 * T) 1) := by
    rw [show 2 * (demoX159 T).c * (demoX159 T).r = 2 * T by show 2 * 1 * T = _; ring]
    exact scaledEye_posDef _ one_pos
  obtain ⟨F, C, hF, -, -, hFC⟩ := C158_partial ha pX.1 pZ (demoX159_independent hT0).1 (demoX159_independent hT0).2 hinv
  refine ⟨F, C, hF, ?_⟩
  obtain ⟨W, hW, hp⟩ := residual_pairs ha pX.1 pZ
  obtain ⟨F1, hF1, -, -, hg⟩ := fisherF_form (demoX159 T) W
  have i1 : F1 = F := by
    simp only [fisherInfo, hW, hF1, bind, Except.bind] at hF
    cases hi : inv F1 with
    | error q => rw [hi] at hF; cases hF
    | ok q => rw [hi] at hF; cases hF; rfl
  subst i1
  obtain ⟨W', hW', -, -, hr⟩ := residual_cov ⟨ha.samples, ha.nodes⟩ ha.xShape ha.zShape ha.square
  obtain rfl := Except.ok.inj (hW.symm.trans hW')
  have hc : (demoX159 T).c = 1 := rfl
  have hrr : (demoX159 T).r = T := rfl
  have hFC' : F1.toMat 2 2 * C.toMat 2 2 = 1 := hFC
  have key := congrFun (congrFun hFC' 0) 0
  rw [Matrix.mul_apply, Fin.sum_univ_two] at key
  have key' : F1.get 0 0 * C.get 0 0 + F1.get 0 1 * C.get 1 0 = 1 := key
  have hg' := hg 0 0 (by rw [hc]; decide) (by rw [hc]; decide)
  have g1 : F1.get 0 0 = ∑ p ∈ range (1 * T), Spec.kronRe (demoX159 T) p 0 * (fisherWeights (1 * T) W).1.getD p 0 * Spec.kronRe (demoX159 T) p 0 :=
    hg'.1
  have g2 : F1.get 0 1 = ∑ p ∈ range (1 * T), Spec.kronRe (demoX159 T) p 0 * (fisherWeights (1 * T) W).2.1.getD p 0 * Spec.kronIm (demoX159 T) p 0 :=
    hg'.2.1
  replace hp : ∀ p < 1 * T, _ := hp
  replace hr : ∀ k ii l jj, k < T → ii < 2 * 1 → l < T → jj < 2 * 1 → W.get (ii * T + k) (jj * T + l) =
      (if (k * (2 * 1) + ii) / T = (l * (2 * 1) + jj) / T then
        Spec.sampleCov T 1 (demoC159 T v) [1, 0] ((k * (2 * 1) + ii) % T) ((l * (2 * 1) + jj) % T) else 0) +
      (scaledEye (2 * T) 1).get (ii * T + k) (jj * T + l) := by rw [← demo159_y]; exact hr
  have hs : ∀ k < T, ∀ l < T, Spec.sampleCov T 1 (demoC159 T v) [1, 0] k l = if k = l then (if k = 1 ∧ T = 2 then v else 1) else 0 := by
    intro k hk l hl
    unfold Spec.sampleCov
    have := Arr2.ofFn_get (fun i j => if i = j then (if i = 1 ∧ T = 2 then v else 1) else 0) (show k < 2 * T by omega) (show l < 2 * T by omega)
    simp [Finset.sum_range_succ, demoC159, this]
  have gx : ∀ t < T, Spec.kronRe (demoX159 T) t 0 = 1 ∧ Spec.kronIm (demoX159 T) t 0 = 1 := fun t ht => by
    have e : (demoX159 T).get t 0 = 1 + Complex.I := Arr2.ofFn_get _ ht one_pos
    unfold Spec.kronRe Spec.kronIm
    rw [hc, hrr, Nat.div_eq_of_lt ht, Nat.mod_eq_of_lt ht]
    simp [e]
  have hz : ∀ i < 2 * T, ∀ j < 2 * T, (scaledEye (2 * T) 1).get i j = if i = j then 1 else 0 := fun i hi j hj => Arr2.ofFn_get _ hi hj
  rcases hT with rfl | rfl
  · have w1 := hr 0 1 0 1 (by decide) (by decide) (by decide) (by decide)
    have w2 := hr 0 0 0 1 (by decide) (by decide) (by decide) (by decide)
    have w3 := hr 0 0 0 0 (by decide) (by decide) (by decide) (by decide)
    rw [hs _ (Nat.mod_lt _ one_pos) _ (Nat.mod_lt _ one_pos), hz _ (by decide) _ (by decide)] at w1 w2 w3
    norm_num at w1 w2 w3
    obtain ⟨q1, q2, q3⟩ := hp 0 (by decide)
    obtain ⟨e1, e2, e3⟩ := fisherWeights_closed (1 * 1) W (p := 0) (by decide) q1 q2 q3
    norm_num [w1, w2, w3] at e1 e2
    rw [show 1 * 1 = 1 from rfl, Finset.sum_range_one, (gx 0 (by decide)).1] at g1 g2
    norm_num [e1, e2] at g1 g2
    rw [g1, g2] at key'
    rw [if_pos rfl]
    linarith
  · have w : ∀ k < 2, W.get (1 * 2 + k) (1 * 2 + k) = v + 1 ∧ W.get k (1 * 2 + k) = 0 ∧ W.get k k = 2 := by
      intro k hk
      have w1 := hr k 1 k 1 hk (by decide) hk (by decide)
      have w2 := hr k 0 k 1 hk (by decide) hk (by decide)
      have w3 := hr k 0 k 0 hk (by decide) hk (by decide)
      rw [hs _ (Nat.mod_lt _ two_pos) _ (Nat.mod_lt _ two_pos), hz _ (by omega) _ (by omega)] at w1 w2 w3
      interval_cases k <;> norm_num at w1 w2 w3 ⊢ <;> exact ⟨w1, w2, w3⟩
    have e : ∀ k < 2, (fisherWeights (1 * 2) W).1.getD k 0 = 1 / (v + 1) ∧ (fisherWeights (1 * 2) W).2.1.getD k 0 = 0 := by
      intro k hk
      obtain ⟨q1, q2, q3⟩ := hp k hk
      obtain ⟨e1, e2, -⟩ := fisherWeights_closed (1 * 2) W hk q1 q2 q3
      obtain ⟨w1, w2, w3⟩ := w k hk
      rw [e1, e2, w1, w2, w3]
      have : v + 1 ≠ 0 := by positivity
      constructor
      · field_simp
        ring
      · simp
    have g1' : F1.get 0 0 = 1 / (v + 1) + 1 / (v + 1) := by
      rw [g1, Finset.sum_range_succ, Finset.sum_range_one, (gx 0 (by decide)).1, (gx 1 (by decide)).1, (e 0 (by decide)).1,
        (e 1 (by decide)).1]
      ring
    have g2' : F1.get 0 1 = 0 := by
      rw [g2, Finset.sum_range_succ, Finset.sum_range_one, (e 0 (by decide)).2, (e 1 (by decide)).2]
      ring
    rw [g1', g2'] at key'
    rw [if_neg (by decide)]
    have : v + 1 ≠ 0 := by positivity
    field_simp at key' ⊢
    linarith

/-- C159 is violated: the covariances of the samples are exchanged (`C42_samples_violated`), so that a second sample with a less
precise voltage replaces a variance of the first and increases the reported variance of a parameter -/
theorem C159_violated : ∃ (x x' : Arr2 ℂ) (xCov zCov xCov' zCov' : Arr2 ℝ) (yMat : Arr2 ℂ), Spec.FisherArgs x xCov zCov yMat ∧
    Spec.FisherArgs x' xCov' zCov' yMat ∧ Spec.PosDef (2 * x.c * x.r) xCov ∧ Spec.PosDef (2 * x'.c * x'.r) xCov' ∧
    Spec.PosDef (2 * x.c * x.r) zCov ∧ Spec.PosDef (2 * x'.c * x'.r) zCov' ∧ Spec.Extends x zCov x' zCov' ∧
    Spec.Extends x xCov x' xCov' ∧ Spec.Independent Complex.re x ∧ Spec.Independent Complex.im x ∧ ∀ {inv}, Spec.RealInv inv →
      ∃ F C F' C', fisherInfo inv x (some xCov) (some zCov) yMat = .ok (F, C) ∧
        fisherInfo inv x' (some xCov') (some zCov') yMat = .ok (F', C') ∧ C.get 0 0 < C'.get 0 0 := by
  have pX : ∀ T, Spec.PosDef (2 * (demoX159 T).c * (demoX159 T).r) (demoC159 T 100) := fun T => by
    rw [show 2 * (demoX159 T).c * (demoX159 T).r = 2 * T by show 2 * 1 * T = _; ring]
    exact diag_posDef (2 * T) (fun i => if i = 1 ∧ T = 2 then 100 else 1) fun i _ => by split <;> norm_num
  have pZ : ∀ T, Spec.PosDef (2 * (demoX159 T).c * (demoX159 T).r) (scaledEye (2 * T) 1) := fun T => by
    rw [show 2 * (demoX159 T).c * (demoX159 T).r = 2 * T by show 2 * 1 * T = _; ring]
    exact scaledEye_posDef _ one_pos
  have hd : ∀ t < 1, ∀ j < 1, (demoX159 2).get t j = (demoX159 1).get t j := fun t ht j hj => by
    unfold demoX159
    rw [Arr2.ofFn_get _ (by omega) hj, Arr2.ofFn_get _ ht hj]
  have e1 : Spec.Extends (demoX159 1) (scaledEye (2 * 1) 1) (demoX159 2) (scaledEye (2 * 2) 1) := by
    refine ⟨by decide, rfl, hd, fun k hk l hl i hi j hj => ?_⟩
    obtain rfl : k = 0 := Nat.lt_one_iff.1 hk
    obtain rfl : l = 0 := Nat.lt_one_iff.1 hl
    show (scaledEye (2 * 2) 1).get (i * 2 + 0) (j * 2 + 0) = (scaledEye (2 * 1) 1).get (i * 1 + 0) (j * 1 + 0)
    replace hi : i < 2 := hi
    replace hj : j < 2 := hj
    interval_cases i <;> interval_cases j <;> simp [scaledEye, Arr2.ofFn_get']
  have e2 : Spec.Extends (demoX159 1) (demoC159 1 100) (demoX159 2) (demoC159 2 100) := by
    refine ⟨by decide, rfl, hd, fun k hk l hl i hi j hj => ?_⟩
    obtain rfl : k = 0 := Nat.lt_one_iff.1 hk
    obtain rfl : l = 0 := Nat.lt_one_iff.1 hl
    show (demoC159 2 100).get (i * 2 + 0) (j * 2 + 0) = (demoC159 1 100).get (i * 1 + 0) (j * 1 + 0)
    replace hi : i < 2 := hi
    replace hj : j < 2 := hj
    interval_cases i <;> interval_cases j <;> simp [demoC159, Arr2.ofFn_get']
  refine ⟨demoX159 1, demoX159 2, demoC159 1 100, scaledEye (2 * 1) 1, demoC159 2 100, scaledEye (2 * 2) 1, Arr2.eye 1,
    demo159_args one_pos _, demo159_args (by decide) _, pX 1, pX 2, pZ 1, pZ 2, e1, e2, (demoX159_independent one_pos).1,
    (demoX159_independent one_pos).2, fun {inv} hinv => ?_⟩
  obtain ⟨F, C, h1, h2⟩ := demo159_cov (Or.inl rfl) (v := 100) (by norm_num) hinv
  obtain ⟨F', C', h1', h2'⟩ := demo159_cov (Or.inr rfl) (v := 100) (by norm_num) hinv
  refine ⟨F, C, F', C', h1, h1', ?_⟩
  rw [h2, h2', if_pos rfl, if_neg (by decide)]
  norm_num

/-- an instance of the guard: with equal variances the second sample is no loss -/
theorem demo_C159 : ∃ F C F' C',
    fisherInfo realInv (demoX159 1) (some (demoC159 1 1)) (some (scaledEye (2 * 1) 1)) (Arr2.eye 1) = .ok (F, C) ∧
    fisherInfo realInv (demoX159 2) (some (demoC159 2 1)) (some (scaledEye (2 * 2) 1)) (Arr2.eye 1) = .ok (F', C') ∧
    ∀ a < 2, C'.get a a ≤ C.get a a := by
  have pX : ∀ T, Spec.PosDef (2 * (demoX159 T).c * (demoX159 T).r) (demoC159 T 1) := fun T => by
    rw [show 2 * (demoX159 T).c * (demoX159 T).r = 2 * T by show 2 * 1 * T = _; ring]
    exact diag_posDef (2 * T) (fun i => if i = 1 ∧ T = 2 then 1 else 1) fun i _ => by split <;> norm_num
  have pZ : ∀ T, Spec.PosDef (2 * (demoX159 T).c * (demoX159 T).r) (scaledEye (2 * T) 1) := fun T => by
    rw [show 2 * (demoX159 T).c * (demoX159 T).r = 2 * T by show 2 * 1 * T = _; ring]
    exact scaledEye_posDef _ one_pos
  have hs : ∀ T, Spec.SameVoltageErrors T 1 (demoC159 T 1) (makeRealVector (vectorizeMatrix (Arr2.eye 1))) 1 := by
    intro T k hk l hl
    rw [demo159_y]
    unfold Spec.sampleCov
    have := Arr2.ofFn_get (fun i j : Nat => if i = j then (if i = 1 ∧ T = 2 then (1 : ℝ) else 1) else 0) (show k < 2 * T by omega)
      (show l < 2 * T by omega)
    simp only [ite_self] at this
    simp [Finset.sum_range_succ, demoC159, this]
  have e1 : Spec.Extends (demoX159 1) (scaledEye (2 * 1) 1) (demoX159 2) (scaledEye (2 * 2) 1) := by
    refine ⟨by decide, rfl, fun t ht j hj => ?_, fun k hk l hl i hi j hj => ?_⟩
    · unfold demoX159
      have ht : t < 1 := ht
      have hj : j < 1 := hj
      rw [Arr2.ofFn_get _ (by omega) hj, Arr2.ofFn_get _ ht hj]
    obtain rfl : k = 0 := Nat.lt_one_iff.1 hk
    obtain rfl : l = 0 := Nat.lt_one_iff.1 hl
    show (scaledEye (2 * 2) 1).get (i * 2 + 0) (j * 2 + 0) = (scaledEye (2 * 1) 1).get (i * 1 + 0) (j * 1 + 0)
    replace hi : i < 2 := hi
    replace hj : j < 2 := hj
    interval_cases i <;> interval_cases j <;> simp [scaledEye, Arr2.ofFn_get']
  exact C159_partial (demo159_args one_pos 1) (demo159_args (by decide) 1) (pX 1).1 (pX 2).1 (pZ 1) (pZ 2) e1 (hs 1) (hs 2)
    (demoX159_independent one_pos).1 (demoX159_independent one_pos).2 realInv_inverse

end
end Verif
