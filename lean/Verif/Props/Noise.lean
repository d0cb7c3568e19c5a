/-
C68, C69: resampling, block averaging and the noise functions with zero standard deviation.
-/
import Verif.Model.Noise
import Verif.Lemmas.ToMat
import Verif.Spec.Matrix
import Verif.Spec.Noise
import Mathlib.Data.Complex.BigOperators
import Mathlib.Data.List.GetD
import Mathlib.Tactic.LinearCombination
import Mathlib.Analysis.Convex.Combination

namespace Verif
open Finset Matrix
noncomputable section

namespace Spec

/-- abscissae in increasing order, at least two, covering the new ones -/
structure Grid (old new : List ℝ) : Prop where
  two : 2 ≤ old.length
  sorted : old.Pairwise (· < ·)
  inRange : ∀ v ∈ new, old.getD 0 0 ≤ v ∧ v ≤ old.getD (old.length - 1) 0

/-- `w` is the value at `v` of the polygon through the points `(old[k], y[k])` -/
def OnPolygon (old : List ℝ) (y : Nat → ℂ) (v : ℝ) (w : ℂ) : Prop :=
  ∃ (k : Nat) (θ : ℝ), k + 1 < old.length ∧ 0 ≤ θ ∧ θ ≤ 1 ∧ v = (1 - θ) * old.getD k 0 + θ * old.getD (k + 1) 0 ∧
    w = ((1 - θ : ℝ) : ℂ) * y k + (θ : ℂ) * y (k + 1)

end Spec

/-! ### interpolation -/

theorem countP_sorted (old : List ℝ) (h : old.Pairwise (· < ·)) (v : ℝ) (k : Nat) (hk : k < old.length) :
    old.getD k 0 < v ↔ k < old.countP (· < v) := by
  induction old generalizing k with
  | nil => simp at hk
  | cons a l ih =>
    rw [List.pairwise_cons] at h
    cases k with
    | zero =>
      rw [List.getD_cons_zero, List.countP_cons]
      by_cases hav : a < v
      · simp [hav]
      · simp only [hav, decide_false, Bool.false_eq_true, if_false, add_zero, false_iff, not_lt, Nat.le_zero]
        rw [List.countP_eq_zero]
        intro b hb
        have := h.1 b hb
        simp only [decide_eq_true_eq, not_lt]
        linarith
    | succ k =>
      have hk' : k < l.length := by simpa using hk
      rw [List.getD_cons_succ, List.countP_cons, ih h.2 k hk']
      by_cases hav : a < v
      · simp [hav]
      · have : l.countP (· < v) = 0 := by
          rw [List.countP_eq_zero]
          intro b hb
          have := h.1 b hb
          simp only [decide_eq_true_eq, not_lt]
          linarith
        simp [hav, this]

theorem sorted_getD_lt (old : List ℝ) (h : old.Pairwise (· < ·)) {i j : Nat} (hij : i < j) (hj : j < old.length) :
    old.getD i 0 < old.getD j 0 := by
  have hi : i < old.length := by omega
  rw [List.getD_eq_getElem _ _ hi, List.getD_eq_getElem _ _ hj]
  exact (List.pairwise_iff_getElem.1 h) i j hi hj hij

theorem upperIdx_spec {old : List ℝ} (h2 : 2 ≤ old.length) (hs : old.Pairwise (· < ·)) {v : ℝ}
    (h0 : old.getD 0 0 ≤ v) (h1 : v ≤ old.getD (old.length - 1) 0) :
    1 ≤ upperIdx old v ∧ upperIdx old v < old.length ∧ old.getD (upperIdx old v - 1) 0 ≤ v ∧
      v ≤ old.getD (upperIdx old v) 0 := by
  have hc : ¬ old.length - 1 < old.countP (· < v) := by
    rw [← countP_sorted old hs v _ (by omega)]
    exact not_lt.2 h1
  unfold upperIdx
  by_cases hz : old.countP (· < v) = 0
  · rw [hz, show min (max 0 1) (old.length - 1) = 1 by omega]
    refine ⟨le_refl _, by omega, h0, ?_⟩
    have : ¬ old.getD 0 0 < v := by
      rw [countP_sorted old hs v _ (by omega)]; omega
    have := sorted_getD_lt old hs (i := 0) (j := 1) (by omega) (by omega)
    linarith
  · rw [show min (max (old.countP (· < v)) 1) (old.length - 1) = old.countP (· < v) by omega]
    refine ⟨by omega, by omega, le_of_lt ?_, ?_⟩
    · rw [countP_sorted old hs v _ (by omega)]; omega
    · rw [← not_lt, countP_sorted old hs v _ (by omega)]; omega

/-- weight of the upper neighbour -/
def interpTheta (old : List ℝ) (v : ℝ) : ℝ :=
  (v - old.getD (upperIdx old v - 1) 0) / (old.getD (upperIdx old v) 0 - old.getD (upperIdx old v - 1) 0)

/-- weight of sample `k` -/
def interpWeight (old : List ℝ) (v : ℝ) (k : Nat) : ℝ :=
  (if k = upperIdx old v then interpTheta old v else 0) + (if k = upperIdx old v - 1 then 1 - interpTheta old v else 0)

theorem theta_mem {old : List ℝ} (h2 : 2 ≤ old.length) (hs : old.Pairwise (· < ·)) {v : ℝ}
    (h0 : old.getD 0 0 ≤ v) (h1 : v ≤ old.getD (old.length - 1) 0) :
    0 ≤ interpTheta old v ∧ interpTheta old v ≤ 1 ∧ v = (1 - interpTheta old v) * old.getD (upperIdx old v - 1) 0 +
      interpTheta old v * old.getD (upperIdx old v) 0 := by
  obtain ⟨a, b, c, d⟩ := upperIdx_spec h2 hs h0 h1
  have := sorted_getD_lt old hs (i := upperIdx old v - 1) (j := upperIdx old v) (by omega) b
  have hpos : 0 < old.getD (upperIdx old v) 0 - old.getD (upperIdx old v - 1) 0 := by linarith
  refine ⟨div_nonneg (by linarith) hpos.le, (div_le_one hpos).2 (by linarith), ?_⟩
  have : interpTheta old v * (old.getD (upperIdx old v) 0 - old.getD (upperIdx old v - 1) 0) =
      v - old.getD (upperIdx old v - 1) 0 := by
    unfold interpTheta
    exact div_mul_cancel₀ _ hpos.ne'
  linear_combination -this

theorem interpAt_eq (old : List ℝ) (y : List ℂ) (v : ℝ) :
    interpAt old y v = ((1 - interpTheta old v : ℝ) : ℂ) * y.getD (upperIdx old v - 1) 0 +
      (interpTheta old v : ℂ) * y.getD (upperIdx old v) 0 := by
  have : ∀ a b t d : ℂ, (b - a) / d * t + a = (1 - t / d) * a + t / d * b := by intro a b t d; ring
  unfold interpAt interpTheta
  rw [this]
  push_cast
  rfl

theorem interpAt_sum {old : List ℝ} (h2 : 2 ≤ old.length) (hs : old.Pairwise (· < ·)) {v : ℝ}
    (h0 : old.getD 0 0 ≤ v) (h1 : v ≤ old.getD (old.length - 1) 0) (y : List ℂ) :
    interpAt old y v = ∑ k ∈ range old.length, (interpWeight old v k : ℂ) * y.getD k 0 := by
  obtain ⟨a, b, c, d⟩ := upperIdx_spec h2 hs h0 h1
  rw [interpAt_eq]
  have e : ∀ k, (interpWeight old v k : ℂ) * y.getD k 0 =
      (if k = upperIdx old v then (interpTheta old v : ℂ) * y.getD k 0 else 0) +
      (if k = upperIdx old v - 1 then ((1 - interpTheta old v : ℝ) : ℂ) * y.getD k 0 else 0) := by
    intro k
    unfold interpWeight
    split_ifs <;> push_cast <;> ring
  rw [Finset.sum_congr rfl (fun k _ => e k), Finset.sum_add_distrib, Finset.sum_ite_eq', Finset.sum_ite_eq',
    if_pos (Finset.mem_range.2 b), if_pos (Finset.mem_range.2 (by omega))]
  ring

theorem interpWeight_spec {old : List ℝ} (h2 : 2 ≤ old.length) (hs : old.Pairwise (· < ·)) {v : ℝ}
    (h0 : old.getD 0 0 ≤ v) (h1 : v ≤ old.getD (old.length - 1) 0) :
    (∀ k, 0 ≤ interpWeight old v k) ∧ ∑ k ∈ range old.length, interpWeight old v k = 1 := by
  obtain ⟨a, b, c, d⟩ := upperIdx_spec h2 hs h0 h1
  obtain ⟨t0, t1, -⟩ := theta_mem h2 hs h0 h1
  constructor
  · intro k
    unfold interpWeight
    split_ifs <;> linarith
  · unfold interpWeight
    rw [Finset.sum_add_distrib, Finset.sum_ite_eq', Finset.sum_ite_eq',
      if_pos (Finset.mem_range.2 b), if_pos (Finset.mem_range.2 (by omega))]
    ring

theorem interp1d_ok {old new : List ℝ} (h : Spec.Grid old new) {y : List ℂ} (hy : old.length = y.length) :
    interp1d old y new = .ok (new.map (interpAt old y)) := by
  unfold interp1d
  rw [if_neg (by simpa using hy), if_neg]
  rintro ⟨v, hv, h'⟩
  have := h.inRange v hv
  rcases h' with h' | h' <;> linarith

/-! ### the loop -/

theorem filter_ok (a : Arr2 ℂ) (old new : List ℝ) (f : Nat) (hf : f ≠ 0) (noise : Nat → List ℂ → Except PyErr (List ℂ))
    (tmp res : Nat → List ℂ) (h1 : ∀ i, i < a.c → interp1d old (a.col i) new = .ok (tmp i))
    (h2 : ∀ i, i < a.c → noise i (tmp i) = .ok (res i)) :
    ∃ o, filterAndResample a old new f noise = .ok o ∧ o.r = new.length / f ∧ o.c = a.c ∧
      ∀ t j, t < new.length / f → j < a.c → o.get t j = blockMean f (res j) t := by
  unfold filterAndResample
  rw [if_neg hf]
  obtain ⟨o, ho, hr, hc, hg⟩ := forRange_inv
    (fun n (s : Arr2 ℂ) => s.r = new.length / f ∧ s.c = a.c ∧
      ∀ t j, t < new.length / f → j < a.c → j < n → s.get t j = blockMean f (res j) t)
    a.c (Arr2.zeros (new.length / f) a.c) (fun filtered i => do
    let tmp ← interp1d old (a.col i) new
    let res ← noise i tmp
    .ok (Arr2.ofFn (new.length / f) a.c (fun t j => if j = i then blockMean f res t else filtered.get t j)))
    ⟨rfl, rfl, fun t j _ _ h => absurd h (by omega)⟩ (by
      intro i hi s ⟨hr, hc, hg⟩
      refine ⟨Arr2.ofFn (new.length / f) a.c (fun t j => if j = i then blockMean f (res i) t else s.get t j),
        by simp only [h1 i hi, h2 i hi, bind, Except.bind], rfl, rfl, ?_⟩
      intro t j ht hj hji
      rw [Arr2.ofFn_get _ ht hj]
      by_cases e : j = i
      · rw [if_pos e, e]
      · rw [if_neg e]; exact hg t j ht hj (by omega))
  exact ⟨o, ho, hr, hc, fun t j ht hj => hg t j ht hj hj⟩

theorem blockMean_eq (f : Nat) (x : List ℂ) (t : Nat) (h : (t + 1) * f ≤ x.length) :
    blockMean f x t = (∑ k ∈ range f, x.getD (t * f + k) 0) / f := by
  unfold blockMean
  congr 1
  have hl : ((x.drop (t * f)).take f) = (List.range f).map (fun k => x.getD (t * f + k) 0) := by
    apply List.ext_getElem
    · have : (t + 1) * f = t * f + f := by ring
      simp; omega
    · intro k h1 h2
      have hk : k < f := by simpa using h2
      have : (t + 1) * f = t * f + f := by ring
      simp only [List.getElem_take, List.getElem_drop, List.getElem_map, List.getElem_range]
      rw [List.getD_eq_getElem _ _ (by omega)]
  rw [hl, list_sum_map_range]

theorem block_le {t f n : Nat} (ht : t < n / f) : (t + 1) * f ≤ n :=
  (Nat.mul_le_mul_right f ht).trans (Nat.div_mul_le_self n f)

/-! ### C68 -/

theorem col_length (a : Arr2 ℂ) (i : Nat) : (a.col i).length = a.r := by simp [Arr2.col]

theorem col_getD (a : Arr2 ℂ) (i k : Nat) (hk : k < a.r) : (a.col i).getD k 0 = a.get k i := getD_map_range _ _ _ hk

theorem filter_noNoise {old new : List ℝ} (h : Spec.Grid old new) {f : Nat} (hf : f ≠ 0) {a : Arr2 ℂ}
    (ha : a.r = old.length) : ∃ o, filterAndResample a old new f noNoise = .ok o ∧ o.r = new.length / f ∧ o.c = a.c ∧
      ∀ t j, t < new.length / f → j < a.c →
        o.get t j = (∑ k ∈ range f, interpAt old (a.col j) (new.getD (t * f + k) 0)) / f := by
  obtain ⟨o, ho, hr, hc, hg⟩ := filter_ok a old new f hf noNoise (fun i => new.map (interpAt old (a.col i)))
    (fun i => new.map (interpAt old (a.col i)))
    (fun i hi => interp1d_ok h (by rw [col_length, ha])) (fun i hi => rfl)
  refine ⟨o, ho, hr, hc, ?_⟩
  intro t j ht hj
  have hb := block_le ht
  rw [hg t j ht hj, blockMean_eq _ _ _ (by simpa using hb)]
  congr 1
  apply Finset.sum_congr rfl
  intro k hk
  have hk := Finset.mem_range.1 hk
  have e : (t + 1) * f = t * f + f := by ring
  have hl : t * f + k < new.length := by omega
  rw [List.getD_eq_getElem _ _ (by simpa using hl), List.getElem_map, List.getD_eq_getElem _ _ hl]

/-- C68: the number of rows is the number of complete blocks, and each row is the mean over its own block of consecutive
values of the polygon through the measurements. -/
theorem C68_blocks {old new : List ℝ} (h : Spec.Grid old new) {f : Nat} (hf : f ≠ 0) {a : Arr2 ℂ}
    (ha : a.r = old.length) : ∃ o, filterAndResample a old new f noNoise = .ok o ∧ o.r = new.length / f ∧ o.c = a.c ∧
      ∀ j, j < a.c → ∃ r : Nat → ℂ, (∀ k, k < new.length → Spec.OnPolygon old (fun t => a.get t j) (new.getD k 0) (r k)) ∧
        ∀ t, t < new.length / f → o.get t j = (∑ k ∈ range f, r (t * f + k)) / f := by
  obtain ⟨o, ho, hr, hc, hg⟩ := filter_noNoise h hf ha
  refine ⟨o, ho, hr, hc, fun j hj => ⟨fun k => interpAt old (a.col j) (new.getD k 0), ?_, fun t ht => hg t j ht hj⟩⟩
  intro k hk
  have hv : new.getD k 0 ∈ new := by rw [List.getD_eq_getElem _ _ hk]; exact List.getElem_mem hk
  obtain ⟨h0, h1⟩ := h.inRange _ hv
  obtain ⟨u1, u2, -, -⟩ := upperIdx_spec h.two h.sorted h0 h1
  obtain ⟨t0, t1, t2⟩ := theta_mem h.two h.sorted h0 h1
  have hs : upperIdx old (new.getD k 0) - 1 + 1 = upperIdx old (new.getD k 0) := by omega
  refine ⟨upperIdx old (new.getD k 0) - 1, interpTheta old (new.getD k 0), by omega, t0, t1, ?_, ?_⟩
  · rw [hs]; exact t2
  · beta_reduce
    rw [hs, interpAt_eq, col_getD _ _ _ (by omega), col_getD _ _ _ (by omega)]

/-- weights of the samples in block `t` -/
def blockWeights (old new : List ℝ) (f : Nat) : Matrix (Fin (new.length / f)) (Fin old.length) ℝ :=
  fun t k => (∑ m ∈ range f, interpWeight old (new.getD (t * f + m) 0) k) / f

theorem filter_mat {old new : List ℝ} (h : Spec.Grid old new) {f : Nat} (hf : f ≠ 0) {a : Arr2 ℂ}
    (ha : a.r = old.length) : ∃ o, filterAndResample a old new f noNoise = .ok o ∧ o.r = new.length / f ∧ o.c = a.c ∧
      o.toMat (new.length / f) a.c = (blockWeights old new f).map (fun x : ℝ => (x : ℂ)) * a.toMat old.length a.c := by
  obtain ⟨o, ho, hr, hc, hg⟩ := filter_noNoise h hf ha
  refine ⟨o, ho, hr, hc, ?_⟩
  ext t j
  have hb := block_le t.2
  have e : ((t : ℕ) + 1) * f = t * f + f := by ring
  show o.get t j = _
  rw [hg t j t.2 j.2, Matrix.mul_apply]
  simp only [Matrix.map_apply, blockWeights, Arr2.toMat]
  push_cast
  simp only [div_mul_eq_mul_div, Finset.sum_mul]
  rw [← Finset.sum_div, Finset.sum_comm]
  congr 1
  apply Finset.sum_congr rfl
  intro m hm
  have hm := Finset.mem_range.1 hm
  have hv : new.getD (t * f + m) 0 ∈ new := by
    rw [List.getD_eq_getElem _ _ (by omega)]; exact List.getElem_mem _
  obtain ⟨h0, h1⟩ := h.inRange _ hv
  rw [interpAt_sum h.two h.sorted h0 h1, ← Fin.sum_univ_eq_sum_range (fun k =>
    (interpWeight old (new.getD (t * f + m) 0) k : ℂ) * (a.col j).getD k 0)]
  apply Finset.sum_congr rfl
  intro k _
  rw [col_getD _ _ _ (by rw [ha]; exact k.2)]

theorem blockWeights_spec {old new : List ℝ} (h : Spec.Grid old new) {f : Nat} (hf : f ≠ 0) (t : Fin (new.length / f)) :
    (∀ k, 0 ≤ blockWeights old new f t k) ∧ ∑ k, blockWeights old new f t k = 1 := by
  have hb := block_le t.2
  have e : ((t : ℕ) + 1) * f = t * f + f := by ring
  have hf0 : (0 : ℝ) < f := by positivity
  have hv : ∀ m, m < f → new.getD (t * f + m) 0 ∈ new := by
    intro m hm
    rw [List.getD_eq_getElem _ _ (by omega)]; exact List.getElem_mem _
  have hw : ∀ m, m < f → _ := fun m hm =>
    interpWeight_spec h.two h.sorted (h.inRange _ (hv m hm)).1 (h.inRange _ (hv m hm)).2
  constructor
  · intro k
    refine div_nonneg (Finset.sum_nonneg ?_) hf0.le
    intro m hm
    exact (hw m (Finset.mem_range.1 hm)).1 k
  · unfold blockWeights
    rw [← Finset.sum_div, Finset.sum_comm, div_eq_one_iff_eq hf0.ne']
    have : ∀ m ∈ range f, ∑ k : Fin old.length, interpWeight old (new.getD (t * f + m) 0) k = 1 := by
      intro m hm
      rw [← (hw m (Finset.mem_range.1 hm)).2, ← Fin.sum_univ_eq_sum_range (fun k => interpWeight old _ k)]
    rw [Finset.sum_congr rfl this]
    simp

/-- C68, linear with averaging weights: one matrix with nonnegative entries and unit row sums, depending on the times and
the block length only, gives the result for all data. -/
theorem C68_weights {old new : List ℝ} (h : Spec.Grid old new) {f : Nat} (hf : f ≠ 0) :
    ∃ W : Matrix (Fin (new.length / f)) (Fin old.length) ℝ, (∀ t k, 0 ≤ W t k) ∧ (∀ t, ∑ k, W t k = 1) ∧
      ∀ a : Arr2 ℂ, a.r = old.length → ∃ o, filterAndResample a old new f noNoise = .ok o ∧ o.r = new.length / f ∧
        o.c = a.c ∧ o.toMat (new.length / f) a.c = W.map (fun x : ℝ => (x : ℂ)) * a.toMat old.length a.c :=
  ⟨blockWeights old new f, fun t => (blockWeights_spec h hf t).1, fun t => (blockWeights_spec h hf t).2,
    fun _ ha => filter_mat h hf ha⟩

/-- C68, range: if all samples of a series lie in a convex set then so do the filtered ones; for a one-point set this is
the preservation of constant series. -/
theorem C68_convex {old new : List ℝ} (h : Spec.Grid old new) {f : Nat} (hf : f ≠ 0) {a : Arr2 ℂ} (ha : a.r = old.length)
    {o : Arr2 ℂ} (ho : filterAndResample a old new f noNoise = .ok o) {j : Nat} (hj : j < a.c) (K : Set ℂ)
    (hK : Convex ℝ K) (hin : ∀ t, t < a.r → a.get t j ∈ K) (t : Nat) (ht : t < o.r) : o.get t j ∈ K := by
  obtain ⟨o', ho', hr, hc, hm⟩ := filter_mat h hf ha
  rw [ho] at ho'; cases ho'
  rw [hr] at ht
  have := congrFun (congrFun hm ⟨t, ht⟩) ⟨j, hj⟩
  have e : o.get t j = ∑ k, blockWeights old new f ⟨t, ht⟩ k • a.get k j := by
    refine (show o.get t j = _ from this).trans ?_
    rw [Matrix.mul_apply]
    apply Finset.sum_congr rfl
    intro k _
    rw [Complex.real_smul]; rfl
  rw [e]
  have hw := blockWeights_spec h hf ⟨t, ht⟩
  exact hK.sum_mem (fun k _ => hw.1 k) hw.2 (fun k _ => hin k (by rw [ha]; exact k.2))

/-- C68, constants. -/
theorem C68_constant {old new : List ℝ} (h : Spec.Grid old new) {f : Nat} (hf : f ≠ 0) {a : Arr2 ℂ} (ha : a.r = old.length)
    {o : Arr2 ℂ} (ho : filterAndResample a old new f noNoise = .ok o) {j : Nat} (hj : j < a.c) (c : ℂ)
    (hin : ∀ t, t < a.r → a.get t j = c) (t : Nat) (ht : t < o.r) : o.get t j = c :=
  C68_convex h hf ha ho hj {c} (convex_singleton c) hin t ht

/-- C68: data satisfying the network equation satisfy it after filtering. -/
theorem C68_network {old new : List ℝ} (h : Spec.Grid old new) {f : Nat} (hf : f ≠ 0) {v i Y : Arr2 ℂ}
    (hv : v.r = old.length) (hvi : v.matmul Y = .ok i) :
    ∃ v' i', filterAndResample v old new f noNoise = .ok v' ∧ filterAndResample i old new f noNoise = .ok i' ∧
      v'.matmul Y = .ok i' := by
  obtain ⟨hc, ir, ic, im⟩ := Arr2.matmul_inv hvi
  obtain ⟨v', hv', vr, vc, vm⟩ := filter_mat h hf hv
  obtain ⟨i', hi', ir', ic', im'⟩ := filter_mat h hf (a := i) (by rw [ir, hv])
  refine ⟨v', i', hv', hi', ?_⟩
  obtain ⟨o, ho, or', oc, om⟩ := Arr2.matmul_mat (A := v') (B := Y) (n := Y.c) ⟨vr, vc⟩ ⟨hc.symm, rfl⟩
  rw [ho, Arr2.toMat_inj (r := new.length / f) (c := Y.c) ⟨or', oc⟩ ⟨ir', by rw [ic', ic]⟩]
  rw [ic] at im'
  rw [om, vm, im', im old.length Y.c, Matrix.mul_assoc]

/-- C68: a block length of zero, data of another length than the times, and new times out of range raise. -/
theorem C68_rejected (a : Arr2 ℂ) (old new : List ℝ) (f : Nat) (noise : Nat → List ℂ → Except PyErr (List ℂ)) :
    filterAndResample a old new 0 noise = .error .zeroDivisionError ∧
    (f ≠ 0 → 0 < a.c → (a.r ≠ old.length ∨ ∃ v ∈ new, v < old.getD 0 0 ∨ old.getD (old.length - 1) 0 < v) →
      filterAndResample a old new f noise = .error .valueError) := by
  constructor
  · unfold filterAndResample; rw [if_pos rfl]
  · intro hf hc h
    have hi : interp1d old (a.col 0) new = .error .valueError := by
      unfold interp1d
      rw [col_length]
      by_cases e : a.r = old.length
      · rw [if_neg (by simpa using e.symm), if_pos (h.resolve_left (fun h => h e))]
      · rw [if_pos (fun h => e h.symm)]
    unfold filterAndResample
    rw [if_neg hf]
    unfold forRange
    rw [show a.c = (a.c - 1) + 1 by omega, List.range_succ_eq_map, List.foldlM_cons]
    simp only [hi, bind, Except.bind]

/-! ### C69 zero noise -/

theorem polarNoisy_zero (x : ℂ) : polarNoisy x 0 0 = x := by
  unfold polarNoisy
  rw [zero_mul, add_zero, zero_mul, add_zero, mul_comm Complex.I]
  exact Complex.norm_mul_exp_arg_mul_I x

theorem normal1_zero (z : Nat → ℝ) (p n : Nat) : normal1 z p 0 n = .ok ((List.range n).map (fun _ => 0)) := by
  unfold normal1
  rw [if_neg (lt_irrefl _)]
  simp

/-- C69, one series. -/
theorem C69_series (z : Nat → ℝ) (p : Nat) (x : List ℂ) : addPolarNoise1 z p x 0 0 = .ok x := by
  simp only [addPolarNoise1, normal1_zero, bind, Except.bind]
  congr 1
  refine list_ext_getD (by simp) ?_
  intro k hk
  have hk : k < x.length := by simpa using hk
  rw [getD_map_range _ _ _ hk, getD_map_range _ _ _ hk, polarNoisy_zero]

namespace Spec
/-- standard deviations that are all zero, in a form the code accepts -/
def ZeroSd : SdArg → Prop
  | .pyFloat s => s = 0
  | .pyInt _ => False
  | .npScalar s => s = 0
  | .array ss => ss ≠ [] ∧ ∀ s ∈ ss, s = 0
end Spec

theorem noiseMatrix_zero (z : Nat → ℝ) (p : Nat) (sd : SdArg) (r c : Nat) (h : Spec.ZeroSd sd) :
    ∃ m, noiseMatrix z p sd r c = .ok m ∧ ∀ i j, i < r → j < c → m.get i j = 0 := by
  have hw : ∀ s : ℝ, s = 0 → ∃ m : Arr2 ℝ, (do
      let v ← normal1 z p s (r * c)
      (.ok (Arr2.ofFn r c (fun i j => v.getD (i * c + j) 0)) : Except PyErr (Arr2 ℝ))) = .ok m ∧
        ∀ i j, i < r → j < c → m.get i j = 0 := by
    rintro s rfl
    refine ⟨_, by simp only [normal1_zero, bind, Except.bind]; rfl, ?_⟩
    intro i j hi hj
    rw [Arr2.ofFn_get _ hi hj, getD_map_range _ _ _ (mul_add_lt hi hj)]
  match sd, h with
  | .pyFloat s, h => exact hw s h
  | .npScalar s, h => exact hw s h
  | .array ss, ⟨h1, h2⟩ =>
    unfold noiseMatrix
    simp only
    have hz : ∀ j, ss.getD j 0 = 0 := by
      intro j
      by_cases hj : j < ss.length
      · rw [List.getD_eq_getElem _ _ hj]; exact h2 _ (List.getElem_mem hj)
      · simp [List.getD_eq_getElem?_getD, List.getElem?_eq_none (not_lt.1 hj)]
    by_cases e1 : ss.length = 1
    · rw [if_pos e1]; exact hw _ (hz 0)
    · rw [if_neg e1]
      by_cases e2 : ss.length = c
      · rw [if_pos e2]
        obtain ⟨m, hm, hp⟩ := forRange_inv (fun _ (a : Arr2 ℝ) => ∀ i j, i < r → j < c → a.get i j = 0) ss.length
          (Arr2.zeros r c) (fun a j => do
            let v ← normal1 z (p + j * r) (ss.getD j 0) r
            (.ok (Arr2.ofFn r c (fun i j' => if j' = j then v.getD i 0 else a.get i j')) : Except PyErr (Arr2 ℝ)))
          (fun i j hi hj => by rw [Arr2.zeros, Arr2.ofFn_get _ hi hj]) (by
            intro k hk s hs
            refine ⟨Arr2.ofFn r c (fun i j' => if j' = k then ((List.range r).map (fun _ => (0 : ℝ))).getD i 0 else s.get i j'),
              by simp only [hz, normal1_zero, bind, Except.bind], ?_⟩
            intro i j hi hj
            rw [Arr2.ofFn_get _ hi hj]
            split
            · rw [getD_map_range _ _ _ hi]
            · exact hs i j hi hj)
        exact ⟨m, hm, hp⟩
      · rw [if_neg e2]
        match ss, h1, h2 with
        | s :: l, _, h2 => exact hw s (h2 s (by simp))

/-- C69, arrays with all accepted forms of zero standard deviations. -/
theorem C69_array (z : Nat → ℝ) (p : Nat) (x : Arr2 ℂ) (sdm sdp : SdArg) (hm : Spec.ZeroSd sdm) (hp : Spec.ZeroSd sdp) :
    addPolarNoise z p x sdm sdp = .ok x := by
  obtain ⟨m, h1, h2⟩ := noiseMatrix_zero z p sdm x.r x.c hm
  obtain ⟨q, h3, h4⟩ := noiseMatrix_zero z (p + x.r * x.c) sdp x.r x.c hp
  simp only [addPolarNoise, h1, h3, bind, Except.bind]
  congr 1
  refine Arr2.ofFn_eq rfl rfl ?_
  intro i j hi hj
  rw [h2 i j hi hj, h4 i j hi hj, polarNoisy_zero]

/-- C69, both quantities. -/
theorem C69_both (z : Nat → ℝ) (i v : Arr2 ℂ) (sdm sdp : SdArg) (hm : Spec.ZeroSd sdm) (hp : Spec.ZeroSd sdp) :
    addNoisePolarBoth z i v sdm sdp = .ok (v, i) := by
  simp only [addNoisePolarBoth, C69_array _ _ _ _ _ hm hp, bind, Except.bind]

/-- C69, Cartesian noise with zero accuracies. -/
theorem C69_cartesian (z : Nat → ℝ) (p : Nat) (x : Arr2 ℂ) :
    ∃ s t, addCartesianNoise z p x 0 0 = .ok (x, s, t) := by
  have hsd : ∀ part : ℂ → ℝ, cartesianSd part x 0 = (List.range x.c).map (fun _ => 0) := by
    intro part; simp [cartesianSd]
  have hn : ∀ q, normalCols z q ((List.range x.c).map (fun _ => (0 : ℝ))) x.r =
      .ok (Arr2.ofFn x.r x.c (fun _ _ => 0)) := by
    intro q
    unfold normalCols
    rw [if_neg (by simp)]
    congr 1
    refine Arr2.ofFn_eq rfl (by simp) ?_
    intro i j hi hj
    have hj' : j < x.c := by simpa using hj
    rw [Arr2.ofFn_get _ hi hj', getD_map_range _ _ _ hj', zero_mul]
  refine ⟨(List.range x.c).map (fun _ => 0), (List.range x.c).map (fun _ => 0), ?_⟩
  simp only [addCartesianNoise, hsd, hn, bind, Except.bind]
  refine congrArg (fun v : Arr2 ℂ => Except.ok (v, _)) ?_
  refine Arr2.ofFn_eq rfl rfl ?_
  intro i j hi hj
  rw [Arr2.ofFn_get _ hi hj]
  simp

/-- C69 in the resampling: with zero standard deviations for all series the result is the one without noise, for every
sample stream. -/
theorem C69_filter (z : Nat → ℝ) (a : Arr2 ℂ) {old new : List ℝ} (h : Spec.Grid old new) (ha : a.r = old.length) {f : Nat}
    (hf : f ≠ 0) :
    filterAndResample a old new f (polarNoise z (List.replicate a.c 0) (List.replicate a.c 0)) =
      filterAndResample a old new f noNoise := by
  have hi : ∀ i, i < a.c → interp1d old (a.col i) new = .ok (new.map (interpAt old (a.col i))) :=
    fun i hi => interp1d_ok h (by rw [col_length, ha])
  obtain ⟨o, ho, hr, hc, hg⟩ := filter_ok a old new f hf noNoise _ _ hi (fun i hi => rfl)
  obtain ⟨o', ho', hr', hc', hg'⟩ := filter_ok a old new f hf
    (polarNoise z (List.replicate a.c 0) (List.replicate a.c 0)) _ (fun i => new.map (interpAt old (a.col i))) hi (fun i hi => by
      have hs : stdAt (List.replicate a.c 0) i = .ok 0 := by
        unfold stdAt
        rw [if_pos (by simpa using hi), List.getD_eq_getElem _ _ (by simpa using hi)]
        simp
      simp only [polarNoise, hs, bind, Except.bind]
      exact C69_series _ _ _)
  rw [ho, ho']
  congr 1
  refine Arr2.ext' (A := o') (B := o) (by rw [hr, hr']) (by rw [hc, hc']) ?_
  intro t j ht hj
  rw [hg t j (by omega) (by omega), hg' t j (by omega) (by omega)]

/-- a grid with three old and five new times -/
theorem demo_grid : Spec.Grid [0, 60, 120] [0, 30, 60, 90, 120] := by
  refine ⟨by simp, by simp; norm_num, ?_⟩
  intro v hv
  simp at hv
  rcases hv with rfl | rfl | rfl | rfl | rfl <;> simp <;> norm_num

/-- hypotheses of C68 and C69 -/
example : Spec.Grid [0, 60, 120] [0, 30, 60, 90, 120] ∧ (2 : Nat) ≠ 0 ∧
    (Arr2.ofFn 3 2 (fun t j => (t : ℂ) + j)).r = [(0 : ℝ), 60, 120].length ∧
    Spec.ZeroSd (.array [0, 0]) ∧ Spec.ZeroSd (.pyFloat 0) :=
  ⟨demo_grid, by norm_num, rfl, ⟨by simp, by simp⟩, rfl⟩

end
end Verif
