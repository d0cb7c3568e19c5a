/-
C21, C22: the error metrics.
-/
import Verif.Model.ErrorMetrics
import Verif.Lemmas.ListIdx
import Mathlib.Analysis.InnerProductSpace.PiL2
import Mathlib.Tactic.Positivity
import Mathlib.Tactic.FieldSimp

namespace Verif
open Finset
noncomputable section

/-! ### auxiliary facts -/

/-- an array as a vector of the Euclidean space with one coordinate per entry -/
def toE (a : Arr2 ℂ) : EuclideanSpace ℂ (Fin a.r × Fin a.c) := WithLp.toLp 2 (fun p => a.get p.1 p.2)

theorem sum_fin_prod (r c : Nat) (f : Nat → Nat → ℝ) :
    ∑ p : Fin r × Fin c, f p.1 p.2 = ∑ i ∈ range r, ∑ j ∈ range c, f i j := by
  rw [Fintype.sum_prod_type, Finset.sum_range]
  apply Finset.sum_congr rfl
  intro i _
  rw [Finset.sum_range]

theorem normFro_eq (a : Arr2 ℂ) : normFro a = ‖toE a‖ := by
  rw [EuclideanSpace.norm_eq, normFro]
  congr 1
  exact (sum_fin_prod a.r a.c (fun i j => ‖a.get i j‖ ^ 2)).symm

theorem mem_entries (a : Arr2 ℂ) (z : ℂ) : z ∈ entries a ↔ ∃ i j, i < a.r ∧ j < a.c ∧ a.get i j = z := by
  simp only [entries, List.mem_flatMap, List.mem_range, List.mem_map]
  constructor
  · rintro ⟨i, hi, j, hj, h⟩; exact ⟨i, j, hi, hj, h⟩
  · rintro ⟨i, j, hi, hj, h⟩; exact ⟨i, hi, j, hj, h⟩

theorem foldl_max_spec (l : List ℝ) (x : ℝ) :
    (l.foldl max x ∈ x :: l) ∧ ∀ y ∈ x :: l, y ≤ l.foldl max x := by
  induction l generalizing x with
  | nil => simp
  | cons a l ih =>
    obtain ⟨h1, h2⟩ := ih (max x a)
    rw [List.foldl_cons]
    refine ⟨?_, fun y hy => ?_⟩
    · rcases List.mem_cons.1 h1 with h | h
      · rw [h]
        rcases max_choice x a with h' | h' <;> simp [h']
      · exact List.mem_cons_of_mem _ (List.mem_cons_of_mem _ h)
    · rcases List.mem_cons.1 hy with rfl | hy
      · exact (le_max_left _ a).trans (h2 _ (by simp))
      · rcases List.mem_cons.1 hy with rfl | hy
        · exact (le_max_right x _).trans (h2 _ (by simp))
        · exact h2 y (by simp [hy])

theorem npMax_spec {l : List ℝ} (hl : l ≠ []) : ∃ m, npMax l = .ok m ∧ m ∈ l ∧ ∀ y ∈ l, y ≤ m := by
  cases l with
  | nil => exact absurd rfl hl
  | cons x l => exact ⟨_, rfl, (foldl_max_spec l x).1, (foldl_max_spec l x).2⟩

/-- entry-wise difference -/
def diff (y z : Arr2 ℂ) : Arr2 ℂ := Arr2.ofFn y.r y.c (fun i j => y.get i j - z.get i j)

theorem froError_eq {y z : Arr2 ℂ} (hr : y.r = z.r) (hc : y.c = z.c) : froError y z = .ok (normFro (diff y z)) := by
  unfold froError Arr2.zipWith
  rw [if_pos ⟨hr, hc⟩]; rfl

theorem normFro_diff (y z : Arr2 ℂ) :
    normFro (diff y z) = Real.sqrt (∑ i ∈ range y.r, ∑ j ∈ range y.c, ‖y.get i j - z.get i j‖ ^ 2) := by
  unfold normFro diff
  congr 1
  apply Finset.sum_congr rfl
  intro i hi
  apply Finset.sum_congr rfl
  intro j hj
  have hi : i < y.r := Finset.mem_range.1 hi
  have hj : j < y.c := Finset.mem_range.1 hj
  rw [Arr2.ofFn_get _ hi hj]

theorem maxError_spec {y z : Arr2 ℂ} (hr : y.r = z.r) (hc : y.c = z.c) (h0 : 0 < y.r) (h1 : 0 < y.c) :
    ∃ m, maxError y z = .ok m ∧ (∃ i j, i < y.r ∧ j < y.c ∧ m = ‖y.get i j - z.get i j‖) ∧
      ∀ i j, i < y.r → j < y.c → ‖y.get i j - z.get i j‖ ≤ m := by
  have hz : Arr2.zipWith (fun a b : ℂ => a - b) y z = .ok (diff y z) := by
    unfold Arr2.zipWith; rw [if_pos ⟨hr, hc⟩]; rfl
  have hget : ∀ i j, i < y.r → j < y.c → (diff y z).get i j = y.get i j - z.get i j :=
    fun i j hi hj => Arr2.ofFn_get _ hi hj
  have hmem : ∀ i j, i < y.r → j < y.c → ‖y.get i j - z.get i j‖ ∈ (entries (diff y z)).map (fun w => ‖w‖) := by
    intro i j hi hj
    refine List.mem_map.2 ⟨_, (mem_entries _ _).2 ⟨i, j, hi, hj, rfl⟩, ?_⟩
    rw [hget i j hi hj]
  obtain ⟨m, hm, hm1, hm2⟩ := npMax_spec (List.ne_nil_of_mem (hmem 0 0 h0 h1))
  refine ⟨m, ?_, ?_, fun i j hi hj => hm2 _ (hmem i j hi hj)⟩
  · unfold maxError; rw [hz]; exact hm
  · obtain ⟨w, hw, rfl⟩ := List.mem_map.1 hm1
    obtain ⟨i, j, hi, hj, rfl⟩ := (mem_entries _ _).1 hw
    exact ⟨i, j, hi, hj, by rw [hget i j hi hj]⟩

/-! ### C21 -/

/-- C21 Frobenius: symmetric, nonnegative, zero exactly on equal matrices -/
theorem C21_fro_distance (y z : Arr2 ℂ) (hr : y.r = z.r) (hc : y.c = z.c) :
    ∃ e, froError y z = .ok e ∧ froError z y = .ok e ∧ 0 ≤ e ∧ (e = 0 ↔ y = z) := by
  refine ⟨_, froError_eq hr hc, ?_, Real.sqrt_nonneg _, ?_⟩
  · rw [froError_eq hr.symm hc.symm, normFro_diff, normFro_diff, hr, hc]
    simp only [norm_sub_rev]
  · rw [normFro_diff, Real.sqrt_eq_zero (by positivity)]
    constructor
    · intro h
      apply Arr2.ext' hr hc
      intro i j hi hj
      rw [Finset.sum_eq_zero_iff_of_nonneg (fun _ _ => by positivity)] at h
      have h1 := h i (Finset.mem_range.2 hi)
      rw [Finset.sum_eq_zero_iff_of_nonneg (fun _ _ => by positivity)] at h1
      have h2 := h1 j (Finset.mem_range.2 hj)
      exact sub_eq_zero.1 (norm_eq_zero.1 (pow_eq_zero_iff two_ne_zero |>.1 h2))
    · rintro rfl
      simp

/-- C21 Frobenius: triangle inequality -/
theorem C21_fro_triangle (x y z : Arr2 ℂ) (hr : x.r = y.r) (hc : x.c = y.c) (hr' : y.r = z.r) (hc' : y.c = z.c) :
    ∃ a b c, froError x z = .ok a ∧ froError x y = .ok b ∧ froError y z = .ok c ∧ a ≤ b + c := by
  refine ⟨_, _, _, froError_eq (hr.trans hr') (hc.trans hc'), froError_eq hr hc, froError_eq hr' hc', ?_⟩
  obtain ⟨r, c, gx, ox⟩ := x
  obtain ⟨r', c', gy, oy⟩ := y
  obtain ⟨r'', c'', gz, oz⟩ := z
  simp only at hr hc hr' hc'
  subst hr hc hr' hc'
  let E (g : Nat → Nat → ℂ) : EuclideanSpace ℂ (Fin r × Fin c) := WithLp.toLp 2 (fun p => g p.1 p.2)
  have key : ∀ (g h : Nat → Nat → ℂ), Real.sqrt (∑ i ∈ range r, ∑ j ∈ range c, ‖g i j - h i j‖ ^ 2) = ‖E g - E h‖ := by
    intro g h
    rw [EuclideanSpace.norm_eq]
    congr 1
    exact (sum_fin_prod r c (fun i j => ‖g i j - h i j‖ ^ 2)).symm
  rw [normFro_diff, normFro_diff, normFro_diff, key, key, key]
  exact norm_sub_le_norm_sub_add_norm_sub _ _ _

/-- C21 max: defined on nonempty matrices, symmetric, nonnegative, zero exactly on equal matrices -/
theorem C21_max_distance (y z : Arr2 ℂ) (hr : y.r = z.r) (hc : y.c = z.c) (h0 : 0 < y.r) (h1 : 0 < y.c) :
    ∃ e, maxError y z = .ok e ∧ maxError z y = .ok e ∧ 0 ≤ e ∧ (e = 0 ↔ y = z) := by
  obtain ⟨e, he, ⟨i, j, hi, hj, h2⟩, h3⟩ := maxError_spec hr hc h0 h1
  obtain ⟨e', he', ⟨i', j', hi', hj', h2'⟩, h3'⟩ := maxError_spec hr.symm hc.symm (hr ▸ h0) (hc ▸ h1)
  have hee : e = e' := by
    apply le_antisymm
    · rw [h2, norm_sub_rev]; exact h3' i j (hr ▸ hi) (hc ▸ hj)
    · rw [h2', norm_sub_rev]; exact h3 i' j' (hr ▸ hi') (hc ▸ hj')
  refine ⟨e, he, hee ▸ he', h2 ▸ norm_nonneg _, ?_⟩
  constructor
  · intro h
    apply Arr2.ext' hr hc
    intro a b ha hb
    have := h3 a b ha hb
    rw [h] at this
    exact sub_eq_zero.1 (norm_eq_zero.1 (le_antisymm this (norm_nonneg _)))
  · rintro rfl
    rw [h2]; simp

/-- C21 max: triangle inequality -/
theorem C21_max_triangle (x y z : Arr2 ℂ) (hr : x.r = y.r) (hc : x.c = y.c) (hr' : y.r = z.r) (hc' : y.c = z.c)
    (h0 : 0 < x.r) (h1 : 0 < x.c) :
    ∃ a b c, maxError x z = .ok a ∧ maxError x y = .ok b ∧ maxError y z = .ok c ∧ a ≤ b + c := by
  obtain ⟨a, ha, ⟨i, j, hi, hj, h2⟩, _⟩ := maxError_spec (hr.trans hr') (hc.trans hc') h0 h1
  obtain ⟨b, hb, _, hb2⟩ := maxError_spec hr hc h0 h1
  obtain ⟨c, hc3, _, hc2⟩ := maxError_spec hr' hc' (hr ▸ h0) (hc ▸ h1)
  refine ⟨a, b, c, ha, hb, hc3, ?_⟩
  rw [h2]
  exact (norm_sub_le_norm_sub_add_norm_sub _ (y.get i j) _).trans
    (add_le_add (hb2 i j hi hj) (hc2 i j (hr ▸ hi) (hc ▸ hj)))

/-- C21: `max_error ≤ fro_error ≤ sqrt(#entries) max_error` -/
theorem C21_max_le_fro (y z : Arr2 ℂ) (hr : y.r = z.r) (hc : y.c = z.c) (h0 : 0 < y.r) (h1 : 0 < y.c) :
    ∃ m f, maxError y z = .ok m ∧ froError y z = .ok f ∧ m ≤ f ∧ f ≤ Real.sqrt (y.r * y.c) * m := by
  obtain ⟨m, hm, ⟨i, j, hi, hj, h2⟩, h3⟩ := maxError_spec hr hc h0 h1
  refine ⟨m, _, hm, froError_eq hr hc, ?_, ?_⟩
  · rw [normFro_diff]
    apply Real.le_sqrt_of_sq_le
    rw [h2]
    calc ‖y.get i j - z.get i j‖ ^ 2 ≤ ∑ j ∈ range y.c, ‖y.get i j - z.get i j‖ ^ 2 :=
          Finset.single_le_sum (f := fun j => ‖y.get i j - z.get i j‖ ^ 2) (fun _ _ => by positivity)
            (Finset.mem_range.2 hj)
      _ ≤ _ := Finset.single_le_sum (f := fun i => ∑ j ∈ range y.c, ‖y.get i j - z.get i j‖ ^ 2)
            (fun _ _ => by positivity) (Finset.mem_range.2 hi)
  · have hm0 : 0 ≤ m := h2 ▸ norm_nonneg _
    have : Real.sqrt (y.r * y.c) * m = Real.sqrt (y.r * y.c * m ^ 2) := by
      rw [Real.sqrt_mul (x := (y.r : ℝ) * y.c) (by positivity) (m ^ 2), Real.sqrt_sq hm0]
    rw [normFro_diff, this]
    apply Real.sqrt_le_sqrt
    calc ∑ i ∈ range y.r, ∑ j ∈ range y.c, ‖y.get i j - z.get i j‖ ^ 2
        ≤ ∑ i ∈ range y.r, ∑ j ∈ range y.c, m ^ 2 := by
          apply Finset.sum_le_sum
          intro a ha
          apply Finset.sum_le_sum
          intro b hb
          exact pow_le_pow_left₀ (norm_nonneg _) (h3 a b (Finset.mem_range.1 ha) (Finset.mem_range.1 hb)) 2
      _ = y.r * y.c * m ^ 2 := by simp [mul_assoc]

/-- witness: two different 2x2 matrices -/
example : ∃ m f, maxError (Arr2.eye 2) (Arr2.zeros 2 2) = .ok m ∧ froError (Arr2.eye 2) (Arr2.zeros 2 2) = .ok f ∧
    m ≤ f ∧ f ≤ Real.sqrt ((2 : Nat) * (2 : Nat)) * m :=
  C21_max_le_fro (Arr2.eye 2) (Arr2.zeros 2 2) rfl rfl (by decide) (by decide)

/-! ### C22 -/

/-- multiplication of an array by a scalar -/
def scaleArr (c : ℂ) (a : Arr2 ℂ) : Arr2 ℂ := Arr2.ofFn a.r a.c (fun i j => c * a.get i j)

theorem normFro_scale (c : ℂ) (a : Arr2 ℂ) : normFro (scaleArr c a) = ‖c‖ * normFro a := by
  have : ‖c‖ * normFro a = Real.sqrt (‖c‖ ^ 2 * ∑ i ∈ range a.r, ∑ j ∈ range a.c, ‖a.get i j‖ ^ 2) := by
    rw [Real.sqrt_mul (by positivity), Real.sqrt_sq (norm_nonneg c)]; rfl
  rw [this, Finset.mul_sum]
  unfold normFro scaleArr
  congr 1
  apply Finset.sum_congr rfl
  intro i hi
  rw [Finset.mul_sum]
  apply Finset.sum_congr rfl
  intro j hj
  have hi : i < a.r := Finset.mem_range.1 hi
  have hj : j < a.c := Finset.mem_range.1 hj
  rw [Arr2.ofFn_get _ hi hj, norm_mul, mul_pow]

theorem normFro_pos {y : Arr2 ℂ} (h : ∃ i j, y.get i j ≠ 0) : 0 < normFro y := by
  obtain ⟨i, j, hij⟩ := h
  have hb : i < y.r ∧ j < y.c := by
    by_contra hb
    exact hij (y.oob i j hb)
  apply Real.sqrt_pos.2
  apply Finset.sum_pos'
  · intro _ _; positivity
  · refine ⟨i, Finset.mem_range.2 hb.1, ?_⟩
    apply Finset.sum_pos'
    · intro _ _; positivity
    · exact ⟨j, Finset.mem_range.2 hb.2, by have := norm_pos_iff.2 hij; positivity⟩

/-- C22: `rrms_error` is invariant under a common nonzero scaling -/
theorem C22_rrms_scale (y z : Arr2 ℂ) (hr : y.r = z.r) (hc : y.c = z.c) (k : ℂ) (hk : k ≠ 0) :
    rrmsError (scaleArr k y) (scaleArr k z) = rrmsError y z := by
  unfold rrmsError
  rw [froError_eq (y := scaleArr k y) (z := scaleArr k z) hr hc, froError_eq hr hc]
  have : diff (scaleArr k y) (scaleArr k z) = scaleArr k (diff y z) := by
    refine Arr2.ext' (A := diff (scaleArr k y) (scaleArr k z)) (B := scaleArr k (diff y z)) rfl rfl ?_
    intro i j hi hj
    have hi : i < y.r := hi
    have hj : j < y.c := hj
    have e1 : ∀ (w : Arr2 ℂ) (hi : i < w.r) (hj : j < w.c), (scaleArr k w).get i j = k * w.get i j :=
      fun w hi hj => Arr2.ofFn_get _ hi hj
    have e2 : ∀ (v w : Arr2 ℂ) (hi : i < v.r) (hj : j < v.c), (diff v w).get i j = v.get i j - w.get i j :=
      fun v w hi hj => Arr2.ofFn_get _ hi hj
    rw [e2 (scaleArr k y) (scaleArr k z) hi hj, e1 y hi hj, e1 z (hr ▸ hi) (hc ▸ hj), e1 (diff y z) hi hj,
      e2 y z hi hj, mul_sub]
  rw [this, normFro_scale, normFro_scale]
  simp only [bind, Except.bind, pure, Except.pure]
  rw [mul_div_mul_left _ _ (norm_ne_zero_iff.2 hk)]

/-- C22: `rrms_error` of the zero estimate is 100 percent -/
theorem C22_rrms_zero (y : Arr2 ℂ) (h : ∃ i j, y.get i j ≠ 0) :
    rrmsError y (Arr2.zeros y.r y.c) = .ok 100 := by
  unfold rrmsError
  rw [froError_eq (y := y) (z := Arr2.zeros y.r y.c) rfl rfl]
  have : normFro (diff y (Arr2.zeros y.r y.c)) = normFro y := by
    rw [normFro_diff]
    unfold normFro
    congr 1
    apply Finset.sum_congr rfl
    intro i hi
    apply Finset.sum_congr rfl
    intro j hj
    unfold Arr2.zeros
    rw [Arr2.ofFn_get _ (Finset.mem_range.1 hi) (Finset.mem_range.1 hj), sub_zero]
  rw [this]
  simp only [bind, Except.bind, pure, Except.pure]
  rw [div_self (normFro_pos h).ne', one_mul]

theorem sum_flatMap (l : List Nat) (f : Nat → List ℝ) : (l.flatMap f).sum = (l.map (fun i => (f i).sum)).sum := by
  induction l with
  | nil => simp
  | cons a l ih => simp [ih]

theorem sum_map_list_range (n : Nat) (f : Nat → ℝ) : ((List.range n).map f).sum = ∑ i ∈ range n, f i := by
  induction n with
  | zero => simp
  | succ n ih => rw [List.range_succ, List.map_append, List.sum_append, ih, Finset.sum_range_succ]; simp

/-- closed form of `map_error` -/
theorem mapError_eq {y z : Arr2 ℂ} (hr : y.r = z.r) (hc : y.c = z.c) :
    mapError y z = .ok (Real.sqrt (∑ i ∈ range y.r, ∑ j ∈ range y.c,
        if y.get i j ≠ 0 then ‖y.get i j - z.get i j‖ ^ 2 else 0) / normFro y * 100) := by
  unfold mapError
  rw [if_pos ⟨hr, hc⟩]
  have hzip : (entries y).zip (entries z) =
      (List.range y.r).flatMap (fun i => (List.range y.c).map (fun j => (y.get i j, z.get i j))) := by
    unfold entries
    rw [← hr, ← hc]
    generalize y.r = n
    induction n with
    | zero => rfl
    | succ n ih =>
      rw [List.range_succ, List.flatMap_append, List.flatMap_append, List.flatMap_append, List.zip_append, ih]
      · simp [List.zip_map', Function.comp_def]
      · simp
  have gen : ∀ (g : ℂ × ℂ → ℝ), normList ((((entries y).zip (entries z)).filter (fun p => p.1 ≠ 0)).map g) =
      Real.sqrt (∑ i ∈ range y.r, ∑ j ∈ range y.c,
        if y.get i j ≠ 0 then (g (y.get i j, z.get i j)) ^ 2 else 0) := by
    intro g
    unfold normList
    congr 1
    have fs : ∀ l : List (ℂ × ℂ), (((l.filter (fun p => p.1 ≠ 0)).map g).map (fun x => x ^ 2)).sum =
        (l.map (fun p => if p.1 ≠ 0 then (g p) ^ 2 else 0)).sum := by
      intro l
      induction l with
      | nil => simp
      | cons a l ih =>
        by_cases h : a.1 = 0
        · simp [h] at ih ⊢; exact ih
        · simp [h] at ih ⊢; exact ih
    rw [fs, hzip, List.map_flatMap, sum_flatMap]
    rw [sum_map_list_range]
    apply Finset.sum_congr rfl
    intro i _
    rw [List.map_map, ← sum_map_list_range]
    rfl
  simp only [gen]
  congr 3
  unfold normFro
  congr 1
  apply Finset.sum_congr rfl
  intro i _
  apply Finset.sum_congr rfl
  intro j _
  by_cases h : y.get i j = 0 <;> simp [h]

/-- C22: `map_error` ignores the estimate where the reference is zero -/
theorem C22_map_ignores (y z z' : Arr2 ℂ) (hr : y.r = z.r) (hc : y.c = z.c) (hr' : y.r = z'.r) (hc' : y.c = z'.c)
    (h : ∀ i j, y.get i j ≠ 0 → z.get i j = z'.get i j) : mapError y z = mapError y z' := by
  rw [mapError_eq hr hc, mapError_eq hr' hc']
  congr 4
  apply Finset.sum_congr rfl
  intro i _
  apply Finset.sum_congr rfl
  intro j _
  by_cases h0 : y.get i j = 0
  · simp [h0]
  · rw [h i j h0]

/-- C22: `map_error ≤ rrms_error`, with equality exactly when the estimate vanishes wherever the reference does -/
theorem C22_map_le_rrms (y z : Arr2 ℂ) (hr : y.r = z.r) (hc : y.c = z.c) (h : ∃ i j, y.get i j ≠ 0) :
    ∃ a b, mapError y z = .ok a ∧ rrmsError y z = .ok b ∧ a ≤ b ∧
      (a = b ↔ ∀ i j, y.get i j = 0 → z.get i j = 0) := by
  have hpos := normFro_pos h
  have hle : ∀ i ∈ range y.r, ∀ j ∈ range y.c, (if y.get i j ≠ 0 then ‖y.get i j - z.get i j‖ ^ 2 else 0) ≤
      ‖y.get i j - z.get i j‖ ^ 2 := by
    intro i _ j _
    split
    · exact le_rfl
    · positivity
  have hs : ∑ i ∈ range y.r, ∑ j ∈ range y.c, (if y.get i j ≠ 0 then ‖y.get i j - z.get i j‖ ^ 2 else 0) ≤
      ∑ i ∈ range y.r, ∑ j ∈ range y.c, ‖y.get i j - z.get i j‖ ^ 2 :=
    Finset.sum_le_sum (fun i hi => Finset.sum_le_sum (fun j hj => hle i hi j hj))
  refine ⟨_, normFro (diff y z) / normFro y * 100, mapError_eq hr hc, ?_, ?_, ?_⟩
  · unfold rrmsError; rw [froError_eq hr hc]; rfl
  · rw [normFro_diff]
    have := Real.sqrt_le_sqrt hs
    gcongr
  · rw [normFro_diff]
    have e : ∀ p q : ℝ, (p / normFro y * 100 = q / normFro y * 100 ↔ p = q) := by
      intro p q
      constructor
      · intro h; field_simp at h; linarith
      · rintro rfl; rfl
    rw [e, Real.sqrt_inj (by positivity) (by positivity)]
    constructor
    · intro heq i j hy
      by_cases hb : i < y.r ∧ j < y.c
      swap
      · exact z.oob i j (by rw [← hr, ← hc]; exact hb)
      have h1 := (Finset.sum_eq_sum_iff_of_le (fun i hi => Finset.sum_le_sum (fun j hj => hle i hi j hj))).1 heq i
        (Finset.mem_range.2 hb.1)
      have h2 := (Finset.sum_eq_sum_iff_of_le (fun j hj => hle i (Finset.mem_range.2 hb.1) j hj)).1 h1 j
        (Finset.mem_range.2 hb.2)
      simp only [hy, ne_eq, not_true_eq_false, if_false, zero_sub, norm_neg] at h2
      exact norm_eq_zero.1 (pow_eq_zero_iff two_ne_zero |>.1 h2.symm)
    · intro hz
      apply Finset.sum_congr rfl
      intro i _
      apply Finset.sum_congr rfl
      intro j _
      by_cases hy : y.get i j = 0
      · simp [hy, hz i j hy]
      · simp [hy]

/-- witness: a nonzero reference -/
example : ∃ i j, (Arr2.eye 2 : Arr2 ℂ).get i j ≠ 0 := ⟨0, 0, by simp [Arr2.eye, Arr2.ofFn_get']⟩

/-- `error_metrics` bundles the four values -/
theorem C22_bundle (y z : Arr2 ℂ) (hr : y.r = z.r) (hc : y.c = z.c) (h0 : 0 < y.r) (h1 : 0 < y.c) :
    ∃ e, errorMetrics y z = .ok e ∧ froError y z = .ok e.fro ∧ maxError y z = .ok e.max ∧
      rrmsError y z = .ok e.rrms ∧ mapError y z = .ok e.map := by
  obtain ⟨m, hm, _⟩ := maxError_spec hr hc h0 h1
  have hf := froError_eq hr hc
  have hp := mapError_eq hr hc
  have hrr : rrmsError y z = .ok (normFro (diff y z) / normFro y * 100) := by
    unfold rrmsError; rw [hf]; rfl
  refine ⟨⟨_, m, _, _⟩, ?_, hf, hm, hrr, hp⟩
  unfold errorMetrics
  rw [hf, hm, hrr, hp]
  rfl

end
end Verif
