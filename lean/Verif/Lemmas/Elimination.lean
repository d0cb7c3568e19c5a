import Verif.Lemmas.Transformation
import Verif.Spec.Matrix
import Mathlib.Algebra.Field.Basic
import Mathlib.Algebra.CharZero.Defs
import Mathlib.Tactic.FieldSimp
import Mathlib.Algebra.BigOperators.Field

namespace Verif
open Finset
variable {α : Type}

theorem sum_range_mul' [AddCommMonoid α] (m n : Nat) (f : Nat → α) :
    ∑ k ∈ range (m * n), f k = ∑ a ∈ range m, ∑ b ∈ range n, f (a * n + b) := by
  induction m with
  | zero => simp
  | succ m ih => rw [Nat.succ_mul, Finset.sum_range_add, ih, Finset.sum_range_succ]

theorem sum_range_sq [AddCommMonoid α] (n : Nat) (f : Nat → α) :
    ∑ k ∈ range (n ^ 2), f k = ∑ a ∈ range n, ∑ b ∈ range n, f (a * n + b) := by
  rw [pow_two]; exact sum_range_mul' n n f

/-- a triangular position is `symPos` of a unique lower-triangular pair -/
theorem exists_symPos (n u : Nat) (hu : u < n * (n + 1) / 2) :
    ∃ a b, b ≤ a ∧ a < n ∧ u = symPos n a b ∧ u = triStart n b + (a - b) := by
  rw [← triStart_self] at hu
  obtain ⟨j, t, hj, ht, he⟩ := exists_block n (fun k => n - k) u hu
  refine ⟨j + t, j, by omega, by omega, ?_, ?_⟩
  · unfold symPos triStart; rw [min_eq_right (by omega), max_eq_left (by omega), he]; omega
  · unfold triStart; omega

theorem symPos_of_le {n a b : Nat} (h : b ≤ a) : symPos n a b = triStart n b + (a - b) := by
  unfold symPos; rw [min_eq_right h, max_eq_left h]

theorem exists_offPos (n u : Nat) (hu : u < n * (n - 1) / 2) :
    ∃ a b, b < a ∧ a < n ∧ u = offPos n a b := by
  rw [← velStart_self] at hu
  obtain ⟨j, t, hj, ht, he⟩ := exists_block n (fun k => n - 1 - k) u hu
  refine ⟨j + 1 + t, j, by omega, by omega, ?_⟩
  unfold offPos velStart; rw [min_eq_right (by omega), max_eq_left (by omega), he]; omega

theorem vech_length [Zero α] (n : Nat) (M : Arr2 α) : (Spec.vech n M).length = n * (n + 1) / 2 := by
  unfold Spec.vech
  rw [length_flatMap_range n (fun j => n - j) (fun j t => M.get (j + t) j)]
  exact triStart_self n

theorem vel_length [Zero α] (n : Nat) (M : Arr2 α) : (Spec.vel n M).length = n * (n - 1) / 2 := by
  unfold Spec.vel
  rw [length_flatMap_range n (fun j => n - 1 - j) (fun j t => M.get (j + 1 + t) j)]
  exact velStart_self n

theorem vech_getD [Zero α] (n : Nat) (M : Arr2 α) {a b : Nat} (hb : b ≤ a) (ha : a < n) :
    (Spec.vech n M).getD (symPos n a b) 0 = M.get a b := by
  rw [symPos_of_le hb]
  unfold Spec.vech triStart
  rw [getD_flatMap_range n (fun j => n - j) (fun j t => M.get (j + t) j) b (a - b) (by omega) (by omega)]
  congr 1; omega

theorem vel_getD [Zero α] (n : Nat) (M : Arr2 α) {a b : Nat} (hb : b < a) (ha : a < n) :
    (Spec.vel n M).getD (offPos n a b) 0 = M.get a b := by
  unfold offPos
  rw [min_eq_right hb.le, max_eq_left hb.le]
  unfold Spec.vel velStart
  rw [getD_flatMap_range n (fun j => n - 1 - j) (fun j t => M.get (j + 1 + t) j) b (a - b - 1)
    (by omega) (by omega)]
  congr 1; omega

theorem vec_length [Zero α] (M : Arr2 α) : (vectorizeMatrix M).length = M.c * M.r := by
  unfold vectorizeMatrix
  rw [length_flatMap_range M.c (fun _ => M.r) (fun j i => M.get i j)]
  simp

theorem vec_getD [Zero α] (M : Arr2 α) {i j : Nat} (hi : i < M.r) (hj : j < M.c) :
    (vectorizeMatrix M).getD (j * M.r + i) 0 = M.get i j := by
  unfold vectorizeMatrix
  have := getD_flatMap_range M.c (fun _ => M.r) (fun j i => M.get i j) j i hj hi
  simpa using this

theorem vech_ext [Zero α] {n : Nat} {l m : List α} (hl : l.length = n * (n + 1) / 2)
    (hm : m.length = n * (n + 1) / 2)
    (h : ∀ a b, b ≤ a → a < n → l.getD (symPos n a b) 0 = m.getD (symPos n a b) 0) : l = m := by
  apply list_ext_getD (by omega)
  intro k hk
  obtain ⟨a, b, hba, ha, hu, _⟩ := exists_symPos n k (by omega)
  rw [hu]; exact h a b hba ha

theorem vel_ext [Zero α] {n : Nat} {l m : List α} (hl : l.length = n * (n - 1) / 2)
    (hm : m.length = n * (n - 1) / 2)
    (h : ∀ a b, b < a → a < n → l.getD (offPos n a b) 0 = m.getD (offPos n a b) 0) : l = m := by
  apply list_ext_getD (by omega)
  intro k hk
  obtain ⟨a, b, hba, ha, hu⟩ := exists_offPos n k (by omega)
  rw [hu]; exact h a b hba ha

theorem pair_decomp {m n k : Nat} (hk : k < m * n) : ∃ a b, a < m ∧ b < n ∧ k = a * n + b := by
  have hn : 0 < n := by
    rcases Nat.eq_zero_or_pos n with h | h
    · subst h; simp at hk
    · exact h
  refine ⟨k / n, k % n, ?_, Nat.mod_lt _ hn, ?_⟩
  · rw [Nat.div_lt_iff_lt_mul hn]; exact hk
  · rw [Nat.mul_comm]; exact (Nat.div_add_mod k n).symm

theorem vec_ext [Zero α] {l m : List α} {r c : Nat} (hl : l.length = c * r) (hm : m.length = c * r)
    (h : ∀ i j, i < r → j < c → l.getD (j * r + i) 0 = m.getD (j * r + i) 0) : l = m := by
  apply list_ext_getD (by omega)
  intro k hk
  obtain ⟨a, b, ha, hb, rfl⟩ := pair_decomp (m := c) (n := r) (k := k) (by omega)
  exact h b a hb ha

namespace Arr2

theorem mulVec_ok [NonUnitalNonAssocSemiring α] (A : Arr2 α) (v : List α) (h : A.c = v.length) :
    ∃ w, A.mulVec v = .ok w ∧ w.length = A.r ∧
      ∀ i, i < A.r → w.getD i 0 = ∑ k ∈ range A.c, A.get i k * v.getD k 0 := by
  refine ⟨(List.range A.r).map (fun i => ∑ k ∈ range A.c, A.get i k * v.getD k 0),
    by simp only [mulVec, if_pos h], by simp, ?_⟩
  intro i hi
  rw [getD_map_range _ _ _ hi]

theorem matmul_ok [NonUnitalNonAssocSemiring α] (A B : Arr2 α) (h : A.c = B.r) :
    A.matmul B = .ok (ofFn A.r B.c (mulGet A B)) := by
  simp only [matmul, if_pos h]

end Arr2

/-- sum of a function against an indicator -/
theorem sum_ite_eq_mul [NonAssocSemiring α] {N : Nat} (p : Nat) (hp : p < N) (c : α) (g : Nat → α) :
    ∑ k ∈ range N, (if k = p then c else 0) * g k = c * g p := by
  rw [Finset.sum_eq_single p]
  · simp
  · intro b _ hb; simp [hb]
  · intro h; exact absurd (Finset.mem_range.2 hp) h

theorem dup_mulVec [NonAssocSemiring α] (n : Nat) (D : Arr2 α)
    (hc : D.c = n * (n + 1) / 2) (hr : D.r = n ^ 2)
    (hg : ∀ a b u, a < n → b < n → D.get (a * n + b) u = if u = symPos n a b then 1 else 0)
    (v : List α) (hv : v.length = n * (n + 1) / 2) :
    ∃ w, D.mulVec v = .ok w ∧ w.length = n ^ 2 ∧
      ∀ a b, a < n → b < n → w.getD (a * n + b) 0 = v.getD (symPos n a b) 0 := by
  obtain ⟨w, hw, hl, hwg⟩ := D.mulVec_ok v (by omega)
  refine ⟨w, hw, by omega, fun a b ha hb => ?_⟩
  rw [hwg _ (by rw [hr]; exact pair_index_lt ha hb)]
  simp only [hg a b _ ha hb]
  rw [sum_ite_eq_mul (symPos n a b) (by rw [hc]; exact symPos_lt ha hb), one_mul]

/-- how often a position occurs among the `n²` matrix entries -/
theorem symPos_count [AddCommMonoidWithOne α] {n a b : Nat} (ha : a < n) (hb : b < n) :
    (∑ x ∈ range n, ∑ y ∈ range n, if symPos n a b = symPos n x y then (1 : α) else 0)
      = if a = b then 1 else 2 := by
  have e : ∀ x ∈ range n, ∀ y ∈ range n, (if symPos n a b = symPos n x y then (1 : α) else 0) =
      (if a = x ∧ b = y then 1 else 0) + (if a ≠ b ∧ a = y ∧ b = x then 1 else 0) := by
    intro x hx y hy
    rw [Finset.mem_range] at hx hy
    simp only [symPos_inj ha hb hx hy]
    by_cases h1 : a = x ∧ b = y
    · obtain ⟨rfl, rfl⟩ := h1
      rw [if_pos (Or.inl ⟨rfl, rfl⟩), if_pos ⟨rfl, rfl⟩, if_neg (by tauto), add_zero]
    · by_cases h2 : a = y ∧ b = x
      · obtain ⟨rfl, rfl⟩ := h2
        rw [if_pos (Or.inr ⟨rfl, rfl⟩), if_neg h1, if_pos ⟨by omega, rfl, rfl⟩, zero_add]
      · rw [if_neg (by tauto), if_neg h1, if_neg (by tauto), add_zero]
  rw [Finset.sum_congr rfl (fun x hx => Finset.sum_congr rfl (e x hx))]
  simp only [Finset.sum_add_distrib]
  have s1 : (∑ x ∈ range n, ∑ y ∈ range n, if a = x ∧ b = y then (1 : α) else 0) = 1 := by
    rw [Finset.sum_eq_single a, Finset.sum_eq_single b]
    · simp
    · intro y _ hy; rw [if_neg]; rintro ⟨_, rfl⟩; exact hy rfl
    · intro h; exact absurd (Finset.mem_range.2 hb) h
    · intro x _ hx; apply Finset.sum_eq_zero; intro y _; rw [if_neg]; rintro ⟨rfl, _⟩; exact hx rfl
    · intro h; exact absurd (Finset.mem_range.2 ha) h
  rw [s1]
  by_cases hab : a = b
  · subst hab
    simp
  · rw [if_neg hab, Finset.sum_eq_single b, Finset.sum_eq_single a]
    · rw [if_pos ⟨hab, rfl, rfl⟩, one_add_one_eq_two]
    · intro y _ hy; rw [if_neg]; rintro ⟨_, rfl, _⟩; exact hy rfl
    · intro h; exact absurd (Finset.mem_range.2 ha) h
    · intro x _ hx; apply Finset.sum_eq_zero; intro y _; rw [if_neg]; rintro ⟨_, _, rfl⟩; exact hx rfl
    · intro h; exact absurd (Finset.mem_range.2 hb) h

/-- closed form of the result of `elimination_sym_matrix` -/
theorem eliminationSym_closed [Field α] [CharZero α] (n : Nat) :
    ∃ E : Arr2 α, eliminationSymMatrix α n = .ok E ∧ (E.r = n * (n + 1) / 2 ∧ E.c = n ^ 2) ∧
      ∀ a b x y, a < n → b < n → x < n → y < n →
        E.get (symPos n a b) (x * n + y) =
          if symPos n a b = symPos n x y then (if a = b then 1 else 1 / 2) else 0 := by
  obtain ⟨D, hD, ⟨hr, hc⟩, hg⟩ := duplication_closed (α := α) n
  have hsl : D.T.rowSums.length = n * (n + 1) / 2 := by simp [Arr2.rowSums, Arr2.T, hc]
  refine ⟨Arr2.ofFn (n * (n + 1) / 2) (n ^ 2)
      (Arr2.mulGet (Arr2.diag ((D.T.rowSums).map (fun s => 1 / s))) D.T), ?_, ⟨?_, ?_⟩, ?_⟩
  · unfold eliminationSymMatrix
    simp only [hD, bind, Except.bind]
    have hdr : (Arr2.diag ((D.T.rowSums).map (fun s => 1 / s))).r = n * (n + 1) / 2 := by
      simp [Arr2.diag, hsl]
    have hdc : (Arr2.diag ((D.T.rowSums).map (fun s => 1 / s))).c = n * (n + 1) / 2 := by
      simp [Arr2.diag, hsl]
    have hTr : D.T.r = n * (n + 1) / 2 := hc
    have hTc : D.T.c = n ^ 2 := hr
    rw [Arr2.matmul_ok _ _ (by rw [hdc, hTr]), hdr, hTc]
  · rfl
  · rfl
  · intro a b x y ha hb hx hy
    have hu := symPos_lt ha hb
    have hk := pair_index_lt hx hy
    rw [Arr2.ofFn_get _ hu hk]
    unfold Arr2.mulGet
    have hdc : (Arr2.diag ((D.T.rowSums).map (fun s => 1 / s))).c = n * (n + 1) / 2 := by
      simp [Arr2.diag, hsl]
    rw [hdc]
    have e : ∀ k ∈ range (n * (n + 1) / 2),
        (Arr2.diag ((D.T.rowSums).map (fun s => 1 / s))).get (symPos n a b) k * D.T.get k (x * n + y)
          = (if k = symPos n a b then (if a = b then 1 else 1 / 2 : α) else 0) * D.T.get k (x * n + y) := by
      intro k hk
      rw [Finset.mem_range] at hk
      congr 1
      unfold Arr2.diag
      rw [Arr2.ofFn_get _ (by simp [hsl, hu]) (by simp [hsl, hk])]
      by_cases h : symPos n a b = k
      · rw [if_pos h, if_pos h.symm]
        rw [List.getD_eq_getElem?_getD, List.getElem?_map]
        have hrs : D.T.rowSums[symPos n a b]? = some (if a = b then 1 else 2) := by
          unfold Arr2.rowSums
          rw [List.getElem?_map, List.getElem?_range (by simp [Arr2.T, hc, hu])]
          simp only [Option.map_some]
          congr 1
          have : D.T.c = n ^ 2 := by simp [Arr2.T, hr]
          rw [this, sum_range_sq, ← symPos_count (α := α) ha hb]
          apply Finset.sum_congr rfl; intro p hp
          apply Finset.sum_congr rfl; intro q hq
          rw [Finset.mem_range] at hp hq
          unfold Arr2.T
          rw [Arr2.ofFn_get _ (by omega) (by rw [hr]; exact pair_index_lt hp hq), hg p q _ hp hq]
        rw [hrs]
        by_cases hab : a = b <;> simp [hab]
      · rw [if_neg h, if_neg (fun h' => h h'.symm)]
    rw [Finset.sum_congr rfl e, sum_ite_eq_mul _ hu]
    unfold Arr2.T
    rw [Arr2.ofFn_get _ (by omega) (by rw [hr]; exact hk), hg x y _ hx hy]
    by_cases h : symPos n a b = symPos n x y
    · rw [if_pos h, if_pos h, mul_one]
    · rw [if_neg h, if_neg h, mul_zero]

theorem elimSym_mulVec [Field α] [CharZero α] (n : Nat) (E : Arr2 α)
    (hr : E.r = n * (n + 1) / 2) (hc : E.c = n ^ 2)
    (hg : ∀ a b x y, a < n → b < n → x < n → y < n →
        E.get (symPos n a b) (x * n + y) =
          if symPos n a b = symPos n x y then (if a = b then 1 else 1 / 2) else 0)
    (v : List α) (hv : v.length = n ^ 2) :
    ∃ w, E.mulVec v = .ok w ∧ w.length = n * (n + 1) / 2 ∧
      ∀ a b, a < n → b < n →
        w.getD (symPos n a b) 0 = (v.getD (a * n + b) 0 + v.getD (b * n + a) 0) / 2 := by
  obtain ⟨w, hw, hl, hwg⟩ := E.mulVec_ok v (by omega)
  refine ⟨w, hw, by omega, fun a b ha hb => ?_⟩
  rw [hwg _ (by rw [hr]; exact symPos_lt ha hb), hc, sum_range_sq]
  have e : ∀ x ∈ range n, ∀ y ∈ range n,
      E.get (symPos n a b) (x * n + y) * v.getD (x * n + y) 0 =
        (if a = x ∧ b = y then v.getD (a * n + b) 0 / 2 else 0) +
        (if a = y ∧ b = x then v.getD (b * n + a) 0 / 2 else 0) := by
    intro x hx y hy
    rw [Finset.mem_range] at hx hy
    rw [hg a b x y ha hb hx hy]
    simp only [symPos_inj ha hb hx hy]
    by_cases h1 : a = x ∧ b = y
    · obtain ⟨rfl, rfl⟩ := h1
      by_cases hab : a = b
      · subst hab; simp
      · simp [hab]; ring
    · by_cases h2 : a = y ∧ b = x
      · obtain ⟨rfl, rfl⟩ := h2
        have hab : a ≠ b := by omega
        rw [if_pos (by tauto), if_neg hab, if_neg h1, if_pos ⟨rfl, rfl⟩]; ring
      · rw [if_neg (by tauto), if_neg h1, if_neg h2]; ring
  rw [Finset.sum_congr rfl (fun x hx => Finset.sum_congr rfl (e x hx))]
  simp only [Finset.sum_add_distrib]
  rw [Finset.sum_eq_single a, Finset.sum_eq_single b, Finset.sum_eq_single b, Finset.sum_eq_single a]
  · simp; ring
  · intro y _ hy; rw [if_neg]; rintro ⟨rfl, _⟩; exact hy rfl
  · intro h; exact absurd (Finset.mem_range.2 ha) h
  · intro x _ hx; apply Finset.sum_eq_zero; intro y _; rw [if_neg]; rintro ⟨_, rfl⟩; exact hx rfl
  · intro h; exact absurd (Finset.mem_range.2 hb) h
  · intro y _ hy; rw [if_neg]; rintro ⟨_, rfl⟩; exact hy rfl
  · intro h; exact absurd (Finset.mem_range.2 hb) h
  · intro x _ hx; apply Finset.sum_eq_zero; intro y _; rw [if_neg]; rintro ⟨rfl, _⟩; exact hx rfl
  · intro h; exact absurd (Finset.mem_range.2 ha) h

theorem trans_mulVec [Ring α] (n : Nat) (A : Arr2 α)
    (hr : A.r = n * (n + 1) / 2) (hc : A.c = n * (n - 1) / 2)
    (hg : ∀ a b q, b ≤ a → a < n → A.get (triStart n b + (a - b)) q = transEntry α n a b q)
    (v : List α) (hv : v.length = n * (n - 1) / 2) :
    ∃ w, A.mulVec v = .ok w ∧ w.length = n * (n + 1) / 2 ∧
      (∀ a b, a < n → b < n → a ≠ b → w.getD (symPos n a b) 0 = - v.getD (offPos n a b) 0) ∧
      (∀ a, a < n → w.getD (symPos n a a) 0 = ∑ x ∈ (range n).erase a, v.getD (offPos n a x) 0) := by
  obtain ⟨w, hw, hl, hwg⟩ := A.mulVec_ok v (by omega)
  have hlt : ∀ a b, b < a → a < n → w.getD (symPos n a b) 0 = - v.getD (offPos n a b) 0 := by
    intro a b hb ha
    rw [hwg _ (by rw [hr]; exact symPos_lt ha (by omega)), symPos_of_le hb.le]
    simp only [hg a b _ hb.le ha]
    unfold transEntry
    simp only [if_neg (show a ≠ b by omega)]
    rw [sum_ite_eq_mul _ (by rw [hc]; exact offPos_lt ha (by omega) (by omega)), neg_one_mul]
  refine ⟨w, hw, by omega, ?_, ?_⟩
  · intro a b ha hb hab
    rcases lt_or_gt_of_ne hab with h | h
    · rw [symPos_comm, offPos_comm]; exact hlt b a h hb
    · exact hlt a b h ha
  · intro a ha
    rw [hwg _ (by rw [hr]; exact symPos_lt ha ha), symPos_of_le le_rfl]
    simp only [hg a a _ le_rfl ha]
    unfold transEntry
    simp only [if_true]
    have himg : ∑ x ∈ (range n).erase a, v.getD (offPos n a x) 0 =
        ∑ q ∈ ((range n).erase a).image (offPos n a), v.getD q 0 := by
      rw [Finset.sum_image]
      intro x hx y hy hxy
      simp only [Finset.coe_erase, Set.mem_diff, Finset.mem_coe, Finset.mem_range,
        Set.mem_singleton_iff] at hx hy
      have := (offPos_inj ha hx.1 (by omega) ha hy.1 (by omega)).1 hxy
      omega
    rw [himg]
    symm
    apply Finset.sum_subset_zero_on_sdiff
    · intro q hq
      rw [Finset.mem_image] at hq
      obtain ⟨x, hx, rfl⟩ := hq
      rw [Finset.mem_erase, Finset.mem_range] at hx
      rw [Finset.mem_range, hc]
      exact offPos_lt ha hx.2 (by omega)
    · intro q hq
      rw [Finset.mem_sdiff, Finset.mem_image] at hq
      rw [if_neg, zero_mul]
      rintro ⟨x, hx, hxa, rfl⟩
      exact hq.2 ⟨x, by rw [Finset.mem_erase, Finset.mem_range]; exact ⟨hxa, hx⟩, rfl⟩
    · intro q hq
      rw [Finset.mem_image] at hq
      obtain ⟨x, hx, rfl⟩ := hq
      rw [Finset.mem_erase, Finset.mem_range] at hx
      rw [if_pos ⟨x, hx.2, hx.1, rfl⟩, one_mul]

end Verif
