/-
The operations on sparse matrices denote those on arrays.
-/
import Verif.Model.Sparse
import Verif.Lemmas.Prior

namespace Verif
open Finset
noncomputable section

namespace SpMat
variable {α β : Type}

theorem entryAt_nil [AddCommMonoid α] (i j : ℕ) : entryAt ([] : List (Stored1 α)) i j = 0 := rfl

theorem entryAt_cons [AddCommMonoid α] (e : Stored1 α) (l : List (Stored1 α)) (i j : ℕ) :
    entryAt (e :: l) i j = (if e.row = i ∧ e.col = j then e.val else 0) + entryAt l i j := rfl

theorem entryAt_append [AddCommMonoid α] (l l' : List (Stored1 α)) (i j : ℕ) :
    entryAt (l ++ l') i j = entryAt l i j + entryAt l' i j := by
  unfold entryAt; rw [List.map_append, List.sum_append]

/-- positions outside the shape hold nothing -/
theorem entryAt_oob [AddCommMonoid α] (m : SpMat α) {i j : ℕ} (h : ¬ (i < m.r ∧ j < m.c)) : entryAt m.entries i j = 0 := by
  unfold entryAt
  apply List.sum_eq_zero
  intro x hx
  obtain ⟨e, he, rfl⟩ := List.mem_map.mp hx
  have := m.inb e he
  rw [if_neg (by rintro ⟨rfl, rfl⟩; exact h this)]

theorem toArr_get [AddCommMonoid α] (m : SpMat α) (i j : ℕ) : m.toArr.get i j = entryAt m.entries i j := by
  unfold toArr
  rw [Arr2.ofFn_get']
  split
  · rfl
  · rename_i h; exact (entryAt_oob m h).symm

theorem toArr_r [AddCommMonoid α] (m : SpMat α) : m.toArr.r = m.r := rfl
theorem toArr_c [AddCommMonoid α] (m : SpMat α) : m.toArr.c = m.c := rfl

/-- a sum over the stored entries is a sum over all positions -/
theorem sum_entries [NonUnitalNonAssocSemiring α] (r c : ℕ) (f : ℕ → ℕ → α) : ∀ (l : List (Stored1 α)),
    (∀ e ∈ l, e.row < r ∧ e.col < c) →
    (l.map (fun e => e.val * f e.row e.col)).sum = ∑ i ∈ range r, ∑ j ∈ range c, entryAt l i j * f i j
  | [], _ => by simp [entryAt_nil]
  | e :: l, h => by
    rw [List.map_cons, List.sum_cons, sum_entries r c f l (fun e he => h e (List.mem_cons_of_mem _ he))]
    have he := h e List.mem_cons_self
    have : ∀ i ∈ range r, ∑ j ∈ range c, entryAt (e :: l) i j * f i j =
        (if e.row = i then e.val * f e.row e.col else 0) + ∑ j ∈ range c, entryAt l i j * f i j := by
      intro i _
      simp only [entryAt_cons, add_mul, sum_add_distrib]
      congr 1
      by_cases hi : e.row = i
      · subst hi
        simp only [true_and, if_true]
        rw [sum_eq_single e.col]
        · simp
        · intro j _ hj; rw [if_neg (fun h => hj h.symm), zero_mul]
        · intro hj; exact absurd (mem_range.mpr he.2) hj
      · rw [if_neg hi]
        exact sum_eq_zero fun j _ => by rw [if_neg (fun h => hi h.1), zero_mul]
    rw [sum_congr rfl this, sum_add_distrib, sum_ite_eq, if_pos (mem_range.mpr he.1)]

open Classical in
theorem toArr_ofArr [AddCommMonoid α] (a : Arr2 α) : (ofArr a).toArr = a := by
  refine Arr2.ext' rfl rfl fun i j hi hj => ?_
  rw [toArr_get]
  have hi : i < a.r := hi
  have hj : j < a.c := hj
  -- one row
  have row : ∀ (i' : ℕ) (js : List ℕ), entryAt (js.map (fun j' => (⟨i', j', a.get i' j'⟩ : Stored1 α))) i j =
      (js.map (fun j' => if i' = i ∧ j' = j then a.get i' j' else 0)).sum := by
    intro i' js
    unfold entryAt
    rw [List.map_map]
    rfl
  have cnt : ∀ (js : List ℕ), js.Nodup → (js.map (fun j' => if i = i ∧ j' = j then a.get i j' else 0)).sum = if j ∈ js then a.get i j else 0 := by
    intro js
    induction js with
    | nil => intro _; simp
    | cons k js ih =>
      intro hnd
      rw [List.map_cons, List.sum_cons, ih (List.nodup_cons.mp hnd).2]
      by_cases hk : k = j
      · subst hk
        rw [if_pos ⟨rfl, rfl⟩, if_neg (List.nodup_cons.mp hnd).1, if_pos List.mem_cons_self, add_zero]
      · rw [if_neg (fun h => hk h.2), zero_add]
        have : (j ∈ k :: js) ↔ j ∈ js := by
          rw [List.mem_cons]; exact ⟨fun h => h.resolve_left (fun h => hk h.symm), .inr⟩
        by_cases hm : j ∈ js
        · rw [if_pos hm, if_pos (this.mpr hm)]
        · rw [if_neg hm, if_neg (fun h => hm (this.mp h))]
  have other : ∀ i' (js : List ℕ), i' ≠ i → (js.map (fun j' => if i' = i ∧ j' = j then a.get i' j' else 0)).sum = 0 := by
    intro i' js hne
    apply List.sum_eq_zero
    intro x hx
    obtain ⟨j', _, rfl⟩ := List.mem_map.mp hx
    rw [if_neg (fun h => hne h.1)]
  have key : ∀ (is : List ℕ), is.Nodup →
      entryAt (is.flatMap (fun i' => ((List.range a.c).filter (fun j' => a.get i' j' ≠ 0)).map (fun j' => (⟨i', j', a.get i' j'⟩ : Stored1 α)))) i j =
        if i ∈ is then a.get i j else 0 := by
    intro is
    induction is with
    | nil => intro _; rfl
    | cons k is ih =>
      intro hnd
      rw [List.flatMap_cons, entryAt_append, ih (List.nodup_cons.mp hnd).2, row]
      by_cases hk : k = i
      · subst hk
        rw [cnt _ (List.nodup_range.filter _), if_neg (List.nodup_cons.mp hnd).1, if_pos List.mem_cons_self, add_zero]
        by_cases h0 : a.get k j = 0
        · rw [h0, ite_self]
        · rw [if_pos (List.mem_filter.mpr ⟨List.mem_range.mpr hj, by simpa using h0⟩)]
      · rw [other k _ hk, zero_add]
        have : (i ∈ k :: is) ↔ i ∈ is := by
          rw [List.mem_cons]; exact ⟨fun h => h.resolve_left (fun h => hk h.symm), .inr⟩
        by_cases hm : i ∈ is
        · rw [if_pos hm, if_pos (this.mpr hm)]
        · rw [if_neg hm, if_neg (fun h => hm (this.mp h))]
  exact (key _ List.nodup_range).trans (if_pos (List.mem_range.mpr hi))

theorem toArr_toCsr [AddCommMonoid α] (m : SpMat α) : m.toCsr.toArr = m.toArr := rfl

theorem entryAt_diag [AddCommMonoid α] (g : ℕ → α) (i j : ℕ) : ∀ (n : ℕ),
    entryAt ((List.range n).map (fun k => (⟨k, k, g k⟩ : Stored1 α))) i j = if i = j ∧ i < n then g i else 0 := by
  intro n
  induction n with
  | zero => simp [entryAt_nil]
  | succ n ih =>
    rw [List.range_succ, List.map_append, entryAt_append, ih]
    show _ + ((if n = i ∧ n = j then g n else 0) + 0) = _
    rw [add_zero]
    by_cases h : n = i ∧ n = j
    · obtain ⟨rfl, rfl⟩ := h
      simp
    · rw [if_neg h, add_zero]
      by_cases h' : i = j ∧ i < n
      · rw [if_pos h', if_pos ⟨h'.1, by omega⟩]
      · rw [if_neg h', if_neg (by rintro ⟨h1, h2⟩; exact h' ⟨h1, by omega⟩)]

theorem toArr_eye [AddCommMonoid α] [One α] (n : ℕ) : (eye n : SpMat α).toArr = Arr2.eye n := by
  refine Arr2.ext' rfl rfl fun i j hi hj => ?_
  have hi : i < n := hi
  have hj : j < n := hj
  rw [toArr_get]
  unfold Arr2.eye
  rw [Arr2.ofFn_get _ hi hj]
  refine (entryAt_diag (fun _ => (1 : α)) i j n).trans ?_
  by_cases h : i = j
  · rw [if_pos ⟨h, hi⟩, if_pos h]
  · rw [if_neg (fun h' => h h'.1), if_neg h]

theorem toArr_diags [AddCommMonoid α] (v : List α) : (diags v).toArr = Arr2.diag v := by
  refine Arr2.ext' rfl rfl fun i j hi hj => ?_
  have hi : i < v.length := hi
  have hj : j < v.length := hj
  rw [toArr_get]
  unfold Arr2.diag
  rw [Arr2.ofFn_get _ hi hj]
  have he : (diags v).entries = (List.range v.length).map (fun k => (⟨k, k, v.getD k 0⟩ : Stored1 α)) := by
    show v.zipIdx.map (fun t => (⟨t.2, t.2, t.1⟩ : Stored1 α)) = _
    apply List.ext_getElem
    · simp
    · intro k h1 h2
      have hk : k < v.length := by simpa using h1
      simp [hk]
  rw [he, entryAt_diag]
  by_cases h : i = j
  · rw [if_pos ⟨h, hi⟩, if_pos h]
  · rw [if_neg (fun h' => h h'.1), if_neg h]

theorem entryAt_map [AddCommMonoid α] [AddCommMonoid β] (f : α →+ β) (l : List (Stored1 α)) (i j : ℕ) :
    entryAt (l.map (fun e => (⟨e.row, e.col, f e.val⟩ : Stored1 β))) i j = f (entryAt l i j) := by
  induction l with
  | nil => exact f.map_zero.symm
  | cons e l ih =>
    rw [List.map_cons, entryAt_cons, entryAt_cons, ih, map_add]
    congr 1
    simp only
    split
    · rfl
    · exact f.map_zero.symm

theorem toArr_mapData [AddCommMonoid α] [AddCommMonoid β] (f : α →+ β) (m : SpMat α) : (m.mapData f).toArr = m.toArr.map f := by
  refine Arr2.ext' rfl rfl fun i j hi hj => ?_
  have hi : i < m.r := hi
  have hj : j < m.c := hj
  rw [toArr_get]
  unfold Arr2.map
  rw [Arr2.ofFn_get _ (show i < m.toArr.r from hi) (show j < m.toArr.c from hj), toArr_get]
  exact entryAt_map f m.entries i j

theorem entryAt_T [AddCommMonoid α] (l : List (Stored1 α)) (i j : ℕ) :
    entryAt (l.map (fun e => (⟨e.col, e.row, e.val⟩ : Stored1 α))) i j = entryAt l j i := by
  induction l with
  | nil => rfl
  | cons e l ih =>
    rw [List.map_cons, entryAt_cons, entryAt_cons, ih]
    congr 1
    exact if_congr and_comm rfl rfl

theorem toArr_T [AddCommMonoid α] (m : SpMat α) : m.T.toArr = m.toArr.T := by
  refine Arr2.ext' rfl rfl fun i j hi hj => ?_
  rw [toArr_get, Arr2.T_get, toArr_get]
  exact entryAt_T m.entries i j

theorem entryAt_flatMap [AddCommMonoid α] (l : List (Stored1 β)) (f : Stored1 β → List (Stored1 α)) (i j : ℕ) :
    entryAt (l.flatMap f) i j = (l.map (fun e => entryAt (f e) i j)).sum := by
  induction l with
  | nil => rfl
  | cons e l ih => rw [List.flatMap_cons, entryAt_append, ih, List.map_cons, List.sum_cons]

theorem toArr_matmul [CommSemiring α] {a b s : SpMat α} (h : a.matmul b = .ok s) : a.toArr.matmul b.toArr = .ok s.toArr := by
  unfold matmul at h
  split at h
  · rename_i hc
    have hs := Except.ok.inj h
    unfold Arr2.matmul
    rw [if_pos (show a.toArr.c = b.toArr.r from hc)]
    congr 1
    subst hs
    refine Arr2.ext' rfl rfl fun i j hi hj => ?_
    have hi : i < a.r := hi
    have hj : j < b.c := hj
    rw [toArr_get, Arr2.ofFn_get _ (show i < a.toArr.r from hi) (show j < b.toArr.c from hj)]
    show _ = entryAt (a.entries.flatMap _) i j
    rw [entryAt_flatMap]
    have inner : ∀ e : Stored1 α, entryAt ((b.entries.filter (fun d => d.row = e.col)).map
        (fun d => (⟨e.row, d.col, e.val * d.val⟩ : Stored1 α))) i j = e.val * (if e.row = i then entryAt b.entries e.col j else 0) := by
      intro e
      generalize b.entries = l
      induction l with
      | nil => rw [entryAt_nil, ite_self, mul_zero]; rfl
      | cons d l ih =>
        rw [List.filter_cons]
        by_cases hd : d.row = e.col
        · rw [if_pos (by simpa using hd), List.map_cons, entryAt_cons, ih, entryAt_cons]
          by_cases hei : e.row = i
          · simp only [hei, true_and, if_true, hd, mul_add]
            congr 1
            split <;> simp
          · simp only [hei, false_and, if_false, mul_zero, add_zero]
        · rw [if_neg (by simpa using hd), ih, entryAt_cons]
          have hnot : ¬ (d.row = e.col ∧ d.col = j) := fun h => hd h.1
          simp only [hnot, if_false, zero_add]
    rw [List.map_congr_left (fun e _ => inner e), sum_entries a.r a.c (fun p q => if p = i then entryAt b.entries q j else 0) _ a.inb]
    rw [sum_eq_single i]
    · unfold Arr2.mulGet
      refine sum_congr rfl fun k _ => ?_
      rw [if_pos rfl, toArr_get, toArr_get]
    · intro p _ hp
      exact sum_eq_zero fun q _ => by rw [if_neg hp, mul_zero]
    · intro hi'; exact absurd (mem_range.mpr hi) hi'
  · cases h

theorem toArr_matmul_error [CommSemiring α] {a b : SpMat α} {e : PyErr} (h : a.matmul b = .error e) :
    a.toArr.matmul b.toArr = .error e := by
  unfold matmul at h
  unfold Arr2.matmul
  split at h
  · cases h
  · rename_i hc
    rw [if_neg (show ¬ a.toArr.c = b.toArr.r from hc)]
    cases h; rfl

theorem mulVec_toArr [CommSemiring α] (a : SpMat α) (v : List α) : a.mulVec v = a.toArr.mulVec v := by
  unfold mulVec Arr2.mulVec
  by_cases h : a.c = v.length
  · rw [if_pos h, if_pos (show a.toArr.c = v.length from h)]
    congr 1
    apply List.map_congr_left
    intro i hi
    have hi : i < a.r := List.mem_range.mp hi
    have : ∀ e : Stored1 α, (if e.row = i then e.val * v.getD e.col 0 else 0) = e.val * (if e.row = i then v.getD e.col 0 else 0) := by
      intro e
      split <;> simp
    rw [List.map_congr_left (fun e _ => this e), sum_entries a.r a.c (fun p q => if p = i then v.getD q 0 else 0) _ a.inb, sum_eq_single i]
    · refine sum_congr rfl fun k _ => ?_
      simp only [if_true]
      rw [toArr_get]
    · intro p _ hp
      exact sum_eq_zero fun q _ => by simp only [if_neg hp, mul_zero]
    · intro hi'; exact absurd (mem_range.mpr hi) hi'
  · rw [if_neg h, if_neg (show ¬ a.toArr.c = v.length from h)]

theorem toArr_add [AddCommMonoid α] (a b : SpMat α) :
    (a.add b).map SpMat.toArr = Arr2.zipWith (fun p q => p + q) a.toArr b.toArr := by
  unfold add Arr2.zipWith
  by_cases h : a.r = b.r ∧ a.c = b.c
  · rw [dif_pos h, if_pos (show a.toArr.r = b.toArr.r ∧ a.toArr.c = b.toArr.c from h)]
    refine congrArg Except.ok (Arr2.ext' rfl rfl fun i j hi hj => ?_)
    have hi : i < a.r := hi
    have hj : j < a.c := hj
    rw [toArr_get, Arr2.ofFn_get _ (show i < a.toArr.r from hi) (show j < a.toArr.c from hj), toArr_get, toArr_get]
    exact entryAt_append _ _ _ _
  · rw [dif_neg h, if_neg (show ¬ (a.toArr.r = b.toArr.r ∧ a.toArr.c = b.toArr.c) from h)]
    rfl

theorem toArr_kron [CommSemiring α] (a b : SpMat α) : (a.kron b).toArr = a.toArr.kron b.toArr := by
  refine Arr2.ext' rfl rfl fun i j hi hj => ?_
  have hi : i < a.r * b.r := hi
  have hj : j < a.c * b.c := hj
  rw [toArr_get]
  unfold Arr2.kron
  rw [Arr2.ofFn_get _ (show i < a.toArr.r * b.toArr.r from hi) (show j < a.toArr.c * b.toArr.c from hj), toArr_get, toArr_get]
  have hbr : 0 < b.r := Nat.pos_of_ne_zero (by rintro h; rw [h, Nat.mul_zero] at hi; omega)
  have hbc : 0 < b.c := Nat.pos_of_ne_zero (by rintro h; rw [h, Nat.mul_zero] at hj; omega)
  show entryAt (a.entries.flatMap _) i j = entryAt a.entries (i / b.r) (j / b.c) * entryAt b.entries (i % b.r) (j % b.c)
  rw [entryAt_flatMap]
  have split1 : ∀ {p q n k : ℕ}, 0 < n → q < n → (p * n + q = k ↔ p = k / n ∧ q = k % n) := by
    intro p q n k hn hq
    constructor
    · rintro rfl
      rw [Nat.mul_comm, Nat.mul_add_div hn, Nat.div_eq_of_lt hq, Nat.mul_add_mod, Nat.mod_eq_of_lt hq]
      exact ⟨rfl, rfl⟩
    · rintro ⟨rfl, rfl⟩
      exact Nat.div_add_mod' k n
  have inner : ∀ e : Stored1 α, entryAt (b.entries.map (fun d => (⟨e.row * b.r + d.row, e.col * b.c + d.col, e.val * d.val⟩ : Stored1 α))) i j =
      (if e.row = i / b.r ∧ e.col = j / b.c then e.val else 0) * entryAt b.entries (i % b.r) (j % b.c) := by
    intro e
    have hin := b.inb
    revert hin
    generalize b.entries = l
    intro hin
    induction l with
    | nil => rw [entryAt_nil, mul_zero]; rfl
    | cons d l ih =>
      rw [List.map_cons, entryAt_cons, ih (fun e he => hin e (List.mem_cons_of_mem _ he)), entryAt_cons, mul_add]
      congr 1
      have hd := hin d List.mem_cons_self
      simp only [split1 hbr hd.1, split1 hbc hd.2]
      by_cases h1 : e.row = i / b.r ∧ e.col = j / b.c
      · by_cases h2 : d.row = i % b.r ∧ d.col = j % b.c
        · rw [if_pos ⟨⟨h1.1, h2.1⟩, h1.2, h2.2⟩, if_pos h1, if_pos h2]
        · rw [if_neg (fun h => h2 ⟨h.1.2, h.2.2⟩), if_neg h2, mul_zero]
      · rw [if_neg (fun h => h1 ⟨h.1.1, h.2.1⟩), if_neg h1, zero_mul]
  rw [List.map_congr_left (fun e _ => inner e), List.sum_map_mul_right]
  rfl

theorem entryAt_shifted [AddCommMonoid α] (m : SpMat α) (dr dc i j : ℕ) :
    entryAt (m.shifted dr dc) i j = if dr ≤ i ∧ dc ≤ j then entryAt m.entries (i - dr) (j - dc) else 0 := by
  unfold shifted
  generalize m.entries = l
  induction l with
  | nil => rw [entryAt_nil, ite_self]; rfl
  | cons e l ih =>
    rw [List.map_cons, entryAt_cons, ih, entryAt_cons]
    by_cases h : dr ≤ i ∧ dc ≤ j
    · rw [if_pos h, if_pos h]
      congr 1
      exact if_congr (by constructor <;> rintro ⟨h1, h2⟩ <;> constructor <;> simp only at * <;> omega) rfl rfl
    · rw [if_neg h, if_neg h, add_zero, if_neg]
      rintro ⟨h1, h2⟩
      simp only at h1 h2
      exact h ⟨by omega, by omega⟩

theorem toArr_bmat [AddCommMonoid α] {f : SpFormat} {a b c d : SpMat α} (h : a.r = b.r ∧ c.r = d.r ∧ a.c = c.c ∧ b.c = d.c) :
    ∃ s, bmat f a b c d = .ok s ∧ s.format = f ∧ Arr2.block a.toArr b.toArr c.toArr d.toArr = .ok s.toArr := by
  refine ⟨_, dif_pos h, rfl, ?_⟩
  unfold Arr2.block
  rw [if_pos (show a.toArr.r = b.toArr.r ∧ c.toArr.r = d.toArr.r ∧ a.toArr.c + b.toArr.c = c.toArr.c + d.toArr.c from
    ⟨h.1, h.2.1, by show a.c + b.c = c.c + d.c; omega⟩)]
  congr 1
  refine Arr2.ext' rfl rfl fun i j hi hj => ?_
  have hi : i < a.r + c.r := hi
  have hj : j < a.c + b.c := hj
  rw [toArr_get, Arr2.ofFn_get _ (show i < a.toArr.r + c.toArr.r from hi) (show j < a.toArr.c + b.toArr.c from hj)]
  show _ = entryAt (a.shifted 0 0 ++ b.shifted 0 a.c ++ c.shifted a.r 0 ++ d.shifted a.r a.c) i j
  simp only [entryAt_append, entryAt_shifted, toArr_get, toArr_r, toArr_c, Nat.zero_le, true_and, and_true, if_true, Nat.sub_zero]
  by_cases h1 : i < a.r <;> by_cases h2 : j < a.c
  · rw [if_pos h1, if_pos h2, if_neg (by omega), if_neg (by omega), if_neg (by omega), add_zero, add_zero, add_zero]
  · rw [if_pos h1, if_neg h2, entryAt_oob a (fun h => h2 h.2), if_pos (by omega), if_neg (by omega), if_neg (by omega), zero_add,
      add_zero, add_zero]
  · rw [if_neg h1, if_pos (by omega), entryAt_oob a (fun h => h1 h.1), if_neg (by omega), if_pos (by omega), if_neg (by omega),
      add_zero, zero_add, zero_add]
  · rw [if_neg h1, if_neg (by omega), entryAt_oob a (fun h => h1 h.1), if_pos (by omega), entryAt_oob b (fun h' => h1 (by omega)),
      if_pos (by omega), entryAt_oob c (fun h' => h2 (by omega)), if_pos (by omega), zero_add, zero_add, zero_add, h.2.2.1]

end SpMat
end
end Verif
