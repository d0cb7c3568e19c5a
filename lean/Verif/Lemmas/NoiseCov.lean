import Verif.Model.NoiseTransformation
import Verif.Lemmas.Elimination
import Mathlib.Tactic.FieldSimp

namespace Verif
open Finset
noncomputable section

/-- entries of the 2x2 block matrix of diagonals -/
def blockEntry (N : Nat) (a b c : List ℝ) (i j : Nat) : ℝ :=
  if i < N then (if j < N then (if i = j then a.getD i 0 else 0) else (if i = j - N then c.getD i 0 else 0))
  else (if j < N then (if i - N = j then c.getD j 0 else 0) else (if i - N = j - N then b.getD (i - N) 0 else 0))

theorem covBlock_closed {N : Nat} {a b c : List ℝ} (ha : a.length = N) (hb : b.length = N) (hc : c.length = N) :
    covBlock a b c = .ok (Arr2.ofFn (N + N) (N + N) (blockEntry N a b c)) := by
  unfold covBlock Arr2.block
  have hsize : ∀ l : List ℝ, (Arr2.diag l).r = l.length ∧ (Arr2.diag l).c = l.length := fun l => ⟨rfl, rfl⟩
  simp only [(hsize a).1, (hsize a).2, (hsize b).1, (hsize b).2, (hsize c).1, (hsize c).2, ha, hb, hc, and_self, if_true]
  congr 1
  refine Arr2.ext' (A := Arr2.ofFn (N + N) (N + N) fun i j =>
      if i < N then if j < N then (Arr2.diag a).get i j else (Arr2.diag c).get i (j - N)
      else if j < N then (Arr2.diag c).get (i - N) j else (Arr2.diag b).get (i - N) (j - N))
    (B := Arr2.ofFn (N + N) (N + N) (blockEntry N a b c)) rfl rfl ?_
  intro i j hi hj
  have hi : i < N + N := hi
  have hj : j < N + N := hj
  rw [Arr2.ofFn_get _ hi hj, Arr2.ofFn_get _ hi hj]
  have hd : ∀ (l : List ℝ), l.length = N → ∀ p q, p < N → q < N →
      (Arr2.diag l).get p q = if p = q then l.getD p 0 else 0 := by
    intro l hl p q hp hq
    exact Arr2.ofFn_get _ (by omega) (by omega)
  unfold blockEntry
  by_cases h1 : i < N
  · by_cases h2 : j < N
    · simp only [h1, h2, if_true]; exact hd a ha i j h1 h2
    · simp only [h1, h2, if_true, if_false]; exact hd c hc i (j - N) h1 (by omega)
  · by_cases h2 : j < N
    · simp only [h1, h2, if_true, if_false]
      rw [hd c hc (i - N) j (by omega) h2]
      split
      · rename_i h; rw [h]
      · rfl
    · simp only [h1, h2, if_false]; exact hd b hb (i - N) (j - N) (by omega) (by omega)

theorem sum_ite_left (N p : Nat) (x : ℝ) (g : Nat → ℝ) (hp : p < N) :
    ∑ k ∈ range N, (if p = k then x else 0) * g k = x * g p := by
  rw [Finset.sum_eq_single_of_mem p (Finset.mem_range.2 hp)]
  · rw [if_pos rfl]
  · intro k _ hk; rw [if_neg (fun h => hk h.symm), zero_mul]

/-- product of two block matrices of diagonals -/
theorem blockMul {N : Nat} (a b c a' b' c' : List ℝ) (i j : Nat) (hi : i < N + N) (hj : j < N + N)
    (h1 : ∀ p, p < N → a.getD p 0 * a'.getD p 0 + c.getD p 0 * c'.getD p 0 = 1)
    (h2 : ∀ p, p < N → a.getD p 0 * c'.getD p 0 + c.getD p 0 * b'.getD p 0 = 0)
    (h3 : ∀ p, p < N → c.getD p 0 * a'.getD p 0 + b.getD p 0 * c'.getD p 0 = 0)
    (h4 : ∀ p, p < N → c.getD p 0 * c'.getD p 0 + b.getD p 0 * b'.getD p 0 = 1) :
    ∑ k ∈ range (N + N), blockEntry N a b c i k * blockEntry N a' b' c' k j = if i = j then 1 else 0 := by
  rw [Finset.sum_range_add]
  have e1 : ∀ k ∈ range N, blockEntry N a b c i k * blockEntry N a' b' c' k j =
      (if (if i < N then i else i - N) = k then (if i < N then a.getD i 0 else c.getD (i - N) 0) else 0) *
        blockEntry N a' b' c' k j := by
    intro k hk
    have hk := Finset.mem_range.1 hk
    congr 1
    unfold blockEntry
    by_cases h : i < N
    · simp [h, hk]
    · simp only [h, hk, if_true, if_false]
      split
      · rename_i h'; rw [h']
      · rfl
  have e2 : ∀ k ∈ range N, blockEntry N a b c i (N + k) * blockEntry N a' b' c' (N + k) j =
      (if (if i < N then i else i - N) = k then (if i < N then c.getD i 0 else b.getD (i - N) 0) else 0) *
        blockEntry N a' b' c' (N + k) j := by
    intro k hk
    congr 1
    unfold blockEntry
    by_cases h : i < N
    · simp [h]
    · simp [h]
  have hp : (if i < N then i else i - N) < N := by split <;> omega
  rw [Finset.sum_congr rfl e1, Finset.sum_congr rfl e2, sum_ite_left N _ _ _ hp,
    sum_ite_left N _ _ (fun k => blockEntry N a' b' c' (N + k) j) hp]
  unfold blockEntry
  by_cases hI : i < N
  · by_cases hJ : j < N
    · by_cases hij : i = j
      · subst hij; simp [hI]; simpa using h1 i hI
      · simp [hI, hJ, hij]
    · by_cases hij : i = j - N
      · have := h2 i hI
        obtain ⟨k, rfl⟩ : ∃ k, j = N + k := ⟨j - N, by omega⟩
        have hk : i = k := by omega
        subst hk
        have hne : ¬ i = N + i := by omega
        have hN : N ≠ 0 := by omega
        simpa [hI, hne, hN] using this
      · have hne : ¬ i = j := by omega
        simp [hI, hJ, hij, hne]
  · have hI' : i - N < N := by omega
    by_cases hJ : j < N
    · have hne : ¬ i = j := by omega
      by_cases hij : i - N = j
      · have := h3 (i - N) hI'
        simp only [hI, hI', hJ, if_true, if_false, hij]
        rw [hij] at this hI'
        simpa [hne] using this
      · simp [hI, hI', hJ, hij, hne]
    · by_cases hij : i - N = j - N
      · have he : i = j := by omega
        have := h4 (i - N) hI'
        subst he
        simpa [hI, hI'] using this
      · have hne : ¬ i = j := by omega
        simp [hI, hI', hJ, hij, hne]

theorem colDiag_spec (F : ℝ → ℝ → ℝ → ℝ → ℝ) (M : Arr2 ℂ) (ss : List ℝ) (sdp : ℝ) :
    (colDiag F M ss sdp).length = M.c * M.r ∧ ∀ t j, t < M.r → j < M.c →
      (colDiag F M ss sdp).getD (j * M.r + t) 0 =
        F ‖M.get t j‖ (Complex.arg (M.get t j)) (ss.getD j 0 ^ 2) (sdp ^ 2) := by
  refine ⟨vec_length _, fun t j ht hj => ?_⟩
  unfold colDiag
  exact (vec_getD (Arr2.ofFn M.r M.c (fun t i =>
    F ‖M.get t i‖ (Complex.arg (M.get t i)) (ss.getD i 0 ^ 2) (sdp ^ 2))) (i := t) (j := j) ht hj).trans
    (Arr2.ofFn_get _ ht hj)

theorem allDiag_spec (F : ℝ → ℝ → ℝ → ℝ → ℝ) (M : Arr2 ℂ) (s : ℝ) (sdp : ℝ) :
    (allDiag F M s sdp).length = M.c * M.r ∧ ∀ t j, t < M.r → j < M.c →
      (allDiag F M s sdp).getD (j * M.r + t) 0 =
        F ‖M.get t j‖ (Complex.arg (M.get t j)) (s ^ 2) (sdp ^ 2) := by
  refine ⟨by rw [allDiag, List.length_map, vec_length], fun t j ht hj => ?_⟩
  have h := vec_getD M ht hj
  have hlt : j * M.r + t < (vectorizeMatrix M).length := by
    rw [vec_length]
    calc j * M.r + t < j * M.r + M.r := by omega
      _ = (j + 1) * M.r := by ring
      _ ≤ M.c * M.r := Nat.mul_le_mul_right _ hj
  rw [List.getD_eq_getElem?_getD, List.getElem?_eq_getElem hlt, Option.getD_some] at h
  unfold allDiag
  rw [List.getD_eq_getElem?_getD, List.getElem?_map, List.getElem?_eq_getElem hlt, h]
  rfl

end
end Verif
