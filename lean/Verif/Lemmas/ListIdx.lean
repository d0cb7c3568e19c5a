import Verif.Py.Arr2
import Mathlib.Tactic.Ring
import Mathlib.Tactic.Linarith

namespace Verif
open Finset
variable {α : Type}

theorem length_flatMap_range (n : Nat) (len : Nat → Nat) (f : Nat → Nat → α) :
    ((List.range n).flatMap (fun j => (List.range (len j)).map (f j))).length = ∑ j ∈ range n, len j := by
  induction n with
  | zero => simp
  | succ n ih =>
    rw [List.range_succ, List.flatMap_append, List.length_append, ih, Finset.sum_range_succ]
    simp

theorem getElem?_flatMap_range (n : Nat) (len : Nat → Nat) (f : Nat → Nat → α) (j t : Nat)
    (hj : j < n) (ht : t < len j) :
    ((List.range n).flatMap (fun j => (List.range (len j)).map (f j)))[(∑ k ∈ range j, len k) + t]?
      = some (f j t) := by
  induction n with
  | zero => omega
  | succ n ih =>
    rw [List.range_succ, List.flatMap_append]
    have hlen := length_flatMap_range n len f
    by_cases h : j < n
    · have hlt : (∑ k ∈ range j, len k) + t < ∑ k ∈ range n, len k := by
        calc (∑ k ∈ range j, len k) + t < (∑ k ∈ range j, len k) + len j := by omega
          _ = ∑ k ∈ range (j + 1), len k := by rw [Finset.sum_range_succ]
          _ ≤ ∑ k ∈ range n, len k :=
            Finset.sum_le_sum_of_subset (Finset.range_mono (by omega))
      rw [List.getElem?_append_left (by rw [hlen]; exact hlt)]
      exact ih h
    · have hjn : j = n := by omega
      subst hjn
      rw [List.getElem?_append_right (by rw [hlen]; omega), hlen]
      simp [ht]

theorem getD_flatMap_range [Zero α] (n : Nat) (len : Nat → Nat) (f : Nat → Nat → α) (j t : Nat)
    (hj : j < n) (ht : t < len j) :
    ((List.range n).flatMap (fun j => (List.range (len j)).map (f j))).getD ((∑ k ∈ range j, len k) + t) 0
      = f j t := by
  rw [List.getD_eq_getElem?_getD, getElem?_flatMap_range n len f j t hj ht]; rfl

/-- every index of a `flatMap` over a range is of the form "block start + offset" -/
theorem exists_block (n : Nat) (len : Nat → Nat) (k : Nat) (hk : k < ∑ j ∈ range n, len j) :
    ∃ j t, j < n ∧ t < len j ∧ k = (∑ i ∈ range j, len i) + t := by
  induction n with
  | zero => simp at hk
  | succ n ih =>
    by_cases h : k < ∑ j ∈ range n, len j
    · obtain ⟨j, t, hj, ht, he⟩ := ih h
      exact ⟨j, t, by omega, ht, he⟩
    · rw [Finset.sum_range_succ] at hk
      exact ⟨n, k - ∑ j ∈ range n, len j, by omega, by omega, by omega⟩

theorem list_ext_getD [Zero α] {l m : List α} (hl : l.length = m.length)
    (h : ∀ k, k < l.length → l.getD k 0 = m.getD k 0) : l = m := by
  apply List.ext_getElem hl
  intro k h1 h2
  have := h k h1
  simpa [List.getD_eq_getElem?_getD, h1, h2] using this

theorem getD_map_range [Zero α] (n : Nat) (f : Nat → α) (k : Nat) (hk : k < n) :
    ((List.range n).map f).getD k 0 = f k := by
  simp [List.getD_eq_getElem?_getD, hk]

theorem getD_of_length_le [Zero α] (l : List α) (k : Nat) (hk : l.length ≤ k) : l.getD k 0 = 0 := by
  simp [List.getD_eq_getElem?_getD, hk]

end Verif
