/-
Arithmetic of the position of entry `(i, j)`, `j ≤ i < n`, in the column-stacked lower triangle.
-/
import Verif.Py.Arr2
import Mathlib.Tactic.Ring
import Mathlib.Tactic.Linarith
import Mathlib.Algebra.Ring.Parity

namespace Verif
open Finset

theorem two_mul_half (n : Nat) : 2 * (n * (n + 1) / 2) = n * (n + 1) :=
  Nat.mul_div_cancel' (Nat.even_mul_succ_self n).two_dvd

theorem two_mul_half_pred (n : Nat) : 2 * (n * (n - 1) / 2) = n * (n - 1) := by
  cases n with
  | zero => rfl
  | succ n =>
    have := two_mul_half n
    simp only [Nat.add_sub_cancel]
    rw [Nat.mul_comm (n + 1) n]; exact this

/-- start of column `j` in the stacked lower triangle -/
def triStart (n j : Nat) : Nat := ∑ k ∈ range j, (n - k)

/-- start of column `j` in the stacked strictly lower triangle -/
def velStart (n j : Nat) : Nat := ∑ k ∈ range j, (n - 1 - k)

theorem triStart_zero (n : Nat) : triStart n 0 = 0 := rfl
theorem triStart_succ (n j : Nat) : triStart n (j + 1) = triStart n j + (n - j) := Finset.sum_range_succ _ _
theorem velStart_zero (n : Nat) : velStart n 0 = 0 := rfl
theorem velStart_succ (n j : Nat) : velStart n (j + 1) = velStart n j + (n - 1 - j) := Finset.sum_range_succ _ _

theorem two_triStart (n j : Nat) (h : j ≤ n) : (2 * triStart n j : Int) = 2 * j * n - j * (j - 1) := by
  induction j with
  | zero => simp [triStart_zero]
  | succ j ih =>
    have ih := ih (by omega)
    rw [triStart_succ]
    push_cast [Nat.cast_sub (show j ≤ n by omega)]
    linarith

theorem triStart_self (n : Nat) : triStart n n = n * (n + 1) / 2 := by
  have h1 := two_triStart n n le_rfl
  have h2 := two_mul_half n
  zify at h2 ⊢
  have h2' : 2 * ((n * (n + 1) / 2 : Nat) : Int) = n * (n + 1) := by exact_mod_cast h2
  push_cast at h2'
  nlinarith

/-- the index computed by the code (`u = j*n + i - int(j*(j+1)/2)`) is block start plus offset -/
theorem tri_eq (n i j : Nat) (hj : j ≤ i) (hi : i < n) :
    ((j * n + i : Int) - (j * (j + 1) / 2 : Nat)) = ((triStart n j + (i - j) : Nat) : Int) := by
  have h1 := two_triStart n j (by omega)
  have h2 : 2 * ((j * (j + 1) / 2 : Nat) : Int) = j * (j + 1) := by exact_mod_cast two_mul_half j
  push_cast [Nat.cast_sub hj] at h2 ⊢
  nlinarith

theorem triStart_mono (n : Nat) {a b : Nat} (h : a ≤ b) : triStart n a ≤ triStart n b :=
  Finset.sum_le_sum_of_subset (Finset.range_mono h)

theorem velStart_mono (n : Nat) {a b : Nat} (h : a ≤ b) : velStart n a ≤ velStart n b :=
  Finset.sum_le_sum_of_subset (Finset.range_mono h)

theorem triStart_add (n j : Nat) (hj : j < n) : triStart n j + (n - j) ≤ n * (n + 1) / 2 := by
  rw [← triStart_succ, ← triStart_self]
  exact triStart_mono n hj

theorem tri_lt (n i j : Nat) (hj : j ≤ i) (hi : i < n) : triStart n j + (i - j) < n * (n + 1) / 2 := by
  have := triStart_add n j (by omega)
  omega

theorem tri_inj (n i j i' j' : Nat) (hj : j ≤ i) (hi : i < n) (hj' : j' ≤ i') (hi' : i' < n)
    (h : triStart n j + (i - j) = triStart n j' + (i' - j')) : i = i' ∧ j = j' := by
  rcases lt_trichotomy j j' with hlt | heq | hgt
  · have h1 := triStart_succ n j
    have h2 := triStart_mono n (show j + 1 ≤ j' from hlt)
    omega
  · subst heq; omega
  · have h1 := triStart_succ n j'
    have h2 := triStart_mono n (show j' + 1 ≤ j from hgt)
    omega

theorem velStart_add (n j : Nat) (h : j ≤ n) : velStart n j + j = triStart n j := by
  induction j with
  | zero => rfl
  | succ j ih =>
    have ih := ih (by omega)
    rw [velStart_succ, triStart_succ]
    omega

theorem velStart_self (n : Nat) : velStart n n = n * (n - 1) / 2 := by
  have h1 := velStart_add n n le_rfl
  rw [triStart_self] at h1
  have h2 := two_mul_half n
  have h3 := two_mul_half_pred n
  cases n with
  | zero => rfl
  | succ n =>
    simp only [Nat.add_sub_cancel] at *
    have : (n + 1) * (n + 1 + 1) = (n + 1) * n + 2 * (n + 1) := by ring
    omega

theorem vel_lt (n i j : Nat) (hj : j < i) (hi : i < n) : velStart n j + (i - j - 1) < n * (n - 1) / 2 := by
  rw [← velStart_self]
  have h := velStart_mono n (show j + 1 ≤ n by omega)
  rw [velStart_succ] at h
  omega

theorem vel_inj (n i j i' j' : Nat) (hj : j < i) (hi : i < n) (hj' : j' < i') (hi' : i' < n)
    (h : velStart n j + (i - j - 1) = velStart n j' + (i' - j' - 1)) : i = i' ∧ j = j' := by
  rcases lt_trichotomy j j' with hlt | heq | hgt
  · have h1 := velStart_succ n j
    have h2 := velStart_mono n (show j + 1 ≤ j' from hlt)
    omega
  · subst heq; omega
  · have h1 := velStart_succ n j'
    have h2 := velStart_mono n (show j' + 1 ≤ j from hgt)
    omega

end Verif
