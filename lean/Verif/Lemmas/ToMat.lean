/-
Bridge between arrays (shape + entries) and Mathlib matrices.
-/
import Verif.Lemmas.Parametrize
import Verif.Lemmas.PriorLog
import Verif.Model.Regression
import Mathlib.LinearAlgebra.Matrix.DotProduct

namespace Verif
open Finset
variable {α : Type}

theorem list_sum_map_range {α : Type} [AddCommMonoid α] (n : Nat) (f : Nat → α) :
    ((List.range n).map f).sum = ∑ j ∈ range n, f j := by
  induction n with
  | zero => rfl
  | succ n ih => rw [List.range_succ, List.map_append, List.sum_append, ih, Finset.sum_range_succ]; simp

theorem Arr2.ofFn_eq [Zero α] {r c : Nat} {g : Nat → Nat → α} {B : Arr2 α} (hr : B.r = r) (hc : B.c = c)
    (h : ∀ i j, i < r → j < c → g i j = B.get i j) : Arr2.ofFn r c g = B :=
  Arr2.ext' (A := Arr2.ofFn r c g) (B := B) hr.symm hc.symm
    (fun i j hi hj => (Arr2.ofFn_get g hi hj).trans (h i j hi hj))

theorem mul_add_lt {a b m n : Nat} (ha : a < m) (hb : b < n) : a * n + b < m * n := by
  calc a * n + b < a * n + n := by omega
    _ = (a + 1) * n := by ring
    _ ≤ m * n := Nat.mul_le_mul_right _ ha

theorem mul_add_div {a b n : Nat} (hb : b < n) : (a * n + b) / n = a := by
  rw [Nat.add_comm, Nat.add_mul_div_right _ _ (by omega), Nat.div_eq_of_lt hb]; omega

theorem mul_add_mod' {a b n : Nat} (hb : b < n) : (a * n + b) % n = b := by
  rw [Nat.add_comm, Nat.add_mul_mod_self_right, Nat.mod_eq_of_lt hb]

/-- entries of a Kronecker product -/
theorem Arr2.kron_get [MulZeroClass α] (A B : Arr2 α) {i j i' j' : Nat} (hi : i < A.r) (hj : j < A.c) (hi' : i' < B.r)
    (hj' : j' < B.c) : (A.kron B).get (i * B.r + i') (j * B.c + j') = A.get i j * B.get i' j' := by
  unfold Arr2.kron
  rw [Arr2.ofFn_get _ (mul_add_lt hi hi') (mul_add_lt hj hj'), mul_add_div hi', mul_add_div hj', mul_add_mod' hi',
    mul_add_mod' hj']

/-- the leading `n` entries of a 1-D array -/
def toVec [Zero α] (n : Nat) (v : List α) : Fin n → α := fun i => v.getD i 0

/-- the leading `r`-by-`c` part of an array -/
def Arr2.toMat [Zero α] (r c : Nat) (A : Arr2 α) : Matrix (Fin r) (Fin c) α := fun i j => A.get i j

/-- 1-D array of a vector -/
def ofVec {n : Nat} (v : Fin n → α) : List α := List.ofFn v

theorem ofVec_length {n : Nat} (v : Fin n → α) : (ofVec v).length = n := by simp [ofVec]

theorem toVec_ofVec [Zero α] {n : Nat} (v : Fin n → α) : toVec n (ofVec v) = v := by
  funext i; simp [toVec, ofVec, List.getD_eq_getElem?_getD]

theorem toVec_inj [Zero α] {n : Nat} {u v : List α} (hu : u.length = n) (hv : v.length = n)
    (h : toVec n u = toVec n v) : u = v := by
  apply list_ext_getD (by omega)
  intro k hk
  exact congrFun h ⟨k, by omega⟩

theorem ofVec_toVec [Zero α] {n : Nat} {u : List α} (hu : u.length = n) : ofVec (toVec n u) = u :=
  toVec_inj (ofVec_length _) hu (toVec_ofVec _)

/-- array of a matrix -/
def Arr2.ofMat [Zero α] {r c : Nat} (M : Matrix (Fin r) (Fin c) α) : Arr2 α :=
  Arr2.ofFn r c (fun i j => if h : i < r ∧ j < c then M ⟨i, h.1⟩ ⟨j, h.2⟩ else 0)

theorem Arr2.toMat_ofMat [Zero α] {r c : Nat} (M : Matrix (Fin r) (Fin c) α) : (Arr2.ofMat M).toMat r c = M := by
  ext i j
  unfold Arr2.toMat Arr2.ofMat
  rw [Arr2.ofFn_get _ i.2 j.2, dif_pos ⟨i.2, j.2⟩]

theorem Arr2.toMat_inj [Zero α] {r c : Nat} {A B : Arr2 α} (hA : A.r = r ∧ A.c = c) (hB : B.r = r ∧ B.c = c)
    (h : A.toMat r c = B.toMat r c) : A = B := by
  refine Arr2.ext' (hA.1.trans hB.1.symm) (hA.2.trans hB.2.symm) ?_
  intro i j hi hj
  exact congrFun (congrFun h ⟨i, by omega⟩) ⟨j, by omega⟩

theorem Arr2.ofMat_toMat [Zero α] {r c : Nat} {A : Arr2 α} (hA : A.r = r ∧ A.c = c) : Arr2.ofMat (A.toMat r c) = A :=
  Arr2.toMat_inj ⟨rfl, rfl⟩ hA (Arr2.toMat_ofMat _)

theorem Arr2.toMat_T [Zero α] (r c : Nat) (A : Arr2 α) : A.T.toMat r c = (A.toMat c r).transpose := by
  ext i j; simp [Arr2.toMat]

theorem Arr2.toMat_eye [Zero α] [One α] (n : Nat) : (Arr2.eye n : Arr2 α).toMat n n = 1 := by
  ext i j
  unfold Arr2.toMat Arr2.eye
  rw [Arr2.ofFn_get _ i.2 j.2, Matrix.one_apply]
  simp [Fin.ext_iff]

theorem Arr2.matmul_inv [NonUnitalNonAssocSemiring α] {A B C : Arr2 α} (h : A.matmul B = .ok C) :
    A.c = B.r ∧ C.r = A.r ∧ C.c = B.c ∧ ∀ r c, C.toMat r c = A.toMat r A.c * B.toMat A.c c := by
  unfold Arr2.matmul at h
  split at h
  · rename_i hc
    cases h
    refine ⟨hc, rfl, rfl, fun r c => ?_⟩
    ext i j
    rw [Matrix.mul_apply]
    show (if (i : ℕ) < A.r ∧ (j : ℕ) < B.c then A.mulGet B i j else 0) = ∑ k : Fin A.c, A.get i k * B.get k j
    rw [Fin.sum_univ_eq_sum_range (fun k => A.get i k * B.get k j) A.c]
    split
    · rfl
    · rename_i hn
      symm
      apply Finset.sum_eq_zero
      intro k _
      by_cases hi : (i : ℕ) < A.r
      · rw [B.oob k j (fun h => hn ⟨hi, h.2⟩), mul_zero]
      · rw [A.oob i k (fun h => hi h.1), zero_mul]
  · cases h

theorem Arr2.mulVec_inv [NonUnitalNonAssocSemiring α] {A : Arr2 α} {v w : List α} (h : A.mulVec v = .ok w) :
    A.c = v.length ∧ w.length = A.r ∧ ∀ r, toVec r w = (A.toMat r A.c).mulVec (toVec A.c v) := by
  unfold Arr2.mulVec at h
  split at h
  · rename_i hc
    cases h
    refine ⟨hc, by simp, fun r => ?_⟩
    funext i
    show _ = ∑ k : Fin A.c, A.get i k * v.getD k 0
    rw [Fin.sum_univ_eq_sum_range (fun k => A.get i k * v.getD k 0) A.c]
    unfold toVec
    by_cases hi : (i : ℕ) < A.r
    · rw [getD_map_range _ _ _ hi]
    · rw [getD_of_length_le _ _ (by simp; omega)]
      symm
      apply Finset.sum_eq_zero
      intro k _
      rw [A.oob i k (fun h => hi h.1), zero_mul]
  · cases h

/-- products with arrays of the right shapes succeed -/
theorem Arr2.matmul_mat [NonUnitalNonAssocSemiring α] {A B : Arr2 α} {m k n : Nat} (hA : A.r = m ∧ A.c = k)
    (hB : B.r = k ∧ B.c = n) :
    ∃ C, A.matmul B = .ok C ∧ C.r = m ∧ C.c = n ∧ C.toMat m n = A.toMat m k * B.toMat k n := by
  have h := Arr2.matmul_ok A B (by omega)
  obtain ⟨_, h2, h3, h4⟩ := Arr2.matmul_inv h
  refine ⟨_, h, h2.trans hA.1, h3.trans hB.2, ?_⟩
  have := h4 m n
  rw [hA.2] at this; exact this

theorem Arr2.mulVec_mat [NonUnitalNonAssocSemiring α] {A : Arr2 α} {v : List α} {m k : Nat} (hA : A.r = m ∧ A.c = k)
    (hv : v.length = k) :
    ∃ w, A.mulVec v = .ok w ∧ w.length = m ∧ toVec m w = (A.toMat m k).mulVec (toVec k v) := by
  obtain ⟨w, hw, _⟩ := Arr2.mulVec_ok A v (by omega)
  obtain ⟨_, h2, h3⟩ := Arr2.mulVec_inv hw
  refine ⟨w, hw, h2.trans hA.1, ?_⟩
  have := h3 m
  rw [hA.2] at this; exact this

theorem Arr2.zipWith_inv [Zero α] {f : α → α → α} {A B C : Arr2 α} (h : Arr2.zipWith f A B = .ok C) :
    A.r = B.r ∧ A.c = B.c ∧ C.r = A.r ∧ C.c = A.c ∧
      ∀ i j, i < A.r → j < A.c → C.get i j = f (A.get i j) (B.get i j) := by
  unfold Arr2.zipWith at h
  split at h
  · rename_i hs
    cases h
    exact ⟨hs.1, hs.2, rfl, rfl, fun i j hi hj => Arr2.ofFn_get _ hi hj⟩
  · cases h

theorem Arr2.zipWith_mat [Zero α] (f : α → α → α) {A B : Arr2 α} {m n : Nat} (hA : A.r = m ∧ A.c = n)
    (hB : B.r = m ∧ B.c = n) :
    ∃ C, Arr2.zipWith f A B = .ok C ∧ C.r = m ∧ C.c = n ∧
      C.toMat m n = Matrix.of (fun i j => f (A.toMat m n i j) (B.toMat m n i j)) := by
  refine ⟨Arr2.ofFn A.r A.c (fun i j => f (A.get i j) (B.get i j)), ?_, hA.1, hA.2, ?_⟩
  · unfold Arr2.zipWith
    rw [if_pos ⟨by omega, by omega⟩]
  · ext i j
    exact Arr2.ofFn_get _ (by have := i.2; omega) (by have := j.2; omega)

theorem zipWith_getD [Zero α] (f : α → α → α) (u v : List α) (h : u.length = v.length) (k : Nat) (hk : k < u.length) :
    (List.zipWith f u v).getD k 0 = f (u.getD k 0) (v.getD k 0) := by
  simp only [List.getD_eq_getElem?_getD]
  rw [List.getElem?_zipWith, List.getElem?_eq_getElem hk, List.getElem?_eq_getElem (h ▸ hk)]
  simp

theorem broadcast1_mat [Zero α] (f : α → α → α) {u v : List α} {n : Nat} (hu : u.length = n) (hv : v.length = n) :
    ∃ w, broadcast1 f u v = .ok w ∧ w.length = n ∧ toVec n w = fun i => f (toVec n u i) (toVec n v i) := by
  refine ⟨_, Prior.broadcast1_eq f u v (by omega), by simp [hu, hv], ?_⟩
  funext i
  exact zipWith_getD f u v (by omega) i (by have := i.2; omega)

theorem dot_range (n : Nat) (u v : List ℝ) :
    toVec n u ⬝ᵥ toVec n v = ∑ k ∈ range n, u.getD k 0 * v.getD k 0 :=
  Fin.sum_univ_eq_sum_range (fun k => u.getD k 0 * v.getD k 0) n

/-- squared norm of a 1-D array -/
theorem sqNorm_eq {v : List ℝ} {n : Nat} (hv : v.length = n) : sqNorm v = toVec n v ⬝ᵥ toVec n v := by
  unfold sqNorm
  rw [Prior.sum_map_range v 0, hv, dot_range]

theorem dotList_ok {u v : List ℝ} {n : Nat} (hu : u.length = n) (hv : v.length = n) :
    dotList u v = .ok (toVec n u ⬝ᵥ toVec n v) := by
  unfold dotList
  rw [if_pos (by omega)]
  congr 1
  have := Prior.sum_map_range (List.zipWith (fun a b => a * b) u v) 0 id
  rw [List.map_id] at this
  rw [this, dot_range]
  simp only [id, List.length_zipWith, hu, hv, min_self]
  apply Finset.sum_congr rfl
  intro k hk
  exact zipWith_getD (fun a b => a * b) u v (by omega) k (by rw [hu]; exact Finset.mem_range.1 hk)

end Verif
