/-
2-D numpy arrays (and the scipy sparse matrices denoting them): a shape and entries, zero outside the shape.
-/
import Verif.Py.Basic
import Mathlib.Algebra.BigOperators.Group.Finset.Basic
import Mathlib.Algebra.BigOperators.Intervals
import Mathlib.Algebra.BigOperators.Ring.Finset
import Mathlib.Data.Matrix.Mul

namespace Verif
open Finset

/-- A 2-D array of shape `(r, c)`. Entries outside the shape are pinned to `0` so that two arrays are equal
iff their shapes and their in-range entries are (`Arr2.ext'`). -/
structure Arr2 (α : Type) [Zero α] where
  r : Nat
  c : Nat
  get : Nat → Nat → α
  oob : ∀ i j, ¬(i < r ∧ j < c) → get i j = 0

namespace Arr2
variable {α β : Type}

theorem ext' [Zero α] {A B : Arr2 α} (hr : A.r = B.r) (hc : A.c = B.c)
    (h : ∀ i j, i < A.r → j < A.c → A.get i j = B.get i j) : A = B := by
  have hg : A.get = B.get := by
    funext i j
    by_cases hij : i < A.r ∧ j < A.c
    · exact h i j hij.1 hij.2
    · rw [A.oob i j hij, B.oob i j (by rw [← hr, ← hc]; exact hij)]
  cases A; cases B; subst hr; subst hc; subst hg; rfl

/-- Array from an entry function. -/
def ofFn [Zero α] (r c : Nat) (g : Nat → Nat → α) : Arr2 α where
  r := r
  c := c
  get := fun i j => if i < r ∧ j < c then g i j else 0
  oob := fun _ _ h => if_neg h

@[simp] theorem ofFn_r [Zero α] (r c : Nat) (g : Nat → Nat → α) : (ofFn r c g).r = r := rfl
@[simp] theorem ofFn_c [Zero α] (r c : Nat) (g : Nat → Nat → α) : (ofFn r c g).c = c := rfl
theorem ofFn_get [Zero α] {r c : Nat} (g : Nat → Nat → α) {i j : Nat} (hi : i < r) (hj : j < c) :
    (ofFn r c g).get i j = g i j := if_pos ⟨hi, hj⟩
theorem ofFn_get' [Zero α] {r c : Nat} (g : Nat → Nat → α) (i j : Nat) :
    (ofFn r c g).get i j = if i < r ∧ j < c then g i j else 0 := rfl

theorem ofFn_get_self [Zero α] (A : Arr2 α) : ofFn A.r A.c A.get = A :=
  ext' rfl rfl (fun _ _ hi hj => ofFn_get _ hi hj)

/-- `np.zeros((r, c))` -/
def zeros [Zero α] (r c : Nat) : Arr2 α := ofFn r c (fun _ _ => 0)

/-- `np.eye(n)` -/
def eye [Zero α] [One α] (n : Nat) : Arr2 α := ofFn n n (fun i j => if i = j then 1 else 0)

/-- `np.diag(v)` for a 1-D `v` -/
def diag [Zero α] (v : List α) : Arr2 α :=
  ofFn v.length v.length (fun i j => if i = j then v.getD i 0 else 0)

/-- `m.T` / `m.transpose()` -/
def T [Zero α] (A : Arr2 α) : Arr2 α := ofFn A.c A.r (fun i j => A.get j i)

@[simp] theorem T_r [Zero α] (A : Arr2 α) : A.T.r = A.c := rfl
@[simp] theorem T_c [Zero α] (A : Arr2 α) : A.T.c = A.r := rfl
@[simp] theorem T_get [Zero α] (A : Arr2 α) (i j : Nat) : A.T.get i j = A.get j i := by
  unfold T
  rw [ofFn_get']
  split
  · rfl
  · rename_i h; rw [A.oob j i (fun h' => h h'.symm)]

theorem T_T [Zero α] (A : Arr2 α) : A.T.T = A :=
  ext' rfl rfl (fun i j _ _ => by rw [T_get, T_get])

/-- `res[i, j] = v` with Python index resolution. -/
def set [Zero α] (A : Arr2 α) (i j : Int) (v : α) : Except PyErr (Arr2 α) := do
  let a ← pyIndex A.r i
  let b ← pyIndex A.c j
  pure (ofFn A.r A.c (fun p q => if p = a ∧ q = b then v else A.get p q))

/-- `res[i, lo:hi] = v` with Python index and slice resolution. -/
def setRowSlice [Zero α] (A : Arr2 α) (i lo hi : Int) (v : α) : Except PyErr (Arr2 α) := do
  let a ← pyIndex A.r i
  pure (ofFn A.r A.c (fun p q => if p = a ∧ pySlice A.c lo ≤ q ∧ q < pySlice A.c hi then v else A.get p q))

/-- Entry-wise map of a function fixing zero is not required: shape is kept, entries mapped. -/
def map [Zero α] [Zero β] (f : α → β) (A : Arr2 α) : Arr2 β := ofFn A.r A.c (fun i j => f (A.get i j))

/-- entry-wise binary operation of arrays of equal shape (numpy raises otherwise; row/column broadcasting is not
modelled here) -/
def zipWith [Zero α] (f : α → α → α) (A B : Arr2 α) : Except PyErr (Arr2 α) :=
  if A.r = B.r ∧ A.c = B.c then .ok (ofFn A.r A.c (fun i j => f (A.get i j) (B.get i j)))
  else .error .valueError

/-- entries of `A @ B` -/
def mulGet [NonUnitalNonAssocSemiring α] (A B : Arr2 α) (i j : Nat) : α :=
  ∑ k ∈ range A.c, A.get i k * B.get k j

/-- `A @ B` -/
def matmul [NonUnitalNonAssocSemiring α] (A B : Arr2 α) : Except PyErr (Arr2 α) :=
  if A.c = B.r then .ok (ofFn A.r B.c (mulGet A B)) else .error .valueError

/-- `A @ v` for 1-D `v` -/
def mulVec [NonUnitalNonAssocSemiring α] (A : Arr2 α) (v : List α) : Except PyErr (List α) :=
  if A.c = v.length then
    .ok ((List.range A.r).map (fun i => ∑ k ∈ range A.c, A.get i k * v.getD k 0))
  else .error .valueError

/-- `np.sum(A, axis=1)` -/
def rowSums [AddCommMonoid α] (A : Arr2 α) : List α :=
  (List.range A.r).map (fun i => ∑ k ∈ range A.c, A.get i k)

/-- `np.kron(A, B)` -/
def kron [MulZeroClass α] (A B : Arr2 α) : Arr2 α :=
  ofFn (A.r * B.r) (A.c * B.c)
    (fun i j => A.get (i / B.r) (j / B.c) * B.get (i % B.r) (j % B.c))

/-- positions kept by `np.delete(m, idx, axis)` along an axis of length `n` -/
def keepIdx (n : Nat) (idx : List Nat) : List Nat := (List.range n).filter (fun k => k ∉ idx)

/-- `np.delete(m, idx, axis=0)`; out-of-range indices raise `IndexError`. Negative indices are not modelled. -/
def deleteRows [Zero α] (A : Arr2 α) (idx : List Nat) : Except PyErr (Arr2 α) :=
  if ∀ k ∈ idx, k < A.r then
    .ok (ofFn (keepIdx A.r idx).length A.c (fun i j => A.get ((keepIdx A.r idx).getD i 0) j))
  else .error .indexError

/-- `np.block([[A, B], [C, D]])` -/
def block [Zero α] (A B C D : Arr2 α) : Except PyErr (Arr2 α) :=
  if A.r = B.r ∧ C.r = D.r ∧ A.c + B.c = C.c + D.c then
    .ok (ofFn (A.r + C.r) (A.c + B.c) (fun i j =>
      if i < A.r then (if j < A.c then A.get i j else B.get i (j - A.c))
      else (if j < C.c then C.get (i - A.r) j else D.get (i - A.r) (j - C.c))))
  else .error .valueError

end Arr2
end Verif
