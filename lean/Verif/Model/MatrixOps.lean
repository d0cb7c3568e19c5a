/-
Model of `src/models/matrix_operations.py` (and of `src/models/gpu_matrix_operations.py`).
-/
import Verif.Py.Arr2
import Mathlib.Data.Complex.Basic
import Mathlib.Data.List.Sort

namespace Verif
open Finset

variable {α : Type}

/-- `vectorize_matrix`, src/models/matrix_operations.py:18-26 (`np.array(m).flatten('F')`): column by column.
Simplification: `m` is a 2-D array. -/
def vectorizeMatrix [Zero α] (m : Arr2 α) : List α :=
  (List.range m.c).flatMap (fun j => (List.range m.r).map (fun i => m.get i j))

/-- `unvectorize_matrix`, src/models/matrix_operations.py:29-38 (`np.reshape(v, shape, 'F')`): a wrong number of
elements raises `ValueError`. Simplification: `shape` holds no `-1` wildcard. -/
def unvectorizeMatrix [Zero α] (v : List α) (shape : Nat × Nat) : Except PyErr (Arr2 α) :=
  if v.length = shape.1 * shape.2 then
    .ok (Arr2.ofFn shape.1 shape.2 (fun i j => v.getD (j * shape.1 + i) 0))
  else .error .valueError

/-- C-order `flatten()` of a 2-D array: row by row. -/
def flattenC [Zero α] (m : Arr2 α) : List α :=
  (List.range m.r).flatMap (fun i => (List.range m.c).map (fun j => m.get i j))

/-- GPU `vectorize_matrix`, src/models/gpu_matrix_operations.py:18-28: transpose, then C-order flatten. -/
def gpuVectorizeMatrix [Zero α] (m : Arr2 α) : List α := flattenC m.T

/-- `make_real_vector`, src/models/matrix_operations.py:41-48 (GPU: gpu_matrix_operations.py:43-50). -/
def makeRealVector (v : List ℂ) : List ℝ := v.map Complex.re ++ v.map Complex.im

/-- numpy broadcasting of a binary operation on two 1-D arrays: equal lengths, or one of them of length 1. -/
def broadcast1 {β γ δ : Type} (f : β → γ → δ) (a : List β) (b : List γ) : Except PyErr (List δ) :=
  if a.length = b.length then .ok (List.zipWith f a b)
  else match a, b with
    | [x], b => .ok (b.map (f x))
    | a, [y] => .ok (a.map (fun x => f x y))
    | _, _ => .error .valueError

/-- `make_complex_vector`, src/models/matrix_operations.py:51-62 (GPU: gpu_matrix_operations.py:53-64):
`v[:int(size/2)] + 1j*v[int(size/2):]` with numpy broadcasting. -/
def makeComplexVector (v : List ℝ) : Except PyErr (List ℂ) :=
  let k := v.length / 2
  broadcast1 (fun a b : ℝ => (a : ℂ) + Complex.I * (b : ℂ)) (v.take k) (v.drop k)

/-- `make_real_matrix`, src/models/matrix_operations.py:65-86 (GPU: gpu_matrix_operations.py:67-86):
`[[re, -im], [im, re]]`. The sparse branch denotes the same array (`C168_make_real`). -/
def makeRealMatrix (m : Arr2 ℂ) : Arr2 ℝ :=
  Arr2.ofFn (m.r + m.r) (m.c + m.c) (fun i j =>
    if i < m.r then
      if j < m.c then (m.get i j).re else -(m.get i (j - m.c)).im
    else
      if j < m.c then (m.get (i - m.r) j).im else (m.get (i - m.r) (j - m.c)).re)

/-- Python numbers that can appear as a slice bound: the result of `/` is always a float. -/
inductive PyNum
  | int (i : Int)
  | float (x : ℚ)

/-- slice bounds must be integers (have `__index__`), otherwise `TypeError`. -/
def sliceBound : PyNum → Except PyErr Int
  | .int i => .ok i
  | .float _ => .error .typeError

/-- Python true division of two ints (nonzero divisor): a float. -/
def pyTrueDiv (a b : Int) : PyNum := .float ((a : ℚ) / (b : ℚ))

/-- `m[a:b, c:d]`, bounds already resolved -/
def slice2 [Zero α] (m : Arr2 α) (a b c d : Nat) : Arr2 α :=
  Arr2.ofFn (b - a) (d - c) (fun i j => m.get (a + i) (c + j))

/-- the expression of `make_complex_matrix`, src/models/matrix_operations.py:96 (GPU: gpu_matrix_operations.py:96), for any halving of
the sizes -/
def complexBySlices (half : Int → PyNum) (m : Arr2 ℝ) : Except PyErr (Arr2 ℂ) := do
  let hr ← sliceBound (half m.r)
  let hc ← sliceBound (half m.c)
  let hr' ← sliceBound (half m.r)
  let hc' ← sliceBound (half m.c)
  let re := slice2 m 0 (pySlice m.r hr) 0 (pySlice m.c hc)
  let im := slice2 m (pySlice m.r hr') m.r 0 (pySlice m.c hc')
  Arr2.zipWith (fun a b => a + Complex.I * b) (re.map (fun x : ℝ => (x : ℂ))) (im.map (fun x : ℝ => (x : ℂ)))

/-- `make_complex_matrix`, src/models/matrix_operations.py:89-96 (GPU: gpu_matrix_operations.py:89-96): the slice
bounds are `m.shape[k]/2`, a true division. -/
def makeComplexMatrix (m : Arr2 ℝ) : Except PyErr (Arr2 ℂ) := complexBySlices (fun n => pyTrueDiv n 2) m

/-- `duplication_matrix`, src/models/matrix_operations.py:99-115. Entries live in an arbitrary ring `α` (numpy
promotes the int result when multiplying). `int(x / 2)` of an even product is the exact half. -/
def duplicationMatrix (α : Type) [Zero α] [One α] (n : Nat) : Except PyErr (Arr2 α) :=
  forRange n (Arr2.zeros (n ^ 2) (n * (n + 1) / 2)) fun res i =>
    forRange (i + 1) res fun res j => do
      let u : Int := (j * n + i : Int) - (j * (j + 1) / 2 : Nat)
      let res ← res.set (i * n + j : Int) u 1
      res.set (j * n + i : Int) u 1

/-- `transformation_matrix`, src/models/matrix_operations.py:118-139. -/
def transformationMatrix (α : Type) [Ring α] (n : Nat) : Except PyErr (Arr2 α) := do
  let s ← forRange n ((Arr2.zeros (n * (n + 1) / 2) (n * (n - 1) / 2) : Arr2 α), (0 : Nat)) fun s i =>
    forRange (n - i) s fun s j => do
      let res := s.1
      let row := s.2
      let res ←
        if j = 0 then do
          let res ← res.setRowSlice row ((row : Int) - i) ((row : Int) - i + n - i - 1) 1
          forRange i res fun res k =>
            res.set row ((i : Int) - 1 + ∑ x ∈ range k, ((n : Int) - 2 - x)) 1
        else
          res.set row ((row : Int) - i - 1) (-1)
      pure (res, row + 1)
  pure s.1

/-- `elimination_sym_matrix`, src/models/matrix_operations.py:142-151. numpy's `1/0` would be `inf` with a warning
(Lean: `0`); `C07` shows that no sum is zero. -/
def eliminationSymMatrix (α : Type) [DivisionRing α] (n : Nat) : Except PyErr (Arr2 α) := do
  let res ← duplicationMatrix α n
  let res := res.T
  (Arr2.diag ((res.rowSums).map (fun s => 1 / s))).matmul res

/-- `elimination_lap_matrix`, src/models/matrix_operations.py:154-168. -/
def eliminationLapMatrix (α : Type) [Ring α] (n : Nat) : Except PyErr (Arr2 α) := do
  let idxs : List Int := (List.range n).map
    (fun i => ((n * (n + 1) / 2 : Nat) : Int) - ((i + 1) * (i + 2) / 2 : Nat))
  let idxs ← idxs.mapM (pyIndex (n * (n + 1) / 2))
  let e ← (Arr2.eye (n * (n + 1) / 2) : Arr2 α).deleteRows idxs
  pure (e.map (fun x => -x))

/-- `np.vstack((m[:i, :], np.zeros((1, m.shape[1])), m[i:, :]))` -/
def insertZeroRow [Zero α] (m : Arr2 α) (i : Int) : Arr2 α :=
  let k := pySlice m.r i
  Arr2.ofFn (m.r + 1) m.c (fun p q => if p < k then m.get p q else if p = k then 0 else m.get (p - 1) q)

/-- `np.hstack((m[:, :i], np.zeros((m.shape[0], 1)), m[:, i:]))` -/
def insertZeroCol [Zero α] (m : Arr2 α) (i : Int) : Arr2 α :=
  let k := pySlice m.c i
  Arr2.ofFn m.r (m.c + 1) (fun p q => if q < k then m.get p q else if q = k then 0 else m.get p (q - 1))

/-- `undelete`, src/models/matrix_operations.py:171-187 (any other `axis` returns `m` unchanged). -/
def undelete [Zero α] (m : Arr2 α) (idx : List Int) (axis : Nat) : Arr2 α :=
  let idx := idx.mergeSort (fun a b => decide (a ≤ b))
  if axis = 0 then idx.foldl insertZeroRow m
  else if axis = 1 then idx.foldl insertZeroCol m
  else m

end Verif
