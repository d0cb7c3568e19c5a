/-
Model of `src/models/error_metrics.py` on 2-D complex arrays (exact arithmetic; `y - y_hat` of different shapes raises,
row/column broadcasting is not modelled).
-/
import Verif.Py.Arr2
import Mathlib.Analysis.Complex.Basic

namespace Verif
open Finset
noncomputable section

/-- `np.linalg.norm(a, 'fro')` -/
def normFro (a : Arr2 ℂ) : ℝ := Real.sqrt (∑ i ∈ range a.r, ∑ j ∈ range a.c, ‖a.get i j‖ ^ 2)

/-- `fro_error`, src/models/error_metrics.py:12-20 -/
def froError (y yhat : Arr2 ℂ) : Except PyErr ℝ := do
  let d ← Arr2.zipWith (fun a b => a - b) y yhat
  pure (normFro d)

/-- the entries of an array in row-major order -/
def entries (a : Arr2 ℂ) : List ℂ := (List.range a.r).flatMap (fun i => (List.range a.c).map (fun j => a.get i j))

/-- `np.max` of a list of reals; `ValueError` when empty -/
def npMax : List ℝ → Except PyErr ℝ
  | [] => .error .valueError
  | x :: xs => .ok (xs.foldl max x)

/-- `max_error`, src/models/error_metrics.py:23-31 -/
def maxError (y yhat : Arr2 ℂ) : Except PyErr ℝ := do
  let d ← Arr2.zipWith (fun a b => a - b) y yhat
  npMax ((entries d).map (fun z => ‖z‖))

/-- `rrms_error`, src/models/error_metrics.py:34-42 (division by zero is nan/inf in numpy, `0` here) -/
def rrmsError (y yhat : Arr2 ℂ) : Except PyErr ℝ := do
  let e ← froError y yhat
  pure (e / normFro y * 100)

/-- 1-D `np.linalg.norm` -/
def normList (l : List ℝ) : ℝ := Real.sqrt ((l.map (fun x => x ^ 2)).sum)

/-- `map_error`, src/models/error_metrics.py:45-56: boolean mask `y != 0` applied to both arrays (row-major order);
a mask of another shape raises `IndexError`. -/
def mapError (y yhat : Arr2 ℂ) : Except PyErr ℝ :=
  if y.r = yhat.r ∧ y.c = yhat.c then
    let pairs := ((entries y).zip (entries yhat)).filter (fun p => p.1 ≠ 0)
    .ok (normList (pairs.map (fun p => ‖p.1 - p.2‖)) / normList (pairs.map (fun p => |‖p.1‖|)) * 100)
  else .error .indexError

/-- `ErrorMetrics` and `error_metrics`, src/models/error_metrics.py:59-73 -/
structure ErrorMetrics where
  fro : ℝ
  max : ℝ
  rrms : ℝ
  map : ℝ

def errorMetrics (y yhat : Arr2 ℂ) : Except PyErr ErrorMetrics := do
  let f ← froError y yhat
  let m ← maxError y yhat
  let r ← rrmsError y yhat
  let p ← mapError y yhat
  pure ⟨f, m, r, p⟩

end
end Verif
