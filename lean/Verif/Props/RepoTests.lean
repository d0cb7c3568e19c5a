import Verif.Model.MatrixOps
import Verif.Model.ErrorMetrics
import Verif.Model.NoiseTransformation
import Verif.Model.Prior
import Mathlib.Tactic.IntervalCases

/-!
Comparison of the model with the expected values written in the tests of the repository (`/repo/test`). These are examples, not
properties: they check the reading of the code into the definitions against numbers that its authors wrote down. Where the code
does not give the expected value, the value it gives is stated.
-/

namespace Verif
namespace RepoTests
open Finset

/-- the array with the given rows -/
def rows {α : Type} [Zero α] (r c : Nat) (l : List (List α)) : Arr2 α := Arr2.ofFn r c (fun i j => (l.getD i []).getD j 0)

/-! ### test/matrix_operations_test.py -/

/-- lines 28-34 -/
example : vectorizeMatrix (rows 2 3 [[1, 2, 3], [4, 5, 6]] : Arr2 ℚ) = [1, 4, 2, 5, 3, 6] := by decide +kernel

/-- lines 37-43 -/
example : (unvectorizeMatrix ([1, 4, 2, 5, 3, 6] : List ℚ) (2, 3)).map flattenC = .ok (flattenC (rows 2 3 [[1, 2, 3], [4, 5, 6]])) := by
  have : ((unvectorizeMatrix ([1, 4, 2, 5, 3, 6] : List ℚ) (2, 3)).map flattenC).toOption =
      some (flattenC (rows 2 3 [[1, 2, 3], [4, 5, 6]])) := by decide +kernel
  revert this
  cases (unvectorizeMatrix ([1, 4, 2, 5, 3, 6] : List ℚ) (2, 3)).map flattenC with
  | error e => intro h; cases h
  | ok v => intro h; injection h with h; rw [h]

/-- `transformation_matrix(3) @ v`, lines 52-55 -/
example : ((transformationMatrix ℚ 3).bind (fun t => t.mulVec [1, 1, 3])).toOption = some [2, -1, -1, 4, -3, 4] := by decide +kernel

/-- `duplication_matrix(3) @ v`, lines 58-65 -/
example : ((duplicationMatrix ℚ 3).bind (fun d => d.mulVec [1, 2, 3, 4, 5, 6])).toOption =
    some (vectorizeMatrix (rows 3 3 [[1, 2, 3], [2, 4, 5], [3, 5, 6]])) := by decide +kernel

/-- `elimination_sym_matrix`, `elimination_lap_matrix`, lines 68-77 -/
example : ((eliminationSymMatrix ℚ 3).bind (fun e =>
    e.mulVec (vectorizeMatrix (rows 3 3 [[2, -1, -1], [-1, 4, -3], [-1, -3, 4]])))).toOption = some [2, -1, -1, 4, -3, 4] := by
  decide +kernel

example : ((eliminationLapMatrix ℚ 3).bind (fun l => (eliminationSymMatrix ℚ 3).bind (fun e => (l.matmul e).bind (fun a =>
    a.mulVec (vectorizeMatrix (rows 3 3 [[2, -1, -1], [-1, 4, -3], [-1, -3, 4]])))))).toOption = some [1, 1, 3] := by
  decide +kernel

/-! Lines 80-88, `DT @ E @ vectorize_matrix(m)` for a symmetric matrix with zero row sums, are C10. -/

/-- `undelete`, lines 91-98 (`np.delete` written as the kept rows and columns) -/
example :
    let k := [0, 1, 3, 4, 6, 7]
    let m : Arr2 ℚ := Arr2.ofFn 6 6 (fun i j => ((k.getD j 0 * 8 + k.getD i 0 : Nat) : ℚ))
    let mog : Arr2 ℚ := Arr2.ofFn 8 8 (fun i j => if i ∈ [2, 5] ∨ j ∈ [2, 5] then 0 else ((j * 8 + i : Nat) : ℚ))
    flattenC (undelete (undelete m [2, 5] 1) [2, 5] 0) = flattenC mog := by
  have hs : ([2, 5] : List Int).mergeSort (fun a b => decide (a ≤ b)) = [2, 5] := List.mergeSort_of_pairwise (by decide)
  dsimp only
  unfold undelete
  rw [hs]
  decide +kernel

noncomputable section

/-- `make_real_vector`, lines 22-25 -/
example : makeRealVector [0, 1 - Complex.I, -1 - Complex.I] = [0, 1, -1, 0, -1, -1] := by simp [makeRealVector]

/-- `make_complex_vector`, lines 46-49 -/
example : makeComplexVector [1, 2, 3, 4, 5, 6] = .ok [1 + 4 * Complex.I, 2 + 5 * Complex.I, 3 + 6 * Complex.I] := by
  simp [makeComplexVector, broadcast1, mul_comm]

/-- `make_real_matrix`, lines 8-19 -/
example : flattenC (makeRealMatrix (rows 2 2 [[1 + Complex.I, 1 - Complex.I], [2 * Complex.I, -2 - Complex.I]])) =
    [1, 1, -1, 1, 0, -2, -2, 1, 1, -1, 1, 1, 2, -1, 0, -2] := by
  simp [flattenC, makeRealMatrix, rows, Arr2.ofFn, List.range_succ]

/-! ### test/error_metrics_test.py -/

def y : Arr2 ℂ := rows 2 2 [[1 + Complex.I, 1 + Complex.I], [0, 0]]
def yHat : Arr2 ℂ := Arr2.zeros 2 2

theorem norm_sq : ‖(1 + Complex.I : ℂ)‖ ^ 2 = 2 := by
  rw [← Complex.normSq_eq_norm_sq]; simp [Complex.normSq_apply]; norm_num

theorem norm_I : ‖(1 + Complex.I : ℂ)‖ = Real.sqrt 2 := by rw [← norm_sq, Real.sqrt_sq (norm_nonneg _)]

theorem norm_y : normFro y = 2 := by
  simp only [normFro, y, rows, Arr2.ofFn, sum_range_succ, sum_range_zero]
  norm_num [norm_sq]
  rw [show (4 : ℝ) = 2 ^ 2 by norm_num, Real.sqrt_sq (by norm_num)]

theorem diff_y : Arr2.zipWith (fun a b => a - b) y yHat = .ok y := by
  unfold Arr2.zipWith
  rw [if_pos ⟨rfl, rfl⟩]
  refine congrArg _ (Arr2.ext' rfl rfl ?_)
  intro i j hi hj
  refine (Arr2.ofFn_get _ hi hj).trans ?_
  have : yHat.get i j = 0 := by unfold yHat Arr2.zeros; rw [Arr2.ofFn_get']; split <;> rfl
  dsimp only
  rw [this, sub_zero]

/-- lines 17-18, as expected -/
theorem fro : froError y yHat = .ok 2 := by
  simp only [froError, diff_y, bind, Except.bind, pure, Except.pure, norm_y]

/-- lines 21-22, as expected -/
example : maxError y yHat = .ok (Real.sqrt 2) := by
  simp only [maxError, diff_y, bind, Except.bind, pure, Except.pure]
  simp [entries, y, rows, Arr2.ofFn, List.range_succ, npMax, norm_I]

/-- lines 25-26 expect 1; the code reports percent -/
example : rrmsError y yHat = .ok 100 := by
  simp only [rrmsError, fro, bind, Except.bind, pure, Except.pure, norm_y]
  norm_num

/-- lines 29-30 expect 1; the code reports percent -/
example : mapError y yHat = .ok 100 := by
  have h0 : (1 + Complex.I : ℂ) ≠ 0 := fun h => by have := norm_sq; rw [h] at this; norm_num at this
  have he : ((entries y).zip (entries yHat)).filter (fun p => p.1 ≠ 0) = [(1 + Complex.I, 0), (1 + Complex.I, 0)] := by
    simp [entries, y, yHat, rows, Arr2.zeros, Arr2.ofFn, List.range_succ, List.filter, h0]
  unfold mapError
  rw [if_pos ⟨rfl, rfl⟩]
  simp only [he, List.map_cons, List.map_nil, sub_zero, abs_norm, normList, List.sum_cons, List.sum_nil, norm_sq]
  norm_num

/-! ### test/noise_transformation_test.py -/

/-- no noise, lines 8, 15, 22 -/
example (m f : ℝ) : averageCov.re m f (0 ^ 2) (0 ^ 2) = 0 ∧ averageCov.im m f (0 ^ 2) (0 ^ 2) = 0 ∧ averageCov.cov m f (0 ^ 2) (0 ^ 2) = 0 := by
  refine ⟨?_, ?_, ?_⟩ <;> simp [averageCov]

open Real in
/-- lines 9, 16, 23 -/
example : averageCov.re ‖(0 : ℂ)‖ (Complex.arg 0) (1 ^ 2) (1 ^ 2) = exp (-2) * (2 * cosh 2 - cosh 1) ∧
    averageCov.im ‖(0 : ℂ)‖ (Complex.arg 0) (1 ^ 2) (1 ^ 2) = exp (-2) * (2 * sinh 2 - sinh 1) ∧
    averageCov.cov ‖(0 : ℂ)‖ (Complex.arg 0) (1 ^ 2) (1 ^ 2) = 0 := by
  refine ⟨?_, ?_, ?_⟩ <;> simp [averageCov]

open Real in
/-- lines 10-11, 17-18, 24-25 -/
example (z : ℂ) (hz : z = 2 * Complex.I ∨ z = -2 * Complex.I) :
    averageCov.re ‖z‖ (Complex.arg z) (1 ^ 2) (1 ^ 2) =
      4 * exp (-2) * (sinh 2 - sinh 1) + exp (-2) * (2 * sinh 2 - sinh 1) ∧
    averageCov.im ‖z‖ (Complex.arg z) (1 ^ 2) (1 ^ 2) =
      4 * exp (-2) * (cosh 2 - cosh 1) + exp (-2) * (2 * cosh 2 - cosh 1) ∧
    averageCov.cov ‖z‖ (Complex.arg z) (1 ^ 2) (1 ^ 2) = 0 := by
  have hn : ‖z‖ = 2 := by rcases hz with rfl | rfl <;> simp
  have ha : cos z.arg = 0 ∧ sin z.arg ^ 2 = 1 := by
    have hz0 : z ≠ 0 := by rw [← norm_pos_iff, hn]; norm_num
    rw [Complex.cos_arg hz0, Complex.sin_arg, hn]
    rcases hz with rfl | rfl <;> norm_num
  refine ⟨?_, ?_, ?_⟩ <;> simp only [averageCov, hn, ha.1, ha.2] <;> norm_num

open Real in
/-- line 26 -/
example (z : ℂ) (hz : z = sqrt 2 * (1 + Complex.I)) :
    averageCov.cov ‖z‖ (Complex.arg z) (1 ^ 2) (1 ^ 2) = 0.5 * exp (-4) * (1 + 5 * (1 - exp 1)) := by
  have hs : sqrt 2 * sqrt 2 = 2 := mul_self_sqrt (by norm_num)
  have hn : ‖z‖ = 2 := by rw [hz, norm_mul, norm_I, Complex.norm_real, norm_of_nonneg (sqrt_nonneg _), hs]
  have hz0 : z ≠ 0 := by rw [← norm_pos_iff, hn]; norm_num
  have hre : z.re = sqrt 2 := by rw [hz]; simp
  have him : z.im = sqrt 2 := by rw [hz]; simp
  simp only [averageCov, Complex.cos_arg hz0, Complex.sin_arg, hn, hre, him]
  rw [show sqrt 2 / 2 * (sqrt 2 / 2) = (0.5 : ℝ) by rw [div_mul_div_comm, hs]; norm_num]
  norm_num

/-- lines 44-52 pass a Python integer, for which the code raises -/
example (M : Arr2 ℂ) : averageTrueNoiseCovariance M (.pyInt 1) 1 false = .error .attributeError := rfl

/-! ### test/bayesian_test.py -/

open Prior in
/-- the calls of lines 9-17; numbers of rows as expected in lines 20-27 -/
def calls : List (Call × Weights) :=
  [(.exactAdaptive [0] [1] (.scalar 2), .scalar 2), (.sparsity [0, 1] (.array [3, 4]), .scalar 1),
    (.adaptiveSparsity [0, 1] [0.5, 0.25], .scalar 1), (.contrast [[0, 1]] [2] (.scalar 1), .scalar 1),
    (.ratios 2 [[0, 1]] [3] (.scalar 2), .scalar 0)]

def built : Prior := calls.foldl (fun p c => (p.call c.1 c.2).2) (Prior.new false 0.00001 2)

/-- The centres are the expected ones of line 28, and the rows those of lines 21-27 except for the sign of the first entry, expected -2.
-/
theorem built_eq : built.mu = [2, 0, 0, 0, 0, 1, 0] ∧
    built.rows = [[2, 0], [3, 0], [0, 4], [2, 0], [0, 4], [0.5, 0.5], [2, -6]] ∧ built.gamma = [2, 1, 1, 1, 1, 1, 0] := by
  have h1 : (1 / 0.5 : ℝ) = 2 := by norm_num
  have h2 : (1 / 0.25 : ℝ) = 4 := by norm_num
  have h3 : (1 / 2 : ℝ) = 0.5 := by norm_num
  have h6 : (-3 * 2 : ℝ) = -6 := by norm_num
  have e0 : pyIndex 2 0 = .ok 0 := rfl
  have e1 : pyIndex 2 1 = .ok 1 := rfl
  refine ⟨?_, ?_, ?_⟩ <;>
    simp [built, calls, Prior.new, Prior.call, Prior.smoothCall, Prior.delegate, Prior.baseCall, Prior.baseAddExact,
      Prior.baseAddSparsity, Prior.baseAddAdaptiveSparsity, Prior.baseAddContrast, Prior.baseAddRatios, Prior.append,
      Prior.buildRows, Prior.stdWeights, Prior.ordersLen, broadcast1, Prior.at', Prior.setRow, List.range_succ, List.mapM_cons,
      bind, Except.bind, pure, Except.pure, e0, e1, List.replicate_succ, List.foldlM_cons]
  all_goals norm_num

theorem built_cols : built.lcols = 2 ∧ built.sparseClass = false := by
  have e0 : pyIndex 2 0 = .ok 0 := rfl
  have e1 : pyIndex 2 1 = .ok 1 := rfl
  refine ⟨?_, ?_⟩ <;>
    simp [built, calls, Prior.new, Prior.call, Prior.smoothCall, Prior.delegate, Prior.baseCall, Prior.baseAddExact,
      Prior.baseAddSparsity, Prior.baseAddAdaptiveSparsity, Prior.baseAddContrast, Prior.baseAddRatios, Prior.append,
      Prior.buildRows, Prior.stdWeights, Prior.ordersLen, broadcast1, Prior.at', Prior.setRow, List.range_succ, List.mapM_cons,
      bind, Except.bind, pure, Except.pure, e0, e1, List.replicate_succ, List.foldlM_cons]

theorem smooth_params (p : Prior) (h1 : p.mu = [2, 0, 0, 0, 0, 1, 0])
    (h2 : p.rows = [[2, 0], [3, 0], [0, 4], [2, 0], [0, 4], [0.5, 0.5], [2, -6]]) (h3 : p.gamma = [2, 1, 1, 1, 1, 1, 0])
    (h4 : p.lcols = 2) (h5 : p.sparseClass = false) (h6 : p.alpha = 0) :
    ∃ A, p.logDistribution [2, 2] = .ok (A, [4.5, 0.5], 92) ∧ flattenC A = [6.8125, 0.0625, 0.0625, 4.8125] := by
  have hL : p.larr = rows 7 2 [[2, 0], [3, 0], [0, 4], [2, 0], [0, 4], [0.5, 0.5], [2, -6]] := by
    unfold Prior.larr rows
    rw [h2, h4]
    rfl
  have hlx : (rows 7 2 [[2, 0], [3, 0], [0, 4], [2, 0], [0, 4], [0.5, 0.5], [2, -6]] : Arr2 ℝ).mulVec [2, 2] =
      .ok [4, 6, 8, 4, 8, 2, -8] := by
    simp [Arr2.mulVec, rows, Arr2.ofFn, List.range_succ, sum_range_succ]
    norm_num
  have hr : broadcast1 (fun a b : ℝ => a - b) [4, 6, 8, 4, 8, 2, -8] p.mu = .ok [2, 6, 8, 4, 8, 1, -8] := by
    rw [h1]
    simp [broadcast1]
    norm_num
  have hw : broadcast1 (fun r g : ℝ => |r| ^ ((2 : ℝ) - g)) [2, 6, 8, 4, 8, 1, -8] p.gamma = .ok [1, 6, 8, 4, 8, 1, 64] := by
    rw [h3]
    simp [broadcast1]
    norm_num
  have hlw : (rows 7 2 [[2, 0], [3, 0], [0, 4], [2, 0], [0, 4], [0.5, 0.5], [2, -6]] : Arr2 ℝ).T.matmul
      (Arr2.diag (([1, 6, 8, 4, 8, 1, 64].map (fun t : ℝ => t + 0)).map (fun t => 1 / t))) =
      .ok (rows 2 7 [[2, 0.5, 0, 0.5, 0, 0.5, 1 / 32], [0, 0, 0.5, 0, 0.5, 0.5, -3 / 32]]) := by
    unfold Arr2.matmul
    rw [if_pos (by rfl)]
    refine congrArg _ (Arr2.ext' rfl rfl ?_)
    intro i j hi hj
    refine (Arr2.ofFn_get _ hi hj).trans ?_
    have hi : i < 2 := hi
    have hj : j < 7 := hj
    interval_cases i <;> interval_cases j <;>
      simp [Arr2.mulGet, Arr2.T, rows, Arr2.diag, Arr2.ofFn, sum_range_succ] <;> norm_num
  have ha : (rows 2 7 [[2, 0.5, 0, 0.5, 0, 0.5, 1 / 32], [0, 0, 0.5, 0, 0.5, 0.5, -3 / 32]] : Arr2 ℝ).matmul
      (rows 7 2 [[2, 0], [3, 0], [0, 4], [2, 0], [0, 4], [0.5, 0.5], [2, -6]]) =
      .ok (rows 2 2 [[6.8125, 0.0625], [0.0625, 4.8125]]) := by
    unfold Arr2.matmul
    rw [if_pos (by rfl)]
    refine congrArg _ (Arr2.ext' rfl rfl ?_)
    intro i j hi hj
    refine (Arr2.ofFn_get _ hi hj).trans ?_
    have hi : i < 2 := hi
    have hj : j < 2 := hj
    interval_cases i <;> interval_cases j <;>
      simp [Arr2.mulGet, rows, Arr2.ofFn, sum_range_succ] <;> norm_num
  have hb : (rows 2 7 [[2, 0.5, 0, 0.5, 0, 0.5, 1 / 32], [0, 0, 0.5, 0, 0.5, 0.5, -3 / 32]] : Arr2 ℝ).mulVec p.mu =
      .ok [4.5, 0.5] := by
    rw [h1]
    simp [Arr2.mulVec, rows, Arr2.ofFn, List.range_succ, sum_range_succ]
    norm_num
  refine ⟨_, ?_, show flattenC (rows 2 2 [[6.8125, 0.0625], [0.0625, 4.8125]]) = _ from by
    simp [flattenC, rows, Arr2.ofFn, List.range_succ]⟩
  unfold Prior.logDistribution
  rw [if_neg (by simp)]
  simp only [hL, hlx, hr, hw, hlw, ha, hb, h5, h6, bind, Except.bind, pure, Except.pure, Bool.false_eq_true, false_and, if_false]
  norm_num

/-- lines 35-44, in the limit of the smoothness parameter: matrix and penalty as expected. The vector is expected as `[-3.5, 0.5]`,
which belongs to the sign above. -/
example : ∃ A, { built with alpha := 0 }.logDistribution [2, 2] = .ok (A, [4.5, 0.5], 92) ∧
    flattenC A = [6.8125, 0.0625, 0.0625, 4.8125] :=
  smooth_params _ built_eq.1 built_eq.2.1 built_eq.2.2 built_cols.1 built_cols.2 rfl

end
end RepoTests
end Verif
