/-
Model of `src/models/regression.py`, of `src/models/error_in_variable.py` and of the dataclass of
`src/models/abstract_models.py`. Exact arithmetic; the CPU code path (`conf.GPU_AVAILABLE` false); casts to 32-bit floats
are identities. Linear solvers, pseudo-inverse, inverse and SVD are parameters.
-/
import Verif.Model.Prior
import Verif.Model.Parametrize
import Mathlib.Analysis.SpecialFunctions.Complex.Arg

namespace Verif
open Finset
noncomputable section

/-- `IterationStatus`, src/models/abstract_models.py:23-27 -/
structure IterationStatus where
  iteration : Nat
  params : Arr2 ℂ
  target : ℝ

/-- `ComplexRegression.fit`, src/models/regression.py:38-46: `pinv(x) @ z` -/
def complexRegressionFit (pinv : Arr2 ℂ → Except PyErr (Arr2 ℂ)) (x z : Arr2 ℂ) : Except PyErr (Arr2 ℂ) := do
  let p ← pinv x
  p.matmul z

/-- `np.block([x, y])` / `np.hstack((x, z))` of two 2-D arrays -/
def hstack (x z : Arr2 ℂ) : Except PyErr (Arr2 ℂ) :=
  if x.r = z.r then .ok (Arr2.ofFn x.r (x.c + z.c) (fun i j => if j < x.c then x.get i j else z.get i (j - x.c)))
  else .error .valueError

/-- `np.vstack((x, z))` -/
def vstack (x z : Arr2 ℂ) : Except PyErr (Arr2 ℂ) :=
  if x.c = z.c then .ok (Arr2.ofFn (x.r + z.r) x.c (fun i j => if i < x.r then x.get i j else z.get (i - x.r) j))
  else .error .valueError

/-- `m.conj().T` -/
def conjT (m : Arr2 ℂ) : Arr2 ℂ := Arr2.ofFn m.c m.r (fun i j => (starRingEnd ℂ) (m.get j i))

/-- `TotalLeastSquares.fit`, src/models/error_in_variable.py:36-51; `svdVh` returns the third result of `np.linalg.svd`.
Simplification: `y` is a 2-D array (a 1-D `y` is first reshaped to one column); the final flattening of a one-column
result is not represented. -/
def tlsFit (svdVh : Arr2 ℂ → Except PyErr (Arr2 ℂ)) (inv : Arr2 ℂ → Except PyErr (Arr2 ℂ)) (x y : Arr2 ℂ) :
    Except PyErr (Arr2 ℂ) := do
  let n := x.c
  let xy ← hstack x y
  let vh ← svdVh xy
  let v := conjT vh
  let vxy := slice2 v 0 (min n v.r) (min n v.c) v.c
  let vyy := slice2 v (min n v.r) v.r (min n v.c) v.c
  let vi ← inv vyy
  let beta ← (vxy.map (fun t => -t)).matmul vi
  pure beta

/-- Arguments of the constructors of `BayesianRegression` (regression.py:55-82) and `BayesianEIVRegression`
(error_in_variable.py:136-163). The two matrix builders return arrays of (real) numbers, seen as complex ones. -/
structure RegConfig where
  prior : Prior
  lam : ℝ
  absTol : ℝ
  relTol : ℝ
  maxIter : Nat
  dt : Nat → Except PyErr (Arr2 ℂ)
  e : Nat → Except PyErr (Arr2 ℂ)

/-- the mutable attributes `_iterations` and `_admittance_matrix` -/
structure RegObj where
  iterations : List IterationStatus
  admittance : Option (Arr2 ℂ)

/-- a new object -/
def RegObj.fresh : RegObj := ⟨[], none⟩

/-- `_is_stationary_point`, regression.py:88-90, error_in_variable.py:169-171. A division by zero gives nan or inf, of which
`<` is false. -/
def isStationary (cfg : RegConfig) (cur prev : ℝ) : Prop :=
  (|cur - prev| < cfg.absTol ∨ (prev ≠ 0 ∧ |cur - prev| / |prev| < cfg.relTol)) ∧ prev ≥ cur

/-- `spsolve` -/
abbrev Solver := Arr2 ℝ → List ℝ → Except PyErr (List ℝ)

/-- what one iteration needs from the previous one: `y_mat`, `M`, `mu` -/
structure FitState where
  yMat : Arr2 ℂ
  M : Arr2 ℝ
  mu : List ℝ

open Classical in
/-- The loop `for it in range(max_iterations)` of both `fit` methods with its logging and its early exit
(regression.py:124-145, error_in_variable.py:216-282): `step` is the body up to the computation of the target. An exception
leaves the entries logged so far in the list. `k` counts the remaining iterations, `it` the current one. -/
def fitLoop (cfg : RegConfig) (step : FitState → Except PyErr (FitState × ℝ)) :
    Nat → Nat → FitState → List IterationStatus → Except PyErr FitState × List IterationStatus
  | 0, _, s, log => (.ok s, log)
  | k + 1, it, s, log =>
    match step s with
    | .error e => (.error e, log)
    | .ok (s', target) =>
      let log' := log ++ [⟨it, s'.yMat, target⟩]
      if it > 0 then
        match log'[it - 1]? with
        | none => (.error .indexError, log')
        | some prev =>
          if isStationary cfg target prev.target then (.ok s', log')
          else fitLoop cfg step k (it + 1) s' log'
      else fitLoop cfg step k (it + 1) s' log'

/-- `make_real_matrix(sp.kron(sp.eye(n), x) @ DT)`, regression.py:116, error_in_variable.py:200, 241, 257 -/
def regressionMatrix (n : Nat) (x dt : Arr2 ℂ) : Except PyErr (Arr2 ℝ) := do
  let k ← ((Arr2.eye n).kron x).matmul dt
  pure (makeRealMatrix k)

/-- `y_mat = unvectorize_matrix(DT @ make_complex_vector(y), (n, n))`, regression.py:131, error_in_variable.py:266 -/
def toMatrix (n : Nat) (dt : Arr2 ℂ) (y : List ℝ) : Except PyErr (Arr2 ℂ) := do
  let v ← makeComplexVector y
  let w ← dt.mulVec v
  unvectorizeMatrix w (n, n)

/-- `make_real_vector(E @ vectorize_matrix(y_init))`, regression.py:117, error_in_variable.py:201 -/
def toParams (e : Arr2 ℂ) (y : Arr2 ℂ) : Except PyErr (List ℝ) := do
  let v ← e.mulVec (vectorizeMatrix y)
  pure (makeRealVector v)

/-- `v.dot(v)` -/
def sqNorm (v : List ℝ) : ℝ := (v.map (fun t => t * t)).sum

/-- 1-D dot product of real arrays -/
def dotList (u v : List ℝ) : Except PyErr ℝ :=
  if u.length = v.length then .ok ((List.zipWith (fun a b => a * b) u v).sum) else .error .valueError

/-- `P + λ * Q` for matrices -/
def addScaled (l : ℝ) (P Q : Arr2 ℝ) : Except PyErr (Arr2 ℝ) := Arr2.zipWith (fun a b => a + l * b) P Q

/-- body of the loop of `BayesianRegression.fit`, regression.py:125-140 -/
def regStep (solve : Solver) (cfg : RegConfig) (n : Nat) (dt : Arr2 ℂ) (A : Arr2 ℝ) (b : List ℝ) (s : FitState) :
    Except PyErr (FitState × ℝ) := do
  let ata ← A.T.matmul A
  let sys ← addScaled cfg.lam ata s.M
  let atb ← A.T.mulVec b
  let rhs ← broadcast1 (fun p q => p + cfg.lam * q) atb s.mu
  let y ← solve sys rhs
  let yMat ← toMatrix n dt y
  let (M, mu, penalty) ← cfg.prior.logDistribution y
  let ay ← A.mulVec y
  let db ← broadcast1 (fun p q => p - q) b ay
  pure (⟨yMat, M, mu⟩, |sqNorm db + cfg.lam * penalty|)

/-- what follows the loop of both `fit` methods (regression.py:147-148, error_in_variable.py:284-288): an exception leaves
the object with the entries logged so far -/
def finishFit (obj : RegObj) (r : Except PyErr FitState × List IterationStatus) : Except PyErr Unit × RegObj :=
  match r with
  | (.error e, log) => (.error e, ⟨log, obj.admittance⟩)
  | (.ok s', log) => (.ok (), ⟨log, some s'.yMat⟩)

/-- `BayesianRegression.fit`, regression.py:92-148. The result is the outcome and the object after the call. -/
def bayesianFit (solve : Solver) (cfg : RegConfig) (obj : RegObj) (x z yInit : Arr2 ℂ) :
    Except PyErr Unit × RegObj :=
  let setup : Except PyErr (Arr2 ℂ × Arr2 ℝ × List ℝ × FitState) := do
    let n := x.c
    let dt ← cfg.dt n
    let e ← cfg.e n
    let A ← regressionMatrix n x dt
    let y ← toParams e yInit
    let b := makeRealVector (vectorizeMatrix z)
    let (M, mu, _) ← cfg.prior.logDistribution y
    pure (dt, A, b, ⟨yInit, M, mu⟩)
  match setup with
  | .error e => (.error e, obj)
  | .ok (dt, A, b, s) =>
    finishFit obj (fitLoop cfg (regStep solve cfg x.c dt A b) cfg.maxIter 0 s obj.iterations)

/-- `underline_y`, error_in_variable.py:219-222 -/
def underlineY (T : Nat) (yMat : Arr2 ℂ) : Except PyErr (Arr2 ℝ) :=
  let re := (yMat.map Complex.re).kron (Arr2.eye T)
  let im := (yMat.map Complex.im).kron (Arr2.eye T)
  Arr2.block re (im.map (fun t => -t)) im re

/-- the weighted `Δv` sub-problem, error_in_variable.py:219-237: returns `da` -/
def eivCorrection (solve : Solver) (T : Nat) (xW zW : Arr2 ℝ) (yMat : Arr2 ℂ) (a b : List ℝ) :
    Except PyErr (List ℝ) := do
  let u ← underlineY T yMat
  let uw ← u.T.matmul zW
  let ysy ← uw.matmul u
  let sys ← Arr2.zipWith (fun p q => p + q) ysy xW
  let v1 ← ysy.mulVec a
  let v2 ← uw.mulVec b
  let rhs ← broadcast1 (fun p q => p - q) v1 v2
  solve sys rhs

/-- body of the loop of `BayesianEIVRegression.fit`, weighted branch, error_in_variable.py:217-248, 264-277 -/
def eivWeightedStep (solve : Solver) (cfg : RegConfig) (x : Arr2 ℂ) (dt : Arr2 ℂ) (A : Arr2 ℝ) (a b : List ℝ)
    (xW zW : Arr2 ℝ) (s : FitState) : Except PyErr (FitState × ℝ) := do
  let n := x.c
  let da ← eivCorrection solve x.r xW zW s.yMat a b
  let c ← makeComplexVector da
  let eqp ← unvectorizeMatrix c (x.r, x.c)
  let dA ← regressionMatrix n eqp dt
  let am ← Arr2.zipWith (fun p q => p - q) A dA
  let amw ← am.T.matmul zW
  let q ← amw.matmul am
  let sys ← addScaled cfg.lam q s.M
  let l ← amw.mulVec b
  let rhs ← broadcast1 (fun p q => p + cfg.lam * q) l s.mu
  let y ← solve sys rhs
  let yMat ← toMatrix n dt y
  let (M, mu, penalty) ← cfg.prior.logDistribution y
  let ay ← am.mulVec y
  let db ← broadcast1 (fun p q => p - q) b ay
  let wdb ← zW.mulVec db
  let c1 ← dotList db wdb
  let wda ← xW.mulVec da
  let c2 ← dotList da wda
  pure (⟨yMat, M, mu⟩, |c1 + c2 + cfg.lam * penalty|)

/-- the projector on the power-flow equations, error_in_variable.py:251-253 -/
def projector (inv : Arr2 ℂ → Except PyErr (Arr2 ℂ)) (n : Nat) (yMat : Arr2 ℂ) : Except PyErr (Arr2 ℂ) := do
  let nullsp ← vstack yMat ((Arr2.eye n).map (fun t => -t))
  let g ← (conjT nullsp).matmul nullsp
  let gi ← inv g
  let m ← nullsp.matmul gi
  let m ← m.matmul (conjT nullsp)
  Arr2.zipWith (fun p q => p - q) (Arr2.eye (2 * n)) m

/-- the projected data, error_in_variable.py:256: `hstack((x, z)) @ projor` -/
def projectedData (inv : Arr2 ℂ → Except PyErr (Arr2 ℂ)) (yMat x z : Arr2 ℂ) : Except PyErr (Arr2 ℂ) := do
  let p ← projector inv x.c yMat
  let xz ← hstack x z
  xz.matmul p

/-- body of the loop of `BayesianEIVRegression.fit`, unweighted branch, error_in_variable.py:250-262, 264-277. `da` is
complex here, and `da.dot(da)` does not conjugate. -/
def eivUnweightedStep (solve : Solver) (inv : Arr2 ℂ → Except PyErr (Arr2 ℂ)) (cfg : RegConfig) (x z : Arr2 ℂ)
    (dt : Arr2 ℂ) (b : List ℝ) (s : FitState) : Except PyErr (FitState × ℝ) := do
  let n := x.c
  let pd ← projectedData inv s.yMat x z
  let eqp := slice2 pd 0 pd.r 0 (min n pd.c)
  let da := vectorizeMatrix eqp
  let am ← regressionMatrix n eqp dt
  let q ← am.T.matmul am
  let sys ← addScaled cfg.lam q s.M
  let l ← am.T.mulVec b
  let rhs ← broadcast1 (fun p q => p + cfg.lam * q) l s.mu
  let y ← solve sys rhs
  let yMat ← toMatrix n dt y
  let (M, mu, penalty) ← cfg.prior.logDistribution y
  let ay ← am.mulVec y
  let db ← broadcast1 (fun p q => p - q) b ay
  let cost : ℂ := (sqNorm db : ℂ) + (da.map (fun t => t * t)).sum
  pure (⟨yMat, M, mu⟩, ‖cost + ((cfg.lam * penalty : ℝ) : ℂ)‖)

/-- `BayesianEIVRegression.fit` without line 210 (error_in_variable.py:196-208, 212-288): the weights as given -/
def eivBody (solve : Solver) (inv : Arr2 ℂ → Except PyErr (Arr2 ℂ)) (cfg : RegConfig) (obj : RegObj) (x z : Arr2 ℂ)
    (xW zW : Option (Arr2 ℝ)) (yInit : Arr2 ℂ) : Except PyErr Unit × RegObj :=
  let setup : Except PyErr (Arr2 ℂ × Arr2 ℝ × List ℝ × List ℝ × FitState) := do
    let n := x.c
    let dt ← cfg.dt n
    let e ← cfg.e n
    let A ← regressionMatrix n x dt
    let y ← toParams e yInit
    let a := makeRealVector (vectorizeMatrix x)
    let b := makeRealVector (vectorizeMatrix z)
    let (M, mu, _) ← cfg.prior.logDistribution y
    pure (dt, A, a, b, ⟨yInit, M, mu⟩)
  match setup with
  | .error e => (.error e, obj)
  | .ok (dt, A, a, b, s) =>
    let step := match zW, xW with
      | some zW, some xW => eivWeightedStep solve cfg x dt A a b xW zW
      | _, _ => eivUnweightedStep solve inv cfg x z dt b
    finishFit obj (fitLoop cfg step cfg.maxIter 0 s obj.iterations)

/-- `BayesianEIVRegression.fit`, error_in_variable.py:173-288. Line 210 converts `x_weight` instead of `z_weight`. When
only `z_weight` is given that conversion yields a matrix that is never used. -/
def eivFit (solve : Solver) (inv : Arr2 ℂ → Except PyErr (Arr2 ℂ)) (cfg : RegConfig) (obj : RegObj) (x z : Arr2 ℂ)
    (xWeight zWeight : Option (Arr2 ℝ)) (yInit : Arr2 ℂ) : Except PyErr Unit × RegObj :=
  let zW := match zWeight with
    | none => none
    | some _ => xWeight
  eivBody solve inv cfg obj x z xWeight zW yInit

end
end Verif
