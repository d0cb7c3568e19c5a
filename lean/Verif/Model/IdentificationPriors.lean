/-
Model of the priors built by `src/identification/run.py` (and the copies in `src/identification/run3ph.py`).
-/
import Verif.Model.Prior
import Verif.Model.Parametrize
import Mathlib.Analysis.Complex.Norm

namespace Verif
open Finset
noncomputable section

/-- `np.where(v > 0)[0]` -/
def wherePos (v : List ℝ) : List Nat := (List.range v.length).filter (fun k => decide (0 < v.getD k 0))

/-- `np.where(np.abs(v) > 0)[0]` -/
def whereAbsPos (v : List ℝ) : List Nat := wherePos (v.map (fun t => |t|))

/-- `v[idx]` for an integer index array (here always the result of `np.where`, so never negative) -/
def takeIdx (v : List ℝ) (idx : List Nat) : Except PyErr (List ℝ) := idx.mapM (fun k => Prior.at' v k)

/-- an index array passed to the prior -/
def asInts (idx : List Nat) : List Int := idx.map (fun k : Nat => (k : Int))

/-- `np.ones((n, n)) - np.eye(n)` -/
def onesMinusEye (n : Nat) : Arr2 ℂ := Arr2.ofFn n n (fun i j => 1 - if i = j then 1 else 0)

/-- `eye[:, i:i+1] @ ones((1, n)) + ones((n, 1)) @ eye[i:i+1, :] - 2*eye[:, i:i+1] @ eye[i:i+1, :]` -/
def starMatrix (n i : Nat) : Arr2 ℂ := Arr2.ofFn n n (fun a b =>
  (if a = i then 1 else 0) * 1 + 1 * (if b = i then 1 else 0) - 2 * (if a = i then 1 else 0) * (if b = i then 1 else 0))

/-- raise the exception of a call on a prior, else continue with its new state -/
def raisePrior (r : Except PyErr Unit × Prior) : Except PyErr Prior :=
  match r with
  | (.ok (), p) => .ok p
  | (.error e, _) => .error e

/-- `c * v` for a complex scalar -/
def scaleVec (c : ℂ) (v : List ℂ) : List ℂ := v.map (fun z => c * z)

/-- `build_lasso_prior`, src/identification/run.py:14-35; src/identification/run3ph.py:16-31 receives the same `E` and `DT`
as arguments (run3ph.py:112-118). `np.divide(1.0, 0.0)` is `inf` in numpy and `0` here; the row entry `1/value` of the
prior is `0` in both. -/
def buildLassoPrior (nodes : Nat) (yOls : Arr2 ℂ) (laplacian : Bool) : Except PyErr Prior := do
  let e ← eMatrix ℂ laplacian nodes
  let ySym ← symmetrize laplacian nodes yOls
  let es ← e.mulVec (vectorizeMatrix ySym)
  let adaptive := (makeRealVector es).map (fun t => 1 / |t| ^ (1 : ℝ))
  let ey ← e.mulVec (vectorizeMatrix yOls)
  let prior := Prior.new true 0.00001 (ey.length * 2)
  raisePrior (prior.call (.adaptiveSparsity (asInts (List.range prior.n)) adaptive) (.scalar Prior.LAPLACE))

/-- `build_loads_id_prior`, src/identification/run.py:37-63. `(1+1j)*E @ v` is `((1+1j)*E) @ v`; modelled as
`(1+1j)*(E @ v)`, the same number. -/
def buildLoadsIdPrior (nodes : Nat) (yBus : Arr2 ℂ) : Except PyErr Prior := do
  let e ← eMatrix ℂ false nodes
  let mask ← e.mulVec (vectorizeMatrix (onesMinusEye nodes))
  let off := wherePos (makeRealVector (scaleVec (1 + Complex.I) mask))
  let ey ← e.mulVec (vectorizeMatrix yBus)
  let prior := Prior.new true 1e-10 (ey.length * 2)
  let vals ← takeIdx (makeRealVector ey) off
  raisePrior (prior.call (.exact (asInts off) vals .none) (.scalar Prior.LAPLACE))

/-- `np.vstack(tuple(np.split(v, 2)))`: the two rows; `np.split` raises `ValueError` on an odd length -/
def split2 {β : Type} (v : List β) : Except PyErr (List β × List β) :=
  if v.length % 2 = 0 then .ok (v.take (v.length / 2), v.drop (v.length / 2)) else .error .valueError

/-- `np.real(v)` then `np.imag(v)` concatenated, run.py:110-112 -/
def concatReIm (v : List ℂ) : List ℝ := v.map Complex.re ++ v.map Complex.im

/-- `np.diag(m)` of a square array -/
def diagOf (n : Nat) (m : Arr2 ℂ) : List ℂ := (List.range n).map (fun i => m.get i i)

/-- `y - np.diag(np.diag(y))` -/
def dropDiag (n : Nat) (m : Arr2 ℂ) : Arr2 ℂ := Arr2.ofFn n n (fun i j => m.get i j - if i = j then m.get i i else 0)

/-- `values_contrast`, run.py:109-113 -/
def valuesContrast (nodes : Nat) (yTls ySym : Arr2 ℂ) (laplacian useTlsDiag : Bool) : List ℝ :=
  let v := if useTlsDiag then concatReIm (diagOf nodes yTls)
    else (concatReIm (dropDiag nodes ySym).rowSums).map (fun t => -t)
  if laplacian then v else v.map (fun t => -t)

/-- `build_complex_prior`, src/identification/run.py:65-144, for `nodes ≥ 1` (for `nodes = 0` numpy's `vstack` of two empty
arrays has two rows). Division by zero is `inf` in numpy and `0` here. -/
def buildComplexPrior (nodes : Nat) (lambdaprime : ℝ) (yTls : Arr2 ℂ) (laplacian useTlsDiag contrastEachRow
    regularizeDiag : Bool) : Except PyErr Prior := do
  let e ← eMatrix ℂ laplacian nodes
  let ySym ← symmetrize laplacian nodes yTls
  let ey ← e.mulVec (vectorizeMatrix yTls)
  let prior := Prior.new true 1e-8 (ey.length * 2)
  let mask ← e.mulVec (vectorizeMatrix (onesMinusEye nodes))
  let off := wherePos (makeRealVector (scaleVec (1 + Complex.I) (mask.map (fun z => ((‖z‖ : ℝ) : ℂ)))))
  let es ← e.mulVec (vectorizeMatrix ySym)
  let vals ← takeIdx ((makeRealVector es).map (fun t => |t|)) off
  let prior ← raisePrior (prior.call (.adaptiveSparsity (asInts off) vals) (.scalar Prior.LAPLACE))
  let vc := valuesContrast nodes yTls ySym laplacian useTlsDiag
  if contrastEachRow then do
    let reRows ← (List.range nodes).mapM (fun i => do
      let s ← e.mulVec (vectorizeMatrix (starMatrix nodes i))
      pure (whereAbsPos (makeRealVector s)))
    let imRows ← (List.range nodes).mapM (fun i => do
      let s ← e.mulVec (vectorizeMatrix (starMatrix nodes i))
      pure (whereAbsPos (makeRealVector (scaleVec Complex.I s))))
    let ws := (List.replicate nodes (-1 : ℝ) ++ List.replicate nodes 1).map (fun w => lambdaprime * w)
    let prior ← raisePrior (prior.call (.contrast ((reRows ++ imRows).map asInts) vc (.array ws)) (.scalar Prior.LAPLACE))
    if regularizeDiag then do
      let dm ← e.mulVec (vectorizeMatrix (Arr2.eye nodes))
      let idx := whereAbsPos (makeRealVector (scaleVec (1 + Complex.I) dm))
      raisePrior (prior.call (.exactAdaptive (asInts idx) (concatReIm (diagOf nodes yTls)) (.scalar lambdaprime))
        (.scalar Prior.LAPLACE))
    else pure prior
  else do
    let (offRe, offIm) ← split2 off
    let (vcRe, vcIm) ← split2 vc
    raisePrior (prior.call (.contrast [asInts offRe, asInts offIm] [-vcRe.sum, -vcIm.sum]
      (.array [lambdaprime * 1, lambdaprime * (-1)])) (.scalar Prior.LAPLACE))

end
end Verif
