/-
Model of `src/models/bayesian_prior.py` and `src/models/smooth_prior.py`: a prior object is a state; every method
returns the new state together with the outcome, because a Python exception keeps the assignments done before it.
-/
import Verif.Py.Arr2
import Verif.Model.MatrixOps
import Mathlib.Analysis.SpecialFunctions.Pow.Real

namespace Verif
open Finset
noncomputable section

/-- State of a `SmoothPrior` / `SparseSmoothPrior`: `self.n`, `self.L` (its width `lcols` and its rows), `self.mu`,
`self.gamma`, `self.alpha`; `sparseClass` tells the class, `sparseNow` whether `self.L` currently is a csr matrix. -/
structure Prior where
  n : Nat
  lcols : Nat
  rows : List (List ℝ)
  mu : List ℝ
  gamma : List ℝ
  alpha : ℝ
  sparseClass : Bool
  sparseNow : Bool

/-- the `weights` / `orders` arguments: `None`, a scalar, or an array -/
inductive Weights
  | none
  | scalar (w : ℝ)
  | array (ws : List ℝ)

namespace Prior

/-- `_std_weights`, src/models/bayesian_prior.py:29-35; `len` is the length of `standard`. An array is returned as is,
without a length check. -/
def stdWeights (w : Weights) (len : Nat) : List ℝ :=
  match w with
  | .none => List.replicate len 1
  | .scalar w => List.replicate len w
  | .array ws => ws

/-- `xs[i]` for `i` in `range(..)`: `IndexError` beyond the end -/
def at' {β : Type} (xs : List β) (i : Nat) : Except PyErr β :=
  match xs[i]? with
  | some x => .ok x
  | none => .error .indexError

/-- `row[idx] = v` on a row of length `n` -/
def setRow (row : List ℝ) (idx : Int) (v : ℝ) : Except PyErr (List ℝ) := do
  let k ← pyIndex row.length idx
  pure (row.set k v)

/-- `added_L = np.zeros((m, n)); for i in range(m): added_L[i, <targets i>] = <value i>` -/
def buildRows (m n : Nat) (body : List ℝ → Nat → Except PyErr (List ℝ)) : Except PyErr (List (List ℝ)) :=
  (List.range m).mapM (fun i => body (List.replicate n 0) i)

/-- `self.mu = concatenate(self.mu, newMu)`, then the loop filling `added_L`, then `self.L = vstack(self.L, added_L)`.
The assignment of `mu` happens before the loop: on an exception it stays. -/
def append (p : Prior) (newMu : List ℝ) (rows : Except PyErr (List (List ℝ))) : Except PyErr Unit × Prior :=
  let p1 := { p with mu := p.mu ++ newMu }
  match rows with
  | .error e => (.error e, p1)
  | .ok rs =>
    if p.lcols = p.n then (.ok (), { p1 with rows := p.rows ++ rs })
    else (.error .valueError, p1)

/-- `BayesianPrior.__init__` + `SmoothPrior.__init__` (+ `SparseSmoothPrior.__init__`),
bayesian_prior.py:24-27, smooth_prior.py:27-33, 137-139, without `other`. -/
def new (sparse : Bool) (alpha : ℝ) (n : Nat) : Prior :=
  { n := n, lcols := n, rows := [], mu := [], gamma := [], alpha := alpha, sparseClass := sparse, sparseNow := sparse }

/-- The same constructors with `other`: `L`, `mu`, `gamma` are taken from `other`, but `n` is the argument (default 0).
Simplification: `other` is of the same class. (Arrays are shared, but no method mutates an array in place.) -/
def copy (alpha : ℝ) (n : Nat) (other : Prior) : Prior :=
  { n := n, lcols := other.lcols, rows := other.rows, mu := other.mu, gamma := other.gamma, alpha := alpha,
    sparseClass := other.sparseClass, sparseNow := other.sparseClass }

/-- `BayesianPrior.add_exact_prior`, bayesian_prior.py:37-52. `weights*values` broadcasts and raises before any
assignment when the shapes are incompatible. -/
def baseAddExact (p : Prior) (indices : List Int) (values : List ℝ) (weights : Weights) : Except PyErr Unit × Prior :=
  let ws := stdWeights weights values.length
  match broadcast1 (fun a b => a * b) ws values with
  | .error e => (.error e, p)
  | .ok wv =>
    p.append wv (buildRows indices.length p.n (fun row i => do
      let w ← at' ws i
      let idx ← at' indices i
      setRow row idx w))

/-- `BayesianPrior.add_exact_adaptive_prior`, bayesian_prior.py:54-69 (division by zero is `inf` in numpy, `0` here). -/
def baseAddExactAdaptive (p : Prior) (indices : List Int) (values : List ℝ) (weights : Weights) :
    Except PyErr Unit × Prior :=
  let ws := stdWeights weights values.length
  p.append ws (buildRows indices.length p.n (fun row i => do
    let w ← at' ws i
    let v ← at' values i
    let idx ← at' indices i
    setRow row idx (w / v)))

/-- `BayesianPrior.add_sparsity_prior`, bayesian_prior.py:71-85. -/
def baseAddSparsity (p : Prior) (indices : List Int) (weights : Weights) : Except PyErr Unit × Prior :=
  let ws := stdWeights weights indices.length
  p.append (List.replicate indices.length 0) (buildRows indices.length p.n (fun row i => do
    let w ← at' ws i
    let idx ← at' indices i
    setRow row idx w))

/-- `BayesianPrior.add_adaptive_sparsity_prior`, bayesian_prior.py:87-100. -/
def baseAddAdaptiveSparsity (p : Prior) (indices : List Int) (values : List ℝ) : Except PyErr Unit × Prior :=
  p.append (List.replicate indices.length 0) (buildRows indices.length p.n (fun row i => do
    let v ← at' values i
    let idx ← at' indices i
    setRow row idx (1 / v)))

/-- `BayesianPrior.add_contrast_prior`, bayesian_prior.py:102-117; `indices` is the list of the rows of the index
matrix. `added_L[i, indices[i, :]] = w` sets every listed entry. -/
def baseAddContrast (p : Prior) (indices : List (List Int)) (values : List ℝ) (weights : Weights) :
    Except PyErr Unit × Prior :=
  let ws := stdWeights weights values.length
  p.append ws (buildRows indices.length p.n (fun row i => do
    let w ← at' ws i
    let v ← at' values i
    let idxs ← at' indices i
    idxs.foldlM (fun row idx => setRow row idx (w / v)) row))

/-- `BayesianPrior.add_ratios_prior`, bayesian_prior.py:119-134; `ncols` is `indices.shape[1]`. Assigning the two values
`[1, -v]*w` to `indices[i, :]` raises `ValueError` when there are more than two columns. -/
def baseAddRatios (p : Prior) (ncols : Nat) (indices : List (List Int)) (values : List ℝ) (weights : Weights) :
    Except PyErr Unit × Prior :=
  if ncols < 2 then (.error .assertionError, p)
  else
    let ws := stdWeights weights indices.length
    p.append (List.replicate indices.length 0) (buildRows indices.length p.n (fun row i => do
      let v ← at' values i
      let w ← at' ws i
      let idxs ← at' indices i
      match idxs with
      | [a, b] => do
        let _ ← pyIndex row.length a
        let _ ← pyIndex row.length b
        let row ← setRow row a (1 * w)
        setRow row b (-v * w)
      | _ => .error .valueError))

/-- the six kinds of calls -/
inductive Call
  | exact (indices : List Int) (values : List ℝ) (weights : Weights)
  | exactAdaptive (indices : List Int) (values : List ℝ) (weights : Weights)
  | sparsity (indices : List Int) (weights : Weights)
  | adaptiveSparsity (indices : List Int) (values : List ℝ)
  | contrast (indices : List (List Int)) (values : List ℝ) (weights : Weights)
  | ratios (ncols : Nat) (indices : List (List Int)) (values : List ℝ) (weights : Weights)

/-- the class `BayesianPrior` -/
def baseCall (p : Prior) : Call → Except PyErr Unit × Prior
  | .exact i v w => p.baseAddExact i v w
  | .exactAdaptive i v w => p.baseAddExactAdaptive i v w
  | .sparsity i w => p.baseAddSparsity i w
  | .adaptiveSparsity i v => p.baseAddAdaptiveSparsity i v
  | .contrast i v w => p.baseAddContrast i v w
  | .ratios k i v w => p.baseAddRatios k i v w

/-- what the overriding method of `SmoothPrior` delegates to: `add_exact_adaptive_prior` calls
`BayesianPrior.add_exact_prior` (smooth_prior.py:71), the others call their namesake. -/
def delegate : Call → Call
  | .exactAdaptive i v w => .exact i v w
  | c => c

/-- length of the array used to standardise `orders`: `values`, or `indices` for the sparsity prior
(smooth_prior.py:59, 73, 86, 100, 114, 128) -/
def ordersLen : Call → Nat
  | .exact _ v _ => v.length
  | .exactAdaptive _ v _ => v.length
  | .sparsity i _ => i.length
  | .adaptiveSparsity _ v => v.length
  | .contrast _ v _ => v.length
  | .ratios _ _ v _ => v.length

/-- `SmoothPrior.add_*_prior`, smooth_prior.py:48-129: the base call, then `self.gamma = concatenate(gamma, orders)`. -/
def smoothCall (p : Prior) (c : Call) (orders : Weights) : Except PyErr Unit × Prior :=
  match p.baseCall (delegate c) with
  | (.error e, p') => (.error e, p')
  | (.ok (), p') => (.ok (), { p' with gamma := p'.gamma ++ stdWeights orders (ordersLen c) })

/-- `add_*_prior` of either class. `SparseSmoothPrior` (smooth_prior.py:150-226) first calls `self.L.toarray()`
(`AttributeError` if `L` is not sparse) and converts back only if the inner call returns. -/
def call (p : Prior) (c : Call) (orders : Weights) : Except PyErr Unit × Prior :=
  if p.sparseClass then
    if p.sparseNow then
      match { p with sparseNow := false }.smoothCall c orders with
      | (.error e, p') => (.error e, p')
      | (.ok (), p') => (.ok (), { p' with sparseNow := true })
    else (.error .attributeError, p)
  else p.smoothCall c orders

/-- `self.L` as an array -/
def larr (p : Prior) : Arr2 ℝ :=
  Arr2.ofFn p.rows.length p.lcols (fun i j => (p.rows.getD i []).getD j 0)

/-- `log_distribution`, smooth_prior.py:40-46, 141-148. `x.squeeze()` of a one-element vector is a scalar, which `@`
rejects; the sparse class also squeezes `mu`. `0 ** 0 = 1` in numpy and for `Real.rpow`. Simplification: sparse products
denote the dense ones (`C168_prior`). -/
def logDistribution (p : Prior) (x : List ℝ) : Except PyErr (Arr2 ℝ × List ℝ × ℝ) := do
  if x.length = 1 then throw .valueError
  let lx ← p.larr.mulVec x
  let r ← broadcast1 (fun a b => a - b) lx p.mu
  let w0 ← broadcast1 (fun r g => |r| ^ ((2 : ℝ) - g)) r p.gamma
  let w := w0.map (fun t => t + p.alpha)
  let winv := Arr2.diag (w.map (fun t => 1 / t))
  let lw ← p.larr.T.matmul winv
  let a ← lw.matmul p.larr
  if p.sparseClass ∧ p.mu.length = 1 then throw .valueError
  let b ← lw.mulVec p.mu
  pure (a, b, w.sum)

/-- orders: `SmoothPrior.DELTA/LAPLACE/GAUSS`, smooth_prior.py:36-38 -/
def DELTA : ℝ := 0
def LAPLACE : ℝ := 1
def GAUSS : ℝ := 2

end Prior
end
end Verif
