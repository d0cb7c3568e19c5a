/-
Model of `add_known_lines`, `src/identification/run.py:147-245`.
-/
import Verif.Model.IdentificationPriors
import Mathlib.Data.List.Infix

namespace Verif
open Finset
noncomputable section

/-- `sub in s` for strings -/
def inStr (sub s : String) : Prop := sub.toList <:+: s.toList

instance (sub s : String) : Decidable (inStr sub s) := by unfold inStr; infer_instance

/-- `m[i, j]` -/
def item (m : Arr2 ℂ) (i j : Nat) : Except PyErr ℂ := do
  let a ← pyIndex m.r i
  let b ← pyIndex m.c j
  pure (m.get a b)

/-- `m[k, :], m[:, k] = v, v` -/
def setCross (m : Arr2 ℂ) (k : Nat) (v : ℂ) : Except PyErr (Arr2 ℂ) := do
  let a ← pyIndex m.r k
  let b ← pyIndex m.c k
  pure (Arr2.ofFn m.r m.c (fun i j => if i = a ∨ j = b then v else m.get i j))

/-- `m[i, j], m[j, i] = y[i, j], y[j, i]` -/
def setLine (y m : Arr2 ℂ) (i j : Nat) : Except PyErr (Arr2 ℂ) := do
  let u ← item y i j
  let v ← item y j i
  let m ← m.set i j u
  m.set j i v

/-- the branch `"optimal" in prior_type`, run.py:173-192: weights and centres -/
def optimalLines (y w c : Arr2 ℂ) : Except PyErr (Arr2 ℂ × Arr2 ℂ) := do
  let w ← setCross w 0 (1 + Complex.I)
  let w ← w.set 0 0 0
  let c ← setCross c 0 0
  let c ← setLine y c 1 0
  let w ← setCross w 26 (1 + Complex.I)
  let w ← setCross w 25 (1 + Complex.I)
  let w ← w.set 26 26 0
  let w ← w.set 25 25 0
  let c ← setCross c 26 0
  let c ← setCross c 25 0
  let c ← setLine y c 24 25
  let c ← setLine y c 26 25
  let c ← setLine y c 26 27
  let c ← setLine y c 26 28
  pure (w, c)

/-- the branch `"suboptimal" in prior_type`, run.py:200-217 -/
def suboptimalLines (y w c : Arr2 ℂ) : Except PyErr (Arr2 ℂ × Arr2 ℂ) := do
  let w ← setCross w 7 (1 + Complex.I)
  let w ← w.set 7 7 0
  let c ← setCross c 7 0
  let c ← setLine y c 7 6
  let c ← setLine y c 7 8
  let w ← setCross w 21 (1 + Complex.I)
  let w ← setCross w 20 (1 + Complex.I)
  let w ← w.set 21 21 0
  let w ← w.set 20 20 0
  let c ← setCross c 21 0
  let c ← setCross c 20 0
  let c ← setLine y c 19 20
  let c ← setLine y c 21 20
  let c ← setLine y c 21 22
  pure (w, c)

/-- what follows the branches, run.py:225-232 -/
def addFromMasks (e : Arr2 ℂ) (prior : Prior) (lambdaprime : ℝ) (wrong : Prop) [Decidable wrong] (w c : Arr2 ℂ) :
    Except PyErr Prior := do
  let wv ← e.mulVec (vectorizeMatrix w)
  let idx := whereAbsPos (makeRealVector wv)
  let cv ← e.mulVec (vectorizeMatrix c)
  let vals ← takeIdx (makeRealVector cv) idx
  raisePrior (prior.call (.exactAdaptive (asInts idx) (vals.map (fun t => t * if wrong then 1.1 else 1))
    (.scalar (lambdaprime * if wrong then 0.01 else 1))) (.scalar Prior.LAPLACE))

/-- `add_known_lines`, run.py:147-245; `y_bus` is a complex array. `DT` (lines 163, 166) is computed but not used; building
it never fails. -/
def addKnownLines (nodes : Nat) (prior : Prior) (lambdaprime : ℝ) (yBus : Arr2 ℂ) (laplacian : Bool)
    (priorType : String) : Except PyErr Prior := do
  let e ← eMatrix ℂ laplacian nodes
  let z := Arr2.zeros yBus.r yBus.c
  let (w, c) ← if inStr "optimal" priorType then optimalLines yBus z z
    else if inStr "suboptimal" priorType then suboptimalLines yBus z z
    else pure (z, z)
  addFromMasks e prior lambdaprime (inStr "wrong" priorType) w c

end
end Verif
