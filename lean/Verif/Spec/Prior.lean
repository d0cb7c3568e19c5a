/-
What a prior means, independently of how the code stores it: a list of terms `|⟨row, x⟩ - center|^order`.
-/
import Verif.Model.Prior

namespace Verif
open Finset
noncomputable section

namespace Spec

/-- one term of a prior -/
structure Term where
  row : List ℝ
  center : ℝ
  order : ℝ

/-- scalar product of two vectors of length `n` -/
def dot (n : Nat) (a x : List ℝ) : ℝ := ∑ k ∈ range n, a.getD k 0 * x.getD k 0

/-- residual of a term -/
def Term.resid (n : Nat) (x : List ℝ) (t : Term) : ℝ := dot n t.row x - t.center

/-- `|r|^(2-order) + α`, the reciprocal of the weight given to the squared residual -/
def Term.scale (n : Nat) (α : ℝ) (x : List ℝ) (t : Term) : ℝ := |t.resid n x| ^ ((2 : ℝ) - t.order) + α

/-- "one value per index": the arrays of a call have one entry per index, `orders` too; for ratios, two indices a row -/
def OneValuePerIndex (c : Prior.Call) (orders : Weights) : Prop :=
  let ok (w : Weights) (m : Nat) : Prop := match w with | .array ws => ws.length = m | _ => True
  match c with
  | .exact i v w => v.length = i.length ∧ ok w i.length ∧ ok orders i.length
  | .exactAdaptive i v w => v.length = i.length ∧ ok w i.length ∧ ok orders i.length
  | .sparsity i w => ok w i.length ∧ ok orders i.length
  | .adaptiveSparsity i v => v.length = i.length ∧ ok orders i.length
  | .contrast i v w => v.length = i.length ∧ ok w i.length ∧ ok orders i.length
  | .ratios _ i v w => v.length = i.length ∧ ok w i.length ∧ ok orders i.length

/-- a history of calls, stopped at the first exception -/
def runAll : Prior → List (Prior.Call × Weights) → Except PyErr Unit × Prior
  | p, [] => (.ok (), p)
  | p, (c, o) :: h =>
    match p.call c o with
    | (.ok (), p') => runAll p' h
    | (.error e, p') => (.error e, p')

/-- the bookkeeping invariant of C12 -/
structure Consistent (p : Prior) : Prop where
  mu_len : p.mu.length = p.rows.length
  gamma_len : p.gamma.length = p.rows.length
  width : p.lcols = p.n
  row_len : ∀ row ∈ p.rows, row.length = p.n
  storage : p.sparseNow = p.sparseClass

/-- the terms stored by a prior -/
def terms (p : Prior) : List Term :=
  (p.rows.zip (p.mu.zip p.gamma)).map (fun t => ⟨t.1, t.2.1, t.2.2⟩)

end Spec
end
end Verif
