/-
Specification vocabulary for data of several phases or sequences: positions of a label, the data and the block of one label, and a
matrix assembled from the blocks. Independent of the model of run3ph.py.
-/
import Verif.Spec.Matrix
import Verif.Model.Regression

namespace Verif
namespace Spec

/-- `f 0 < f 1 < … < f (m - 1)` are the positions of the label -/
structure LabelPos (ids : List Int) (l : Int) (m : Nat) (f : Nat → Nat) : Prop where
  mono : ∀ a b, a < b → b < m → f a < f b
  lt : ∀ a, a < m → f a < ids.length
  label : ∀ a, a < m → ids.getD (f a) 0 = l
  all : ∀ p, p < ids.length → ids.getD p 0 = l → ∃ a, a < m ∧ f a = p

noncomputable section

/-- the columns at the positions -/
def columnsAt (a : Arr2 ℂ) (m : Nat) (f : Nat → Nat) : Arr2 ℂ := Arr2.ofFn a.r m (fun t j => a.get t (f j))

/-- the rows and columns at the positions -/
def blockAt (y : Arr2 ℂ) (m : Nat) (f : Nat → Nat) : Arr2 ℂ := Arr2.ofFn m m (fun a b => y.get (f a) (f b))

/-- the entries at the positions -/
def entriesAt (v : List ℝ) (m : Nat) (f : Nat → Nat) : List ℝ := (List.range m).map (fun a => v.getD (f a) 0)

end

/-- `y` has the matrix `ys l` at the positions of label `l`, and zeros between different labels -/
structure Assembled (ids : List Int) (m : Fin 3 → Nat) (f : Fin 3 → Nat → Nat) (ys : Fin 3 → Arr2 ℂ) (y : Arr2 ℂ) : Prop where
  square : IsSquare ids.length y
  block : ∀ l a b, a < m l → b < m l → y.get (f l a) (f l b) = (ys l).get a b
  cross : ∀ p q, p < ids.length → q < ids.length → ids.getD p 0 ≠ ids.getD q 0 → y.get p q = 0
  other : ∀ p q, p < ids.length → q < ids.length → (∀ l : Fin 3, ids.getD p 0 ≠ (l.val : Int)) → y.get p q = 0

/-- the log of a three-phase run: as long as the shortest of the three logs, with sums of the targets and assembled iterates -/
structure Merged (ids : List Int) (m : Fin 3 → Nat) (f : Fin 3 → Nat → Nat) (logs : Fin 3 → List IterationStatus)
    (log : List IterationStatus) : Prop where
  shortest : (∀ l, log.length ≤ (logs l).length) ∧ ∃ l, log.length = (logs l).length
  entry : ∀ (k : Nat) (e : IterationStatus), log[k]? = some e → ∃ es : Fin 3 → IterationStatus, (∀ l, (logs l)[k]? = some (es l)) ∧
    e.iteration = k ∧ e.target = (es 0).target + (es 1).target + (es 2).target ∧ Assembled ids m f (fun l => (es l).params) e.params

end Spec
end Verif
