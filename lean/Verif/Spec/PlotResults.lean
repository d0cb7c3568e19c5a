/-
Specification vocabulary for the report of plot_results.py.
-/
import Verif.Model.PlotResults
import Verif.Spec.Matrix

namespace Verif
namespace Spec
noncomputable section

/-- file or plot name of an output -/
def outputName : Output → String
  | .text f _ => f
  | .plot n _ => n

/-- the same file or plot; text files other than the one on sparsity state the same Frobenius errors and the same relative errors, the
series of errors and of values of the objective are equal -/
inductive SameErrors : Output → Output → Prop
  | text (file : String) {m m' : List ErrorMetrics}
      (h : file ≠ "sparsity_metrics.txt" → List.Forall₂ (fun a b : ErrorMetrics => a.fro = b.fro ∧ a.rrms = b.rrms) m m') :
      SameErrors (.text file m) (.text file m')
  | plot (name : String) {m m' : Arr2 ℝ} (h : name = "errors" ∨ name = "targets" → m = m') : SameErrors (.plot name m) (.plot name m')

/-- stored results of a network -/
structure StoredResults where
  y : Arr2 ℂ
  phases : String
  laplacian : Bool
  voltage : Arr2 ℂ
  labels : List Int
  standard : Option (Arr2 ℂ × Arr2 ℂ × Arr2 ℂ)
  bayesian : Option (Arr2 ℂ × List IterationStatus)

/-- the archives of a network hold these results; there are no uncertainty results -/
structure Stored (st : Store) (name : String) (R : StoredResults) : Prop where
  reference : ∃ d, st (resultFile .reference name) = some d ∧ d "y" = some (.mat R.y) ∧ d "p" = some (.str R.phases) ∧
    d "l" = some (.bool R.laplacian)
  network : ∃ d, st (resultFile .network name) = some d ∧ d "w" = some (.mat R.voltage) ∧ d "h" = some (.ints R.labels)
  noStandard : R.standard = none → st (resultFile .standard name) = none
  standard : ∀ s, R.standard = some s → ∃ d, st (resultFile .standard name) = some d ∧ d "o" = some (.mat s.1) ∧
    d "t" = some (.mat s.2.1) ∧ d "l" = some (.mat s.2.2)
  noBayesian : R.bayesian = none → st (resultFile .bayesian name) = none
  bayesian : ∀ b, R.bayesian = some b → ∃ d, st (resultFile .bayesian name) = some d ∧ d "y" = some (.mat b.1) ∧ d "i" = some (.log b.2)
  uncertainty : st (resultFile .uncertainty name) = none

/-- the identification was on one phase -/
def SinglePhase (R : StoredResults) : Prop := R.phases ≠ "012" ∧ R.phases ≠ "123"

/-- all matrices are of size `n`, labels and voltages fit together -/
structure ResultShapes (n : Nat) (R : StoredResults) : Prop where
  y : IsSquare n R.y
  standard : ∀ s, R.standard = some s → IsSquare n s.1 ∧ IsSquare n s.2.1 ∧ IsSquare n s.2.2
  bayesian : ∀ b, R.bayesian = some b → IsSquare n b.1 ∧ ∀ i ∈ b.2, IsSquare n i.params
  labels : R.labels.length = R.voltage.c
  three : ¬SinglePhase R → R.voltage.c % 3 = 0 ∧ n % 3 = 0

/-- number of columns of the voltages that carry label 1 for a single phase, of all columns otherwise -/
def NodeCount (R : StoredResults) (n : Nat) : Prop :=
  (SinglePhase R → R.labels.count 1 = n) ∧
    (¬SinglePhase R → R.voltage.c = n)

/-- the reference as it is shown: converted when the results are in sequences but `--sequence` is absent, or the other way round -/
def Shown (R : StoredResults) (sequence : Bool) (y : Arr2 ℂ) : Prop :=
  (R.phases = "012" ∧ sequence = false ∧ admittanceSequenceToPhase R.y = .ok y) ∨
  (R.phases = "123" ∧ sequence = true ∧ admittancePhaseToSequence R.y = .ok y) ∨
  (¬(R.phases = "012" ∧ sequence = false) ∧ ¬(R.phases = "123" ∧ sequence = true) ∧ y = R.y)

/-- two nodes without a line between them -/
def AbsentLine (n : Nat) (y : Arr2 ℂ) : Prop := ∃ i j, j < i ∧ i < n ∧ y.get i j = 0 ∧ y.get j i = 0

/-- symmetric part -/
def symHalf (n : Nat) (M : Arr2 ℂ) : Arr2 ℂ := Arr2.ofFn n n (fun i j => (M.get i j + M.get j i) / 2)

/-- the entries that are compared: off-diagonal ones with changed sign for Laplacians, the whole triangle otherwise -/
def compared (laplacian : Bool) (n : Nat) (M : Arr2 ℂ) : List ℂ :=
  if laplacian then (vel n (symHalf n M)).map (fun x => -x) else vech n (symHalf n M)

/-- the metrics `m` describe twice the symmetric part of the estimate `z` at the pairs of unconnected nodes of `y`: Frobenius norm and
largest modulus; the two percentages are 100 unless the estimate vanishes there -/
structure Spurious (n : Nat) (y z : Arr2 ℂ) (m : ErrorMetrics) : Prop where
  fro : m.fro ^ 2 = ∑ i ∈ Finset.range n, ∑ j ∈ Finset.range i, (open scoped Classical in
    if y.get i j = 0 ∧ y.get j i = 0 then ‖z.get i j + z.get j i‖ ^ 2 else 0)
  nonneg : 0 ≤ m.fro
  attained : ∃ i j, j < i ∧ i < n ∧ y.get i j = 0 ∧ y.get j i = 0 ∧ m.max = ‖z.get i j + z.get j i‖
  bound : ∀ i j, j < i → i < n → y.get i j = 0 → y.get j i = 0 → ‖z.get i j + z.get j i‖ ≤ m.max
  percent : (∃ i j, j < i ∧ i < n ∧ y.get i j = 0 ∧ y.get j i = 0 ∧ z.get i j + z.get j i ≠ 0) → m.rrms = 100 ∧ m.map = 100

/-- Frobenius norm of the difference of two matrices of the same shape -/
def froDist (y z : Arr2 ℂ) : ℝ := Real.sqrt (∑ i ∈ Finset.range y.r, ∑ j ∈ Finset.range y.c, ‖y.get i j - z.get i j‖ ^ 2)

/-- Frobenius norm -/
def froSize (y : Arr2 ℂ) : ℝ := Real.sqrt (∑ i ∈ Finset.range y.r, ∑ j ∈ Finset.range y.c, ‖y.get i j‖ ^ 2)

/-- the metrics state the Frobenius error and its percentage for the estimate `z` of `y` -/
def States (y z : Arr2 ℂ) (m : ErrorMetrics) : Prop :=
  y.r = z.r ∧ y.c = z.c ∧ m.fro = froDist y z ∧ m.rrms = froDist y z / froSize y * 100

end
end Spec
end Verif
