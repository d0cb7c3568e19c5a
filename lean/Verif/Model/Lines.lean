/-
Model of the conversions between phase and sequence quantities, src/simulation/lines.py:52-130,
and of the assembly of the three-phase admittance matrix, src/simulation/network_3ph.py:121-127.
-/
import Verif.Py.Arr2
import Mathlib.Analysis.SpecialFunctions.Trigonometric.Basic

namespace Verif
noncomputable section

/-- `np.deg2rad(d)` -/
def deg2rad (d : ℝ) : ℝ := d * Real.pi / 180

/-- `np.exp(1j * np.deg2rad(d))` -/
def rot (d : ℝ) : ℂ := Complex.exp (Complex.I * (deg2rad d : ℝ))

/-- 3x3 block of `t_abc`, lines.py:59-64, 82-87, 106-111 -/
def abcBlock : Arr2 ℂ :=
  Arr2.ofFn 3 3 (fun i j => if i = 0 ∨ j = 0 then 1 else if i = j then rot (-120) else rot 120)

/-- 3x3 block of `t_012`, lines.py:66-71, 89-94, 123-128 -/
def seqBlock : Arr2 ℂ :=
  Arr2.ofFn 3 3 (fun i j => (if i = 0 ∨ j = 0 then 1 else if i = j then rot 120 else rot (-120)) / 3)

/-- `np.kron(np.eye(int(c / 3)), block)` -/
def tMatrix (c : Nat) (b : Arr2 ℂ) : Arr2 ℂ := (Arr2.eye (c / 3)).kron b

/-- `admittance_sequence_to_phase`, lines.py:52-73 -/
def admittanceSequenceToPhase (y : Arr2 ℂ) : Except PyErr (Arr2 ℂ) := do
  let m ← (tMatrix y.c abcBlock).matmul y
  m.matmul (tMatrix y.c seqBlock)

/-- `admittance_phase_to_sequence`, lines.py:75-96 -/
def admittancePhaseToSequence (y : Arr2 ℂ) : Except PyErr (Arr2 ℂ) := do
  let m ← (tMatrix y.c seqBlock).matmul y
  m.matmul (tMatrix y.c abcBlock)

/-- `measurement_sequence_to_phase`, lines.py:99-113 -/
def measurementSequenceToPhase (m : Arr2 ℂ) : Except PyErr (Arr2 ℂ) := m.matmul (tMatrix m.c abcBlock)

/-- `measurement_phase_to_sequence`, lines.py:116-130 -/
def measurementPhaseToSequence (m : Arr2 ℂ) : Except PyErr (Arr2 ℂ) := m.matmul (tMatrix m.c seqBlock)

/-- `y_012` of `make_y_bus`, network_3ph.py:124-125; the three sequence matrices come from pandapower -/
def sequenceBus (y0 y1 y2 : Arr2 ℂ) : Except PyErr (Arr2 ℂ) := do
  let s ← (y0.kron (Arr2.diag [1, 0, 0])).zipWith (· + ·) (y1.kron (Arr2.diag [0, 1, 0]))
  s.zipWith (· + ·) (y2.kron (Arr2.diag [0, 0, 1]))

/-- `NetData3P.make_y_bus` after the power flow, network_3ph.py:124-127 -/
def makeYBus3 (y0 y1 y2 : Arr2 ℂ) : Except PyErr (Arr2 ℂ) := do
  admittanceSequenceToPhase (← sequenceBus y0 y1 y2)

end
end Verif
