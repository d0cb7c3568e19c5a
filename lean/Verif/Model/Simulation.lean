/-
Model of the simulation: src/simulation/simulation.py:43-104, src/simulation/simulation_3ph.py:51-131 and `simulate_net`,
src/simulation/run.py:104-138, src/simulation/run3ph.py:157-193.

The power flow of pandapower is a parameter: it takes the network and the loads of each step and returns the tables it logs,
or raises. The csv files it goes through are read back unchanged. `make_y_bus` is a parameter too.
-/
import Verif.Model.Loads
import Verif.Model.Lines

namespace Verif
noncomputable section

/-- `SimulationResult`: the columns used later, simulation.py:24-41 -/
structure SimResult where
  vm : Arr2 ℝ
  va : Arr2 ℝ

/-- `SimulationResult3P`, simulation_3ph.py:26-48 -/
structure SimResult3 where
  vm : Fin 3 → Arr2 ℝ
  va : Fin 3 → Arr2 ℝ

/-- loads of each step, by row of the load table: active and reactive power -/
structure Controls where
  p : Arr2 ℝ
  q : Arr2 ℝ

/-- loads of each step of a three-phase network; `pa ph` and `qa ph` belong to the asymmetric loads -/
structure Controls3 extends Controls where
  pa : Fin 3 → Arr2 ℝ
  qa : Fin 3 → Arr2 ℝ

/-- `pd.DataFrame(m, columns=index)` for an index with `n` labels -/
def frame (n : Nat) (m : Arr2 ℝ) : Except PyErr (Arr2 ℝ) := if m.c = n then .ok m else .error .valueError

/-- `SimulatedNet.run`, simulation.py:50-88 -/
def simRun (flow : Net → Controls → Except PyErr SimResult) (net : Net) (p q : Arr2 ℝ) : Except PyErr SimResult := do
  let p ← frame net.load.length p
  let q ← frame net.load.length q
  flow net ⟨p, q⟩

/-- `asym_load[i]` as a table -/
def asymFrame (net : Net) (asym : List (Arr2 ℝ)) (i : Nat) : Except PyErr (Arr2 ℝ) :=
  match asym[i]? with
  | some m => frame net.asym.length m
  | none => .error .indexError

/-- `SimulatedNet3P.run` with asymmetric loads, simulation_3ph.py:58-108; the variables are `p_a, p_b, p_c, q_a, q_b, q_c` -/
def simRun3 (flow : Net → Controls3 → Except PyErr SimResult3) (net : Net) (p q : Arr2 ℝ) (asym : List (Arr2 ℝ)) :
    Except PyErr SimResult3 := do
  let p ← frame net.load.length p
  let q ← frame net.load.length q
  let a0 ← asymFrame net asym 0
  let a1 ← asymFrame net asym 1
  let a2 ← asymFrame net asym 2
  let a3 ← asymFrame net asym 3
  let a4 ← asymFrame net asym 4
  let a5 ← asymFrame net asym 5
  flow net { p := p, q := q, pa := ![a0, a1, a2], qa := ![a3, a4, a5] }

/-- `vm * (np.cos(va * np.pi / 180) + 1j * np.sin(va * np.pi / 180))`, simulation.py:101-102 -/
def polarVoltage (vm va : Arr2 ℝ) : Except PyErr (Arr2 ℂ) :=
  if vm.r = va.r ∧ vm.c = va.c then
    .ok (Arr2.ofFn vm.r vm.c (fun t j =>
      let rad : ℝ := va.get t j * Real.pi / 180
      (vm.get t j : ℂ) * ((Real.cos rad : ℂ) + Complex.I * (Real.sin rad : ℂ))))
  else .error .valueError

/-- `SimulatedNet.get_current_and_voltage`, simulation.py:90-104: `none` is `(None, None)`; `y` is what `make_y_bus` does -/
def getCurrentAndVoltage (res : Option SimResult) (y : Except PyErr (Arr2 ℂ)) : Except PyErr (Option (Arr2 ℂ × Arr2 ℂ)) :=
  match res with
  | none => .ok none
  | some res => do
    let v ← polarVoltage res.vm res.va
    let y ← y
    let i ← v.matmul y
    pure (some (v, i))

/-- `np.array([1, 0, 0])` and the like, as a row -/
def unitRow (p : Nat) : Arr2 ℂ := Arr2.ofFn 1 3 (fun _ j => if j = p then 1 else 0)

/-- `SimulatedNet3P.get_current_and_voltage`, simulation_3ph.py:110-131 -/
def getCurrentAndVoltage3 (res : Option SimResult3) (y : Except PyErr (Arr2 ℂ)) : Except PyErr (Option (Arr2 ℂ × Arr2 ℂ)) :=
  match res with
  | none => .ok none
  | some res => do
    let va ← polarVoltage (res.vm 0) (res.va 0)
    let vb ← polarVoltage (res.vm 1) (res.va 1)
    let vc ← polarVoltage (res.vm 2) (res.va 2)
    let s ← (va.kron (unitRow 0)).zipWith (· + ·) (vb.kron (unitRow 1))
    let v ← s.zipWith (· + ·) (vc.kron (unitRow 2))
    let y ← y
    let i ← v.matmul y
    pure (some (v, i))

/-- the archive of `simulate_net`, run.py:129 -/
def simNpz (r : Arr2 ℂ × Arr2 ℂ × Arr2 ℂ) : Npz := npz [("i", .mat r.2.1), ("v", .mat r.1), ("y", .mat r.2.2)]

/-- the loading branch of `simulate_net`, run.py:133-135, run3ph.py:188-190: voltage, current, admittance -/
def simLoad (st : Store) (name : String) : Except PyErr (Arr2 ℂ × Arr2 ℂ × Arr2 ℂ) := do
  let d ← st.load (resultFile .simulation name)
  let v ← d.mat "v"
  let i ← d.mat "i"
  let y ← d.mat "y"
  pure (v, i, y)

/-- the computing branch of `simulate_net`, run.py:122-124 -/
def simCompute (flow : Net → Controls → Except PyErr SimResult) (yBus : Net → Except PyErr (Arr2 ℂ)) (net : Net) (p q : Arr2 ℝ) :
    Except PyErr (Arr2 ℂ × Arr2 ℂ × Arr2 ℂ) := do
  let y ← yBus net
  let res ← simRun flow net p q
  match ← getCurrentAndVoltage (some res) (yBus net) with
  | some (v, i) => pure (v, i, y)
  | none => .error .typeError

/-- `simulate_net`, run.py:104-138 -/
def simulateNet (flow : Net → Controls → Except PyErr SimResult) (yBus : Net → Except PyErr (Arr2 ℂ)) (name : String) (net : Net)
    (p q : Option (Arr2 ℝ)) (st : Store) : Except PyErr (Arr2 ℂ × Arr2 ℂ × Arr2 ℂ) × Store :=
  match p, q with
  | some p, some q =>
    match simCompute flow yBus net p q with
    | .error e => (.error e, st)
    | .ok r => (.ok r, st.savez (resultFile .simulation name) (simNpz r))
  | _, _ => (simLoad st name, st)

/-- the computing branch of `simulate_net`, run3ph.py:176-179 -/
def simCompute3 (flow : Net → Controls3 → Except PyErr SimResult3) (yBus : Net → Except PyErr (Arr2 ℂ)) (net : Net)
    (p q : Arr2 ℝ) (asym : List (Arr2 ℝ)) : Except PyErr (Arr2 ℂ × Arr2 ℂ × Arr2 ℂ) := do
  let y ← yBus net
  let res ← simRun3 flow net p q asym
  match ← getCurrentAndVoltage3 (some res) (yBus net) with
  | some (v, i) => pure (v, i, y)
  | none => .error .typeError

/-- `simulate_net`, run3ph.py:157-193 -/
def simulateNet3 (flow : Net → Controls3 → Except PyErr SimResult3) (yBus : Net → Except PyErr (Arr2 ℂ)) (name : String)
    (net : Net) (p q : Option (Arr2 ℝ)) (asym : Option (List (Arr2 ℝ))) (st : Store) :
    Except PyErr (Arr2 ℂ × Arr2 ℂ × Arr2 ℂ) × Store :=
  match p, q, asym with
  | some p, some q, some asym =>
    match simCompute3 flow yBus net p q asym with
    | .error e => (.error e, st)
    | .ok r => (.ok r, st.savez (resultFile .simulation name) (simNpz r))
  | _, _, _ => (simLoad st name, st)

end
end Verif
