/-
Model of simulate_network.py and of `make_net`, src/simulation/run.py:10-27, src/simulation/run3ph.py:12-29 (without `y_bus`).

The templates, the profile files, the random generator, the power flow, `make_y_bus` and `np.linalg.pinv` are parameters. Every
stage sets the same seed before it draws, so one stream of normal samples serves all of them. The message printed at the end is
not modelled.
-/
import Verif.Model.Simulation
import Verif.Model.Reduce
import Verif.Model.Stages
import Verif.Model.Prog

namespace Verif
noncomputable section

/-- what the program depends on -/
structure SimWorld where
  rng : RandInt
  z : Nat → ℝ
  files : String → Option (Arr2 ℝ)
  buses : String → Option (List BusData)
  lines : String → Option (List LineData)
  buses3 : String → Option (List BusData)
  lines3 : String → Option (List LineData)
  types3 : List String
  flow : Net → Controls → Except PyErr SimResult
  flow3 : Net → Controls3 → Except PyErr SimResult3
  yBus : Net → Except PyErr (Arr2 ℂ)
  yBus3 : Net → Except PyErr (Arr2 ℂ)
  pinv : Arr2 ℂ → Except PyErr (Arr2 ℂ)

/-- conf/simulation.py -/
structure SimConf where
  hidden : List Int
  constantHidden : Bool
  constantness : ℝ
  weeks : List Int
  days : Nat
  steps : Nat
  fmeas : ℝ
  safety : ℝ
  vm : ℝ
  cm : ℝ
  vp : ℝ
  cp : ℝ

/-- the options, simulate_network.py:15-29 -/
structure SimArgs where
  network : String
  active : String
  reactive : String
  gaussian : ℝ
  loads : Bool
  networkSim : Bool
  noise : Bool
  threePhased : Bool
  sequence : Bool
  equivalent : Bool
  laplacian : Bool

namespace SimArgs

/-- simulate_network.py:35 -/
def redoLoads (a : SimArgs) : Bool := a.loads || (!a.loads && !a.networkSim && !a.noise)
/-- simulate_network.py:36 -/
def redoNetsim (a : SimArgs) : Bool := a.networkSim || (!a.loads && !a.networkSim && !a.noise)
/-- simulate_network.py:37 -/
def redoNoise (a : SimArgs) : Bool := a.noise || (!a.loads && !a.networkSim && !a.noise)

end SimArgs

/-- `getattr(templates, name)` -/
def template {β : Type} (t : String → Option β) (name : String) : Except PyErr β :=
  match t name with
  | some b => .ok b
  | none => .error .attributeError

/-- `make_net`, run.py:19-27: the network and the bus data -/
def makeNet (w : SimWorld) (name : String) : Except PyErr (Net × List BusData) := do
  let bs ← template w.buses name
  let ls ← template w.lines name
  let (net, _) ← Net.netData (some bs) (some ls)
  pure (net, bs)

/-- `make_net`, run3ph.py:21-29 -/
def makeNet3 (w : SimWorld) (name : String) : Except PyErr (Net × List BusData) := do
  let bs ← template w.buses3 name
  let ls ← template w.lines3 name
  let net ← Net.netData3 w.types3 (some bs) (some ls)
  pure (net, bs)

/-- `make_net` with its optional admittance matrix, run.py:10-27, with `sn = net.sn_mva`; the scripts never give one -/
def makeNetFrom (sn : ℝ) (w : SimWorld) (name : String) (y : Option (Arr2 ℂ)) : Except PyErr (Net × List BusData × List LineData) := do
  let bs ← template w.buses name
  match y with
  | none =>
    let ls ← template w.lines name
    let (net, ls) ← Net.netData (some bs) (some ls)
    pure (net, bs, ls)
  | some y =>
    let (net, ls) ← Net.netData (some bs) (some [])
    let net ← net.createLinesFromYbus sn y
    pure (net, bs, ls)

/-- `make_net` with its optional admittance matrix, run3ph.py:12-29; `create_lines_from_ybus` raises, network_3ph.py:90-98 -/
def makeNetFrom3 (w : SimWorld) (name : String) (y : Option (Arr2 ℂ)) : Except PyErr (Net × List BusData × List LineData) := do
  let bs ← template w.buses3 name
  match y with
  | none =>
    let ls ← template w.lines3 name
    let net ← Net.netData3 w.types3 (some bs) (some ls)
    pure (net, bs, ls)
  | some _ =>
    let _ ← Net.netData3 w.types3 (some bs) (some [])
    .error .notImplementedError

/-- `hidden_nodes` after simulate_network.py:46-49 -/
def hiddenNodes (cf : SimConf) (a : SimArgs) (bs : List BusData) : List Int :=
  if !a.laplacian && !a.threePhased then cf.hidden ++ (bs.filter (fun b => b.type = typePcc)).map BusData.id else cf.hidden

/-- `constant_load_nodes` when it is used: line 45 makes it the same list as `hidden_nodes`, so line 49 extends both -/
def constantNodes (cf : SimConf) (a : SimArgs) (bs : List BusData) : Option (List Int) :=
  if cf.constantHidden then some (hiddenNodes cf a bs) else none

open Classical in
/-- `load_params`, simulate_network.py:52-60 -/
def loadParams (w : SimWorld) (cf : SimConf) (a : SimArgs) (bs : List BusData) : Except PyErr (Option LoadParams) :=
  if a.redoLoads = true ∧ 0 < a.gaussian then .ok (some (.gaussian a.gaussian cf.days (constantNodes cf a bs)))
  else if (w.files a.active).isSome ∧ (w.files a.reactive).isSome ∧ a.redoLoads = true then
    .ok (some (.profiles a.active a.reactive cf.weeks cf.days (constantNodes cf a bs)))
  else if a.redoLoads then .error .systemExit
  else .ok none

/-- the noise parameters, simulate_network.py:82-84, without the safety factor -/
def noiseParams (cf : SimConf) (a : SimArgs) : NoiseParams := ⟨cf.vm, cf.cm, cf.vp, cf.cp, a.equivalent⟩

/-- `np.delete(v, idx)` -/
def deleteEntries {β : Type} (v : List β) (idx : List Nat) (d : β) : Except PyErr (List β) :=
  if ∀ k ∈ idx, k < v.length then .ok ((Arr2.keepIdx v.length idx).map (fun k => v.getD k d)) else .error .indexError

/-- `np.tile(l, n)` -/
def tileList (l : List Int) (n : Nat) : List Int := (List.replicate n l).flatten

/-- the saved network data, simulate_network.py:119-120 -/
structure NetworkData where
  noisyVoltage : Arr2 ℂ
  noisyCurrent : Arr2 ℂ
  voltage : Arr2 ℂ
  current : Arr2 ℂ
  y : Arr2 ℂ
  ratings : List ℝ
  fparam : ℝ
  ids : List Int

/-- the archive, simulate_network.py:119-120 -/
def networkNpz (d : NetworkData) : Npz :=
  npz [("i", .mat d.noisyCurrent), ("v", .mat d.noisyVoltage), ("j", .mat d.current), ("w", .mat d.voltage), ("y", .mat d.y),
    ("p", .vec d.ratings), ("f", .num d.fparam), ("h", .ints d.ids)]

/-- removal of the reduced nodes, simulate_network.py:98-103 -/
def dropReduced (threePhased : Bool) (net : Net) (n : NoiseResult) (idx : List Nat) (y : Arr2 ℂ) : Except PyErr NetworkData := do
  let nv ← n.noisyVoltage.deleteCols idx
  let ni ← n.noisyCurrent.deleteCols idx
  let v ← n.voltage.deleteCols idx
  let i ← n.current.deleteCols idx
  let r ← deleteEntries n.ratings idx 0
  let h ← deleteEntries (tileList (if threePhased then [1, 2, 3] else [1]) net.bus.length) idx 0
  pure ⟨nv, ni, v, i, y, r, n.fparam, h⟩

/-- sequence values, simulate_network.py:108-111 -/
def toSequence (d : NetworkData) : Except PyErr NetworkData := do
  let nv ← measurementPhaseToSequence d.noisyVoltage
  let ni ← measurementPhaseToSequence d.noisyCurrent
  let v ← measurementPhaseToSequence d.voltage
  let i ← measurementPhaseToSequence d.current
  let y ← admittancePhaseToSequence d.y
  pure ⟨nv, ni, v, i, y, d.ratings, d.fparam, d.ids.map (· - 1)⟩

/-- the reduction, simulate_network.py:94-95 -/
def reduction (w : SimWorld) (a : SimArgs) (net : Net) (hidden : List Int) (n : NoiseResult) : Except PyErr (List Nat × Arr2 ℂ) :=
  if a.threePhased then do
    let y ← w.yBus3 net
    reduceNetwork3 w.pinv net y n.voltage n.current hidden (!a.sequence)
  else do
    let y ← w.yBus net
    reduceNetwork w.pinv net y n.voltage n.current hidden a.laplacian

/-- simulate_network.py:94-111 -/
def networkData (w : SimWorld) (a : SimArgs) (net : Net) (hidden : List Int) (n : NoiseResult) : Except PyErr NetworkData := do
  let (idx, y) ← reduction w a net hidden n
  let d ← dropReduced a.threePhased net n idx y
  if a.sequence then toSequence d else pure d

/-- simulate_network.py:70, 75 -/
def netsim3 (w : SimWorld) (a : SimArgs) (net : Net) (p q : Arr2 ℝ) (asym : List (Arr2 ℝ)) : Prog (Arr2 ℂ × Arr2 ℂ × Arr2 ℂ) :=
  if a.redoNetsim then Prog.call (simulateNet3 w.flow3 w.yBus3 a.network net (some p) (some q) (some asym))
  else Prog.call (simulateNet3 w.flow3 w.yBus3 a.network net none none none)

/-- simulate_network.py:72, 77 -/
def netsim1 (w : SimWorld) (a : SimArgs) (net : Net) (p q : Arr2 ℝ) : Prog (Arr2 ℂ × Arr2 ℂ × Arr2 ℂ) :=
  if a.redoNetsim then Prog.call (simulateNet w.flow w.yBus a.network net (some p) (some q))
  else Prog.call (simulateNet w.flow w.yBus a.network net none none)

/-- the stages of a three-phase network, simulate_network.py:63-89 -/
def stages3 (w : SimWorld) (cf : SimConf) (a : SimArgs) (net : Net) (lp : Option LoadParams) : Prog NoiseResult := do
  let l ← Prog.call (generateLoads3 w.rng w.files cf.constantness a.network net lp)
  let s ← netsim3 w a net l.1 l.2.1 l.2.2.1
  Prog.call (noiseStage3 w.z a.network net s.1 s.2.1 l.2.2.2 cf.fmeas cf.steps
    (if a.redoNoise then some (noiseParams cf a, List.replicate 3 cf.safety) else none))

/-- the stages of a single-phase network, simulate_network.py:65-89 -/
def stages1 (w : SimWorld) (cf : SimConf) (a : SimArgs) (net : Net) (lp : Option LoadParams) : Prog NoiseResult := do
  let l ← Prog.call (generateLoads w.rng w.z w.files cf.constantness a.network net lp)
  let s ← netsim1 w a net l.1 l.2.1
  Prog.call (noiseStage w.z a.network net s.1 s.2.1 l.2.2 cf.fmeas cf.steps
    (if a.redoNoise then some (noiseParams cf a, cf.safety) else none))

/-- simulate_network.py:62-89 -/
def stages (w : SimWorld) (cf : SimConf) (a : SimArgs) (net : Net) (lp : Option LoadParams) : Prog NoiseResult :=
  if a.threePhased then stages3 w cf a net lp else stages1 w cf a net lp

/-- `simulate`, simulate_network.py:31-125; returns the saved data -/
def simulate (w : SimWorld) (cf : SimConf) (a : SimArgs) : Prog NetworkData := do
  let nb ← Prog.ofExcept (if a.threePhased then makeNet3 w a.network else makeNet w a.network)
  let lp ← Prog.ofExcept (loadParams w cf a nb.2)
  let n ← stages w cf a nb.1 lp
  let d ← Prog.ofExcept (networkData w a nb.1 (hiddenNodes cf a nb.2) n)
  Prog.save (resultFile .network a.network) (networkNpz d)
  pure d

end
end Verif
