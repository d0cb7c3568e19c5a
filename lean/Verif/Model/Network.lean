/-
Model of the network classes: src/simulation/abstract_network.py, src/simulation/network.py, src/simulation/network_3ph.py.

A network is the set of pandapower tables that the code reads: `bus`, `load`, `asymmetric_load`, `ext_grid`, `line`. The
pandapower calls append a row, or raise `UserWarning` for a used index, an unknown or ambiguous name or an unknown standard
type. Names of buses are the strings `str(i)`; looking up an integer never matches one. Simplifications: numbers are exact
reals; short-circuit data, cost and geometry columns are left out; single-phase bus data have scalar demands.
-/
import Verif.Py.Arr2
import Mathlib.Data.Complex.Basic

namespace Verif
noncomputable section

/-- nominal power of a bus: scalars or one value per phase -/
inductive Demand
  | sym (p q : ℝ)
  | asym (p q : Fin 3 → ℝ)

/-- `BusData`, src/simulation/load_profile.py:13-48 -/
structure BusData where
  id : Int
  type : Int
  demand : Demand
  kv : ℝ
  z : ℝ
  i : ℝ

/-- `LineData`, src/simulation/lines.py:15-52 -/
structure LineData where
  startBus : Int
  endBus : Int
  length : ℝ
  R : ℝ
  X : ℝ
  status : Int
  typ : Option String
  deriving DecidableEq

/-- what a bus can be looked up by: a string or a bare integer -/
inductive Label
  | str (n : Int)
  | int (n : Int)
  deriving DecidableEq

structure BusRow where
  index : Int
  name : Label
  kv : ℝ

structure LoadRow where
  index : Int
  bus : Int
  p : ℝ
  q : ℝ
  z : ℝ
  i : ℝ

structure AsymRow where
  index : Int
  bus : Int
  p : Fin 3 → ℝ
  q : Fin 3 → ℝ

/-- ohmic values per kilometre, or the name of a standard type -/
inductive LineKind
  | params (r x : ℝ)
  | std (name : String)

structure LineRow where
  index : Int
  fromBus : Int
  toBus : Int
  length : ℝ
  kind : LineKind

structure Net where
  bus : List BusRow := []
  load : List LoadRow := []
  asym : List AsymRow := []
  extGrid : List Int := []
  line : List LineRow := []
  stdTypes : List String := []

/-- `TYPE_LOAD`, `TYPE_PCC`, src/simulation/abstract_network.py:22-24 -/
def typeLoad : Int := 1
def typePcc : Int := 3

namespace Net

/-- `pp.create_bus(net, kv, name=str(i), index=i)` -/
def addBus (net : Net) (i : Int) (kv : ℝ) : Except PyErr Net :=
  if i ∈ net.bus.map BusRow.index then .error .userWarning
  else .ok { net with bus := net.bus ++ [⟨i, .str i, kv⟩] }

/-- `pp.create_load(net, bus, p, q, index=i, …)` -/
def addLoad (net : Net) (bus : Int) (p q : ℝ) (i : Int) (zPerc iPerc : ℝ) : Except PyErr Net :=
  if bus ∉ net.bus.map BusRow.index ∨ i ∈ net.load.map LoadRow.index then .error .userWarning
  else .ok { net with load := net.load ++ [⟨i, bus, p, q, zPerc, iPerc⟩] }

/-- `pp.create_asymmetric_load(net, bus, …, index=i)` -/
def addAsym (net : Net) (bus : Int) (p q : Fin 3 → ℝ) (i : Int) : Except PyErr Net :=
  if bus ∉ net.bus.map BusRow.index ∨ i ∈ net.asym.map AsymRow.index then .error .userWarning
  else .ok { net with asym := net.asym ++ [⟨i, bus, p, q⟩] }

/-- `pp.create_ext_grid(net, bus, …)` -/
def addExtGrid (net : Net) (bus : Int) : Except PyErr Net :=
  if bus ∉ net.bus.map BusRow.index then .error .userWarning
  else .ok { net with extGrid := net.extGrid ++ [bus] }

/-- `pp.get_element_index(net, "bus", name)` -/
def busNamed (net : Net) (name : Label) : Except PyErr Int :=
  match net.bus.filter (fun b => b.name = name) with
  | [b] => .ok b.index
  | _ => .error .userWarning

/-- first free index of the line table -/
def nextLine (net : Net) : Int := net.line.foldl (fun m l => max m (l.index + 1)) 0

/-- `pp.create_line_from_parameters` / `pp.create_line` once buses and parameters are known -/
def addLine (net : Net) (f t : Int) (length : ℝ) (kind : LineKind) : Net :=
  { net with line := net.line ++ [⟨net.nextLine, f, t, length, kind⟩] }

/-- `NetData.create_bus`, src/simulation/network.py:26-46 -/
def createBus (net : Net) (b : BusData) : Except PyErr Net := do
  let net ← net.addBus b.id b.kv
  match b.demand with
  | .sym p q =>
    if b.type = typeLoad then net.addLoad b.id p q b.id b.z b.i
    else if b.type = typePcc then do
      let net ← net.addLoad b.id 0 0 b.id 0 0
      net.addExtGrid b.id
    else pure net
  | .asym _ _ => .error .typeError

/-- `NetData3P.create_bus`, src/simulation/network_3ph.py:35-60 -/
def createBus3 (net : Net) (b : BusData) : Except PyErr Net := do
  let net ← net.addBus b.id b.kv
  if b.type = typeLoad then
    match b.demand with
    | .sym p q => net.addLoad b.id p q b.id b.z b.i
    | .asym p q => net.addAsym b.id p q b.id
  else if b.type = typePcc then
    match b.demand with
    | .sym _ _ => do
      let net ← net.addLoad b.id 0 0 b.id 0 0
      net.addExtGrid b.id
    | .asym _ _ => .error .assertionError
  else pure net

/-- `create_buses`, src/simulation/abstract_network.py:37-46 -/
def createBuses (net : Net) (bs : List BusData) : Except PyErr Net := forIn' bs net createBus
def createBuses3 (net : Net) (bs : List BusData) : Except PyErr Net := forIn' bs net createBus3

/-- `NetData.create_line`, src/simulation/network.py:48-64: the buses are looked up by their integer -/
def createLine (net : Net) (f t : Int) (r x l : ℝ) : Except PyErr Net := do
  let (f, t) := if f > t then (t, f) else (f, t)
  let a ← net.busNamed (.int f)
  let b ← net.busNamed (.int t)
  if l = 0 then .error .zeroDivisionError else pure (net.addLine a b l (.params (r / l) (x / l)))

/-- the swap of the ends, src/simulation/network.py:74-75 -/
def sortEnds (l : LineData) : LineData :=
  if l.startBus > l.endBus then { l with startBus := l.endBus, endBus := l.startBus } else l

/-- the creation of one line, src/simulation/network.py:77-81 -/
def addLineData (net : Net) (l : LineData) : Except PyErr Net := do
  if l.status > 0 then
    let a ← net.busNamed (.str l.startBus)
    let b ← net.busNamed (.str l.endBus)
    if l.length = 0 then .error .zeroDivisionError
    else pure (net.addLine a b l.length (.params (l.R / l.length) (l.X / l.length)))
  else pure net

/-- `NetData.create_lines`, src/simulation/network.py:66-82: the network and the (modified) list of line data -/
def createLines (net : Net) (ls : List LineData) : Except PyErr (Net × List LineData) :=
  forIn' ls (net, []) (fun st l => do
    let net ← st.1.addLineData (sortEnds l)
    pure (net, st.2 ++ [sortEnds l]))

/-- `NetData3P.create_line`, src/simulation/network_3ph.py:62-76 -/
def createLine3 (net : Net) (f t : Int) (l : ℝ) (typ : Option String) : Except PyErr Net := do
  let (f, t) := if f > t then (t, f) else (f, t)
  let a ← net.busNamed (.str f)
  let b ← net.busNamed (.str t)
  match typ with
  | some s => if s ∈ net.stdTypes then pure (net.addLine a b l (.std s)) else .error .userWarning
  | none => .error .userWarning

/-- `NetData3P.create_lines`, src/simulation/network_3ph.py:78-88 -/
def createLines3 (net : Net) (ls : List LineData) : Except PyErr Net :=
  forIn' ls net (fun net l => if l.status > 0 then net.createLine3 l.startBus l.endBus l.length l.typ else pure net)

/-- `NetData.__init__` without `other`, src/simulation/network.py:18-24. The second default tests `ns` again, which is a list
by then, so `ls` keeps the value given. -/
def netData (ns : Option (List BusData)) (ls : Option (List LineData)) : Except PyErr (Net × List LineData) := do
  let ns := ns.getD []
  let net ← createBuses {} ns
  match ls with
  | some ls => net.createLines ls
  | none => .error .typeError

/-- `NetData3P.__init__` without `other`, src/simulation/network_3ph.py:21-33 -/
def netData3 (ts : List String) (ns : Option (List BusData)) (ls : Option (List LineData)) : Except PyErr Net := do
  let net ← createBuses3 { stdTypes := ts } (ns.getD [])
  net.createLines3 (ls.getD [])

/-- which phases of the bus `idx` carry no load, src/simulation/abstract_network.py:70-90 (`idx in self.load.bus` looks the
value up in the index of the series) -/
def passiveAt (net : Net) (idx : Int) : Except PyErr (Fin 3 → Bool) := do
  if idx ∈ net.extGrid then pure (fun _ => false)
  else
    let passive : Fin 3 → Bool := fun _ => true
    let passive ←
      if idx ∈ net.load.map LoadRow.index then
        match net.load.find? (fun l => l.bus = idx) with
        | none => Except.error PyErr.indexError
        | some l =>
          match net.load.find? (fun l' => l'.index = l.index) with
          | none => .error .keyError
          | some l => pure (if l.p = 0 ∧ l.q = 0 then passive else fun _ => false)
      else pure passive
    if idx ∈ net.asym.map AsymRow.index then
      match net.asym.find? (fun l => l.bus = idx) with
      | none => .error .indexError
      | some l =>
        match net.asym.find? (fun l' => l'.index = l.index) with
        | none => .error .keyError
        | some l => pure (fun ph => if l.p ph = 0 ∧ l.q ph = 0 then passive ph else false)
    else pure passive

/-- `give_passive_nodes`, src/simulation/abstract_network.py:61-96 -/
def givePassiveNodes (net : Net) : Except PyErr (Fin 3 → List Int) :=
  forIn' net.bus (fun _ => []) (fun acc b => do
    let passive ← net.passiveAt b.index
    pure (fun ph => if passive ph then acc ph ++ [b.index] else acc ph))

/-- `pp.drop_buses(net, buses)`: the buses and everything connected to them -/
def dropBuses (net : Net) (buses : List Int) : Except PyErr Net :=
  if ∀ b ∈ buses, b ∈ net.bus.map BusRow.index then
    .ok { net with
      bus := net.bus.filter (fun b => b.index ∉ buses)
      load := net.load.filter (fun l => l.bus ∉ buses)
      asym := net.asym.filter (fun l => l.bus ∉ buses)
      extGrid := net.extGrid.filter (fun b => b ∉ buses)
      line := net.line.filter (fun l => l.fromBus ∉ buses ∧ l.toBus ∉ buses) }
  else .error .keyError

/-- `remove_bus`, src/simulation/abstract_network.py:49-50 -/
def removeBus (net : Net) (bus : Int) : Except PyErr Net := net.dropBuses [bus]

/-- `remove_buses`, src/simulation/abstract_network.py:52-53 -/
def removeBuses (net : Net) (bus : List Int) : Except PyErr Net := net.dropBuses bus

/-- `remove_line`, src/simulation/abstract_network.py:55-56, for a list of indices (`pp.drop_lines` takes a list) -/
def removeLine (net : Net) (lines : List Int) : Except PyErr Net :=
  if ∀ k ∈ lines, k ∈ net.line.map LineRow.index then
    .ok { net with line := net.line.filter (fun l => l.index ∉ lines) }
  else .error .keyError

/-- `remove_lines`, src/simulation/abstract_network.py:58-59 -/
def removeLines (net : Net) (lines : List Int) : Except PyErr Net := net.dropBuses lines

/-- `self.bus.vn_kv[i]`: lookup by label -/
def vnKv (net : Net) (i : Int) : Except PyErr ℝ :=
  match net.bus.find? (fun b => b.index = i) with
  | some b => .ok b.kv
  | none => .error .keyError

/-- `self.bus.index[i]` -/
def busIndexAt (net : Net) (i : Nat) : Except PyErr Int :=
  match net.bus[i]? with
  | some b => .ok b.index
  | none => .error .indexError

/-- one entry of the loop, src/simulation/network.py:94-99 -/
def lineFromEntry (sn : ℝ) (y : Arr2 ℂ) (i : Nat) (net : Net) (j : Nat) : Except PyErr Net := do
  if y.get i j ≠ 0 then
    let kv ← net.vnKv i
    let a : ℂ := -y.get i j / ((kv : ℂ) * kv) * sn
    let fi ← net.busIndexAt i
    let f ← net.busNamed (.str fi)
    let ti ← net.busIndexAt j
    let t ← net.busNamed (.str ti)
    pure (net.addLine f t 1 (.params (1 / a).re (1 / a).im))
  else pure net

/-- `create_lines_from_ybus`, src/simulation/network.py:84-100, with `sn = self.sn_mva` -/
def createLinesFromYbus (sn : ℝ) (net : Net) (y : Arr2 ℂ) : Except PyErr Net :=
  forRange y.r net (fun net i => forRange i net (lineFromEntry sn y i))

/-- position of a bus in the table -/
def posOf (net : Net) (b : Int) : Nat := net.bus.findIdx (fun r => r.index = b)

/-- admittance in per unit of a line given by parameters: `kv_from² / sn / ((r + jx) length)` -/
def lineAdmittance (sn : ℝ) (net : Net) (l : LineRow) : ℂ :=
  match l.kind, net.bus.find? (fun b => b.index = l.fromBus) with
  | .params r x, some b => (b.kv : ℂ) ^ 2 / sn / ((⟨r, x⟩ : ℂ) * l.length)
  | _, _ => 0

/-- What pandapower computes for `make_y_bus`, src/simulation/network.py:102-114, for lines without capacitance and loads of
constant power: each line adds its admittance to the diagonal entries of its ends and subtracts it between them. -/
def makeYBus (sn : ℝ) (net : Net) : Arr2 ℂ :=
  Arr2.ofFn net.bus.length net.bus.length (fun i j =>
    (net.line.map (fun l =>
      let f := net.posOf l.fromBus
      let t := net.posOf l.toBus
      let a := net.lineAdmittance sn l
      (if i = f ∧ j = f then a else 0) + (if i = t ∧ j = t then a else 0) -
        (if i = f ∧ j = t then a else 0) - (if i = t ∧ j = f then a else 0))).sum)

end Net
end
end Verif
