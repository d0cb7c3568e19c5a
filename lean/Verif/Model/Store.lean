/-
Model of the result files under `data/simulations_output`: `np.savez` and `np.load` on a finite map from file names to
archives. Simplifications: a save is one step (a crash inside `np.savez` is not modelled); arrays survive the round trip
unchanged; network names are used as they are (no `/`).
-/
import Verif.Model.Regression

namespace Verif
noncomputable section

/-- what is stored under a key of an archive -/
inductive Val
  | mat (m : Arr2 ℂ)
  | rmat (m : Arr2 ℝ)
  | rmats (m : List (Arr2 ℝ))
  | vec (v : List ℝ)
  | ints (v : List Int)
  | num (x : ℝ)
  | log (l : List IterationStatus)
  | str (s : String)
  | bool (b : Bool)

/-- an archive -/
abbrev Npz := String → Option Val

/-- archive with the given entries -/
def npz (l : List (String × Val)) : Npz := fun k => l.lookup k

/-- file name (below `simulations_output`) to archive -/
abbrev Store := String → Option Npz

/-- `np.savez(path, **d)` -/
def Store.savez (st : Store) (file : String) (d : Npz) : Store := fun f => if f = file then some d else st f

/-- `np.load(path)` -/
def Store.load (st : Store) (file : String) : Except PyErr Npz :=
  match st file with
  | some d => .ok d
  | none => .error .fileNotFoundError

/-- `archive[key]` for a key holding a complex array -/
def Npz.mat (d : Npz) (k : String) : Except PyErr (Arr2 ℂ) :=
  match d k with
  | some (.mat m) => .ok m
  | some _ => .error .typeError
  | none => .error .keyError

def Npz.rmat (d : Npz) (k : String) : Except PyErr (Arr2 ℝ) :=
  match d k with
  | some (.rmat m) => .ok m
  | some _ => .error .typeError
  | none => .error .keyError

def Npz.rmats (d : Npz) (k : String) : Except PyErr (List (Arr2 ℝ)) :=
  match d k with
  | some (.rmats m) => .ok m
  | some _ => .error .typeError
  | none => .error .keyError

def Npz.log (d : Npz) (k : String) : Except PyErr (List IterationStatus) :=
  match d k with
  | some (.log m) => .ok m
  | some _ => .error .typeError
  | none => .error .keyError

def Npz.num (d : Npz) (k : String) : Except PyErr ℝ :=
  match d k with
  | some (.num m) => .ok m
  | some _ => .error .typeError
  | none => .error .keyError

def Npz.vec (d : Npz) (k : String) : Except PyErr (List ℝ) :=
  match d k with
  | some (.vec m) => .ok m
  | some _ => .error .typeError
  | none => .error .keyError

def Npz.ints (d : Npz) (k : String) : Except PyErr (List Int) :=
  match d k with
  | some (.ints m) => .ok m
  | some _ => .error .typeError
  | none => .error .keyError

/-- the stages with a result file -/
inductive Stage
  | loads | simulation | filtered | network | reference | standard | bayesian | fim | uncertainty
  deriving DecidableEq

/-- first part of the file name: src/simulation/run.py:94, 130, 234 (run3ph.py:148, 185, 310), simulate_network.py:121,
identify_network.py:69, 127, src/identification/run.py:334, 445, 520 (run3ph.py:200, 276) -/
def Stage.pre : Stage → String
  | .loads => "sim_loads_"
  | .simulation => "sim_results_"
  | .filtered => "filtered_results_"
  | .network => ""
  | .reference => "reference_results_"
  | .standard => "standard_results_"
  | .bayesian => "bayesian_results_"
  | .fim => "fim_results_"
  | .uncertainty => "uncertainty_results_"

/-- file of a stage for a network name -/
def resultFile (s : Stage) (name : String) : String := s.pre ++ name ++ ".npz"

end
end Verif
