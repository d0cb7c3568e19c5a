/-
Model of the script that varies the configuration: run_multiple_sims.sh:1-68 (the rest of the file is a comment), and the texts of
the two configuration files it edits, conf/conf.py and conf/simulation.py.

Texts are lists of characters. `sed -i "s/old/new/g" file` works line by line; here it runs over the whole text, which is the same
because the patterns contain no newline and `.` does not match one. In the patterns of the script `.` is the only special
character, and the replacements contain none. `sed -i` replaces the file in one step. The python programs and `echo` do not write
the configuration files; what they do is not part of this model.
-/
import Mathlib.Data.List.Basic

namespace Verif
namespace Script

/-- one character of a pattern against one of the text -/
def hits (p c : Char) : Bool := if p = '.' then c ≠ '\n' else p = c

/-- what follows a match of the pattern at the start of the text -/
def matchPat : List Char → List Char → Option (List Char)
  | [], t => some t
  | _ :: _, [] => none
  | p :: ps, c :: t => if hits p c then matchPat ps t else none

/-- the text while `skip` characters of a match are still to be dropped -/
def sedGo (pat rep : List Char) : Nat → List Char → List Char
  | _, [] => []
  | k + 1, _ :: t => sedGo pat rep k t
  | 0, c :: t =>
    match matchPat pat (c :: t) with
    | some _ => rep ++ sedGo pat rep (pat.length - 1) t
    | none => c :: sedGo pat rep 0 t

/-- `s/pat/rep/g` for a pattern that is not empty -/
def sed (pat rep t : List Char) : List Char := sedGo pat rep 0 t

/-- the two edited files -/
inductive File | conf | simulation
  deriving DecidableEq

structure Texts where
  conf : List Char
  simulation : List Char

/-- a command of the script -/
inductive Cmd
  | sed (f : File) (pat rep : List Char)
  | python (line : String)

def Cmd.exec (t : Texts) : Cmd → Texts
  | .sed .conf p r => { t with conf := Script.sed p r t.conf }
  | .sed .simulation p r => { t with simulation := Script.sed p r t.simulation }
  | .python _ => t

/-- the texts after some commands -/
def exec (t : Texts) (cs : List Cmd) : Texts := cs.foldl Cmd.exec t

def seedKey : List Char := "seed = ".toList
def noiseKey : List Char := "noise_level = ".toList
def daysKey : List Char := "days = ".toList

def identifyLine : String := "identify_network.py -q --max-iterations 20 --network ieee123center --phases 012"
def plotLine : String := "plot_results.py -v --network ieee123center"

/-- the inner loop over noise levels, run_multiple_sims.sh:29-40 -/
def noiseRound (i : List Char) : List Cmd :=
  [.sed .conf (noiseKey ++ ['1']) (noiseKey ++ i), .python "simulate_network.py -qtde --network ieee123center", .python identifyLine,
    .python plotLine, .sed .conf (noiseKey ++ i) (noiseKey ++ ['1'])]

/-- one seed with `-n`, run_multiple_sims.sh:24-42 -/
def noiseSeed (noises : List (List Char)) (seed : List Char) : List Cmd :=
  .sed .conf (seedKey ++ "131".toList) (seedKey ++ seed) :: .python "simulate_network.py -vqte --network ieee123center" ::
    noises.flatMap noiseRound ++ [.sed .conf (seedKey ++ seed) (seedKey ++ "131".toList)]

/-- the inner loop over sample sizes, run_multiple_sims.sh:53-64 -/
def daysRound (i : List Char) : List Cmd :=
  [.sed .simulation (daysKey ++ ['7']) (daysKey ++ i), .python "simulate_network.py -qte --network ieee123center",
    .python identifyLine, .python plotLine, .sed .simulation (daysKey ++ i) (daysKey ++ ['7'])]

/-- one seed with `-s`, run_multiple_sims.sh:50-66 -/
def daysSeed (days : List (List Char)) (seed : List Char) : List Cmd :=
  .sed .conf (seedKey ++ "131".toList) (seedKey ++ seed) :: days.flatMap daysRound ++
    [.sed .conf (seedKey ++ seed) (seedKey ++ "131".toList)]

/-- the values the script goes through; the commented ones can be put back -/
structure Lists where
  noiseSeeds : List (List Char)
  noises : List (List Char)
  daysSeeds : List (List Char)
  days : List (List Char)

/-- run_multiple_sims.sh:21,29,47,53 -/
def lists : Lists where
  noiseSeeds := ["11".toList]
  noises := ["0.1".toList]
  daysSeeds := ["11".toList, "13".toList, "111".toList, "131".toList]
  days := ["1".toList, "2".toList, "3".toList, "5".toList, "7".toList, "10".toList, "15".toList, "21".toList, "30".toList,
    "45".toList, "60".toList]

/-- `getopts 'ns'`, run_multiple_sims.sh:11-18, for the letters given: `none` is the exit on a letter that is not known -/
def flags : List Char → Option (Bool × Bool)
  | [] => some (false, false)
  | c :: t =>
    if c = 'n' then (flags t).map (fun f => (true, f.2))
    else if c = 's' then (flags t).map (fun f => (f.1, true))
    else none

/-- the commands run for the letters given, run_multiple_sims.sh:20-68 -/
def script (ls : Lists) (letters : List Char) : List Cmd :=
  match flags letters with
  | none => []
  | some (n, s) =>
    (if n then ls.noiseSeeds.flatMap (noiseSeed ls.noises) else []) ++
    (if s then ls.daysSeeds.flatMap (daysSeed ls.days) else [])

/-- the python programs run by some commands, each with the texts it finds -/
def runs : Texts → List Cmd → List (String × Texts)
  | _, [] => []
  | t, .python l :: cs => (l, t) :: runs t cs
  | t, .sed f p r :: cs => runs (Cmd.exec t (.sed f p r)) cs

/-- the text made of some lines -/
def ofLines (ls : List String) : List Char := ls.flatMap (fun l => l.toList ++ ['\n'])

/-- conf/conf.py:1-32 -/
def confText : List Char := ofLines
  ["from pathlib import Path",
   "import os",
   "import numpy as np",
   "import pandas as pd",
   "import pkgutil",
   "",
   "# Simulation parameters",
   "seed = 131",
   "noise_level = 1",
   "",
   "# Technical settings",
   "ROOT_DIR = Path(__file__).parent.parent.absolute()",
   "DATA_DIR = ROOT_DIR / \"data\"",
   "if not os.path.isdir(DATA_DIR / \"tikz\"):",
   "    os.makedirs(DATA_DIR / \"tikz\")",
   "SIM_DIR = DATA_DIR / \"simulations_output\"",
   "if not os.path.isdir(SIM_DIR / \"plot_data\"):",
   "    os.makedirs(SIM_DIR / \"plot_data\")",
   "",
   "",
   "TEST_SIM_DIR = ROOT_DIR / \"test\" / \"data\" / \"simulations_output\"",
   "",
   "np.set_printoptions(threshold=np.inf, linewidth=np.inf)",
   "pd.set_option('display.max_rows', 500)",
   "pd.set_option('display.max_columns', 500)",
   "",
   "GPU_AVAILABLE = pkgutil.find_loader('cupy')",
   "# Use this to switch GPU if one is in use.",
   "# If all GPUs are used you are in bad luck, wait for your turn",
   "if GPU_AVAILABLE:",
   "    import cupy",
   "    cupy.cuda.Device(1).use()"]

/-- conf/simulation.py:1-39 -/
def simText : List Char := ofLines
  ["import numpy as np",
   "from conf.conf import noise_level",
   "",
   "# Definition of observed nodes for ieee123bus network",
   "list1 = [3, 16, 18, 28, 40, 47, 52]                         #",
   "list2 = [8, 9, 22, 36, 49, 46, 51]                          #",
   "list3 = [6, 12, 55, 26, 44, 50]                             #36% (20 nodes",
   "list4 = [1, 4, 10, 15, 17, 37]                              #47% (26",
   "list5 = [19, 24, 32, 39, 43, 53]                            #57% (32",
   "list6 = [5, 14, 15, 20, 25, 29, 31, 34, 38, 41, 45, 54]     #79%",
   "",
   "observed_nodes = list1 + list2 + list3 + list4 + list5 #+ list6",
   "hidden_nodes = list(set(range(1,56)) - set(np.array(observed_nodes)-1))",
   "#hidden_nodes = []",
   "",
   "# Assumption of constant Z loads on hidden nodes",
   "constant_load_hidden_nodes = True",
   "load_constantness = 0.84",
   "",
   "# Week during which the sample size starts",
   "selected_weeks = np.array([0])  # 0 is week 12 for the small dataset. Replace by 12 of using the full year data.",
   "",
   "# Total sample size on which block averaging is performed",
   "days = 7*len(selected_weeks) #7*len(selected_weeks)",
   "",
   "# Number of averaged blocks",
   "time_steps = 24 * 60 * 7  # 15000 is max capable for GPU RTX 3090",
   "",
   "# Sensor sampling frequency",
   "measurement_frequency = 50 # [Hz] # 50",
   "",
   "# Safety factor for sensor dimension (compared to nominal node power)",
   "safety_factor = 4",
   "",
   "# Do not touch that, rather change noise_level in conf.conf",
   "current_magnitude_sd = 1e-4 * noise_level",
   "voltage_magnitude_sd = 1e-4 * noise_level",
   "current_phase_sd = 0.01*np.pi/180 * noise_level",
   "voltage_phase_sd = 0.01*np.pi/180 * noise_level"]

end Script
end Verif
