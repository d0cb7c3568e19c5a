/-
Command lines of the three programs: the options declared at simulate_network.py:14-29, identify_network.py:10-23 and
plot_results.py:14-20, and the way `click` reads arguments with them (click/parser.py, `OptionParser`; the same in click 7 and 8).

Simplifications: all usage errors (exit status 2) are one outcome, as are all ways of asking for help; the environment variables and
shell completion of click are not modelled; `int()` is modelled for ASCII digits and blanks; `float()` is a parameter.
-/
import Verif.Model.Simulate
import Verif.Model.Identify
import Verif.Model.PlotResults

namespace Verif
namespace Cli

/-- type of an option; click takes it from the default if `type` is not given: `int` for `50` and `0`, `float` for `0.0` and `0.5`,
`str` for texts, and also for the paths of simulate_network.py:16-20 -/
inductive Kind
  | flag
  | str
  | int
  | float
  deriving DecidableEq

structure Opt where
  name : List Char
  short : Option Char
  kind : Kind
  deriving DecidableEq

/-- the long spelling -/
def Opt.long (o : Opt) : List Char := '-' :: '-' :: o.name

/-- `option.takes_value` -/
def Opt.takes (o : Opt) : Bool := o.kind ≠ .flag

/-- an option found on the command line, with its text unless it is a flag -/
abbrev Setting := Opt × Option (List Char)

/-- `arg.split("=", 1)` -/
def splitEq : List Char → List Char × Option (List Char)
  | [] => ([], none)
  | c :: t => if c = '=' then ([], some t) else (c :: (splitEq t).1, (splitEq t).2)

def byLong (os : List Opt) (a : List Char) : Option Opt := os.find? (fun o => o.long = a)
def byShort (os : List Opt) (c : Char) : Option Opt := os.find? (fun o => o.short = some c)

/-- what a word says: its settings, and an option whose value is the next word -/
structure Word where
  settings : List Setting
  pending : Option Opt

/-- `_match_short_opt`, the characters after the dash -/
def cluster (os : List Opt) : List Char → Option Word
  | [] => some ⟨[], none⟩
  | c :: t =>
    match byShort os c with
    | none => none
    | some o =>
      if o.takes then (if t = [] then some ⟨[], some o⟩ else some ⟨[(o, some t)], none⟩)
      else (cluster os t).map (fun w => ⟨(o, none) :: w.settings, w.pending⟩)

/-- `_process_opts`: first as a long option, then, unless the word begins with two dashes, as letters -/
def word (os : List Opt) (a : List Char) : Option Word :=
  match byLong os (splitEq a).1, (splitEq a).2 with
  | some o, some v => if o.takes then some ⟨[(o, some v)], none⟩ else none
  | some o, none => if o.takes then some ⟨[], some o⟩ else some ⟨[(o, none)], none⟩
  | none, _ => if a.take 2 = ['-', '-'] then none else cluster os a.tail

/-- `_process_args_for_options`: settings in the order of the line, and the words that belong to no option; `none` is a usage error -/
def parse (os : List Opt) : List (List Char) → Option (List Setting × List (List Char))
  | [] => some ([], [])
  | a :: rest =>
    if a = ['-', '-'] then some ([], rest)
    else if a.head? = some '-' ∧ a ≠ ['-'] then
      match word os a with
      | none => none
      | some w =>
        match w.pending, rest with
        | none, rest => (parse os rest).map (fun p => (w.settings ++ p.1, p.2))
        | some _, [] => none
        | some o, v :: rest' => (parse os rest').map (fun p => (w.settings ++ (o, some v) :: p.1, p.2))
    else (parse os rest).map (fun p => (p.1, a :: p.2))

/-- the last setting of an option -/
def given (st : List Setting) (o : Opt) : Option (Option (List Char)) := (st.reverse.find? (fun s => s.1 = o)).map (·.2)

/-- value of a flag -/
def flag (st : List Setting) (o : Opt) : Bool := (given st o).isSome

/-- the text given for an option -/
def text (st : List Setting) (o : Opt) : Option (List Char) := (given st o).join

def str (st : List Setting) (o : Opt) (default : String) : String := ((text st o).map String.ofList).getD default

/-- digits, with single underscores between them -/
def natOf : List Char → Nat → Option Nat
  | [], n => some n
  | '_' :: c :: t, n => if c.isDigit then natOf t (10 * n + (c.toNat - '0'.toNat)) else none
  | c :: t, n => if c.isDigit then natOf t (10 * n + (c.toNat - '0'.toNat)) else none

/-- an unsigned number: begins with a digit -/
def unsigned : List Char → Option Nat
  | [] => none
  | c :: t => if c.isDigit then natOf (c :: t) 0 else none

/-- `int(text)` -/
def intOf (s : List Char) : Option ℤ :=
  match ((s.dropWhile Char.isWhitespace).reverse.dropWhile Char.isWhitespace).reverse with
  | '-' :: t => (unsigned t).map (fun n : ℕ => -(n : ℤ))
  | '+' :: t => (unsigned t).map (fun n : ℕ => (n : ℤ))
  | t => (unsigned t).map (fun n : ℕ => (n : ℤ))

/-- a value or its default; `none` if the text is no number -/
def num {α : Type} (conv : List Char → Option α) (st : List Setting) (o : Opt) (default : α) : Option α :=
  match text st o with
  | none => some default
  | some t => conv t

/-- what a command line leads to -/
inductive Outcome (α : Type)
  | run (a : α)
  | help
  | usage

/-- added by click to every command -/
def helpOpt : Opt := ⟨"help".toList, none, .flag⟩

/-- `Command.make_context`: help comes first, then the values are converted, then words left over are refused -/
def command {α : Type} (os : List Opt) (convert : List Setting → Option α) (args : List (List Char)) : Outcome α :=
  match parse (os ++ [helpOpt]) args with
  | none => .usage
  | some (st, extra) =>
    if flag st helpOpt then .help
    else match convert st with
      | none => .usage
      | some a => if extra = [] then .run a else .usage

/-- `conf.conf.DATA_DIR` and `float(text)` -/
structure Env where
  dataDir : String
  toFloat : List Char → Option ℝ

/-! ### simulate_network.py:14-29 -/

def sNetwork : Opt := ⟨"network".toList, some 'n', .str⟩
def sActive : Opt := ⟨"active-profiles".toList, some 'a', .str⟩
def sReactive : Opt := ⟨"reactive-profiles".toList, some 'r', .str⟩
def sGaussian : Opt := ⟨"gaussian-loads".toList, some 'g', .float⟩
def sLoads : Opt := ⟨"loads".toList, some 'p', .flag⟩
def sNetworkSim : Opt := ⟨"network-sim".toList, some 's', .flag⟩
def sNoise : Opt := ⟨"noise".toList, some 'd', .flag⟩
def sThreePhased : Opt := ⟨"three-phased".toList, some 't', .flag⟩
def sSequence : Opt := ⟨"sequence".toList, some 'q', .flag⟩
def sEquivalent : Opt := ⟨"equivalent-noise".toList, some 'e', .flag⟩
def sLaplacian : Opt := ⟨"laplacian".toList, some 'l', .flag⟩
def sVerbose : Opt := ⟨"verbose".toList, some 'v', .flag⟩

def simOpts : List Opt := [sNetwork, sActive, sReactive, sGaussian, sLoads, sNetworkSim, sNoise, sThreePhased, sSequence, sEquivalent,
  sLaplacian, sVerbose]

noncomputable def simConvert (env : Env) (st : List Setting) : Option SimArgs :=
  (num env.toFloat st sGaussian 0).map (fun g =>
    { network := str st sNetwork "bolognani56"
      active := str st sActive (env.dataDir ++ "/profiles/Electricity_Profile_RNEplus_small.npy")
      reactive := str st sReactive (env.dataDir ++ "/profiles/Reactive_Electricity_Profile_RNEplus_small.npy")
      gaussian := g
      loads := flag st sLoads
      networkSim := flag st sNetworkSim
      noise := flag st sNoise
      threePhased := flag st sThreePhased
      sequence := flag st sSequence
      equivalent := flag st sEquivalent
      laplacian := flag st sLaplacian })

/-- `python3 simulate_network.py args`; what it prints with `--verbose` is not modelled -/
noncomputable def simCommand (env : Env) (args : List (List Char)) : Outcome SimArgs := command simOpts (simConvert env) args

/-! ### identify_network.py:10-23 -/

def iNetwork : Opt := ⟨"network".toList, some 'n', .str⟩
def iMaxIter : Opt := ⟨"max-iterations".toList, some 'i', .int⟩
def iStandard : Opt := ⟨"standard".toList, some 's', .flag⟩
def iBayesian : Opt := ⟨"bayesian-eiv".toList, some 'b', .flag⟩
def iContinue : Opt := ⟨"continue-id".toList, some 'c', .flag⟩
def iPhases : Opt := ⟨"phases".toList, some 'p', .str⟩
def iSequence : Opt := ⟨"sequence".toList, some 'q', .flag⟩
def iExact : Opt := ⟨"exact".toList, some 'e', .flag⟩
def iLaplacian : Opt := ⟨"laplacian".toList, some 'l', .flag⟩
def iWeighted : Opt := ⟨"weighted".toList, some 'w', .flag⟩
def iUncertainty : Opt := ⟨"uncertainty".toList, some 'u', .flag⟩
def iUnsync : Opt := ⟨"unsynchronized".toList, some 'r', .flag⟩
def iVerbose : Opt := ⟨"verbose".toList, some 'v', .flag⟩

def idOpts : List Opt := [iNetwork, iMaxIter, iStandard, iBayesian, iContinue, iPhases, iSequence, iExact, iLaplacian, iWeighted,
  iUncertainty, iUnsync, iVerbose]

/-- a negative number of iterations is as good as 0: the number is only used in `range` and in `max_iterations > 0` -/
def idConvert (st : List Setting) : Option IdArgs :=
  (num intOf st iMaxIter 50).map (fun m =>
    { network := str st iNetwork "bolognani56"
      maxIter := m.toNat
      standard := flag st iStandard
      bayesian := flag st iBayesian
      continueId := flag st iContinue
      phases := str st iPhases "1"
      sequence := flag st iSequence
      exact := flag st iExact
      laplacian := flag st iLaplacian
      weighted := flag st iWeighted
      uncertainty := flag st iUncertainty
      unsynchronized := flag st iUnsync })

/-- `python3 identify_network.py args` -/
def idCommand (args : List (List Char)) : Outcome IdArgs := command idOpts idConvert args

/-! ### plot_results.py:14-20 -/

def pNetwork : Opt := ⟨"network".toList, some 'n', .str⟩
def pMaxY : Opt := ⟨"max-plot-y".toList, some 'm', .int⟩
def pMaxErr : Opt := ⟨"max-plot-err".toList, some 'e', .int⟩
def pColor : Opt := ⟨"color-scale".toList, some 'c', .float⟩
def pSequence : Opt := ⟨"sequence".toList, some 'q', .flag⟩
def pVerbose : Opt := ⟨"verbose".toList, some 'v', .flag⟩

def plotOpts : List Opt := [pNetwork, pMaxY, pMaxErr, pColor, pSequence, pVerbose]

/-- all parameters of `plot_results`; the limits are `None` for 0, plot_results.py:29-30 -/
structure PlotParams where
  args : PlotArgs
  maxY : Option ℤ
  maxErr : Option ℤ
  color : ℝ

noncomputable def plotConvert (env : Env) (st : List Setting) : Option PlotParams :=
  (num intOf st pMaxY 0).bind fun y =>
  (num intOf st pMaxErr 0).bind fun e =>
  (num env.toFloat st pColor (1 / 2)).map fun c =>
    { args := { network := str st pNetwork "bolognani56", sequence := flag st pSequence }
      maxY := if y ≠ 0 then some y else none
      maxErr := if e ≠ 0 then some e else none
      color := c }

/-- `python3 plot_results.py args` -/
noncomputable def plotCommand (env : Env) (args : List (List Char)) : Outcome PlotParams := command plotOpts (plotConvert env) args

/-! ### The script -/

/-- words of a command of `run_multiple_sims.sh`, none of which is quoted -/
def wordsOf (l : List Char) : List (List Char) := l.splitOn ' '

/-- `python3` with a line of the script: the program named by the first word -/
inductive Run
  | simulate (o : Outcome SimArgs)
  | identify (o : Outcome IdArgs)
  | plot (o : Outcome PlotParams)
  | unknown

noncomputable def runLine (env : Env) (line : String) : Run :=
  match wordsOf line.toList with
  | [] => .unknown
  | p :: args =>
    if p = "simulate_network.py".toList then .simulate (simCommand env args)
    else if p = "identify_network.py".toList then .identify (idCommand args)
    else if p = "plot_results.py".toList then .plot (plotCommand env args)
    else .unknown

end Cli
end Verif
