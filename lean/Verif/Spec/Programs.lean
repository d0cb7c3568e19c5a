/-
Specification vocabulary for the two programs: which stages a set of flags asks for, and the load parameters.
-/
import Verif.Model.Identify
import Verif.Spec.Phases

namespace Verif
namespace Spec

/-- a stage is to be recomputed: its flag is set, or no flag is -/
def Redone (flag : Bool) (flags : List Bool) : Prop := flag = true ∨ ∀ f ∈ flags, f = false

/-- the loads a run asks for: Gaussian ones if a positive standard deviation is given, those of the profile files otherwise -/
def Requested (w : SimWorld) (cf : SimConf) (a : SimArgs) (constant : Option (List Int)) (lp : LoadParams) : Prop :=
  (0 < a.gaussian ∧ lp = .gaussian a.gaussian cf.days constant) ∨
  (a.gaussian ≤ 0 ∧ (∃ m, w.files a.active = some m) ∧ (∃ m, w.files a.reactive = some m) ∧
    lp = .profiles a.active a.reactive cf.weeks cf.days constant)

/-- network data of `n` columns -/
structure Columns (n : Nat) (d : NetworkData) : Prop where
  noisyVoltage : d.noisyVoltage.c = n
  noisyCurrent : d.noisyCurrent.c = n
  voltage : d.voltage.c = n
  current : d.current.c = n
  y : IsSquare n d.y
  ratings : d.ratings.length = n
  ids : d.ids.length = n

/-- `d'` holds exactly the columns, rows and ratings of `d` labelled `l`, in order -/
def Selected (l : Int) (d d' : NetworkData) : Prop :=
  ∃ m f, LabelPos d.ids l m f ∧ d'.noisyVoltage = columnsAt d.noisyVoltage m f ∧ d'.noisyCurrent = columnsAt d.noisyCurrent m f ∧
    d'.voltage = columnsAt d.voltage m f ∧ d'.current = columnsAt d.current m f ∧ d'.y = blockAt d.y m f ∧
    d'.ratings = entriesAt d.ratings m f ∧ d'.fparam = d.fparam

/-- the digit of a phase or sequence -/
def Digit (phases : String) (l : Int) : Prop := (phases, l) ∈ [("0", 0), ("1", 1), ("2", 2), ("3", 3)]

end Spec
end Verif
