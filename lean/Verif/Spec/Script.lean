/-
Specification vocabulary for the script that varies the configuration.
-/
import Verif.Model.Script
import Mathlib.Logic.ExistsUnique

namespace Verif
namespace Spec

/-- a number as the script writes them -/
def Value (x : List Char) : Prop := x ≠ [] ∧ ∀ c ∈ x, c.isDigit = true ∨ c = '.'

/-- the words stand at exactly one place of the text -/
def Once (key t : List Char) : Prop := ∃! a, ∃ b, t = a ++ key ++ b

/-- the text sets `key` at one place only, and the value there starts with `v` -/
def Sets (key v t : List Char) : Prop := Once key t ∧ ∃ a b, t = a ++ (key ++ v) ++ b

/-- `t'` is `t` with the value `v` of `key` replaced by `w` and nothing else changed -/
def Edited (key v w t t' : List Char) : Prop := ∃ a b, t = a ++ key ++ v ++ b ∧ t' = a ++ key ++ w ++ b

open Script

/-- the values are numbers -/
structure Numbers (ls : Lists) : Prop where
  noiseSeeds : ∀ x ∈ ls.noiseSeeds, Value x
  noises : ∀ x ∈ ls.noises, Value x
  daysSeeds : ∀ x ∈ ls.daysSeeds, Value x
  days : ∀ x ∈ ls.days, Value x

/-- the texts have the default settings, each at one place -/
structure Defaults (t : Texts) : Prop where
  seed : Sets seedKey "131".toList t.conf
  noise : Sets noiseKey "1".toList t.conf
  days : Sets daysKey "7".toList t.simulation

/-- texts as a function of the three settings -/
structure Settings (t : Texts) (c : List Char → List Char → List Char) (s : List Char → List Char) : Prop where
  conf : c "131".toList "1".toList = t.conf
  simulation : s "7".toList = t.simulation
  seed : ∀ x y, Value x → Value y → Edited seedKey "131".toList x (c "131".toList y) (c x y)
  noise : ∀ x y, Value x → Value y → Edited noiseKey "1".toList y (c x "1".toList) (c x y)
  days : ∀ x, Value x → Edited daysKey "7".toList x t.simulation (s x)

/-- the identification command of run_multiple_sims.sh -/
def identifyCommand : String := "identify_network.py -q --max-iterations 20 --network ieee123center --phases 012"

/-- the plotting command of the script -/
def plotCommand : String := "plot_results.py -v --network ieee123center"

/-- the runs the script is for: every noise level with every seed, or every sample size with every seed -/
def intended (ls : Lists) (n s : Bool) (t : Texts) (c : List Char → List Char → List Char) (d : List Char → List Char) :
    List (String × Texts) :=
  (if n then ls.noiseSeeds.flatMap (fun x => ("simulate_network.py -vqte --network ieee123center", ⟨c x "1".toList, t.simulation⟩) ::
    ls.noises.flatMap (fun y => ["simulate_network.py -qtde --network ieee123center", identifyCommand, plotCommand].map
      (fun l => (l, ⟨c x y, t.simulation⟩)))) else []) ++
  (if s then ls.daysSeeds.flatMap (fun x => ls.days.flatMap (fun y =>
    ["simulate_network.py -qte --network ieee123center", identifyCommand, plotCommand].map (fun l => (l, ⟨c x "1".toList, d y⟩)))) else [])

/-- the two numbers differ before either of them ends, so neither is taken for the beginning of the other -/
def Apart (v x : List Char) : Prop := ∃ (i : Nat) (a b : Char), v[i]? = some a ∧ x[i]? = some b ∧ a ≠ b ∧ a ≠ '.'

/-- any two of the numbers are apart -/
def PrefixFree (vs : List (List Char)) : Prop := ∀ v ∈ vs, ∀ x ∈ vs, v ≠ x → Apart v x

/-- the values are numbers none of which begins another one of the same setting -/
structure Unambiguous (ls : Lists) : Prop extends Numbers ls where
  seedsFree : PrefixFree ("131".toList :: (ls.noiseSeeds ++ ls.daysSeeds))
  noisesFree : PrefixFree ("1".toList :: ls.noises)
  daysFree : PrefixFree ("7".toList :: ls.days)

end Spec
end Verif
