/-
Model of identify_network.py. Messages are not modelled. An averaging factor of zero makes the standard deviations infinite in
numpy; here a division by zero gives zero.
-/
import Verif.Model.Identification3
import Verif.Model.Simulate

namespace Verif
noncomputable section

/-- the options, identify_network.py:11-23 -/
structure IdArgs where
  network : String
  maxIter : Nat
  standard : Bool
  bayesian : Bool
  continueId : Bool
  phases : String
  sequence : Bool
  exact : Bool
  laplacian : Bool
  weighted : Bool
  uncertainty : Bool
  unsynchronized : Bool

namespace IdArgs

/-- identify_network.py:37 -/
def threePhased (a : IdArgs) : Bool := a.phases == "012" || a.phases == "123"
/-- identify_network.py:39 -/
def redoStandard (a : IdArgs) : Bool := a.standard || (!a.standard && !a.bayesian)
/-- identify_network.py:40 -/
def redoStls (a : IdArgs) : Bool := a.bayesian || (!a.standard && !a.bayesian)

end IdArgs

/-- identify_network.py:33-36 -/
def checkPhases (phases : String) (sequence : Bool) : Except PyErr Unit :=
  if (phases ≠ "012" ∧ phases ≠ "0" ∧ phases ≠ "1" ∧ phases ≠ "2" ∧ sequence = true) ∨
      (phases ≠ "123" ∧ phases ≠ "1" ∧ phases ≠ "2" ∧ phases ≠ "3" ∧ ¬sequence = true) then
    .error .notImplementedError
  else .ok ()

/-- `int(phases)` for the strings that get that far -/
def phaseNumber (phases : String) : Except PyErr Int :=
  if phases = "0" then .ok 0 else if phases = "1" then .ok 1 else if phases = "2" then .ok 2 else if phases = "3" then .ok 3
  else .error .valueError

/-- reading the network data, identify_network.py:47-50 -/
def networkLoad (st : Store) (name : String) : Except PyErr NetworkData := do
  let d ← st.load (resultFile .network name)
  let i ← d.mat "i"
  let v ← d.mat "v"
  let j ← d.mat "j"
  let w ← d.mat "w"
  let y ← d.mat "y"
  let p ← d.vec "p"
  let f ← d.num "f"
  let h ← d.ints "h"
  pure ⟨v, i, w, j, y, p, f, h⟩

/-- positions of the entries different from `i`: `(ids != i).nonzero()` -/
def otherLabels (ids : List Int) (i : Int) : List Nat := (List.range ids.length).filter (fun k => ids.getD k 0 ≠ i)

/-- selection of a phase, identify_network.py:52-64; the labels themselves are kept -/
def selectPhase (a : IdArgs) (d : NetworkData) : Except PyErr NetworkData :=
  if a.threePhased = false ∧ ∃ x ∈ d.ids, x ≠ 1 then do
    let ph ← phaseNumber a.phases
    if ph ∈ d.ids then do
      let del := otherLabels d.ids ph
      let y ← d.y.deleteRows del
      let y ← y.deleteCols del
      let p ← deleteEntries d.ratings del 0
      let nv ← d.noisyVoltage.deleteCols del
      let ni ← d.noisyCurrent.deleteCols del
      let v ← d.voltage.deleteCols del
      let i ← d.current.deleteCols del
      pure ⟨nv, ni, v, i, y, p, d.fparam, d.ids⟩
    else .error .indexError
  else pure d

/-- the archive of the reference, identify_network.py:68 -/
def referenceNpz (y : Arr2 ℂ) (phases : String) (laplacian : Bool) : Npz :=
  npz [("y", .mat y), ("p", .str phases), ("l", .bool laplacian)]

/-- standard deviations after averaging, identify_network.py:73-76, 95-96 -/
def averagedSd (m p f : ℝ) : SdPolar := ⟨m / Real.sqrt f, p / Real.sqrt f⟩

/-- the standard methods, identify_network.py:78-80 -/
def identifyStandard (ext : NumExt) (cf : IdConf) (a : IdArgs) (d : NetworkData) : Prog (Arr2 ℂ × Arr2 ℂ × Arr2 ℂ) :=
  let v := if a.redoStandard then some d.noisyVoltage else none
  if a.threePhased then
    standardMethods3 ext cf a.network v (some d.noisyCurrent) (if a.phases = "012" then some d.ids else none) a.laplacian a.maxIter
  else Prog.call (standardMethods ext cf a.network v (some d.noisyCurrent) a.laplacian a.maxIter)

/-- the initial estimate, identify_network.py:82-90 -/
def initialEstimate (a : IdArgs) (yTls : Arr2 ℂ) : Prog (Arr2 ℂ) :=
  if a.continueId then do
    let r ← Prog.read (fun st => bayesianLoad st a.network)
    pure r.1
  else Prog.ofExcept (halfSum yTls)

/-- the Bayesian method, identify_network.py:92-99 -/
def identifyBayesian (ext : NumExt) (cf : IdConf) (sc : SimConf) (a : IdArgs) (d : NetworkData) (yInit : Arr2 ℂ) :
    Prog (Arr2 ℂ × List IterationStatus) :=
  let vsd := averagedSd sc.vm sc.vp d.fparam
  let isd := averagedSd sc.cm sc.cp d.fparam
  let yExact := if a.exact && !a.laplacian then some d.y else none
  let iters := if a.redoStls then a.maxIter else 0
  if a.threePhased then
    bayesianEiv3 ext cf a.network d.noisyVoltage d.noisyCurrent d.ids vsd isd d.ratings yInit yExact a.laplacian a.weighted iters
      (!a.unsynchronized)
  else
    Prog.call (bayesianEiv ext cf a.network (some d.noisyVoltage) (some d.noisyCurrent) vsd isd d.ratings yInit yExact a.laplacian
      a.weighted iters (!a.unsynchronized))

/-- `identify`, identify_network.py:25-128; returns the estimates. Line 102 calls `extend` on the array that `np.load` returned,
line 110 reads a name that is not defined. -/
def identify (ext : NumExt) (cf : IdConf) (sc : SimConf) (a : IdArgs) :
    Prog ((Arr2 ℂ × Arr2 ℂ × Arr2 ℂ) × (Arr2 ℂ × List IterationStatus)) := do
  Prog.ofExcept (checkPhases a.phases a.sequence)
  let d ← Prog.read (fun st => networkLoad st a.network)
  let d ← Prog.ofExcept (selectPhase a d)
  Prog.save (resultFile .reference a.network) (referenceNpz d.y a.phases a.laplacian)
  let s ← identifyStandard ext cf a d
  let y0 ← initialEstimate a s.2.1
  let b ← identifyBayesian ext cf sc a d y0
  Prog.ofExcept (if a.continueId then .error .attributeError else if a.uncertainty then .error .nameError else .ok (s, b))

end
end Verif
