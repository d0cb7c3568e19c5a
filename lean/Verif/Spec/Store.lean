/-
Specification vocabulary for the result files: names that cannot be mistaken for the file of another stage, and the calls that
make up a history of runs.
-/
import Verif.Model.Identify

namespace Verif
namespace Spec

/-- a network name that does not begin with the first part of another stage's file name -/
def PlainName (n : String) : Prop := ∀ s : Stage, s ≠ .network → ∀ m : String, n ≠ s.pre ++ m

/-- the calls that write a result file, with the stage and the network they belong to, as functions on the files -/
inductive StageRun : Stage → String → (Store → Store) → Prop
  | loads (rng z files a name net lp) : StageRun .loads name (fun st => (generateLoads rng z files a name net lp st).2)
  | loads3 (rng files a name net lp) : StageRun .loads name (fun st => (generateLoads3 rng files a name net lp st).2)
  | simulation (flow yBus name net p q) : StageRun .simulation name (fun st => (simulateNet flow yBus name net p q st).2)
  | simulation3 (flow yBus name net p q asym) :
    StageRun .simulation name (fun st => (simulateNet3 flow yBus name net p q asym st).2)
  | filtered (z name net v c times fmeas steps p) :
    StageRun .filtered name (fun st => (noiseStage z name net v c times fmeas steps p st).2)
  | filtered3 (z name net v c times fmeas steps p) :
    StageRun .filtered name (fun st => (noiseStage3 z name net v c times fmeas steps p st).2)
  | network (name d) : StageRun .network name (fun st => st.savez (resultFile .network name) (networkNpz d))
  | reference (name y phases lap) :
    StageRun .reference name (fun st => st.savez (resultFile .reference name) (referenceNpz y phases lap))
  | standard (ext cf name v c lap iters) : StageRun .standard name (fun st => (standardMethods ext cf name v c lap iters st).2)
  | standard3 (ext cf name v c ids lap iters) :
    StageRun .standard name (fun st => (standardMethods3 ext cf name v c ids lap iters st).store)
  | bayesian (ext cf name v c vsd isd ratings yInit yExact lap weighted iters pmu) :
    StageRun .bayesian name (fun st => (bayesianEiv ext cf name v c vsd isd ratings yInit yExact lap weighted iters pmu st).2)
  | bayesian3 (ext cf name v c ids vsd isd ratings yInit yExact lap weighted iters pmu) :
    StageRun .bayesian name
      (fun st => (bayesianEiv3 ext cf name v c ids vsd isd ratings yInit yExact lap weighted iters pmu st).store)
  | fim (invR spread name v c vsd isd ratings y n lap) :
    StageRun .fim name (fun st => (eivFim invR spread name v c vsd isd ratings y n lap st).2)

/-- one step of a history -/
structure Step where
  stage : Stage
  name : String
  act : Store → Store
  run : StageRun stage name act

/-- the files after a history -/
def after (h : List Step) (st : Store) : Store := h.foldl (fun st s => s.act st) st

end Spec
end Verif
