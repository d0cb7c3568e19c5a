/-
Model of `add_noise_and_filter` with its result file, src/simulation/run.py:140-243 and src/simulation/run3ph.py:195-319. Without
noise parameters the ratings are computed with the factor 4, the averaging factor is computed, and the series are read from the
file.
-/
import Verif.Model.Sampling
import Verif.Model.Store

namespace Verif
noncomputable section

/-- the archive of `add_noise_and_filter`, run.py:233, run3ph.py:309 -/
def filteredNpz (r : NoiseResult) : Npz :=
  npz [("i", .mat r.noisyCurrent), ("v", .mat r.noisyVoltage), ("j", .mat r.current), ("w", .mat r.voltage)]

/-- the series read back, run.py:239-240, run3ph.py:315-316: noisy voltage, noisy current, voltage, current -/
def filteredLoad (st : Store) (name : String) : Except PyErr (Arr2 ℂ × Arr2 ℂ × Arr2 ℂ × Arr2 ℂ) := do
  let d ← st.load (resultFile .filtered name)
  let v ← d.mat "v"
  let i ← d.mat "i"
  let w ← d.mat "w"
  let j ← d.mat "j"
  pure (v, i, w, j)

/-- the loading branch: `ratings` are computed before, run.py:172-183, 237-243 -/
def noiseReload (rate : Except PyErr (List ℝ)) (name : String) (times : List ℝ) (fmeas : ℝ) (steps : Nat) (st : Store) :
    Except PyErr NoiseResult := do
  let r ← rate
  let (_, ts) ← rawTimes times fmeas
  let f ← averagingFactor ts.length steps
  let (v, i, w, j) ← filteredLoad st name
  pure ⟨v, i, w, j, r, f⟩

/-- `add_noise_and_filter`, run.py:140-243 -/
def noiseStage (z : Nat → ℝ) (name : String) (net : Net) (voltage current : Arr2 ℂ) (times : List ℝ) (fmeas : ℝ) (steps : Nat)
    (p : Option (NoiseParams × ℝ)) (st : Store) : Except PyErr NoiseResult × Store :=
  match p with
  | some (p, safety) =>
    match addNoiseAndFilter z net voltage current times fmeas steps p safety with
    | .error e => (.error e, st)
    | .ok r => (.ok r, st.savez (resultFile .filtered name) (filteredNpz r))
  | none => (noiseReload (.ok (ratings 4 net)) name times fmeas steps st, st)

/-- `add_noise_and_filter`, run3ph.py:195-319 -/
def noiseStage3 (z : Nat → ℝ) (name : String) (net : Net) (voltage current : Arr2 ℂ) (times : List ℝ) (fmeas : ℝ) (steps : Nat)
    (p : Option (NoiseParams × List ℝ)) (st : Store) : Except PyErr NoiseResult × Store :=
  match p with
  | some (p, safety) =>
    match addNoiseAndFilter3 z net voltage current times fmeas steps p safety with
    | .error e => (.error e, st)
    | .ok r => (.ok r, st.savez (resultFile .filtered name) (filteredNpz r))
  | none => (noiseReload (ratings3 [4, 4, 4] net) name times fmeas steps st, st)

end
end Verif
