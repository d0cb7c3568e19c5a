/-
Model of the measurement noise and the resampling, src/simulation/noise.py:16-143.

`np.random.normal(0, sd, shape)` is `sd` times a standard normal sample (numpy computes `loc + scale * gauss`) and raises
for a negative `sd`. The standard normal samples are a stream `z : Nat → ℝ` in the order in which the generator produces
them. `scipy.interpolate.interp1d` (kind linear, scipy's `_call_linear`) is written out for abscissae in increasing order;
scipy sorts them first. A single abscissa gives `nan` in scipy; the model divides by zero as Lean does.
-/
import Verif.Model.NoiseTransformation
import Mathlib.Analysis.SpecialFunctions.Complex.Arg

namespace Verif
noncomputable section

/-- `np.random.normal(0, sd, n)`, with the standard normal samples from position `p` of the stream on -/
def normal1 (z : Nat → ℝ) (p : Nat) (sd : ℝ) (n : Nat) : Except PyErr (List ℝ) :=
  if sd < 0 then .error .valueError else .ok ((List.range n).map (fun k => sd * z (p + k)))

/-- `noisy_magnitude * np.exp(1j * noisy_phase)` for one value, noise.py:72, 104-107 -/
def polarNoisy (x : ℂ) (nm np : ℝ) : ℂ :=
  ((‖x‖ + nm * ‖x‖ : ℝ) : ℂ) * Complex.exp (Complex.I * ((x.arg + np * x.arg : ℝ) : ℂ))

/-- `add_polar_noise_to_measurement` on one series with scalar standard deviations, noise.py:71-109; the magnitude noise is
drawn before the phase noise -/
def addPolarNoise1 (z : Nat → ℝ) (p : Nat) (x : List ℂ) (sdm sdp : ℝ) : Except PyErr (List ℂ) := do
  let nm ← normal1 z p sdm x.length
  let np ← normal1 z (p + x.length) sdp x.length
  .ok ((List.range x.length).map (fun k => polarNoisy (x.getD k 0) (nm.getD k 0) (np.getD k 0)))

/-- noise matrix of one kind (magnitude or phase) for an `r`-by-`c` array, noise.py:75-101: a scalar or one-element argument
is used for all entries, an argument of the right length column by column, otherwise the first element is used. Array
arguments with several dimensions are not modelled. -/
def noiseMatrix (z : Nat → ℝ) (p : Nat) (sd : SdArg) (r c : Nat) : Except PyErr (Arr2 ℝ) :=
  let whole (s : ℝ) : Except PyErr (Arr2 ℝ) := do
    let v ← normal1 z p s (r * c)
    .ok (Arr2.ofFn r c (fun i j => v.getD (i * c + j) 0))
  match sd with
  | .pyFloat s => whole s
  | .pyInt _ => .error .attributeError
  | .npScalar s => whole s
  | .array ss =>
    if ss.length = 1 then whole (ss.getD 0 0)
    else if ss.length = c then
      forRange ss.length (Arr2.zeros r c) (fun a j => do
        let v ← normal1 z (p + j * r) (ss.getD j 0) r
        .ok (Arr2.ofFn r c (fun i j' => if j' = j then v.getD i 0 else a.get i j')))
    else match ss with
      | [] => .error .indexError
      | s :: _ => whole s

/-- `add_polar_noise_to_measurement` on an array, noise.py:71-109 -/
def addPolarNoise (z : Nat → ℝ) (p : Nat) (x : Arr2 ℂ) (sdm sdp : SdArg) : Except PyErr (Arr2 ℂ) := do
  let nm ← noiseMatrix z p sdm x.r x.c
  let np ← noiseMatrix z (p + x.r * x.c) sdp x.r x.c
  .ok (Arr2.ofFn x.r x.c (fun i j => polarNoisy (x.get i j) (nm.get i j) (np.get i j)))

/-- `add_noise_in_polar_coordinates`, noise.py:55-68 -/
def addNoisePolarBoth (z : Nat → ℝ) (current voltage : Arr2 ℂ) (sdm sdp : SdArg) :
    Except PyErr (Arr2 ℂ × Arr2 ℂ) := do
  let nv ← addPolarNoise z 0 voltage sdm sdp
  let nc ← addPolarNoise z (2 * (voltage.r * voltage.c)) current sdm sdp
  .ok (nv, nc)

/-- `np.mean(np.abs(part(actual)), axis=0) * accuracy / 3`, noise.py:45-46 -/
def cartesianSd (part : ℂ → ℝ) (x : Arr2 ℂ) (acc : ℝ) : List ℝ :=
  (List.range x.c).map (fun j => ((List.range x.r).map (fun i => |part (x.get i j)|)).sum / x.r * acc / 3)

/-- `np.random.normal(0, sd, shape)` with one standard deviation per column -/
def normalCols (z : Nat → ℝ) (p : Nat) (sd : List ℝ) (r : Nat) : Except PyErr (Arr2 ℝ) :=
  if ∃ s ∈ sd, s < 0 then .error .valueError
  else .ok (Arr2.ofFn r sd.length (fun i j => sd.getD j 0 * z (p + (i * sd.length + j))))

/-- `add_cartesian_noise_to_measurement`, noise.py:32-52 (the mean over no rows, a `nan`, is not modelled) -/
def addCartesianNoise (z : Nat → ℝ) (p : Nat) (x : Arr2 ℂ) (accR accI : ℝ) :
    Except PyErr (Arr2 ℂ × List ℝ × List ℝ) := do
  let sr := cartesianSd Complex.re x accR
  let si := cartesianSd Complex.im x accI
  let nr ← normalCols z p sr x.r
  let ni ← normalCols z (p + x.r * x.c) si x.r
  .ok (Arr2.ofFn x.r x.c (fun i j => x.get i j + (nr.get i j : ℂ) + Complex.I * (ni.get i j : ℂ)), sr, si)

/-- `add_noise_in_cartesian_coordinates`, noise.py:16-29: the voltages are drawn first -/
def addNoiseCartesianBoth (z : Nat → ℝ) (current voltage : Arr2 ℂ) (accC accV : ℝ) : Except PyErr (Arr2 ℂ × Arr2 ℂ) := do
  let nv ← addCartesianNoise z 0 voltage accV accV
  let nc ← addCartesianNoise z (2 * (voltage.r * voltage.c)) current accC accC
  .ok (nv.1, nc.1)

/-- `searchsorted(x, v)` followed by `clip(1, len(x) - 1)` in scipy's linear interpolation -/
def upperIdx (old : List ℝ) (v : ℝ) : Nat := min (max (old.countP (· < v)) 1) (old.length - 1)

/-- scipy's linear interpolation at one abscissa -/
def interpAt (old : List ℝ) (y : List ℂ) (v : ℝ) : ℂ :=
  let hi := upperIdx old v
  let lo := hi - 1
  let slope := (y.getD hi 0 - y.getD lo 0) / ((old.getD hi 0 - old.getD lo 0 : ℝ) : ℂ)
  slope * ((v - old.getD lo 0 : ℝ) : ℂ) + y.getD lo 0

/-- `interp1d(oldtimes, y)(newtimes)`: raises for different lengths and outside of the range -/
def interp1d (old : List ℝ) (y : List ℂ) (new : List ℝ) : Except PyErr (List ℂ) :=
  if old.length ≠ y.length then .error .valueError
  else if ∃ v ∈ new, v < old.getD 0 0 ∨ old.getD (old.length - 1) 0 < v then .error .valueError
  else .ok (new.map (interpAt old y))

/-- `np.sum(resampled[t*fparam:(t+1)*fparam])/fparam` -/
def blockMean (f : Nat) (x : List ℂ) (t : Nat) : ℂ := ((x.drop (t * f)).take f).sum / (f : ℂ)

/-- column `i` as a list -/
def Arr2.col (a : Arr2 ℂ) (i : Nat) : List ℂ := (List.range a.r).map (fun t => a.get t i)

/-- `filter_and_resample_measurement`, noise.py:111-143, with `oldtimes` and `newtimes` given (as in both callers).
`noise i` is `add_noise` of series `i`. -/
def filterAndResample (a : Arr2 ℂ) (old new : List ℝ) (f : Nat) (noise : Nat → List ℂ → Except PyErr (List ℂ)) :
    Except PyErr (Arr2 ℂ) :=
  if f = 0 then .error .zeroDivisionError else
  let steps := new.length / f
  forRange a.c (Arr2.zeros steps a.c) (fun filtered i => do
    let tmp ← interp1d old (a.col i) new
    let res ← noise i tmp
    .ok (Arr2.ofFn steps a.c (fun t j => if j = i then blockMean f res t else filtered.get t j)))

/-- `add_noise` when there is no noise function, noise.py:131 -/
def noNoise : Nat → List ℂ → Except PyErr (List ℂ) := fun _ x => .ok x

/-- `std[i]` for a 1-D numpy array -/
def stdAt (sd : List ℝ) (i : Nat) : Except PyErr ℝ :=
  if i < sd.length then .ok (sd.getD i 0) else .error .indexError

/-- `add_noise` with polar noise and one standard deviation per series, noise.py:133-134; each earlier series has used
`2 * len(newtimes)` samples of the stream -/
def polarNoise (z : Nat → ℝ) (sdm sdp : List ℝ) : Nat → List ℂ → Except PyErr (List ℂ) := fun i x => do
  let m ← stdAt sdm i
  let p ← stdAt sdp i
  addPolarNoise1 z (i * (2 * x.length)) x m p

end
end Verif
