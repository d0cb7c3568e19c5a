/-
Model of `add_noise_and_filter`, src/simulation/run.py:140-243 and src/simulation/run3ph.py:195-319, when `noise_params` is given
(reading the stored result back is in Model/Stages.lean).

Floats are exact reals. `np.max(times) * fmeas` is a numpy integer or float; division by `fparam = 0` gives `inf` or `nan` there,
and `round` of these raises. In run3ph.py, assigning a one-element series to one entry of an array is taken to store this
element (numpy before 2.x).
-/
import Verif.Model.Network
import Verif.Model.Noise
import Mathlib.Algebra.Order.Round
import Mathlib.Data.Real.Sqrt

namespace Verif
noncomputable section

open Classical in
/-- Python's `round(x)`: to the nearest integer, halves to the even one -/
def pyRound (x : ℝ) : Int :=
  if Int.fract x = 1 / 2 then (if Even ⌊x⌋ then ⌊x⌋ else ⌊x⌋ + 1) else round x

/-- `np.max` of a one-dimensional array -/
def timesMax : List ℝ → Except PyErr ℝ
  | [] => .error .valueError
  | x :: xs => .ok (xs.foldl max x)

/-- `np.linspace(0, stop, n)` -/
def linspace (stop : ℝ) (n : Int) : Except PyErr (List ℝ) :=
  if n < 0 then .error .valueError
  else .ok ((List.range n.toNat).map (fun k : Nat => (k : ℝ) * (stop / ((n : ℝ) - 1))))

/-- `np.hstack((a, b))` for two arrays with two dimensions -/
def Arr2.hstack {α : Type} [Zero α] (a b : Arr2 α) : Except PyErr (Arr2 α) :=
  if a.r = b.r then .ok (Arr2.ofFn a.r (a.c + b.c) (fun i j => if j < a.c then a.get i j else b.get i (j - a.c)))
  else .error .valueError

/-- `np.split(a, 2, axis=1)` -/
def Arr2.split2 {α : Type} [Zero α] (a : Arr2 α) : Except PyErr (Arr2 α × Arr2 α) :=
  if a.c % 2 = 0 then
    .ok (Arr2.ofFn a.r (a.c / 2) (fun i j => a.get i j), Arr2.ofFn a.r (a.c / 2) (fun i j => a.get i (a.c / 2 + j)))
  else .error .valueError

/-- `voltage_magnitude_sd, current_magnitude_sd, voltage_phase_sd, current_phase_sd, use_equivalent_noise` -/
structure NoiseParams where
  vm : ℝ
  cm : ℝ
  vp : ℝ
  cp : ℝ
  equivalent : Bool

/-- what `add_noise_and_filter` returns -/
structure NoiseResult where
  noisyVoltage : Arr2 ℂ
  noisyCurrent : Arr2 ℂ
  voltage : Arr2 ℂ
  current : Arr2 ℂ
  ratings : List ℝ
  fparam : Nat

/-- run.py:175 -/
def baseRatings (safety : ℝ) (net : Net) : List ℝ := net.load.map (fun l => safety * (l.p * l.p + l.q * l.q))

/-- one iteration of run.py:177-179 -/
def ratingStep (net : Net) (r : List ℝ) (i : Nat) : List ℝ :=
  match net.load[i]? with
  | some l => if l.bus ∈ net.extGrid then r.set i r.sum else r
  | none => r

/-- `pmu_ratings`, run.py:175-179 -/
def ratings (safety : ℝ) (net : Net) : List ℝ := (List.range net.load.length).foldl (ratingStep net) (baseRatings safety net)

/-- `np.linspace(0, np.max(times), round(np.max(times) * fmeas))` with the maximum, run.py:181 and run3ph.py:257 -/
def rawTimes (times : List ℝ) (fmeas : ℝ) : Except PyErr (ℝ × List ℝ) := do
  let m ← timesMax times
  let ts ← linspace m (pyRound (m * fmeas))
  pure (m, ts)

/-- `int(np.floor(ts.size / steps))`, run.py:182 and run3ph.py:258 -/
def averagingFactor (n steps : Nat) : Except PyErr Nat := if steps = 0 then .error .zeroDivisionError else .ok (n / steps)

/-- the new `ts` with equivalent noise, run.py:202 and run3ph.py:278 -/
def equivalentTimes (m fmeas : ℝ) (f : Nat) : Except PyErr (List ℝ) :=
  if f = 0 then .error (if m * fmeas = 0 then .valueError else .overflowError)
  else linspace m (pyRound (m * fmeas / f))

/-- run.py:214-229 and run3ph.py:290-305 -/
def noiseSeries (z : Nat → ℝ) (ratings : List ℝ) (voltage current : Arr2 ℂ) (times ts : List ℝ) (f : Nat) (vm cm vp cp : ℝ) :
    Except PyErr (Arr2 ℂ × Arr2 ℂ × Arr2 ℂ × Arr2 ℂ) := do
  let sdm := ratings.map (fun _ => vm) ++ ratings.map (fun r => cm * r)
  let sdp := ratings.map (fun _ => vp) ++ ratings.map (fun _ => cp)
  let vi ← voltage.hstack current
  let noisy ← filterAndResample vi times ts f (polarNoise z sdm sdp)
  let (nv, ni) ← noisy.split2
  let clean ← filterAndResample vi times ts f noNoise
  let (v, i) ← clean.split2
  pure (nv, ni, v, i)

/-- `add_noise_and_filter`, run.py:140-243 -/
def addNoiseAndFilter (z : Nat → ℝ) (net : Net) (voltage current : Arr2 ℂ) (times : List ℝ) (fmeas : ℝ) (steps : Nat)
    (p : NoiseParams) (safety : ℝ) : Except PyErr NoiseResult := do
  let r := ratings safety net
  let (m, ts) ← rawTimes times fmeas
  let f ← averagingFactor ts.length steps
  if p.equivalent then
    let ts ← equivalentTimes m fmeas f
    let s := Real.sqrt f
    let (nv, ni, v, i) ← noiseSeries z r voltage current times ts 1 (p.vm / s) (p.cm / s) (p.vp / s) (p.cp / s)
    pure ⟨nv, ni, v, i, r, f⟩
  else
    let (nv, ni, v, i) ← noiseSeries z r voltage current times ts f p.vm p.cm p.vp p.cp
    pure ⟨nv, ni, v, i, r, f⟩

/-- squared nominal power of the bus labelled `b` on a phase, run3ph.py:232-244: the last matching symmetric load is overwritten by
the last matching asymmetric one -/
def totalLoad (net : Net) (b : Int) (ph : Fin 3) : ℝ :=
  let s := net.load.foldl (fun acc l => if l.bus = b then l.p * l.p + l.q * l.q else acc) 0
  net.asym.foldl (fun acc l => if l.bus = b then l.p ph * l.p ph + l.q ph * l.q ph else acc) s

/-- `pmu_safety_factor * total_loads` as a 3-by-n array, run3ph.py:227-246; one factor is broadcast to the three rows -/
def baseRatings3 (safety : List ℝ) (net : Net) : Except PyErr (Arr2 ℝ) :=
  if safety.length = 3 ∨ safety.length = 1 then
    .ok (Arr2.ofFn 3 net.bus.length (fun ph i =>
      (if safety.length = 1 then safety.getD 0 0 else safety.getD ph 0) *
        match net.bus[i]? with
        | some b => totalLoad net b.index (if ph = 0 then 0 else if ph = 1 then 1 else 2)
        | none => 0))
  else .error .valueError

/-- `np.sum(a[ph, :])` -/
def Arr2.rowSum (a : Arr2 ℝ) (ph : Nat) : ℝ := ((List.range a.c).map (fun j => a.get ph j)).sum

/-- one iteration of run3ph.py:249-253; the position `i` is one in the table of symmetric loads -/
def ratingStep3 (net : Net) (a : Arr2 ℝ) (i : Nat) : Except PyErr (Arr2 ℝ) :=
  match net.load[i]? with
  | some l =>
    if l.bus ∈ net.extGrid then
      if i < a.c then .ok (Arr2.ofFn a.r a.c (fun ph j => if j = i then a.rowSum ph else a.get ph j)) else .error .indexError
    else .ok a
  | none => .error .indexError

/-- `pmu_ratings`, run3ph.py:231-255; `reshape` reads the 3-by-n array row by row -/
def ratings3 (safety : List ℝ) (net : Net) : Except PyErr (List ℝ) := do
  let a ← baseRatings3 safety net
  let a ← forRange net.load.length a (ratingStep3 net)
  pure ((List.range (3 * net.bus.length)).map (fun k => a.get (k / net.bus.length) (k % net.bus.length)))

/-- `add_noise_and_filter`, run3ph.py:195-319 -/
def addNoiseAndFilter3 (z : Nat → ℝ) (net : Net) (voltage current : Arr2 ℂ) (times : List ℝ) (fmeas : ℝ) (steps : Nat)
    (p : NoiseParams) (safety : List ℝ) : Except PyErr NoiseResult := do
  let r ← ratings3 safety net
  let (m, ts) ← rawTimes times fmeas
  let f ← averagingFactor ts.length steps
  if p.equivalent then
    let ts ← equivalentTimes m fmeas f
    let s := Real.sqrt f
    let (nv, ni, v, i) ← noiseSeries z r voltage current times ts 1 (p.vm / s) (p.cm / s) (p.vp / s) (p.cp / s)
    pure ⟨nv, ni, v, i, r, 1⟩
  else
    let (nv, ni, v, i) ← noiseSeries z r voltage current times ts f p.vm p.cm p.vp p.cp
    pure ⟨nv, ni, v, i, r, f⟩

end
end Verif
