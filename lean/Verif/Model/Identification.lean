/-
Model of `standard_methods`, `bayesian_eiv` and `eiv_fim` of `src/identification/run.py`. Messages are not modelled.
-/
import Verif.Model.Store
import Verif.Model.KnownLines
import Verif.Model.NoiseTransformation
import Verif.Model.Fisher

namespace Verif
open Finset
noncomputable section

/-- `m - np.tile(np.mean(m, axis=0), (m.shape[0], 1))` (numpy gives nan for no rows) -/
def centreColumns (m : Arr2 ℂ) : Arr2 ℂ :=
  Arr2.ofFn m.r m.c (fun t j => m.get t j - (∑ s ∈ range m.r, m.get s j) / m.r)

/-- `m - np.mean(m)` -/
def centreGlobal (m : Arr2 ℂ) : Arr2 ℂ :=
  Arr2.ofFn m.r m.c (fun t j => m.get t j - (∑ s ∈ range m.r, ∑ k ∈ range m.c, m.get s k) / ((m.r * m.c : Nat) : ℂ))

/-- centring of the data, src/identification/run.py:274-280, 425-431, 500-506; src/identification/run3ph.py:120-126 -/
def centreData (laplacian : Bool) (v i : Arr2 ℂ) : Arr2 ℂ × Arr2 ℂ :=
  if laplacian then (centreGlobal v, i) else (centreColumns v, centreColumns i)

/-- numerical routines: `pinv`, third result of `svd`, `inv`, `spsolve` -/
structure NumExt where
  pinv : Arr2 ℂ → Except PyErr (Arr2 ℂ)
  svdVh : Arr2 ℂ → Except PyErr (Arr2 ℂ)
  inv : Arr2 ℂ → Except PyErr (Arr2 ℂ)
  solve : Solver

/-- conf/identification.py -/
structure IdConf where
  lambdaLasso : ℝ
  lambdaEiv : ℝ
  lambdaprime : ℝ
  absTol : ℝ
  relTol : ℝ
  useTlsDiag : Bool
  contrastEachRow : Bool
  regularizeDiag : Bool

/-- `(y + y.T) / 2` -/
def halfSum (y : Arr2 ℂ) : Except PyErr (Arr2 ℂ) := Arr2.zipWith (fun a b => (a + b) / 2) y y.T

/-- constructor arguments of the two Bayesian models, run.py:311-320, 390-399 -/
def regConfig (cf : IdConf) (prior : Prior) (lam : ℝ) (laplacian : Bool) (maxIter : Nat) : RegConfig :=
  { prior := prior, lam := lam, absTol := cf.absTol, relTol := cf.relTol, maxIter := maxIter,
    dt := dtMatrix ℂ laplacian, e := eMatrix ℂ laplacian }

/-- a fitted object's admittance matrix, or the exception of `fit` -/
def fitted (r : Except PyErr Unit × RegObj) : Except PyErr (Arr2 ℂ × List IterationStatus) :=
  match r with
  | (.error e, _) => .error e
  | (.ok (), o) =>
    match o.admittance with
    | some y => .ok (y, o.iterations)
    | none => .error .attributeError

/-- the computing branch of `standard_methods`, run.py:268-330 (and run3ph.py:109-180): OLS, TLS, lasso -/
def standardCompute (ext : NumExt) (cf : IdConf) (voltage current : Arr2 ℂ) (laplacian : Bool) (maxIter : Nat) :
    Except PyErr (Arr2 ℂ × Arr2 ℂ × Arr2 ℂ) := do
  let (v, i) := centreData laplacian voltage current
  let yOls ← complexRegressionFit ext.pinv v i
  let yTls ← tlsFit ext.svdVh ext.inv v i
  let prior ← buildLassoPrior voltage.c yOls laplacian
  if maxIter > 0 then do
    let y0 ← halfSum yOls
    let (yLasso, _) ← fitted (bayesianFit ext.solve (regConfig cf prior cf.lambdaLasso laplacian maxIter) .fresh v i y0)
    pure (yOls, yTls, yLasso)
  else pure (yOls, yTls, yOls)

/-- the archive of `standard_methods`, run.py:333 -/
def standardNpz (r : Arr2 ℂ × Arr2 ℂ × Arr2 ℂ) : Npz := npz [("o", .mat r.1), ("t", .mat r.2.1), ("l", .mat r.2.2)]

/-- the loading branch of `standard_methods`, run.py:338-342, run3ph.py:204-208 -/
def standardLoad (st : Store) (name : String) : Except PyErr (Arr2 ℂ × Arr2 ℂ × Arr2 ℂ) := do
  let d ← st.load (resultFile .standard name)
  let o ← d.mat "o"
  let t ← d.mat "t"
  let l ← d.mat "l"
  pure (o, t, l)

/-- `standard_methods`, src/identification/run.py:248-345 -/
def standardMethods (ext : NumExt) (cf : IdConf) (name : String) (voltage current : Option (Arr2 ℂ)) (laplacian : Bool)
    (maxIter : Nat) (st : Store) : Except PyErr (Arr2 ℂ × Arr2 ℂ × Arr2 ℂ) × Store :=
  match voltage, current with
  | some v, some i =>
    match standardCompute ext cf v i laplacian maxIter with
    | .error e => (.error e, st)
    | .ok r => (.ok r, st.savez (resultFile .standard name) (standardNpz r))
  | _, _ => (standardLoad st name, st)

/-- the prior of `bayesian_eiv`, run.py:383-388. `add_known_lines` is called with `laplacian=False`. -/
def eivPrior (cf : IdConf) (nodes : Nat) (yInit : Arr2 ℂ) (yExact : Option (Arr2 ℂ)) (laplacian : Bool) :
    Except PyErr Prior := do
  let prior ← buildComplexPrior nodes cf.lambdaprime yInit laplacian cf.useTlsDiag cf.contrastEachRow cf.regularizeDiag
  match yExact with
  | some y => addKnownLines nodes prior cf.lambdaprime y false "optimal"
  | none => pure prior

/-- a complex standard deviation: real part for the magnitude, imaginary part for the phase (a numpy scalar) -/
structure SdPolar where
  m : ℝ
  p : ℝ

/-- `np.real(sd) * pmu_ratings` -/
def ratedSd (sd : SdPolar) (ratings : List ℝ) : SdArg := .array (ratings.map (fun r => sd.m * r))

/-- weights and data before centring in `bayesian_eiv`, run.py:402-423. The entries of a sparse matrix that are zero are not
stored, so line 422 inverts the others. -/
def eivWeights (voltage current : Arr2 ℂ) (vsd isd : SdPolar) (ratings : List ℝ) (weighted usePmu : Bool) :
    Except PyErr (Arr2 ℂ × Arr2 ℂ × Option (Arr2 ℝ) × Option (Arr2 ℝ)) :=
  if weighted && usePmu then do
    let wv ← averageTrueNoiseCovariance voltage (.npScalar vsd.m) vsd.p true
    let wi ← averageTrueNoiseCovariance current (ratedSd isd ratings) isd.p true
    pure (voltage, current, some wv, some wi)
  else if weighted && !usePmu then do
    let cv := voltage.map (fun z => ((‖z‖ : ℝ) : ℂ))
    let ci ← Arr2.zipWith (fun i v => i * (starRingEnd ℂ) v / ((‖v‖ : ℝ) : ℂ)) current voltage
    let wv ← naiveNoiseCovariance cv (.npScalar vsd.m) (vsd.p * 100) false
    let wi ← naiveNoiseCovariance current (ratedSd isd ratings) isd.p true
    pure (cv, ci, some (wv.map (fun t => if t = 0 then 0 else 1 / t)), some wi)
  else pure (voltage, current, none, none)

/-- the computing branch of `bayesian_eiv`, run.py:401-441 -/
def eivCompute (ext : NumExt) (cf : IdConf) (prior : Prior) (voltage current : Arr2 ℂ) (vsd isd : SdPolar)
    (ratings : List ℝ) (yInit : Arr2 ℂ) (laplacian weighted : Bool) (maxIter : Nat) (usePmu : Bool) :
    Except PyErr (Arr2 ℂ × List IterationStatus) := do
  let (cv, ci, wv, wi) ← eivWeights voltage current vsd isd ratings weighted usePmu
  let (v, i) := centreData laplacian cv ci
  fitted (eivFit ext.solve ext.inv (regConfig cf prior cf.lambdaEiv laplacian maxIter) .fresh v i wv wi yInit)

/-- the archive of `bayesian_eiv`, run.py:444 -/
def bayesianNpz (r : Arr2 ℂ × List IterationStatus) : Npz := npz [("y", .mat r.1), ("i", .log r.2)]

/-- the loading branch of `bayesian_eiv`, run.py:449-453, identify_network.py:84-87 -/
def bayesianLoad (st : Store) (name : String) : Except PyErr (Arr2 ℂ × List IterationStatus) := do
  let d ← st.load (resultFile .bayesian name)
  let y ← d.mat "y"
  let i ← d.log "i"
  pure (y, i)

/-- `bayesian_eiv`, src/identification/run.py:348-455. Line 381 reads `voltage.shape` before the test for `None`. -/
def bayesianEiv (ext : NumExt) (cf : IdConf) (name : String) (voltage current : Option (Arr2 ℂ)) (vsd isd : SdPolar)
    (ratings : List ℝ) (yInit : Arr2 ℂ) (yExact : Option (Arr2 ℂ)) (laplacian weighted : Bool) (maxIter : Nat)
    (usePmu : Bool) (st : Store) : Except PyErr (Arr2 ℂ × List IterationStatus) × Store :=
  match voltage with
  | none => (.error .attributeError, st)
  | some v =>
    match eivPrior cf v.c yInit yExact laplacian with
    | .error e => (.error e, st)
    | .ok prior =>
      match decide (maxIter > 0), current with
      | true, some i =>
        match eivCompute ext cf prior v i vsd isd ratings yInit laplacian weighted maxIter usePmu with
        | .error e => (.error e, st)
        | .ok r => (.ok r, st.savez (resultFile .bayesian name) (bayesianNpz r))
      | _, _ => (bayesianLoad st name, st)

/-- the computing branch of `eiv_fim`, run.py:491-516: Fisher information, covariance and the spread of sampled errors.
`invR` is `np.linalg.inv` on real arrays, `spread` the sampling of lines 513-516. -/
def fimCompute (invR : Arr2 ℝ → Except PyErr (Arr2 ℝ)) (spread : List ℝ → Arr2 ℝ → Nat → ℝ) (voltage current : Arr2 ℂ)
    (vsd isd : SdPolar) (ratings : List ℝ) (yMat : Arr2 ℂ) (nSamples : Option Nat) (laplacian : Bool) :
    Except PyErr (Arr2 ℝ × Arr2 ℝ × ℝ) := do
  let sv ← averageTrueNoiseCovariance voltage (.npScalar vsd.m) vsd.p false
  let si ← averageTrueNoiseCovariance current (ratedSd isd ratings) isd.p false
  let (v, _) := centreData laplacian voltage current
  let (fim, cov) ← fisherInfo invR v (some sv) (some si) yMat
  pure (fim, cov, spread (makeRealVector (vectorizeMatrix yMat)) cov (nSamples.getD 10000))

/-- the archive of `eiv_fim`, run.py:518 -/
def fimNpz (voltage current yMat : Arr2 ℂ) (r : Arr2 ℝ × Arr2 ℝ × ℝ) : Npz :=
  npz [("y", .mat yMat), ("v", .mat voltage), ("i", .mat current), ("f", .rmat r.1), ("c", .rmat r.2.1), ("e", .num r.2.2)]

/-- the loading branch of `eiv_fim`, run.py:524-531 -/
def fimLoad (st : Store) (name : String) : Except PyErr (Arr2 ℝ × Arr2 ℝ × ℝ) := do
  let d ← st.load (resultFile .fim name)
  let f ← d.rmat "f"
  let c ← d.rmat "c"
  let e ← d.num "e"
  pure (f, c, e)

/-- `eiv_fim`, src/identification/run.py:458-534 -/
def eivFim (invR : Arr2 ℝ → Except PyErr (Arr2 ℝ)) (spread : List ℝ → Arr2 ℝ → Nat → ℝ) (name : String)
    (voltage current : Option (Arr2 ℂ)) (vsd isd : SdPolar) (ratings : List ℝ) (yMat : Arr2 ℂ) (nSamples : Option Nat)
    (laplacian : Bool) (st : Store) : Except PyErr (Arr2 ℝ × Arr2 ℝ × ℝ) × Store :=
  match voltage, current with
  | some v, some i =>
    match fimCompute invR spread v i vsd isd ratings yMat nSamples laplacian with
    | .error e => (.error e, st)
    | .ok r => (.ok r, st.savez (resultFile .fim name) (fimNpz v i yMat r))
  | _, _ => (fimLoad st name, st)

end
end Verif
