/-
Model of plot_results.py and of the plotting helpers of src/identification/utils.py. A run yields the list of what it wrote (text
files and plotted arrays) and its outcome, since the files written before an exception remain. The program reads the result files and
changes none of them: its own files are `data/*.txt`, `data/*.png`, `data/*.pdf`, `data/tikz/*.tex` and
`simulations_output/plot_data/*.npz`. Drawing itself, messages, `--max-plot-y`, `--max-plot-err` and `--color-scale` (which only scale
the drawings) are not modelled.
-/
import Verif.Model.Identify
import Verif.Model.ErrorMetrics
import Verif.Model.Lines
import Mathlib.Analysis.SpecialFunctions.Log.Base

namespace Verif
noncomputable section

/-- something the report writes: metrics in a text file of the data folder, or an array that is plotted -/
inductive Output
  | text (file : String) (metrics : List ErrorMetrics)
  | plot (name : String) (m : Arr2 ℝ)

/-- a part of the report: outcome and what it has written -/
def Rep (α : Type) := Except PyErr α × List Output

namespace Rep
variable {α β : Type}

def pure (a : α) : Rep α := (.ok a, [])

def bind (p : Rep α) (f : α → Rep β) : Rep β :=
  match p.1 with
  | .error e => (.error e, p.2)
  | .ok a => ((f a).1, p.2 ++ (f a).2)

instance : Monad Rep where
  pure := pure
  bind := bind

def ofExcept (e : Except PyErr α) : Rep α := (e, [])

def write (o : Output) : Rep Unit := (.ok (), [o])

end Rep

/-- the options, plot_results.py:15-20 -/
structure PlotArgs where
  network : String
  sequence : Bool

/-- numerical functions of the report: `np.linalg.eigvals` (plot_results.py:59), and `np.linalg.eig` of a covariance matrix
(plot_results.py:154, 156): eigenvalues and a matrix whose columns are eigenvectors, both real -/
structure PlotExt where
  eigvals : Arr2 ℂ → List ℂ
  eig : Arr2 ℝ → Except PyErr (List ℝ × Arr2 ℝ)

/-- `x.T @ x`, without conjugation -/
def transposeGram (x : Arr2 ℂ) : Arr2 ℂ := Arr2.ofFn x.c x.c (fun i j => ∑ t ∈ Finset.range x.r, x.get t i * x.get t j)

/-- `np.log10(np.sqrt(np.abs(np.linalg.eigvals(meaned_volts.T @ meaned_volts))))`, plot_results.py:58-59. Simplifications: the logarithm
of zero is 0 instead of minus infinity, and data without samples does not raise. -/
def PlotExt.spectrum (ext : PlotExt) (v : Arr2 ℂ) : List ℝ :=
  (ext.eigvals (transposeGram (centreColumns v))).map (fun z => Real.logb 10 (Real.sqrt ‖z‖))

/-- `unvectorize_matrix(make_complex_vector(v @ np.sqrt(w) / nodes), (nodes, nodes))`, plot_results.py:154-157. Simplification: roots of
negative numbers and quotients by zero are 0 instead of NaN. -/
def deviations (eig : Arr2 ℝ → Except PyErr (List ℝ × Arr2 ℝ)) (c : Arr2 ℝ) (nodes : Nat) : Except PyErr (Arr2 ℂ) := do
  let wv ← eig c
  let x ← wv.2.mulVec (wv.1.map Real.sqrt)
  let z ← makeComplexVector (x.map (fun t => t / (nodes : ℝ)))
  unvectorizeMatrix z (nodes, nodes)

/-- `correct_component`, plot_results.py:43-52 -/
def correctComponent (phases : String) (sequence : Bool) (y : Arr2 ℂ) : Except PyErr (Arr2 ℂ) :=
  if phases ≠ "012" ∧ phases ≠ "123" then .ok y
  else if phases = "012" ∧ sequence = false then admittanceSequenceToPhase y
  else if phases = "123" ∧ sequence = true then admittancePhaseToSequence y
  else .ok y

/-- the voltages, plot_results.py:44-52 -/
def plotVoltage (phases : String) (sequence : Bool) (v : Arr2 ℂ) (ids : List Int) : Except PyErr (Arr2 ℂ) :=
  if phases ≠ "012" ∧ phases ≠ "123" then v.deleteCols (otherLabels ids 1)
  else if phases = "012" ∧ sequence = false then measurementSequenceToPhase v
  else if phases = "123" ∧ sequence = true then measurementPhaseToSequence v
  else .ok v

/-- `archive[key]` for a string -/
def Npz.str (d : Npz) (k : String) : Except PyErr String :=
  match d k with
  | some (.str m) => .ok m
  | some _ => .error .typeError
  | none => .error .keyError

/-- `archive[key]` for a truth value -/
def Npz.bool (d : Npz) (k : String) : Except PyErr Bool :=
  match d k with
  | some (.bool m) => .ok m
  | some _ => .error .typeError
  | none => .error .keyError

/-- reading the reference, plot_results.py:36-38 -/
def referenceLoad (st : Store) (name : String) : Except PyErr (Arr2 ℂ × String × Bool) := do
  let d ← st.load (resultFile .reference name)
  let y ← d.mat "y"
  let p ← d.str "p"
  let l ← d.bool "l"
  pure (y, p, l)

/-- reading the voltages and labels, plot_results.py:40-41 -/
def plotDataLoad (st : Store) (name : String) : Except PyErr (Arr2 ℂ × List Int) := do
  let d ← st.load (resultFile .network name)
  let w ← d.mat "w"
  let h ← d.ints "h"
  pure (w, h)

/-- `np.abs` -/
def absArr (y : Arr2 ℂ) : Arr2 ℝ := y.map (fun z => ‖z‖)

/-- `np.expand_dims(l, axis=1)` -/
def column (l : List ℝ) : Arr2 ℝ := Arr2.ofFn l.length 1 (fun i _ => l.getD i 0)

/-- a 1-D array as the only row of a 2-D one; `error_metrics` gives the same values -/
def oneRow (l : List ℂ) : Arr2 ℂ := Arr2.ofFn 1 l.length (fun _ j => l.getD j 0)

/-- the standard results, plot_results.py:63-93 -/
def plotStandard (cc : Arr2 ℂ → Except PyErr (Arr2 ℂ)) (st : Store) (name : String) (yBus : Arr2 ℂ) :
    Rep (Option (Arr2 ℂ × Arr2 ℂ × Arr2 ℂ)) :=
  match st (resultFile .standard name) with
  | none => pure none
  | some d => do
    let o ← Rep.ofExcept (d.mat "o" >>= cc)
    let t ← Rep.ofExcept (d.mat "t" >>= cc)
    let l ← Rep.ofExcept (d.mat "l" >>= cc)
    let mo ← Rep.ofExcept (errorMetrics yBus o)
    Rep.write (.text "ols_error_metrics.txt" [mo])
    Rep.write (.plot "y_ols" (absArr o))
    let mt ← Rep.ofExcept (errorMetrics yBus t)
    Rep.write (.text "tls_error_metrics.txt" [mt])
    Rep.write (.plot "y_tls" (absArr t))
    let ml ← Rep.ofExcept (errorMetrics yBus l)
    Rep.write (.text "lasso_error_metrics.txt" [ml])
    Rep.write (.plot "y_lasso" (absArr l))
    pure (some (o, t, l))

/-- the rows of `E`, plot_results.py:121-124 -/
def comparisonMatrix (laplacian : Bool) (nodes : Nat) : Except PyErr (Arr2 ℂ) :=
  if laplacian then do
    let a ← eliminationLapMatrix ℂ nodes
    let b ← eliminationSymMatrix ℂ nodes
    a.matmul b
  else eliminationSymMatrix ℂ nodes

/-- `np.abs(y_bus - np.diag(np.diag(y_bus)))`, as complex numbers -/
def offDiagonal (y : Arr2 ℂ) : Except PyErr (Arr2 ℂ) :=
  if y.r = y.c then .ok (Arr2.ofFn y.r y.c (fun i j => if i = j then 0 else ((‖y.get i j‖ : ℝ) : ℂ)))
  else .error .valueError

open scoped Classical in
/-- the entries at the positions where the mask is (not) positive -/
def masked (mask : List ℂ) (keep : Bool) (x : List ℂ) : List ℂ :=
  ((mask.zip x).filter (fun p => decide (0 < ‖p.1‖) == keep)).map Prod.snd

/-- one entry of the sparsity metrics, plot_results.py:140-146: the estimate comes first -/
def sparsityMetrics (mask estimate actual : List ℂ) : Except PyErr ErrorMetrics :=
  errorMetrics (oneRow ((masked mask false estimate).map (fun z => 2 * z))) (oneRow ((masked mask false actual).map (fun z => 2 * z)))

/-- the estimates that the Bayesian part compares: a name that was not assigned raises -/
def unboundLocal {α : Type} (x : Option α) : Except PyErr α :=
  match x with
  | some a => .ok a
  | none => .error .nameError

/-- the Bayesian results, plot_results.py:95-149 -/
def plotBayesian (cc : Arr2 ℂ → Except PyErr (Arr2 ℂ)) (st : Store) (name : String) (nodes : Nat) (laplacian : Bool) (yBus : Arr2 ℂ)
    (std : Option (Arr2 ℂ × Arr2 ℂ × Arr2 ℂ)) : Rep Unit :=
  match st (resultFile .bayesian name) with
  | none => pure ()
  | some d => do
    let y ← Rep.ofExcept (d.mat "y" >>= cc)
    let its ← Rep.ofExcept (d.log "i")
    let errors ← Rep.ofExcept (its.mapM (fun i => cc i.params >>= rrmsError yBus))
    let m ← Rep.ofExcept (errorMetrics yBus y)
    Rep.write (.text "sparse_tls_error_metrics.txt" [m])
    Rep.write (.plot "y_sparse_tls_cov" (absArr y))
    let diff ← Rep.ofExcept (Arr2.zipWith (fun a b => a - b) y yBus)
    Rep.write (.plot "y_sparse_tls_cov_errors" (absArr diff))
    Rep.write (.plot "errors" (column errors))
    Rep.write (.plot "targets" (column ((its.map (fun i => i.target)).drop 1)))
    let E ← Rep.ofExcept (comparisonMatrix laplacian nodes)
    let off ← Rep.ofExcept (offDiagonal yBus)
    let mask ← Rep.ofExcept (E.mulVec (vectorizeMatrix off))
    let s ← Rep.ofExcept (unboundLocal std)
    let co ← Rep.ofExcept (E.mulVec (vectorizeMatrix s.1))
    let ct ← Rep.ofExcept (E.mulVec (vectorizeMatrix s.2.1))
    let cl ← Rep.ofExcept (E.mulVec (vectorizeMatrix s.2.2))
    let cy ← Rep.ofExcept (E.mulVec (vectorizeMatrix y))
    let cb ← Rep.ofExcept (E.mulVec (vectorizeMatrix yBus))
    let cols := [co, ct, cl, cy, cb].map (masked mask true)
    Rep.write (.plot "comparison" (Arr2.ofFn (masked mask true cb).length 5 (fun i j => ‖(cols.getD j []).getD i 0‖)))
    let mo ← Rep.ofExcept (sparsityMetrics mask co cb)
    let mt ← Rep.ofExcept (sparsityMetrics mask ct cb)
    let ml ← Rep.ofExcept (sparsityMetrics mask cl cb)
    let my ← Rep.ofExcept (sparsityMetrics mask cy cb)
    Rep.write (.text "sparsity_metrics.txt" [mo, mt, ml, my])

/-- a real array as a complex one -/
def complexArr (a : Arr2 ℝ) : Arr2 ℂ := a.map (fun x : ℝ => (x : ℂ))

/-- the uncertainty results, plot_results.py:151-176; the metrics are only printed -/
def plotUncertainty (ext : PlotExt) (st : Store) (name : String) (nodes : Nat) (yBus : Arr2 ℂ)
    (std : Option (Arr2 ℂ × Arr2 ℂ × Arr2 ℂ)) : Rep Unit :=
  match st (resultFile .uncertainty name) with
  | none => pure ()
  | some d => do
    let e ← Rep.ofExcept (d.rmat "e")
    let cw ← Rep.ofExcept (deviations ext.eig e nodes)
    let b ← Rep.ofExcept (d.rmat "b")
    let ce ← Rep.ofExcept (deviations ext.eig b nodes)
    let _ ← Rep.ofExcept (errorMetrics (complexArr e) (complexArr b))
    let s ← Rep.ofExcept (unboundLocal std)
    let diff ← Rep.ofExcept (Arr2.zipWith (fun a b => a - b) s.2.1 yBus)
    Rep.write (.plot "tls_errors" (absArr diff))
    let _ ← Rep.ofExcept (errorMetrics diff cw)
    Rep.write (.plot "tls_cov" (absArr cw))
    let _ ← Rep.ofExcept (errorMetrics diff ce)
    Rep.write (.plot "tls_cov_est" (absArr ce))

/-- `plot_results`, plot_results.py:22-178. The lines of `sparsity_metrics.txt` are written one by one in the code (138-146); the model
writes the file when all of them have been computed. -/
def plotResults (ext : PlotExt) (a : PlotArgs) (st : Store) : Rep Unit := do
  let r ← Rep.ofExcept (referenceLoad st a.network)
  let w ← Rep.ofExcept (plotDataLoad st a.network)
  let v ← Rep.ofExcept (plotVoltage r.2.1 a.sequence w.1 w.2)
  let yBus ← Rep.ofExcept (correctComponent r.2.1 a.sequence r.1)
  Rep.write (.plot "correlations" (column (ext.spectrum v)))
  Rep.write (.plot "y_bus" (absArr yBus))
  let std ← plotStandard (correctComponent r.2.1 a.sequence) st a.network yBus
  plotBayesian (correctComponent r.2.1 a.sequence) st a.network v.c r.2.2 yBus std
  plotUncertainty ext st a.network v.c yBus std

/-! ### src/identification/utils.py -/

/-- the colour argument of the plotting functions -/
inductive ColorArg
  | name (s : String)
  | list (l : List String)

/-- `map_color_colormap`, utils.py:20-40: `maps` are the names of the colour maps, `sample s n i` colour `i` of `n` of map `s` -/
def mapColorColormap (maps : List String) (sample : String → Nat → Nat → String) (c : ColorArg) (n : Nat) : Except PyErr (List String) :=
  match c with
  | .name s => if s ∈ maps then .ok ((List.range n).map (sample s n)) else .ok ((List.range n).map (fun _ => s))
  | .list l =>
    if n ≤ l.length then (List.range n).mapM (fun i => match l[i]? with | some x => .ok x | none => .error .indexError)
    else (List.range n).mapM (fun _ => match l[0]? with | some x => .ok x | none => .error .indexError)

/-- one drawn series: its colour and its label -/
abbrev Series := String × Option String

/-- the series that `plot_scatter` draws, utils.py:87-97 -/
def scatterSeries (colors : List String) (labels : Option (List String)) (c : Nat) : Except PyErr (List Series) :=
  (List.range c).mapM (fun i => match colors[i]? with
    | none => .error .indexError
    | some col => match labels with
      | none => .ok (col, none)
      | some ls => if ls.length ≠ c then .ok (col, none) else match ls[i]? with
        | some l => .ok (col, some l)
        | none => .error .indexError)

/-- the series that `plot_series` draws, utils.py:128-135: with labels it calls `ax1.scaplottter`, which does not exist -/
def lineSeries (colors : List String) (labels : Option (List String)) (c : Nat) : Except PyErr (List Series) :=
  (List.range c).mapM (fun i => match labels with
    | none => match colors[i]? with
      | none => .error .indexError
      | some col => .ok (col, none)
    | some ls => if ls.length ≠ c then (match colors[i]? with
        | none => .error .indexError
        | some col => .ok (col, none))
      else .error .attributeError)

/-- colours and series of `plot_scatter`, utils.py:66-104 -/
def plotScatter (maps : List String) (sample : String → Nat → Nat → String) (c : ColorArg) (labels : Option (List String)) (m : Arr2 ℝ) :
    Except PyErr (List Series) := do
  let cmap ← mapColorColormap maps sample c m.c
  scatterSeries cmap labels m.c

/-- colours and series of `plot_series`, utils.py:107-140 -/
def plotSeries (maps : List String) (sample : String → Nat → Nat → String) (c : ColorArg) (labels : Option (List String)) (m : Arr2 ℝ) :
    Except PyErr (List Series) := do
  let cmap ← mapColorColormap maps sample c m.c
  lineSeries cmap labels m.c

end
end Verif
