/-
Model of `standard_methods`, `bayesian_eiv` and `eiv_fim` of src/identification/run3ph.py:89-313. Labels of phases or sequences are
integers. `m[mask] = values` takes as many values as the mask has true entries, or one value for all of them.
-/
import Verif.Model.Identification
import Verif.Model.Prog

namespace Verif
noncomputable section

/-- positions of the entries equal to `i`: `(ids == i).nonzero()` -/
def labelled (ids : List Int) (i : Int) : List Nat := (List.range ids.length).filter (fun k => ids.getD k 0 = i)

/-- `a[:, ids == i]` -/
def Arr2.labelCols {α : Type} [Zero α] (a : Arr2 α) (ids : List Int) (i : Int) : Except PyErr (Arr2 α) :=
  if ids.length = a.c then .ok (Arr2.ofFn a.r (labelled ids i).length (fun t j => a.get t ((labelled ids i).getD j 0)))
  else .error .indexError

/-- `a[ids == i, :]` -/
def Arr2.labelRows {α : Type} [Zero α] (a : Arr2 α) (ids : List Int) (i : Int) : Except PyErr (Arr2 α) :=
  if ids.length = a.r then .ok (Arr2.ofFn (labelled ids i).length a.c (fun k j => a.get ((labelled ids i).getD k 0) j))
  else .error .indexError

/-- `v[ids == i]` -/
def labelEntries (v : List ℝ) (ids : List Int) (i : Int) : Except PyErr (List ℝ) :=
  if ids.length = v.length then .ok ((labelled ids i).map (fun k => v.getD k 0)) else .error .indexError

/-- `b.flatten()[k]` -/
def Arr2.flatAt (b : Arr2 ℂ) (k : Nat) : ℂ := b.get (k / b.c) (k % b.c)

/-- number of entries equal to `i` before position `p` -/
def labelRank (ids : List Int) (i : Int) (p : Nat) : Nat := (ids.take p).count i

/-- `a[np.outer(ids == i, ids == i)] = b.flatten()`, run3ph.py:194-196, 259, 265-266 -/
def Arr2.scatter (a : Arr2 ℂ) (ids : List Int) (i : Int) (b : Arr2 ℂ) : Except PyErr (Arr2 ℂ) :=
  if ids.length = a.r ∧ ids.length = a.c then
    let m := ids.count i
    if b.r * b.c = m * m then
      .ok (Arr2.ofFn a.r a.c (fun p q => if ids.getD p 0 = i ∧ ids.getD q 0 = i then
        b.flatAt (labelRank ids i p * m + labelRank ids i q) else a.get p q))
    else if b.r * b.c = 1 then
      .ok (Arr2.ofFn a.r a.c (fun p q => if ids.getD p 0 = i ∧ ids.getD q 0 = i then b.flatAt 0 else a.get p q))
    else .error .valueError
  else .error .indexError

/-- one iteration of run3ph.py:187-196 -/
def standardStep (ext : NumExt) (cf : IdConf) (name : String) (voltage current : Arr2 ℂ) (ids : List Int) (laplacian : Bool)
    (maxIter : Nat) (y : Arr2 ℂ × Arr2 ℂ × Arr2 ℂ) (i : Int) : Prog (Arr2 ℂ × Arr2 ℂ × Arr2 ℂ) := do
  let v ← Prog.ofExcept (voltage.labelCols ids i)
  let c ← Prog.ofExcept (current.labelCols ids i)
  let r ← Prog.call (standardMethods ext cf name (some v) (some c) laplacian maxIter)
  let o ← Prog.ofExcept (y.1.scatter ids i r.1)
  let t ← Prog.ofExcept (y.2.1.scatter ids i r.2.1)
  let l ← Prog.ofExcept (y.2.2.scatter ids i r.2.2)
  pure (o, t, l)

/-- the loop over the three labels, run3ph.py:185-196 -/
def standardLoop (ext : NumExt) (cf : IdConf) (name : String) (v c : Arr2 ℂ) (ids : List Int) (laplacian : Bool) (maxIter : Nat) :
    Prog (Arr2 ℂ × Arr2 ℂ × Arr2 ℂ) := do
  let y0 ← standardStep ext cf name v c ids laplacian maxIter (Arr2.zeros v.c v.c, Arr2.zeros v.c v.c, Arr2.zeros v.c v.c) 0
  let y1 ← standardStep ext cf name v c ids laplacian maxIter y0 1
  standardStep ext cf name v c ids laplacian maxIter y1 2

/-- `standard_methods`, run3ph.py:89-211 -/
def standardMethods3 (ext : NumExt) (cf : IdConf) (name : String) (voltage current : Option (Arr2 ℂ)) (ids : Option (List Int))
    (laplacian : Bool) (maxIter : Nat) : Prog (Arr2 ℂ × Arr2 ℂ × Arr2 ℂ) :=
  match voltage, current with
  | some v, some c => do
    let r ← (match ids with
      | none => Prog.ofExcept (standardCompute ext cf v c laplacian maxIter)
      | some ids => standardLoop ext cf name v c ids laplacian maxIter)
    Prog.save (resultFile .standard name) (standardNpz r)
    pure r
  | _, _ => Prog.read (fun st => standardLoad st name)

/-- `None if y_exact is None else y_exact[ids == i, :][:, ids == i]` -/
def labelBlock (y : Arr2 ℂ) (ids : List Int) (i : Int) : Except PyErr (Arr2 ℂ) := do
  let r ← y.labelRows ids i
  r.labelCols ids i

def labelExact (y : Option (Arr2 ℂ)) (ids : List Int) (i : Int) : Except PyErr (Option (Arr2 ℂ)) :=
  match y with
  | none => .ok none
  | some y => do
    let b ← labelBlock y ids i
    pure (some b)

/-- one iteration of run3ph.py:250-259 -/
def bayesianStep (ext : NumExt) (cf : IdConf) (name : String) (voltage current : Arr2 ℂ) (ids : List Int) (vsd isd : SdPolar)
    (ratings : List ℝ) (yInit : Arr2 ℂ) (yExact : Option (Arr2 ℂ)) (laplacian weighted : Bool) (maxIter : Nat) (usePmu : Bool)
    (y : Arr2 ℂ) (i : Int) : Prog (Arr2 ℂ × List IterationStatus) := do
  let v ← Prog.ofExcept (voltage.labelCols ids i)
  let c ← Prog.ofExcept (current.labelCols ids i)
  let rt ← Prog.ofExcept (labelEntries ratings ids i)
  let y0 ← Prog.ofExcept (labelBlock yInit ids i)
  let ye ← Prog.ofExcept (labelExact yExact ids i)
  let r ← Prog.call (bayesianEiv ext cf name (some v) (some c) vsd isd rt y0 ye laplacian weighted maxIter usePmu)
  let y ← Prog.ofExcept (y.scatter ids i r.1)
  pure (y, r.2)

/-- entry `k` of the merged log, run3ph.py:263-268 -/
def mergedEntry (n : Nat) (ids : List Int) (logs : Fin 3 → List IterationStatus) (k : Nat) : Except PyErr IterationStatus :=
  match (logs 0)[k]?, (logs 1)[k]?, (logs 2)[k]? with
  | some a, some b, some c => do
    let y ← (Arr2.zeros n n).scatter ids 0 a.params
    let y ← y.scatter ids 1 b.params
    let y ← y.scatter ids 2 c.params
    pure ⟨k, y, 0 + a.target + b.target + c.target⟩
  | _, _, _ => .error .indexError

/-- the merged log, run3ph.py:261-268 -/
def mergedLog (n : Nat) (ids : List Int) (logs : Fin 3 → List IterationStatus) : Except PyErr (List IterationStatus) :=
  forRange (min (min (logs 0).length (logs 1).length) (logs 2).length) [] (fun acc k => do
    let e ← mergedEntry n ids logs k
    pure (acc ++ [e]))

/-- `bayesian_eiv`, run3ph.py:214-279. `np.zeros_like(y_init)` has the shape of `y_init`; this is square (it is a fitted matrix). -/
def bayesianEiv3 (ext : NumExt) (cf : IdConf) (name : String) (voltage current : Arr2 ℂ) (ids : List Int) (vsd isd : SdPolar)
    (ratings : List ℝ) (yInit : Arr2 ℂ) (yExact : Option (Arr2 ℂ)) (laplacian weighted : Bool) (maxIter : Nat) (usePmu : Bool) :
    Prog (Arr2 ℂ × List IterationStatus) :=
  if 0 ∈ ids then do
    let step := bayesianStep ext cf name voltage current ids vsd isd ratings yInit yExact laplacian weighted maxIter usePmu
    let r0 ← step (Arr2.zeros yInit.r yInit.c) 0
    let r1 ← step r0.1 1
    let r2 ← step r1.1 2
    let l ← Prog.ofExcept (mergedLog yInit.r ids ![r0.2, r1.2, r2.2])
    Prog.save (resultFile .bayesian name) (bayesianNpz (r2.1, l))
    pure (r2.1, l)
  else Prog.ofExcept (.error .notImplementedError)

end
end Verif
