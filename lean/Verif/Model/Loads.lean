/-
Model of the load profiles: src/simulation/load_profile.py:51-79, 183-283 and `generate_loads`, src/simulation/run.py:29-102,
src/simulation/run3ph.py:31-155. `load_profile_from_csv` is in Model/LoadsCsv.lean.

`np.random.normal(loc, scale)` is `loc + scale * z` with a stream `z` of standard normal samples, and raises for a negative
scale. `np.random.randint(high, size=n)` is given by the number of the call since the seed was set (`RandInt`). The labels of
the load tables are unique (pandapower raises otherwise), so `p_mw[p_mw.index[i]]` is the value in row `i`. Numbers are exact
reals. `np.percentile` of no rows raises `IndexError`; the mean over no columns (a `nan`) raises at once in the model.
-/
import Verif.Model.Sampling
import Verif.Model.Store

namespace Verif
noncomputable section

/-- `np.random.randint(high, size=n)`: `draw k high n` is what the `k`-th call returns -/
structure RandInt where
  draw : Nat → Nat → Nat → List Nat
  length : ∀ k high n, 0 < high → (draw k high n).length = n
  lt : ∀ k high n, ∀ x ∈ draw k high n, x < high

/-- `a[lo:hi]` -/
def Arr2.rows {α : Type} [Zero α] (a : Arr2 α) (lo hi : Int) : Arr2 α :=
  Arr2.ofFn (pySlice a.r hi - pySlice a.r lo) a.c (fun i j => a.get (pySlice a.r lo + i) j)

/-- `np.vstack((a, b))` -/
def Arr2.vstack {α : Type} [Zero α] (a b : Arr2 α) : Except PyErr (Arr2 α) :=
  if a.c = b.c then .ok (Arr2.ofFn (a.r + b.r) a.c (fun i j => if i < a.r then a.get i j else b.get (i - a.r) j))
  else .error .valueError

/-- `a[:, i] = col` -/
def Arr2.setCol (a : Arr2 ℝ) (i : Nat) (col : List ℝ) : Except PyErr (Arr2 ℝ) :=
  if i < a.c then
    if col.length = a.r then .ok (Arr2.ofFn a.r a.c (fun t j => if j = i then col.getD t 0 else a.get t j)) else .error .valueError
  else .error .indexError

/-- the rows read from one file, load_profile.py:205-218; `n0` is `pl.shape[0]` for both files -/
def selectRows (n0 : Nat) (skip : List Int) (length : Int) (a : Arr2 ℝ) : Except PyErr (Arr2 ℝ) :=
  forIn' skip (Arr2.zeros 0 a.c) (fun acc s =>
    let footer : Int := n0 - (length + s)
    acc.vstack (a.rows s (n0 - footer)))

open Classical in
/-- `np.percentile(col, 90)` with linear interpolation -/
def percentile90 (col : List ℝ) : ℝ :=
  let s := col.mergeSort (fun a b => decide (a ≤ b))
  let pos : ℝ := 90 / 100 * ((col.length : ℝ) - 1)
  let lo := ⌊pos⌋₊
  s.getD lo 0 + (s.getD (min (lo + 1) (col.length - 1)) 0 - s.getD lo 0) * (pos - lo)

/-- `np.mean(np.percentile(np.abs(a), 90, axis=0))`, load_profile.py:225-226 -/
def meanPercentile (a : Arr2 ℝ) : Except PyErr ℝ :=
  if a.r = 0 then .error .indexError
  else if a.c = 0 then .error .valueError
  else .ok (((List.range a.c).map (fun j => percentile90 ((List.range a.r).map (fun t => |a.get t j|)))).sum / a.c)

/-- `np.sum(prof[:, np.random.randint(prof.shape[1], size=round(ref / perc))], axis=1)`. Dividing by a percentile of zero gives
an infinite value or `nan`, which `round` refuses. -/
def households (rng : RandInt) (k : Nat) (prof : Arr2 ℝ) (perc ref : ℝ) : Except PyErr (List ℝ) :=
  if perc = 0 then .error (if ref = 0 then .valueError else .overflowError)
  else
    let n := pyRound (ref / perc)
    if n < 0 then .error .valueError
    else .ok ((List.range prof.r).map (fun t => ((rng.draw k prof.c n.toNat).map (fun h => prof.get t h)).sum))

/-- `ref[i]` -/
def refAt (ref : List ℝ) (i : Nat) : Except PyErr ℝ := if i < ref.length then .ok (ref.getD i 0) else .error .indexError

/-- one quantity to generate: profiles of the households, their mean percentile, nominal values of the nodes -/
structure Quantity where
  prof : Arr2 ℝ
  perc : ℝ
  ref : List ℝ

/-- one assignment `load[s][:, i] = …`, load_profile.py:242-247, 261-279 -/
def assignOne (rng : RandInt) (k : Nat) (q : Quantity) (i : Nat) (load : Arr2 ℝ) : Except PyErr (Arr2 ℝ) := do
  let r ← refAt q.ref i
  let col ← households rng k q.prof q.perc r
  load.setCol i col

/-- the assignments for one node, in the order of the quantities -/
def assignNode (rng : RandInt) (k0 : Nat) (qs : List Quantity) (loads : List (Arr2 ℝ)) (i : Nat) : Except PyErr (List (Arr2 ℝ)) :=
  forRange qs.length loads (fun loads s =>
    match qs[s]?, loads[s]? with
    | some q, some l => do
      let l ← assignOne rng (k0 + i * qs.length + s) q i l
      pure (loads.set s l)
    | _, _ => .error .indexError)

/-- the loop over the nodes, load_profile.py:237-283 -/
def assign (rng : RandInt) (k0 : Nat) (qs : List Quantity) (n : Nat) : Except PyErr (List (Arr2 ℝ)) :=
  forRange n (qs.map (fun q => Arr2.zeros q.prof.r n)) (assignNode rng k0 qs)

/-- `load_profile_from_numpy`, load_profile.py:183-283, on the contents of the two files: `refP` and `refQ` hold the nominal active
and reactive powers, one list for a symmetric load and three for the phases. `k0` calls of `randint` were made before. -/
def loadProfile (rng : RandInt) (k0 : Nat) (pl ql : Arr2 ℝ) (skip : List Int) (length : Int) (refP refQ : List (List ℝ)) :
    Except PyErr (List (Arr2 ℝ)) := do
  let p ← selectRows pl.r skip length pl
  let q ← selectRows pl.r skip length ql
  let p := p.map (· / 1000000)
  let q := q.map (· / 1000000)
  let pp ← meanPercentile p
  let qp ← meanPercentile q
  assign rng k0 (refP.map (fun r => ⟨p, pp, r⟩) ++ refQ.map (fun r => ⟨q, qp, r⟩)) (refP.headD []).length

/-- `np.random.normal(ref, ref * sd, (n, len(ref)))` with the samples from position `p` of the stream on -/
def gaussianLoad (z : Nat → ℝ) (p : Nat) (sd : ℝ) (n : Nat) (ref : List ℝ) : Except PyErr (Arr2 ℝ) :=
  if ∃ r ∈ ref, r * sd < 0 then .error .valueError
  else .ok (Arr2.ofFn n ref.length (fun t j => ref.getD j 0 + ref.getD j 0 * sd * z (p + (t * ref.length + j))))

/-- `generate_gaussian_load`, load_profile.py:51-79, for nominal values in the order in which they are sampled: `p, q` or
`pa, qa, pb, qb, pc, qc` -/
def generateGaussianLoad (z : Nat → ℝ) (sd : ℝ) (n : Nat) (refs : List (List ℝ)) : Except PyErr (List (Arr2 ℝ)) :=
  forRange refs.length [] (fun acc s => do
    let a ← gaussianLoad z (s * (n * (refs.headD []).length)) sd n (refs.getD s [])
    pure (acc ++ [a]))

/-- the tuple `load_params` -/
inductive LoadParams
  | profiles (active reactive : String) (weeks : List Int) (days : Nat) (const : Option (List Int))
  | gaussian (sd : ℝ) (days : Nat) (const : Option (List Int))

/-- `np.array(range(days * 24 * 60)) * 60`, run.py:57, 75 -/
def minuteTimes (days : Nat) : List ℝ := (List.range (days * 24 * 60)).map (fun k : Nat => (k : ℝ) * 60)

/-- `selected_weeks * 7 * 24 * 60`, run.py:62 -/
def skipRows (weeks : List Int) : List Int := weeks.map (fun w => w * 7 * 24 * 60)

/-- `np.array(days / len(selected_weeks) * 24 * 60, dtype=np.int64)`, run.py:63-64 -/
def weekLength (days : Nat) (weeks : List Int) : Except PyErr Int :=
  if weeks.length = 0 then .error .zeroDivisionError else .ok ⌊(days : ℝ) / (weeks.length : ℝ) * 24 * 60⌋

/-- `np.load` of a profile file -/
def readProfile (files : String → Option (Arr2 ℝ)) (f : String) : Except PyErr (Arr2 ℝ) :=
  match files f with
  | some a => .ok a
  | none => .error .fileNotFoundError

/-- `m[:, i] = (1.0 - a) * m[:, i] + a * nominal` -/
def blendCol (a nominal : ℝ) (i : Nat) (m : Arr2 ℝ) : Except PyErr (Arr2 ℝ) :=
  if i < m.c then .ok (Arr2.ofFn m.r m.c (fun t j => if j = i then (1 - a) * m.get t j + a * nominal else m.get t j))
  else .error .indexError

/-- the blending of the symmetric loads, run.py:86-90, run3ph.py:127-130 -/
def blendLoads (a : ℝ) (const : Option (List Int)) (net : Net) (p q : Arr2 ℝ) : Except PyErr (Arr2 ℝ × Arr2 ℝ) :=
  match const with
  | none => .ok (p, q)
  | some nodes =>
    forRange net.load.length (p, q) (fun st i =>
      match net.load[i]? with
      | some l =>
        if l.bus ∈ nodes then do
          let p ← blendCol a l.p i st.1
          let q ← blendCol a l.q i st.2
          pure (p, q)
        else pure st
      | none => pure st)

/-- nominal value `s` of an asymmetric load, in the order `p_a, p_b, p_c, q_a, q_b, q_c` -/
def asymNominal (l : AsymRow) (s : Nat) : ℝ :=
  match s with
  | 0 => l.p 0
  | 1 => l.p 1
  | 2 => l.p 2
  | 3 => l.q 0
  | 4 => l.q 1
  | _ => l.q 2

/-- the blending of the asymmetric loads, run3ph.py:131-144 -/
def blendAsym (a : ℝ) (const : Option (List Int)) (net : Net) (loads : List (Arr2 ℝ)) : Except PyErr (List (Arr2 ℝ)) :=
  match const with
  | none => .ok loads
  | some nodes =>
    forRange net.asym.length loads (fun loads i =>
      match net.asym[i]? with
      | some l =>
        if l.bus ∈ nodes then
          forRange 6 loads (fun loads s =>
            match loads[s]? with
            | some m => do
              let m ← blendCol a (asymNominal l s) i m
              pure (loads.set s m)
            | none => .error .indexError)
        else pure loads
      | none => pure loads)

/-- nominal active powers, run.py:65-66 -/
def nominalP (net : Net) : List ℝ := net.load.map LoadRow.p
/-- nominal reactive powers, run.py:67-68 -/
def nominalQ (net : Net) : List ℝ := net.load.map LoadRow.q

/-- first and second of a returned tuple -/
def unpack2 : List (Arr2 ℝ) → Except PyErr (Arr2 ℝ × Arr2 ℝ)
  | [p, q] => .ok (p, q)
  | _ => .error .valueError

/-- the loads before blending, run.py:55-83 -/
def rawLoads (rng : RandInt) (z : Nat → ℝ) (files : String → Option (Arr2 ℝ)) (net : Net) :
    LoadParams → Except PyErr (Arr2 ℝ × Arr2 ℝ)
  | .profiles active reactive weeks days _ => do
    let len ← weekLength days weeks
    let pl ← readProfile files active
    let ql ← readProfile files reactive
    let r ← loadProfile rng 0 pl ql (skipRows weeks) len [nominalP net] [nominalQ net]
    unpack2 r
  | .gaussian sd days _ => do
    let r ← generateGaussianLoad z sd (minuteTimes days).length [nominalP net, nominalQ net]
    unpack2 r

def LoadParams.days : LoadParams → Nat
  | .profiles _ _ _ d _ => d
  | .gaussian _ d _ => d

def LoadParams.const : LoadParams → Option (List Int)
  | .profiles _ _ _ _ c => c
  | .gaussian _ _ c => c

/-- the computing branch of `generate_loads`, run.py:51-90; `a` is `simulation.load_constantness` -/
def computeLoads (rng : RandInt) (z : Nat → ℝ) (files : String → Option (Arr2 ℝ)) (a : ℝ) (net : Net) (lp : LoadParams) :
    Except PyErr (Arr2 ℝ × Arr2 ℝ × List ℝ) := do
  let (p, q) ← rawLoads rng z files net lp
  let (p, q) ← blendLoads a lp.const net p q
  pure (p, q, minuteTimes lp.days)

/-- the archive of `generate_loads`, run.py:93 -/
def loadsNpz (r : Arr2 ℝ × Arr2 ℝ × List ℝ) : Npz := npz [("p", .rmat r.1), ("q", .rmat r.2.1), ("t", .vec r.2.2)]

/-- the loading branch of `generate_loads`, run.py:97-100 -/
def loadsLoad (st : Store) (name : String) : Except PyErr (Arr2 ℝ × Arr2 ℝ × List ℝ) := do
  let d ← st.load (resultFile .loads name)
  let p ← d.rmat "p"
  let q ← d.rmat "q"
  let t ← d.vec "t"
  pure (p, q, t)

/-- `generate_loads`, run.py:29-102 -/
def generateLoads (rng : RandInt) (z : Nat → ℝ) (files : String → Option (Arr2 ℝ)) (a : ℝ) (name : String) (net : Net)
    (lp : Option LoadParams) (st : Store) : Except PyErr (Arr2 ℝ × Arr2 ℝ × List ℝ) × Store :=
  match lp with
  | some lp =>
    match computeLoads rng z files a net lp with
    | .error e => (.error e, st)
    | .ok r => (.ok r, st.savez (resultFile .loads name) (loadsNpz r))
  | none => (loadsLoad st name, st)

/-- nominal values `s` of the asymmetric loads, in the order `p_a, p_b, p_c, q_a, q_b, q_c` -/
def asymRefs (net : Net) (s : Nat) : List ℝ := net.asym.map (fun l => asymNominal l s)

/-- the loads before blending, run3ph.py:55-122: `generate_gaussian_load` is not imported there -/
def rawLoads3 (rng : RandInt) (files : String → Option (Arr2 ℝ)) (net : Net) :
    LoadParams → Except PyErr (Arr2 ℝ × Arr2 ℝ × List (Arr2 ℝ))
  | .profiles active reactive weeks days _ => do
    let len ← weekLength days weeks
    let pl ← readProfile files active
    let ql ← readProfile files reactive
    let r ← loadProfile rng 0 pl ql (skipRows weeks) len [nominalP net] [nominalQ net]
    let (p, q) ← unpack2 r
    let asym ← loadProfile rng (2 * net.load.length) pl ql (skipRows weeks) len
      [asymRefs net 0, asymRefs net 1, asymRefs net 2] [asymRefs net 3, asymRefs net 4, asymRefs net 5]
    pure (p, q, asym)
  | .gaussian _ _ _ => .error .nameError

/-- the computing branch of `generate_loads`, run3ph.py:48-144 -/
def computeLoads3 (rng : RandInt) (files : String → Option (Arr2 ℝ)) (a : ℝ) (net : Net) (lp : LoadParams) :
    Except PyErr (Arr2 ℝ × Arr2 ℝ × List (Arr2 ℝ) × List ℝ) := do
  let (p, q, asym) ← rawLoads3 rng files net lp
  let (p, q) ← blendLoads a lp.const net p q
  let asym ← blendAsym a lp.const net asym
  pure (p, q, asym, minuteTimes lp.days)

/-- the archive of `generate_loads`, run3ph.py:147 -/
def loadsNpz3 (r : Arr2 ℝ × Arr2 ℝ × List (Arr2 ℝ) × List ℝ) : Npz :=
  npz [("p", .rmat r.1), ("q", .rmat r.2.1), ("a", .rmats r.2.2.1), ("t", .vec r.2.2.2)]

/-- the loading branch of `generate_loads`, run3ph.py:151-153 -/
def loadsLoad3 (st : Store) (name : String) : Except PyErr (Arr2 ℝ × Arr2 ℝ × List (Arr2 ℝ) × List ℝ) := do
  let d ← st.load (resultFile .loads name)
  let p ← d.rmat "p"
  let q ← d.rmat "q"
  let a ← d.rmats "a"
  let t ← d.vec "t"
  pure (p, q, a, t)

/-- `generate_loads`, run3ph.py:31-155. The tuple of asymmetric loads is saved as one array, which needs equal shapes. -/
def generateLoads3 (rng : RandInt) (files : String → Option (Arr2 ℝ)) (a : ℝ) (name : String) (net : Net)
    (lp : Option LoadParams) (st : Store) : Except PyErr (Arr2 ℝ × Arr2 ℝ × List (Arr2 ℝ) × List ℝ) × Store :=
  match lp with
  | some lp =>
    match computeLoads3 rng files a net lp with
    | .error e => (.error e, st)
    | .ok r =>
      if ∀ m ∈ r.2.2.1, ∀ m' ∈ r.2.2.1, m.r = m'.r ∧ m.c = m'.c then
        (.ok r, st.savez (resultFile .loads name) (loadsNpz3 r))
      else (.error .valueError, st)
  | none => (loadsLoad3 st name, st)

end
end Verif
