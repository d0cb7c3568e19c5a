/-
Model of `reduce_network`, src/simulation/run.py:246-295 and src/simulation/run3ph.py:322-383.

The admittance matrix that `make_y_bus` returns and `np.linalg.pinv` are parameters. A mean voltage of zero at a hidden node makes
the shunt infinite or `nan`; the pseudo-inverse of such a matrix raises `LinAlgError`, which the model raises at once.
-/
import Verif.Model.Kron
import Verif.Model.Network
import Verif.Model.Identification
import Verif.Model.Lines

namespace Verif

namespace PySet

/-- `s.union(l)` with a list: a copy to which the elements are added -/
def union (t : Table) (l : List Nat) : Table := l.foldl add (copy t)

/-- elements of `s.difference(l)` with a list: those of a copy, without the ones of the list -/
def minusList (t : Table) (l : List Nat) : List Nat := (toList (copy t)).filter (fun k => k ∉ l)

end PySet

noncomputable section

/-- `net.bus.index.tolist().index(b)` -/
def Net.busPos (net : Net) (b : Int) : Except PyErr Nat :=
  if b ∈ net.bus.map BusRow.index then .ok (net.posOf b) else .error .valueError

/-- `[net.bus.index.tolist().index(idx) for idx in l]` -/
def Net.positions (net : Net) (l : List Int) : Except PyErr (List Nat) :=
  forIn' l [] (fun acc b => do
    let k ← net.busPos b
    pure (acc ++ [k]))

/-- `np.delete(np.delete(y, idx, axis=1), idx, axis=0)` -/
def Arr2.deleteBoth (y : Arr2 ℂ) (idx : List Nat) : Except PyErr (Arr2 ℂ) :=
  if (∀ k ∈ idx, k < y.c) ∧ ∀ k ∈ idx, k < y.r then
    .ok (Arr2.ofFn (Arr2.keepIdx y.r idx).length (Arr2.keepIdx y.c idx).length
      (fun i j => y.get ((Arr2.keepIdx y.r idx).getD i 0) ((Arr2.keepIdx y.c idx).getD j 0)))
  else .error .indexError

/-- `np.delete(m, idx, axis=1)` -/
def Arr2.deleteCols (m : Arr2 ℂ) (idx : List Nat) : Except PyErr (Arr2 ℂ) :=
  if ∀ k ∈ idx, k < m.c then
    .ok (Arr2.ofFn m.r (Arr2.keepIdx m.c idx).length (fun t j => m.get t ((Arr2.keepIdx m.c idx).getD j 0)))
  else .error .indexError

/-- `[(idx - 1 if idx > i else idx) for idx in l]`, run.py:283-284 -/
def shiftDown (l : List Nat) (i : Nat) : List Nat := l.map (fun k => if k > i then k - 1 else k)

/-- `np.mean(a[:, k])` -/
def colMean (a : Arr2 ℂ) (k : Nat) : ℂ := (∑ t ∈ Finset.range a.r, a.get t k) / a.r

/-- `np.mean(current[:, k]) / np.mean(voltage[:, k])` -/
def shuntAt (voltage current : Arr2 ℂ) (k : Nat) : ℂ := colMean current k / colMean voltage k

/-- `y + np.diag(shunts)` with `shunts[idx] = …`, run.py:287-290 and run3ph.py:361, 367-371 -/
def addShunts (y voltage current : Arr2 ℂ) (idx : List Nat) : Except PyErr (Arr2 ℂ) :=
  if ∀ k ∈ idx, k < y.r ∧ k < current.c ∧ k < voltage.c then
    if ∃ k ∈ idx, colMean voltage k = 0 then .error .linAlgError
    else .ok (Arr2.ofFn y.r y.c (fun i j => y.get i j + if i = j ∧ i ∈ idx then shuntAt voltage current i else 0))
  else .error .indexError

/-- `reduce_network`, run.py:246-295: indices to delete from the measurements and the reduced matrix -/
def reduceNetwork (pinv : Arr2 ℂ → Except PyErr (Arr2 ℂ)) (net : Net) (y voltage current : Arr2 ℂ) (hidden : List Int)
    (laplacian : Bool) : Except PyErr (List Nat × Arr2 ℂ) := do
  let passive ← net.givePassiveNodes
  let passiveIdx ← net.positions (passive 0)
  let hiddenIdx ← net.positions hidden
  let pccIdx ← net.positions net.extGrid
  let todel := PySet.toList (PySet.union (PySet.ofList hiddenIdx) passiveIdx)
  let hiddenIdx := hiddenIdx.filter (fun k => k ∉ pccIdx)
  let (y, hiddenIdx, passiveIdx) ←
    if laplacian then pure (y, hiddenIdx, passiveIdx)
    else do
      let y ← y.deleteBoth pccIdx
      pure (y, pccIdx.foldl shiftDown hiddenIdx, pccIdx.foldl shiftDown passiveIdx)
  let y ← addShunts y voltage current hiddenIdx
  let red ← kronReduction pinv (PySet.minusList (PySet.union (PySet.ofList hiddenIdx) passiveIdx) pccIdx) y
  pure (todel, red)

/-- `y[s::3, s::3]` -/
def Arr2.stride3 (y : Arr2 ℂ) (s : Nat) : Arr2 ℂ :=
  Arr2.ofFn ((y.r + 2 - s) / 3) ((y.c + 2 - s) / 3) (fun i j => y.get (3 * i + s) (3 * j + s))

/-- passive nodes to reduce on every phase, run3ph.py:354-358 (`np.intersect1d` sorts) -/
def reducedPassive (passive : Fin 3 → List Int) (reduceSingle : Bool) : Fin 3 → List Int :=
  if reduceSingle then passive
  else fun _ => ((passive 0).dedup.filter (fun b => b ∈ passive 1 ∧ b ∈ passive 2)).mergeSort (· ≤ ·)

/-- the removal of the grid connections, run3ph.py:347-352: indices to delete and what is left of the matrix -/
def deleteGrids (net : Net) (y : Arr2 ℂ) : Except PyErr (List Nat × Arr2 ℂ) :=
  forIn' net.extGrid ([], y) (fun st b => do
    let k ← net.busPos b
    let idx := [3 * k, 3 * k + 1, 3 * k + 2]
    let y ← st.2.deleteBoth idx
    pure (st.1 ++ idx, y))

/-- `reduce_network`, run3ph.py:322-383. `idx_tored[idx_tored % 3 == s]` are the indices appended for phase `s`. -/
def reduceNetwork3 (pinv : Arr2 ℂ → Except PyErr (Arr2 ℂ)) (net : Net) (y voltage current : Arr2 ℂ) (hidden : List Int)
    (reduceSingle : Bool) : Except PyErr (List Nat × Arr2 ℂ) := do
  let (todel, y) ← deleteGrids net y
  let passive ← net.givePassiveNodes
  let passive := reducedPassive passive reduceSingle
  let p0 ← net.positions (passive 0)
  let p1 ← net.positions (passive 1)
  let p2 ← net.positions (passive 2)
  let h ← net.positions hidden
  let y ← addShunts y voltage current (h.map (3 * ·) ++ h.map (3 * · + 1) ++ h.map (3 * · + 2))
  let y ← admittancePhaseToSequence y
  let r0 ← kronReduction pinv (p0 ++ h) (y.stride3 0)
  let r1 ← kronReduction pinv (p1 ++ h) (y.stride3 1)
  let r2 ← kronReduction pinv (p2 ++ h) (y.stride3 2)
  let y ← admittanceSequenceToPhase (← sequenceBus r0 r1 r2)
  pure (todel ++ (p0 ++ h).map (3 * ·) ++ (p1 ++ h).map (3 * · + 1) ++ (p2 ++ h).map (3 * · + 2), y)

end
end Verif
