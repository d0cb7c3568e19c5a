/-
Model of `load_profile_from_csv`, src/simulation/load_profile.py:82-180, on the contents of the two files.

`pd.read_csv(…, skiprows=h, skipfooter=f)` with `engine='python'` and no header drops the first `h` and the last `f` lines. It raises
`ValueError` for a negative footer and `EmptyDataError`, a `ValueError`, when no line is left after the skipped ones. Files contain
numbers only. Progress bars and messages are left out.
-/
import Verif.Model.Loads

namespace Verif
noncomputable section

/-- `pd.read_csv(file, sep=';', header=None, engine='python', skiprows=h, skipfooter=f).to_numpy()`, load_profile.py:111-117 -/
def readCsv (a : Arr2 ℝ) (h f : Int) : Except PyErr (Arr2 ℝ) :=
  if f < 0 then .error .valueError
  else if a.r ≤ h.toNat then .error .valueError
  else .ok (Arr2.ofFn (a.r - h.toNat - f.toNat) a.c (fun i j => a.get (h.toNat + i) j))

/-- `pl if pload_profile is None else np.vstack((pload_profile, pl))`, load_profile.py:113, 117 -/
def csvAdd (acc : Option (Arr2 ℝ)) (a : Arr2 ℝ) : Except PyErr (Arr2 ℝ) :=
  match acc with
  | none => .ok a
  | some b => b.vstack a

/-- the loop over the parts of the files, load_profile.py:103-117 -/
def csvProfiles (pl ql : Arr2 ℝ) (skip footer : List Int) : Except PyErr (Option (Arr2 ℝ) × Option (Arr2 ℝ)) :=
  forRange skip.length (none, none) (fun acc i =>
    if i < footer.length then do
      let p ← readCsv pl (skip.getD i 0) (footer.getD i 0)
      let p ← csvAdd acc.1 p
      let q ← readCsv ql (skip.getD i 0) (footer.getD i 0)
      let q ← csvAdd acc.2 q
      pure (some p, some q)
    else .error .indexError)

/-- `load_profile_from_csv`, load_profile.py:82-180; without any part `None / 1e6` raises `TypeError` -/
def loadProfileCsv (rng : RandInt) (k0 : Nat) (pl ql : Arr2 ℝ) (skip footer : List Int) (refP refQ : List (List ℝ)) :
    Except PyErr (List (Arr2 ℝ)) := do
  let acc ← csvProfiles pl ql skip footer
  match acc with
  | (some p, some q) =>
    let p := p.map (· / 1000000)
    let q := q.map (· / 1000000)
    let pp ← meanPercentile p
    let qp ← meanPercentile q
    assign rng k0 (refP.map (fun r => ⟨p, pp, r⟩) ++ refQ.map (fun r => ⟨q, qp, r⟩)) (refP.headD []).length
  | _ => .error .typeError

end
end Verif
