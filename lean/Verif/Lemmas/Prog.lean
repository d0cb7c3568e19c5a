/-
Frame and sequencing rules for programs on the result files, and the file names.
-/
import Verif.Model.Identify

namespace Verif
namespace Prog
variable {α β : Type}

/-- the program leaves the file alone, at every point of the run -/
def Frame (file : String) (p : Prog α) : Prop := ∀ st, (p st).store file = st file ∧ ∀ s ∈ (p st).seen, s file = st file

theorem bind_def (p : Prog α) (f : α → Prog β) : (p >>= f) = bind p f := rfl
theorem pure_def (a : α) : (Pure.pure a : Prog α) = pure a := rfl

theorem bind_ok {p : Prog α} {f : α → Prog β} {st : Store} {a : α} (h : (p st).res = .ok a) :
    (p >>= f) st = ⟨(f a (p st).store).res, (f a (p st).store).store, (p st).seen ++ (f a (p st).store).seen⟩ := by
  rw [bind_def]
  unfold bind
  rw [h]

theorem bind_error {p : Prog α} {f : α → Prog β} {st : Store} {e : PyErr} (h : (p st).res = .error e) :
    (p >>= f) st = ⟨.error e, (p st).store, (p st).seen⟩ := by
  rw [bind_def]
  unfold bind
  rw [h]

theorem bind_res_ok {p : Prog α} {f : α → Prog β} {st : Store} {b : β} (h : ((p >>= f) st).res = .ok b) :
    ∃ a, (p st).res = .ok a ∧ (f a (p st).store).res = .ok b ∧ ((p >>= f) st).store = (f a (p st).store).store ∧
      ((p >>= f) st).seen = (p st).seen ++ (f a (p st).store).seen := by
  match hp : (p st).res with
  | .error e => rw [bind_error hp] at h; cases h
  | .ok a =>
    rw [bind_ok hp] at h ⊢
    exact ⟨a, rfl, h, rfl, rfl⟩

@[simp] theorem pure_run (a : α) (st : Store) : (Pure.pure a : Prog α) st = ⟨.ok a, st, []⟩ := rfl
@[simp] theorem ofExcept_run (e : Except PyErr α) (st : Store) : ofExcept e st = ⟨e, st, []⟩ := rfl
@[simp] theorem read_run (f : Store → Except PyErr α) (st : Store) : read f st = ⟨f st, st, []⟩ := rfl
@[simp] theorem save_run (file : String) (d : Npz) (st : Store) : save file d st = ⟨.ok (), st.savez file d, [st.savez file d]⟩ := rfl
@[simp] theorem call_run (f : Store → Except PyErr α × Store) (st : Store) : call f st = ⟨(f st).1, (f st).2, [(f st).2]⟩ := rfl

variable {file : String}

theorem Frame.pure (a : α) : Frame file (Pure.pure a : Prog α) := fun _ => ⟨rfl, by simp⟩
theorem Frame.ofExcept (e : Except PyErr α) : Frame file (ofExcept e) := fun _ => ⟨rfl, by simp⟩
theorem Frame.read (f : Store → Except PyErr α) : Frame file (read f) := fun _ => ⟨rfl, by simp⟩

theorem Frame.save {f : String} (h : file ≠ f) (d : Npz) : Frame file (save f d) := fun st => by
  have : (st.savez f d) file = st file := if_neg h
  exact ⟨this, by simpa using this⟩

theorem Frame.call {f : Store → Except PyErr α × Store} (h : ∀ st, (f st).2 file = st file) : Frame file (call f) := fun st =>
  ⟨h st, by simpa using h st⟩

theorem Frame.bind {p : Prog α} {f : α → Prog β} (hp : Frame file p) (hf : ∀ a, Frame file (f a)) : Frame file (p >>= f) := by
  intro st
  obtain ⟨h1, h2⟩ := hp st
  match h : (p st).res with
  | .error e => rw [bind_error h]; exact ⟨h1, h2⟩
  | .ok a =>
    rw [bind_ok h]
    obtain ⟨g1, g2⟩ := hf a (p st).store
    refine ⟨g1.trans h1, fun s hs => ?_⟩
    rcases List.mem_append.1 hs with hs | hs
    · exact h2 s hs
    · exact (g2 s hs).trans h1

theorem Frame.ite {c : Prop} [Decidable c] {p q : Prog α} (hp : Frame file p) (hq : Frame file q) : Frame file (if c then p else q) := by
  split
  · exact hp
  · exact hq

/-- what is read from or known about a file is the same wherever the file is -/
theorem Frame.crash {p : Prog α} (h : Frame file p) (st : Store) : ∀ s ∈ crashStates p st, s file = st file := by
  intro s hs
  rcases List.mem_cons.1 hs with rfl | hs
  · rfl
  · exact (h st).2 s hs

end Prog

theorem savez_same (st : Store) (file : String) (d : Npz) : (st.savez file d) file = some d := if_pos rfl
theorem savez_other {st : Store} {file f : String} {d : Npz} (h : f ≠ file) : (st.savez file d) f = st f := if_neg h

theorem load_congr {st st' : Store} {file : String} (h : st' file = st file) : st'.load file = st.load file := by
  unfold Store.load
  rw [h]

theorem load_some {st : Store} {file : String} {d : Npz} (h : st file = some d) : st.load file = .ok d := by
  unfold Store.load
  rw [h]

/-! ### which files the stages touch -/

open Prog

theorem standardMethods_frame {ext : NumExt} {cf : IdConf} {name : String} {v c : Option (Arr2 ℂ)} {lap : Bool} {iters : Nat}
    {file : String} (hf : file ≠ resultFile .standard name) (st : Store) :
    (standardMethods ext cf name v c lap iters st).2 file = st file := by
  unfold standardMethods
  split
  · split
    · rfl
    · exact savez_other hf
  · rfl

theorem bayesianEiv_frame {ext : NumExt} {cf : IdConf} {name : String} {v c : Option (Arr2 ℂ)} {vsd isd : SdPolar} {r : List ℝ}
    {y0 : Arr2 ℂ} {ye : Option (Arr2 ℂ)} {lap weighted : Bool} {iters : Nat} {pmu : Bool}
    {file : String} (hf : file ≠ resultFile .bayesian name) (st : Store) :
    (bayesianEiv ext cf name v c vsd isd r y0 ye lap weighted iters pmu st).2 file = st file := by
  unfold bayesianEiv
  split
  · rfl
  · split
    · rfl
    · split
      · split
        · rfl
        · exact savez_other hf
      · rfl

theorem standardStep_frame {ext : NumExt} {cf : IdConf} {name : String} {v c : Arr2 ℂ} {ids : List Int} {lap : Bool} {iters : Nat}
    {y : Arr2 ℂ × Arr2 ℂ × Arr2 ℂ} {i : Int} {file : String} (hf : file ≠ resultFile .standard name) :
    Frame file (standardStep ext cf name v c ids lap iters y i) := by
  unfold standardStep
  exact .bind (.ofExcept _) fun _ => .bind (.ofExcept _) fun _ => .bind (.call fun st => standardMethods_frame hf st) fun _ =>
    .bind (.ofExcept _) fun _ => .bind (.ofExcept _) fun _ => .bind (.ofExcept _) fun _ => .pure _

theorem standardLoop_frame {ext : NumExt} {cf : IdConf} {name : String} {v c : Arr2 ℂ} {ids : List Int} {lap : Bool} {iters : Nat}
    {file : String} (hf : file ≠ resultFile .standard name) : Frame file (standardLoop ext cf name v c ids lap iters) := by
  unfold standardLoop
  exact .bind (standardStep_frame hf) fun _ => .bind (standardStep_frame hf) fun _ => standardStep_frame hf

theorem standardMethods3_frame {ext : NumExt} {cf : IdConf} {name : String} {v c : Option (Arr2 ℂ)} {ids : Option (List Int)}
    {lap : Bool} {iters : Nat} {file : String} (hf : file ≠ resultFile .standard name) :
    Frame file (standardMethods3 ext cf name v c ids lap iters) := by
  unfold standardMethods3
  split
  · refine .bind ?_ fun _ => .bind (.save hf _) fun _ => .pure _
    split
    · exact .ofExcept _
    · exact standardLoop_frame hf
  · exact .read _

theorem bayesianStep_frame {ext : NumExt} {cf : IdConf} {name : String} {v c : Arr2 ℂ} {ids : List Int} {vsd isd : SdPolar} {r : List ℝ}
    {y0 : Arr2 ℂ} {ye : Option (Arr2 ℂ)} {lap weighted : Bool} {iters : Nat} {pmu : Bool} {y : Arr2 ℂ} {i : Int}
    {file : String} (hf : file ≠ resultFile .bayesian name) :
    Frame file (bayesianStep ext cf name v c ids vsd isd r y0 ye lap weighted iters pmu y i) := by
  unfold bayesianStep
  exact .bind (.ofExcept _) fun _ => .bind (.ofExcept _) fun _ => .bind (.ofExcept _) fun _ => .bind (.ofExcept _) fun _ =>
    .bind (.ofExcept _) fun _ => .bind (.call fun st => bayesianEiv_frame hf st) fun _ => .bind (.ofExcept _) fun _ => .pure _

theorem bayesianEiv3_frame {ext : NumExt} {cf : IdConf} {name : String} {v c : Arr2 ℂ} {ids : List Int} {vsd isd : SdPolar} {r : List ℝ}
    {y0 : Arr2 ℂ} {ye : Option (Arr2 ℂ)} {lap weighted : Bool} {iters : Nat} {pmu : Bool}
    {file : String} (hf : file ≠ resultFile .bayesian name) :
    Frame file (bayesianEiv3 ext cf name v c ids vsd isd r y0 ye lap weighted iters pmu) := by
  unfold bayesianEiv3
  refine .ite ?_ (.ofExcept _)
  exact .bind (bayesianStep_frame hf) fun _ => .bind (bayesianStep_frame hf) fun _ => .bind (bayesianStep_frame hf) fun _ =>
    .bind (.ofExcept _) fun _ => .bind (.save hf _) fun _ => .pure _

end Verif
