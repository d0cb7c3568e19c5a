/-
C92 and C125: the prior with known lines as `bayesian_eiv` builds it.
-/
import Verif.Props.KnownLines
import Verif.Model.Identification

namespace Verif
open Finset
noncomputable section

/-- a computation that returns or raises `IndexError` -/
def IndexOnly {α : Type} (x : Except PyErr α) : Prop := ∀ e, x = .error e → e = .indexError

theorem IndexOnly.bind {α β : Type} {x : Except PyErr α} {f : α → Except PyErr β} (hx : IndexOnly x) (hf : ∀ a, IndexOnly (f a)) :
    IndexOnly (x >>= f) := by
  intro e h
  cases x with
  | error e' =>
    have : e' = e := Except.error.inj h
    subst this
    exact hx e' rfl
  | ok a => exact hf a e h

theorem IndexOnly.ok {α : Type} (a : α) : IndexOnly (Except.ok a) := by
  intro e h
  cases h

theorem pyIndex_only (n : Nat) (i : Int) : IndexOnly (pyIndex n i) := by
  intro e h
  unfold pyIndex at h
  split at h
  · cases h
  · split at h
    · cases h
    · exact (Except.error.inj h).symm

theorem item_only (m : Arr2 ℂ) (i j : Nat) : IndexOnly (item m i j) :=
  (pyIndex_only _ _).bind fun _ => (pyIndex_only _ _).bind fun _ => .ok _

theorem set_only (m : Arr2 ℂ) (i j : Int) (v : ℂ) : IndexOnly (m.set i j v) :=
  (pyIndex_only _ _).bind fun _ => (pyIndex_only _ _).bind fun _ => .ok _

theorem setCross_only (m : Arr2 ℂ) (k : Nat) (v : ℂ) : IndexOnly (setCross m k v) :=
  (pyIndex_only _ _).bind fun _ => (pyIndex_only _ _).bind fun _ => .ok _

theorem setLine_only (y m : Arr2 ℂ) (i j : Nat) : IndexOnly (setLine y m i j) :=
  (item_only _ _ _).bind fun _ => (item_only _ _ _).bind fun _ => (set_only _ _ _ _).bind fun _ => set_only _ _ _ _

theorem optimalLines_only (y w c : Arr2 ℂ) : IndexOnly (optimalLines y w c) := by
  unfold optimalLines
  refine (setCross_only _ _ _).bind fun _ => (set_only _ _ _ _).bind fun _ => (setCross_only _ _ _).bind fun _ => (setLine_only _ _ _ _).bind fun _ =>
    (setCross_only _ _ _).bind fun _ => (setCross_only _ _ _).bind fun _ => (set_only _ _ _ _).bind fun _ => (set_only _ _ _ _).bind fun _ =>
    (setCross_only _ _ _).bind fun _ => (setCross_only _ _ _).bind fun _ => (setLine_only _ _ _ _).bind fun _ => (setLine_only _ _ _ _).bind fun _ =>
    (setLine_only _ _ _ _).bind fun _ => (setLine_only _ _ _ _).bind fun _ => .ok (_, _)

theorem pyIndex_inside {n k i : Nat} (h : pyIndex n (i : Int) = .ok k) : i < n := by
  unfold pyIndex at h
  split at h
  · omega
  · split at h
    · omega
    · cases h

theorem item_lt {m : Arr2 ℂ} {i j : Nat} {v : ℂ} (h : item m i j = .ok v) : i < m.r ∧ j < m.c := by
  unfold item at h
  obtain ⟨a, h1, h⟩ := Prior.bind_ok h
  obtain ⟨b, h2, h⟩ := Prior.bind_ok h
  exact ⟨pyIndex_inside h1, pyIndex_inside h2⟩

/-- the known lines need 29 nodes -/
theorem optimalLines_size {y w c : Arr2 ℂ} {r : Arr2 ℂ × Arr2 ℂ} (h : optimalLines y w c = .ok r) : 29 ≤ y.r ∧ 29 ≤ y.c := by
  unfold optimalLines at h
  obtain ⟨_, -, h⟩ := Prior.bind_ok h
  obtain ⟨_, -, h⟩ := Prior.bind_ok h
  obtain ⟨_, -, h⟩ := Prior.bind_ok h
  obtain ⟨_, -, h⟩ := Prior.bind_ok h
  obtain ⟨_, -, h⟩ := Prior.bind_ok h
  obtain ⟨_, -, h⟩ := Prior.bind_ok h
  obtain ⟨_, -, h⟩ := Prior.bind_ok h
  obtain ⟨_, -, h⟩ := Prior.bind_ok h
  obtain ⟨_, -, h⟩ := Prior.bind_ok h
  obtain ⟨_, -, h⟩ := Prior.bind_ok h
  obtain ⟨_, -, h⟩ := Prior.bind_ok h
  obtain ⟨_, -, h⟩ := Prior.bind_ok h
  obtain ⟨_, -, h⟩ := Prior.bind_ok h
  obtain ⟨_, h1, h⟩ := Prior.bind_ok h
  unfold setLine at h1
  obtain ⟨_, h2, h1⟩ := Prior.bind_ok h1
  obtain ⟨_, h3, h1⟩ := Prior.bind_ok h1
  have := item_lt h2
  have := item_lt h3
  omega

/-- fewer than 29 rows or columns: `add_known_lines` raises `IndexError` -/
theorem known_few (n : Nat) (p : Prior) (l : ℝ) {y : Arr2 ℂ} (hy : ¬ (29 ≤ y.r ∧ 29 ≤ y.c)) (lap : Bool) :
    addKnownLines n p l y lap "optimal" = .error .indexError := by
  obtain ⟨E, hE, -⟩ := e_vec lap n
  simp only [addKnownLines, hE, if_pos (show inStr "optimal" "optimal" by decide), bind, Except.bind]
  cases h : optimalLines y (Arr2.zeros y.r y.c) (Arr2.zeros y.r y.c) with
  | ok r => exact absurd (optimalLines_size h) hy
  | error e => rw [optimalLines_only _ _ _ e h]

end
end Verif
