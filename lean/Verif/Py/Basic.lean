/-
The slice of Python semantics used by the model: exceptions as values, Python indices and slices, `for` loops.
-/
import Mathlib.Logic.Basic
import Mathlib.Data.List.Basic
import Mathlib.Tactic.Linarith
import Mathlib.Tactic.Ring

namespace Verif

/-- Python exception classes that the modelled code can raise. -/
inductive PyErr
  | indexError | valueError | typeError | nameError | attributeError | assertionError
  | userWarning | keyError | notImplementedError | fileNotFoundError | linAlgError | zeroDivisionError | overflowError | systemExit
  deriving DecidableEq, Repr

/-- Python index resolution: `a[i]` with `len(a) = n`; negative indices count from the end. -/
def pyIndex (n : Nat) (i : Int) : Except PyErr Nat :=
  if 0 ≤ i ∧ i < n then .ok i.toNat
  else if -(n : Int) ≤ i ∧ i < 0 then .ok (n + i).toNat
  else .error .indexError

/-- Python slice bound resolution: clamps into `0..n`, negative bounds count from the end. -/
def pySlice (n : Nat) (i : Int) : Nat :=
  if i < 0 then (n + i).toNat else min n i.toNat

/-- `for i in range(n): s = f(s, i)` where the body may raise. -/
def forRange {σ : Type} (n : Nat) (s : σ) (f : σ → Nat → Except PyErr σ) : Except PyErr σ :=
  (List.range n).foldlM f s

/-- `for x in xs: s = f(s, x)` where the body may raise. -/
def forIn' {σ β : Type} (xs : List β) (s : σ) (f : σ → β → Except PyErr σ) : Except PyErr σ :=
  xs.foldlM f s

theorem pyIndex_nat {n i : Nat} (h : i < n) : pyIndex n (i : Int) = .ok i := by
  unfold pyIndex
  rw [if_pos (by omega)]
  simp

theorem pyIndex_ge {n i : Nat} (h : n ≤ i) : pyIndex n (i : Int) = .error .indexError := by
  unfold pyIndex
  rw [if_neg (by omega), if_neg (by omega)]

theorem pyIndex_lt {n : Nat} {i : Int} {k : Nat} (h : pyIndex n i = .ok k) : k < n := by
  unfold pyIndex at h
  split at h
  · cases h; omega
  · split at h
    · cases h; omega
    · cases h

theorem pySlice_nat (n i : Nat) : pySlice n (i : Int) = min n i := by
  unfold pySlice
  rw [if_neg (by omega)]; simp

/-- Loop invariant rule for `forRange`. -/
theorem forRange_inv {σ : Type} (P : Nat → σ → Prop) (n : Nat) (s0 : σ) (f : σ → Nat → Except PyErr σ)
    (h0 : P 0 s0) (hstep : ∀ k, k < n → ∀ s, P k s → ∃ s', f s k = .ok s' ∧ P (k + 1) s') :
    ∃ s, forRange n s0 f = .ok s ∧ P n s := by
  unfold forRange
  induction n with
  | zero => exact ⟨s0, rfl, h0⟩
  | succ n ih =>
    obtain ⟨s, hs, hp⟩ := ih (fun k hk => hstep k (Nat.lt_succ_of_lt hk))
    obtain ⟨s', hs', hp'⟩ := hstep n (Nat.lt_succ_self n) s hp
    refine ⟨s', ?_, hp'⟩
    rw [List.range_succ, List.foldlM_append, hs]
    simp only [bind, Except.bind, List.foldlM_cons, List.foldlM_nil, hs', pure, Except.pure]

@[simp] theorem forIn'_nil {σ β : Type} (s : σ) (f : σ → β → Except PyErr σ) :
    forIn' [] s f = .ok s := rfl

theorem forIn'_cons {σ β : Type} (x : β) (xs : List β) (s : σ) (f : σ → β → Except PyErr σ) :
    forIn' (x :: xs) s f = (f s x).bind (fun s' => forIn' xs s' f) := rfl

end Verif
