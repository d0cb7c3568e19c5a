/-
What Kron reduction is meant to do, stated on the network equation `current = voltage · Y`.
-/
import Verif.Spec.LinAlg
import Mathlib.Algebra.BigOperators.Group.Finset.Basic

namespace Verif.Spec
open Finset
noncomputable section

/-- injected currents of the network with admittance matrix `y` at voltages `v` -/
def currents (y : Arr2 ℂ) (v : ℕ → ℂ) (j : ℕ) : ℂ := ∑ i ∈ range y.r, v i * y.get i j

/-- the block of `y` on the nodes `S` is invertible -/
def BlockNonsingular (y : Arr2 ℂ) (S : Finset ℕ) : Prop :=
  ∀ u : ℕ → ℂ, (∀ j ∈ S, ∑ i ∈ S, u i * y.get i j = 0) → ∀ i ∈ S, u i = 0

/-- `red` is the admittance matrix seen from the nodes `K` (in this order) of the network `y` when no current is injected at
the nodes `S` -/
def Equivalent (y : Arr2 ℂ) (S : Finset ℕ) (K : List ℕ) (red : Arr2 ℂ) : Prop :=
  red.r = K.length ∧ red.c = K.length ∧
  ∀ v : ℕ → ℂ, (∀ s ∈ S, currents y v s = 0) →
    ∀ b, b < K.length → currents red (fun a => v (K.getD a 0)) b = currents y v (K.getD b 0)

/-- `K` lists the nodes of `0..n-1` outside `S`, each once -/
def Lists (n : ℕ) (S : Finset ℕ) (K : List ℕ) : Prop := K.Nodup ∧ ∀ k, k ∈ K ↔ k < n ∧ k ∉ S

/-- `pinv` computes Moore-Penrose pseudo-inverses -/
def PinvContract (pinv : Arr2 ℂ → Except PyErr (Arr2 ℂ)) : Prop := ∀ m, ∃ p, pinv m = .ok p ∧ PseudoInverse m p

end
end Verif.Spec
