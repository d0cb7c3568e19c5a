/-
What the reduction of a network with grid connections is meant to do.
-/
import Verif.Spec.Kron
import Verif.Model.Network

namespace Verif.Spec
open Finset
noncomputable section

/-- `y` with the admittances `d` added between the nodes and the ground -/
def withShunts (y : Arr2 ℂ) (d : ℕ → ℂ) : Arr2 ℂ := Arr2.ofFn y.r y.c (fun i j => y.get i j + if i = j then d i else 0)

/-- `red` gives the currents of the network `y` at the nodes `K` (in this order) from their voltages, whenever the voltages of the
nodes `C` are zero and the current of every node `s ∈ S` is `-d s` times its voltage -/
def Grounded (y : Arr2 ℂ) (d : ℕ → ℂ) (C S : Finset ℕ) (K : List ℕ) (red : Arr2 ℂ) : Prop :=
  red.r = K.length ∧ red.c = K.length ∧
  ∀ v : ℕ → ℂ, (∀ c ∈ C, v c = 0) → (∀ s ∈ S, currents y v s = - (d s * v s)) →
    ∀ b, b < K.length → currents red (fun a => v (K.getD a 0)) b = currents y v (K.getD b 0)

/-- positions of the buses with one of the given labels -/
def labelled (bs : List BusData) (l : List Int) : Finset ℕ := (range bs.length).filter (fun k => ∃ b, bs[k]? = some b ∧ b.id ∈ l)

/-- positions of the grid connections -/
def connections (bs : List BusData) : Finset ℕ := (range bs.length).filter (fun k => ∃ b, bs[k]? = some b ∧ b.type = 3)

/-- position after removal of the nodes `C` -/
def rank (C : Finset ℕ) (k : ℕ) : ℕ := k - (C.filter (fun c => c < k)).card

end
end Verif.Spec
