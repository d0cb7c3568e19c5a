/-
Model of CPython sets (Objects/setobject.c) of small non-negative integers, whose hash is the integer itself, as far as it
determines the iteration order. Used for src/simulation/abstract_network.py:102, where `list(set(range(n)) - set(idx))`
fixes the order of the rows of the reduced matrix.

Simplifications: sets have fewer than 50000 elements; a probe sequence that does not reach a free slot within `size` rounds
falls back on the first free slot (does not happen in CPython, whose sequence visits every slot).
-/
import Mathlib.Data.List.Range
import Mathlib.Data.List.Dedup

namespace Verif.PySet

/-- the hash table: one entry per slot -/
abbrev Table := List (Option Nat)

/-- a new set has 8 slots -/
def empty : Table := List.replicate 8 none

/-- slots looked at from `i` on: `i` and, if they exist, the next `LINEAR_PROBES = 9` ones -/
def linear (size i : Nat) : List Nat :=
  if i + 9 ≤ size - 1 then (List.range 10).map (i + ·) else [i]

/-- `rounds` rounds of the probe sequence: `perturb >>= 5; i = (i*5 + 1 + perturb) & mask` -/
def probes (size : Nat) : Nat → Nat → Nat → List Nat
  | 0, _, _ => []
  | rounds + 1, i, perturb => linear size i ++ probes size rounds ((i * 5 + 1 + perturb / 32) % size) (perturb / 32)

/-- the slot for a key that is not in the table -/
def slotFor (t : Table) (key : Nat) : Nat :=
  ((probes t.length t.length (key % t.length) key ++ List.range t.length).find?
    (fun s => t.getD s (some 0) = none)).getD t.length

/-- `set_insert_clean` -/
def place (t : Table) (key : Nat) : Table := t.set (slotFor t key) (some key)

/-- elements in iteration order -/
def toList (t : Table) : List Nat := t.filterMap id

/-- number of elements -/
def used (t : Table) : Nat := (toList t).length

/-- `newsize = PySet_MINSIZE; while newsize <= minused: newsize <<= 1` -/
def newSize (minused : Nat) : Nat → Nat → Nat
  | 0, size => size
  | fuel + 1, size => if size ≤ minused then newSize minused fuel (2 * size) else size

/-- `set_table_resize(so, minused)` -/
def resize (t : Table) (minused : Nat) : Table :=
  (toList t).foldl place (List.replicate (newSize minused (minused + 1) 8) none)

/-- `set_add_entry` -/
def add (t : Table) (key : Nat) : Table :=
  if some key ∈ t then t
  else
    let t' := place t key
    if used t' * 5 < (t'.length - 1) * 3 then t' else resize t' (used t' * 4)

/-- `set(l)` -/
def ofList (l : List Nat) : Table := l.foldl add empty

/-- `set_copy`: a table of minimal size is copied, otherwise the elements go to a table for twice their number -/
def copy (t : Table) : Table :=
  let big := 21 ≤ used t * 5
  if big then (toList t).foldl place (List.replicate (newSize (used t * 2) (used t * 2 + 1) 8) none)
  else if t.length = 8 then t
  else (toList t).foldl place empty

/-- elements of `s - o` in iteration order; `o` is the list of the distinct elements of the other set. With few elements to
remove, a copy of `s` loses them; otherwise the remaining ones are added to a new set one by one. -/
def difference (s : Table) (o : List Nat) : List Nat :=
  if o.length < used s / 4 then (toList (copy s)).filter (fun k => k ∉ o)
  else toList (((toList s).filter (fun k => k ∉ o)).foldl add empty)

/-- `list(set(range(n)) - set(idx))` -/
def complement (n : Nat) (idx : List Nat) : List Nat := difference (ofList (List.range n)) idx.dedup

end Verif.PySet
