/-
Contracts of the linear-algebra routines of numpy and scipy that the code calls, stated on Mathlib matrices.
-/
import Verif.Lemmas.ToMat
import Mathlib.LinearAlgebra.Matrix.NonsingularInverse
import Mathlib.LinearAlgebra.Matrix.ConjTranspose
import Mathlib.Data.Complex.BigOperators
import Mathlib.Analysis.Complex.Norm

namespace Verif.Spec
open Matrix
noncomputable section

/-- `p` is a Moore-Penrose pseudo-inverse of `x` -/
structure PseudoInverse (x p : Arr2 ℂ) : Prop where
  rows : p.r = x.c
  cols : p.c = x.r
  xpx : x.toMat x.r x.c * p.toMat x.c x.r * x.toMat x.r x.c = x.toMat x.r x.c
  pxp : p.toMat x.c x.r * x.toMat x.r x.c * p.toMat x.c x.r = p.toMat x.c x.r
  herm_xp : (x.toMat x.r x.c * p.toMat x.c x.r)ᴴ = x.toMat x.r x.c * p.toMat x.c x.r
  herm_px : (p.toMat x.c x.r * x.toMat x.r x.c)ᴴ = p.toMat x.c x.r * x.toMat x.r x.c

/-- `inv` returns the inverse of every invertible square matrix -/
def InvContract (inv : Arr2 ℂ → Except PyErr (Arr2 ℂ)) : Prop :=
  ∀ n (A B : Arr2 ℂ), A.r = n ∧ A.c = n → B.r = n ∧ B.c = n → A.toMat n n * B.toMat n n = 1 → inv A = .ok B

/-- `vh` is the third factor of a full singular value decomposition of the `T`-by-`N` matrix `m`: `m = u Σ vh` with `u`,
`vh` unitary and `Σ` diagonal with non-negative entries in decreasing order -/
def IsSvdVh (T N : Nat) (m vh : Arr2 ℂ) : Prop :=
  m.r = T ∧ m.c = N ∧ vh.r = N ∧ vh.c = N ∧ vh.toMat N N * (vh.toMat N N)ᴴ = 1 ∧
  ∃ (u : Matrix (Fin T) (Fin T) ℂ) (s : ℕ → ℝ), uᴴ * u = 1 ∧ (∀ k, 0 ≤ s k) ∧ Antitone s ∧
    m.toMat T N = u * (Matrix.of fun (i : Fin T) (j : Fin N) => if (i : ℕ) = j then (s i : ℂ) else 0) * vh.toMat N N

/-- `svd` returns the third factor of a singular value decomposition of every matrix -/
def SvdContract (svd : Arr2 ℂ → Except PyErr (Arr2 ℂ)) : Prop := ∀ m, ∃ vh, svd m = .ok vh ∧ IsSvdVh m.r m.c m vh

/-- Euclidean length of a complex vector -/
def len {n : Nat} (v : Fin n → ℂ) : ℝ := Real.sqrt (∑ i, ‖v i‖ ^ 2)

/-- the matrix shrinks no vector below `c` (its smallest singular value is at least `c`) -/
def AtLeast (m : Arr2 ℂ) (c : ℝ) : Prop := ∀ v, c * len v ≤ len ((m.toMat m.r m.c).mulVec v)

/-- `x`, `z` are measurements of data `x0`, `z0` with `z0 = x0 Y`; the largest singular value of the errors of both, side by side, is
at most `ε` -/
def Noisy (x z x0 z0 Y : Arr2 ℂ) (ε : ℝ) : Prop :=
  x0.matmul Y = .ok z0 ∧ (x.r = x0.r ∧ x.c = x0.c) ∧ (z.r = z0.r ∧ z.c = z0.c) ∧
  ∀ (a : Fin x0.c → ℂ) (b : Fin z0.c → ℂ),
    len ((x.toMat x0.r x0.c - x0.toMat x0.r x0.c).mulVec a + (z.toMat x0.r z0.c - z0.toMat x0.r z0.c).mulVec b) ≤
      ε * len (Fin.append a b)

/-- the error `B - Y` of an estimate, along any direction, times `c` is at most `d` times the length of the data it applies to -/
def ErrorBound (B Y : Arr2 ℂ) (c d : ℝ) : Prop :=
  ∀ q : Fin Y.c → ℂ, c * len ((B.toMat Y.r Y.c - Y.toMat Y.r Y.c).mulVec q) ≤
    d * len (Fin.append ((Y.toMat Y.r Y.c).mulVec q) q)

/-- linearly independent columns -/
def FullColumnRank (x : Arr2 ℂ) : Prop := ∀ v, (x.toMat x.r x.c).mulVec v = 0 → v = 0

end
end Verif.Spec
