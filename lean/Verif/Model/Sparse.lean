/-
Sparse storage: `scipy.sparse` matrices as lists of stored entries, the operations on them that `src/models` uses, and the parts of
`regression.py`, `error_in_variable.py`, `smooth_prior.py` and `matrix_operations.py` written with them. Elsewhere in this model sparse
matrices are identified with the arrays they denote; `Props/Sparse.lean` proves that this changes nothing.
-/
import Verif.Model.Regression

namespace Verif
open Finset
noncomputable section

/-- a stored entry -/
structure Stored1 (α : Type) where
  row : Nat
  col : Nat
  val : α

/-- `m.format` -/
inductive SpFormat
  | csr
  | csc
  | coo
  deriving DecidableEq

/-- a sparse matrix of any format: its shape and its stored entries, in any order; several entries may have the same position (they
add up), and stored values may be zero -/
structure SpMat (α : Type) where
  r : Nat
  c : Nat
  format : SpFormat
  entries : List (Stored1 α)
  inb : ∀ e ∈ entries, e.row < r ∧ e.col < c

namespace SpMat
variable {α β : Type}

/-- sum of the entries stored for a position -/
def entryAt [AddCommMonoid α] (l : List (Stored1 α)) (i j : Nat) : α :=
  (l.map (fun e => if e.row = i ∧ e.col = j then e.val else 0)).sum

/-- `m.toarray()` -/
def toArr [AddCommMonoid α] (m : SpMat α) : Arr2 α := Arr2.ofFn m.r m.c (entryAt m.entries)

open Classical in
/-- `sp.csr_matrix(a)` of an array: the nonzero entries, row by row -/
def ofArr [Zero α] (a : Arr2 α) : SpMat α where
  r := a.r
  c := a.c
  format := .csr
  entries := (List.range a.r).flatMap (fun i => ((List.range a.c).filter (fun j => a.get i j ≠ 0)).map (fun j => ⟨i, j, a.get i j⟩))
  inb := by
    intro e he
    simp only [List.mem_flatMap, List.mem_map, List.mem_filter, List.mem_range] at he
    obtain ⟨i, hi, j, ⟨hj, _⟩, rfl⟩ := he
    exact ⟨hi, hj⟩

/-- `sp.csr_matrix(m)` of a sparse matrix -/
def toCsr (m : SpMat α) : SpMat α := { m with format := .csr }

/-- `sp.eye(n)`; its format is `dia`, which stores entries like the others -/
def eye [One α] (n : Nat) : SpMat α where
  r := n
  c := n
  format := .csr
  entries := (List.range n).map (fun i => ⟨i, i, 1⟩)
  inb := by
    intro e he
    simp only [List.mem_map, List.mem_range] at he
    obtain ⟨i, hi, rfl⟩ := he
    exact ⟨hi, hi⟩

/-- `sp.diags(v, format='csr')` -/
def diags (v : List α) : SpMat α where
  r := v.length
  c := v.length
  format := .csr
  entries := v.zipIdx.map (fun t => ⟨t.2, t.2, t.1⟩)
  inb := by
    intro e he
    simp only [List.mem_map] at he
    obtain ⟨⟨x, i⟩, hx, rfl⟩ := he
    have := List.snd_lt_of_mem_zipIdx hx
    exact ⟨by simpa using this, by simpa using this⟩

/-- the same structure with other data: `m.real`, `m.imag`, `-m`, `m * l` (scipy keeps the stored positions); on the GPU
`real = m.copy(); real.data = cp.real(real.data)` -/
def mapData (f : α → β) (m : SpMat α) : SpMat β where
  r := m.r
  c := m.c
  format := m.format
  entries := m.entries.map (fun e => ⟨e.row, e.col, f e.val⟩)
  inb := by
    intro e he
    simp only [List.mem_map] at he
    obtain ⟨e', he', rfl⟩ := he
    exact m.inb e' he'

/-- `m.T` -/
def T (m : SpMat α) : SpMat α where
  r := m.c
  c := m.r
  format := match m.format with
    | .csr => .csc
    | .csc => .csr
    | .coo => .coo
  entries := m.entries.map (fun e => ⟨e.col, e.row, e.val⟩)
  inb := by
    intro e he
    simp only [List.mem_map] at he
    obtain ⟨e', he', rfl⟩ := he
    exact (m.inb e' he').symm

/-- `sp.kron(a, b, format='csr')`: all products of a stored entry of `a` and one of `b` -/
def kron [Mul α] (a b : SpMat α) : SpMat α where
  r := a.r * b.r
  c := a.c * b.c
  format := .csr
  entries := a.entries.flatMap (fun e => b.entries.map (fun d => ⟨e.row * b.r + d.row, e.col * b.c + d.col, e.val * d.val⟩))
  inb := by
    intro e he
    simp only [List.mem_flatMap, List.mem_map] at he
    obtain ⟨e, he, d, hd, rfl⟩ := he
    have h1 := a.inb e he
    have h2 := b.inb d hd
    constructor
    · calc e.row * b.r + d.row < e.row * b.r + b.r := by omega
        _ = (e.row + 1) * b.r := by ring
        _ ≤ a.r * b.r := Nat.mul_le_mul_right _ (by omega)
    · calc e.col * b.c + d.col < e.col * b.c + b.c := by omega
        _ = (e.col + 1) * b.c := by ring
        _ ≤ a.c * b.c := Nat.mul_le_mul_right _ (by omega)

/-- `a @ b` of sparse matrices: products of the stored entries that meet -/
def matmul [Mul α] (a b : SpMat α) : Except PyErr (SpMat α) :=
  if a.c = b.r then .ok {
    r := a.r
    c := b.c
    format := a.format
    entries := a.entries.flatMap (fun e => (b.entries.filter (fun d => d.row = e.col)).map (fun d => ⟨e.row, d.col, e.val * d.val⟩))
    inb := by
      intro e he
      simp only [List.mem_flatMap, List.mem_map, List.mem_filter] at he
      obtain ⟨e, he, d, ⟨hd, _⟩, rfl⟩ := he
      exact ⟨(a.inb e he).1, (b.inb d hd).2⟩ }
  else .error .valueError

/-- `a @ v` for a 1-D array -/
def mulVec [NonUnitalNonAssocSemiring α] (a : SpMat α) (v : List α) : Except PyErr (List α) :=
  if a.c = v.length then
    .ok ((List.range a.r).map (fun i => (a.entries.map (fun e => if e.row = i then e.val * v.getD e.col 0 else 0)).sum))
  else .error .valueError

/-- `a + b` of sparse matrices -/
def add (a b : SpMat α) : Except PyErr (SpMat α) :=
  if h : a.r = b.r ∧ a.c = b.c then .ok {
    r := a.r
    c := a.c
    format := a.format
    entries := a.entries ++ b.entries
    inb := by
      intro e he
      rcases List.mem_append.mp he with he | he
      · exact a.inb e he
      · rw [h.1, h.2]; exact b.inb e he }
  else .error .valueError

/-- the entries of a block at an offset -/
def shifted (m : SpMat α) (dr dc : Nat) : List (Stored1 α) := m.entries.map (fun e => ⟨dr + e.row, dc + e.col, e.val⟩)

/-- `sp.bmat([[a, b], [c, d]], format=f)` -/
def bmat (f : SpFormat) (a b c d : SpMat α) : Except PyErr (SpMat α) :=
  if h : a.r = b.r ∧ c.r = d.r ∧ a.c = c.c ∧ b.c = d.c then .ok {
    r := a.r + c.r
    c := a.c + b.c
    format := f
    entries := a.shifted 0 0 ++ b.shifted 0 a.c ++ c.shifted a.r 0 ++ d.shifted a.r a.c
    inb := by
      obtain ⟨h1, h2, h3, h4⟩ := h
      intro e he
      simp only [shifted, List.mem_append, List.mem_map] at he
      rcases he with ((⟨e, he, rfl⟩ | ⟨e, he, rfl⟩) | ⟨e, he, rfl⟩) | ⟨e, he, rfl⟩
      · have := a.inb e he; exact ⟨by simp only; omega, by simp only; omega⟩
      · have := b.inb e he; exact ⟨by simp only; omega, by simp only; omega⟩
      · have := c.inb e he; exact ⟨by simp only; omega, by simp only; omega⟩
      · have := d.inb e he; exact ⟨by simp only; omega, by simp only; omega⟩ }
  else .error .valueError

end SpMat

/-- GPU `make_real_matrix` of an array, gpu_matrix_operations.py:83-86: `vstack` of two `hstack`s; the pieces always have fitting shapes -/
def gpuMakeRealMatrix (m : Arr2 ℂ) : Arr2 ℝ :=
  let hs (a b : Arr2 ℝ) : Arr2 ℝ := Arr2.ofFn a.r (a.c + b.c) (fun i j => if j < a.c then a.get i j else b.get i (j - a.c))
  let vs (a b : Arr2 ℝ) : Arr2 ℝ := Arr2.ofFn (a.r + b.r) a.c (fun i j => if i < a.r then a.get i j else b.get (i - a.r) j)
  vs (hs (m.map Complex.re) ((m.map Complex.im).map (fun t => -t))) (hs (m.map Complex.im) (m.map Complex.re))

/-- `make_real_matrix` of a sparse matrix, matrix_operations.py:73-81, gpu_matrix_operations.py:75-81 -/
def makeRealSparse (m : SpMat ℂ) : Except PyErr (SpMat ℝ) :=
  SpMat.bmat m.format (m.mapData Complex.re) ((m.mapData Complex.im).mapData (fun t => -t)) (m.mapData Complex.im) (m.mapData Complex.re)

/-- what the sparse library does beyond the values: how it stores results (merging or sorting entries, dropping zeros), and the solver -/
structure SpLib where
  storeR : SpMat ℝ → SpMat ℝ
  storeC : SpMat ℂ → SpMat ℂ
  spsolve : SpMat ℝ → List ℝ → Except PyErr (List ℝ)

/-- `make_real_matrix(sp.kron(sp.eye(n), x, format='csr') @ DT)`, regression.py:118, error_in_variable.py:201, 242, 258; `x` is the
sparse matrix that `kron` makes of its argument -/
def spRegressionMatrix (L : SpLib) (n : Nat) (x dt : SpMat ℂ) : Except PyErr (SpMat ℝ) := do
  let k ← (L.storeC ((SpMat.eye n).kron x)).matmul dt
  let m ← makeRealSparse (L.storeC k)
  pure (L.storeR m)

/-- `iASA = P + λ * csr_matrix(M)`, regression.py:128 -/
def spAddScaled (L : SpLib) (l : ℝ) (P : SpMat ℝ) (M : Arr2 ℝ) : Except PyErr (SpMat ℝ) := do
  let s ← P.add (L.storeR ((SpMat.ofArr M).mapData (fun t => l * t)))
  pure (L.storeR s)

/-- `y_mat = unvectorize_matrix(DT @ make_complex_vector(y), (n, n))` -/
def spToMatrix (n : Nat) (dt : SpMat ℂ) (y : List ℝ) : Except PyErr (Arr2 ℂ) := do
  let v ← makeComplexVector y
  let w ← dt.mulVec v
  unvectorizeMatrix w (n, n)

/-- body of the loop of `BayesianRegression.fit`, regression.py:126-141 -/
def spRegStep (L : SpLib) (cfg : RegConfig) (n : Nat) (dt : SpMat ℂ) (A : SpMat ℝ) (b : List ℝ) (s : FitState) :
    Except PyErr (FitState × ℝ) := do
  let ata ← A.T.matmul A
  let sys ← spAddScaled L cfg.lam (L.storeR ata) s.M
  let atb ← A.T.mulVec b
  let rhs ← broadcast1 (fun p q => p + cfg.lam * q) atb s.mu
  let y ← L.spsolve sys rhs
  let yMat ← spToMatrix n dt y
  let (M, mu, penalty) ← cfg.prior.logDistribution y
  let ay ← A.mulVec y
  let db ← broadcast1 (fun p q => p - q) b ay
  pure (⟨yMat, M, mu⟩, |sqNorm db + cfg.lam * penalty|)

/-- `BayesianRegression.fit`, regression.py:92-148, with sparse matrices -/
def spBayesianFit (L : SpLib) (cfg : RegConfig) (obj : RegObj) (x z yInit : Arr2 ℂ) : Except PyErr Unit × RegObj :=
  let setup : Except PyErr (SpMat ℂ × SpMat ℝ × List ℝ × FitState) := do
    let n := x.c
    let dt ← cfg.dt n
    let dt := L.storeC (SpMat.ofArr dt)
    let e ← cfg.e n
    let e := L.storeC (SpMat.ofArr e)
    let A ← spRegressionMatrix L n (L.storeC (SpMat.ofArr x)) dt
    let v ← e.mulVec (vectorizeMatrix yInit)
    let b := makeRealVector (vectorizeMatrix z)
    let (M, mu, _) ← cfg.prior.logDistribution (makeRealVector v)
    pure (dt, A.toCsr, b, ⟨yInit, M, mu⟩)
  match setup with
  | .error e => (.error e, obj)
  | .ok (dt, A, b, s) => finishFit obj (fitLoop cfg (spRegStep L cfg x.c dt A b) cfg.maxIter 0 s obj.iterations)

/-- `underline_y`, error_in_variable.py:219-222 -/
def spUnderlineY (L : SpLib) (T : Nat) (yMat : Arr2 ℂ) : Except PyErr (SpMat ℝ) := do
  let re := L.storeR ((L.storeR (SpMat.ofArr (yMat.map Complex.re))).kron (SpMat.eye T))
  let im := L.storeR ((L.storeR (SpMat.ofArr (yMat.map Complex.im))).kron (SpMat.eye T))
  let u ← SpMat.bmat .csr re (im.mapData (fun t => -t)) im re
  pure (L.storeR u)

/-- the weighted sub-problem, error_in_variable.py:219-237 -/
def spEivCorrection (L : SpLib) (T : Nat) (xW zW : SpMat ℝ) (yMat : Arr2 ℂ) (a b : List ℝ) : Except PyErr (List ℝ) := do
  let u ← spUnderlineY L T yMat
  let uw ← u.T.matmul zW
  let uw := L.storeR uw
  let ysy ← uw.matmul u
  let ysy := L.storeR ysy
  let sys ← ysy.add xW
  let v1 ← ysy.mulVec a
  let v2 ← uw.mulVec b
  let rhs ← broadcast1 (fun p q => p - q) v1 v2
  L.spsolve (L.storeR sys).toCsr rhs

/-- `csr_matrix(A - dA)`, error_in_variable.py:245 -/
def spSub (L : SpLib) (A dA : SpMat ℝ) : Except PyErr (SpMat ℝ) := do
  let d ← A.add (dA.mapData (fun t => -t))
  pure (L.storeR d).toCsr

/-- body of the loop of `BayesianEIVRegression.fit`, weighted branch, error_in_variable.py:217-248, 264-277 -/
def spEivWeightedStep (L : SpLib) (cfg : RegConfig) (x : Arr2 ℂ) (dt : SpMat ℂ) (A : SpMat ℝ) (a b : List ℝ)
    (xW zW : SpMat ℝ) (s : FitState) : Except PyErr (FitState × ℝ) := do
  let n := x.c
  let da ← spEivCorrection L x.r xW zW s.yMat a b
  let c ← makeComplexVector da
  let eqp ← unvectorizeMatrix c (x.r, x.c)
  let dA ← spRegressionMatrix L n (L.storeC (SpMat.ofArr eqp)) dt
  let am ← spSub L A dA
  let amw ← am.T.matmul zW
  let amw := L.storeR amw
  let q ← amw.matmul am
  let sys ← spAddScaled L cfg.lam (L.storeR q) s.M
  let l ← amw.mulVec b
  let rhs ← broadcast1 (fun p q => p + cfg.lam * q) l s.mu
  let y ← L.spsolve sys rhs
  let yMat ← spToMatrix n dt y
  let (M, mu, penalty) ← cfg.prior.logDistribution y
  let ay ← am.mulVec y
  let db ← broadcast1 (fun p q => p - q) b ay
  let wdb ← zW.mulVec db
  let c1 ← dotList db wdb
  let wda ← xW.mulVec da
  let c2 ← dotList da wda
  pure (⟨yMat, M, mu⟩, |c1 + c2 + cfg.lam * penalty|)

/-- body of the loop, unweighted branch, error_in_variable.py:250-262, 264-277 -/
def spEivUnweightedStep (L : SpLib) (inv : Arr2 ℂ → Except PyErr (Arr2 ℂ)) (cfg : RegConfig) (x z : Arr2 ℂ)
    (dt : SpMat ℂ) (b : List ℝ) (s : FitState) : Except PyErr (FitState × ℝ) := do
  let n := x.c
  let pd ← projectedData inv s.yMat x z
  let eqp := slice2 pd 0 pd.r 0 (min n pd.c)
  let da := vectorizeMatrix eqp
  let am ← spRegressionMatrix L n (L.storeC (SpMat.ofArr eqp)) dt
  let q ← am.T.matmul am
  let sys ← spAddScaled L cfg.lam (L.storeR q) s.M
  let l ← am.T.mulVec b
  let rhs ← broadcast1 (fun p q => p + cfg.lam * q) l s.mu
  let y ← L.spsolve sys rhs
  let yMat ← spToMatrix n dt y
  let (M, mu, penalty) ← cfg.prior.logDistribution y
  let ay ← am.mulVec y
  let db ← broadcast1 (fun p q => p - q) b ay
  let cost : ℂ := (sqNorm db : ℂ) + (da.map (fun t => t * t)).sum
  pure (⟨yMat, M, mu⟩, ‖cost + ((cfg.lam * penalty : ℝ) : ℂ)‖)

/-- `BayesianEIVRegression.fit`, error_in_variable.py:173-288, with sparse matrices. Line 210 converts `x_weight` instead of
`z_weight`. -/
def spEivFit (L : SpLib) (inv : Arr2 ℂ → Except PyErr (Arr2 ℂ)) (cfg : RegConfig) (obj : RegObj) (x z : Arr2 ℂ)
    (xWeight zWeight : Option (Arr2 ℝ)) (yInit : Arr2 ℂ) : Except PyErr Unit × RegObj :=
  let xW := xWeight.map (fun w => L.storeR (SpMat.ofArr w))
  let zW := match zWeight with
    | none => none
    | some _ => xW.map (fun w => L.storeR w.toCsr)
  let setup : Except PyErr (SpMat ℂ × SpMat ℝ × List ℝ × List ℝ × FitState) := do
    let n := x.c
    let dt ← cfg.dt n
    let dt := L.storeC (SpMat.ofArr dt)
    let e ← cfg.e n
    let e := L.storeC (SpMat.ofArr e)
    let A ← spRegressionMatrix L n (L.storeC (SpMat.ofArr x)) dt
    let v ← e.mulVec (vectorizeMatrix yInit)
    let a := makeRealVector (vectorizeMatrix x)
    let b := makeRealVector (vectorizeMatrix z)
    let (M, mu, _) ← cfg.prior.logDistribution (makeRealVector v)
    pure (dt, A, a, b, ⟨yInit, M, mu⟩)
  match setup with
  | .error e => (.error e, obj)
  | .ok (dt, A, a, b, s) =>
    let step := match zW, xW with
      | some zW, some xW => spEivWeightedStep L cfg x dt A a b xW zW
      | _, _ => spEivUnweightedStep L inv cfg x z dt b
    finishFit obj (fitLoop cfg step cfg.maxIter 0 s obj.iterations)

/-- `SparseSmoothPrior.log_distribution`, smooth_prior.py:141-148, with `self.L` stored as `l` -/
def Prior.spLogDistribution (L : SpLib) (p : Prior) (l : SpMat ℝ) (x : List ℝ) : Except PyErr (SpMat ℝ × List ℝ × ℝ) := do
  if x.length = 1 then throw .valueError
  let lx ← l.mulVec x
  let r ← broadcast1 (fun a b => a - b) lx p.mu
  let w0 ← broadcast1 (fun r g => |r| ^ ((2 : ℝ) - g)) r p.gamma
  let w := w0.map (fun t => t + p.alpha)
  let lw ← l.T.matmul (L.storeR (SpMat.diags (w.map (fun t => 1 / t))))
  let lw := L.storeR lw
  let a ← lw.matmul l
  if p.mu.length = 1 then throw .valueError
  let b ← lw.mulVec p.mu
  pure (L.storeR a, b, w.sum)

end
end Verif
