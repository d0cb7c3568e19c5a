import Verif.Lemmas.ToMat
import Verif.Props.MatrixOps
import Verif.Props.Prior

namespace Verif
open Finset
noncomputable section

/-- `kron(eye(n), x) @ vec(Y) = vec(x @ Y)` -/
theorem kron_eye_mulVec {α : Type} [CommRing α] (x Y XY : Arr2 α) (n : Nat) (hx : x.c = n) (hY : Y.r = n ∧ Y.c = n)
    (h : x.matmul Y = .ok XY) : ((Arr2.eye n).kron x).mulVec (vectorizeMatrix Y) = .ok (vectorizeMatrix XY) := by
  obtain ⟨h1, h2⟩ := hY
  rw [Arr2.matmul_ok x Y (by omega)] at h
  have hXY := (Except.ok.inj h).symm
  have hr : XY.r = x.r := by rw [hXY]; rfl
  have hc : XY.c = n := by rw [hXY]; exact h2
  obtain ⟨w, hw, hwl, hwg⟩ := Arr2.mulVec_ok ((Arr2.eye n).kron x) (vectorizeMatrix Y)
    (by rw [vec_length, h1, h2]; show n * x.c = _; rw [hx])
  rw [hw]
  congr 1
  refine vec_ext (r := x.r) (c := n) hwl (by rw [vec_length, hr, hc]) ?_
  intro t a ht ha
  have hpos : a * x.r + t < n * x.r := by
    calc a * x.r + t < a * x.r + x.r := by omega
      _ = (a + 1) * x.r := by ring
      _ ≤ n * x.r := Nat.mul_le_mul_right _ ha
  have hv := vec_getD XY (i := t) (j := a) (by omega) (by omega)
  rw [hr] at hv
  rw [hwg _ hpos, hv, hXY, Arr2.ofFn_get _ ht (by omega), Arr2.mulGet, hx]
  have hkc : ((Arr2.eye n : Arr2 α).kron x).c = n * n := by show n * x.c = _; rw [hx]
  have hg : ∀ b k, b < n → k < n → ((Arr2.eye n : Arr2 α).kron x).get (a * x.r + t) (b * n + k) =
      (if a = b then 1 else 0) * x.get t k := by
    intro b k hb hk
    have := Arr2.kron_get (Arr2.eye n : Arr2 α) x (i := a) (j := b) (i' := t) (j' := k) ha hb ht (by omega)
    rw [hx] at this
    rw [this, Arr2.eye, Arr2.ofFn_get _ ha hb]
  rw [hkc, sum_range_mul']
  rw [Finset.sum_eq_single_of_mem a (Finset.mem_range.2 ha)]
  · apply Finset.sum_congr rfl
    intro k hk
    have hk := Finset.mem_range.1 hk
    have hv := vec_getD Y (i := k) (j := a) (by omega) (by omega)
    rw [h1] at hv
    rw [hv, hg a k ha hk, if_pos rfl, one_mul]
  · intro b hb hne
    apply Finset.sum_eq_zero
    intro k hk
    rw [hg b k (Finset.mem_range.1 hb) (Finset.mem_range.1 hk), if_neg (fun h => hne h.symm), zero_mul, zero_mul]

/-- unvectorising then vectorising -/
theorem vec_unvec {α : Type} [Zero α] {v : List α} {r c : Nat} {m : Arr2 α} (h : unvectorizeMatrix v (r, c) = .ok m) :
    vectorizeMatrix m = v ∧ m.r = r ∧ m.c = c := by
  unfold unvectorizeMatrix at h
  split at h
  · rename_i hl
    simp only at hl h
    cases h
    refine ⟨?_, rfl, rfl⟩
    refine vec_ext (r := r) (c := c) (by rw [vec_length]; rfl) (by rw [hl, Nat.mul_comm]) ?_
    intro i j hi hj
    have := vec_getD (Arr2.ofFn r c (fun i j => v.getD (j * r + i) 0)) (i := i) (j := j) hi hj
    rw [show (Arr2.ofFn r c (fun i j => v.getD (j * r + i) 0)).r = r from rfl, Arr2.ofFn_get _ hi hj] at this
    exact this
  · cases h

theorem unvec_vec {α : Type} [Zero α] (m : Arr2 α) : unvectorizeMatrix (vectorizeMatrix m) (m.r, m.c) = .ok m := by
  unfold unvectorizeMatrix
  rw [if_pos (by rw [vec_length, Nat.mul_comm])]
  congr 1
  refine Arr2.ext' rfl rfl ?_
  intro i j hi hj
  exact (Arr2.ofFn_get _ hi hj).trans (vec_getD m hi hj)

theorem vec_inj {α : Type} [Zero α] {A B : Arr2 α} (hr : A.r = B.r) (hc : A.c = B.c)
    (h : vectorizeMatrix A = vectorizeMatrix B) : A = B := by
  have h1 := unvec_vec A
  rw [h, hr, hc, unvec_vec B] at h1
  exact (Except.ok.inj h1).symm

theorem makeRealVector_length (v : List ℂ) : (makeRealVector v).length = 2 * v.length := by
  simp [makeRealVector]; omega

theorem makeRealVector_inj {u v : List ℂ} (h : makeRealVector u = makeRealVector v) : u = v := by
  have := C02_complex_of_real u
  rw [h, C02_complex_of_real v] at this
  exact (Except.ok.inj this).symm

/-- what `toMatrix` returns, whatever its argument: an admissible matrix -/
theorem toMatrix_admissible (lap : Bool) (n : Nat) {dt : Arr2 ℂ} (hdt : dtMatrix ℂ lap n = .ok dt) {y : List ℝ}
    {m : Arr2 ℂ} (h : toMatrix n dt y = .ok m) : Spec.IsSquare n m ∧ Spec.Admissible lap m := by
  obtain ⟨D, hD, hr, hc, hact⟩ := dt_closed (α := ℂ) lap n
  rw [hD] at hdt; cases hdt
  unfold toMatrix at h
  obtain ⟨v, hv, h⟩ := Prior.bind_ok h
  obtain ⟨w, hw, h⟩ := Prior.bind_ok h
  have hvl : v.length = nParams lap n := by
    have := (Arr2.mulVec_inv hw).1; omega
  obtain ⟨w', hw', hwl, h1, h2⟩ := hact v hvl
  rw [hw] at hw'; cases hw'
  obtain ⟨m', hm', hmr, hmc, hmg⟩ := unvec_ok w n hwl
  rw [h] at hm'; cases hm'
  have hsym : ∀ i j, i < n → j < n → m.get i j = m.get j i := by
    intro i j hi hj
    rw [hmg i j hi hj, hmg j i hj hi]
    cases lap with
    | false =>
      rw [h1 rfl j i hj hi, h1 rfl i j hi hj]
      unfold symPos; rw [min_comm, max_comm]
    | true =>
      by_cases hij : i = j
      · rw [hij]
      · rw [(h2 rfl).1 j i hj hi (Ne.symm hij), (h2 rfl).1 i j hi hj hij, offPos_comm]
  refine ⟨⟨hmr, hmc⟩, ⟨by omega, ?_⟩, ?_⟩
  · intro i j
    by_cases hij : i < n ∧ j < n
    · exact hsym i j hij.1 hij.2
    · rw [m.oob i j (by rw [hmr, hmc]; exact hij), m.oob j i (by rw [hmr, hmc]; tauto)]
  · intro hl i hi
    rw [hmr] at hi
    rw [hmc, ← Finset.add_sum_erase _ _ (Finset.mem_range.2 hi), hmg i i hi hi, (h2 hl).2 i hi, ← Finset.sum_add_distrib]
    apply Finset.sum_eq_zero
    intro k hk
    rw [Finset.mem_erase, Finset.mem_range] at hk
    rw [hmg i k hi hk.2, (h2 hl).1 k i hk.2 hi hk.1, offPos_comm, add_neg_cancel]

/-- number of real parameters -/
def nReal (lap : Bool) (n : Nat) : Nat := 2 * nParams lap n

/-- `toMatrix` on a parameter vector of the right length -/
theorem toMatrix_ok (lap : Bool) (n : Nat) {dt : Arr2 ℂ} (hdt : dtMatrix ℂ lap n = .ok dt) {y : List ℝ}
    (hy : y.length = nReal lap n) :
    ∃ m v, makeComplexVector y = .ok v ∧ makeRealVector v = y ∧ v.length = nParams lap n ∧
      dt.mulVec v = .ok (vectorizeMatrix m) ∧ toMatrix n dt y = .ok m := by
  obtain ⟨D, hD, hr, hc, hact⟩ := dt_closed (α := ℂ) lap n
  rw [hD] at hdt; cases hdt
  obtain ⟨v, hv, hvl, hvr⟩ := C02_real_of_complex y (by rw [hy]; exact even_two_mul _)
  have hvl : v.length = nParams lap n := by unfold nReal at hy; omega
  obtain ⟨w, hw, hwl, _⟩ := hact v hvl
  obtain ⟨m, hm, _⟩ := unvec_ok w n hwl
  refine ⟨m, v, hv, hvr, hvl, ?_, ?_⟩
  · rw [(vec_unvec hm).1]; exact hw
  · simp only [toMatrix, hv, hw, hm, bind, Except.bind]

/-- `toMatrix` is injective on parameter vectors -/
theorem toMatrix_inj (lap : Bool) (n : Nat) {dt : Arr2 ℂ} (hdt : dtMatrix ℂ lap n = .ok dt) {y y' : List ℝ} {m : Arr2 ℂ}
    (hy : y.length = nReal lap n) (hy' : y'.length = nReal lap n)
    (h : toMatrix n dt y = .ok m) (h' : toMatrix n dt y' = .ok m) : y = y' := by
  obtain ⟨m1, v, hv, hvr, hvl, hw, hm⟩ := toMatrix_ok lap n hdt hy
  obtain ⟨m2, v', hv', hvr', hvl', hw', hm'⟩ := toMatrix_ok lap n hdt hy'
  rw [h] at hm; cases hm
  rw [h'] at hm'; cases hm'
  obtain ⟨D, hD, hr, hc, hact⟩ := dt_closed (α := ℂ) lap n
  rw [hD] at hdt; cases hdt
  obtain ⟨w, hw1, hwl, h1, h2⟩ := hact v hvl
  obtain ⟨w', hw1', hwl', h1', h2'⟩ := hact v' hvl'
  rw [hw] at hw1; cases hw1
  rw [hw'] at hw1'; cases hw1'
  rw [← hvr, ← hvr']
  congr 1
  cases lap with
  | false =>
    refine vech_ext (n := n) hvl hvl' ?_
    intro a b hba ha
    rw [← h1 rfl a b ha (by omega), ← h1' rfl a b ha (by omega)]
  | true =>
    refine vel_ext (n := n) hvl hvl' ?_
    intro a b hba ha
    have e1 := (h2 rfl).1 a b ha (by omega) (by omega)
    have e2 := (h2' rfl).1 a b ha (by omega) (by omega)
    rw [e1] at e2
    exact neg_injective e2

/-- `toParams` of a square matrix, and the matrix of these parameters when the matrix is admissible -/
theorem toParams_ok (lap : Bool) (n : Nat) {dt e : Arr2 ℂ} (hdt : dtMatrix ℂ lap n = .ok dt)
    (he : eMatrix ℂ lap n = .ok e) {Y : Arr2 ℂ} (hY : Spec.IsSquare n Y) :
    ∃ p, toParams e Y = .ok p ∧ p.length = nReal lap n ∧ (Spec.Admissible lap Y → toMatrix n dt p = .ok Y) := by
  obtain ⟨E, hE, hEr, hEc, hEv⟩ := e_closed (α := ℂ) lap n
  obtain ⟨D, hD, hr, hc, hact⟩ := dt_closed (α := ℂ) lap n
  rw [hE] at he; cases he
  rw [hD] at hdt; cases hdt
  obtain ⟨v, hv, hvl, _⟩ := hEv (vectorizeMatrix Y) (by rw [vec_length, hY.1, hY.2, pow_two])
  refine ⟨makeRealVector v, by simp only [toParams, hv, bind, Except.bind, pure, Except.pure],
    by rw [makeRealVector_length, hvl]; rfl, ?_⟩
  intro hadm
  have hs := (C10_fixed_iff lap n Y hY).2 hadm
  obtain ⟨C, hC, _, _, hCv⟩ := Arr2.matmul_mulVec dt e (vectorizeMatrix Y) v (by omega) hv
  simp only [symmetrize, hD, hE, hC, hCv, bind, Except.bind] at hs
  simp only [toMatrix, C02_complex_of_real, bind, Except.bind]
  exact hs

/-- the regression matrix exists, has the expected shape, and maps parameters to the stacked product -/
theorem regressionMatrix_spec (lap : Bool) (n : Nat) {dt : Arr2 ℂ} (hdt : dtMatrix ℂ lap n = .ok dt) (x : Arr2 ℂ)
    (hx : x.c = n) :
    ∃ A, regressionMatrix n x dt = .ok A ∧ A.r = 2 * (n * x.r) ∧ A.c = nReal lap n ∧
      ∀ y m xm, y.length = nReal lap n → toMatrix n dt y = .ok m → x.matmul m = .ok xm →
        A.mulVec y = .ok (makeRealVector (vectorizeMatrix xm)) := by
  obtain ⟨D, hD, hr, hc, hact⟩ := dt_closed (α := ℂ) lap n
  have hdt' := hdt
  rw [hD] at hdt'; cases hdt'
  have hkc : ((Arr2.eye n : Arr2 ℂ).kron x).c = n ^ 2 := by
    show n * x.c = _; rw [hx, pow_two]
  have hKD := Arr2.matmul_ok ((Arr2.eye n : Arr2 ℂ).kron x) dt (by rw [hkc, hr])
  refine ⟨makeRealMatrix (Arr2.ofFn ((Arr2.eye n : Arr2 ℂ).kron x).r dt.c (((Arr2.eye n : Arr2 ℂ).kron x).mulGet dt)),
    by simp only [regressionMatrix, hKD, bind, Except.bind, pure, Except.pure], ?_, ?_, ?_⟩
  · show n * x.r + n * x.r = _; ring
  · show dt.c + dt.c = _; rw [hc]; unfold nReal; ring
  · intro y m xm hy hm hxm
    obtain ⟨m', v, hv, hvr, hvl, hw, hm'⟩ := toMatrix_ok lap n hdt hy
    rw [hm] at hm'; cases hm'
    obtain ⟨C, hC, _, _, hCv⟩ := Arr2.matmul_mulVec ((Arr2.eye n : Arr2 ℂ).kron x) dt v _ (by rw [hkc, hr]) hw
    rw [hKD] at hC; cases hC
    have hmsq := (toMatrix_admissible lap n hdt hm).1
    rw [kron_eye_mulVec x m xm n hx hmsq hxm] at hCv
    rw [← hvr]
    exact C04_mulVec _ _ _ hCv

/-- the quadratic form of the prior at `y`, its linear part and its penalty, for a prior usable with `N` parameters -/
structure UsablePrior (p : Prior) (N : Nat) : Prop where
  cons : Spec.Consistent p
  size : p.n = N
  rows : ¬ (p.sparseClass = true ∧ p.rows.length = 1)

theorem UsablePrior.log {p : Prior} {N : Nat} (h : UsablePrior p N) {y : List ℝ} (hy : y.length = N) (hN : N ≠ 1) :
    p.logDistribution y = .ok (Prior.quadA N p.alpha y (Spec.terms p), Prior.linB N p.alpha y (Spec.terms p),
      Prior.pen N p.alpha y (Spec.terms p)) := by
  rw [Prior.logDistribution_closed h.cons, if_neg, h.size]
  rintro (h1 | h1 | h1)
  · omega
  · rw [h.size] at h1; exact h1 hy
  · exact h.rows h1

theorem nReal_ne_one (lap : Bool) (n : Nat) : nReal lap n ≠ 1 := by unfold nReal; omega

/-- the linear system of one iteration -/
theorem regStep_system (solve : Solver) (cfg : RegConfig) (lap : Bool) (n : Nat) {dt : Arr2 ℂ}
    (hdt : dtMatrix ℂ lap n = .ok dt) {A : Arr2 ℝ} {m N : Nat} (hN : N = nReal lap n) (hA : A.r = m ∧ A.c = N)
    {b : List ℝ} (hb : b.length = m) (hp : UsablePrior cfg.prior N) (s : FitState) (hM : s.M.r = N ∧ s.M.c = N)
    (hmu : s.mu.length = N) :
    ∃ sys rhs, (sys.r = N ∧ sys.c = N) ∧ rhs.length = N ∧
      sys.toMat N N = (A.toMat m N).transpose * A.toMat m N + cfg.lam • s.M.toMat N N ∧
      toVec N rhs = (A.toMat m N).transpose.mulVec (toVec m b) + cfg.lam • toVec N s.mu ∧
      (∀ e, solve sys rhs = .error e → regStep solve cfg n dt A b s = .error e) ∧
      (∀ y, solve sys rhs = .ok y → y.length = N →
        ∃ ym, toMatrix n dt y = .ok ym ∧ regStep solve cfg n dt A b s =
          .ok (⟨ym, Prior.quadA N cfg.prior.alpha y (Spec.terms cfg.prior),
              Prior.linB N cfg.prior.alpha y (Spec.terms cfg.prior)⟩,
            |(toVec m b - (A.toMat m N).mulVec (toVec N y)) ⬝ᵥ (toVec m b - (A.toMat m N).mulVec (toVec N y))
              + cfg.lam * Prior.pen N cfg.prior.alpha y (Spec.terms cfg.prior)|)) := by
  obtain ⟨ata, hata, har, hac, hag⟩ := Arr2.matmul_mat (A := A.T) (B := A) (m := N) (k := m) (n := N) ⟨hA.2, hA.1⟩ hA
  obtain ⟨sys, hsys, hsr, hsc, hsg⟩ := Arr2.zipWith_mat (fun a b => a + cfg.lam * b) (A := ata) (B := s.M) ⟨har, hac⟩ hM
  obtain ⟨atb, hatb, hal, hat⟩ := Arr2.mulVec_mat (A := A.T) (v := b) (m := N) (k := m) ⟨hA.2, hA.1⟩ hb
  obtain ⟨rhs, hrhs, hrl, hrt⟩ := broadcast1_mat (fun p q => p + cfg.lam * q) (u := atb) (v := s.mu) hal hmu
  refine ⟨sys, rhs, ⟨hsr, hsc⟩, hrl, ?_, ?_, ?_, ?_⟩
  · rw [hsg, hag, Arr2.toMat_T]
    ext i j
    simp
  · rw [hrt, hat, Arr2.toMat_T]
    ext i
    simp
  · intro e he
    simp only [regStep, hata, addScaled, hsys, hatb, hrhs, he, bind, Except.bind]
  · intro y hy hyl
    obtain ⟨ym, v, _, _, _, _, hym⟩ := toMatrix_ok lap n hdt (y := y) (by omega)
    obtain ⟨ay, hay, hayl, hayt⟩ := Arr2.mulVec_mat (A := A) (v := y) hA hyl
    obtain ⟨db, hdb, hdl, hdt'⟩ := broadcast1_mat (fun p q => p - q) (u := b) (v := ay) hb hayl
    refine ⟨ym, hym, ?_⟩
    have hlog := hp.log hyl (by rw [hN]; exact nReal_ne_one lap n)
    simp only [regStep, hata, addScaled, hsys, hatb, hrhs, hy, hym, hlog, hay, hdb, bind, Except.bind, pure, Except.pure]
    rw [sqNorm_eq hdl, hdt', hayt]
    rfl

end
end Verif
