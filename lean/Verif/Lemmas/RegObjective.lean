/-
Quadratic minimisation, misfit and penalties of one regression step in terms of matrices of the network.
-/
import Verif.Lemmas.Fit
import Verif.Lemmas.Majorize
import Mathlib.LinearAlgebra.FiniteDimensional.Basic

namespace Verif
open Finset Matrix
noncomputable section

/-- normal equations with a symmetric positive semi-definite matrix give a global minimiser -/
theorem quad_min {N : Nat} (S : Matrix (Fin N) (Fin N) ℝ) (hsym : S.transpose = S) (hpsd : ∀ v, 0 ≤ v ⬝ᵥ S.mulVec v)
    {y r : Fin N → ℝ} (h : S.mulVec y = r) (v : Fin N → ℝ) :
    y ⬝ᵥ S.mulVec y - 2 * (r ⬝ᵥ y) ≤ v ⬝ᵥ S.mulVec v - 2 * (r ⬝ᵥ v) := by
  have h0 := hpsd (v - y)
  have hc : y ⬝ᵥ S.mulVec v = v ⬝ᵥ S.mulVec y := by
    rw [dotProduct_mulVec, ← mulVec_transpose, hsym, dotProduct_comm]
  rw [mulVec_sub, sub_dotProduct, dotProduct_sub, dotProduct_sub, hc, h] at h0
  rw [h, dotProduct_comm r y, dotProduct_comm r v]
  linarith

/-- expansion of a least-squares misfit -/
theorem misfit_expand {m N : Nat} (A : Matrix (Fin m) (Fin N) ℝ) (b : Fin m → ℝ) (v : Fin N → ℝ) :
    (b - A.mulVec v) ⬝ᵥ (b - A.mulVec v) =
      v ⬝ᵥ (A.transpose * A).mulVec v - 2 * (A.transpose.mulVec b ⬝ᵥ v) + b ⬝ᵥ b := by
  have e1 : v ⬝ᵥ (A.transpose * A).mulVec v = A.mulVec v ⬝ᵥ A.mulVec v := by
    rw [← mulVec_mulVec, dotProduct_mulVec, ← mulVec_transpose, transpose_transpose]
  have e2 : A.transpose.mulVec b ⬝ᵥ v = b ⬝ᵥ A.mulVec v := by
    rw [mulVec_transpose, dotProduct_mulVec]
  rw [e1, e2, sub_dotProduct, dotProduct_sub, dotProduct_sub, dotProduct_comm (A.mulVec v) b]
  ring

/-- squared misfit of the data in matrix form -/
def Spec.misfit (x z Y : Arr2 ℂ) : ℝ :=
  ∑ j ∈ range z.c, ∑ i ∈ range z.r, Complex.normSq (z.get i j - ∑ k ∈ range x.c, x.get i k * Y.get k j)

/-- real parameters of a matrix: stacked triangle (negated off-diagonal triangle in Laplacian mode), real parts first -/
def Spec.params (lap : Bool) (n : Nat) (Y : Arr2 ℂ) : List ℝ :=
  let v := if lap then (Spec.vel n Y).map (fun t => -t) else Spec.vech n Y
  v.map Complex.re ++ v.map Complex.im

/-- smoothed objective of the regression -/
def Spec.objective (lap : Bool) (n : Nat) (p : Prior) (lam : ℝ) (x z Y : Arr2 ℂ) : ℝ :=
  Spec.misfit x z Y + lam *
    ((Spec.terms p).map (fun t => Spec.smooth p.alpha t.order (t.resid p.n (Spec.params lap n Y)))).sum

theorem params_of_toMatrix (lap : Bool) (n : Nat) {dt : Arr2 ℂ} (hdt : dtMatrix ℂ lap n = .ok dt) {y : List ℝ}
    {m : Arr2 ℂ} (hy : y.length = nReal lap n) (h : toMatrix n dt y = .ok m) : Spec.params lap n m = y := by
  obtain ⟨m', v, hv, hvr, hvl, hw, hm⟩ := toMatrix_ok lap n hdt hy
  rw [h] at hm; cases hm
  have hsq := (toMatrix_admissible lap n hdt h).1
  obtain ⟨D, hD, hr, hc, hact⟩ := dt_closed (α := ℂ) lap n
  rw [hD] at hdt; cases hdt
  obtain ⟨w, hw1, hwl, h1, h2⟩ := hact v hvl
  rw [hw] at hw1; cases hw1
  have hget : ∀ i j, i < n → j < n → (vectorizeMatrix m).getD (j * n + i) 0 = m.get i j := by
    intro i j hi hj
    have := vec_getD m (i := i) (j := j) (by rw [hsq.1]; exact hi) (by rw [hsq.2]; exact hj)
    rwa [hsq.1] at this
  rw [← hvr]
  unfold Spec.params makeRealVector
  have key : (if lap then (Spec.vel n m).map (fun t => -t) else Spec.vech n m) = v := by
    cases lap with
    | false =>
      refine vech_ext (n := n) (vech_length n m) hvl ?_
      intro a b hba ha
      show (Spec.vech n m).getD _ 0 = _
      rw [vech_getD n m hba ha, ← h1 rfl a b ha (by omega), hget b a (by omega) ha,
        (toMatrix_admissible false n hD h).2.1.2]
    | true =>
      refine vel_ext (n := n) (by simp [vel_length]) hvl ?_
      intro a b hba ha
      show ((Spec.vel n m).map (fun t => -t)).getD _ 0 = _
      have e := (h2 rfl).1 a b ha (by omega) (by omega)
      have e2 := vel_getD n m hba ha
      have e3 : ((Spec.vel n m).map (fun t => -t)).getD (offPos n a b) 0 = - (Spec.vel n m).getD (offPos n a b) 0 := by
        simp only [List.getD_eq_getElem?_getD, List.getElem?_map]
        cases (Spec.vel n m)[offPos n a b]? <;> simp
      rw [e3, e2, (toMatrix_admissible true n hD h).2.1.2, ← hget b a (by omega) ha, e, neg_neg]
  simp only [key]

theorem makeRealVector_dist (u v : List ℂ) (L : Nat) (hu : u.length = L) (hv : v.length = L) :
    (toVec (2 * L) (makeRealVector u) - toVec (2 * L) (makeRealVector v)) ⬝ᵥ
      (toVec (2 * L) (makeRealVector u) - toVec (2 * L) (makeRealVector v)) =
      ∑ k ∈ range L, Complex.normSq (u.getD k 0 - v.getD k 0) := by
  have hd : ∀ (w : List ℂ), w.length = L → ∀ k, k < L → (makeRealVector w).getD k 0 = (w.getD k 0).re ∧
      (makeRealVector w).getD (L + k) 0 = (w.getD k 0).im := by
    intro w hw k hk
    unfold makeRealVector
    constructor
    · simp only [List.getD_eq_getElem?_getD]
      rw [List.getElem?_append_left (by simp; omega)]
      simp [hw, hk]
    · simp only [List.getD_eq_getElem?_getD]
      rw [List.getElem?_append_right (by simp; omega)]
      simp [hw, hk]
  have e : (toVec (2 * L) (makeRealVector u) - toVec (2 * L) (makeRealVector v)) ⬝ᵥ
      (toVec (2 * L) (makeRealVector u) - toVec (2 * L) (makeRealVector v)) =
      ∑ k ∈ range (2 * L), ((makeRealVector u).getD k 0 - (makeRealVector v).getD k 0) *
        ((makeRealVector u).getD k 0 - (makeRealVector v).getD k 0) :=
    Fin.sum_univ_eq_sum_range (fun k => ((makeRealVector u).getD k 0 - (makeRealVector v).getD k 0) *
        ((makeRealVector u).getD k 0 - (makeRealVector v).getD k 0)) (2 * L)
  rw [e, show 2 * L = L + L by ring, Finset.sum_range_add, ← Finset.sum_add_distrib]
  apply Finset.sum_congr rfl
  intro k hk
  have hk := Finset.mem_range.1 hk
  rw [(hd u hu k hk).1, (hd v hv k hk).1, (hd u hu k hk).2, (hd v hv k hk).2, Complex.normSq_apply, Complex.sub_re,
    Complex.sub_im]

/-- the real least-squares misfit is the misfit of the data in matrix form -/
theorem real_misfit (lap : Bool) (n : Nat) {dt : Arr2 ℂ} (hdt : dtMatrix ℂ lap n = .ok dt) {x z : Arr2 ℂ} (hx : x.c = n)
    (hz : z.r = x.r ∧ z.c = n) {A : Arr2 ℝ} (hA : regressionMatrix n x dt = .ok A) {y : List ℝ} {Y : Arr2 ℂ}
    (hy : y.length = nReal lap n) (hY : toMatrix n dt y = .ok Y) :
    (toVec (2 * (n * x.r)) (makeRealVector (vectorizeMatrix z)) - (A.toMat (2 * (n * x.r)) (nReal lap n)).mulVec
        (toVec (nReal lap n) y)) ⬝ᵥ
      (toVec (2 * (n * x.r)) (makeRealVector (vectorizeMatrix z)) - (A.toMat (2 * (n * x.r)) (nReal lap n)).mulVec
        (toVec (nReal lap n) y)) = Spec.misfit x z Y := by
  obtain ⟨A', hA', har, hac, hact⟩ := regressionMatrix_spec lap n hdt x hx
  rw [hA] at hA'; cases hA'
  have hsq := (toMatrix_admissible lap n hdt hY).1
  have hxm := Arr2.matmul_ok x Y (by rw [hx, hsq.1])
  have hAy := hact y Y _ hy hY hxm
  obtain ⟨w, hw, hwl, hwt⟩ := Arr2.mulVec_mat (A := A) (v := y) ⟨har, hac⟩ hy
  rw [hAy] at hw; cases hw
  rw [← hwt, makeRealVector_dist _ _ (n * x.r) (by rw [vec_length, hz.1, hz.2])
    (by rw [vec_length]; show Y.c * x.r = _; rw [hsq.2])]
  unfold Spec.misfit
  rw [sum_range_mul', hz.1, hz.2]
  apply Finset.sum_congr rfl
  intro j hj
  apply Finset.sum_congr rfl
  intro i hi
  have hi := Finset.mem_range.1 hi
  have hj := Finset.mem_range.1 hj
  have e1 := vec_getD z (i := i) (j := j) (by omega) (by omega)
  rw [hz.1] at e1
  have e2 := vec_getD (Arr2.ofFn x.r Y.c (x.mulGet Y)) (i := i) (j := j) hi (by show j < Y.c; rw [hsq.2]; exact hj)
  rw [show (Arr2.ofFn x.r Y.c (x.mulGet Y)).r = x.r from rfl, Arr2.ofFn_get _ hi (by rw [hsq.2]; exact hj)] at e2
  rw [e1, e2]
  rfl

/-- a solver that only returns solutions -/
def Spec.Exact (solve : Solver) : Prop := ∀ S r y, solve S r = .ok y → S.mulVec y = .ok r

/-- a solver that succeeds on square systems without kernel -/
def Spec.Total (solve : Solver) : Prop :=
  ∀ (S : Arr2 ℝ) (r : List ℝ), S.r = r.length → S.c = r.length →
    (∀ v : List ℝ, v.length = r.length → S.mulVec v = .ok (List.replicate r.length 0) → v = List.replicate r.length 0) →
    ∃ y, solve S r = .ok y

open Classical in
/-- an exact solver -/
def exactSolve : Solver := fun S r =>
  if h : ∃ y, S.mulVec y = .ok r then .ok h.choose else .error .linAlgError

theorem exactSolve_exact : Spec.Exact exactSolve := by
  intro S r y h
  unfold exactSolve at h
  split at h
  · rename_i hex
    cases h
    exact hex.choose_spec
  · cases h

theorem toVec_replicate_zero (n : Nat) : toVec n (List.replicate n (0 : ℝ)) = 0 := by
  funext i
  show (List.replicate n (0 : ℝ)).getD i 0 = 0
  rw [List.getD_eq_getElem?_getD]
  simp

/-- a square system without kernel has a solution -/
theorem square_solvable (S : Arr2 ℝ) (r : List ℝ) (h1 : S.r = r.length) (h2 : S.c = r.length)
    (hk : ∀ v : List ℝ, v.length = r.length → S.mulVec v = .ok (List.replicate r.length 0) →
      v = List.replicate r.length 0) : ∃ y, S.mulVec y = .ok r := by
  set N := r.length with hN
  have hinj : Function.Injective (S.toMat N N).mulVec := by
    have : Function.Injective (S.toMat N N).mulVecLin := by
      rw [← LinearMap.ker_eq_bot, LinearMap.ker_eq_bot']
      intro v hv
      obtain ⟨w, hw, hwl, hwt⟩ := Arr2.mulVec_mat (A := S) (v := ofVec v) ⟨h1, h2⟩ (ofVec_length v)
      have : w = List.replicate N 0 := by
        apply toVec_inj hwl (by simp)
        rw [hwt, toVec_ofVec, toVec_replicate_zero]
        exact hv
      have h := hk (ofVec v) (ofVec_length v) (by rw [hw, this])
      have h' := congrArg (toVec N) h
      rwa [toVec_ofVec, toVec_replicate_zero] at h'
    exact this
  have hsurj : Function.Surjective (S.toMat N N).mulVecLin :=
    LinearMap.injective_iff_surjective.1 hinj
  obtain ⟨y, hy⟩ := hsurj (toVec N r)
  refine ⟨ofVec y, ?_⟩
  obtain ⟨w, hw, hwl, hwt⟩ := Arr2.mulVec_mat (A := S) (v := ofVec y) ⟨h1, h2⟩ (ofVec_length y)
  rw [hw]
  congr 1
  apply toVec_inj hwl hN.symm
  rw [hwt, toVec_ofVec]
  exact hy

theorem exactSolve_total : Spec.Total exactSolve := by
  intro S r h1 h2 hk
  have h := square_solvable S r h1 h2 hk
  exact ⟨h.choose, by unfold exactSolve; rw [dif_pos h]⟩

/-- the hypotheses shared by the statements on the fitted values -/
structure FitSetup (lap : Bool) (n : Nat) (cfg : RegConfig) (x z yInit : Arr2 ℂ) : Prop where
  dt : cfg.dt = dtMatrix ℂ lap
  e : cfg.e = eMatrix ℂ lap
  xc : x.c = n
  zs : z.r = x.r ∧ z.c = n
  init : Spec.IsSquare n yInit
  prior : UsablePrior cfg.prior (nReal lap n)
  alpha : 0 < cfg.prior.alpha

/-- state whose quadratic model was computed at `y` -/
def StateAt (p : Prior) (N : Nat) (y : List ℝ) (s : FitState) : Prop :=
  y.length = N ∧ s.M = Prior.quadA N p.alpha y (Spec.terms p) ∧ s.mu = Prior.linB N p.alpha y (Spec.terms p)

theorem setup_ok {lap : Bool} {n : Nat} {cfg : RegConfig} {x z yInit : Arr2 ℂ} (h : FitSetup lap n cfg x z yInit)
    (solve : Solver) :
    ∃ dt A y0 s, dtMatrix ℂ lap n = .ok dt ∧ regressionMatrix n x dt = .ok A ∧
      (A.r = 2 * (n * x.r) ∧ A.c = nReal lap n) ∧ StateAt cfg.prior (nReal lap n) y0 s ∧ s.yMat = yInit ∧
      toMatrix n dt y0 = .ok (Spec.projection lap n yInit) ∧
      ∀ obj, bayesianFit solve cfg obj x z yInit = finishFit obj
        (fitLoop cfg (regStep solve cfg n dt A (makeRealVector (vectorizeMatrix z))) cfg.maxIter 0 s obj.iterations) := by
  obtain ⟨dt, hdt, _⟩ := dt_closed (α := ℂ) lap n
  obtain ⟨e, he, her, hec, hev⟩ := e_closed (α := ℂ) lap n
  obtain ⟨A, hA, har, hac, _⟩ := regressionMatrix_spec lap n hdt x h.xc
  obtain ⟨y0, hy0, hy0l, _⟩ := toParams_ok lap n hdt he h.init
  have hlog := h.prior.log hy0l (nReal_ne_one lap n)
  refine ⟨dt, A, y0, ⟨yInit, Prior.quadA (nReal lap n) cfg.prior.alpha y0 (Spec.terms cfg.prior),
      Prior.linB (nReal lap n) cfg.prior.alpha y0 (Spec.terms cfg.prior)⟩, hdt, hA, ⟨har, hac⟩, ⟨hy0l, rfl, rfl⟩, rfl, ?_, ?_⟩
  · have hs := C10_projection lap n yInit h.init
    have hy0' := hy0
    unfold toParams at hy0'
    obtain ⟨v, hv, hy0'⟩ := Prior.bind_ok hy0'
    cases hy0'
    obtain ⟨D, hD, hr, hc, _⟩ := dt_closed (α := ℂ) lap n
    rw [hD] at hdt; cases hdt
    obtain ⟨C, hC, _, _, hCv⟩ := Arr2.matmul_mulVec dt e (vectorizeMatrix yInit) v (by omega) hv
    simp only [symmetrize, hD, he, hC, hCv, bind, Except.bind] at hs
    simp only [toMatrix, C02_complex_of_real, bind, Except.bind]
    exact hs
  · intro obj
    unfold bayesianFit
    simp only [h.dt, h.e, h.xc, hdt, he, hA, hy0, hlog, bind, Except.bind, pure, Except.pure]

/-- one step from a state whose quadratic model was computed at `y`: the new parameters solve the normal equations -/
theorem step_at {lap : Bool} {n : Nat} {cfg : RegConfig} {x z yInit : Arr2 ℂ} (h : FitSetup lap n cfg x z yInit)
    {solve : Solver} (hex : Spec.Exact solve) {dt : Arr2 ℂ} (hdt : dtMatrix ℂ lap n = .ok dt) {A : Arr2 ℝ} {m : Nat}
    (hA : A.r = m ∧ A.c = nReal lap n) {b : List ℝ} (hb : b.length = m) {y : List ℝ} {s s' : FitState} {t : ℝ}
    (hs : StateAt cfg.prior (nReal lap n) y s) (hstep : regStep solve cfg n dt A b s = .ok (s', t)) :
    ∃ y', StateAt cfg.prior (nReal lap n) y' s' ∧ toMatrix n dt y' = .ok s'.yMat ∧
      ((A.toMat m (nReal lap n)).transpose * A.toMat m (nReal lap n) +
        cfg.lam • s.M.toMat (nReal lap n) (nReal lap n)).mulVec (toVec (nReal lap n) y') =
      (A.toMat m (nReal lap n)).transpose.mulVec (toVec m b) + cfg.lam • toVec (nReal lap n) s.mu := by
  obtain ⟨hyl, hM, hmu⟩ := hs
  obtain ⟨sys, rhs, hsh, hrl, hsm, hrv, herr, hok⟩ := regStep_system solve cfg lap n hdt rfl hA hb h.prior s
    (by rw [hM]; exact ⟨rfl, rfl⟩) (by rw [hmu]; simp [Prior.linB])
  cases hsol : solve sys rhs with
  | error e => rw [herr e hsol] at hstep; cases hstep
  | ok y' =>
    have hex' := hex _ _ _ hsol
    obtain ⟨h1, h2, h3⟩ := Arr2.mulVec_inv hex'
    have hy'l : y'.length = nReal lap n := by rw [← h1, hsh.2]
    obtain ⟨ym, hym, hst⟩ := hok y' hsol hy'l
    rw [hst] at hstep
    cases hstep
    refine ⟨y', ⟨hy'l, rfl, rfl⟩, hym, ?_⟩
    rw [← hsm, ← hrv, h3, hsh.2]

end
end Verif
