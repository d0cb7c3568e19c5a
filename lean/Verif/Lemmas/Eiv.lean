/-
The linear algebra of one iteration of the weighted error-in-variables regression.
-/
import Verif.Spec.Eiv
import Verif.Lemmas.RegObjective

namespace Verif
open Finset Matrix
noncomputable section

theorem stackReal_eq (D : Arr2 ℂ) : makeRealVector (vectorizeMatrix D) = Spec.stackReal D := by
  unfold makeRealVector vectorizeMatrix Spec.stackReal
  simp only [List.map_flatMap, List.map_map]
  rfl

theorem stackReal_length (D : Arr2 ℂ) : (Spec.stackReal D).length = 2 * (D.c * D.r) := by
  rw [← stackReal_eq, makeRealVector_length, vec_length]

theorem wquad_eq {m : Nat} {W : Arr2 ℝ} (hW : W.r = m ∧ W.c = m) (v : List ℝ) :
    Spec.wquad W v = toVec m v ⬝ᵥ (W.toMat m m).mulVec (toVec m v) := by
  unfold Spec.wquad
  rw [hW.1, hW.2, ← Fin.sum_univ_eq_sum_range (fun i => ∑ j ∈ range m, v.getD i 0 * W.get i j * v.getD j 0) m]
  apply Finset.sum_congr rfl
  intro i _
  rw [← Fin.sum_univ_eq_sum_range (fun j => v.getD (i : ℕ) 0 * W.get i j * v.getD j 0) m]
  show _ = v.getD i 0 * ∑ j : Fin m, W.get i j * v.getD j 0
  rw [Finset.mul_sum]
  apply Finset.sum_congr rfl
  intro j _; ring

theorem IsWeight.mat {m : Nat} {W : Arr2 ℝ} (h : Spec.IsWeight m W) :
    (W.toMat m m).transpose = W.toMat m m ∧ ∀ v : Fin m → ℝ, 0 ≤ v ⬝ᵥ (W.toMat m m).mulVec v := by
  refine ⟨by ext i j; exact h.symm j i, fun v => ?_⟩
  have := h.psd (ofVec v)
  rwa [wquad_eq ⟨h.rows, h.cols⟩, toVec_ofVec] at this

/-- `kron(Y, eye(T)) @ vec(X) = vec(X @ Y.T)` -/
theorem kron_mulVec_eye (Y X XY : Arr2 ℂ) (T : Nat) (hX : X.r = T ∧ X.c = Y.c) (h : X.matmul Y.T = .ok XY) :
    (Y.kron (Arr2.eye T)).mulVec (vectorizeMatrix X) = .ok (vectorizeMatrix XY) := by
  obtain ⟨h1, h2⟩ := hX
  rw [Arr2.matmul_ok X Y.T h2] at h
  have hXY := (Except.ok.inj h).symm
  have hr : XY.r = T := by rw [hXY]; exact h1
  have hc : XY.c = Y.r := by rw [hXY]; rfl
  have hkr : (Y.kron (Arr2.eye T : Arr2 ℂ)).r = Y.r * T := rfl
  have hkc : (Y.kron (Arr2.eye T : Arr2 ℂ)).c = Y.c * T := rfl
  obtain ⟨w, hw, hwl, hwg⟩ := Arr2.mulVec_ok (Y.kron (Arr2.eye T)) (vectorizeMatrix X)
    (by rw [vec_length, h1, h2, hkc])
  rw [hw]
  congr 1
  refine vec_ext (r := T) (c := Y.r) hwl (by rw [vec_length, hr, hc]) ?_
  intro t a ht ha
  have hpos : a * T + t < Y.r * T := mul_add_lt ha ht
  have hv := vec_getD XY (i := t) (j := a) (by omega) (by omega)
  rw [hr] at hv
  rw [hwg _ hpos, hv, hXY, Arr2.ofFn_get (r := X.r) (c := Y.T.c) _ (by omega) (by exact ha), Arr2.mulGet, hkc, sum_range_mul', h2]
  apply Finset.sum_congr rfl
  intro b hb
  have hb := Finset.mem_range.1 hb
  rw [Finset.sum_eq_single_of_mem t (Finset.mem_range.2 ht)]
  · have := Arr2.kron_get Y (Arr2.eye T : Arr2 ℂ) (i := a) (j := b) (i' := t) (j' := t) ha hb ht ht
    have e : (Arr2.eye T : Arr2 ℂ).r = T := rfl
    have e' : (Arr2.eye T : Arr2 ℂ).c = T := rfl
    rw [e, e'] at this
    have hx := vec_getD X (i := t) (j := b) (by omega) (by omega)
    rw [h1] at hx
    rw [this, hx, Arr2.eye, Arr2.ofFn_get _ ht ht, if_pos rfl, Arr2.T_get]; ring
  · intro k hk hkt
    have hk := Finset.mem_range.1 hk
    have := Arr2.kron_get Y (Arr2.eye T : Arr2 ℂ) (i := a) (j := b) (i' := t) (j' := k) ha hb ht hk
    have e : (Arr2.eye T : Arr2 ℂ).r = T := rfl
    have e' : (Arr2.eye T : Arr2 ℂ).c = T := rfl
    rw [e, e'] at this
    rw [this, Arr2.eye, Arr2.ofFn_get _ ht hk, if_neg (fun h => hkt h.symm), mul_zero, zero_mul]

theorem Arr2.map_get {α β : Type} [Zero α] [Zero β] (f : α → β) (hf : f 0 = 0) (A : Arr2 α) (i j : Nat) :
    (A.map f).get i j = f (A.get i j) := by
  unfold Arr2.map
  rw [Arr2.ofFn_get']
  split
  · rfl
  · rename_i h
    rw [A.oob i j h, hf]

/-- `underline_y` is the real form of `kron(Y, eye(T))` -/
theorem underlineY_eq (T : Nat) (Y : Arr2 ℂ) : underlineY T Y = .ok (makeRealMatrix (Y.kron (Arr2.eye T))) := by
  unfold underlineY Arr2.block
  dsimp only
  rw [if_pos ⟨rfl, rfl, rfl⟩]
  congr 1
  have hre : ∀ i j, ((Y.map Complex.re).kron (Arr2.eye T)).get i j = ((Y.kron (Arr2.eye T)).get i j).re := by
    intro i j
    unfold Arr2.kron
    simp only [Arr2.ofFn_get', Arr2.map_get Complex.re rfl, Arr2.eye, Arr2.ofFn_r, Arr2.ofFn_c, show (Y.map Complex.re).r = Y.r from rfl,
      show (Y.map Complex.re).c = Y.c from rfl]
    split_ifs <;> simp
  have him : ∀ i j, ((Y.map Complex.im).kron (Arr2.eye T)).get i j = ((Y.kron (Arr2.eye T)).get i j).im := by
    intro i j
    unfold Arr2.kron
    simp only [Arr2.ofFn_get', Arr2.map_get Complex.im rfl, Arr2.eye, Arr2.ofFn_r, Arr2.ofFn_c, show (Y.map Complex.im).r = Y.r from rfl,
      show (Y.map Complex.im).c = Y.c from rfl]
    split_ifs <;> simp
  have hneg : ∀ i j, (((Y.map Complex.im).kron (Arr2.eye T)).map (fun t : ℝ => -t)).get i j =
      -((Y.kron (Arr2.eye T)).get i j).im := by
    intro i j
    rw [← him]
    exact Arr2.map_get _ neg_zero _ _ _
  unfold makeRealMatrix
  refine Arr2.ext' rfl rfl ?_
  intro i j hi hj
  refine (Arr2.ofFn_get _ hi hj).trans (Eq.trans ?_ (Arr2.ofFn_get _ hi hj).symm)
  have e1 : ((Y.map Complex.re).kron (Arr2.eye T)).r = (Y.kron (Arr2.eye T)).r := rfl
  have e2 : ((Y.map Complex.re).kron (Arr2.eye T)).c = (Y.kron (Arr2.eye T)).c := rfl
  have e3 : ((Y.map Complex.im).kron (Arr2.eye T)).c = (Y.kron (Arr2.eye T)).c := rfl
  rw [e1, e2, e3]
  simp only [hre, him, hneg]

theorem underlineY_spec (T n : Nat) (Y : Arr2 ℂ) (hY : Y.r = n ∧ Y.c = n) :
    ∃ u, underlineY T Y = .ok u ∧ u.r = 2 * (n * T) ∧ u.c = 2 * (n * T) ∧
      ∀ X XY : Arr2 ℂ, X.r = T ∧ X.c = n → X.matmul Y.T = .ok XY →
        u.mulVec (Spec.stackReal X) = .ok (Spec.stackReal XY) := by
  refine ⟨_, underlineY_eq T Y, ?_, ?_, ?_⟩
  · show Y.r * T + Y.r * T = _; rw [hY.1]; ring
  · show Y.c * T + Y.c * T = _; rw [hY.2]; ring
  · intro X XY hX hXY
    rw [← stackReal_eq, ← stackReal_eq]
    exact C04_mulVec _ _ _ (kron_mulVec_eye Y X XY T ⟨hX.1, hX.2.trans hY.2.symm⟩ hXY)

/-- the system solved for the correction -/
theorem eivCorrection_system (solve : Solver) (T : Nat) {xW zW : Arr2 ℝ} {Y : Arr2 ℂ} {a b : List ℝ} {m : Nat} {u : Arr2 ℝ}
    (hu : underlineY T Y = .ok u) (hus : u.r = m ∧ u.c = m) (hxW : xW.r = m ∧ xW.c = m) (hzW : zW.r = m ∧ zW.c = m)
    (ha : a.length = m) (hb : b.length = m) :
    ∃ sys rhs, eivCorrection solve T xW zW Y a b = solve sys rhs ∧ (sys.r = m ∧ sys.c = m) ∧ rhs.length = m ∧
      sys.toMat m m = (u.toMat m m).transpose * zW.toMat m m * u.toMat m m + xW.toMat m m ∧
      toVec m rhs = ((u.toMat m m).transpose * zW.toMat m m).mulVec ((u.toMat m m).mulVec (toVec m a) - toVec m b) := by
  obtain ⟨uw, huw, h1, h2, h3⟩ := Arr2.matmul_mat (A := u.T) (B := zW) (m := m) (k := m) (n := m) ⟨hus.2, hus.1⟩ hzW
  obtain ⟨ysy, hysy, k1, k2, k3⟩ := Arr2.matmul_mat (A := uw) (B := u) (m := m) (k := m) (n := m) ⟨h1, h2⟩ hus
  obtain ⟨sys, hsys, s1, s2, s3⟩ := Arr2.zipWith_mat (fun p q : ℝ => p + q) (A := ysy) (B := xW) ⟨k1, k2⟩ hxW
  obtain ⟨v1, hv1, l1, t1⟩ := Arr2.mulVec_mat (A := ysy) (v := a) ⟨k1, k2⟩ ha
  obtain ⟨v2, hv2, l2, t2⟩ := Arr2.mulVec_mat (A := uw) (v := b) ⟨h1, h2⟩ hb
  obtain ⟨rhs, hrhs, l3, t3⟩ := broadcast1_mat (fun p q : ℝ => p - q) (u := v1) (v := v2) l1 l2
  refine ⟨sys, rhs, ?_, ⟨s1, s2⟩, l3, ?_, ?_⟩
  · simp only [eivCorrection, hu, huw, hysy, hsys, hv1, hv2, hrhs, bind, Except.bind]
  · rw [s3, k3, h3, Arr2.toMat_T]
    ext i j; simp
  · rw [t3, t1, t2, k3, h3, Arr2.toMat_T, mulVec_sub, mulVec_mulVec]
    ext i; simp

/-- symmetric positive semi-definite weights stay so in the normal equations -/
theorem wgram_symm {m N : Nat} (A : Matrix (Fin m) (Fin N) ℝ) (W : Matrix (Fin m) (Fin m) ℝ) (hW : W.transpose = W)
    (M : Matrix (Fin N) (Fin N) ℝ) (hM : M.transpose = M) :
    (A.transpose * W * A + M).transpose = A.transpose * W * A + M := by
  rw [transpose_add, transpose_mul, transpose_mul, transpose_transpose, hW, hM, Matrix.mul_assoc]

theorem wgram_quad {m N : Nat} (A : Matrix (Fin m) (Fin N) ℝ) (W : Matrix (Fin m) (Fin m) ℝ)
    (M : Matrix (Fin N) (Fin N) ℝ) (v : Fin N → ℝ) :
    v ⬝ᵥ (A.transpose * W * A + M).mulVec v = A.mulVec v ⬝ᵥ W.mulVec (A.mulVec v) + v ⬝ᵥ M.mulVec v := by
  rw [add_mulVec, dotProduct_add, Matrix.mul_assoc, ← mulVec_mulVec, ← mulVec_mulVec, dotProduct_mulVec v,
    ← mulVec_transpose, transpose_transpose]

/-- expansion of a weighted misfit -/
theorem wmisfit_expand {m N : Nat} (A : Matrix (Fin m) (Fin N) ℝ) (W : Matrix (Fin m) (Fin m) ℝ) (hW : W.transpose = W)
    (b : Fin m → ℝ) (v : Fin N → ℝ) :
    (b - A.mulVec v) ⬝ᵥ W.mulVec (b - A.mulVec v) =
      A.mulVec v ⬝ᵥ W.mulVec (A.mulVec v) - 2 * ((A.transpose * W).mulVec b ⬝ᵥ v) + b ⬝ᵥ W.mulVec b := by
  have e2 : (A.transpose * W).mulVec b ⬝ᵥ v = b ⬝ᵥ W.mulVec (A.mulVec v) := by
    rw [← mulVec_mulVec, mulVec_transpose, ← dotProduct_mulVec, dotProduct_comm, dotProduct_mulVec, ← mulVec_transpose, hW,
      dotProduct_comm, dotProduct_mulVec, ← mulVec_transpose, hW]
  have e3 : A.mulVec v ⬝ᵥ W.mulVec b = b ⬝ᵥ W.mulVec (A.mulVec v) := by
    rw [dotProduct_mulVec, ← mulVec_transpose, hW, dotProduct_comm]
  rw [e2, mulVec_sub, sub_dotProduct, dotProduct_sub, dotProduct_sub, e3]
  ring

end
end Verif
