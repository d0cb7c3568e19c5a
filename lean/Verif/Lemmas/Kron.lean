/-
Linear algebra of Kron reduction; existence and uniqueness of pseudo-inverses.
-/
import Verif.Model.Kron
import Verif.Spec.Kron
import Verif.Lemmas.PySet
import Mathlib.LinearAlgebra.Matrix.ToLinearEquiv
import Mathlib.Analysis.Matrix.Spectrum
import Mathlib.LinearAlgebra.Matrix.DotProduct
import Mathlib.Analysis.Complex.Order

namespace Verif
open Matrix Finset ComplexOrder
noncomputable section

/-! ### pseudo-inverses -/

theorem mp_unique {m n : Type} [Fintype m] [Fintype n] {M : Matrix m n ℂ} {P Q : Matrix n m ℂ}
    (p1 : M * P * M = M) (p2 : P * M * P = P) (p3 : (M * P)ᴴ = M * P) (p4 : (P * M)ᴴ = P * M)
    (q1 : M * Q * M = M) (q2 : Q * M * Q = Q) (q3 : (M * Q)ᴴ = M * Q) (q4 : (Q * M)ᴴ = Q * M) : P = Q := by
  have h1 : M * P = M * Q := by
    have : M * P = (M * Q) * (M * P) := by rw [← Matrix.mul_assoc, q1]
    have h := congrArg conjTranspose this
    rw [p3, conjTranspose_mul, p3, q3, ← Matrix.mul_assoc, p1] at h
    exact h
  have h2 : P * M = Q * M := by
    have : P * M = (P * M) * (Q * M) := by rw [Matrix.mul_assoc, ← Matrix.mul_assoc M Q M, q1]
    have h := congrArg conjTranspose this
    rw [p4, conjTranspose_mul, p4, q4, Matrix.mul_assoc, ← Matrix.mul_assoc M P M, p1] at h
    exact h
  rw [← p2, h2, Matrix.mul_assoc, h1, ← Matrix.mul_assoc, q2]

theorem eq_zero_of_gram {m n : Type} [Fintype m] [Fintype n] (A : Matrix m n ℂ) {k : Type} [Fintype k] (B : Matrix n k ℂ)
    (h : Aᴴ * A * B = 0) : A * B = 0 := by
  have : (A * B)ᴴ * (A * B) = 0 := by
    rw [conjTranspose_mul, Matrix.mul_assoc, ← Matrix.mul_assoc Aᴴ A B, h, Matrix.mul_zero]
  exact conjTranspose_mul_self_eq_zero.1 this

theorem mp_exists {m n : Type} [Fintype m] [Fintype n] [DecidableEq m] [DecidableEq n] (A : Matrix m n ℂ) :
    ∃ P : Matrix n m ℂ, A * P * A = A ∧ P * A * P = P ∧ (A * P)ᴴ = A * P ∧ (P * A)ᴴ = P * A := by
  have hH : (Aᴴ * A).IsHermitian := isHermitian_conjTranspose_mul_self A
  -- generalised inverse of the Gram matrix from its spectral decomposition
  obtain ⟨G, hG1, hG2, hG3⟩ : ∃ G : Matrix n n ℂ, Gᴴ = G ∧ (Aᴴ * A) * G * (Aᴴ * A) = Aᴴ * A ∧
      G * (Aᴴ * A) * G = G ∧ G * (Aᴴ * A) = Aᴴ * A * G := by
    let U : Matrix n n ℂ := (hH.eigenvectorUnitary : Matrix n n ℂ)
    have hUU : Uᴴ * U = 1 := by
      have := (mem_unitaryGroup_iff' (A := U)).1 hH.eigenvectorUnitary.2
      rwa [star_eq_conjTranspose] at this
    let d : n → ℂ := fun i => ((hH.eigenvalues i : ℝ) : ℂ)
    have hS : Aᴴ * A = U * diagonal d * Uᴴ := by
      have := hH.spectral_theorem
      rw [Unitary.conjStarAlgAut_apply] at this
      exact this
    have hdiag : ∀ (a b : n → ℂ), (U * diagonal a * Uᴴ) * (U * diagonal b * Uᴴ) = U * diagonal (fun i => a i * b i) * Uᴴ := by
      intro a b
      calc (U * diagonal a * Uᴴ) * (U * diagonal b * Uᴴ) = U * diagonal a * (Uᴴ * U) * diagonal b * Uᴴ := by
            simp only [Matrix.mul_assoc]
        _ = U * diagonal (fun i => a i * b i) * Uᴴ := by
            rw [hUU, Matrix.mul_one, Matrix.mul_assoc U, diagonal_mul_diagonal]
    refine ⟨U * diagonal (fun i => (d i)⁻¹) * Uᴴ, ?_, ?_, ?_, ?_⟩
    · rw [conjTranspose_mul, conjTranspose_mul, conjTranspose_conjTranspose, diagonal_conjTranspose, ← Matrix.mul_assoc]
      congr 3
      funext i
      simp [d]
    · rw [hS, hdiag, hdiag]
      congr 3
      funext i
      by_cases h0 : d i = 0
      · simp [h0]
      · field_simp
    · rw [hS, hdiag, hdiag]
      congr 3
      funext i
      by_cases h0 : d i = 0
      · simp [h0]
      · field_simp
    · rw [hS, hdiag, hdiag]
      congr 3
      funext i
      exact mul_comm _ _
  have hAG : A * G * (Aᴴ * A) = A := by
    have h0 : A * (G * (Aᴴ * A) - 1) = 0 := by
      apply eq_zero_of_gram
      rw [Matrix.mul_sub, Matrix.mul_one, ← Matrix.mul_assoc (Aᴴ * A) G, hG2, sub_self]
    rw [Matrix.mul_sub, Matrix.mul_one, sub_eq_zero] at h0
    rw [Matrix.mul_assoc]; exact h0
  have hGA : (Aᴴ * A) * G * Aᴴ = Aᴴ := by
    have := congrArg conjTranspose hAG
    rw [conjTranspose_mul, conjTranspose_mul, conjTranspose_mul, conjTranspose_conjTranspose, hG1, ← Matrix.mul_assoc] at this
    exact this
  refine ⟨G * Aᴴ, ?_, ?_, ?_, ?_⟩
  · rw [← Matrix.mul_assoc, Matrix.mul_assoc (A * G)]; exact hAG
  · calc G * Aᴴ * A * (G * Aᴴ) = G * (Aᴴ * A) * G * Aᴴ := by simp only [Matrix.mul_assoc]
      _ = G * Aᴴ := by rw [hG3.1]
  · rw [conjTranspose_mul, conjTranspose_mul, conjTranspose_conjTranspose, hG1, Matrix.mul_assoc]
  · rw [Matrix.mul_assoc, conjTranspose_mul, hG1, conjTranspose_mul, conjTranspose_conjTranspose, hG3.2]

theorem pseudoInverse_exists' (x : Arr2 ℂ) : ∃ p, Spec.PseudoInverse x p := by
  obtain ⟨P, h1, h2, h3, h4⟩ := mp_exists (x.toMat x.r x.c)
  exact ⟨Arr2.ofMat P, rfl, rfl, by rw [Arr2.toMat_ofMat]; exact h1, by rw [Arr2.toMat_ofMat]; exact h2,
    by rw [Arr2.toMat_ofMat]; exact h3, by rw [Arr2.toMat_ofMat]; exact h4⟩

theorem pseudoInverse_unique {x p q : Arr2 ℂ} (hp : Spec.PseudoInverse x p) (hq : Spec.PseudoInverse x q) : p = q :=
  Arr2.toMat_inj ⟨hp.rows, hp.cols⟩ ⟨hq.rows, hq.cols⟩
    (mp_unique hp.xpx hp.pxp hp.herm_xp hp.herm_px hq.xpx hq.pxp hq.herm_xp hq.herm_px)

/-- the exact pseudo-inverse -/
def exactPinv (x : Arr2 ℂ) : Except PyErr (Arr2 ℂ) := .ok (pseudoInverse_exists' x).choose

theorem exactPinv_contract : Spec.PinvContract exactPinv :=
  fun m => ⟨_, rfl, (pseudoInverse_exists' m).choose_spec⟩

/-! ### the eliminated block -/

/-- a generalised inverse of a block listed with repetitions acts as the inverse of the block -/
theorem kron_core {m : ℕ} (e : Fin m → ℕ) {S : Finset ℕ} (heS : ∀ i, e i ∈ S) (hSe : ∀ s ∈ S, ∃ i, e i = s) {y : Arr2 ℂ}
    (hy : Spec.BlockNonsingular y S) {P : Matrix (Fin m) (Fin m) ℂ}
    (hP : (Matrix.of fun i j => y.get (e i) (e j)) * P * (Matrix.of fun i j => y.get (e i) (e j)) =
      (Matrix.of fun i j => y.get (e i) (e j))) (x : Fin m → ℂ) (f : ℕ → ℂ) :
    ∑ i, ((x ᵥ* (Matrix.of fun i j => y.get (e i) (e j))) ᵥ* P) i * f (e i) = ∑ i, x i * f (e i) := by
  set M : Matrix (Fin m) (Fin m) ℂ := Matrix.of fun i j => y.get (e i) (e j) with hM
  set z := (x ᵥ* M) ᵥ* P with hz
  have hzM : z ᵥ* M = x ᵥ* M := by
    rw [hz, Matrix.vecMul_vecMul, Matrix.vecMul_vecMul, ← Matrix.mul_assoc, hP]
  have hfib : ∀ g : ℕ → ℂ, ∑ i, (z i - x i) * g (e i) = ∑ s ∈ S, (∑ i with e i = s, (z i - x i)) * g s := by
    intro g
    rw [← Finset.sum_fiberwise_of_maps_to (s := Finset.univ) (t := S) (g := e) (fun i _ => heS i)]
    apply Finset.sum_congr rfl
    intro s _
    rw [Finset.sum_mul]
    apply Finset.sum_congr rfl
    intro i hi
    rw [(Finset.mem_filter.1 hi).2]
  have hu := hy (fun s => ∑ i with e i = s, (z i - x i)) (by
    intro t ht
    obtain ⟨j, rfl⟩ := hSe t ht
    rw [← hfib (fun s => y.get s (e j))]
    have := congrFun hzM j
    simp only [Matrix.vecMul, dotProduct, hM, Matrix.of_apply] at this
    simp only [sub_mul, Finset.sum_sub_distrib]
    rw [this, sub_self])
  have h0 : ∑ i, (z i - x i) * f (e i) = 0 := by
    rw [hfib f]
    apply Finset.sum_eq_zero
    intro s hs
    rw [hu s hs, zero_mul]
  simp only [sub_mul, Finset.sum_sub_distrib, sub_eq_zero] at h0
  exact h0

/-- weights on the listed positions that sum to given weights on the nodes -/
theorem exists_weights {m : ℕ} (e : Fin m → ℕ) {S : Finset ℕ} (heS : ∀ i, e i ∈ S) (hSe : ∀ s ∈ S, ∃ i, e i = s) (v : ℕ → ℂ) :
    ∃ x : Fin m → ℂ, ∀ f : ℕ → ℂ, ∑ i, x i * f (e i) = ∑ s ∈ S, v s * f s := by
  classical
  by_cases hm : m = 0
  · subst hm
    refine ⟨fun _ => 0, fun f => ?_⟩
    have : S = ∅ := by
      rw [Finset.eq_empty_iff_forall_notMem]
      intro s hs
      obtain ⟨i, _⟩ := hSe s hs
      exact i.elim0
    simp [this]
  have : Nonempty (Fin m) := ⟨⟨0, by omega⟩⟩
  let g : ℕ → Fin m := fun s => if h : ∃ i, e i = s then h.choose else Classical.arbitrary _
  have hg : ∀ s ∈ S, e (g s) = s := by
    intro s hs
    have h := hSe s hs
    simp only [g, dif_pos h]
    exact h.choose_spec
  refine ⟨fun i => if g (e i) = i then v (e i) else 0, fun f => ?_⟩
  rw [← Finset.sum_fiberwise_of_maps_to (s := Finset.univ) (t := S) (g := e) (fun i _ => heS i)]
  apply Finset.sum_congr rfl
  intro s hs
  rw [Finset.sum_eq_single (g s)]
  · simp [hg s hs]
  · intro i hi hne
    have hes := (Finset.mem_filter.1 hi).2
    subst hes
    show (if g (e i) = i then v (e i) else 0) * f (e i) = 0
    rw [if_neg (fun h => hne h.symm), zero_mul]
  · intro h
    exact absurd (by simp [hg s hs]) h

/-- currents into an invertible block can be prescribed -/
theorem block_solve {y : Arr2 ℂ} {S : Finset ℕ} (hy : Spec.BlockNonsingular y S) (w : ℕ → ℂ) :
    ∃ u : ℕ → ℂ, ∀ j ∈ S, ∑ i ∈ S, u i * y.get i j = w j := by
  classical
  let A : Matrix S S ℂ := Matrix.of fun i j => y.get i j
  have hsum : ∀ (u : S → ℂ) (j : ℕ), ∑ i ∈ S, (if h : i ∈ S then u ⟨i, h⟩ else 0) * y.get i j = ∑ i : S, u i * y.get i j := by
    intro u j
    rw [← Finset.sum_coe_sort S]
    apply Finset.sum_congr rfl
    intro i _
    rw [dif_pos i.2]
  have hdet : A.det ≠ 0 := by
    intro h0
    obtain ⟨u, hu, hu0⟩ := Matrix.exists_vecMul_eq_zero_iff.2 h0
    apply hu
    funext i
    have := hy (fun i => if h : i ∈ S then u ⟨i, h⟩ else 0) (by
      intro j hj
      rw [hsum]
      exact congrFun hu0 ⟨j, hj⟩) i i.2
    simpa using this
  have hunit : IsUnit A.det := isUnit_iff_ne_zero.2 hdet
  let u : S → ℂ := (fun j : S => w j) ᵥ* A⁻¹
  refine ⟨fun i => if h : i ∈ S then u ⟨i, h⟩ else 0, ?_⟩
  intro j hj
  rw [hsum]
  have : u ᵥ* A = fun j : S => w j := by
    simp only [u]
    rw [Matrix.vecMul_vecMul, Matrix.nonsing_inv_mul _ hunit, Matrix.vecMul_one]
  exact congrFun this ⟨j, hj⟩

/-! ### splitting sums over kept and eliminated nodes -/

theorem sum_lists {n : ℕ} {S : Finset ℕ} (hS : ∀ s ∈ S, s < n) {K : List ℕ} (hK : Spec.Lists n S K) (f : ℕ → ℂ) :
    ∑ i ∈ range n, f i = ∑ a ∈ range K.length, f (K.getD a 0) + ∑ s ∈ S, f s := by
  have h1 : ∑ a ∈ range K.length, f (K.getD a 0) = ∑ k ∈ K.toFinset, f k := by
    rw [List.sum_toFinset _ hK.1, ← list_sum_map_range]
    congr 1
    apply List.ext_getElem
    · simp
    · intro a h1 h2
      have : a < K.length := by simpa using h1
      simp [this]
  have h2 : range n = K.toFinset ∪ S := by
    ext k
    simp only [Finset.mem_range, Finset.mem_union, List.mem_toFinset, hK.2]
    constructor
    · intro h
      by_cases hs : k ∈ S
      · exact Or.inr hs
      · exact Or.inl ⟨h, hs⟩
    · rintro (h | h)
      · exact h.1
      · exact hS k h
  have h3 : Disjoint K.toFinset S := by
    rw [Finset.disjoint_left]
    intro k hk
    exact ((hK.2 k).1 (List.mem_toFinset.1 hk)).2
  rw [h1, h2, Finset.sum_union h3]

theorem lists_kept (n : ℕ) (idx : List ℕ) : Spec.Lists n idx.toFinset (PySet.kept n idx) := by
  refine ⟨(PySet.kept_sorted n idx).imp (fun h => by omega), fun k => ?_⟩
  simp [PySet.kept]

theorem lists_complement (n : ℕ) (idx : List ℕ) : Spec.Lists n idx.toFinset (PySet.complement n idx) := by
  have hp := PySet.complement_perm n idx
  exact ⟨hp.nodup_iff.2 (lists_kept n idx).1, fun k => hp.mem_iff.trans ((lists_kept n idx).2 k)⟩

/-! ### the model -/

/-- the model's result, entry by entry -/
theorem kronReduction_ok {pinv : Arr2 ℂ → Except PyErr (Arr2 ℂ)} (hpinv : Spec.PinvContract pinv) {y : Arr2 ℂ}
    (hy : y.c = y.r) {idx : List ℕ} (hidx : ∀ k ∈ idx, k < y.r) :
    ∃ red, kronReduction pinv idx y = .ok red ∧ red.r = (PySet.complement y.r idx).length ∧
      red.c = (PySet.complement y.r idx).length ∧
      ∃ m p, y.take idx idx = .ok m ∧ Spec.PseudoInverse m p ∧ pinv m = .ok p ∧ m.r = idx.length ∧ m.c = idx.length ∧
        m.toMat idx.length idx.length = Matrix.of (fun i j : Fin idx.length => y.get (idx.getD i 0) (idx.getD j 0)) ∧
        ∀ a b, a < red.r → b < red.r → red.get a b =
          y.get ((PySet.complement y.r idx).getD a 0) ((PySet.complement y.r idx).getD b 0) -
          ∑ j : Fin idx.length, ((fun i : Fin idx.length => y.get ((PySet.complement y.r idx).getD a 0) (idx.getD i 0)) ᵥ*
            p.toMat idx.length idx.length) j * y.get (idx.getD j 0) ((PySet.complement y.r idx).getD b 0) := by
  set K := PySet.complement y.r idx with hKdef
  have hK : ∀ k ∈ K, k < y.r := fun k hk => (((lists_complement y.r idx).2 k).1 hk).1
  obtain ⟨a, ha⟩ : ∃ a, a = Arr2.ofFn K.length K.length (fun i j => y.get (K.getD i 0) (K.getD j 0)) := ⟨_, rfl⟩
  obtain ⟨b, hb⟩ : ∃ b, b = Arr2.ofFn K.length idx.length (fun i j => y.get (K.getD i 0) (idx.getD j 0)) := ⟨_, rfl⟩
  obtain ⟨m, hm⟩ : ∃ m, m = Arr2.ofFn idx.length idx.length (fun i j => y.get (idx.getD i 0) (idx.getD j 0)) := ⟨_, rfl⟩
  obtain ⟨c, hc⟩ : ∃ c, c = Arr2.ofFn idx.length K.length (fun i j => y.get (idx.getD i 0) (K.getD j 0)) := ⟨_, rfl⟩
  have ha' : y.take K K = .ok a := by rw [ha]; exact if_pos ⟨hK, by rw [hy]; exact hK⟩
  have hb' : y.take K idx = .ok b := by rw [hb]; exact if_pos ⟨hK, by rw [hy]; exact hidx⟩
  have hm' : y.take idx idx = .ok m := by rw [hm]; exact if_pos ⟨hidx, by rw [hy]; exact hidx⟩
  have hc' : y.take idx K = .ok c := by rw [hc]; exact if_pos ⟨hidx, by rw [hy]; exact hK⟩
  have har : a.r = K.length ∧ a.c = K.length := by rw [ha]; exact ⟨rfl, rfl⟩
  have hbr : b.r = K.length ∧ b.c = idx.length := by rw [hb]; exact ⟨rfl, rfl⟩
  have hmr : m.r = idx.length ∧ m.c = idx.length := by rw [hm]; exact ⟨rfl, rfl⟩
  have hcr : c.r = idx.length ∧ c.c = K.length := by rw [hc]; exact ⟨rfl, rfl⟩
  obtain ⟨p, hp, hpi⟩ := hpinv m
  have hpr : p.r = idx.length ∧ p.c = idx.length := ⟨hpi.rows.trans hmr.2, hpi.cols.trans hmr.1⟩
  obtain ⟨bp, hbp, hbpr, hbpc, hbpm⟩ := Arr2.matmul_mat hbr hpr
  obtain ⟨bpc, hbpc', hbpcr, hbpcc, hbpcm⟩ := Arr2.matmul_mat ⟨hbpr, hbpc⟩ hcr
  obtain ⟨red, hred, hredr, hredc, hredm⟩ := Arr2.zipWith_mat (· - ·) har ⟨hbpcr, hbpcc⟩
  refine ⟨red, ?_, hredr, hredc, m, p, hm', hpi, hp, hmr.1, hmr.2, ?_, ?_⟩
  · simp only [kronReduction, ← hKdef, ha', hb', hm', hp, hbp, hc', hbpc', hred, bind, Except.bind]
  · ext i j
    rw [hm]
    exact Arr2.ofFn_get _ i.2 j.2
  · intro s t hs ht
    rw [hredr] at hs ht
    have e1 : red.get s t = a.get s t - bpc.get s t := congrFun (congrFun hredm ⟨s, hs⟩) ⟨t, ht⟩
    have e2 : bpc.get s t = (bp.toMat K.length idx.length * c.toMat idx.length K.length) ⟨s, hs⟩ ⟨t, ht⟩ :=
      congrFun (congrFun hbpcm ⟨s, hs⟩) ⟨t, ht⟩
    rw [e1, ha, Arr2.ofFn_get _ hs ht, e2, hbpm, Matrix.mul_apply]
    congr 1
    apply Finset.sum_congr rfl
    intro j _
    have e3 : c.toMat idx.length K.length j ⟨t, ht⟩ = y.get (idx.getD j 0) (K.getD t 0) := by
      show c.get j t = _
      rw [hc, Arr2.ofFn_get _ j.2 ht]
    rw [e3, Matrix.mul_apply]
    congr 1
    apply Finset.sum_congr rfl
    intro i _
    have e4 : b.toMat K.length idx.length ⟨s, hs⟩ i = y.get (K.getD s 0) (idx.getD i 0) := by
      show b.get s i = _
      rw [hb, Arr2.ofFn_get _ hs i.2]
    rw [e4]

end
end Verif
