/-
C153: the correlations that the report plots, compared with the singular values of the centred voltages.
-/
import Verif.Props.PlotReport
import Verif.Lemmas.ToMat
import Mathlib.Analysis.Matrix.PosDef
import Mathlib.Analysis.Matrix.Order
import Mathlib.Analysis.Complex.Polynomial.Basic

namespace Verif
open Matrix Polynomial
open scoped ComplexOrder
noncomputable section

namespace Spec

/-- eigenvalues with their multiplicities -/
def EigvalsContract (f : Arr2 ℂ → List ℂ) : Prop := ∀ n (a : Arr2 ℂ), a.r = n → a.c = n → (f a : Multiset ℂ) = (a.toMat n n).charpoly.roots

/-- the singular values of the array: square roots of the eigenvalues of `xᴴ x` -/
def SingularValues (x : Arr2 ℂ) (σ : Fin x.c → ℝ) : Prop :=
  (∀ i, 0 ≤ σ i) ∧ ((x.toMat x.r x.c)ᴴ * x.toMat x.r x.c).charpoly = ∏ i, (X - C ((σ i ^ 2 : ℝ) : ℂ))

/-- all entries lie on one line through the origin of the complex plane -/
def OnLine (x : Arr2 ℂ) : Prop := ∃ u : ℂ, ‖u‖ = 1 ∧ ∀ t j, (u * x.get t j).im = 0

/-- deviations of the measurements from their averages over time -/
def deviation (v : Arr2 ℂ) : Arr2 ℂ := Arr2.ofFn v.r v.c (fun t j => v.get t j - (∑ s ∈ Finset.range v.r, v.get s j) / v.r)

end Spec

theorem gram_isHermitian {r n : ℕ} (A : Matrix (Fin r) (Fin n) ℂ) : (Aᴴ * A).IsHermitian := isHermitian_conjTranspose_mul_self A

/-- singular values exist -/
theorem singularValues_exist (x : Arr2 ℂ) : ∃ σ, Spec.SingularValues x σ := by
  have hp : ((x.toMat x.r x.c)ᴴ * x.toMat x.r x.c).PosSemidef := posSemidef_conjTranspose_mul_self _
  refine ⟨fun i => Real.sqrt (hp.isHermitian.eigenvalues i), fun i => Real.sqrt_nonneg _, ?_⟩
  rw [hp.isHermitian.charpoly_eq]
  refine Finset.prod_congr rfl fun i _ => ?_
  rw [Real.sq_sqrt (hp.eigenvalues_nonneg i)]
  rfl

theorem roots_linear {n : ℕ} (f : Fin n → ℂ) : (∏ i, (X - C (f i))).roots = Multiset.map f Finset.univ.val := by
  rw [Polynomial.roots_prod]
  · simp only [Polynomial.roots_X_sub_C]
    rw [Multiset.bind_singleton]
  · exact Finset.prod_ne_zero_iff.2 fun i _ => Polynomial.X_sub_C_ne_zero _

/-- the characteristic polynomial of a multiple -/
theorem charpoly_smul_hermitian {n : ℕ} {G : Matrix (Fin n) (Fin n) ℂ} (hG : G.IsHermitian) (c : ℂ) :
    (c • G).charpoly.roots = Multiset.map (fun i => c * (hG.eigenvalues i : ℂ)) Finset.univ.val := by
  have h : (c • G).charpoly = ∏ i, (X - C (c * (hG.eigenvalues i : ℂ))) := by
    conv_lhs => rw [hG.spectral_theorem, Unitary.conjStarAlgAut_apply, ← Matrix.smul_mul, ← Matrix.mul_smul, charpoly_mul_comm, ← mul_assoc]
    rw [Unitary.coe_star_mul_self, one_mul, ← diagonal_smul, charpoly_diagonal]
    rfl
  rw [h, roots_linear]

theorem transposeGram_toMat (x : Arr2 ℂ) : (transposeGram x).toMat x.c x.c = (x.toMat x.r x.c)ᵀ * x.toMat x.r x.c := by
  ext i j
  show (transposeGram x).get i j = _
  unfold transposeGram
  rw [Arr2.ofFn_get _ i.2 j.2, Matrix.mul_apply, ← Fin.sum_univ_eq_sum_range (fun t => x.get t i * x.get t j)]
  rfl

/-- roots of the polynomial of the singular values -/
theorem singular_roots {x : Arr2 ℂ} {σ : Fin x.c → ℝ} (h : Spec.SingularValues x σ) :
    ((x.toMat x.r x.c)ᴴ * x.toMat x.r x.c).charpoly.roots = Multiset.map (fun i => ((σ i ^ 2 : ℝ) : ℂ)) Finset.univ.val := by
  rw [h.2, roots_linear]

/-- the eigenvalues of the products without conjugation, if all entries lie on one line -/
theorem line_gram {x : Arr2 ℂ} (h : Spec.OnLine x) : ∃ c : ℂ, ‖c‖ = 1 ∧
    (x.toMat x.r x.c)ᵀ * x.toMat x.r x.c = c • ((x.toMat x.r x.c)ᴴ * x.toMat x.r x.c) := by
  obtain ⟨u, hu, hx⟩ := h
  have hu' : (starRingEnd ℂ) u * u = 1 := by
    rw [mul_comm, Complex.mul_conj, Complex.normSq_eq_norm_sq, hu]; simp
  refine ⟨(starRingEnd ℂ) u ^ 2, by rw [norm_pow, RCLike.norm_conj, hu, one_pow], ?_⟩
  rw [← Matrix.smul_mul]
  congr 1
  ext i t
  show x.get t i = (starRingEnd ℂ) u ^ 2 * (starRingEnd ℂ) (x.get t i)
  have h1 : (starRingEnd ℂ) (u * x.get t i) = u * x.get t i := Complex.conj_eq_iff_im.2 (hx t i)
  rw [map_mul] at h1
  rw [sq, mul_assoc, h1, ← mul_assoc, hu', one_mul]

theorem eigenvalue_perm {n : ℕ} {G : Matrix (Fin n) (Fin n) ℂ} (hG : G.IsHermitian) (c : ℂ) (hc : ‖c‖ = 1) :
    Multiset.map (fun z : ℂ => ‖z‖) (c • G).charpoly.roots = Multiset.map (fun z : ℂ => ‖z‖) G.charpoly.roots := by
  rw [charpoly_smul_hermitian hG, hG.roots_charpoly_eq_eigenvalues, Multiset.map_map, Multiset.map_map]
  refine Multiset.map_congr rfl fun i _ => ?_
  simp [hc]

/-- what is plotted for voltages whose deviations lie on one line -/
theorem spectrum_line {ext : PlotExt} (he : Spec.EigvalsContract ext.eigvals) {v : Arr2 ℂ} (h : Spec.OnLine (centreColumns v))
    {σ : Fin v.c → ℝ} (hσ : Spec.SingularValues (centreColumns v) σ) :
    (ext.spectrum v).Perm (List.ofFn (fun i => Real.logb 10 (σ i))) := by
  set x := centreColumns v with hx
  obtain ⟨c, hc, hg⟩ := line_gram h
  have h1 := he v.c (transposeGram x) rfl rfl
  have h2 : (transposeGram x).toMat v.c v.c = c • ((x.toMat x.r x.c)ᴴ * x.toMat x.r x.c) := (transposeGram_toMat x).trans hg
  rw [h2] at h1
  rw [← Multiset.coe_eq_coe]
  unfold PlotExt.spectrum
  rw [← hx, ← Multiset.map_coe, h1]
  have h3 := eigenvalue_perm (gram_isHermitian (x.toMat x.r x.c)) c hc
  have h4 := congrArg (Multiset.map (fun t : ℝ => Real.logb 10 (Real.sqrt t))) h3
  rw [Multiset.map_map, Multiset.map_map] at h4
  refine (show _ = _ from h4).trans ?_
  rw [singular_roots hσ, Multiset.map_map, List.ofFn_eq_map, ← Multiset.map_coe]
  refine Multiset.map_congr rfl fun i _ => ?_
  show Real.logb 10 (Real.sqrt ‖((σ i ^ 2 : ℝ) : ℂ)‖) = _
  rw [Complex.norm_real, Real.norm_of_nonneg (sq_nonneg _), Real.sqrt_sq (hσ.1 i)]

/-- the largest singular value bounds the products -/
theorem singular_bound {x : Arr2 ℂ} {σ : Fin x.c → ℝ} (hσ : Spec.SingularValues x σ) {M : ℝ} (hM : ∀ i, σ i ^ 2 ≤ M) (v : Fin x.c → ℂ) :
    ∑ t, ‖((x.toMat x.r x.c) *ᵥ v) t‖ ^ 2 ≤ M * ∑ i, ‖v i‖ ^ 2 := by
  set A := x.toMat x.r x.c with hA
  have hG := gram_isHermitian A
  have hev : ∀ i, hG.eigenvalues i ≤ M := by
    intro i
    have h1 : ((hG.eigenvalues i : ℝ) : ℂ) ∈ (Aᴴ * A).charpoly.roots := by
      rw [hG.roots_charpoly_eq_eigenvalues]
      exact Multiset.mem_map_of_mem _ (Finset.mem_univ_val i)
    rw [singular_roots hσ] at h1
    obtain ⟨j, -, hj⟩ := Multiset.mem_map.1 h1
    rw [← Complex.ofReal_inj.1 hj]
    exact hM j
  have hps : ((M : ℂ) • (1 : Matrix (Fin x.c) (Fin x.c) ℂ) - Aᴴ * A).PosSemidef := by
    have e : (M : ℂ) • (1 : Matrix (Fin x.c) (Fin x.c) ℂ) - Aᴴ * A =
        (hG.eigenvectorUnitary : Matrix (Fin x.c) (Fin x.c) ℂ) * diagonal (fun i => ((M - hG.eigenvalues i : ℝ) : ℂ)) *
          (hG.eigenvectorUnitary : Matrix (Fin x.c) (Fin x.c) ℂ)ᴴ := by
      have hd : diagonal (fun i => ((M - hG.eigenvalues i : ℝ) : ℂ)) =
          (M : ℂ) • (1 : Matrix (Fin x.c) (Fin x.c) ℂ) - diagonal (RCLike.ofReal ∘ hG.eigenvalues) := by
        ext i j
        by_cases h : i = j
        · subst h; simp
        · simp [h]
      rw [hd, Matrix.mul_sub, Matrix.sub_mul]
      congr 1
      · rw [Matrix.mul_smul, Matrix.mul_one, Matrix.smul_mul]
        congr 1
        exact (Unitary.coe_mul_star_self _).symm
      · conv_lhs => rw [hG.spectral_theorem, Unitary.conjStarAlgAut_apply]
        rfl
    rw [e]
    refine PosSemidef.mul_mul_conjTranspose_same (PosSemidef.diagonal fun i => ?_) _
    exact Complex.zero_le_real.2 (sub_nonneg.2 (hev i))
  have hsq : ∀ {k : ℕ} (w : Fin k → ℂ), star w ⬝ᵥ w = ((∑ i, ‖w i‖ ^ 2 : ℝ) : ℂ) := by
    intro k w
    rw [dotProduct, Complex.ofReal_sum]
    refine Finset.sum_congr rfl fun i _ => ?_
    rw [Pi.star_apply, ← Complex.normSq_eq_norm_sq, ← Complex.mul_conj, mul_comm]
    rfl
  have h := hps.dotProduct_mulVec_nonneg v
  rw [Matrix.sub_mulVec, dotProduct_sub, Matrix.smul_mulVec, Matrix.one_mulVec, dotProduct_smul, hsq, ← Matrix.mulVec_mulVec,
    Matrix.dotProduct_mulVec, ← Matrix.star_mulVec, hsq, smul_eq_mul, ← Complex.ofReal_mul, ← Complex.ofReal_sub] at h
  exact sub_nonneg.1 (Complex.zero_le_real.1 h)

/-- moduli of the eigenvalues of the products without conjugation -/
theorem transpose_bound {x : Arr2 ℂ} {σ : Fin x.c → ℝ} (hσ : Spec.SingularValues x σ) {z : ℂ}
    (hz : z ∈ ((x.toMat x.r x.c)ᵀ * x.toMat x.r x.c).charpoly.roots) : ∃ i, Real.sqrt ‖z‖ ≤ σ i := by
  set A := x.toMat x.r x.c with hA
  have h0 := (Polynomial.mem_roots'.1 hz).2
  rw [Polynomial.IsRoot.def, Matrix.eval_charpoly] at h0
  obtain ⟨v, hv0, hv⟩ := Matrix.exists_mulVec_eq_zero_iff.2 h0
  have hlam : (Aᵀ * A) *ᵥ v = z • v := by
    rw [Matrix.sub_mulVec, sub_eq_zero] at hv
    rw [← hv]
    simp [Matrix.scalar_apply, ← smul_one_eq_diagonal, Matrix.smul_mulVec]
  obtain ⟨k, hk⟩ := Function.ne_iff.1 hv0
  have hne : Nonempty (Fin x.c) := ⟨k⟩
  obtain ⟨m, -, hm⟩ := Finset.exists_max_image Finset.univ σ ⟨k, Finset.mem_univ k⟩
  have hM : ∀ i, σ i ^ 2 ≤ σ m ^ 2 := fun i => pow_le_pow_left₀ (hσ.1 i) (hm i (Finset.mem_univ i)) 2
  have b1 := singular_bound hσ hM v
  have b2 := singular_bound hσ hM (star v)
  refine ⟨m, ?_⟩
  rw [Real.sqrt_le_left (hσ.1 m)]
  have hpos : 0 < ∑ i, ‖v i‖ ^ 2 := Finset.sum_pos' (fun i _ => sq_nonneg _) ⟨k, Finset.mem_univ k, pow_pos (norm_pos_iff.2 hk) 2⟩
  have key : ‖z‖ * ∑ i, ‖v i‖ ^ 2 ≤ σ m ^ 2 * ∑ i, ‖v i‖ ^ 2 := by
    have e1 : star v ⬝ᵥ ((Aᵀ * A) *ᵥ v) = z * ((∑ i, ‖v i‖ ^ 2 : ℝ) : ℂ) := by
      rw [hlam, dotProduct_smul, smul_eq_mul]
      congr 1
      rw [dotProduct, Complex.ofReal_sum]
      refine Finset.sum_congr rfl fun i _ => ?_
      rw [Pi.star_apply, ← Complex.normSq_eq_norm_sq, ← Complex.mul_conj, mul_comm]
      rfl
    have e2 : star v ⬝ᵥ ((Aᵀ * A) *ᵥ v) = ∑ t, (A *ᵥ star v) t * (A *ᵥ v) t := by
      rw [← Matrix.mulVec_mulVec, Matrix.dotProduct_mulVec, Matrix.vecMul_transpose]
      rfl
    have e3 : ‖z‖ * ∑ i, ‖v i‖ ^ 2 = ‖star v ⬝ᵥ ((Aᵀ * A) *ᵥ v)‖ := by
      rw [e1, norm_mul, Complex.norm_real, Real.norm_of_nonneg hpos.le]
    rw [e3, e2]
    have e4 : ∑ i, ‖(star v) i‖ ^ 2 = ∑ i, ‖v i‖ ^ 2 := Finset.sum_congr rfl fun i _ => by rw [Pi.star_apply, norm_star]
    rw [e4] at b2
    calc _ ≤ ∑ t, ‖(A *ᵥ star v) t * (A *ᵥ v) t‖ := norm_sum_le _ _
      _ ≤ ∑ t, (‖(A *ᵥ star v) t‖ ^ 2 + ‖(A *ᵥ v) t‖ ^ 2) / 2 := by
          refine Finset.sum_le_sum fun t _ => ?_
          rw [norm_mul]
          nlinarith [sq_nonneg (‖(A *ᵥ star v) t‖ - ‖(A *ᵥ v) t‖)]
      _ = ((∑ t, ‖(A *ᵥ star v) t‖ ^ 2) + ∑ t, ‖(A *ᵥ v) t‖ ^ 2) / 2 := by rw [← Finset.sum_div, Finset.sum_add_distrib]
      _ ≤ _ := by linarith
  exact le_of_mul_le_mul_right key hpos

/-! ### the report -/

theorem report_head (ext : PlotExt) {st : Store} {name : String} {R : Spec.StoredResults} (hst : Spec.Stored st name R) {n : ℕ}
    (hsh : Spec.ResultShapes n R) {seq : Bool} (hp : Spec.SinglePhase R) {m : ℕ} {f : ℕ → ℕ} (hf : Spec.LabelPos R.labels 1 m f) :
    (plotResults ext ⟨name, seq⟩ st).2.head? = some (.plot "correlations" (column (ext.spectrum (Spec.columnsAt R.voltage m f)))) :=
  C107_partial ext hst hsh hp hf

/-- C153 partial: if the voltages of every node deviate from their averages along one common line of the complex plane, the plotted
correlations are the logarithms of the singular values of the deviations. Missing: other voltages. -/
theorem C153_partial {ext : PlotExt} (he : Spec.EigvalsContract ext.eigvals) {st : Store} {name : String} {R : Spec.StoredResults}
    (hst : Spec.Stored st name R) {n : ℕ} (hsh : Spec.ResultShapes n R) {seq : Bool} (hp : Spec.SinglePhase R) {m : ℕ} {f : ℕ → ℕ}
    (hf : Spec.LabelPos R.labels 1 m f) (hline : Spec.OnLine (Spec.deviation (Spec.columnsAt R.voltage m f)))
    {σ : Fin m → ℝ} (hσ : Spec.SingularValues (Spec.deviation (Spec.columnsAt R.voltage m f)) σ) :
    ∃ l, (plotResults ext ⟨name, seq⟩ st).2.head? = some (.plot "correlations" (column l)) ∧
      l.Perm (List.ofFn (fun i => Real.logb 10 (σ i))) :=
  ⟨_, report_head ext hst hsh hp hf, spectrum_line he hline hσ⟩

/-- C153 partial: in all cases no plotted number exceeds the logarithm of the largest singular value -/
theorem C153_bound_partial {ext : PlotExt} (he : Spec.EigvalsContract ext.eigvals) {st : Store} {name : String} {R : Spec.StoredResults}
    (hst : Spec.Stored st name R) {n : ℕ} (hsh : Spec.ResultShapes n R) {seq : Bool} (hp : Spec.SinglePhase R) {m : ℕ} {f : ℕ → ℕ}
    (hf : Spec.LabelPos R.labels 1 m f) {σ : Fin m → ℝ} (hσ : Spec.SingularValues (Spec.deviation (Spec.columnsAt R.voltage m f)) σ) :
    ∃ l : List ℝ, (plotResults ext ⟨name, seq⟩ st).2.head? = some (.plot "correlations" (column (l.map (Real.logb 10)))) ∧
      l.length = m ∧ ∀ s ∈ l, 0 ≤ s ∧ ∃ i, s ≤ σ i := by
  set v := Spec.columnsAt R.voltage m f with hv
  have h1 := he v.c (transposeGram (centreColumns v)) rfl rfl
  have h2 : (transposeGram (centreColumns v)).toMat v.c v.c =
      ((centreColumns v).toMat (centreColumns v).r (centreColumns v).c)ᵀ * (centreColumns v).toMat (centreColumns v).r (centreColumns v).c :=
    transposeGram_toMat (centreColumns v)
  refine ⟨(ext.eigvals (transposeGram (centreColumns v))).map (fun z => Real.sqrt ‖z‖), ?_, ?_, ?_⟩
  · rw [report_head ext hst hsh hp hf, List.map_map]
    rfl
  · rw [List.length_map, ← Multiset.coe_card, h1, IsAlgClosed.card_roots_eq_natDegree, Matrix.charpoly_natDegree_eq_dim, Fintype.card_fin]
    rfl
  · intro s hs
    obtain ⟨z, hz, rfl⟩ := List.mem_map.1 hs
    refine ⟨Real.sqrt_nonneg _, ?_⟩
    have hz : z ∈ (ext.eigvals (transposeGram (centreColumns v)) : Multiset ℂ) := hz
    rw [h1, h2] at hz
    exact transpose_bound hσ hz

/-! ### one node -/

/-- results for one node with the given voltages -/
def oneNode (x : List ℂ) : Spec.StoredResults :=
  ⟨Arr2.eye 1, "1", false, Arr2.ofFn x.length 1 (fun t _ => x.getD t 0), [1], none, none⟩

theorem oneNode_shapes (x : List ℂ) : Spec.ResultShapes 1 (oneNode x) where
  y := ⟨rfl, rfl⟩
  standard s h := by cases h
  bayesian b h := by cases h
  labels := rfl
  three h := absurd ⟨by show ("1" : String) ≠ _; decide, by show ("1" : String) ≠ _; decide⟩ h

/-- an eigenvalue function that fulfils the contract -/
def exactEigvals (a : Arr2 ℂ) : List ℂ := (a.toMat a.c a.c).charpoly.roots.toList

theorem exactEigvals_contract : Spec.EigvalsContract exactEigvals := by
  rintro n a - rfl
  exact Multiset.coe_toList _

theorem charpoly_one (A : Matrix (Fin 1) (Fin 1) ℂ) : A.charpoly = X - C (A 0 0) := by
  have h : A = diagonal (fun _ => A 0 0) := by
    ext i j
    rw [Subsingleton.elim i 0, Subsingleton.elim j 0, diagonal_apply_eq]
  conv_lhs => rw [h]
  rw [charpoly_diagonal]
  simp

theorem deviation_one {V : Arr2 ℂ} (hr : V.r = 4) (hc : V.c = 1) {m : ℂ} (hm : (∑ s ∈ Finset.range 4, V.get s 0) / ((4 : ℕ) : ℂ) = m) :
    ∀ t < 4, (Spec.deviation V).get t 0 = V.get t 0 - m := by
  intro t ht
  unfold Spec.deviation
  rw [Arr2.ofFn_get _ (by omega) (by omega), hr, hm]

/-- C153 violated: for one node whose voltages deviate by 2, i, -2 and -i from the average, the singular value of the deviations is the
root of 10, and its logarithm 1/2; plotted is the logarithm of the root of 6 -/
theorem C153_violated {ext : PlotExt} (he : Spec.EigvalsContract ext.eigvals) (seq : Bool) (m : ℂ) :
    Spec.SingularValues (Spec.deviation (oneNode [m + 2, m + Complex.I, m - 2, m - Complex.I]).voltage) (fun _ => Real.sqrt 10) ∧
    (plotResults ext ⟨"net", seq⟩ (storeOf "net" (oneNode [m + 2, m + Complex.I, m - 2, m - Complex.I]))).2.head? =
      some (.plot "correlations" (column [Real.logb 10 (Real.sqrt 6)])) ∧
    Real.logb 10 (Real.sqrt 6) < Real.logb 10 (Real.sqrt 10) := by
  set x := [m + 2, m + Complex.I, m - 2, m - Complex.I] with hx
  set V := (oneNode x).voltage with hV
  have hVr : V.r = 4 := rfl
  have hVc : V.c = 1 := rfl
  have hV0 : V.get 0 0 = m + 2 := rfl
  have hV1 : V.get 1 0 = m + Complex.I := rfl
  have hV2 : V.get 2 0 = m - 2 := rfl
  have hV3 : V.get 3 0 = m - Complex.I := rfl
  have hmean : (∑ s ∈ Finset.range 4, V.get s 0) / ((4 : ℕ) : ℂ) = m := by
    rw [Finset.sum_range_succ, Finset.sum_range_succ, Finset.sum_range_succ, Finset.sum_range_one, hV0, hV1, hV2, hV3]
    push_cast
    ring
  have hd := deviation_one hVr hVc hmean
  have d0 : (Spec.deviation V).get 0 0 = 2 := by rw [hd 0 (by decide), hV0]; ring
  have d1 : (Spec.deviation V).get 1 0 = Complex.I := by rw [hd 1 (by decide), hV1]; ring
  have d2 : (Spec.deviation V).get 2 0 = -2 := by rw [hd 2 (by decide), hV2]; ring
  have d3 : (Spec.deviation V).get 3 0 = -Complex.I := by rw [hd 3 (by decide), hV3]; ring
  have h4 : ∀ f : Fin 4 → ℂ, ∑ t, f t = f 0 + f 1 + f 2 + f 3 := fun f => by rw [Fin.sum_univ_four]
  refine ⟨⟨fun _ => Real.sqrt_nonneg _, ?_⟩, ?_, ?_⟩
  · show Matrix.charpoly (n := Fin 1) (((Spec.deviation V).toMat 4 1)ᴴ * (Spec.deviation V).toMat 4 1) =
      ∏ i : Fin 1, (X - C ((Real.sqrt 10 ^ 2 : ℝ) : ℂ))
    rw [charpoly_one, Finset.prod_const, Finset.card_univ, Fintype.card_fin, pow_one, Real.sq_sqrt (by norm_num), Matrix.mul_apply, h4]
    show X - C (star ((Spec.deviation V).get 0 0) * (Spec.deviation V).get 0 0 + star ((Spec.deviation V).get 1 0) * (Spec.deviation V).get 1 0 +
      star ((Spec.deviation V).get 2 0) * (Spec.deviation V).get 2 0 + star ((Spec.deviation V).get 3 0) * (Spec.deviation V).get 3 0) = _
    rw [d0, d1, d2, d3]
    congr 2
    simp
    norm_num
  · have hcol : Spec.columnsAt V 1 (fun _ => 0) = V := by
      refine Arr2.ext' rfl rfl fun t j ht hj => ?_
      have hj : j < 1 := hj
      have ht : t < V.r := ht
      unfold Spec.columnsAt
      rw [Arr2.ofFn_get _ ht hj, Nat.lt_one_iff.1 hj]
    rw [report_head ext (storeOf_stored "net" (oneNode x)) (oneNode_shapes x)
      ⟨by show ("1" : String) ≠ _; decide, by show ("1" : String) ≠ _; decide⟩ (m := 1) (f := fun _ => 0)
      ⟨fun a b h1 h2 => by omega, fun a _ => by show 0 < 1; decide, fun a _ => rfl, fun p hp _ => ⟨0, by decide, by
        have hp : p < 1 := hp
        omega⟩⟩, hcol]
    have h1 := he 1 (transposeGram (Spec.deviation V)) rfl rfl
    have h2 : (transposeGram (Spec.deviation V)).toMat 1 1 = ((Spec.deviation V).toMat 4 1)ᵀ * (Spec.deviation V).toMat 4 1 :=
      transposeGram_toMat (Spec.deviation V)
    rw [h2, charpoly_one, Matrix.mul_apply, h4] at h1
    have h3 : (ext.eigvals (transposeGram (Spec.deviation V)) : Multiset ℂ) = (X - C (
      (Spec.deviation V).get 0 0 * (Spec.deviation V).get 0 0 + (Spec.deviation V).get 1 0 * (Spec.deviation V).get 1 0 +
      (Spec.deviation V).get 2 0 * (Spec.deviation V).get 2 0 + (Spec.deviation V).get 3 0 * (Spec.deviation V).get 3 0)).roots := h1
    rw [d0, d1, d2, d3, Polynomial.roots_X_sub_C, show (2 : ℂ) * 2 + Complex.I * Complex.I + -2 * -2 + -Complex.I * -Complex.I = 6 by
      rw [neg_mul_neg, Complex.I_mul_I]; norm_num] at h3
    have h5 : ext.eigvals (transposeGram (Spec.deviation V)) = [6] := List.perm_singleton.1 (Multiset.coe_eq_coe.1 h3)
    have h6 : ext.spectrum V = [Real.logb 10 (Real.sqrt 6)] := by
      show (ext.eigvals (transposeGram (Spec.deviation V))).map _ = _
      rw [h5]
      simp
    rw [h6]
  · exact Real.logb_lt_logb (by norm_num) (by positivity) (Real.sqrt_lt_sqrt (by norm_num) (by norm_num))

/-- real voltages -/
theorem onLine_real {v : Arr2 ℂ} (h : ∀ t j, (v.get t j).im = 0) : Spec.OnLine (Spec.deviation v) := by
  refine ⟨1, norm_one, fun t j => ?_⟩
  rw [one_mul]
  by_cases hij : t < v.r ∧ j < v.c
  · unfold Spec.deviation
    rw [Arr2.ofFn_get _ hij.1 hij.2, Complex.sub_im, h, Complex.div_natCast_im, Complex.im_sum]
    simp [h]
  · rw [(Spec.deviation v).oob t j hij]
    rfl

/-- the hypotheses of C153: voltages that are real -/
example : Spec.EigvalsContract exactEigvals ∧ Spec.OnLine (Spec.deviation (oneNode [1, 2, 4]).voltage) ∧
    Spec.LabelPos (oneNode [1, 2, 4]).labels 1 1 (fun _ => 0) ∧ ∃ σ, Spec.SingularValues (Spec.deviation (oneNode [1, 2, 4]).voltage) σ := by
  refine ⟨exactEigvals_contract, onLine_real fun t j => ?_, ⟨fun a b h1 h2 => by omega, fun a _ => by show 0 < 1; decide, fun a _ => rfl,
    fun p hp _ => ⟨0, by decide, by have hp : p < 1 := hp; omega⟩⟩, singularValues_exist _⟩
  by_cases hij : t < 3 ∧ j < 1
  · show ((Arr2.ofFn 3 1 (fun t _ => [1, 2, 4].getD t 0) : Arr2 ℂ).get t j).im = 0
    rw [Arr2.ofFn_get _ hij.1 hij.2]
    obtain ⟨h, -⟩ := hij
    interval_cases t <;> simp
  · rw [(oneNode [1, 2, 4]).voltage.oob t j hij]
    rfl

end
end Verif
