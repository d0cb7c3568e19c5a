/-
C168: sparse storage does not change any result.
-/
import Verif.Lemmas.Sparse

namespace Verif
open Finset
noncomputable section

/-- storing a result differently does not change the array it denotes, and the solver of the array is the one of the stored matrix -/
structure Spec.SpContract (L : SpLib) (solve : Solver) : Prop where
  storeR : ∀ m, (L.storeR m).toArr = m.toArr
  storeC : ∀ m, (L.storeC m).toArr = m.toArr
  spsolve : ∀ m b, L.spsolve m b = solve m.toArr b

theorem ok_of_map {ε α β : Type} {f : α → β} {x : Except ε α} {y : Except ε β} (h : x.map f = y) :
    (∃ e, x = .error e ∧ y = .error e) ∨ ∃ a, x = .ok a ∧ y = .ok (f a) := by
  cases x with
  | error e => exact .inl ⟨e, rfl, h.symm⟩
  | ok a => exact .inr ⟨a, rfl, h.symm⟩

/-- GPU `make_real_matrix` of arrays is the one of the CPU -/
theorem gpuMakeRealMatrix_eq (m : Arr2 ℂ) : gpuMakeRealMatrix m = makeRealMatrix m := by
  refine Arr2.ext' rfl rfl fun i j hi hj => ?_
  have hi : i < m.r + m.r := hi
  have hj : j < m.c + m.c := hj
  unfold gpuMakeRealMatrix makeRealMatrix Arr2.map
  simp only [Arr2.ofFn_get', Arr2.ofFn_r, Arr2.ofFn_c, hi, hj, true_and, if_true]
  by_cases h1 : i < m.r <;> by_cases h2 : j < m.c
  · simp [h1, h2, hj]
  · have : j - m.c < m.c := by omega
    simp [h1, h2, hj, this]
  · have : i - m.r < m.r := by omega
    simp [h1, h2, hj, this]
  · have h3 : i - m.r < m.r := by omega
    have h4 : j - m.c < m.c := by omega
    simp [h1, h2, hj, h3, h4]

/-- C82: GPU `make_real_matrix` stacks rows of blocks, the CPU one uses `np.block`; they agree -/
theorem C82_gpu_make_real_matrix (m : Arr2 ℂ) : gpuMakeRealMatrix m = makeRealMatrix m := gpuMakeRealMatrix_eq m

/-- `make_real_matrix` of a sparse matrix, on CPU and GPU: same format, and the array is that of the dense branch -/
theorem makeRealSparse_toArr (m : SpMat ℂ) : ∃ s, makeRealSparse m = .ok s ∧ s.format = m.format ∧ s.toArr = makeRealMatrix m.toArr := by
  obtain ⟨s, hs, hf, hb⟩ := SpMat.toArr_bmat (f := m.format) (a := m.mapData Complex.re)
    (b := (m.mapData Complex.im).mapData (fun t => -t)) (c := m.mapData Complex.im) (d := m.mapData Complex.re) ⟨rfl, rfl, rfl, rfl⟩
  refine ⟨s, hs, hf, ?_⟩
  have e1 : (m.mapData Complex.re).toArr = m.toArr.map Complex.re := SpMat.toArr_mapData Complex.reAddGroupHom m
  have e2 : (m.mapData Complex.im).toArr = m.toArr.map Complex.im := SpMat.toArr_mapData Complex.imAddGroupHom m
  have e3 : ((m.mapData Complex.im).mapData (fun t => -t)).toArr = (m.mapData Complex.im).toArr.map (fun t => -t) :=
    SpMat.toArr_mapData (negAddMonoidHom : ℝ →+ ℝ) _
  rw [e1, e3, e2] at hb
  unfold Arr2.block at hb
  rw [if_pos ⟨rfl, rfl, rfl⟩] at hb
  rw [← Except.ok.inj hb]
  refine Arr2.ext' rfl rfl fun i j hi hj => ?_
  have hi : i < m.r + m.r := hi
  have hj : j < m.c + m.c := hj
  unfold makeRealMatrix Arr2.map
  simp only [Arr2.ofFn_get', Arr2.ofFn_r, Arr2.ofFn_c, SpMat.toArr_r, SpMat.toArr_c, hi, hj, and_self, if_true]
  by_cases h1 : i < m.r <;> by_cases h2 : j < m.c
  · simp [h1, h2]
  · have : j - m.c < m.c := by omega
    simp [h1, h2, this]
  · have : i - m.r < m.r := by omega
    simp [h1, h2, this]
  · have h3 : i - m.r < m.r := by omega
    have h4 : j - m.c < m.c := by omega
    simp [h1, h2, h3, h4]

/-- C168: `make_real_matrix` gives the same array for a sparse matrix, whatever it stores, as for the array it denotes, on CPU and GPU, and
keeps the storage format -/
theorem C168_make_real (m : SpMat ℂ) : ∃ s, makeRealSparse m = .ok s ∧ s.format = m.format ∧ s.toArr = makeRealMatrix m.toArr ∧
    s.toArr = gpuMakeRealMatrix m.toArr := by
  obtain ⟨s, h1, h2, h3⟩ := makeRealSparse_toArr m
  exact ⟨s, h1, h2, h3, by rw [gpuMakeRealMatrix_eq, h3]⟩

section
variable {L : SpLib} {solve : Solver}

/-- `map toArr` of a bind -/
theorem matmul_map {α : Type} [CommSemiring α] (a b : SpMat α) : (a.matmul b).map SpMat.toArr = a.toArr.matmul b.toArr := by
  cases h : a.matmul b with
  | ok s => exact (SpMat.toArr_matmul h).symm
  | error e => exact (SpMat.toArr_matmul_error h).symm

theorem spRegressionMatrix_map (hL : Spec.SpContract L solve) (n : ℕ) (x dt : SpMat ℂ) :
    (spRegressionMatrix L n x dt).map SpMat.toArr = regressionMatrix n x.toArr dt.toArr := by
  have hk : (L.storeC ((SpMat.eye n).kron x)).toArr = (Arr2.eye n).kron x.toArr := by
    rw [hL.storeC, SpMat.toArr_kron, SpMat.toArr_eye]
  have h := matmul_map (L.storeC ((SpMat.eye n).kron x)) dt
  rw [hk] at h
  unfold spRegressionMatrix regressionMatrix
  rcases ok_of_map h with ⟨e, h1, h2⟩ | ⟨k, h1, h2⟩
  · rw [h1, h2]; rfl
  · obtain ⟨s, hs, _, ha⟩ := makeRealSparse_toArr (L.storeC k)
    rw [h1, h2]
    simp only [bind, Except.bind, pure, Except.pure, hs, Except.map, hL.storeR, ha, hL.storeC]

theorem spAddScaled_map (hL : Spec.SpContract L solve) (l : ℝ) (P : SpMat ℝ) (M : Arr2 ℝ) :
    (spAddScaled L l P M).map SpMat.toArr = addScaled l P.toArr M := by
  have hm : (L.storeR ((SpMat.ofArr M).mapData (fun t => l * t))).toArr = M.map (fun t => l * t) := by
    rw [hL.storeR]
    refine (SpMat.toArr_mapData (AddMonoidHom.mulLeft l) _).trans ?_
    rw [SpMat.toArr_ofArr]
    rfl
  have h := SpMat.toArr_add P (L.storeR ((SpMat.ofArr M).mapData (fun t => l * t)))
  rw [hm] at h
  have e : Arr2.zipWith (fun p q => p + q) P.toArr (M.map (fun t => l * t)) = addScaled l P.toArr M := by
    unfold addScaled Arr2.zipWith
    by_cases hs : P.toArr.r = M.r ∧ P.toArr.c = M.c
    · rw [if_pos hs, if_pos (show P.toArr.r = (M.map _).r ∧ P.toArr.c = (M.map _).c from hs)]
      refine congrArg Except.ok (Arr2.ext' rfl rfl fun i j hi hj => ?_)
      have hi : i < P.toArr.r := hi
      have hj : j < P.toArr.c := hj
      rw [Arr2.ofFn_get _ hi hj, Arr2.ofFn_get _ hi hj]
      unfold Arr2.map
      rw [Arr2.ofFn_get _ (hs.1 ▸ hi) (hs.2 ▸ hj)]
    · rw [if_neg hs, if_neg (show ¬ (P.toArr.r = (M.map _).r ∧ P.toArr.c = (M.map _).c) from hs)]
  rw [e] at h
  unfold spAddScaled
  rcases ok_of_map h with ⟨e, h1, h2⟩ | ⟨k, h1, h2⟩
  · rw [h1, h2]; rfl
  · rw [h1, h2]
    simp only [bind, Except.bind, pure, Except.pure, Except.map, hL.storeR]

theorem spToMatrix_eq (n : ℕ) (dt : SpMat ℂ) (y : List ℝ) : spToMatrix n dt y = toMatrix n dt.toArr y := by
  unfold spToMatrix toMatrix
  simp only [SpMat.mulVec_toArr]

/-- a loop body in sparse form and its dense form -/
theorem spRegStep_eq (hL : Spec.SpContract L solve) (cfg : RegConfig) (n : ℕ) (dt : SpMat ℂ) (A : SpMat ℝ) (b : List ℝ) :
    spRegStep L cfg n dt A b = regStep solve cfg n dt.toArr A.toArr b := by
  funext s
  unfold spRegStep regStep
  have h := matmul_map A.T A
  rw [SpMat.toArr_T] at h
  rcases ok_of_map h with ⟨e, h1, h2⟩ | ⟨k, h1, h2⟩
  · rw [h1, h2]; rfl
  · rw [h1, h2]
    simp only [bind, Except.bind]
    have h' := spAddScaled_map hL cfg.lam (L.storeR k) s.M
    rw [hL.storeR] at h'
    rcases ok_of_map h' with ⟨e, h3, h4⟩ | ⟨sys, h3, h4⟩
    · rw [h3, h4]
    · rw [h3, h4]
      simp only [SpMat.mulVec_toArr, SpMat.toArr_T, hL.spsolve, spToMatrix_eq]

/-- C168: `BayesianRegression.fit` with sparse matrices, however they are stored, has the same outcome, log and estimate as with arrays -/
theorem C168_regression (hL : Spec.SpContract L solve) (cfg : RegConfig) (obj : RegObj) (x z yInit : Arr2 ℂ) :
    spBayesianFit L cfg obj x z yInit = bayesianFit solve cfg obj x z yInit := by
  unfold spBayesianFit bayesianFit toParams
  cases hdt : cfg.dt x.c with
  | error e => simp only [bind, Except.bind, hdt]
  | ok dt =>
    cases he : cfg.e x.c with
    | error e => simp only [bind, Except.bind, hdt, he]
    | ok e =>
      have h := spRegressionMatrix_map hL x.c (L.storeC (SpMat.ofArr x)) (L.storeC (SpMat.ofArr dt))
      rw [hL.storeC, hL.storeC, SpMat.toArr_ofArr, SpMat.toArr_ofArr] at h
      simp only [bind, Except.bind, pure, Except.pure, hdt, he]
      rcases ok_of_map h with ⟨e', h1, h2⟩ | ⟨A, h1, h2⟩
      · rw [h1, h2]
      · rw [h1, h2]
        simp only [SpMat.mulVec_toArr, hL.storeC, SpMat.toArr_ofArr]
        cases e.mulVec (vectorizeMatrix yInit) with
        | error e' => rfl
        | ok v =>
          simp only
          cases cfg.prior.logDistribution (makeRealVector v) with
          | error e' => rfl
          | ok q =>
            simp only [spRegStep_eq hL, SpMat.toArr_toCsr, hL.storeC, SpMat.toArr_ofArr]

theorem spUnderlineY_map (hL : Spec.SpContract L solve) (T : ℕ) (yMat : Arr2 ℂ) :
    (spUnderlineY L T yMat).map SpMat.toArr = underlineY T yMat := by
  unfold spUnderlineY underlineY
  have e1 : ∀ f : ℂ → ℝ, (L.storeR ((L.storeR (SpMat.ofArr (yMat.map f))).kron (SpMat.eye T))).toArr = (yMat.map f).kron (Arr2.eye T) := by
    intro f
    rw [hL.storeR, SpMat.toArr_kron, hL.storeR, SpMat.toArr_ofArr, SpMat.toArr_eye]
  generalize hre : L.storeR ((L.storeR (SpMat.ofArr (yMat.map Complex.re))).kron (SpMat.eye T)) = re
  generalize him : L.storeR ((L.storeR (SpMat.ofArr (yMat.map Complex.im))).kron (SpMat.eye T)) = im
  have er : re.toArr = (yMat.map Complex.re).kron (Arr2.eye T) := by rw [← hre, e1]
  have ei : im.toArr = (yMat.map Complex.im).kron (Arr2.eye T) := by rw [← him, e1]
  have en : (im.mapData (fun t => -t)).toArr = im.toArr.map (fun t => -t) := SpMat.toArr_mapData (negAddMonoidHom : ℝ →+ ℝ) _
  have hr : re.r = im.r := by rw [← SpMat.toArr_r re, er, ← SpMat.toArr_r im, ei]; rfl
  have hc : re.c = im.c := by rw [← SpMat.toArr_c re, er, ← SpMat.toArr_c im, ei]; rfl
  obtain ⟨s, hs, _, hb⟩ := SpMat.toArr_bmat (f := .csr) (a := re) (b := im.mapData (fun t => -t)) (c := im) (d := re) ⟨hr, hr.symm, hc, hc.symm⟩
  rw [en, er, ei] at hb
  simp only [hs, bind, Except.bind, pure, Except.pure, Except.map, hL.storeR]
  exact hb.symm

theorem spEivCorrection_eq (hL : Spec.SpContract L solve) (T : ℕ) (xW zW : SpMat ℝ) (yMat : Arr2 ℂ) (a b : List ℝ) :
    spEivCorrection L T xW zW yMat a b = eivCorrection solve T xW.toArr zW.toArr yMat a b := by
  unfold spEivCorrection eivCorrection
  rcases ok_of_map (spUnderlineY_map hL T yMat) with ⟨e, h1, h2⟩ | ⟨u, h1, h2⟩
  · rw [h1, h2]; rfl
  · rw [h1, h2]
    simp only [bind, Except.bind]
    have h := matmul_map u.T zW
    rw [SpMat.toArr_T] at h
    rcases ok_of_map h with ⟨e, h3, h4⟩ | ⟨uw, h3, h4⟩
    · rw [h3, h4]
    · rw [h3, h4]
      simp only
      have h := matmul_map (L.storeR uw) u
      rw [hL.storeR] at h
      rcases ok_of_map h with ⟨e, h5, h6⟩ | ⟨ysy, h5, h6⟩
      · rw [h5, h6]
      · rw [h5, h6]
        simp only
        have h := SpMat.toArr_add (L.storeR ysy) xW
        rw [hL.storeR] at h
        rcases ok_of_map h with ⟨e, h7, h8⟩ | ⟨sys, h7, h8⟩
        · rw [h7, h8]
        · rw [h7, h8]
          simp only [SpMat.mulVec_toArr, hL.storeR, hL.spsolve, SpMat.toArr_toCsr]

theorem spSub_map (hL : Spec.SpContract L solve) (A dA : SpMat ℝ) :
    (spSub L A dA).map SpMat.toArr = Arr2.zipWith (fun p q => p - q) A.toArr dA.toArr := by
  have h := SpMat.toArr_add A (dA.mapData (fun t => -t))
  have en : (dA.mapData (fun t => -t)).toArr = dA.toArr.map (fun t => -t) := SpMat.toArr_mapData (negAddMonoidHom : ℝ →+ ℝ) _
  rw [en] at h
  have e : Arr2.zipWith (fun p q => p + q) A.toArr (dA.toArr.map (fun t => -t)) = Arr2.zipWith (fun p q => p - q) A.toArr dA.toArr := by
    unfold Arr2.zipWith
    by_cases hs : A.toArr.r = dA.toArr.r ∧ A.toArr.c = dA.toArr.c
    · rw [if_pos hs, if_pos (show A.toArr.r = (dA.toArr.map _).r ∧ A.toArr.c = (dA.toArr.map _).c from hs)]
      refine congrArg Except.ok (Arr2.ext' rfl rfl fun i j hi hj => ?_)
      have hi : i < A.toArr.r := hi
      have hj : j < A.toArr.c := hj
      rw [Arr2.ofFn_get _ hi hj, Arr2.ofFn_get _ hi hj]
      unfold Arr2.map
      rw [Arr2.ofFn_get _ (hs.1 ▸ hi) (hs.2 ▸ hj)]
      ring
    · rw [if_neg hs, if_neg (show ¬ (A.toArr.r = (dA.toArr.map _).r ∧ A.toArr.c = (dA.toArr.map _).c) from hs)]
  rw [e] at h
  unfold spSub
  rcases ok_of_map h with ⟨e, h1, h2⟩ | ⟨k, h1, h2⟩
  · rw [h1, h2]; rfl
  · rw [h1, h2]
    simp only [bind, Except.bind, pure, Except.pure, Except.map, SpMat.toArr_toCsr, hL.storeR]

theorem spEivWeightedStep_eq (hL : Spec.SpContract L solve) (cfg : RegConfig) (x : Arr2 ℂ) (dt : SpMat ℂ) (A : SpMat ℝ) (a b : List ℝ)
    (xW zW : SpMat ℝ) :
    spEivWeightedStep L cfg x dt A a b xW zW = eivWeightedStep solve cfg x dt.toArr A.toArr a b xW.toArr zW.toArr := by
  funext s
  unfold spEivWeightedStep eivWeightedStep
  rw [spEivCorrection_eq hL]
  simp only [bind, Except.bind]
  cases eivCorrection solve x.r xW.toArr zW.toArr s.yMat a b with
  | error e => rfl
  | ok da =>
    simp only
    cases makeComplexVector da with
    | error e => rfl
    | ok c =>
      simp only
      cases unvectorizeMatrix c (x.r, x.c) with
      | error e => rfl
      | ok eqp =>
        simp only
        have h := spRegressionMatrix_map hL x.c (L.storeC (SpMat.ofArr eqp)) dt
        rw [hL.storeC, SpMat.toArr_ofArr] at h
        rcases ok_of_map h with ⟨e, h1, h2⟩ | ⟨dA, h1, h2⟩
        · rw [h1, h2]
        · rw [h1, h2]
          simp only
          rcases ok_of_map (spSub_map hL A dA) with ⟨e, h3, h4⟩ | ⟨am, h3, h4⟩
          · rw [h3, h4]
          · rw [h3, h4]
            simp only
            have h := matmul_map am.T zW
            rw [SpMat.toArr_T] at h
            rcases ok_of_map h with ⟨e, h5, h6⟩ | ⟨amw, h5, h6⟩
            · rw [h5, h6]
            · rw [h5, h6]
              simp only
              have h := matmul_map (L.storeR amw) am
              rw [hL.storeR] at h
              rcases ok_of_map h with ⟨e, h7, h8⟩ | ⟨q, h7, h8⟩
              · rw [h7, h8]
              · rw [h7, h8]
                simp only
                have h' := spAddScaled_map hL cfg.lam (L.storeR q) s.M
                rw [hL.storeR] at h'
                rcases ok_of_map h' with ⟨e, h9, h10⟩ | ⟨sys, h9, h10⟩
                · rw [h9, h10]
                · rw [h9, h10]
                  simp only [SpMat.mulVec_toArr, hL.storeR, hL.spsolve, spToMatrix_eq]

theorem spEivUnweightedStep_eq (hL : Spec.SpContract L solve) (inv : Arr2 ℂ → Except PyErr (Arr2 ℂ)) (cfg : RegConfig) (x z : Arr2 ℂ)
    (dt : SpMat ℂ) (b : List ℝ) :
    spEivUnweightedStep L inv cfg x z dt b = eivUnweightedStep solve inv cfg x z dt.toArr b := by
  funext s
  unfold spEivUnweightedStep eivUnweightedStep
  simp only [bind, Except.bind]
  cases projectedData inv s.yMat x z with
  | error e => rfl
  | ok pd =>
    simp only
    have h := spRegressionMatrix_map hL x.c (L.storeC (SpMat.ofArr (slice2 pd 0 pd.r 0 (min x.c pd.c)))) dt
    rw [hL.storeC, SpMat.toArr_ofArr] at h
    rcases ok_of_map h with ⟨e, h1, h2⟩ | ⟨am, h1, h2⟩
    · rw [h1, h2]
    · rw [h1, h2]
      simp only
      have h := matmul_map am.T am
      rw [SpMat.toArr_T] at h
      rcases ok_of_map h with ⟨e, h3, h4⟩ | ⟨q, h3, h4⟩
      · rw [h3, h4]
      · rw [h3, h4]
        simp only
        have h' := spAddScaled_map hL cfg.lam (L.storeR q) s.M
        rw [hL.storeR] at h'
        rcases ok_of_map h' with ⟨e, h5, h6⟩ | ⟨sys, h5, h6⟩
        · rw [h5, h6]
        · rw [h5, h6]
          simp only [SpMat.mulVec_toArr, SpMat.toArr_T, hL.spsolve, spToMatrix_eq]

/-- C168: `BayesianEIVRegression.fit` with sparse matrices, with and without weights -/
theorem C168_eiv (hL : Spec.SpContract L solve) (inv : Arr2 ℂ → Except PyErr (Arr2 ℂ)) (cfg : RegConfig) (obj : RegObj) (x z : Arr2 ℂ)
    (xWeight zWeight : Option (Arr2 ℝ)) (yInit : Arr2 ℂ) :
    spEivFit L inv cfg obj x z xWeight zWeight yInit = eivFit solve inv cfg obj x z xWeight zWeight yInit := by
  unfold spEivFit eivFit eivBody toParams
  cases hdt : cfg.dt x.c with
  | error e => simp only [bind, Except.bind, hdt]
  | ok dt =>
    cases he : cfg.e x.c with
    | error e => simp only [bind, Except.bind, hdt, he]
    | ok e =>
      have h := spRegressionMatrix_map hL x.c (L.storeC (SpMat.ofArr x)) (L.storeC (SpMat.ofArr dt))
      rw [hL.storeC, hL.storeC, SpMat.toArr_ofArr, SpMat.toArr_ofArr] at h
      simp only [bind, Except.bind, pure, Except.pure, hdt, he]
      rcases ok_of_map h with ⟨e', h1, h2⟩ | ⟨A, h1, h2⟩
      · rw [h1, h2]
      · rw [h1, h2]
        simp only [SpMat.mulVec_toArr, hL.storeC, SpMat.toArr_ofArr]
        cases e.mulVec (vectorizeMatrix yInit) with
        | error e' => rfl
        | ok v =>
          simp only
          cases cfg.prior.logDistribution (makeRealVector v) with
          | error e' => rfl
          | ok q =>
            simp only
            cases zWeight with
            | none => simp only [spEivUnweightedStep_eq hL, hL.storeC, SpMat.toArr_ofArr]
            | some w =>
              cases xWeight with
              | none => simp only [Option.map_none, spEivUnweightedStep_eq hL, hL.storeC, SpMat.toArr_ofArr]
              | some w' =>
                simp only [Option.map_some, spEivWeightedStep_eq hL, hL.storeC, hL.storeR, SpMat.toArr_ofArr, SpMat.toArr_toCsr]

/-- C168: `SparseSmoothPrior.log_distribution` with a sparse matrix `L` gives what the model of both classes says -/
theorem C168_prior (hL : Spec.SpContract L solve) (p : Prior) (hs : p.sparseClass = true) {l : SpMat ℝ} (hl : l.toArr = p.larr)
    (x : List ℝ) :
    (p.spLogDistribution L l x).map (fun r => (r.1.toArr, r.2)) = p.logDistribution x := by
  unfold Prior.spLogDistribution Prior.logDistribution
  simp only [SpMat.mulVec_toArr, hl, bind, Except.bind, pure, Except.pure, hs, true_and]
  by_cases h1 : x.length = 1
  · simp [h1, Except.map, throw, throwThe, MonadExceptOf.throw]
  · simp only [h1, if_false]
    cases p.larr.mulVec x with
    | error e => rfl
    | ok lx =>
      simp only
      cases broadcast1 (fun a b => a - b) lx p.mu with
      | error e => rfl
      | ok r =>
        simp only
        cases broadcast1 (fun r g => |r| ^ ((2 : ℝ) - g)) r p.gamma with
        | error e => rfl
        | ok w0 =>
          simp only
          have h := matmul_map l.T (L.storeR (SpMat.diags ((w0.map (fun t => t + p.alpha)).map (fun t => 1 / t))))
          rw [SpMat.toArr_T, hl, hL.storeR, SpMat.toArr_diags] at h
          rcases ok_of_map h with ⟨e, h1, h2⟩ | ⟨lw, h1, h2⟩
          · rw [h1, h2]; rfl
          · rw [h1, h2]
            simp only
            have h := matmul_map (L.storeR lw) l
            rw [hL.storeR, hl] at h
            rcases ok_of_map h with ⟨e, h3, h4⟩ | ⟨a, h3, h4⟩
            · rw [h3, h4]; rfl
            · rw [h3, h4]
              simp only [hL.storeR]
              by_cases h5 : p.mu.length = 1
              · simp [h5, Except.map, throw, throwThe, MonadExceptOf.throw]
              · simp only [h5, if_false]
                cases lw.toArr.mulVec p.mu with
                | error e => rfl
                | ok b => simp only [Except.map, hL.storeR]
end

/-- a library that merges the entries of every position and drops zeros meets the contract -/
def mergingLib (solve : Solver) : SpLib where
  storeR m := SpMat.ofArr m.toArr
  storeC m := SpMat.ofArr m.toArr
  spsolve m b := solve m.toArr b

example (solve : Solver) : Spec.SpContract (mergingLib solve) solve :=
  ⟨fun _ => SpMat.toArr_ofArr _, fun _ => SpMat.toArr_ofArr _, fun _ _ => rfl⟩

/-- so does one that keeps everything as it comes -/
example (solve : Solver) : Spec.SpContract ⟨id, id, fun m b => solve m.toArr b⟩ solve := ⟨fun _ => rfl, fun _ => rfl, fun _ _ => rfl⟩

/-- a matrix with a position stored twice and a stored zero: `1 + 2i` at (0, 1) -/
example : ∃ m : SpMat ℂ, m.entries.length = 3 ∧ m.toArr.get 0 1 = ⟨1, 2⟩ ∧ m.toArr.get 1 1 = 0 ∧
    ∃ s, makeRealSparse m = .ok s ∧ s.toArr.get 0 1 = 1 ∧ s.toArr.get 2 1 = 2 ∧ s.toArr.get 0 3 = -2 := by
  refine ⟨⟨2, 2, .coo, [⟨0, 1, 1⟩, ⟨1, 1, 0⟩, ⟨0, 1, ⟨0, 2⟩⟩], by decide⟩, rfl, ?_, ?_, ?_⟩
  · rw [SpMat.toArr_get]; apply Complex.ext <;> simp [SpMat.entryAt]
  · rw [SpMat.toArr_get]; simp [SpMat.entryAt]
  · obtain ⟨s, h1, _, h2⟩ := makeRealSparse_toArr ⟨2, 2, .coo, [⟨0, 1, 1⟩, ⟨1, 1, 0⟩, ⟨0, 1, ⟨0, 2⟩⟩], by decide⟩
    refine ⟨s, h1, ?_, ?_, ?_⟩ <;> rw [h2] <;>
      simp [makeRealMatrix, Arr2.ofFn_get', SpMat.toArr_r, SpMat.toArr_c, SpMat.toArr_get, SpMat.entryAt]

end
end Verif
