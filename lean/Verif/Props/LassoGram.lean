/-
C146: the ordinary least squares and lasso estimates, and with a gap of the singular values the total least squares estimate, depend on
the measurements only through their correlations.
-/
import Verif.Props.Invariance
import Verif.Lemmas.RegObjective

namespace Verif
open Matrix Finset
noncomputable section

namespace Spec

/-- two series of measurements, possibly of different lengths, have the same correlations of all voltages and currents -/
structure SameCorrelations (x z x' z' : Arr2 ℂ) : Prop where
  rows : x.r = z.r
  rows' : x'.r = z'.r
  voltages : x'.c = x.c
  currents : z'.c = z.c
  corr : ∀ a < x.c + z.c, ∀ b < x.c + z.c, correlation x' z' a b = correlation x z a b

end Spec

theorem Spec.SameCorrelations.symm {x z x' z' : Arr2 ℂ} (h : Spec.SameCorrelations x z x' z') : Spec.SameCorrelations x' z' x z :=
  ⟨h.rows', h.rows, h.voltages.symm, h.currents.symm,
    fun a ha b hb => (h.corr a (by rw [← h.voltages, ← h.currents]; exact ha) b (by rw [← h.voltages, ← h.currents]; exact hb)).symm⟩

theorem same_gram {x z x' z' : Arr2 ℂ} {n m : Nat} (h : Spec.SameCorrelations x z x' z') (hn : x.c = n) (hm : z.c = m) :
    (side x'.r n m x' z')ᴴ * side x'.r n m x' z' = (side x.r n m x z)ᴴ * side x.r n m x z := by
  ext a b
  rw [side_gram hn, side_gram (h.voltages.trans hn)]
  exact h.corr a (by rw [hn, hm]; exact a.2) b (by rw [hn, hm]; exact b.2)

theorem frob_same_gram {T T' N l : Nat} {M : Matrix (Fin T) (Fin N) ℂ} {M' : Matrix (Fin T') (Fin N) ℂ} (h : M'ᴴ * M' = Mᴴ * M)
    (W : Matrix (Fin N) (Fin l) ℂ) : frob (M' * W) = frob (M * W) := by
  have : ((frob (M' * W) : ℝ) : ℂ) = ((frob (M * W) : ℝ) : ℂ) := by
    rw [frob_trace, frob_trace, conjTranspose_mul, conjTranspose_mul, Matrix.mul_assoc, Matrix.mul_assoc, ← Matrix.mul_assoc M'ᴴ,
      ← Matrix.mul_assoc Mᴴ, h]
  exact_mod_cast this

/-! ### the lasso fit -/

theorem misfit_frob {x z Y : Arr2 ℂ} (hr : x.r = z.r) :
    Spec.misfit x z Y = frob (side x.r x.c z.c x z * overNegOne (Y.toMat x.c z.c)) := by
  unfold Spec.misfit frob
  rw [Finset.sum_comm, ← hr, ← Fin.sum_univ_eq_sum_range
    (fun i => ∑ j ∈ range z.c, Complex.normSq (z.get i j - ∑ k ∈ range x.c, x.get i k * Y.get k j))]
  refine Finset.sum_congr rfl fun t _ => ?_
  rw [← Fin.sum_univ_eq_sum_range (fun j => Complex.normSq (z.get t j - ∑ k ∈ range x.c, x.get t k * Y.get k j))]
  refine Finset.sum_congr rfl fun j _ => ?_
  rw [side_mul, ← Complex.normSq_neg, neg_sub, ← Fin.sum_univ_eq_sum_range (fun k => x.get t k * Y.get k j)]
  rfl

theorem misfit_same {x z x' z' Y : Arr2 ℂ} (h : Spec.SameCorrelations x z x' z') : Spec.misfit x' z' Y = Spec.misfit x z Y := by
  rw [misfit_frob h.rows, misfit_frob h.rows', h.voltages, h.currents]
  exact frob_same_gram (same_gram h rfl rfl) _

/-- a least-squares misfit determines its normal equations -/
theorem quad_determines {m m' N : Nat} {A : Matrix (Fin m) (Fin N) ℝ} {b : Fin m → ℝ} {A' : Matrix (Fin m') (Fin N) ℝ} {b' : Fin m' → ℝ}
    (h : ∀ v, (b' - A'.mulVec v) ⬝ᵥ (b' - A'.mulVec v) = (b - A.mulVec v) ⬝ᵥ (b - A.mulVec v)) :
    A'.transpose * A' = A.transpose * A ∧ A'.transpose.mulVec b' = A.transpose.mulVec b := by
  simp only [misfit_expand] at h
  set S := A.transpose * A with hS
  set S' := A'.transpose * A' with hS'
  set r := A.transpose.mulVec b with hr
  set r' := A'.transpose.mulVec b' with hr'
  have h0 : b' ⬝ᵥ b' = b ⬝ᵥ b := by simpa using h 0
  have hlin : ∀ v, r' ⬝ᵥ v = r ⬝ᵥ v := by
    intro v
    have h1 := h v
    have h2 := h (-v)
    simp only [mulVec_neg, dotProduct_neg, neg_dotProduct, neg_neg] at h2
    linarith
  have hq : ∀ v, v ⬝ᵥ S'.mulVec v = v ⬝ᵥ S.mulVec v := by
    intro v
    have h1 := h v
    rw [hlin v, h0] at h1
    linarith
  have hs : ∀ u v, u ⬝ᵥ S.mulVec v = v ⬝ᵥ S.mulVec u := by
    intro u v
    rw [dotProduct_mulVec, ← mulVec_transpose, hS, transpose_mul, transpose_transpose, dotProduct_comm]
  have hs' : ∀ u v, u ⬝ᵥ S'.mulVec v = v ⬝ᵥ S'.mulVec u := by
    intro u v
    rw [dotProduct_mulVec, ← mulVec_transpose, hS', transpose_mul, transpose_transpose, dotProduct_comm]
  have hb : ∀ u v, u ⬝ᵥ S'.mulVec v = u ⬝ᵥ S.mulVec v := by
    intro u v
    have h1 := hq (u + v)
    simp only [mulVec_add, dotProduct_add, add_dotProduct] at h1
    linarith [hq u, hq v, hs u v, hs' u v]
  refine ⟨?_, ?_⟩
  · ext i j
    have := hb (Pi.single i 1) (Pi.single j 1)
    simpa [mulVec_single_one] using this
  · ext i
    have := hlin (Pi.single i 1)
    simpa using this

theorem list_toVec_inj {u v : List ℝ} {n : Nat} (hu : u.length = n) (hv : v.length = n) (h : toVec n u = toVec n v) : u = v := by
  refine List.ext_getElem (hu.trans hv.symm) fun k h1 h2 => ?_
  have := congrFun h ⟨k, by omega⟩
  simpa [toVec, List.getD, h1, h2] using this

/-- steps of the fit depend on the data only through the misfit of every parameter vector -/
theorem regStep_congr (solve : Solver) (cfg : RegConfig) (n : Nat) (dt : Arr2 ℂ) {A A' : Arr2 ℝ} {b b' : List ℝ} {m m' N : Nat}
    (hA : A.r = m ∧ A.c = N) (hA' : A'.r = m' ∧ A'.c = N) (hb : b.length = m) (hb' : b'.length = m')
    (h : ∀ v, (toVec m' b' - (A'.toMat m' N).mulVec v) ⬝ᵥ (toVec m' b' - (A'.toMat m' N).mulVec v) =
      (toVec m b - (A.toMat m N).mulVec v) ⬝ᵥ (toVec m b - (A.toMat m N).mulVec v)) (s : FitState) :
    regStep solve cfg n dt A' b' s = regStep solve cfg n dt A b s := by
  obtain ⟨hS, hr⟩ := quad_determines h
  obtain ⟨ata, hata, har, hac, hag⟩ := Arr2.matmul_mat (A := A.T) (B := A) (m := N) (k := m) (n := N) ⟨hA.2, hA.1⟩ hA
  obtain ⟨ata', hata', har', hac', hag'⟩ := Arr2.matmul_mat (A := A'.T) (B := A') (m := N) (k := m') (n := N) ⟨hA'.2, hA'.1⟩ hA'
  obtain ⟨atb, hatb, hal, hat⟩ := Arr2.mulVec_mat (A := A.T) (v := b) (m := N) (k := m) ⟨hA.2, hA.1⟩ hb
  obtain ⟨atb', hatb', hal', hat'⟩ := Arr2.mulVec_mat (A := A'.T) (v := b') (m := N) (k := m') ⟨hA'.2, hA'.1⟩ hb'
  rw [Arr2.toMat_T] at hag hag' hat hat'
  obtain rfl : ata' = ata := Arr2.toMat_inj ⟨har', hac'⟩ ⟨har, hac⟩ (by rw [hag, hag', hS])
  obtain rfl : atb' = atb := list_toVec_inj hal' hal (by rw [hat, hat', hr])
  simp only [regStep, hata, hata', hatb, hatb', bind, Except.bind, pure, Except.pure]
  cases addScaled cfg.lam ata' s.M with
  | error e => rfl
  | ok sys =>
    cases broadcast1 (fun p q => p + cfg.lam * q) atb' s.mu with
    | error e => rfl
    | ok rhs =>
      dsimp only
      cases solve sys rhs with
      | error e => rfl
      | ok y =>
        dsimp only
        cases toMatrix n dt y with
        | error e => rfl
        | ok ym =>
          dsimp only
          cases cfg.prior.logDistribution y with
          | error e => rfl
          | ok q =>
            dsimp only
            by_cases hy : y.length = N
            · obtain ⟨ay, hay, hayl, hayt⟩ := Arr2.mulVec_mat (A := A) (v := y) hA hy
              obtain ⟨ay', hay', hayl', hayt'⟩ := Arr2.mulVec_mat (A := A') (v := y) hA' hy
              obtain ⟨db, hdb, hdl, hdt⟩ := broadcast1_mat (fun p q => p - q) (u := b) (v := ay) hb hayl
              obtain ⟨db', hdb', hdl', hdt'⟩ := broadcast1_mat (fun p q => p - q) (u := b') (v := ay') hb' hayl'
              have : sqNorm db' = sqNorm db := by
                rw [sqNorm_eq hdl, hdt, hayt, sqNorm_eq hdl', hdt', hayt']
                exact h (toVec N y)
              simp only [hay, hay', hdb, hdb', this]
            · have e1 : A.mulVec y = .error .valueError := by
                unfold Arr2.mulVec; rw [if_neg (by rw [hA.2]; exact fun h => hy h.symm)]
              have e2 : A'.mulVec y = .error .valueError := by
                unfold Arr2.mulVec; rw [if_neg (by rw [hA'.2]; exact fun h => hy h.symm)]
              simp only [e1, e2]

/-- C146, the lasso fit: from measurements with the same correlations the fit computes the same, whatever the solver, the prior and the
state of the object: the same result, log and exception. -/
theorem C146_fit (solve : Solver) (cfg : RegConfig) {lap : Bool} (hdt : cfg.dt = dtMatrix ℂ lap) (obj : RegObj) {x z x' z' : Arr2 ℂ}
    (yInit : Arr2 ℂ) (hz : z.c = x.c) (h : Spec.SameCorrelations x z x' z') :
    bayesianFit solve cfg obj x' z' yInit = bayesianFit solve cfg obj x z yInit := by
  obtain ⟨dt, hdt', -⟩ := dt_closed (α := ℂ) lap x.c
  obtain ⟨A, hA, har, hac, -⟩ := regressionMatrix_spec lap x.c hdt' x rfl
  obtain ⟨A', hA', har', hac', -⟩ := regressionMatrix_spec lap x.c hdt' x' h.voltages
  have hstep : ∀ s, regStep solve cfg x.c dt A' (makeRealVector (vectorizeMatrix z')) s =
      regStep solve cfg x.c dt A (makeRealVector (vectorizeMatrix z)) s := by
    refine regStep_congr solve cfg x.c dt ⟨har, hac⟩ ⟨har', hac'⟩ ?_ ?_ fun v => ?_
    · rw [makeRealVector_length, vec_length, hz, ← h.rows]
    · rw [makeRealVector_length, vec_length, h.currents, hz, ← h.rows']
    · have hl : (List.ofFn v).length = nReal lap x.c := List.length_ofFn
      have hv : toVec (nReal lap x.c) (List.ofFn v) = v := by
        funext k
        simp [toVec, List.getD]
      obtain ⟨Y, -, -, -, -, -, hY⟩ := toMatrix_ok lap x.c hdt' hl
      have e1 := real_misfit lap x.c hdt' (x := x) (z := z) rfl ⟨h.rows.symm, hz⟩ hA hl hY
      have e2 := real_misfit lap x.c hdt' (x := x') (z := z') h.voltages ⟨h.rows'.symm, h.currents.trans hz⟩ hA' hl hY
      rw [hv] at e1 e2
      rw [e1, e2, misfit_same h]
  unfold bayesianFit
  simp only [hdt, h.voltages, hdt', hA, hA', bind, Except.bind, pure, Except.pure]
  cases cfg.e x.c with
  | error e => rfl
  | ok e =>
    dsimp only
    cases toParams e yInit with
    | error e => rfl
    | ok y =>
      dsimp only
      cases cfg.prior.logDistribution y with
      | error e => rfl
      | ok q =>
        dsimp only
        rw [funext hstep]

/-! ### least squares -/

/-- C146, ordinary least squares. -/
theorem C146_ols {pinv : Arr2 ℂ → Except PyErr (Arr2 ℂ)} (hpinv : Spec.PinvContract pinv) {x z x' z' : Arr2 ℂ}
    (h : Spec.SameCorrelations x z x' z') : complexRegressionFit pinv x' z' = complexRegressionFit pinv x z := by
  obtain ⟨p, hp, P⟩ := hpinv x
  obtain ⟨p', hp', P'⟩ := hpinv x'
  obtain ⟨B, hB, hBr, hBc, hBm⟩ := Arr2.matmul_mat (A := p) (B := z) (m := x.c) (k := x.r) (n := z.c) ⟨P.rows, P.cols⟩ ⟨h.rows.symm, rfl⟩
  obtain ⟨B', hB', hBr', hBc', hBm'⟩ := Arr2.matmul_mat (A := p') (B := z') (m := x.c) (k := x'.r) (n := z.c)
    ⟨P'.rows.trans h.voltages, P'.cols⟩ ⟨h.rows'.symm, h.currents⟩
  simp only [complexRegressionFit, hp, hp', bind, Except.bind, hB, hB']
  refine congrArg Except.ok (Arr2.toMat_inj ⟨hBr', hBc'⟩ ⟨hBr, hBc⟩ ?_)
  obtain ⟨-, -, a1, a2, a3, a4⟩ := P
  obtain ⟨-, -, b1, b2, b3, b4⟩ := P'
  have hc := h.voltages
  rw [hc] at b1 b2 b3 b4
  have hgram := same_gram h rfl rfl
  have hxx : (x'.toMat x'.r x.c)ᴴ * x'.toMat x'.r x.c = (x.toMat x.r x.c)ᴴ * x.toMat x.r x.c := by
    ext i j
    have := congrFun (congrFun hgram (Fin.castAdd z.c i)) (Fin.castAdd z.c j)
    simp only [mul_apply, conjTranspose_apply, side, Fin.append_left] at this
    rw [mul_apply, mul_apply]
    exact this
  have hxz : (x'.toMat x'.r x.c)ᴴ * z'.toMat x'.r z.c = (x.toMat x.r x.c)ᴴ * z.toMat x.r z.c := by
    ext i j
    have := congrFun (congrFun hgram (Fin.castAdd z.c i)) (Fin.natAdd x.c j)
    simp only [mul_apply, conjTranspose_apply, side, Fin.append_left, Fin.append_right] at this
    rw [mul_apply, mul_apply]
    exact this
  have key : ∀ {T : Nat} {X : Matrix (Fin T) (Fin x.c) ℂ} {Q : Matrix (Fin x.c) (Fin T) ℂ}, X * Q * X = X → Q * X * Q = Q →
      (X * Q)ᴴ = X * Q → (Q * X)ᴴ = Q * X → Q = Q * Qᴴ * Xᴴ ∧ Xᴴ * X * (Q * Qᴴ) = Q * X ∧ Q * Qᴴ * (Xᴴ * X) = Q * X := by
    intro T X Q q1 q2 q3 q4
    have r1 : Q * Qᴴ * Xᴴ = Q := by rw [Matrix.mul_assoc, ← conjTranspose_mul, q3, ← Matrix.mul_assoc, q2]
    have r2 : Xᴴ * (X * Q) = Xᴴ := by
      rw [← q3, ← conjTranspose_mul, q1]
    refine ⟨r1.symm, ?_, ?_⟩
    · rw [← Matrix.mul_assoc, Matrix.mul_assoc Xᴴ, r2, ← conjTranspose_mul, q4]
    · rw [← Matrix.mul_assoc, r1]
  obtain ⟨k1, k2, k3⟩ := key a1 a2 a3 a4
  obtain ⟨l1, l2, l3⟩ := key b1 b2 b3 b4
  set X := x.toMat x.r x.c with hX
  set X' := x'.toMat x'.r x.c with hX'
  set Q := p.toMat x.c x.r with hQ
  set Q' := p'.toMat x.c x'.r with hQ'
  have hG : ∀ {T : Nat} {X : Matrix (Fin T) (Fin x.c) ℂ} {Q : Matrix (Fin x.c) (Fin T) ℂ}, X * Q * X = X → Q * X * Q = Q →
      (Q * X)ᴴ = Q * X → Xᴴ * X * (Q * Qᴴ) = Q * X → Q * Qᴴ * (Xᴴ * X) = Q * X →
      (Xᴴ * X) * (Q * Qᴴ) * (Xᴴ * X) = Xᴴ * X ∧ (Q * Qᴴ) * (Xᴴ * X) * (Q * Qᴴ) = Q * Qᴴ := by
    intro T X Q q1 q2 q4 r2 r3
    refine ⟨?_, ?_⟩
    · rw [Matrix.mul_assoc, r3, Matrix.mul_assoc, ← Matrix.mul_assoc X, q1]
    · rw [r3, ← Matrix.mul_assoc, q2]
  obtain ⟨g1, g2⟩ := hG a1 a2 a4 k2 k3
  obtain ⟨g1', g2'⟩ := hG b1 b2 b4 l2 l3
  have hPP : Q' * Q'ᴴ = Q * Qᴴ := by
    refine mp_unique (M := Xᴴ * X) ?_ ?_ ?_ ?_ g1 g2 (by rw [k2, a4]) (by rw [k3, a4])
    · rw [← hxx, g1']
    · rw [← hxx, g2']
    · rw [← hxx, l2, b4]
    · rw [← hxx, l3, b4]
  rw [hBm, hBm', k1, l1, Matrix.mul_assoc (Q' * Q'ᴴ), Matrix.mul_assoc (Q * Qᴴ), hPP, hxz]

theorem solvesTls_same {x z x' z' Y : Arr2 ℂ} (h : Spec.SameCorrelations x z x' z') (hY : Spec.SolvesTls x' z' Y) :
    Spec.SolvesTls x z Y := by
  have move : ∀ {x z x' z' : Arr2 ℂ}, Spec.SameCorrelations x z x' z' → ∀ {dx dz Y : Arr2 ℂ}, Spec.Corrects x z dx dz Y →
      ∃ dx' dz', Spec.Corrects x' z' dx' dz' Y ∧ Spec.correctionSize x' z' dx' dz' ≤ Spec.correctionSize x z dx dz := by
    intro x z x' z' h dx dz Y hd
    rw [corrects_iff] at hd
    have hgram := same_gram h rfl rfl
    set D := side x.r x.c z.c dx dz with hD
    set M := side x.r x.c z.c x z with hM
    set M' := side x'.r x.c z.c x' z' with hM'
    set W := overNegOne (Y.toMat x.c z.c) with hW
    obtain ⟨P, hH, hP, hPW, -, G, hPG⟩ := exists_projection W (overNegOne_inj _)
    obtain ⟨dx', dz', hs⟩ := side_surj (n := x.c) (m := z.c) (-(M' * P))
    refine ⟨dx', dz', ?_, ?_⟩
    · rw [corrects_iff, h.voltages, h.currents, hs, ← hM', ← hW, Matrix.add_mul, Matrix.neg_mul, Matrix.mul_assoc, hPW, add_neg_cancel]
    · rw [correctionSize_eq, correctionSize_eq, h.voltages, h.currents, hs, ← hD, frob_neg, frob_same_gram hgram]
      have : M * P = -(D * P) := by
        rw [hPG, ← Matrix.mul_assoc, ← Matrix.mul_assoc, ← Matrix.neg_mul]
        refine congrArg (· * G) ?_
        rw [Matrix.add_mul] at hd
        exact eq_neg_of_add_eq_zero_left hd
      rw [this, frob_neg, frob_mul_projection D P hH hP]
      exact le_add_of_nonneg_right (frob_nonneg _)
  obtain ⟨dx', dz', hc, hmin⟩ := hY
  obtain ⟨dx, dz, hc1, hle⟩ := move h.symm hc
  refine ⟨dx, dz, hc1, fun ex ez Y1 h1 => ?_⟩
  obtain ⟨ex', ez', h2, hle2⟩ := move h h1
  exact hle.trans ((hmin _ _ _ h2).trans hle2)

/-- C146, total least squares: if both fits return and there is a gap after the first `n` singular values, they return the same. -/
theorem C146_tls {svdVh inv : Arr2 ℂ → Except PyErr (Arr2 ℂ)} (hsvd : Spec.SvdContract svdVh) (hinv : Spec.InvSound inv)
    {x z xz x' z' Y Y' : Arr2 ℂ} (h : Spec.SameCorrelations x z x' z') (hY : tlsFit svdVh inv x z = .ok Y)
    (hY' : tlsFit svdVh inv x' z' = .ok Y') (hxz : hstack x z = .ok xz) (hgap : Spec.SingularGap xz x.c) : Y' = Y := by
  obtain ⟨hs, hsol⟩ := C142 hsvd hinv hY'
  exact C142_unique hsvd hinv hY hxz hgap ⟨hs.1.trans h.voltages, hs.2.trans h.currents⟩ (solvesTls_same h hsol)

/-- C146 for `standard_methods`: two runs on measurements whose centred values have the same correlations return the same ordinary least
squares and lasso estimates, and with a gap the same total least squares estimate. -/
theorem C146_standard {ext : NumExt} (hsvd : Spec.SvdContract ext.svdVh) (hinv : Spec.InvSound ext.inv) (hpinv : Spec.PinvContract ext.pinv)
    {cf : IdConf} {name name' : String} {v i v' i' : Arr2 ℂ} {lap : Bool} {K : Nat} {st st' : Store} {o t l o' t' l' : Arr2 ℂ}
    (hsq : i.c = v.c)
    (h : (standardMethods ext cf name (some v) (some i) lap K st).1 = .ok (o, t, l))
    (h' : (standardMethods ext cf name' (some v') (some i') lap K st').1 = .ok (o', t', l'))
    (hc : Spec.SameCorrelations (centreData lap v i).1 (centreData lap v i).2 (centreData lap v' i').1 (centreData lap v' i').2) :
    o' = o ∧ l' = l ∧
      ∀ xz, hstack (centreData lap v i).1 (centreData lap v i).2 = .ok xz → Spec.SingularGap xz v.c → t' = t := by
  have hv : ∀ v i : Arr2 ℂ, (centreData lap v i).1.c = v.c ∧ (centreData lap v i).2.c = i.c := by
    intro v i
    unfold centreData
    split <;> exact ⟨rfl, rfl⟩
  have hvc : v'.c = v.c := by rw [← (hv v' i').1, hc.voltages, (hv v i).1]
  have parts : ∀ {name : String} {v i : Arr2 ℂ} {st : Store} {o t l : Arr2 ℂ},
      (standardMethods ext cf name (some v) (some i) lap K st).1 = .ok (o, t, l) →
      standardCompute ext cf v i lap K = .ok (o, t, l) ∧ complexRegressionFit ext.pinv (centreData lap v i).1 (centreData lap v i).2 = .ok o ∧
      tlsFit ext.svdVh ext.inv (centreData lap v i).1 (centreData lap v i).2 = .ok t := by
    intro name v i st o t l h
    unfold standardMethods at h
    cases hs : standardCompute ext cf v i lap K with
    | error e => simp only [hs] at h; cases h
    | ok r =>
      simp only [hs] at h
      obtain rfl : r = (o, t, l) := Except.ok.inj h
      refine ⟨rfl, ?_⟩
      unfold standardCompute at hs
      dsimp only at hs
      obtain ⟨yo, ho, hs⟩ := Prior.bind_ok hs
      obtain ⟨yt, ht, hs⟩ := Prior.bind_ok hs
      obtain ⟨p, -, hs⟩ := Prior.bind_ok hs
      have he : yo = o ∧ yt = t := by
        split at hs
        · obtain ⟨y0, -, hs⟩ := Prior.bind_ok hs
          obtain ⟨⟨_, _⟩, -, hs⟩ := Prior.bind_ok hs
          exact ⟨congrArg (fun q => q.1) (Except.ok.inj hs), congrArg (fun q => q.2.1) (Except.ok.inj hs)⟩
        · exact ⟨congrArg (fun q => q.1) (Except.ok.inj hs), congrArg (fun q => q.2.1) (Except.ok.inj hs)⟩
      obtain ⟨rfl, rfl⟩ := he
      exact ⟨ho, ht⟩
  obtain ⟨h1, h2, h3⟩ := parts h
  obtain ⟨h1', h2', h3'⟩ := parts h'
  obtain rfl : o' = o := Except.ok.inj (h2'.symm.trans ((C146_ols hpinv hc).trans h2))
  refine ⟨rfl, ?_, ?_⟩
  · have hfit := fun prior y0 => C146_fit ext.solve (regConfig cf prior cf.lambdaLasso lap K) (lap := lap) rfl .fresh y0
      (by rw [(hv v i).1, (hv v i).2, hsq]) hc
    unfold standardCompute at h1 h1'
    simp only [h2, h2', h3, h3', hvc, hfit, bind, Except.bind, pure, Except.pure] at h1 h1'
    cases hp : buildLassoPrior v.c o' lap with
    | error e => simp only [hp] at h1; cases h1
    | ok p =>
      simp only [hp] at h1 h1'
      split at h1
      · rename_i hK
        simp only [hK, if_true] at h1'
        cases hh : halfSum o' with
        | error e => simp only [hh] at h1; cases h1
        | ok y0 =>
          simp only [hh] at h1 h1'
          cases hfi : fitted (bayesianFit ext.solve (regConfig cf p cf.lambdaLasso lap K) .fresh (centreData lap v i).1 (centreData lap v i).2 y0) with
          | error e => simp only [hfi] at h1; cases h1
          | ok q =>
            simp only [hfi] at h1 h1'
            have e1 := congrArg (fun q => q.2.2) (Except.ok.inj h1)
            have e2 := congrArg (fun q => q.2.2) (Except.ok.inj h1')
            exact e2.symm.trans e1
      · rename_i hK
        simp only [hK, if_false] at h1'
        have e1 := congrArg (fun q => q.2.2) (Except.ok.inj h1)
        have e2 := congrArg (fun q => q.2.2) (Except.ok.inj h1')
        exact e2.symm.trans e1
  · intro xz hxz hgap
    exact C146_tls hsvd hinv hc h3 h3' hxz (by rw [(hv v i).1]; exact hgap)

/-- measurements in another order, or with other reference angles of the samples, have the same correlations -/
theorem C146_samples {x z x' z' : Arr2 ℂ} {T n : Nat} {θ : Nat → ℂ} (hθ : ∀ t, Complex.normSq (θ t) = 1) {π : Equiv.Perm (Fin T)}
    (hx : Spec.Rewritten (n := n) x x' 1 θ π 1) (hz : Spec.Rewritten (n := n) z z' 1 θ π 1) : Spec.SameCorrelations x z x' z' := by
  obtain ⟨x1, x2⟩ := hx.shape
  obtain ⟨x1', x2'⟩ := hx.shape'
  obtain ⟨z1, z2⟩ := hz.shape
  obtain ⟨z1', z2'⟩ := hz.shape'
  refine ⟨x1.trans z1.symm, x1'.trans z1'.symm, x2'.trans x2.symm, z2'.trans z2.symm, fun a ha b hb => ?_⟩
  have col : ∀ a < n + n, ∀ t : Fin T, Spec.column x' z' a t = θ t * Spec.column x z a (π t) := by
    intro a ha t
    unfold Spec.column
    rw [x2, x2']
    split
    · rename_i h
      have := hx.entries t ⟨a, h⟩
      simpa using this
    · have := hz.entries t ⟨a - n, by omega⟩
      simpa using this
  rw [x2, z2] at ha hb
  unfold Spec.correlation
  rw [x1, x1', ← Fin.sum_univ_eq_sum_range (fun t => star (Spec.column x' z' a t) * Spec.column x' z' b t),
    ← Fin.sum_univ_eq_sum_range (fun t => star (Spec.column x z a t) * Spec.column x z b t),
    ← Equiv.sum_comp π (fun t => star (Spec.column x z a t) * Spec.column x z b t)]
  refine Finset.sum_congr rfl fun t _ => ?_
  have h1 : star (θ t) * θ t = 1 := by
    rw [mul_comm, Complex.star_def, Complex.mul_conj, hθ]; rfl
  rw [col a ha t, col b hb t, star_mul']
  linear_combination (star (Spec.column x z a (π t)) * Spec.column x z b (π t)) * h1

/-- Concrete data: voltages 3, 4 and currents 4, -3 have the same correlations as voltages 5, 0, 0 and currents 0, 5, 0. -/
theorem demo_C146 : Spec.SameCorrelations (Arr2.ofFn 2 1 fun i _ => if i = 0 then 3 else 4)
    (Arr2.ofFn 2 1 fun i _ => if i = 0 then 4 else -3) (Arr2.ofFn 3 1 fun i _ => if i = 0 then 5 else 0)
    (Arr2.ofFn 3 1 fun i _ => if i = 1 then 5 else 0) := by
  refine ⟨rfl, rfl, rfl, rfl, fun a ha b hb => ?_⟩
  have ha' : a = 0 ∨ a = 1 := by
    simp only [Arr2.ofFn_c] at ha; omega
  have hb' : b = 0 ∨ b = 1 := by
    simp only [Arr2.ofFn_c] at hb; omega
  rcases ha' with rfl | rfl <;> rcases hb' with rfl | rfl <;>
    simp [Spec.correlation, Spec.column, Finset.sum_range_succ, Arr2.ofFn_get', map_ofNat] <;> norm_num

end
end Verif
