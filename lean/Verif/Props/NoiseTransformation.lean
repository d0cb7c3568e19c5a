/-
Property theorems C23 - C28 about `src/models/noise_transformation.py`.
-/
import Verif.Lemmas.NoiseCov
import Verif.Lemmas.PolarGauss
import Verif.Spec.Noise
import Mathlib.Analysis.SpecialFunctions.Trigonometric.DerivHyp

namespace Verif
open Spec MeasureTheory ProbabilityTheory
open scoped NNReal
noncomputable section

/-! ### helpers -/

theorem pos_lt {T t j n : Nat} (ht : t < T) (hj : j < n) : pos T t j < n * T := by
  calc pos T t j < j * T + T := by unfold pos; omega
    _ = (j + 1) * T := by ring
    _ ≤ n * T := Nat.mul_le_mul_right _ hj

/-- The three diagonals for a valid argument. -/
theorem noise_diags (F : PolarCov) (M : Arr2 ℂ) (sd : SdArg) (sdp : ℝ) (h : ValidSd sd M.c) :
    ∃ a b c : List ℝ, a.length = M.c * M.r ∧ b.length = M.c * M.r ∧ c.length = M.c * M.r ∧
      (∀ t j, t < M.r → j < M.c →
        a.getD (pos M.r t j) 0 = F.re ‖M.get t j‖ (Complex.arg (M.get t j)) (sdAt sd j ^ 2) (sdp ^ 2) ∧
        b.getD (pos M.r t j) 0 = F.im ‖M.get t j‖ (Complex.arg (M.get t j)) (sdAt sd j ^ 2) (sdp ^ 2) ∧
        c.getD (pos M.r t j) 0 = F.cov ‖M.get t j‖ (Complex.arg (M.get t j)) (sdAt sd j ^ 2) (sdp ^ 2)) ∧
      (∀ inv, noiseCovariance F F M sd sdp inv =
        (if inv then covBlock (invertDiag a b c).1 (invertDiag a b c).2.1 (invertDiag a b c).2.2
          else covBlock a b c)) := by
  cases sd with
  | pyFloat s =>
    refine ⟨allDiag F.re M s sdp, allDiag F.im M s sdp, allDiag F.cov M s sdp, (allDiag_spec F.re M s sdp).1,
      (allDiag_spec F.im M s sdp).1, (allDiag_spec F.cov M s sdp).1, fun t j ht hj =>
      ⟨(allDiag_spec F.re M s sdp).2 t j ht hj, (allDiag_spec F.im M s sdp).2 t j ht hj,
        (allDiag_spec F.cov M s sdp).2 t j ht hj⟩, fun inv => ?_⟩
    cases inv <;> rfl
  | pyInt s => exact absurd h id
  | npScalar s =>
    refine ⟨allDiag F.re M s sdp, allDiag F.im M s sdp, allDiag F.cov M s sdp, (allDiag_spec F.re M s sdp).1,
      (allDiag_spec F.im M s sdp).1, (allDiag_spec F.cov M s sdp).1, fun t j ht hj =>
      ⟨(allDiag_spec F.re M s sdp).2 t j ht hj, (allDiag_spec F.im M s sdp).2 t j ht hj,
        (allDiag_spec F.cov M s sdp).2 t j ht hj⟩, fun inv => ?_⟩
    have h1 : ¬ (1 = M.c) := fun e => h e.symm
    cases inv <;> simp [noiseCovariance, h1, bind, Except.bind]
  | array ss =>
    refine ⟨colDiag F.re M ss sdp, colDiag F.im M ss sdp, colDiag F.cov M ss sdp, (colDiag_spec F.re M ss sdp).1,
      (colDiag_spec F.im M ss sdp).1, (colDiag_spec F.cov M ss sdp).1, fun t j ht hj =>
      ⟨(colDiag_spec F.re M ss sdp).2 t j ht hj, (colDiag_spec F.im M ss sdp).2 t j ht hj,
        (colDiag_spec F.cov M ss sdp).2 t j ht hj⟩, fun inv => ?_⟩
    have h1 : ss.length = M.c := h
    cases inv <;> simp [noiseCovariance, h1, bind, Except.bind]

/-- Non-inverted result for a valid argument. -/
theorem noise_reads (F : PolarCov) (M : Arr2 ℂ) (sd : SdArg) (sdp : ℝ) (h : ValidSd sd M.c) :
    ∃ S, noiseCovariance F F M sd sdp false = .ok S ∧
      S.r = 2 * (M.c * M.r) ∧ S.c = 2 * (M.c * M.r) ∧
      (∀ t j, t < M.r → j < M.c → Reads S (M.c * M.r) (pos M.r t j)
        (F.re ‖M.get t j‖ (Complex.arg (M.get t j)) (sdAt sd j ^ 2) (sdp ^ 2))
        (F.im ‖M.get t j‖ (Complex.arg (M.get t j)) (sdAt sd j ^ 2) (sdp ^ 2))
        (F.cov ‖M.get t j‖ (Complex.arg (M.get t j)) (sdAt sd j ^ 2) (sdp ^ 2))) ∧
      (∀ p q, p < 2 * (M.c * M.r) → q < 2 * (M.c * M.r) → p % (M.c * M.r) ≠ q % (M.c * M.r) → S.get p q = 0) := by
  obtain ⟨a, b, c, ha, hb, hc, he, hn⟩ := noise_diags F M sd sdp h
  have hcl := covBlock_closed ha hb hc
  refine ⟨_, (hn false).trans hcl, by rw [Arr2.ofFn_r]; omega, by rw [Arr2.ofFn_c]; omega, ?_, ?_⟩
  · intro t j ht hj
    have hk := pos_lt ht hj
    obtain ⟨h1, h2, h3⟩ := he t j ht hj
    refine ⟨?_, ?_, ?_, ?_⟩ <;> rw [Arr2.ofFn_get _ (by omega) (by omega)] <;> unfold blockEntry
    · simp only [hk, if_true]; exact h1
    · simpa [hk] using h2
    · simpa [hk] using h3
    · simpa [hk] using h3
  · intro p q hp hq hne
    rw [Arr2.ofFn_get _ (by omega) (by omega)]
    have hm : ∀ x, x < 2 * (M.c * M.r) → x % (M.c * M.r) = if x < M.c * M.r then x else x - M.c * M.r := by
      intro x hx
      split
      · exact Nat.mod_eq_of_lt (by assumption)
      · rw [Nat.mod_eq_sub_mod (by omega), Nat.mod_eq_of_lt (by omega)]
    rw [hm p hp, hm q hq] at hne
    unfold blockEntry
    by_cases h1 : p < M.c * M.r <;> by_cases h2 : q < M.c * M.r <;> simp only [h1, h2, if_true, if_false] at hne ⊢ <;>
      rw [if_neg hne]

/-! ### C27 -/

/-- **C27.** For every measurement matrix and every usable standard-deviation argument, the three covariance functions
return a `2Tn x 2Tn` matrix that couples only the two cartesian coordinates of one and the same entry of the
column-vectorised data; entry `k` of the vectorisation of the data sits at positions `k` and `Tn + k`. -/
theorem C27_layout (M : Arr2 ℂ) (sd : SdArg) (sdp : ℝ) (h : ValidSd sd M.c) (F : PolarCov)
    (f : Arr2 ℂ → SdArg → ℝ → Bool → Except PyErr (Arr2 ℝ))
    (hf : (f = exactNoiseCovariance ∧ F = exactAll) ∨ (f = naiveNoiseCovariance ∧ F = naiveAll) ∨
      (f = averageTrueNoiseCovariance ∧ F = averageCov)) :
    ∃ S, f M sd sdp false = .ok S ∧ S.r = 2 * (M.c * M.r) ∧ S.c = 2 * (M.c * M.r) ∧
      (∀ t j, t < M.r → j < M.c →
        (vectorizeMatrix M).getD (pos M.r t j) 0 = M.get t j ∧
        Reads S (M.c * M.r) (pos M.r t j)
          (F.re ‖M.get t j‖ (Complex.arg (M.get t j)) (sdAt sd j ^ 2) (sdp ^ 2))
          (F.im ‖M.get t j‖ (Complex.arg (M.get t j)) (sdAt sd j ^ 2) (sdp ^ 2))
          (F.cov ‖M.get t j‖ (Complex.arg (M.get t j)) (sdAt sd j ^ 2) (sdp ^ 2))) ∧
      (∀ p q, p < 2 * (M.c * M.r) → q < 2 * (M.c * M.r) → p % (M.c * M.r) ≠ q % (M.c * M.r) → S.get p q = 0) := by
  have key : f = noiseCovariance F F := by
    rcases hf with ⟨rfl, rfl⟩ | ⟨rfl, rfl⟩ | ⟨rfl, rfl⟩ <;> rfl
  subst key
  obtain ⟨S, h1, h2, h3, h4, h5⟩ := noise_reads F M sd sdp h
  exact ⟨S, h1, h2, h3, fun t j ht hj => ⟨vec_getD M ht hj, h4 t j ht hj⟩, h5⟩

/-- **C27.** A constant vector of standard deviations gives the result of the float, inverted or not. -/
theorem C27_constant_vector (M : Arr2 ℂ) (s sdp : ℝ) (inv : Bool)
    (f : Arr2 ℂ → SdArg → ℝ → Bool → Except PyErr (Arr2 ℝ))
    (hf : f = exactNoiseCovariance ∨ f = naiveNoiseCovariance ∨ f = averageTrueNoiseCovariance) :
    f M (.array (List.replicate M.c s)) sdp inv = f M (.pyFloat s) sdp inv := by
  have key : ∃ F, f = noiseCovariance F F := by
    rcases hf with rfl | rfl | rfl
    · exact ⟨exactAll, rfl⟩
    · exact ⟨naiveAll, rfl⟩
    · exact ⟨averageCov, rfl⟩
  obtain ⟨F, rfl⟩ := key
  obtain ⟨a, b, c, ha, hb, hc, he, hn⟩ := noise_diags F M (.array (List.replicate M.c s)) sdp (by simp [ValidSd])
  obtain ⟨a', b', c', ha', hb', hc', he', hn'⟩ := noise_diags F M (.pyFloat s) sdp trivial
  have hs : ∀ j, j < M.c → sdAt (.array (List.replicate M.c s)) j = sdAt (.pyFloat s) j := by
    intro j hj
    simp [sdAt, hj]
  have e1 : a = a' := vec_ext ha ha' fun t j ht hj => by
    have h1 := (he t j ht hj).1; have h2 := (he' t j ht hj).1
    rw [hs j hj] at h1; exact h1.trans h2.symm
  have e2 : b = b' := vec_ext hb hb' fun t j ht hj => by
    have h1 := (he t j ht hj).2.1; have h2 := (he' t j ht hj).2.1
    rw [hs j hj] at h1; exact h1.trans h2.symm
  have e3 : c = c' := vec_ext hc hc' fun t j ht hj => by
    have h1 := (he t j ht hj).2.2; have h2 := (he' t j ht hj).2.2
    rw [hs j hj] at h1; exact h1.trans h2.symm
  rw [hn, hn', e1, e2, e3]

example : ValidSd (.array [1, 2]) 2 ∧ ValidSd (.npScalar 3) 2 ∧ ValidSd (.pyFloat 1) 1 := by simp [ValidSd]

/-! ### C23 -/

/-- **C23.** The linearised covariance of every sample is `J diag(sd_m², sd_p²) Jᵀ`, where `J` is *any* matrix of partial
derivatives of the polar-to-cartesian map at the measured magnitude and phase. -/
theorem C23_first_order (M : Arr2 ℂ) (sd : SdArg) (sdp : ℝ) (h : ValidSd sd M.c) :
    ∃ S, naiveNoiseCovariance M sd sdp false = .ok S ∧ ∀ t j, t < M.r → j < M.c →
      ∀ J11 J12 J21 J22 : ℝ,
      HasDerivAt (fun m => m * Real.cos (Complex.arg (M.get t j))) J11 ‖M.get t j‖ →
      HasDerivAt (fun f => ‖M.get t j‖ * Real.cos f) J12 (Complex.arg (M.get t j)) →
      HasDerivAt (fun m => m * Real.sin (Complex.arg (M.get t j))) J21 ‖M.get t j‖ →
      HasDerivAt (fun f => ‖M.get t j‖ * Real.sin f) J22 (Complex.arg (M.get t j)) →
      Reads S (M.c * M.r) (pos M.r t j)
        (J11 * sdAt sd j ^ 2 * J11 + J12 * sdp ^ 2 * J12)
        (J21 * sdAt sd j ^ 2 * J21 + J22 * sdp ^ 2 * J22)
        (J11 * sdAt sd j ^ 2 * J21 + J12 * sdp ^ 2 * J22) := by
  obtain ⟨S, h1, -, -, h4, -⟩ := noise_reads naiveAll M sd sdp h
  refine ⟨S, h1, fun t j ht hj J11 J12 J21 J22 d11 d12 d21 d22 => ?_⟩
  have := h4 t j ht hj
  set m := ‖M.get t j‖
  set f := Complex.arg (M.get t j)
  have e11 : J11 = Real.cos f := d11.unique (by simpa using (hasDerivAt_id m).mul_const (Real.cos f))
  have e21 : J21 = Real.sin f := d21.unique (by simpa using (hasDerivAt_id m).mul_const (Real.sin f))
  have e12 : J12 = m * (-Real.sin f) := d12.unique ((Real.hasDerivAt_cos f).const_mul m)
  have e22 : J22 = m * Real.cos f := d22.unique ((Real.hasDerivAt_sin f).const_mul m)
  subst e11 e21 e12 e22
  simp only [naiveAll] at this
  obtain ⟨a, b, c, d⟩ := this
  refine ⟨a.trans (by ring), b.trans (by ring), c.trans (by ring), d.trans (by ring)⟩

/-- the derivatives exist, so C23 determines every entry -/
example (z : ℂ) : ∃ J11 J12 J21 J22 : ℝ,
    HasDerivAt (fun m => m * Real.cos (Complex.arg z)) J11 ‖z‖ ∧
    HasDerivAt (fun f => ‖z‖ * Real.cos f) J12 (Complex.arg z) ∧
    HasDerivAt (fun m => m * Real.sin (Complex.arg z)) J21 ‖z‖ ∧
    HasDerivAt (fun f => ‖z‖ * Real.sin f) J22 (Complex.arg z) :=
  ⟨Real.cos (Complex.arg z), ‖z‖ * (-Real.sin (Complex.arg z)), Real.sin (Complex.arg z), ‖z‖ * Real.cos (Complex.arg z),
    by simpa using (hasDerivAt_id ‖z‖).mul_const (Real.cos (Complex.arg z)),
    (Real.hasDerivAt_cos _).const_mul _,
    by simpa using (hasDerivAt_id ‖z‖).mul_const (Real.sin (Complex.arg z)),
    (Real.hasDerivAt_sin _).const_mul _⟩

/-- **C23.** The linearised covariance of every sample is positive semidefinite and has determinant
`sd_m² · m² · sd_p²`. -/
theorem C23_psd_det (M : Arr2 ℂ) (sd : SdArg) (sdp : ℝ) (h : ValidSd sd M.c) :
    ∃ S, naiveNoiseCovariance M sd sdp false = .ok S ∧ ∀ t j, t < M.r → j < M.c →
      ∃ a b c, Reads S (M.c * M.r) (pos M.r t j) a b c ∧
        (∀ x y : ℝ, 0 ≤ x * (a * x + c * y) + y * (c * x + b * y)) ∧
        a * b - c * c = sdAt sd j ^ 2 * ‖M.get t j‖ ^ 2 * sdp ^ 2 := by
  obtain ⟨S, h1, -, -, h4, -⟩ := noise_reads naiveAll M sd sdp h
  refine ⟨S, h1, fun t j ht hj => ⟨_, _, _, h4 t j ht hj, ?_, ?_⟩⟩ <;> simp only [naiveAll]
  · intro x y
    have : ∀ C Sn sm m sp : ℝ, x * ((C ^ 2 * sm ^ 2 + m ^ 2 * Sn ^ 2 * sp ^ 2) * x + Sn * C * (sm ^ 2 - m ^ 2 * sp ^ 2) * y)
        + y * (Sn * C * (sm ^ 2 - m ^ 2 * sp ^ 2) * x + (Sn ^ 2 * sm ^ 2 + m ^ 2 * C ^ 2 * sp ^ 2) * y) =
        (sm * (C * x + Sn * y)) ^ 2 + (m * sp * (Sn * x - C * y)) ^ 2 := by intros; ring
    rw [this]
    positivity
  · have hsc := Real.sin_sq_add_cos_sq (Complex.arg (M.get t j))
    set C := Real.cos (Complex.arg (M.get t j))
    set Sn := Real.sin (Complex.arg (M.get t j))
    have : ∀ A m B : ℝ, (C ^ 2 * A + m ^ 2 * Sn ^ 2 * B) * (Sn ^ 2 * A + m ^ 2 * C ^ 2 * B)
        - Sn * C * (A - m ^ 2 * B) * (Sn * C * (A - m ^ 2 * B)) = A * m ^ 2 * B * (Sn ^ 2 + C ^ 2) ^ 2 := by
      intros; ring
    rw [this, hsc]; ring

/-! ### C24 -/

/-- variance of a Gaussian with standard deviation `s` -/
def sqv (s : ℝ) : ℝ≥0 := ⟨s ^ 2, sq_nonneg s⟩

/-- **C24.** On any probability space carrying independent centred Gaussian errors `δm`, `δf` with the given standard
deviations, the covariance matrix of the real and imaginary parts of `(m + δm) e^{i (f + δf)}` is what
`exact_noise_covariance` returns for that sample. -/
theorem C24_exact_is_true_covariance (M : Arr2 ℂ) (sd : SdArg) (sdp : ℝ) (h : ValidSd sd M.c) :
    ∃ S, exactNoiseCovariance M sd sdp false = .ok S ∧ ∀ t j, t < M.r → j < M.c →
      ∀ (Ω : Type) [MeasurableSpace Ω] (P : Measure Ω) [IsProbabilityMeasure P] (δm δf : Ω → ℝ),
      HasLaw δm (gaussianReal 0 (sqv (sdAt sd j))) P → HasLaw δf (gaussianReal 0 (sqv sdp)) P → δm ⟂ᵢ[P] δf →
      ∀ X Y : Ω → ℝ,
      (∀ ω, (X ω + Y ω * Complex.I : ℂ) =
        ((‖M.get t j‖ + δm ω : ℝ) : ℂ) * Complex.exp (((Complex.arg (M.get t j) + δf ω : ℝ) : ℂ) * Complex.I)) →
      Reads S (M.c * M.r) (pos M.r t j) (cov[X, X; P]) (cov[Y, Y; P]) (cov[X, Y; P]) := by
  obtain ⟨S, h1, -, -, h4, -⟩ := noise_reads exactAll M sd sdp h
  refine ⟨S, h1, fun t j ht hj Ω _ P _ δm δf hm hf hi X Y hXY => ?_⟩
  have hA := gaussianReal_const_add hm ‖M.get t j‖
  have hB := gaussianReal_const_add hf (Complex.arg (M.get t j))
  rw [zero_add] at hA hB
  have hi' : (fun ω => ‖M.get t j‖ + δm ω) ⟂ᵢ[P] (fun ω => Complex.arg (M.get t j) + δf ω) :=
    hi.comp (φ := fun x => ‖M.get t j‖ + x) (ψ := fun x => Complex.arg (M.get t j) + x) (by fun_prop) (by fun_prop)
  have hX : X = fun ω => (‖M.get t j‖ + δm ω) * Real.cos (Complex.arg (M.get t j) + δf ω) := by
    funext ω
    have := congrArg Complex.re (hXY ω)
    rw [Complex.re_ofReal_mul, Complex.exp_ofReal_mul_I_re] at this
    simpa using this
  have hY : Y = fun ω => (‖M.get t j‖ + δm ω) * Real.sin (Complex.arg (M.get t j) + δf ω) := by
    funext ω
    have := congrArg Complex.im (hXY ω)
    rw [Complex.im_ofReal_mul, Complex.exp_ofReal_mul_I_im] at this
    simpa using this
  subst hX hY
  rw [cov_re_re hA hB hi', cov_im_im hA hB hi', cov_re_im hA hB hi']
  exact h4 t j ht hj

/-- such errors exist for all standard deviations: the product of two Gaussians -/
theorem exists_polar_errors (a s b v : ℝ) : ∃ (P : Measure (ℝ × ℝ)) (_ : IsProbabilityMeasure P),
    HasLaw (Prod.fst : ℝ × ℝ → ℝ) (gaussianReal a (sqv s)) P ∧ HasLaw (Prod.snd : ℝ × ℝ → ℝ) (gaussianReal b (sqv v)) P ∧
    (Prod.fst : ℝ × ℝ → ℝ) ⟂ᵢ[P] (Prod.snd : ℝ × ℝ → ℝ) := by
  refine ⟨(gaussianReal a (sqv s)).prod (gaussianReal b (sqv v)), inferInstance, ⟨by fun_prop, ?_⟩, ⟨by fun_prop, ?_⟩, ?_⟩
  · simp
  · simp
  · exact indepFun_prod measurable_id measurable_id

/-! ### C25 -/

/-- `exact_noise_covariance` sees a complex number only through quantities unchanged by `(A, B) ↦ (-A, B + π)`. -/
theorem exact_of_polar (F : PolarCov) (hF : F = exactAll) (A B mv fv : ℝ) (hA : A ≠ 0 ∨ mv = 0) :
    let z : ℂ := (A : ℂ) * Complex.exp ((B : ℂ) * Complex.I)
    F.re ‖z‖ (Complex.arg z) mv fv = F.re A B mv fv ∧ F.im ‖z‖ (Complex.arg z) mv fv = F.im A B mv fv ∧
      F.cov ‖z‖ (Complex.arg z) mv fv = F.cov A B mv fv := by
  intro z
  subst hF
  by_cases h0 : A = 0
  · have hmv : mv = 0 := hA.resolve_left (fun h => h h0)
    have hz : ‖z‖ = 0 := by simp [z, h0]
    simp [exactAll, h0, hmv, hz]
  have hn : ‖z‖ = |A| := by simp [z, Complex.norm_exp_ofReal_mul_I]
  have hre : ‖z‖ * Real.cos (Complex.arg z) = A * Real.cos B := by
    rw [Complex.norm_mul_cos_arg]
    simp only [z]
    rw [Complex.re_ofReal_mul, Complex.exp_ofReal_mul_I_re]
  have him : ‖z‖ * Real.sin (Complex.arg z) = A * Real.sin B := by
    rw [Complex.norm_mul_sin_arg]
    simp only [z]
    rw [Complex.im_ofReal_mul, Complex.exp_ofReal_mul_I_im]
  have hsq : ‖z‖ ^ 2 = A ^ 2 := by rw [hn, sq_abs]
  have hA2 : A ^ 2 ≠ 0 := pow_ne_zero _ h0
  have c2 : Real.cos (Complex.arg z) ^ 2 = Real.cos B ^ 2 := by
    apply mul_left_cancel₀ hA2
    rw [← hsq, ← mul_pow, hre, mul_pow, hsq]
  have s2 : Real.sin (Complex.arg z) ^ 2 = Real.sin B ^ 2 := by
    apply mul_left_cancel₀ hA2
    rw [← hsq, ← mul_pow, him, mul_pow, hsq]
  have sc : Real.sin (Complex.arg z) * Real.cos (Complex.arg z) = Real.sin B * Real.cos B := by
    apply mul_left_cancel₀ hA2
    calc A ^ 2 * (Real.sin (Complex.arg z) * Real.cos (Complex.arg z))
        = (‖z‖ * Real.sin (Complex.arg z)) * (‖z‖ * Real.cos (Complex.arg z)) := by rw [← hsq]; ring
      _ = A ^ 2 * (Real.sin B * Real.cos B) := by rw [hre, him]; ring
  simp only [exactAll]
  rw [c2, s2, hsq, sc]
  exact ⟨rfl, rfl, rfl⟩

/-- a 1x1 measurement matrix -/
def single (z : ℂ) : Arr2 ℂ := Arr2.ofFn 1 1 (fun _ _ => z)

/-- **C25.** `average_true_noise_covariance` at a measurement with magnitude `m` and phase `f` is the expectation of what
`exact_noise_covariance` returns for the true value `A e^{iB}`, when the true magnitude `A` and phase `B` are independent
Gaussians centred at `m` and `f` with the same standard deviations. -/
theorem C25_average_is_mean_of_exact (M : Arr2 ℂ) (sd : SdArg) (sdp : ℝ) (h : ValidSd sd M.c) :
    ∃ S, averageTrueNoiseCovariance M sd sdp false = .ok S ∧ ∀ t j, t < M.r → j < M.c →
      ∀ (Ω : Type) [MeasurableSpace Ω] (P : Measure Ω) [IsProbabilityMeasure P] (A B : Ω → ℝ),
      HasLaw A (gaussianReal ‖M.get t j‖ (sqv (sdAt sd j))) P →
      HasLaw B (gaussianReal (Complex.arg (M.get t j)) (sqv sdp)) P → A ⟂ᵢ[P] B →
      ∀ E : Ω → Arr2 ℝ,
      (∀ ω, exactNoiseCovariance (single ((A ω : ℂ) * Complex.exp ((B ω : ℂ) * Complex.I))) (.pyFloat (sdAt sd j)) sdp
        false = .ok (E ω)) →
      Reads S (M.c * M.r) (pos M.r t j) (∫ ω, (E ω).get 0 0 ∂P) (∫ ω, (E ω).get 1 1 ∂P) (∫ ω, (E ω).get 0 1 ∂P) := by
  obtain ⟨S, h1, -, -, h4, -⟩ := noise_reads averageCov M sd sdp h
  refine ⟨S, h1, fun t j ht hj Ω _ P _ A B hA hB hi E hE => ?_⟩
  have hread : ∀ ω, (E ω).get 0 0 = exactAll.re ‖(A ω : ℂ) * Complex.exp ((B ω : ℂ) * Complex.I)‖
        (Complex.arg ((A ω : ℂ) * Complex.exp ((B ω : ℂ) * Complex.I))) (sdAt sd j ^ 2) (sdp ^ 2) ∧
      (E ω).get 1 1 = exactAll.im ‖(A ω : ℂ) * Complex.exp ((B ω : ℂ) * Complex.I)‖
        (Complex.arg ((A ω : ℂ) * Complex.exp ((B ω : ℂ) * Complex.I))) (sdAt sd j ^ 2) (sdp ^ 2) ∧
      (E ω).get 0 1 = exactAll.cov ‖(A ω : ℂ) * Complex.exp ((B ω : ℂ) * Complex.I)‖
        (Complex.arg ((A ω : ℂ) * Complex.exp ((B ω : ℂ) * Complex.I))) (sdAt sd j ^ 2) (sdp ^ 2) := by
    intro ω
    obtain ⟨S', e1, -, -, e4, -⟩ := noise_reads exactAll
      (single ((A ω : ℂ) * Complex.exp ((B ω : ℂ) * Complex.I))) (.pyFloat (sdAt sd j)) sdp trivial
    have hS : S' = E ω := by
      have := e1.symm.trans (hE ω)
      exact Except.ok.inj this
    subst hS
    obtain ⟨r1, r2, r3, -⟩ := e4 0 0 (by exact Nat.one_pos) (by exact Nat.one_pos)
    exact ⟨r1, r2, r3⟩
  have hne : ∀ᵐ ω ∂P, A ω ≠ 0 ∨ sdAt sd j ^ 2 = 0 := by
    by_cases hs : sdAt sd j = 0
    · exact Filter.Eventually.of_forall fun ω => Or.inr (by rw [hs]; ring)
    · have hv : sqv (sdAt sd j) ≠ 0 := by
        intro e
        have := congrArg NNReal.toReal e
        have h2 : sdAt sd j ^ 2 = 0 := this
        exact hs (pow_eq_zero_iff (two_ne_zero) |>.1 h2)
      haveI := nullSingletonClass_gaussianReal (μ := ‖M.get t j‖) hv
      have h0 : ∀ᵐ x ∂(gaussianReal ‖M.get t j‖ (sqv (sdAt sd j))), x ≠ 0 := by
        rw [ae_iff]
        simp
      rw [← hA.map_eq] at h0
      have := ae_of_ae_map hA.aemeasurable h0
      filter_upwards [this] with ω hω
      exact Or.inl hω
  have key : ∀ᵐ ω ∂P, (E ω).get 0 0 = exactAll.re (A ω) (B ω) (sqv (sdAt sd j)) (sqv sdp) ∧
      (E ω).get 1 1 = exactAll.im (A ω) (B ω) (sqv (sdAt sd j)) (sqv sdp) ∧
      (E ω).get 0 1 = exactAll.cov (A ω) (B ω) (sqv (sdAt sd j)) (sqv sdp) := by
    filter_upwards [hne] with ω hω
    obtain ⟨q1, q2, q3⟩ := hread ω
    obtain ⟨p1, p2, p3⟩ := exact_of_polar exactAll rfl (A ω) (B ω) (sdAt sd j ^ 2) (sdp ^ 2) hω
    exact ⟨q1.trans p1, q2.trans p2, q3.trans p3⟩
  rw [integral_congr_ae (key.mono fun ω hω => hω.1), integral_congr_ae (key.mono fun ω hω => hω.2.1),
    integral_congr_ae (key.mono fun ω hω => hω.2.2), mean_exact_re hA hB hi, mean_exact_im hA hB hi,
    mean_exact_cov hA hB hi]
  exact h4 t j ht hj

/-- the exact covariance of every 1x1 matrix is defined, so `E` exists -/
example (z : ℂ) (s v : ℝ) : ∃ E, exactNoiseCovariance (single z) (.pyFloat s) v false = .ok E := by
  obtain ⟨S, h, _⟩ := noise_reads exactAll (single z) (.pyFloat s) v trivial
  exact ⟨S, h⟩

/-! ### C26 -/

theorem invertDiag_spec {N : Nat} {a b c : List ℝ} (ha : a.length = N) (hb : b.length = N) (hc : c.length = N) :
    (invertDiag a b c).1.length = N ∧ (invertDiag a b c).2.1.length = N ∧ (invertDiag a b c).2.2.length = N ∧
    ∀ p, p < N →
      (invertDiag a b c).1.getD p 0 = 1 / (a.getD p 0 - c.getD p 0 * (c.getD p 0 / b.getD p 0)) ∧
      (invertDiag a b c).2.1.getD p 0 = 1 / (b.getD p 0 - c.getD p 0 * (c.getD p 0 / a.getD p 0)) ∧
      (invertDiag a b c).2.2.getD p 0 =
        -(c.getD p 0 * (1 / (a.getD p 0 - c.getD p 0 * (c.getD p 0 / b.getD p 0))) / b.getD p 0) := by
  refine ⟨by simp [invertDiag, ha, hb, hc], by simp [invertDiag, ha, hb, hc], by simp [invertDiag, ha, hb, hc], ?_⟩
  intro p hp
  have h1 : p < a.length := by omega
  have h2 : p < b.length := by omega
  have h3 : p < c.length := by omega
  simp [invertDiag, h1, h2, h3]

/-- **C26.** If at every sample both variances and the determinant of the (non-inverted) result are nonzero, the matrix
returned with `inverted=True` is the inverse of the one returned with `inverted=False`, on both sides. -/
theorem C26_inverse (M : Arr2 ℂ) (sd : SdArg) (sdp : ℝ) (h : ValidSd sd M.c)
    (f : Arr2 ℂ → SdArg → ℝ → Bool → Except PyErr (Arr2 ℝ))
    (hf : f = exactNoiseCovariance ∨ f = naiveNoiseCovariance ∨ f = averageTrueNoiseCovariance)
    {S : Arr2 ℝ} (hS : f M sd sdp false = .ok S)
    (hne : ∀ k, k < M.c * M.r → S.get k k ≠ 0 ∧ S.get (M.c * M.r + k) (M.c * M.r + k) ≠ 0 ∧
      S.get k k * S.get (M.c * M.r + k) (M.c * M.r + k) - S.get k (M.c * M.r + k) * S.get (M.c * M.r + k) k ≠ 0) :
    ∃ I, f M sd sdp true = .ok I ∧ I.matmul S = .ok (Arr2.eye (2 * (M.c * M.r))) ∧
      S.matmul I = .ok (Arr2.eye (2 * (M.c * M.r))) := by
  have key : ∃ F, f = noiseCovariance F F := by
    rcases hf with rfl | rfl | rfl
    · exact ⟨exactAll, rfl⟩
    · exact ⟨naiveAll, rfl⟩
    · exact ⟨averageCov, rfl⟩
  obtain ⟨F, rfl⟩ := key
  obtain ⟨a, b, c, ha, hb, hc, -, hn⟩ := noise_diags F M sd sdp h
  obtain ⟨la, lb, lc, hinv⟩ := invertDiag_spec ha hb hc
  set a' := (invertDiag a b c).1
  set b' := (invertDiag a b c).2.1
  set c' := (invertDiag a b c).2.2
  set N := M.c * M.r
  have e1 : S = Arr2.ofFn (N + N) (N + N) (blockEntry N a b c) :=
    Except.ok.inj (hS.symm.trans ((hn false).trans (covBlock_closed ha hb hc)))
  have e2 := (hn true).trans (covBlock_closed la lb lc)
  have hrel : ∀ p, p < N → a.getD p 0 ≠ 0 ∧ b.getD p 0 ≠ 0 ∧ a.getD p 0 * b.getD p 0 - c.getD p 0 * c.getD p 0 ≠ 0 := by
    intro p hp
    have := hne p hp
    rw [e1, Arr2.ofFn_get _ (by omega) (by omega), Arr2.ofFn_get _ (by omega) (by omega),
      Arr2.ofFn_get _ (by omega) (by omega), Arr2.ofFn_get _ (by omega) (by omega)] at this
    unfold blockEntry at this
    simpa [hp] using this
  have hval : ∀ p, p < N → ∃ D, D ≠ 0 ∧ D = a.getD p 0 * b.getD p 0 - c.getD p 0 * c.getD p 0 ∧
      a'.getD p 0 = b.getD p 0 / D ∧ b'.getD p 0 = a.getD p 0 / D ∧ c'.getD p 0 = -(c.getD p 0 / D) := by
    intro p hp
    obtain ⟨h1, h2, h3⟩ := hrel p hp
    obtain ⟨i1, i2, i3⟩ := hinv p hp
    have f1 : a.getD p 0 - c.getD p 0 * (c.getD p 0 / b.getD p 0) =
        (a.getD p 0 * b.getD p 0 - c.getD p 0 * c.getD p 0) / b.getD p 0 := by field_simp
    have f2 : b.getD p 0 - c.getD p 0 * (c.getD p 0 / a.getD p 0) =
        (a.getD p 0 * b.getD p 0 - c.getD p 0 * c.getD p 0) / a.getD p 0 := by field_simp
    rw [f1] at i1 i3
    rw [f2] at i2
    refine ⟨_, h3, rfl, ?_, ?_, ?_⟩
    · rw [i1, one_div, inv_div]
    · rw [i2, one_div, inv_div]
    · rw [i3, one_div, inv_div, mul_div_assoc, div_right_comm, div_self h2]; ring
  have hmul : ∀ x y z x' y' z' : List ℝ,
      (∀ i j, i < N + N → j < N + N → ∑ k ∈ Finset.range (N + N), blockEntry N x y z i k * blockEntry N x' y' z' k j =
        if i = j then 1 else 0) →
      (Arr2.ofFn (N + N) (N + N) (blockEntry N x y z)).matmul (Arr2.ofFn (N + N) (N + N) (blockEntry N x' y' z')) =
        .ok (Arr2.eye (2 * N)) := by
    intro x y z x' y' z' hs
    unfold Arr2.matmul
    rw [if_pos (by rfl)]
    congr 1
    refine Arr2.ext' (A := Arr2.ofFn (N + N) (N + N) _) (B := Arr2.eye (2 * N)) (two_mul N).symm (two_mul N).symm ?_
    intro i j hi hj
    have hi : i < N + N := hi
    have hj : j < N + N := hj
    refine (Arr2.ofFn_get _ hi hj).trans (Eq.trans ?_ (Arr2.ofFn_get _ (by omega) (by omega)).symm)
    refine Eq.trans ?_ (hs i j hi hj)
    unfold Arr2.mulGet
    refine Finset.sum_congr rfl fun k hk => ?_
    have hk : k < N + N := Finset.mem_range.1 hk
    rw [Arr2.ofFn_get _ hi hk, Arr2.ofFn_get _ hk hj]
  refine ⟨_, e2, ?_, ?_⟩
  · rw [e1]
    refine hmul _ _ _ _ _ _ fun i j hi hj => blockMul a' b' c' a b c i j hi hj ?_ ?_ ?_ ?_ <;> intro p hp <;>
      obtain ⟨D, hD, hd, w1, w2, w3⟩ := hval p hp <;> rw [w3] <;> (try rw [w1]) <;> (try rw [w2]) <;> field_simp <;>
      (try rw [hd]) <;> ring
  · rw [e1]
    refine hmul _ _ _ _ _ _ fun i j hi hj => blockMul a b c a' b' c' i j hi hj ?_ ?_ ?_ ?_ <;> intro p hp <;>
      obtain ⟨D, hD, hd, w1, w2, w3⟩ := hval p hp <;> rw [w3] <;> (try rw [w1]) <;> (try rw [w2]) <;> field_simp <;>
      (try rw [hd]) <;> ring

/-- entry `k < n T` is sample `t` of variable `j` for some `t`, `j` -/
theorem exists_pos {n T k : Nat} (hk : k < n * T) : ∃ t j, t < T ∧ j < n ∧ k = pos T t j := by
  obtain ⟨a, b, ha, hb, rfl⟩ := pair_decomp (m := n) (n := T) (k := k) hk
  exact ⟨b, a, hb, ha, rfl⟩

/-- **C26.** Positive standard deviations and nonzero measurements guarantee the conditions of `C26_inverse` for the
linearised covariance: `inverted=True` is then always the inverse. -/
theorem C26_inverse_naive (M : Arr2 ℂ) (sd : SdArg) (sdp : ℝ) (h : ValidSd sd M.c) (hp : 0 < sdp)
    (hs : ∀ j, j < M.c → 0 < sdAt sd j) (hz : ∀ t j, t < M.r → j < M.c → M.get t j ≠ 0) :
    ∃ S I, naiveNoiseCovariance M sd sdp false = .ok S ∧ naiveNoiseCovariance M sd sdp true = .ok I ∧
      I.matmul S = .ok (Arr2.eye (2 * (M.c * M.r))) ∧ S.matmul I = .ok (Arr2.eye (2 * (M.c * M.r))) := by
  obtain ⟨S, h1, -, -, h4, -⟩ := noise_reads naiveAll M sd sdp h
  have := C26_inverse M sd sdp h naiveNoiseCovariance (Or.inr (Or.inl rfl)) h1 (fun k hk => ?_)
  · obtain ⟨I, i1, i2, i3⟩ := this
    exact ⟨S, I, h1, i1, i2, i3⟩
  · obtain ⟨t, j, ht, hj, rfl⟩ := exists_pos hk
    obtain ⟨r1, r2, r3, r4⟩ := h4 t j ht hj
    rw [r1, r2, r3, r4]
    simp only [naiveAll]
    have hm : 0 < ‖M.get t j‖ := norm_pos_iff.2 (hz t j ht hj)
    have hsj := hs j hj
    have hsc := Real.sin_sq_add_cos_sq (Complex.arg (M.get t j))
    set C := Real.cos (Complex.arg (M.get t j))
    set Sn := Real.sin (Complex.arg (M.get t j))
    set m := ‖M.get t j‖
    set σ := sdAt sd j
    have q1 : 0 < σ ^ 2 := by positivity
    have q2 : 0 < m ^ 2 * sdp ^ 2 := by positivity
    have pos1 : ∀ x y : ℝ, x ^ 2 + y ^ 2 = 1 → 0 < x ^ 2 * σ ^ 2 + m ^ 2 * y ^ 2 * sdp ^ 2 := by
      intro x y hxy
      rcases eq_or_ne x 0 with hx | hx
      · have : y ^ 2 = 1 := by rw [hx] at hxy; linarith
        rw [hx, this]; linarith
      · have : 0 < x ^ 2 * σ ^ 2 := by positivity
        have : 0 ≤ m ^ 2 * y ^ 2 * sdp ^ 2 := by positivity
        linarith
    refine ⟨(pos1 C Sn (by linarith)).ne', (pos1 Sn C hsc).ne', ?_⟩
    have : (C ^ 2 * σ ^ 2 + m ^ 2 * Sn ^ 2 * sdp ^ 2) * (Sn ^ 2 * σ ^ 2 + m ^ 2 * C ^ 2 * sdp ^ 2)
        - Sn * C * (σ ^ 2 - m ^ 2 * sdp ^ 2) * (Sn * C * (σ ^ 2 - m ^ 2 * sdp ^ 2)) =
        σ ^ 2 * m ^ 2 * sdp ^ 2 * (Sn ^ 2 + C ^ 2) ^ 2 := by ring
    rw [this, hsc]
    have : 0 < σ ^ 2 * m ^ 2 * sdp ^ 2 * 1 ^ 2 := by positivity
    exact this.ne'

/-- Both eigenvalues `a`, `b` of a rotated diagonal covariance positive: positive variances and determinant. -/
theorem rotated_pos {C Sn a b re im cov : ℝ} (hsc : Sn ^ 2 + C ^ 2 = 1) (ha : 0 < a) (hb : 0 < b)
    (h1 : re = C ^ 2 * a + Sn ^ 2 * b) (h2 : im = Sn ^ 2 * a + C ^ 2 * b) (h3 : cov = Sn * C * (a - b)) :
    0 < re ∧ 0 < im ∧ 0 < re * im - cov * cov := by
  have hpos : ∀ x y : ℝ, x ^ 2 + y ^ 2 = 1 → 0 < x ^ 2 * a + y ^ 2 * b := by
    intro x y hxy
    rcases eq_or_ne x 0 with hx | hx
    · have : y ^ 2 = 1 := by rw [hx] at hxy; linarith
      rw [hx, this]; linarith
    · have : 0 < x ^ 2 * a := by positivity
      have : 0 ≤ y ^ 2 * b := by positivity
      linarith
  refine ⟨h1 ▸ hpos C Sn (by linarith), h2 ▸ hpos Sn C hsc, ?_⟩
  have : re * im - cov * cov = a * b * (Sn ^ 2 + C ^ 2) ^ 2 := by rw [h1, h2, h3]; ring
  rw [this, hsc]
  positivity

theorem rotated_nonzero {C Sn a b re im cov : ℝ} (hsc : Sn ^ 2 + C ^ 2 = 1) (ha : 0 < a) (hb : 0 < b)
    (h1 : re = C ^ 2 * a + Sn ^ 2 * b) (h2 : im = Sn ^ 2 * a + C ^ 2 * b) (h3 : cov = Sn * C * (a - b)) :
    re ≠ 0 ∧ im ≠ 0 ∧ re * im - cov * cov ≠ 0 := by
  obtain ⟨r1, r2, r3⟩ := rotated_pos hsc ha hb h1 h2 h3
  exact ⟨r1.ne', r2.ne', r3.ne'⟩

/-- **C26.** For the exact covariance positive standard deviations suffice, whatever the measurements. -/
theorem C26_inverse_exact (M : Arr2 ℂ) (sd : SdArg) (sdp : ℝ) (h : ValidSd sd M.c) (hp : 0 < sdp)
    (hs : ∀ j, j < M.c → 0 < sdAt sd j) :
    ∃ S I, exactNoiseCovariance M sd sdp false = .ok S ∧ exactNoiseCovariance M sd sdp true = .ok I ∧
      I.matmul S = .ok (Arr2.eye (2 * (M.c * M.r))) ∧ S.matmul I = .ok (Arr2.eye (2 * (M.c * M.r))) := by
  obtain ⟨S, h1, -, -, h4, -⟩ := noise_reads exactAll M sd sdp h
  have := C26_inverse M sd sdp h exactNoiseCovariance (Or.inl rfl) h1 (fun k hk => ?_)
  · obtain ⟨I, i1, i2, i3⟩ := this
    exact ⟨S, I, h1, i1, i2, i3⟩
  · obtain ⟨t, j, ht, hj, rfl⟩ := exists_pos hk
    obtain ⟨r1, r2, r3, r4⟩ := h4 t j ht hj
    rw [r1, r2, r3, r4]
    set m := ‖M.get t j‖
    set f := Complex.arg (M.get t j)
    have hv : 0 < sdp ^ 2 := by positivity
    have hσ : 0 < sdAt sd j ^ 2 := by have := hs j hj; positivity
    set v := sdp ^ 2
    set σ := sdAt sd j ^ 2
    have hch : 1 ≤ Real.cosh v := Real.one_le_cosh v
    have hsh : 0 < Real.sinh v := Real.sinh_pos_iff.2 hv
    have he := Real.exp_pos (-v)
    refine rotated_nonzero (Real.sin_sq_add_cos_sq f)
      (a := m ^ 2 * Real.exp (-v) * (Real.cosh v - 1) + σ * Real.exp (-v) * Real.cosh v)
      (b := (m ^ 2 + σ) * Real.exp (-v) * Real.sinh v) ?_ ?_ ?_ ?_ ?_
    · have : 0 ≤ m ^ 2 * Real.exp (-v) * (Real.cosh v - 1) := mul_nonneg (by positivity) (by linarith)
      have : 0 < σ * Real.exp (-v) * Real.cosh v := by positivity
      linarith
    · have : 0 ≤ m ^ 2 := sq_nonneg m
      exact mul_pos (mul_pos (by linarith) he) hsh
    · simp only [exactAll]; ring
    · simp only [exactAll]; ring
    · simp only [exactAll, Real.cosh_eq, Real.sinh_eq]
      have e2 : Real.exp (-2 * v) = Real.exp (-v) * Real.exp (-v) := by rw [← Real.exp_add]; ring_nf
      have e0 : Real.exp (-v) * Real.exp v = 1 := by rw [← Real.exp_add]; simp
      rw [e2]
      linear_combination (-(Real.sin f * Real.cos f * Real.exp (-v) * m ^ 2)) * e0

/-- the averaged covariance of a sample is positive definite for positive standard deviations -/
theorem average_pos {m f σ v : ℝ} (hσ : 0 < σ) (hv : 0 < v) :
    0 < averageCov.re m f σ v ∧ 0 < averageCov.im m f σ v ∧
    0 < averageCov.re m f σ v * averageCov.im m f σ v - averageCov.cov m f σ v * averageCov.cov m f σ v := by
  have hch : Real.cosh v < Real.cosh (2 * v) := by
    rw [Real.cosh_lt_cosh, abs_of_pos hv, abs_of_pos (by linarith)]; linarith
  have hsh : Real.sinh v < Real.sinh (2 * v) := Real.sinh_lt_sinh.2 (by linarith)
  have hc0 := Real.cosh_pos (2 * v)
  have hs0 : 0 < Real.sinh (2 * v) := Real.sinh_pos_iff.2 (by linarith)
  have he := Real.exp_pos (-2 * v)
  have hm : 0 ≤ m ^ 2 := sq_nonneg m
  refine rotated_pos (Real.sin_sq_add_cos_sq f)
    (a := m ^ 2 * Real.exp (-2 * v) * (Real.cosh (2 * v) - Real.cosh v)
      + σ * Real.exp (-2 * v) * (2 * Real.cosh (2 * v) - Real.cosh v))
    (b := m ^ 2 * Real.exp (-2 * v) * (Real.sinh (2 * v) - Real.sinh v)
      + σ * Real.exp (-2 * v) * (2 * Real.sinh (2 * v) - Real.sinh v)) ?_ ?_ ?_ ?_ ?_
  · have : 0 ≤ m ^ 2 * Real.exp (-2 * v) * (Real.cosh (2 * v) - Real.cosh v) :=
      mul_nonneg (mul_nonneg hm he.le) (by linarith)
    have : 0 < σ * Real.exp (-2 * v) * (2 * Real.cosh (2 * v) - Real.cosh v) :=
      mul_pos (mul_pos hσ he) (by linarith)
    linarith
  · have : 0 ≤ m ^ 2 * Real.exp (-2 * v) * (Real.sinh (2 * v) - Real.sinh v) :=
      mul_nonneg (mul_nonneg hm he.le) (by linarith)
    have : 0 < σ * Real.exp (-2 * v) * (2 * Real.sinh (2 * v) - Real.sinh v) :=
      mul_pos (mul_pos hσ he) (by linarith)
    linarith
  · simp only [averageCov]; ring
  · simp only [averageCov]; ring
  · simp only [averageCov, Real.cosh_eq, Real.sinh_eq]
    have e2 : Real.exp (-2 * v) = Real.exp (-v) * Real.exp (-v) := by rw [← Real.exp_add]; ring_nf
    have e2' : Real.exp (-(2 * v)) = Real.exp (-v) * Real.exp (-v) := by rw [← Real.exp_add]; ring_nf
    have e4 : Real.exp (-4 * v) = Real.exp (-v) * Real.exp (-v) * (Real.exp (-v) * Real.exp (-v)) := by
      rw [← Real.exp_add, ← Real.exp_add]; ring_nf
    have e0 : Real.exp (-v) * Real.exp v = 1 := by rw [← Real.exp_add]; simp
    rw [e2, e2', e4]
    linear_combination (-(Real.sin f * Real.cos f * Real.exp (-v) ^ 3 * (m ^ 2 + σ))) * e0

/-- **C26.** Likewise for the averaged covariance. -/
theorem C26_inverse_average (M : Arr2 ℂ) (sd : SdArg) (sdp : ℝ) (h : ValidSd sd M.c) (hp : 0 < sdp)
    (hs : ∀ j, j < M.c → 0 < sdAt sd j) :
    ∃ S I, averageTrueNoiseCovariance M sd sdp false = .ok S ∧ averageTrueNoiseCovariance M sd sdp true = .ok I ∧
      I.matmul S = .ok (Arr2.eye (2 * (M.c * M.r))) ∧ S.matmul I = .ok (Arr2.eye (2 * (M.c * M.r))) := by
  obtain ⟨S, h1, -, -, h4, -⟩ := noise_reads averageCov M sd sdp h
  have := C26_inverse M sd sdp h averageTrueNoiseCovariance (Or.inr (Or.inr rfl)) h1 (fun k hk => ?_)
  · obtain ⟨I, i1, i2, i3⟩ := this
    exact ⟨S, I, h1, i1, i2, i3⟩
  · obtain ⟨t, j, ht, hj, rfl⟩ := exists_pos hk
    obtain ⟨r1, r2, r3, r4⟩ := h4 t j ht hj
    rw [r1, r2, r3, r4]
    have hv : 0 < sdp ^ 2 := by positivity
    have hσ : 0 < sdAt sd j ^ 2 := by have := hs j hj; positivity
    obtain ⟨q1, q2, q3⟩ := average_pos (m := ‖M.get t j‖) (f := Complex.arg (M.get t j)) hσ hv
    exact ⟨q1.ne', q2.ne', q3.ne'⟩

/-- a two-column measurement with per-column standard deviations meets the hypotheses of the C26 theorems -/
example : let M : Arr2 ℂ := Arr2.ofFn 1 2 (fun _ j => if j = 0 then 1 else Complex.I)
    ValidSd (.array [1, 2]) M.c ∧ (∀ j, j < M.c → 0 < sdAt (.array [1, 2]) j) ∧
      ∀ t j, t < M.r → j < M.c → M.get t j ≠ 0 := by
  refine ⟨rfl, fun j hj => ?_, fun t j ht hj => ?_⟩
  · have hj : j < 2 := hj
    interval_cases j <;> simp [sdAt]
  · have ht : t < 1 := ht
    have hj : j < 2 := hj
    rw [Arr2.ofFn_get _ ht hj]
    split <;> simp

/-! ### C28 -/

/-- **C28 (violated).** A vector of standard deviations of the wrong length is not rejected: the second entry is silently
ignored and the result is the one of the first entry used for every column. -/
theorem C28_wrong_length_violated (M : Arr2 ℂ) (s : ℝ) (ss : List ℝ) (sdp : ℝ) (inv : Bool)
    (hlen : (s :: ss).length ≠ M.c) (f : Arr2 ℂ → SdArg → ℝ → Bool → Except PyErr (Arr2 ℝ))
    (hf : f = exactNoiseCovariance ∨ f = naiveNoiseCovariance ∨ f = averageTrueNoiseCovariance) :
    f M (.array (s :: ss)) sdp inv = f M (.pyFloat s) sdp inv ∧ ∃ S, f M (.array (s :: ss)) sdp inv = .ok S := by
  have key : ∃ F, f = noiseCovariance F F := by
    rcases hf with rfl | rfl | rfl
    · exact ⟨exactAll, rfl⟩
    · exact ⟨naiveAll, rfl⟩
    · exact ⟨averageCov, rfl⟩
  obtain ⟨F, rfl⟩ := key
  have e : noiseCovariance F F M (.array (s :: ss)) sdp inv = noiseCovariance F F M (.pyFloat s) sdp inv := by
    have hlen' : ¬ (ss.length + 1 = M.c) := hlen
    unfold noiseCovariance
    simp [hlen', bind, Except.bind]
  refine ⟨e, ?_⟩
  rw [e]
  obtain ⟨a, b, c, ha, hb, hc, -, hn⟩ := noise_diags F M (.pyFloat s) sdp trivial
  rw [hn]
  cases inv
  · exact ⟨_, covBlock_closed ha hb hc⟩
  · obtain ⟨la, lb, lc, -⟩ := invertDiag_spec ha hb hc
    exact ⟨_, covBlock_closed la lb lc⟩

/-- three columns, two standard deviations -/
example : ([1, 2] : List ℝ).length ≠ (Arr2.zeros 4 3 : Arr2 ℂ).c := by
  show (2 : Nat) ≠ 3
  omega

/-- **C28 (violated).** A numpy scalar is refused exactly when there is one column (`IndexError`), and a Python int is
always refused (`AttributeError`). -/
theorem C28_scalar_violated (M : Arr2 ℂ) (s : ℝ) (k : Int) (sdp : ℝ) (inv : Bool)
    (f : Arr2 ℂ → SdArg → ℝ → Bool → Except PyErr (Arr2 ℝ))
    (hf : f = exactNoiseCovariance ∨ f = naiveNoiseCovariance ∨ f = averageTrueNoiseCovariance) :
    (f M (.npScalar s) sdp inv = .error .indexError ↔ M.c = 1) ∧ f M (.pyInt k) sdp inv = .error .attributeError := by
  have key : ∃ F, f = noiseCovariance F F := by
    rcases hf with rfl | rfl | rfl
    · exact ⟨exactAll, rfl⟩
    · exact ⟨naiveAll, rfl⟩
    · exact ⟨averageCov, rfl⟩
  obtain ⟨F, rfl⟩ := key
  refine ⟨⟨fun h => ?_, fun h => ?_⟩, rfl⟩
  · by_contra hne
    obtain ⟨a, b, c, ha, hb, hc, -, hn⟩ := noise_diags F M (.npScalar s) sdp hne
    rw [hn] at h
    cases inv
    · exact absurd (h.symm.trans (covBlock_closed ha hb hc)) (by simp)
    · obtain ⟨la, lb, lc, -⟩ := invertDiag_spec ha hb hc
      exact absurd (h.symm.trans (covBlock_closed la lb lc)) (by simp)
  · simp [noiseCovariance, h, bind, Except.bind]

/-- **C28 (partial).** What does hold: an argument is used as intended for every column exactly in the listed cases
(`ValidSd`), and the empty vector is rejected. Missing: rejection of other wrong lengths, see the `_violated` theorems. -/
theorem C28_accepted_partial (M : Arr2 ℂ) (sd : SdArg) (sdp : ℝ) (inv : Bool)
    (f : Arr2 ℂ → SdArg → ℝ → Bool → Except PyErr (Arr2 ℝ))
    (hf : f = exactNoiseCovariance ∨ f = naiveNoiseCovariance ∨ f = averageTrueNoiseCovariance) :
    (ValidSd sd M.c → ∃ S, f M sd sdp inv = .ok S) ∧
    (sd = .array [] → M.c ≠ 0 → ∃ e, f M sd sdp inv = .error e) := by
  have key : ∃ F, f = noiseCovariance F F := by
    rcases hf with rfl | rfl | rfl
    · exact ⟨exactAll, rfl⟩
    · exact ⟨naiveAll, rfl⟩
    · exact ⟨averageCov, rfl⟩
  obtain ⟨F, rfl⟩ := key
  refine ⟨fun h => ?_, fun h hc => ⟨.valueError, ?_⟩⟩
  · obtain ⟨a, b, c, ha, hb, hc, -, hn⟩ := noise_diags F M sd sdp h
    rw [hn]
    cases inv
    · exact ⟨_, covBlock_closed ha hb hc⟩
    · obtain ⟨la, lb, lc, -⟩ := invertDiag_spec ha hb hc
      exact ⟨_, covBlock_closed la lb lc⟩
  · subst h
    have : ¬ (0 = M.c) := fun e => hc e.symm
    simp [noiseCovariance, this, bind, Except.bind]

end
end Verif
