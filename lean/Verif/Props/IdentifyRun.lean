/-
C119: when identify_network.py completes, and how close its least-squares estimates are.
-/
import Verif.Props.EivRun
import Verif.Props.Weights
import Verif.Props.Programs
import Verif.Props.Pipeline
import Verif.Props.PlotReport
import Verif.Props.KnownRun

namespace Verif
open Finset
noncomputable section

/-! ### the prior of the Bayesian method -/

theorem params_zero (lap : Bool) (n : Nat) : Spec.params lap n (Arr2.zeros n n) = List.replicate (nReal lap n) 0 := by
  rw [List.eq_replicate_iff]
  refine ⟨params_length_nReal lap n _, ?_⟩
  intro t ht
  rw [params_entries] at ht
  obtain ⟨e, -, rfl⟩ := List.mem_map.1 ht
  have : (Arr2.zeros n n : Arr2 ℂ).get e.1.1 e.1.2 = 0 := by
    unfold Arr2.zeros
    rw [Arr2.ofFn_get']
    split <;> rfl
  rw [this]
  cases e.2 <;> simp [Spec.part]

theorem dot_zero (n N : Nat) (a : List ℝ) : Spec.dot n a (List.replicate N 0) = 0 := by
  unfold Spec.dot
  refine Finset.sum_eq_zero fun k _ => ?_
  have : (List.replicate N (0 : ℝ)).getD k 0 = 0 := by
    rw [List.getD_eq_getElem?_getD, List.getElem?_replicate]
    split <;> rfl
  rw [this, mul_zero]

/-- a prior of l1 terms that tell a matrix from zero leaves no direction free -/
theorem l1_spanning {lap : Bool} {n : Nat} {p : Prior} {rs : Arr2 ℂ → List ℝ} (hL : Spec.L1Prior lap n p rs) (hn : p.n = nReal lap n)
    (hrs : ∀ V, Spec.IsSquare n V → Spec.Admissible lap V → rs V = rs (Arr2.zeros n n) → V = Arr2.zeros n n) :
    Spec.Spanning p (nReal lap n) := by
  intro v hv h0
  obtain ⟨dt, hdt, -⟩ := dt_closed (α := ℂ) lap n
  obtain ⟨V, _, _, _, _, _, hV⟩ := toMatrix_ok lap n hdt hv
  obtain ⟨hsq, hadm⟩ := toMatrix_admissible lap n hdt hV
  have hpar := params_of_toMatrix lap n hdt hv hV
  obtain ⟨-, -, -, hr⟩ := hL
  have hz : Spec.IsSymm (Arr2.zeros n n : Arr2 ℂ) := by
    refine ⟨rfl, fun i j => ?_⟩
    unfold Arr2.zeros
    rw [Arr2.ofFn_get', Arr2.ofFn_get', ite_self, ite_self]
  have e : rs V = rs (Arr2.zeros n n) := by
    rw [← hr V hsq hadm.1, ← hr (Arr2.zeros n n) ⟨rfl, rfl⟩ hz]
    refine List.map_congr_left fun t ht => ?_
    have := h0 t ht
    unfold Spec.Term.resid
    rw [hpar, params_zero, dot_zero, hn, this]
  have := hrs V hsq hadm e
  rw [← hpar, this, params_zero]

/-- the prior of `bayesian_eiv` can be built and used, for every initial estimate, unless the diagonal is regularised under the
Laplacian constraint (C90). With nonzero lines it leaves no direction free under the Laplacian constraint, and with a regularised
diagonal. -/
theorem complex_prior (n : Nat) (lam : ℝ) (y : Arr2 ℂ) (hy : Spec.IsSquare n y) (lap tls each reg : Bool)
    (h90 : ¬ (lap = true ∧ each = true ∧ reg = true)) :
    ∃ p, buildComplexPrior n lam y lap tls each reg = .ok p ∧ 0 < p.alpha ∧ UsablePrior p (nReal lap n) ∧
      (Spec.LinesSeen n y → (lap = true ∨ (each = true ∧ reg = true ∧ lam ≠ 0)) → Spec.Spanning p (nReal lap n)) ∧
      ∀ t ∈ Spec.terms p, t.order = 1 := by
  have size : ∀ {p rs}, Spec.L1Prior lap n p rs → p.n = nReal lap n := by
    intro p rs h
    have h1 := params_length_nReal lap n (Arr2.zeros n n)
    rw [h.2.1, ← h1, params_length, realEntries_length, idEntries_length]
    cases lap <;> simp <;> omega
  have usable : ∀ {p rs}, Spec.L1Prior lap n p rs → (∀ Y, Even (rs Y).length) → UsablePrior p (nReal lap n) := by
    intro p rs h hev
    refine ⟨h.1, size h, ?_⟩
    rintro ⟨-, h1⟩
    have hz : Spec.IsSymm (Arr2.zeros n n : Arr2 ℂ) := by
      refine ⟨rfl, fun i j => ?_⟩
      unfold Arr2.zeros
      rw [Arr2.ofFn_get', Arr2.ofFn_get', ite_self, ite_self]
    have h2 := congrArg List.length (h.2.2.2 (Arr2.zeros n n) ⟨rfl, rfl⟩ hz)
    rw [List.length_map, Prior.terms_length h.1, h1] at h2
    have := hev (Arr2.zeros n n)
    rw [← h2] at this
    exact absurd this (by decide)
  have lines : ∀ (r1 r2 : List ℝ) (V : Arr2 ℂ), Spec.LinesSeen n y →
      (Spec.lineTerms lap n (Spec.symPart n y) V false ++ Spec.lineTerms lap n (Spec.symPart n y) V true) ++ r1 =
      (Spec.lineTerms lap n (Spec.symPart n y) (Arr2.zeros n n) false ++
        Spec.lineTerms lap n (Spec.symPart n y) (Arr2.zeros n n) true) ++ r2 →
      (∀ e ∈ Spec.offPairs n, ∀ im, Spec.part im (V.get e.1 e.2) = 0) ∧ r1 = r2 := by
    intro r1 r2 V hseen h
    obtain ⟨h1, h2⟩ := List.append_inj h (by simp [Spec.lineTerms])
    obtain ⟨h3, h4⟩ := List.append_inj h1 (by simp [Spec.lineTerms])
    refine ⟨?_, h2⟩
    have key : ∀ im, Spec.lineTerms lap n (Spec.symPart n y) V im = Spec.lineTerms lap n (Spec.symPart n y) (Arr2.zeros n n) im := by
      intro im; cases im
      · exact h3
      · exact h4
    intro e he im
    have := List.map_inj_left.1 (key im) e he
    have hz : (Arr2.zeros n n : Arr2 ℂ).get e.1 e.2 = 0 := by
      unfold Arr2.zeros
      rw [Arr2.ofFn_get', ite_self]
    have hz' : Spec.part im (0 : ℂ) = 0 := by cases im <;> rfl
    rw [hz, hz', mul_zero, zero_div] at this
    have hS := abs_ne_zero.2 (hseen e he im)
    rw [div_eq_zero_iff] at this
    rcases this with h | h
    · rcases mul_eq_zero.1 h with h | h
      · cases lap <;> simp [Spec.sgn] at h
      · exact h
    · exact absurd h hS
  cases each with
  | false =>
    obtain ⟨p, hp, ha, hL⟩ := complex_total n lam y hy lap tls reg
    refine ⟨p, hp, by rw [ha]; norm_num, usable hL ?_, ?_, hL.2.2.1⟩
    · intro Y
      refine ⟨(Spec.offPairs n).length + 1, ?_⟩
      simp only [List.length_append, Spec.lineTerms, List.length_map, List.length_cons, List.length_nil]
      omega
    · intro hseen hor
      rcases hor with hlap | h
      · subst hlap
        refine l1_spanning hL (size hL) fun V hsq hadm h => ?_
        exact admissible_zero hsq hadm (lines _ _ V hseen h).1 (fun h => by cases h)
      · exact absurd h.1 (by simp)
  | true =>
    cases reg with
    | false =>
      obtain ⟨p, hp, ha, hL⟩ := C44_complex_prior n lam y hy lap tls
      refine ⟨p, hp, by rw [ha]; norm_num, usable hL ?_, ?_, hL.2.2.1⟩
      · intro Y
        refine ⟨(Spec.offPairs n).length + n, ?_⟩
        simp only [List.length_append, Spec.lineTerms, Spec.nodeTerms, List.length_map, List.length_range]
        omega
      · intro hseen hor
        rcases hor with hlap | h
        · subst hlap
          refine l1_spanning hL (size hL) fun V hsq hadm h => ?_
          exact admissible_zero hsq hadm (lines _ _ V hseen h).1 (fun h => by cases h)
        · exact absurd h.2.1 (by simp)
    | true =>
      have hlap : lap = false := by
        cases lap with
        | false => rfl
        | true => exact absurd ⟨rfl, rfl, rfl⟩ h90
      subst hlap
      obtain ⟨p, hp, ha, hL⟩ := C44_diag n lam y hy tls
      refine ⟨p, hp, by rw [ha]; norm_num, usable hL ?_, ?_, hL.2.2.1⟩
      · intro Y
        refine ⟨(Spec.offPairs n).length + n + n, ?_⟩
        simp only [List.length_append, Spec.lineTerms, Spec.nodeTerms, Spec.diagTerms, List.length_map, List.length_range]
        omega
      · intro hseen hor
        have hl : lam ≠ 0 := by
          rcases hor with h | h
          · cases h
          · exact h.2.2
        refine l1_spanning hL (size hL) fun V hsq hadm h => ?_
        rw [List.append_assoc, List.append_assoc (_ ++ _)] at h
        obtain ⟨h1, h2⟩ := lines _ _ V hseen h
        obtain ⟨-, h3⟩ := List.append_inj h2 (by simp [Spec.nodeTerms])
        obtain ⟨h4, h5⟩ := List.append_inj h3 (by simp [Spec.diagTerms])
        refine admissible_zero hsq hadm h1 fun _ i hi im => ?_
        have key : Spec.diagTerms n lam y V im = Spec.diagTerms n lam y (Arr2.zeros n n) im := by
          cases im
          · exact h4
          · exact h5
        have := List.map_inj_left.1 key i (List.mem_range.2 hi)
        have hz : (Arr2.zeros n n : Arr2 ℂ).get i i = 0 := by
          unfold Arr2.zeros
          rw [Arr2.ofFn_get', ite_self]
        have hz' : Spec.part im (0 : ℂ) = 0 := by cases im <;> rfl
        rw [hz, hz'] at this
        have := mul_left_cancel₀ hl this
        linarith

/-- pinned lines keep a prior usable -/
theorem pins_usable {lap : Bool} {n : Nat} {p p' : Prior} {w f : ℝ} {H : List Nat} {K : List (Nat × Nat)} {y : Arr2 ℂ} {N : Nat}
    (hp : Spec.Pins lap n p p' w f H K y) (h2 : p'.rows.length ≠ 1) (hu : UsablePrior p N) :
    UsablePrior p' N ∧ (Spec.Spanning p N → Spec.Spanning p' N) := by
  obtain ⟨h1, hn, -, ts, ht, -, -⟩ := hp
  refine ⟨⟨h1, by rw [hn, hu.size], fun h => h2 h.2⟩, fun hs v hv h0 => hs v hv fun t ht' => h0 t ?_⟩
  rw [ht]
  exact List.mem_append_left _ ht'

/-- the prior of `bayesian_eiv` with or without known lines (C92 when the Laplacian constraint is not used) -/
theorem eiv_prior (cf : IdConf) (n : Nat) (y0 : Arr2 ℂ) (hy0 : Spec.IsSquare n y0) (ye : Option (Arr2 ℂ)) (lap : Bool)
    (hye : ∀ y, ye = some y → 29 ≤ n ∧ Spec.IsSquare n y ∧ lap = false)
    (h90 : ¬ (lap = true ∧ cf.contrastEachRow = true ∧ cf.regularizeDiag = true)) :
    ∃ p, eivPrior cf n y0 ye lap = .ok p ∧ 0 < p.alpha ∧ UsablePrior p (nReal lap n) ∧
      (Spec.LinesSeen n y0 → (lap = true ∨ (cf.contrastEachRow = true ∧ cf.regularizeDiag = true ∧ cf.lambdaprime ≠ 0)) →
        Spec.Spanning p (nReal lap n)) ∧ ∀ t ∈ Spec.terms p, t.order = 1 := by
  obtain ⟨p, hp, hpa, hpu, hps, hpo⟩ := complex_prior n cf.lambdaprime y0 hy0 lap cf.useTlsDiag cf.contrastEachRow cf.regularizeDiag h90
  cases ye with
  | none => exact ⟨p, by simp only [eivPrior, hp, bind, Except.bind, pure, Except.pure], hpa, hpu, hps, hpo⟩
  | some y =>
    obtain ⟨hn, hy, rfl⟩ := hye y rfl
    have hsz : p.n = 2 * (Spec.offPairs n).length + if false = true then 0 else 2 * n := by
      rw [hpu.size, ← params_length_nReal false n (Arr2.zeros n n), params_length, realEntries_length, idEntries_length]
      simp
      omega
    obtain ⟨p', hp', hpin⟩ := known_lines_optimal false n hn p hpu.cons hsz cf.lambdaprime y hy "optimal" (by decide)
    have hlen : p'.rows.length ≠ 1 := by
      obtain ⟨h1, -, -, ts, ht, -, hf⟩ := hpin
      have e1 := congrArg List.length ht
      have e2 := congrArg List.length (hf (Arr2.zeros n n) ⟨rfl, rfl⟩)
      rw [List.length_append, Prior.terms_length h1, Prior.terms_length hpu.cons] at e1
      simp only [List.length_map, List.length_append, Spec.pinTerms] at e2
      have e3 : 0 < (Spec.hubLines n Spec.optimalHubs).length := List.length_pos_of_mem (a := (1, 0))
        (List.mem_filter.2 ⟨(mem_offPairs n _).2 ⟨by norm_num, show 1 < n by omega⟩, by decide⟩)
      omega
    obtain ⟨q1, q2⟩ := pins_usable hpin hlen hpu
    refine ⟨p', by simp only [eivPrior, hp, bind, Except.bind]; exact hp', ?_, q1, fun a b => q2 (hps a b), ?_⟩
    · rw [hpin.2.2.1]
      exact hpa
    · obtain ⟨-, -, -, ts, ht, ho, -⟩ := hpin
      intro t hm
      rw [ht] at hm
      rcases List.mem_append.1 hm with hm | hm
      · exact hpo t hm
      · exact ho t hm

/-! ### the Bayesian method -/

theorem finished_ok {obj : RegObj} {r : Except PyErr FitState × List IterationStatus} {o : RegObj}
    (h : finishFit obj r = (.ok (), o)) : ∃ y, fitted (finishFit obj r) = .ok (y, o.iterations) := by
  obtain ⟨r1, r2⟩ := r
  cases r1 with
  | error e => cases h
  | ok s =>
    have : o = ⟨r2, some s.yMat⟩ := (congrArg Prod.snd h).symm
    exact ⟨s.yMat, by rw [this]; rfl⟩

theorem fitted_body {solve : Solver} {inv : Arr2 ℂ → Except PyErr (Arr2 ℂ)} {cfg : RegConfig} {obj o : RegObj} {x z y : Arr2 ℂ}
    {xW zW : Option (Arr2 ℝ)} (h : eivBody solve inv cfg obj x z xW zW y = (.ok (), o)) :
    ∃ y', fitted (eivBody solve inv cfg obj x z xW zW y) = .ok (y', o.iterations) := by
  unfold eivBody at h ⊢
  dsimp only at h ⊢
  cases xW <;> cases zW <;> dsimp only at h ⊢ <;>
    (split at h
     · cases h
     · exact finished_ok h)

/-- the computing branch of `bayesian_eiv` returns -/
theorem eivCompute_ok {ext : NumExt} {cf : IdConf} (hinv : Spec.InvContract ext.inv) (hex : Spec.Exact ext.solve)
    (htot : Spec.Total ext.solve) {v i y0 : Arr2 ℂ} (hy0 : Spec.IsSquare v.c y0) (hsh : i.r = v.r ∧ i.c = v.c) (lap weighted : Bool)
    (maxIter : Nat) (pmu : Bool) {prior : Prior} (ha : 0 < prior.alpha) (hu : UsablePrior prior (nReal lap v.c))
    (hl : 0 ≤ cf.lambdaEiv) (vsd isd : SdPolar) (ratings : List ℝ)
    (hcase : (weighted = false ∧ Spec.Unrelated (centreData lap v i).1 (centreData lap v i).2) ∨
      (0 < cf.lambdaEiv ∧ Spec.Spanning prior (nReal lap v.c) ∧ (weighted = true → v.c ≠ 1 ∧ 0 < vsd.m ∧ 0 < vsd.p ∧ ratings ≠ [] ∧
        (pmu = false → ∀ t j, t < v.r → j < v.c → v.get t j ≠ 0)))) :
    ∃ r, eivCompute ext cf prior v i vsd isd ratings y0 lap weighted maxIter pmu = .ok r := by
  have setup : ∀ cv ci : Arr2 ℂ, (cv.r = v.r ∧ cv.c = v.c) → (ci.r = v.r ∧ ci.c = v.c) →
      FitSetup lap v.c (regConfig cf prior cf.lambdaEiv lap maxIter) (centreData lap cv ci).1 (centreData lap cv ci).2 y0 := by
    intro cv ci h1 h2
    obtain ⟨s1, s2, s3, s4⟩ := centreData_shape lap cv ci
    exact ⟨rfl, rfl, by rw [s2, h1.2], ⟨by rw [s3, s1, h1.1, h2.1], by rw [s4, h2.2]⟩, hy0, hu, ha⟩
  cases weighted with
  | false =>
    have hw : eivWeights v i vsd isd ratings false pmu = .ok (v, i, none, none) := by cases pmu <;> rfl
    have hs := setup v i ⟨rfl, rfl⟩ hsh
    obtain ⟨o, ho⟩ : ∃ o, eivBody ext.solve ext.inv (regConfig cf prior cf.lambdaEiv lap maxIter) .fresh (centreData lap v i).1
        (centreData lap v i).2 none none y0 = (.ok (), o) := by
      rcases hcase with h | h
      · exact C89_data hs hl h.2 hex htot hinv (.inl rfl) _ rfl
      · exact C89_no_exception hs h.1 h.2.1 hex htot hinv (.inl rfl) _ rfl
    obtain ⟨y', hy'⟩ := fitted_body ho
    exact ⟨_, by simp only [eivCompute, hw, bind, Except.bind, eivFit]; exact hy'⟩
  | true =>
    rcases hcase with h | ⟨hl', hsp, h⟩
    · cases h.1
    · obtain ⟨k1, k2, k3, k4, k5⟩ := h rfl
      obtain ⟨cv, ci, W, wi, hw, h1, h2, hW⟩ := eivWeights_ok v i vsd isd ratings pmu k1 k2 k3 k4 hsh k5
      have hs := setup cv ci h1 h2
      obtain ⟨s1, s2, s3, s4⟩ := centreData_shape lap cv ci
      rw [← h1.1, ← s1] at hW
      obtain ⟨o, ho⟩ := C88_no_exception hs hl' hsp hW hW.1 hex htot ext.inv .fresh rfl
      obtain ⟨y', hy'⟩ := fitted_body ho
      exact ⟨_, by simp only [eivCompute, hw, bind, Except.bind, eivFit]; exact hy'⟩

/-! ### the standard methods -/

/-- the standard methods on noisy data -/
theorem standard_noisy {ext : NumExt} {cf : IdConf} (hl : 0 ≤ cf.lambdaLasso) (hinv : Spec.InvContract ext.inv)
    (hex : Spec.Exact ext.solve) (htot : Spec.Total ext.solve) (hpinv : Spec.PinvContract ext.pinv)
    (hsvd : Spec.SvdContract ext.svdVh) {v i x0 z0 Y : Arr2 ℂ} (hY : Y.r = Y.c) {lap : Bool} {ε σ : ℝ}
    (hN : Spec.Noisy (centreData lap v i).1 (centreData lap v i).2 x0 z0 Y ε) (hσ : Spec.AtLeast x0 σ) (hε : 0 ≤ ε)
    (hεσ : 2 * ε < σ) (maxIter : Nat) :
    ∃ B T L, standardCompute ext cf v i lap maxIter = .ok (B, T, L) ∧ Spec.IsSquare v.c Y ∧ Spec.IsSquare v.c B ∧
      Spec.IsSquare v.c T ∧ (i.r = v.r ∧ i.c = v.c) ∧
      complexRegressionFit ext.pinv (centreData lap v i).1 (centreData lap v i).2 = .ok B ∧
      tlsFit ext.svdVh ext.inv (centreData lap v i).1 (centreData lap v i).2 = .ok T ∧
      Spec.ErrorBound B Y (σ - ε) ε ∧ Spec.ErrorBound T Y (σ - 2 * ε) (2 * ε) := by
  obtain ⟨B, hB, hBs, hBe⟩ := C117_ols hpinv hN hσ (by linarith)
  obtain ⟨T, hT, hTs, hTe⟩ := C117_tls hsvd hinv hN hσ hε hεσ
  have hrank := noisy_fullColumnRank hN hσ (by linarith)
  obtain ⟨s1, s2, s3, s4⟩ := centreData_shape lap v i
  obtain ⟨hz, ⟨e1, e2⟩, ⟨e3, e4⟩, -⟩ := hN
  obtain ⟨hxY, hzr, hzc, -⟩ := Arr2.matmul_inv hz
  have hYr : Y.r = v.c := by rw [← hxY, ← e2, s2]
  have hYc : Y.c = v.c := by rw [← hY, hYr]
  have hi : i.r = v.r ∧ i.c = v.c := ⟨by rw [← s3, e3, hzr, ← e1, s1], by rw [← s4, e4, hzc, hYc]⟩
  obtain ⟨pr, y0, h1, h2, h3⟩ := lasso_setup v.c B (centreData lap v i).1 (centreData lap v i).2
    ⟨by rw [hBs.1, hYr], by rw [hBs.2, hYc]⟩ lap cf maxIter s2 ⟨by rw [s3, s1, hi.1], by rw [s4, hi.2]⟩
  obtain ⟨obj, L, h4, h5⟩ := C93_no_exception h3 hl
    (identifiable_fullColumnRank lap v.c pr cf.lambdaLasso _ s2 hrank) hex htot
  have rest : Spec.IsSquare v.c Y ∧ Spec.IsSquare v.c B ∧ Spec.IsSquare v.c T ∧ (i.r = v.r ∧ i.c = v.c) ∧
      complexRegressionFit ext.pinv (centreData lap v i).1 (centreData lap v i).2 = .ok B ∧
      tlsFit ext.svdVh ext.inv (centreData lap v i).1 (centreData lap v i).2 = .ok T ∧
      Spec.ErrorBound B Y (σ - ε) ε ∧ Spec.ErrorBound T Y (σ - 2 * ε) (2 * ε) :=
    ⟨⟨hYr, hYc⟩, ⟨by rw [hBs.1, hYr], by rw [hBs.2, hYc]⟩, ⟨by rw [hTs.1, hYr], by rw [hTs.2, hYc]⟩, hi, hB, hT, hBe, hTe⟩
  by_cases hm : maxIter > 0
  · refine ⟨B, T, L, ?_, rest⟩
    simp only [standardCompute, hB, hT, h1, h2, h4, fitted, h5, if_pos hm, bind, Except.bind, pure, Except.pure]
  · refine ⟨B, T, B, ?_, rest⟩
    simp only [standardCompute, hB, hT, h1, if_neg hm, bind, Except.bind, pure, Except.pure]

/-! ### the program -/

theorem halfSum_square {n : Nat} {y : Arr2 ℂ} (hy : Spec.IsSquare n y) : ∃ y0, halfSum y = .ok y0 ∧ Spec.IsSquare n y0 ∧
    Spec.symPart n y0 = Spec.symPart n y := by
  refine ⟨Arr2.ofFn y.r y.c (fun i j => (y.get i j + y.T.get i j) / 2), if_pos ⟨by rw [hy.1]; exact hy.2.symm, by rw [hy.2]; exact hy.1.symm⟩,
    hy, ?_⟩
  unfold Spec.symPart
  rw [hy.1, hy.2]
  refine Arr2.ext' rfl rfl fun i j (hi : i < n) (hj : j < n) => ?_
  rw [Arr2.ofFn_get _ hi hj, Arr2.ofFn_get _ hi hj, Arr2.ofFn_get _ hi hj, Arr2.ofFn_get _ hj hi]
  have h1 : y.T.get i j = y.get j i := (Arr2.ofFn_get' ..).trans (if_pos ⟨by rw [hy.2]; exact hi, by rw [hy.1]; exact hj⟩)
  have h2 : y.T.get j i = y.get i j := (Arr2.ofFn_get' ..).trans (if_pos ⟨by rw [hy.2]; exact hj, by rw [hy.1]; exact hi⟩)
  rw [h1, h2]
  ring

/-- C119: when `identify` returns on single-phase data: the noise is small against the excitation, and the Bayesian method either
has a stored result to load or data or prior that determine its estimate. -/
theorem C119 {ext : NumExt} {cf : IdConf} {sc : SimConf} {a : IdArgs} {st : Store} {d d' : NetworkData}
    (hinv : Spec.InvContract ext.inv) (hex : Spec.Exact ext.solve) (htot : Spec.Total ext.solve) (hpinv : Spec.PinvContract ext.pinv)
    (hsvd : Spec.SvdContract ext.svdVh) (hlasso : 0 ≤ cf.lambdaLasso) (hl : 0 ≤ cf.lambdaEiv)
    (hopt : a.threePhased = false ∧ a.continueId = false ∧ a.uncertainty = false ∧ (a.standard = true ∨ a.bayesian = false) ∧
      (a.exact = true → a.laplacian = true ∨ (29 ≤ d'.noisyVoltage.c ∧ Spec.IsSquare d'.noisyVoltage.c d'.y)))
    (hph : checkPhases a.phases a.sequence = .ok ()) (hload : networkLoad st a.network = .ok d) (hsel : selectPhase a d = .ok d')
    (h90 : ¬ (a.laplacian = true ∧ cf.contrastEachRow = true ∧ cf.regularizeDiag = true)) {x0 z0 Y : Arr2 ℂ} (hY : Y.r = Y.c) {ε σ : ℝ}
    (hN : Spec.Noisy (centreData a.laplacian d'.noisyVoltage d'.noisyCurrent).1
      (centreData a.laplacian d'.noisyVoltage d'.noisyCurrent).2 x0 z0 Y ε)
    (hσ : Spec.AtLeast x0 σ) (hε : 0 ≤ ε) (hεσ : 2 * ε < σ)
    (hstored : (a.standard = true ∧ a.bayesian = false) ∨ a.maxIter = 0 → ∃ r, bayesianLoad st a.network = .ok r)
    (hcase : ((a.standard = true → a.bayesian = true) ∧ 0 < a.maxIter →
      (a.weighted = false ∧ Spec.Unrelated (centreData a.laplacian d'.noisyVoltage d'.noisyCurrent).1
        (centreData a.laplacian d'.noisyVoltage d'.noisyCurrent).2) ∨
      (0 < cf.lambdaEiv ∧ (a.laplacian = true ∨ (cf.contrastEachRow = true ∧ cf.regularizeDiag = true ∧ cf.lambdaprime ≠ 0)) ∧
        (∀ T, tlsFit ext.svdVh ext.inv (centreData a.laplacian d'.noisyVoltage d'.noisyCurrent).1
          (centreData a.laplacian d'.noisyVoltage d'.noisyCurrent).2 = .ok T → Spec.LinesSeen d'.noisyVoltage.c T) ∧
        (a.weighted = true → d'.noisyVoltage.c ≠ 1 ∧ 0 < sc.vm ∧ 0 < sc.vp ∧ 0 < d'.fparam ∧ d'.ratings ≠ [] ∧
          (a.unsynchronized = true → ∀ t j, t < d'.noisyVoltage.r → j < d'.noisyVoltage.c → d'.noisyVoltage.get t j ≠ 0))))) :
    ∃ r, (identify ext cf sc a st).res = .ok r ∧ Spec.ErrorBound r.1.1 Y (σ - ε) ε ∧
      Spec.ErrorBound r.1.2.1 Y (σ - 2 * ε) (2 * ε) := by
  obtain ⟨h3, hc, hu, hstd, hexact⟩ := hopt
  obtain ⟨B, T, L, hS, hYs, hB, hT, hi, hols, htls, e1, e2⟩ := standard_noisy hlasso hinv hex htot hpinv hsvd hY hN hσ hε hεσ a.maxIter
  obtain ⟨y0, hy0, hsq, hsym⟩ := halfSum_square hT
  obtain ⟨p, hprior, hpa, hpu, hps, -⟩ := eiv_prior cf d'.noisyVoltage.c y0 hsq (if a.exact && !a.laplacian then some d'.y else none)
    a.laplacian (by
      intro y hy
      split at hy
      · rename_i hx
        rw [Bool.and_eq_true, Bool.not_eq_true'] at hx
        rcases hexact hx.1 with h | h
        · rw [hx.2] at h; cases h
        · cases hy
          exact ⟨h.1, h.2, hx.2⟩
      · cases hy) h90
  have hredo : a.redoStandard = true := by
    unfold IdArgs.redoStandard
    rcases hstd with h | h <;> rw [h]
    · rfl
    · cases a.standard <;> rfl
  -- the standard methods
  let st1 := st.savez (resultFile .reference a.network) (referenceNpz d'.y a.phases a.laplacian)
  have hstand : identifyStandard ext cf a d' st1 =
      ⟨.ok (B, T, L), st1.savez (resultFile .standard a.network) (standardNpz (B, T, L)), [st1.savez (resultFile .standard a.network) (standardNpz (B, T, L))]⟩ := by
    unfold identifyStandard
    simp only [h3, hredo, if_true, Bool.false_eq_true, if_false, Prog.call, standardMethods, hS]
  let st2 := st1.savez (resultFile .standard a.network) (standardNpz (B, T, L))
  have hbl : bayesianLoad st2 a.network = bayesianLoad st a.network := by
    unfold bayesianLoad Store.load
    have e : st2 (resultFile .bayesian a.network) = st (resultFile .bayesian a.network) := by
      show (Store.savez (Store.savez st _ _) _ _) _ = _
      rw [savez_other (fun h => Stage.noConfusion (resultFile_inj.1 h)), savez_other (fun h => Stage.noConfusion (resultFile_inj.1 h))]
    rw [e]
  have hbay : ∃ b, (identifyBayesian ext cf sc a d' y0 st2).res = .ok b := by
    unfold identifyBayesian
    simp only [h3, Bool.false_eq_true, if_false, Prog.call, bayesianEiv, hprior]
    by_cases hit : (if a.redoStls then a.maxIter else 0) > 0
    · rw [decide_eq_true hit]
      obtain ⟨hr, hm⟩ : a.redoStls = true ∧ 0 < a.maxIter := by
        cases hr : a.redoStls
        · rw [hr] at hit; simp at hit
        · rw [hr] at hit; exact ⟨rfl, hit⟩
      have hr' : a.standard = true → a.bayesian = true := by
        intro h
        unfold IdArgs.redoStls at hr
        rw [h] at hr
        simpa using hr
      obtain ⟨b, hb⟩ := eivCompute_ok (ext := ext) (cf := cf) hinv hex htot hsq hi a.laplacian a.weighted
        (if a.redoStls then a.maxIter else 0) (!a.unsynchronized) hpa hpu hl (averagedSd sc.vm sc.vp d'.fparam)
        (averagedSd sc.cm sc.cp d'.fparam) d'.ratings (by
          rcases hcase ⟨hr', hm⟩ with h | ⟨g1, g2, g3, g4⟩
          · exact .inl h
          · refine .inr ⟨g1, hps ?_ g2, fun hw => ?_⟩
            · have := g3 T htls
              unfold Spec.LinesSeen at this ⊢
              rw [hsym]; exact this
            · obtain ⟨k1, k2, k3, k4, k5, k6⟩ := g4 hw
              refine ⟨k1, div_pos k2 (Real.sqrt_pos.2 k4), div_pos k3 (Real.sqrt_pos.2 k4), k5, fun hp => k6 ?_⟩
              simpa using hp)
      exact ⟨b, by dsimp only; rw [hb]⟩
    · rw [decide_eq_false hit]
      obtain ⟨b, hb⟩ := hstored (by
        cases hr : a.redoStls
        · left
          unfold IdArgs.redoStls at hr
          cases hs : a.standard <;> cases hb : a.bayesian <;> rw [hs, hb] at hr <;> simp_all
        · rw [hr] at hit; right; simpa using hit)
      exact ⟨b, by rw [← hb, ← hbl]⟩
  obtain ⟨b, hb⟩ := hbay
  refine ⟨((B, T, L), b), identify_of hc hu hph hload hsel ?_ hy0 ?_, e1, e2⟩
  · exact congrArg Out.res hstand
  · rw [congrArg Out.store hstand]; exact hb

/-! ### a concrete run -/

/-- a column of three numbers -/
def col3 (a b c : ℂ) : Arr2 ℂ := Arr2.ofFn 3 1 fun t _ => if t = 0 then a else if t = 1 then b else c

theorem col3_get (a b c : ℂ) : (col3 a b c).get 0 0 = a ∧ (col3 a b c).get 1 0 = b ∧ (col3 a b c).get 2 0 = c := by
  unfold col3
  refine ⟨?_, ?_, ?_⟩ <;> rw [Arr2.ofFn_get _ (by norm_num) (by norm_num)] <;> simp

theorem col3_centred {a b c : ℂ} (h : a + b + c = 0) : centreColumns (col3 a b c) = col3 a b c := by
  obtain ⟨h0, h1, h2⟩ := col3_get a b c
  refine Arr2.ext' rfl rfl fun i j (hi : i < 3) (hj : j < 1) => ?_
  refine (Arr2.ofFn_get (r := 3) (c := 1) _ hi hj).trans ?_
  obtain rfl : j = 0 := by omega
  have e : ∑ s ∈ range (col3 a b c).r, (col3 a b c).get s 0 = 0 := by
    show ∑ s ∈ range 3, (col3 a b c).get s 0 = 0
    rw [Finset.sum_range_succ, Finset.sum_range_succ, Finset.sum_range_succ, Finset.sum_range_zero, h0, h1, h2, zero_add, h]
  rw [e, zero_div, sub_zero]

theorem col3_mulVec (a b c : ℂ) (v : Fin 1 → ℂ) :
    ((col3 a b c).toMat 3 1).mulVec v = fun i => if i = 0 then a * v 0 else if i = 1 then b * v 0 else c * v 0 := by
  obtain ⟨h0, h1, h2⟩ := col3_get a b c
  funext i
  show ∑ k : Fin 1, (col3 a b c).get i k * v k = _
  rw [Fin.sum_univ_one]
  fin_cases i
  · show (col3 a b c).get 0 0 * v 0 = _; rw [h0]; rfl
  · show (col3 a b c).get 1 0 * v 0 = _; rw [h1]; rfl
  · show (col3 a b c).get 2 0 * v 0 = _; rw [h2]; rfl

/-- one node, three samples of its voltage and its current; the current is measured with an error -/
def demoData119 : NetworkData :=
  ⟨col3 10 (-10) 0, col3 11 (-9) (-2), col3 10 (-10) 0, col3 10 (-10) 0, Arr2.eye 1, [1], 1, [1]⟩

/-- `python identify_network.py --network ieee_33 --max-iterations 50` -/
def demoArgs119 : IdArgs := ⟨"ieee_33", 50, false, false, false, "1", false, false, false, false, false, false⟩

theorem demo_noisy119 : Spec.Noisy (col3 10 (-10) 0) (col3 11 (-9) (-2)) (col3 10 (-10) 0) (col3 10 (-10) 0) (Arr2.eye 1) 3 := by
  refine ⟨?_, ⟨rfl, rfl⟩, ⟨rfl, rfl⟩, ?_⟩
  · rw [Arr2.matmul_ok _ _ rfl]
    congr 1
    refine Arr2.ext' rfl rfl fun i j (hi : i < 3) (hj : j < 1) => ?_
    refine (Arr2.ofFn_get (r := 3) (c := 1) _ hi hj).trans ?_
    obtain rfl : j = 0 := by omega
    rw [Arr2.mulGet, show (col3 10 (-10) 0).c = 1 from rfl, Finset.sum_range_one]
    have : (Arr2.eye 1 : Arr2 ℂ).get 0 0 = 1 := by
      unfold Arr2.eye
      rw [Arr2.ofFn_get _ (by norm_num) (by norm_num), if_pos rfl]
    rw [this, mul_one]
  · intro (a : Fin 1 → ℂ) (b : Fin 1 → ℂ)
    show Spec.len (n := 3) (((col3 10 (-10) 0).toMat 3 1 - (col3 10 (-10) 0).toMat 3 1).mulVec a +
      ((col3 11 (-9) (-2)).toMat 3 1 - (col3 10 (-10) 0).toMat 3 1).mulVec b) ≤ 3 * Spec.len (n := 1 + 1) (Fin.append a b)
    rw [sub_self, Matrix.zero_mulVec, zero_add, Matrix.sub_mulVec, col3_mulVec, col3_mulVec]
    unfold Spec.len
    have hb : ∑ i, ‖Fin.append a b i‖ ^ 2 = ‖a 0‖ ^ 2 + ‖b 0‖ ^ 2 := by
      rw [Fin.sum_univ_add]
      simp only [Fin.append_left, Fin.append_right]
      exact congrArg₂ _ (Fin.sum_univ_one _) (Fin.sum_univ_one _)
    rw [hb, Fin.sum_univ_three]
    have e0 : (11 * b 0 - 10 * b 0 : ℂ) = b 0 := by ring
    have e1 : (-9 * b 0 - -10 * b 0 : ℂ) = b 0 := by ring
    have e2 : (-2 * b 0 - 0 * b 0 : ℂ) = -2 * b 0 := by ring
    simp only [Pi.sub_apply, Fin.isValue, if_true, one_ne_zero, if_false, show (2 : Fin 3) ≠ 0 by decide, show (2 : Fin 3) ≠ 1 by decide, e0,
      e1, e2]
    rw [norm_mul, show ‖(-2 : ℂ)‖ = 2 by norm_num]
    refine Real.sqrt_le_iff.2 ⟨by positivity, ?_⟩
    rw [mul_pow, mul_pow, Real.sq_sqrt (by positivity)]
    nlinarith [sq_nonneg ‖a 0‖, sq_nonneg ‖b 0‖]

theorem demo_excited119 : Spec.AtLeast (col3 10 (-10) 0) 10 := by
  intro (v : Fin 1 → ℂ)
  show 10 * Spec.len (n := 1) v ≤ Spec.len (n := 3) (((col3 10 (-10) 0).toMat 3 1).mulVec v)
  rw [col3_mulVec]
  unfold Spec.len
  have h1 : ∑ i, ‖v i‖ ^ 2 = ‖v 0‖ ^ 2 := Fin.sum_univ_one _
  rw [h1, Fin.sum_univ_three, Real.sqrt_sq (norm_nonneg _)]
  simp only [Fin.isValue, if_true, one_ne_zero, if_false, show (2 : Fin 3) ≠ 0 by decide, show (2 : Fin 3) ≠ 1 by decide, norm_mul]
  apply Real.le_sqrt_of_sq_le
  norm_num [mul_pow]

theorem demo_unrelated119 : Spec.Unrelated (col3 10 (-10) 0) (col3 11 (-9) (-2)) := by
  intro (a : Fin 1 → ℂ) (b : Fin 1 → ℂ) h
  have h' : ((col3 10 (-10) 0).toMat 3 1).mulVec a + ((col3 11 (-9) (-2)).toMat 3 1).mulVec b = 0 := h
  rw [col3_mulVec, col3_mulVec] at h'
  have e0 := congrFun h' 0
  have e2 := congrFun h' 2
  simp only [Pi.add_apply, Fin.isValue, if_true, if_false, show (2 : Fin 3) ≠ 0 by decide, show (2 : Fin 3) ≠ 1 by decide,
    Pi.zero_apply] at e0 e2
  have hb : b 0 = 0 := by
    have : (-2 : ℂ) * b 0 = 0 := by rw [← e2]; ring
    simpa using this
  have ha : a 0 = 0 := by
    rw [hb, mul_zero, add_zero] at e0
    simpa using e0
  exact ⟨funext fun k => by rw [Subsingleton.elim k 0]; exact ha, funext fun k => by rw [Subsingleton.elim k 0]; exact hb⟩

/-- The script with all methods returns on these data; the errors of the estimates 1 are at most 3/7 and 6/4 times the square root of
two. -/
example (sc : SimConf) (st : Store) : ∃ r, (identify ⟨exactPinv, exactSvd, exactInv, exactSolve⟩ demoIdConf sc demoArgs119
    (st.savez (resultFile .network "ieee_33") (networkNpz demoData119))).res = .ok r ∧
    Spec.ErrorBound r.1.1 (Arr2.eye 1) (10 - 3) 3 ∧ Spec.ErrorBound r.1.2.1 (Arr2.eye 1) (10 - 2 * 3) (2 * 3) := by
  have hload : networkLoad (st.savez (resultFile .network "ieee_33") (networkNpz demoData119)) "ieee_33" = .ok demoData119 :=
    C49_network "ieee_33" demoData119 st (h := []) ⟨templates_plain "ieee_33" (by decide), by simp⟩
  have hc : centreData false (col3 10 (-10) 0) (col3 11 (-9) (-2)) = (col3 10 (-10) 0, col3 11 (-9) (-2)) := by
    show (centreColumns _, centreColumns _) = _
    rw [col3_centred (by norm_num), col3_centred (by norm_num)]
  refine C119 (x0 := col3 10 (-10) 0) (z0 := col3 10 (-10) 0) (d := demoData119) (d' := demoData119) exactInv_contract exactSolve_exact
    exactSolve_total exactPinv_contract exactSvd_contract (by simp [demoIdConf]) (by simp [demoIdConf])
    ⟨by decide, rfl, rfl, .inr rfl, fun h => by simp [demoArgs119] at h⟩ (by decide) hload ?_ (by simp [demoArgs119]) rfl ?_ demo_excited119 (by norm_num)
    (by norm_num) ?_ ?_
  · unfold selectPhase
    rw [if_neg]
    · rfl
    · rintro ⟨-, x, hx, hx1⟩
      exact hx1 (by simpa [demoData119] using hx)
  · show Spec.Noisy (centreData false (col3 10 (-10) 0) (col3 11 (-9) (-2))).1 (centreData false (col3 10 (-10) 0) (col3 11 (-9) (-2))).2
      _ _ _ _
    rw [hc]; exact demo_noisy119
  · rintro (h | h)
    · cases h.1
    · cases h
  · intro _
    left
    refine ⟨rfl, ?_⟩
    show Spec.Unrelated (centreData false (col3 10 (-10) 0) (col3 11 (-9) (-2))).1 (centreData false (col3 10 (-10) 0) (col3 11 (-9) (-2))).2
    rw [hc]; exact demo_unrelated119

end
end Verif
