/-
C124: when the identification in sequence values completes.
-/
import Verif.Props.IdentifyRun
import Verif.Props.Phases
import Verif.Props.Programs

namespace Verif
open Finset Matrix Spec
open Prog hiding pure bind read save call ofExcept
noncomputable section

/-- the symmetric part of the block of one label -/
theorem symPart_block {ids : List Int} {m : Fin 3 → ℕ} {f : Fin 3 → ℕ → ℕ} (hp : ∀ l : Fin 3, LabelPos ids (l.val : Int) (m l) (f l))
    {T : Fin 3 → Arr2 ℂ} {y y0 : Arr2 ℂ} (hA : Spec.Assembled ids m f T y)
    (h : Spec.symPart ids.length y0 = Spec.symPart ids.length y) (l : Fin 3) :
    Spec.symPart (m l) (Spec.blockAt y0 (m l) (f l)) = Spec.symPart (m l) (T l) := by
  refine Arr2.ext' rfl rfl fun i j (hi : i < m l) (hj : j < m l) => ?_
  have e := congrArg (fun a : Arr2 ℂ => a.get (f l i) (f l j)) h
  have hi' := (hp l).lt i hi
  have hj' := (hp l).lt j hj
  simp only [Spec.symPart] at e
  rw [Arr2.ofFn_get _ hi' hj', Arr2.ofFn_get _ hi' hj', hA.block l i j hi hj, hA.block l j i hj hi] at e
  unfold Spec.symPart Spec.blockAt
  rw [Arr2.ofFn_get _ hi hj, Arr2.ofFn_get _ hi hj, Arr2.ofFn_get _ hi hj, Arr2.ofFn_get _ hj hi]
  exact e

/-- C124: when `identify` returns on three-phase data in sequence values, with all methods run: for each sequence, the noise is small
against the excitation, and data or prior determine the Bayesian estimate. The estimates consist of one block per sequence, with the
errors of C119, and zeros. -/
theorem C124 {ext : NumExt} {cf : IdConf} {sc : SimConf} {a : IdArgs} {st : Store} {d : NetworkData}
    {m : Fin 3 → ℕ} {f : Fin 3 → ℕ → ℕ} (hinv : Spec.InvContract ext.inv) (hex : Spec.Exact ext.solve) (htot : Spec.Total ext.solve) (hpinv : Spec.PinvContract ext.pinv)
    (hsvd : Spec.SvdContract ext.svdVh) (hsh : Spec.Shapes ext) (hlasso : 0 ≤ cf.lambdaLasso) (hl : 0 ≤ cf.lambdaEiv)
    (hopt : a.threePhased = true ∧ a.sequence = true ∧ a.phases = "012" ∧ a.continueId = false ∧ a.uncertainty = false ∧
      a.standard = a.bayesian ∧ (a.exact = true → a.laplacian = true ∨ ∀ l, 29 ≤ m l) ∧ 0 < a.maxIter)
    (hload : networkLoad st a.network = .ok d) (hd : Spec.PhaseData d.ids d.noisyVoltage d.noisyCurrent d.ratings d.y none)
    (h0 : 0 ∈ d.ids) (hp : ∀ l : Fin 3, LabelPos d.ids (l.val : Int) (m l) (f l))
    (h90 : ¬ (a.laplacian = true ∧ cf.contrastEachRow = true ∧ cf.regularizeDiag = true)) {x0 z0 Y : Fin 3 → Arr2 ℂ} {ε σ : Fin 3 → ℝ}
    {v c : Fin 3 → Arr2 ℂ} (hv : v = fun l => Spec.columnsAt d.noisyVoltage (m l) (f l))
    (hc : c = fun l => Spec.columnsAt d.noisyCurrent (m l) (f l))
    (hN : ∀ l, (Y l).r = (Y l).c ∧
      Spec.Noisy (centreData a.laplacian (v l) (c l)).1 (centreData a.laplacian (v l) (c l)).2 (x0 l) (z0 l) (Y l) (ε l) ∧
      Spec.AtLeast (x0 l) (σ l) ∧ 0 ≤ ε l ∧ 2 * ε l < σ l)
    (hcase : ∀ l, (a.weighted = false ∧ Spec.Unrelated (centreData a.laplacian (v l) (c l)).1 (centreData a.laplacian (v l) (c l)).2) ∨
      (0 < cf.lambdaEiv ∧ (a.laplacian = true ∨ (cf.contrastEachRow = true ∧ cf.regularizeDiag = true ∧ cf.lambdaprime ≠ 0)) ∧
        (∀ T, tlsFit ext.svdVh ext.inv (centreData a.laplacian (v l) (c l)).1 (centreData a.laplacian (v l) (c l)).2 = .ok T →
          Spec.LinesSeen (m l) T) ∧
        (a.weighted = true → m l ≠ 0 ∧ m l ≠ 1 ∧ 0 < sc.vm ∧ 0 < sc.vp ∧ 0 < d.fparam ∧
          (a.unsynchronized = true → ∀ t j, t < (v l).r → j < m l → (v l).get t j ≠ 0)))) :
    ∃ r, ∃ B T : Fin 3 → Arr2 ℂ, (identify ext cf sc a st).res = .ok r ∧ Spec.Assembled d.ids m f B r.1.1 ∧
      Spec.Assembled d.ids m f T r.1.2.1 ∧
      ∀ l, Spec.ErrorBound (B l) (Y l) (σ l - ε l) (ε l) ∧ Spec.ErrorBound (T l) (Y l) (σ l - 2 * ε l) (2 * ε l) := by
  obtain ⟨h3, hs, hph, hco, hu, hsb, hexact, hit⟩ := hopt
  subst hv hc
  have key := fun l => standard_noisy hlasso hinv hex htot hpinv hsvd (hN l).1 (hN l).2.1 (hN l).2.2.1 (hN l).2.2.2.1 (hN l).2.2.2.2 a.maxIter
  choose B T L hS hYs hB hT hi hols htls e1 e2 using key
  have hredo : a.redoStandard = true := by
    unfold IdArgs.redoStandard
    rw [hsb]
    cases a.bayesian <;> rfl
  have hredo' : a.redoStls = true := by
    unfold IdArgs.redoStls
    rw [hsb]
    cases a.bayesian <;> rfl
  set ye : Option (Arr2 ℂ) := if a.exact && !a.laplacian then some d.y else none with hye
  have hyx : ∀ y, ye = some y → y = d.y ∧ a.laplacian = false ∧ ∀ l, 29 ≤ m l := by
    intro y hy
    rw [hye] at hy
    split at hy
    · rename_i hx
      rw [Bool.and_eq_true, Bool.not_eq_true'] at hx
      rcases hexact hx.1 with h | h
      · rw [hx.2] at h; cases h
      · cases hy
        exact ⟨rfl, hx.2, h⟩
    · cases hy
  have hsel : selectPhase a d = .ok d := by
    unfold selectPhase
    rw [if_neg (by rw [h3]; simp)]
    rfl
  have hpc : checkPhases a.phases a.sequence = .ok () := by rw [hph, hs]; decide
  obtain ⟨r, hr, rB, rT, -⟩ := standardMethods3_ok (ext := ext) (cf := cf) (name := a.network) (v := d.noisyVoltage) (c := d.noisyCurrent)
    (lap := a.laplacian) (iters := a.maxIter) hsh hd.v hd.c hp (rs := fun l => (B l, T l, L l)) hS
    (st.savez (resultFile .reference a.network) (referenceNpz d.y a.phases a.laplacian))
  have hstand : (identifyStandard ext cf a d (st.savez (resultFile .reference a.network)
      (referenceNpz d.y a.phases a.laplacian))).res = .ok r := by
    unfold identifyStandard
    simp only [h3, hredo, if_true, hph] at hr ⊢
    exact hr
  obtain ⟨y0, hy0, hsq, hsym⟩ := halfSum_square rT.square
  have hd' : Spec.PhaseData d.ids d.noisyVoltage d.noisyCurrent d.ratings y0 ye := ⟨hd.v, hd.c, hd.ratings, hsq, fun y hy => by rw [(hyx y hy).1]; exact hd.init⟩
  have hlab : ∀ l st', ∃ q, labelRun ext cf a.network d.noisyVoltage d.noisyCurrent (averagedSd sc.vm sc.vp d.fparam)
      (averagedSd sc.cm sc.cp d.fparam) d.ratings y0 ye a.laplacian a.weighted a.maxIter (!a.unsynchronized) (m l) (f l) st' = .ok q := by
    intro l st'
    obtain ⟨p, hprior, hpa, hpu, hps, -⟩ := eiv_prior cf (m l) (Spec.blockAt y0 (m l) (f l)) ⟨rfl, rfl⟩
      (ye.map (fun y => Spec.blockAt y (m l) (f l))) a.laplacian (by
        intro y hy
        obtain ⟨y', hy', rfl⟩ := Option.map_eq_some_iff.1 hy
        obtain ⟨-, h1, h2⟩ := hyx y' hy'
        exact ⟨h2 l, ⟨rfl, rfl⟩, h1⟩) h90
    obtain ⟨b, hb⟩ := eivCompute_ok (ext := ext) (cf := cf) hinv hex htot (v := Spec.columnsAt d.noisyVoltage (m l) (f l))
      (i := Spec.columnsAt d.noisyCurrent (m l) (f l)) (y0 := Spec.blockAt y0 (m l) (f l)) ⟨rfl, rfl⟩ (hi l) a.laplacian a.weighted
      a.maxIter (!a.unsynchronized) hpa hpu hl (averagedSd sc.vm sc.vp d.fparam)
      (averagedSd sc.cm sc.cp d.fparam) (Spec.entriesAt d.ratings (m l) (f l)) (by
        rcases hcase l with h | ⟨g1, g2, g3, g4⟩
        · exact .inl h
        · refine .inr ⟨g1, hps ?_ g2, fun hw => ?_⟩
          · have := g3 _ (htls l)
            unfold Spec.LinesSeen at this ⊢
            rw [symPart_block hp rT hsym]; exact this
          · obtain ⟨k0, k1, k2, k3, k4, k6⟩ := g4 hw
            refine ⟨k1, div_pos k2 (Real.sqrt_pos.2 k4), div_pos k3 (Real.sqrt_pos.2 k4), ?_, fun hp => k6 ?_⟩
            · intro e
              have := congrArg List.length e
              simp only [Spec.entriesAt, List.length_map, List.length_range, List.length_nil] at this
              exact k0 this
            · simpa using hp)
    refine ⟨b, ?_⟩
    unfold labelRun
    rw [bayesianEiv_fst hit]
    show (eivPrior cf (m l) (Spec.blockAt y0 (m l) (f l)) (ye.map (fun y => Spec.blockAt y (m l) (f l))) a.laplacian).bind _ = _
    rw [hprior]
    exact hb
  choose rs hrs using fun l => hlab l st
  have hrs' : ∀ l st', labelRun ext cf a.network d.noisyVoltage d.noisyCurrent (averagedSd sc.vm sc.vp d.fparam)
      (averagedSd sc.cm sc.cp d.fparam) d.ratings y0 ye a.laplacian a.weighted a.maxIter (!a.unsynchronized) (m l) (f l) st' = .ok (rs l) :=
    fun l st' => (labelRun_const hit _ _ _ _).trans (hrs l)
  obtain ⟨b, hb⟩ : ∃ b, (identifyBayesian ext cf sc a d y0 (identifyStandard ext cf a d (st.savez (resultFile .reference a.network)
      (referenceNpz d.y a.phases a.laplacian))).store).res = .ok b := by
    have hsq' := fun l => labelRun_square hit (hrs l)
    obtain ⟨a1, a2, a3, -, -, -, -, -, hA⟩ := assemble hp (fun l => (hsq' l).1) rfl
    obtain ⟨log, -, hM⟩ := mergedLog_ok hp (logs := fun l => (rs l).2) fun l e he => ((hsq' l).2.2 e he).1
    refine ⟨(a3, log), ?_⟩
    unfold identifyBayesian
    simp only [h3, hredo', if_true, ← hye]
    exact ((C52_bayesian hit h0 hd' hp _ (a3, log)).1).2 ⟨rs, hrs', hA, hM⟩
  exact ⟨(r, b), B, T, identify_of hco hu hpc hload hsel hstand hy0 hb, rB, rT, fun l => ⟨e1 l, e2 l⟩⟩

end
end Verif
