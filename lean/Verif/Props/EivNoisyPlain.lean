/-
C162: the error-in-variables regression without weights, as the program uses it by default, on noisy data.
-/
import Verif.Props.EivNoisyRun
import Verif.Props.EivUnit

namespace Verif
open Finset Matrix
noncomputable section

theorem unit_between (m : Nat) : Spec.WeightsBetween 1 1 (Spec.unitWeights m) := fun v => by
  have : Spec.wquad (Spec.unitWeights m) v = 1 * ∑ i ∈ range m, v.getD i 0 ^ 2 := wquad_scaledEye m 1 v
  rw [this]; exact ⟨le_rfl, le_rfl⟩

/-- C162: without weights every estimate of a fit started at a symmetric matrix is close to the true matrix when noise, error of the
initial guess and penalty are small. -/
theorem C162_fit {lap : Bool} {n : Nat} {cfg : RegConfig} {x z yInit : Arr2 ℂ} (h : FitSetup lap n cfg x z yInit)
    (hl : 0 ≤ cfg.lam) (ho : ∀ t ∈ Spec.terms cfg.prior, t.order = 1 ∨ t.order = 2) (hsym : Spec.IsSymm yInit)
    {xW zW : Option (Arr2 ℝ)} (hw : xW = none ∨ zW = none) {solve : Solver} (hex : Spec.Exact solve) (htot : Spec.Total solve)
    {inv : Arr2 ℂ → Except PyErr (Arr2 ℂ)} (hinv : Spec.InvContract inv) {res : Except PyErr Unit} {obj : RegObj}
    (hfit : eivFit solve inv cfg RegObj.fresh x z xW zW yInit = (res, obj))
    {x0 z0 Y : Arr2 ℂ} (hY : Spec.IsSquare n Y) (had : Spec.Admissible lap Y) (hz0 : x0.matmul Y = .ok z0) (hx0 : x0.r = x.r)
    {ε d σ : ℝ} (hε : 0 ≤ ε) (hnoise : Spec.size (Spec.diff x x0) ^ 2 + Spec.size (Spec.diff z z0) ^ 2 ≤ ε ^ 2)
    (hd : Spec.size (Spec.diff yInit Y) ≤ d) (hσ : Spec.AtLeast x0 σ) {η : ℝ}
    (hη : η = ε + Spec.eivShift n 1 ε (Spec.size x0) d (cfg.lam * Spec.penalty lap n cfg (Spec.projection lap n yInit))) :
    (∀ e ∈ obj.iterations, Spec.ErrorBound e.params Y (σ - η) η) ∧
    (res = .ok () → 0 < cfg.maxIter → ∃ Y', obj.admittance = some Y' ∧ Spec.ErrorBound Y' Y (σ - η) η) := by
  have h0 : FitSetup lap n { cfg with maxIter := cfg.maxIter, absTol := 0, relTol := 0 } x z yInit :=
    ⟨h.dt, h.e, h.xc, h.zs, h.init, h.prior, h.alpha⟩
  have hU := unit_posDef (2 * (n * x.r))
  rcases hf : eivFit solve inv { cfg with maxIter := cfg.maxIter, absTol := 0, relTol := 0 } RegObj.fresh x z
      (some (Spec.unitWeights (2 * (n * x.r)))) (some (Spec.unitWeights (2 * (n * x.r)))) yInit with ⟨res', obj'⟩
  obtain ⟨h1, h2, -⟩ := C154 (K := cfg.maxIter) (ta := cfg.absTol) (tr := cfg.relTol) h hex htot hinv hsym hw hfit hf
  have hlen := h2 le_rfl le_rfl le_rfl
  have hη' : η = ε + Spec.eivShift n (Real.sqrt (1 / 1)) ε (Spec.size x0) d
      (cfg.lam * Spec.penalty lap n cfg (Spec.projection lap n yInit) / 1) := by
    rw [div_one, div_one, Real.sqrt_one]; exact hη
  obtain ⟨hb, -⟩ := C161_fit h0 hl ho hU.1 (Spec.unitWeights (2 * (n * x.r))) one_pos le_rfl (unit_between _) hex hf hY had hz0 hx0 hε hnoise
    hd hσ hη'
  have hall : ∀ e ∈ obj.iterations, Spec.ErrorBound e.params Y (σ - η) η := by
    intro e he
    obtain ⟨k, hk, rfl⟩ := List.mem_iff_getElem.1 he
    have hk' : k < obj'.iterations.length := lt_of_lt_of_le hk hlen
    rw [h1 k _ _ (List.getElem?_eq_getElem hk) (List.getElem?_eq_getElem hk')]
    exact hb _ (List.getElem_mem hk')
  refine ⟨hall, fun hr hm => ?_⟩
  subst hr
  obtain ⟨-, h3⟩ := C33_eiv solve inv cfg x z _ _ yInit hfit
  obtain ⟨-, -, -, e, he, hadm⟩ := h3 hm
  exact ⟨e.params, hadm, hall e (List.mem_of_getLast? he)⟩

/-- C162 for `identify` as called by default: a run on single-phase measurements without weights that redoes both methods. -/
theorem C162_identify {ext : NumExt} {cf : IdConf} {sc : SimConf} {a : IdArgs} {st : Store}
    {r : (Arr2 ℂ × Arr2 ℂ × Arr2 ℂ) × (Arr2 ℂ × List IterationStatus)} (hn : Spec.PlainName a.network) (h3 : a.threePhased = false)
    (hinv : Spec.InvContract ext.inv) (hex : Spec.Exact ext.solve) (htot : Spec.Total ext.solve) (hsvd : Spec.SvdContract ext.svdVh)
    (hl : 0 ≤ cf.lambdaEiv) (hrun : (identify ext cf sc a st).res = .ok r) (hstd : Spec.Redone a.standard [a.standard, a.bayesian])
    (hbay : Spec.Redone a.bayesian [a.standard, a.bayesian]) (hit : 0 < a.maxIter) (hwt : a.weighted = false)
    {all d : NetworkData} (hload : networkLoad st a.network = .ok all) (hsel : selectPhase a all = .ok d)
    (hexact : a.exact = true → a.laplacian = true ∨ (29 ≤ d.noisyVoltage.c ∧ Spec.IsSquare d.noisyVoltage.c d.y))
    (h90 : ¬ (a.laplacian = true ∧ cf.contrastEachRow = true ∧ cf.regularizeDiag = true)) {x0 z0 Y : Arr2 ℂ}
    (hY : Spec.IsSquare d.noisyVoltage.c Y) (had : Spec.Admissible a.laplacian Y) (hz0 : x0.matmul Y = .ok z0)
    (hx0 : x0.r = d.noisyVoltage.r) (hcur : d.noisyCurrent.r = d.noisyVoltage.r ∧ d.noisyCurrent.c = d.noisyVoltage.c)
    {ε σ : ℝ} (hε : 0 ≤ ε)
    (hnoise : Spec.size (Spec.diff (centreData a.laplacian d.noisyVoltage d.noisyCurrent).1 x0) ^ 2 +
      Spec.size (Spec.diff (centreData a.laplacian d.noisyVoltage d.noisyCurrent).2 z0) ^ 2 ≤ ε ^ 2)
    (hσ : Spec.AtLeast x0 σ) (hεσ : 2 * ε < σ) :
    ∃ y0 prior, halfSum r.1.2.1 = .ok y0 ∧
      Spec.size (Spec.diff y0 Y) ≤ Spec.guessError ε σ (Spec.size Y) d.noisyVoltage.c ∧
      eivPrior cf d.noisyVoltage.c y0 (if a.exact && !a.laplacian then some d.y else none) a.laplacian = .ok prior ∧
      ∀ η, η = ε + Spec.eivShift d.noisyVoltage.c 1 ε (Spec.size x0) (Spec.guessError ε σ (Spec.size Y) d.noisyVoltage.c)
          (cf.lambdaEiv * Spec.penalty a.laplacian d.noisyVoltage.c (regConfig cf prior cf.lambdaEiv a.laplacian a.maxIter)
            (Spec.projection a.laplacian d.noisyVoltage.c y0)) →
        Spec.ErrorBound r.2.1 Y (σ - η) η ∧ ∀ e ∈ r.2.2, Spec.ErrorBound e.params Y (σ - η) η := by
  obtain ⟨d2, y0, ⟨all2, hl2, hs2⟩, hy0, hst, -, hb, -⟩ := C78_identify hn h3 hrun
  obtain rfl : all2 = all := Except.ok.inj (hl2.symm.trans hload)
  obtain rfl : d2 = d := Except.ok.inj (hs2.symm.trans hsel)
  obtain ⟨hstd', -⟩ := hst hstd
  obtain ⟨⟨prior, hpr, hcomp⟩, -⟩ := hb ⟨hbay, hit⟩
  obtain ⟨s1, s2, s3, s4⟩ := centreData_shape a.laplacian d2.noisyVoltage d2.noisyCurrent
  obtain ⟨hxY, hzr, hzc, -⟩ := Arr2.matmul_inv hz0
  have hN := noisy_of_size hz0 ⟨by rw [s1, hx0], by rw [s2, hxY, hY.1]⟩ ⟨by rw [s3, hcur.1, hzr, hx0], by rw [s4, hcur.2, hzc, hY.2]⟩ hε hnoise
  obtain ⟨T, hT, hTs, hTe⟩ := C117_tls hsvd hinv hN hσ hε hεσ
  have hTr : r.1.2.1 = T := standard_tls hstd' hT
  have hTsq : Spec.IsSquare d2.noisyVoltage.c T := ⟨hTs.1.trans hY.1, hTs.2.trans hY.2⟩
  obtain ⟨hsq, hsz⟩ := halfSum_size hTsq hY had.1 (by rw [← hTr]; exact hy0)
  have hsy := (halfSum_symm hTsq (by rw [← hTr]; exact hy0)).2
  have hd : Spec.size (Spec.diff y0 Y) ≤ Spec.guessError ε σ (Spec.size Y) d2.noisyVoltage.c :=
    hsz.trans (errorBound_size hTsq hY (by linarith) (by linarith) hTe)
  obtain ⟨p, hp', hpa, hpu, -, hpo⟩ := eiv_prior cf d2.noisyVoltage.c y0 hsq (if a.exact && !a.laplacian then some d2.y else none)
    a.laplacian (by
      intro y hy
      split at hy
      · rename_i hx
        rw [Bool.and_eq_true, Bool.not_eq_true'] at hx
        rcases hexact hx.1 with h | h
        · rw [hx.2] at h; cases h
        · cases hy
          exact ⟨h.1, h.2, hx.2⟩
      · cases hy) h90
  obtain rfl : p = prior := Except.ok.inj (hp'.symm.trans hpr)
  refine ⟨y0, p, hy0, hd, hpr, fun η hη => ?_⟩
  have hw : eivWeights d2.noisyVoltage d2.noisyCurrent (averagedSd sc.vm sc.vp d2.fparam) (averagedSd sc.cm sc.cp d2.fparam) d2.ratings
      false (!a.unsynchronized) = .ok (d2.noisyVoltage, d2.noisyCurrent, none, none) := by cases a.unsynchronized <;> rfl
  rw [hwt] at hcomp
  have hs : FitSetup a.laplacian d2.noisyVoltage.c (regConfig cf p cf.lambdaEiv a.laplacian a.maxIter)
      (centreData a.laplacian d2.noisyVoltage d2.noisyCurrent).1 (centreData a.laplacian d2.noisyVoltage d2.noisyCurrent).2 y0 :=
    ⟨rfl, rfl, by rw [s2], ⟨by rw [s3, s1, hcur.1], by rw [s4, hcur.2]⟩, hsq, hpu, hpa⟩
  simp only [eivCompute, hw, bind, Except.bind] at hcomp
  rcases hf : eivFit ext.solve ext.inv (regConfig cf p cf.lambdaEiv a.laplacian a.maxIter) .fresh
      (centreData a.laplacian d2.noisyVoltage d2.noisyCurrent).1 (centreData a.laplacian d2.noisyVoltage d2.noisyCurrent).2 none none y0
    with ⟨res, obj⟩
  rw [hf] at hcomp
  obtain ⟨hall, hret⟩ := C162_fit hs hl (fun t ht => .inl (hpo t ht)) hsy (.inl rfl) hex htot hinv hf hY had hz0 (by rw [s1, hx0]) hε hnoise
    hd hσ hη
  cases res with
  | error e => cases hcomp
  | ok u =>
    obtain ⟨Y', hY', hb'⟩ := hret rfl hit
    simp only [fitted, hY'] at hcomp
    have := Except.ok.inj hcomp
    rw [← this]
    exact ⟨hb', hall⟩

/-- The default call of the script on the data of `demo161` returns, and its result obeys the bound. -/
theorem demo162 (sc : SimConf) (st : Store) :
    ∃ r y0, (identify ⟨exactPinv, exactSvd, exactInv, exactSolve⟩ demoConf161 sc { demoArgs161 with weighted := false }
      (st.savez (resultFile .network "ieee_33") (networkNpz demoData161))).res = .ok r ∧
    halfSum r.1.2.1 = .ok y0 ∧ Spec.size (Spec.diff y0 demoY126) < 1 ∧
    ∃ η, Spec.ErrorBound r.2.1 demoY126 (30 - η) η := by
  obtain ⟨hload, hc, hsel, hN⟩ := demo161_facts st { demoArgs161 with weighted := false }
  obtain ⟨r, hr, -, -⟩ := C119 (ext := ⟨exactPinv, exactSvd, exactInv, exactSolve⟩) (cf := demoConf161) (sc := sc)
    (a := { demoArgs161 with weighted := false })
    (st := st.savez (resultFile .network "ieee_33") (networkNpz demoData161)) (d := demoData161) (d' := demoData161) (x0 := demoV161)
    (z0 := demoI161) (Y := demoY126) (ε := 2) (σ := 30) exactInv_contract exactSolve_exact exactSolve_total exactPinv_contract
    exactSvd_contract (by simp [demoConf161]) (by simp [demoConf161])
    ⟨by decide, rfl, rfl, .inr rfl, fun h => by simp [demoArgs161] at h⟩ (by decide) hload hsel (by simp [demoArgs161]) rfl
    (by
      show Spec.Noisy (centreData false demoV161 demoN161).1 (centreData false demoV161 demoN161).2 _ _ _ _
      rw [hc]; exact hN) demo161_excited (by norm_num) (by norm_num)
    (by
      rintro (h | h)
      · cases h.1
      · cases h)
    (by
      intro _
      right
      refine ⟨by simp [demoConf161], .inr (by simp [demoConf161]), ?_, fun h => by cases h⟩
      show ∀ T, tlsFit exactSvd exactInv (centreData false demoV161 demoN161).1 (centreData false demoV161 demoN161).2 = .ok T →
          Spec.LinesSeen 2 T
      rw [hc]
      exact demo161_line)
  obtain ⟨y0, prior, h1, h2, -, h3⟩ := C162_identify (templates_plain "ieee_33" (by decide)) (by decide) exactInv_contract
    exactSolve_exact exactSolve_total exactSvd_contract (by simp [demoConf161]) hr (.inr (by simp [demoArgs161])) (.inr (by simp [demoArgs161]))
    (by decide) rfl hload hsel (fun h => by simp [demoArgs161] at h)
    (by simp [demoArgs161]) (x0 := demoV161) (z0 := demoI161) (Y := demoY126) ⟨rfl, rfl⟩ ⟨demoY126_symm, fun h => by cases h⟩
    demo161_product rfl ⟨rfl, rfl⟩ (ε := 2) (σ := 30) (by norm_num)
    (by
      show Spec.size (Spec.diff (centreData false demoV161 demoN161).1 demoV161) ^ 2 +
        Spec.size (Spec.diff (centreData false demoV161 demoN161).2 demoI161) ^ 2 ≤ _
      rw [hc]; exact demo161_noise) demo161_excited (by norm_num)
  exact ⟨r, y0, hr, h1, lt_of_le_of_lt h2 demo161_guess, _, (h3 _ rfl).1⟩

end
end Verif
