/-
C126 for identify_network.py: the noise levels given to the weighted Bayesian method.
-/
import Verif.Props.BayesWeights
import Verif.Props.NoisyPipeline
import Verif.Props.PlotPipeline

namespace Verif
open Finset Spec
noncomputable section

theorem halfSum_eq {n : Nat} {y : Arr2 ℂ} (hy : IsSquare n y) :
    halfSum y = .ok (Arr2.ofFn n n (fun i j => (y.get i j + y.get j i) / 2)) := by
  unfold halfSum Arr2.zipWith
  rw [if_pos ⟨by rw [hy.1]; exact hy.2.symm, by rw [hy.2]; exact hy.1.symm⟩]
  congr 1
  refine Arr2.ext' hy.1 hy.2 fun i j (hi : i < y.r) (hj : j < y.c) => ?_
  have hi' : i < n := hy.1 ▸ hi
  have hj' : j < n := hy.2 ▸ hj
  rw [Arr2.ofFn_get _ hi hj, Arr2.ofFn_get _ hi' hj']
  have h1 : y.T.get i j = y.get j i := (Arr2.ofFn_get' ..).trans (if_pos ⟨by rw [hy.2]; exact hi', by rw [hy.1]; exact hj'⟩)
  rw [h1]

theorem halfSum_symm {n : Nat} {y y0 : Arr2 ℂ} (hy : IsSquare n y) (h : halfSum y = .ok y0) : IsSquare n y0 ∧ IsSymm y0 := by
  rw [halfSum_eq hy] at h
  cases h
  refine ⟨⟨rfl, rfl⟩, rfl, fun i j => ?_⟩
  rw [Arr2.ofFn_get', Arr2.ofFn_get']
  by_cases hi : i < n <;> by_cases hj : j < n <;> simp [hi, hj, add_comm]

/-- C126 for the program, what is proved: with `--weighted` (one phase) `identify_network.py` runs the alternating minimisation of C87 on
the selected and centred measurements, from the symmetric part of the total least squares estimate; the weights are the inverse
covariance of the voltages for the configured standard deviations divided by the square root of the number of averaged samples.
Missing: the same weights serve for the currents (`C126_identify_violated`). -/
theorem C126_program_partial {ext : NumExt} {cf : IdConf} {sc : SimConf} {a : IdArgs} {st : Store}
    {r : (Arr2 ℂ × Arr2 ℂ × Arr2 ℂ) × (Arr2 ℂ × List IterationStatus)} {all d : NetworkData} (hex : Exact ext.solve)
    (hsq : IsSquare d.noisyVoltage.c r.1.2.1) (hn : PlainName a.network) (h3 : a.threePhased = false) (hw : a.weighted = true)
    (hre : Redone a.bayesian [a.standard, a.bayesian]) (hi : 0 < a.maxIter)
    (hload : networkLoad st a.network = .ok all) (hsel : selectPhase a all = .ok d)
    (hexact : a.exact = true → a.laplacian = true ∨ (29 ≤ d.noisyVoltage.c ∧ IsSquare d.noisyVoltage.c d.y))
    (h90 : ¬ (a.laplacian = true ∧ cf.contrastEachRow = true ∧ cf.regularizeDiag = true)) (hl : 0 ≤ cf.lambdaEiv)
    (hsd : d.noisyVoltage.c ≠ 1 ∧ 0 < sc.vm ∧ 0 < sc.vp ∧ 0 < d.fparam) (hr : d.ratings ≠ [])
    (hsh : d.noisyCurrent.r = d.noisyVoltage.r ∧ d.noisyCurrent.c = d.noisyVoltage.c)
    (hv : a.unsynchronized = true → ∀ t j, t < d.noisyVoltage.r → j < d.noisyVoltage.c → d.noisyVoltage.get t j ≠ 0)
    (h : (identify ext cf sc a st).res = .ok r) :
    ∃ p cv ci x z S W Ds y0, IsSquare d.noisyVoltage.c y0 ∧
      (∀ i j, i < d.noisyVoltage.c → j < d.noisyVoltage.c → y0.get i j = (r.1.2.1.get i j + r.1.2.1.get j i) / 2) ∧
      (a.unsynchronized = false → cv = d.noisyVoltage ∧ ci = d.noisyCurrent) ∧
      (a.unsynchronized = true → Turned d.noisyVoltage d.noisyCurrent cv ci) ∧
      Centred a.laplacian cv x ∧ (a.laplacian = true → z = ci) ∧ (a.laplacian = false → Centred false ci z) ∧
      (a.unsynchronized = false →
        averageTrueNoiseCovariance d.noisyVoltage (.pyFloat (sc.vm / Real.sqrt d.fparam)) (sc.vp / Real.sqrt d.fparam) false = .ok S) ∧
      (a.unsynchronized = true →
        naiveNoiseCovariance cv (.pyFloat (sc.vm / Real.sqrt d.fparam)) (100 * (sc.vp / Real.sqrt d.fparam)) false = .ok S) ∧
      Inverses (2 * (d.noisyVoltage.c * d.noisyVoltage.r)) W S ∧
      EivTrace a.laplacian d.noisyVoltage.c (regConfig cf p cf.lambdaEiv a.laplacian a.maxIter) W W x z y0 r.2.2 Ds ∧
      EivDescends a.laplacian d.noisyVoltage.c (regConfig cf p cf.lambdaEiv a.laplacian a.maxIter) W W x z r.2.2 Ds ∧
      ∃ e, r.2.2.getLast? = some e ∧ r.2.1 = e.params := by
  obtain ⟨d', y0, ⟨all', g1, g2⟩, hy0, -, -, hb, -⟩ := C78_identify hn h3 h
  rw [hload] at g1
  cases g1
  rw [hsel] at g2
  cases g2
  obtain ⟨⟨prior, hp, hc⟩, -⟩ := hb ⟨hre, hi⟩
  obtain ⟨q1, q2⟩ := halfSum_symm hsq hy0
  rw [hw] at hc
  have hroot := Real.sqrt_pos.2 hsd.2.2.2
  have hB : (bayesianEiv ext cf a.network (some d.noisyVoltage) (some d.noisyCurrent) (averagedSd sc.vm sc.vp d.fparam)
      (averagedSd sc.cm sc.cp d.fparam) d.ratings y0 (if a.exact && !a.laplacian then some d.y else none) a.laplacian true a.maxIter
      (!a.unsynchronized) st).1 = .ok (r.2.1, r.2.2) := by
    rw [bayesianEiv_fst hi, hp]
    exact hc
  obtain ⟨p, cv, ci, x, z, S, W, Ds, -, k1, k2, k3, k4, k5, k6, k7, k8, k9, k10, k11⟩ := C126_partial hex hi q1 q2 (by
      intro y hy
      split at hy
      · rename_i hx
        rw [Bool.and_eq_true, Bool.not_eq_true'] at hx
        rcases hexact hx.1 with h | h
        · rw [hx.2] at h; cases h
        · cases hy
          exact ⟨h.1, h.2, hx.2⟩
      · cases hy) h90 hl ⟨hsd.1, div_pos hsd.2.1 hroot, div_pos hsd.2.2.1 hroot⟩ hr hsh (fun hu => hv (by simpa using hu)) hB
  refine ⟨p, cv, ci, x, z, S, W, Ds, y0, q1, ?_, fun h => k1 (by simpa using h), fun h => k2 (by simpa using h), k3, k4, k5,
    fun h => k6 (by simpa using h), fun h => k7 (by simpa using h), k8, k9, k10, k11⟩
  intro i j hi hj
  have e : halfSum r.1.2.1 = .ok (Arr2.ofFn d.noisyVoltage.c d.noisyVoltage.c (fun i j => (r.1.2.1.get i j + r.1.2.1.get j i) / 2)) :=
    halfSum_eq hsq
  rw [e] at hy0
  cases hy0
  exact Arr2.ofFn_get _ hi hj

/-! ### a weighted run -/

theorem centreColumns_zero {m : Arr2 ℂ} (h : ∀ j, j < m.c → ∑ t ∈ range m.r, m.get t j = 0) : centreColumns m = m := by
  refine Arr2.ext' rfl rfl fun i j (hi : i < m.r) (hj : j < m.c) => ?_
  refine (Arr2.ofFn_get (r := m.r) (c := m.c) _ hi hj).trans ?_
  rw [h j hj, zero_div, sub_zero]

/-- exact estimate from the bound without noise -/
theorem errorBound_exact {n : Nat} {B Y : Arr2 ℂ} {σ : ℝ} (hσ : 0 < σ) (hB : IsSquare n B) (hY : IsSquare n Y) (h : ErrorBound B Y σ 0) :
    B = Y := by
  refine Arr2.toMat_inj (r := Y.r) (c := Y.c) ⟨by rw [hB.1, hY.1], by rw [hB.2, hY.2]⟩ ⟨rfl, rfl⟩ ?_
  have hz : ∀ q, (B.toMat Y.r Y.c - Y.toMat Y.r Y.c).mulVec q = 0 := fun q => by
    have := h q
    rw [zero_mul] at this
    exact len_eq_zero.1 (le_antisymm (nonpos_of_mul_nonpos_right this hσ) (len_nonneg _))
  have : B.toMat Y.r Y.c - Y.toMat Y.r Y.c = 0 := Matrix.mulVec_injective (funext fun q => by rw [hz q, Matrix.zero_mulVec])
  exact sub_eq_zero.1 this

def sign126 (t k : Nat) : ℂ := if t = 2 * k then 1 else if t = 2 * k + 1 then -1 else 0

/-- two nodes, four samples -/
def demoX126 : Arr2 ℂ := Arr2.ofFn 4 2 sign126

def demoZ126 : Arr2 ℂ := Arr2.ofFn 4 2 (fun t j => ∑ k ∈ range 2, sign126 t k * demoY126.get k j)

def demoData126 : NetworkData := ⟨demoX126, demoZ126, demoX126, demoZ126, demoY126, [1, 1], 4, [1, 1]⟩

/-- `python identify_network.py --network ieee_33 --weighted` -/
def demoArgs126 : IdArgs := ⟨"ieee_33", 50, false, false, false, "1", false, false, false, true, false, false⟩

def demoConf126 : IdConf := ⟨1, 1, 1, 1, 1, true, true, true⟩

theorem demo126_centred : centreData false demoX126 demoZ126 = (demoX126, demoZ126) := by
  show (centreColumns _, centreColumns _) = _
  rw [centreColumns_zero, centreColumns_zero]
  · intro j (hj : j < 2)
    show ∑ t ∈ range 4, demoZ126.get t j = 0
    have : ∀ t ∈ range 4, demoZ126.get t j = ∑ k ∈ range 2, sign126 t k * demoY126.get k j := fun t ht =>
      Arr2.ofFn_get _ (mem_range.1 ht) hj
    rw [Finset.sum_congr rfl this]
    simp [Finset.sum_range_succ, sign126]
  · intro j (hj : j < 2)
    show ∑ t ∈ range 4, demoX126.get t j = 0
    have : ∀ t ∈ range 4, demoX126.get t j = sign126 t j := fun t ht => Arr2.ofFn_get _ (mem_range.1 ht) hj
    rw [Finset.sum_congr rfl this]
    interval_cases j <;> simp [Finset.sum_range_succ, sign126]

theorem demo126_rank : FullColumnRank demoX126 := by
  intro v h
  have e : ∀ (t : Nat) (ht : t < 4), ∑ k : Fin 2, sign126 t k * v k = 0 := fun t ht => by
    have := congrFun h ⟨t, ht⟩
    rw [Matrix.mulVec, dotProduct] at this
    refine (Finset.sum_congr rfl fun (k : Fin 2) _ => ?_).trans this
    exact congrArg (· * _) (Arr2.ofFn_get (r := 4) (c := 2) sign126 ht k.2).symm
  have h0 := e 0 (by norm_num)
  have h1 := e 2 (by norm_num)
  rw [Fin.sum_univ_two] at h0 h1
  simp [sign126] at h0 h1
  funext (k : Fin 2)
  fin_cases k
  · exact h0
  · exact h1

theorem demo126_noisy : Noisy demoX126 demoZ126 demoX126 demoZ126 demoY126 0 := by
  refine ⟨?_, ⟨rfl, rfl⟩, ⟨rfl, rfl⟩, fun a b => ?_⟩
  · rw [Arr2.matmul_ok _ _ rfl]
    congr 1
    refine Arr2.ext' rfl rfl fun i j (hi : i < 4) (hj : j < 2) => ?_
    refine (Arr2.ofFn_get (r := 4) (c := 2) _ hi hj).trans ?_
    rw [Arr2.mulGet]
    have e : demoZ126.get i j = ∑ k ∈ range 2, sign126 i k * demoY126.get k j := Arr2.ofFn_get _ hi hj
    rw [e]
    exact Finset.sum_congr rfl fun k hk => congrArg (· * _) (Arr2.ofFn_get (r := 4) (c := 2) sign126 hi (mem_range.1 hk))
  · rw [sub_self, sub_self, Matrix.zero_mulVec, Matrix.zero_mulVec, add_zero, zero_mul]
    exact le_of_eq (len_eq_zero.2 rfl)

/-- the run returns; hypotheses of `C126_program_partial` -/
theorem demo_C126 (sc : SimConf) (hs : 0 < sc.vm ∧ 0 < sc.vp) (st : Store) : ∃ r,
    (identify ⟨exactPinv, exactSvd, exactInv, exactSolve⟩ demoConf126 sc demoArgs126
      (st.savez (resultFile .network "ieee_33") (networkNpz demoData126))).res = .ok r ∧ r.1.2.1 = demoY126 ∧
    ∃ S p x z W Ds, averageTrueNoiseCovariance demoX126 (.pyFloat (sc.vm / 2)) (sc.vp / 2) false = .ok S ∧ Inverses 16 W S ∧
      EivTrace false 2 (regConfig demoConf126 p 1 false 50) W W x z demoY126 r.2.2 Ds := by
  have hload : networkLoad (st.savez (resultFile .network "ieee_33") (networkNpz demoData126)) "ieee_33" = .ok demoData126 :=
    C49_network "ieee_33" demoData126 st (h := []) ⟨templates_plain "ieee_33" (by decide), by simp⟩
  obtain ⟨σ, hσ, hat⟩ := atLeast_of_rank demo126_rank
  have hsel : selectPhase demoArgs126 demoData126 = .ok demoData126 := by
    unfold selectPhase
    rw [if_neg]
    · rfl
    · rintro ⟨-, x, hx, hx1⟩
      exact hx1 (by simpa [demoData126] using hx)
  have hN : Noisy (centreData false demoX126 demoZ126).1 (centreData false demoX126 demoZ126).2 demoX126 demoZ126 demoY126 0 := by
    rw [demo126_centred]; exact demo126_noisy
  obtain ⟨B, T, L, hS, -, -, hT, -, -, htls, -, e2⟩ := standard_noisy (ext := ⟨exactPinv, exactSvd, exactInv, exactSolve⟩)
    (cf := demoConf126) zero_le_one exactInv_contract exactSolve_exact exactSolve_total exactPinv_contract exactSvd_contract rfl hN hat
    le_rfl (by rwa [mul_zero]) 50
  rw [mul_zero, sub_zero] at e2
  have hTY : T = demoY126 := errorBound_exact hσ hT ⟨rfl, rfl⟩ e2
  obtain ⟨r, hr, -, b2⟩ := C119 (ext := ⟨exactPinv, exactSvd, exactInv, exactSolve⟩) (cf := demoConf126) (sc := sc) (a := demoArgs126)
    (x0 := demoX126) (z0 := demoZ126) (d := demoData126) (d' := demoData126) exactInv_contract exactSolve_exact
    exactSolve_total exactPinv_contract exactSvd_contract zero_le_one zero_le_one
    ⟨by decide, rfl, rfl, .inr rfl, fun h => by simp [demoArgs126] at h⟩ (by decide) hload hsel (by simp [demoArgs126]) rfl hN hat le_rfl
    (by rwa [mul_zero]) (by
      rintro (h | h)
      · cases h.1
      · cases h) (by
      intro _
      refine .inr ⟨one_pos, .inr ⟨rfl, rfl, one_ne_zero⟩, fun T' hT' => ?_, fun _ => ⟨by decide, hs.1, hs.2, by norm_num [demoData126], by
        simp [demoData126], fun h => by simp [demoArgs126] at h⟩⟩
      have : T' = T := Except.ok.inj (hT'.symm.trans htls)
      rw [this, hTY]
      exact demoY126_seen)
  have hn := templates_plain "ieee_33" (by decide)
  have hr1 : r.1.2.1 = demoY126 := by
    obtain ⟨d', y0, ⟨all', g1, g2⟩, -, hst, -⟩ := C78_identify (a := demoArgs126) hn (by decide) hr
    rw [show demoArgs126.network = "ieee_33" from rfl, hload] at g1
    cases g1
    rw [hsel] at g2
    cases g2
    have := (hst (by simp [Redone, demoArgs126])).1
    have e : r.1 = (B, T, L) := Except.ok.inj (this.symm.trans hS)
    rw [e]
    exact hTY
  refine ⟨r, hr, hr1, ?_⟩
  obtain ⟨p, cv, ci, x, z, S, W, Ds, y0, q, hy, -, -, -, -, -, hS', -, hI, ht, -⟩ := C126_program_partial (d := demoData126) exactSolve_exact
    (by rw [hr1]; exact ⟨rfl, rfl⟩) (a := demoArgs126) hn (by decide) rfl (by simp [Redone, demoArgs126]) (by decide) hload hsel
    (fun h => by simp [demoArgs126] at h) (by simp [demoArgs126]) zero_le_one ⟨by decide, hs.1, hs.2, by norm_num [demoData126]⟩
    (by simp [demoData126]) ⟨rfl, rfl⟩ (fun h => by simp [demoArgs126] at h) hr
  have e2 : Real.sqrt demoData126.fparam = 2 := by
    rw [show demoData126.fparam = 2 ^ 2 by norm_num [demoData126]]
    exact Real.sqrt_sq (by norm_num)
  have hyy : y0 = demoY126 := Arr2.ext' q.1 q.2 fun i j hi hj => by
    have hi' : i < 2 := lt_of_lt_of_eq hi q.1
    have hj' : j < 2 := lt_of_lt_of_eq hj q.2
    rw [hy i j hi' hj', hr1, demoY126_symm.2 j i]
    ring
  rw [hyy] at ht
  have h6 := hS' rfl
  rw [e2] at h6
  exact ⟨S, p, x, z, W, Ds, h6, hI, ht⟩

end
end Verif
