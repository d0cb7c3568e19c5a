/-
C126: data and weights of the weighted Bayesian method. C42 for the program: the covariances in `eiv_fim`.
-/
import Verif.Props.IdentifyRun
import Verif.Props.Fisher

namespace Verif
open Finset Spec
noncomputable section

/-- `x` is `v` without its mean: one mean for all entries (`lap`) or one per column -/
structure Spec.Centred (lap : Bool) (v x : Arr2 ℂ) : Prop where
  rows : x.r = v.r
  cols : x.c = v.c
  diff : ∀ t s j k, t < v.r → s < v.r → j < v.c → k < v.c → lap = true ∨ j = k → x.get t j - x.get s k = v.get t j - v.get s k
  zero : (lap = true → ∑ t ∈ range v.r, ∑ j ∈ range v.c, x.get t j = 0) ∧ (lap = false → ∀ j < v.c, ∑ t ∈ range v.r, x.get t j = 0)

/-- unsynchronised measurements: every sample is turned until its voltage is real and not negative -/
def Spec.Turned (v c cv ci : Arr2 ℂ) : Prop :=
  (cv.r = v.r ∧ cv.c = v.c) ∧ (ci.r = v.r ∧ ci.c = v.c) ∧ ∀ t j, t < v.r → j < v.c → ∃ u : ℂ, ‖u‖ = 1 ∧
    cv.get t j = v.get t j * u ∧ ci.get t j = c.get t j * u ∧ 0 ≤ (cv.get t j).re ∧ (cv.get t j).im = 0

/-- `W` is the inverse of the covariance `S` -/
def Spec.Inverses (m : Nat) (W S : Arr2 ℝ) : Prop := W.matmul S = .ok (Arr2.eye m) ∧ S.matmul W = .ok (Arr2.eye m)

theorem centreColumns_centred (v : Arr2 ℂ) : Spec.Centred false v (centreColumns v) := by
  have hg : ∀ t j, t < v.r → j < v.c → (centreColumns v).get t j = v.get t j - (∑ s ∈ range v.r, v.get s j) / v.r :=
    fun t j ht hj => Arr2.ofFn_get _ ht hj
  refine ⟨rfl, rfl, ?_, fun h => absurd h (by decide), fun _ j hj => ?_⟩
  · rintro t s j k ht hs hj hk (h | rfl)
    · cases h
    · rw [hg t j ht hj, hg s j hs hj]; ring
  · rw [Finset.sum_congr rfl fun t ht => hg t j (Finset.mem_range.1 ht) hj, Finset.sum_sub_distrib, Finset.sum_const, Finset.card_range,
      nsmul_eq_mul]
    by_cases h0 : v.r = 0
    · rw [h0]; simp
    · have : (v.r : ℂ) ≠ 0 := Nat.cast_ne_zero.2 h0
      field_simp
      ring

theorem centreGlobal_centred (v : Arr2 ℂ) : Spec.Centred true v (centreGlobal v) := by
  have hg : ∀ t j, t < v.r → j < v.c → (centreGlobal v).get t j =
      v.get t j - (∑ s ∈ range v.r, ∑ k ∈ range v.c, v.get s k) / ((v.r * v.c : Nat) : ℂ) :=
    fun t j ht hj => Arr2.ofFn_get _ ht hj
  refine ⟨rfl, rfl, ?_, fun _ => ?_, fun h => absurd h (by decide)⟩
  · intro t s j k ht hs hj hk _
    rw [hg t j ht hj, hg s k hs hk]; ring
  · rw [Finset.sum_congr rfl fun t ht => Finset.sum_congr rfl fun j hj => hg t j (Finset.mem_range.1 ht) (Finset.mem_range.1 hj)]
    simp only [Finset.sum_sub_distrib, Finset.sum_const, Finset.card_range, nsmul_eq_mul]
    by_cases h0 : v.r = 0
    · rw [h0]; simp
    by_cases h1 : v.c = 0
    · rw [h1]; simp
    have e0 : (v.r : ℂ) ≠ 0 := Nat.cast_ne_zero.2 h0
    have e1 : (v.c : ℂ) ≠ 0 := Nat.cast_ne_zero.2 h1
    push_cast
    field_simp
    ring

theorem centreData_centred (lap : Bool) (v i : Arr2 ℂ) : Spec.Centred lap v (centreData lap v i).1 ∧
    (lap = true → (centreData lap v i).2 = i) ∧ (lap = false → Spec.Centred false i (centreData lap v i).2) := by
  cases lap with
  | true => exact ⟨centreGlobal_centred v, fun _ => rfl, fun h => absurd h (by decide)⟩
  | false => exact ⟨centreColumns_centred v, fun h => absurd h (by decide), fun _ => centreColumns_centred i⟩

theorem list_recip_getD (l : List ℝ) (k : Nat) : (l.map recip).getD k 0 = recip (l.getD k 0) := by
  simp only [List.getD_eq_getElem?_getD, List.getElem?_map]
  cases l[k]? with
  | none => exact (if_pos rfl : recip 0 = 0).symm
  | some t => rfl

/-- for magnitudes the reciprocals of the stored entries are the inverse of the covariance -/
theorem magnitude_inverse (M : Arr2 ℂ) (sd : SdArg) (sdp : ℝ) (h : ValidSd sd M.c) (hp : 0 < sdp) (hs : ∀ j < M.c, 0 < sdAt sd j)
    (hM : ∀ t j, t < M.r → j < M.c → M.get t j ≠ 0) {W : Arr2 ℝ}
    (hW : naiveNoiseCovariance (M.map (fun z => ((‖z‖ : ℝ) : ℂ))) sd sdp false = .ok W) :
    Spec.Inverses (2 * (M.c * M.r)) (W.map recip) W := by
  set A := M.map (fun z => ((‖z‖ : ℝ) : ℂ)) with hA
  have hg : ∀ t j, t < M.r → j < M.c → A.get t j = ((‖M.get t j‖ : ℝ) : ℂ) := fun t j ht hj => Arr2.ofFn_get _ ht hj
  obtain ⟨a, b, c, ha, hb, hc, he, hn⟩ := noise_diags naiveAll A sd sdp h
  obtain ⟨l1, l2, l3, hv⟩ := invertDiag_spec ha hb hc
  obtain ⟨S, I, hS, hI, i1, i2⟩ := C26_inverse_naive A sd sdp h hp hs fun t j ht hj => by
    rw [hg t j ht hj]
    exact_mod_cast (norm_pos_iff.2 (hM t j ht hj)).ne'
  rw [hW] at hS
  cases hS
  have hWc : W = _ := Except.ok.inj (hW.symm.trans ((hn false).trans (covBlock_closed ha hb hc)))
  have hIc : I = _ := Except.ok.inj (hI.symm.trans ((hn true).trans (covBlock_closed l1 l2 l3)))
  have hval : ∀ k < M.c * M.r, a.getD k 0 ≠ 0 ∧ b.getD k 0 ≠ 0 ∧ c.getD k 0 = 0 := by
    intro k hk
    obtain ⟨t, j, ht, hj, rfl⟩ := exists_pos hk
    obtain ⟨e1, e2, e3⟩ := he t j ht hj
    have hne : 0 < ‖M.get t j‖ := norm_pos_iff.2 (hM t j ht hj)
    have hsj := hs j hj
    rw [show pos M.r t j = pos A.r t j from rfl, e1, e2, e3, hg t j ht hj, Complex.arg_ofReal_of_nonneg hne.le, Complex.norm_real, norm_norm]
    simp only [naiveAll, Real.cos_zero, Real.sin_zero]
    have h1 : 0 < sdAt sd j ^ 2 := by positivity
    have h2 : 0 < sdp ^ 2 := by positivity
    refine ⟨ne_of_gt (by positivity), ne_of_gt (by positivity), by ring⟩
  have hrec : W.map recip = I := by
    rw [hWc, hIc]
    refine Arr2.ext' rfl rfl ?_
    intro i j hi hj
    have hi : i < M.c * M.r + M.c * M.r := hi
    have hj : j < M.c * M.r + M.c * M.r := hj
    refine (Arr2.map_get recip (if_pos rfl) _ i j).trans ?_
    refine (congrArg recip (Arr2.ofFn_get _ hi hj)).trans ((?_ : _ = _).trans (Arr2.ofFn_get _ hi hj).symm)
    have h0 : recip 0 = 0 := if_pos rfl
    have k1 : ∀ k < M.c * M.r, recip (a.getD k 0) = (invertDiag a b c).1.getD k 0 ∧ recip (b.getD k 0) = (invertDiag a b c).2.1.getD k 0 ∧
        recip (c.getD k 0) = (invertDiag a b c).2.2.getD k 0 := by
      intro k hk
      obtain ⟨q1, q2, q3⟩ := hval k hk
      obtain ⟨v1, v2, v3⟩ := hv k hk
      rw [v1, v2, v3, q3]
      unfold recip
      rw [if_neg q1, if_neg q2, if_pos rfl]
      simp
    show recip (blockEntry (M.c * M.r) a b c i j) = blockEntry (M.c * M.r) (invertDiag a b c).1 (invertDiag a b c).2.1
      (invertDiag a b c).2.2 i j
    unfold blockEntry
    by_cases c1 : i < M.c * M.r <;> by_cases c2 : j < M.c * M.r <;> simp only [c1, c2, if_true, if_false]
    · split
      · exact (k1 i c1).1
      · exact h0
    · split
      · exact (k1 i c1).2.2
      · exact h0
    · split
      · exact (k1 j c2).2.2
      · exact h0
    · split
      · exact (k1 (i - M.c * M.r) (by omega)).2.1
      · exact h0
  rw [hrec]
  exact ⟨i1, i2⟩

/-- data and weights used for the fit, synchronised or not -/
theorem eivWeights_meaning {v i : Arr2 ℂ} {vsd isd : SdPolar} {ratings : List ℝ} {pmu : Bool} (hn : v.c ≠ 1) (hm : 0 < vsd.m) (hp : 0 < vsd.p)
    (hr : ratings ≠ []) (hsh : i.r = v.r ∧ i.c = v.c) (hv : pmu = false → ∀ t j, t < v.r → j < v.c → v.get t j ≠ 0) :
    ∃ cv ci W wi S, eivWeights v i vsd isd ratings true pmu = .ok (cv, ci, some W, some wi) ∧ Spec.PosDef (2 * (v.c * v.r)) W ∧
      Spec.Inverses (2 * (v.c * v.r)) W S ∧ (cv.r = v.r ∧ cv.c = v.c) ∧ (ci.r = v.r ∧ ci.c = v.c) ∧
      (pmu = true → (cv = v ∧ ci = i) ∧ averageTrueNoiseCovariance v (.pyFloat vsd.m) vsd.p false = .ok S) ∧
      (pmu = false → Spec.Turned v i cv ci ∧ naiveNoiseCovariance cv (.pyFloat vsd.m) (100 * vsd.p) false = .ok S) := by
  have hr' : ratings.map (fun r => isd.m * r) ≠ [] := by simpa using hr
  obtain ⟨cv, ci, W, wi, hw, h1, h2, hW⟩ := eivWeights_ok v i vsd isd ratings pmu hn hm hp hr hsh hv
  cases pmu with
  | true =>
    obtain ⟨S, I, hS, hI, i1, i2⟩ := C26_inverse_average v (.npScalar vsd.m) vsd.p hn hp (fun _ _ => hm)
    have hf : averageTrueNoiseCovariance v (.pyFloat vsd.m) vsd.p false = .ok S := by
      rw [← hS]
      simp only [averageTrueNoiseCovariance, noiseCovariance, if_neg (Ne.symm hn)]
    have hw' := hw
    simp only [eivWeights, Bool.and_self, if_true] at hw'
    obtain ⟨wv, g1, g2⟩ := Prior.bind_ok hw'
    obtain ⟨wi', g3, g4⟩ := Prior.bind_ok g2
    rw [hI] at g1
    cases g1
    cases g4
    exact ⟨_, _, _, _, S, hw, hW, ⟨i1, i2⟩, h1, h2, fun _ => ⟨⟨rfl, rfl⟩, hf⟩, fun h => absurd h (by decide)⟩
  | false =>
    have hw' := hw
    simp only [eivWeights, Bool.and_false, Bool.false_eq_true, if_false, Bool.not_false, Bool.and_self, if_true] at hw'
    obtain ⟨ci', g1, g2⟩ := Prior.bind_ok hw'
    obtain ⟨S, g3, g4⟩ := Prior.bind_ok g2
    obtain ⟨wi', g5, g6⟩ := Prior.bind_ok g4
    cases g6
    have hinv := magnitude_inverse v (.npScalar vsd.m) (vsd.p * 100) hn (by positivity) (fun _ _ => hm) (hv rfl) g3
    refine ⟨_, _, _, _, S, hw, hW, hinv, h1, h2, fun h => absurd h (by decide), fun _ => ⟨⟨h1, h2, fun t j ht hj => ?_⟩, ?_⟩⟩
    · have hne := hv rfl t j ht hj
      have hno : (‖v.get t j‖ : ℂ) ≠ 0 := by exact_mod_cast (norm_pos_iff.2 hne).ne'
      have e1 : (v.map (fun z => ((‖z‖ : ℝ) : ℂ))).get t j = ((‖v.get t j‖ : ℝ) : ℂ) := Arr2.ofFn_get _ ht hj
      have e2 : ci.get t j = i.get t j * (starRingEnd ℂ) (v.get t j) / ((‖v.get t j‖ : ℝ) : ℂ) := by
        unfold Arr2.zipWith at g1
        rw [if_pos hsh] at g1
        cases g1
        exact Arr2.ofFn_get _ (by rw [hsh.1]; exact ht) (by rw [hsh.2]; exact hj)
      refine ⟨(starRingEnd ℂ) (v.get t j) / ((‖v.get t j‖ : ℝ) : ℂ), ?_, ?_, ?_, ?_, ?_⟩
      · rw [norm_div, RCLike.norm_conj, Complex.norm_real, norm_norm, div_self (norm_pos_iff.2 hne).ne']
      · rw [e1, ← mul_div_assoc, Complex.mul_conj', eq_div_iff hno, sq]
      · rw [e2, mul_div_assoc]
      · rw [e1, Complex.ofReal_re]; exact norm_nonneg _
      · rw [e1, Complex.ofReal_im]
    · rw [mul_comm, ← g3]
      have : (v.map (fun z => ((‖z‖ : ℝ) : ℂ))).c = v.c := rfl
      simp only [naiveNoiseCovariance, noiseCovariance, this, if_neg (Ne.symm hn)]

/-- C126, what is used: the weighted Bayesian method is the alternating minimisation of C87 on the centred data. The weights are the
inverse covariance of the voltages: their mean covariance (C25) if the measurements are synchronised, otherwise that of the magnitudes,
with a hundred times the phase error. Missing: the same weights serve for the currents (`C126_violated`). -/
theorem C126_partial {ext : NumExt} {cf : IdConf} {name : String} {v c y0 : Arr2 ℂ} {vsd isd : SdPolar} {ratings : List ℝ}
    {ye : Option (Arr2 ℂ)} {lap pmu : Bool} {iters : Nat} {st : Store} {Y : Arr2 ℂ} {log : List IterationStatus}
    (hex : Spec.Exact ext.solve) (hi : 0 < iters) (hy0 : Spec.IsSquare v.c y0) (hsym : Spec.IsSymm y0)
    (hye : ∀ y, ye = some y → 29 ≤ v.c ∧ Spec.IsSquare v.c y ∧ lap = false)
    (h90 : ¬ (lap = true ∧ cf.contrastEachRow = true ∧ cf.regularizeDiag = true)) (hl : 0 ≤ cf.lambdaEiv)
    (hsd : v.c ≠ 1 ∧ 0 < vsd.m ∧ 0 < vsd.p) (hr : ratings ≠ []) (hsh : c.r = v.r ∧ c.c = v.c)
    (hv : pmu = false → ∀ t j, t < v.r → j < v.c → v.get t j ≠ 0)
    (h : (bayesianEiv ext cf name (some v) (some c) vsd isd ratings y0 ye lap true iters pmu st).1 = .ok (Y, log)) :
    ∃ p cv ci x z S W Ds, eivPrior cf v.c y0 ye lap = .ok p ∧ (pmu = true → cv = v ∧ ci = c) ∧ (pmu = false → Spec.Turned v c cv ci) ∧
      Spec.Centred lap cv x ∧ (lap = true → z = ci) ∧ (lap = false → Spec.Centred false ci z) ∧
      (pmu = true → averageTrueNoiseCovariance v (.pyFloat vsd.m) vsd.p false = .ok S) ∧
      (pmu = false → naiveNoiseCovariance cv (.pyFloat vsd.m) (100 * vsd.p) false = .ok S) ∧
      Spec.Inverses (2 * (v.c * v.r)) W S ∧
      Spec.EivTrace lap v.c (regConfig cf p cf.lambdaEiv lap iters) W W x z y0 log Ds ∧
      Spec.EivDescends lap v.c (regConfig cf p cf.lambdaEiv lap iters) W W x z log Ds ∧
      ∃ e, log.getLast? = some e ∧ Y = e.params := by
  obtain ⟨p, hp, ha, hu, -, ho⟩ := eiv_prior cf v.c y0 hy0 ye lap hye h90
  rw [bayesianEiv_fst hi, hp] at h
  replace h : eivCompute ext cf p v c vsd isd ratings y0 lap true iters pmu = .ok (Y, log) := h
  obtain ⟨cv, ci, W, wi, S, hw, hW, hinv, s1, s2, hpm, hun⟩ := eivWeights_meaning (isd := isd) hsd.1 hsd.2.1 hsd.2.2 hr hsh hv
  simp only [eivCompute, hw, bind, Except.bind] at h
  obtain ⟨f1, f2, f3⟩ := fitted_ok h
  obtain ⟨c1, c2, c3⟩ := centreData_centred lap cv ci
  obtain ⟨d1, d2, d3, d4⟩ := centreData_shape lap cv ci
  have hs : FitSetup lap v.c (regConfig cf p cf.lambdaEiv lap iters) (centreData lap cv ci).1 (centreData lap cv ci).2 y0 :=
    ⟨rfl, rfl, by rw [d2, s1.2], ⟨by rw [d3, d1, s1.1, s2.1], by rw [d4, s2.2]⟩, hy0, hu, ha⟩
  have hfit : eivBody ext.solve ext.inv (regConfig cf p cf.lambdaEiv lap iters) RegObj.fresh (centreData lap cv ci).1
      (centreData lap cv ci).2 (some W) (some W) y0 = (.ok (), (eivFit ext.solve ext.inv (regConfig cf p cf.lambdaEiv lap iters) .fresh
        (centreData lap cv ci).1 (centreData lap cv ci).2 (some W) (some wi) y0).2) := by
    rw [← f1]
    rfl
  have hWw : Spec.IsWeight (2 * (v.c * (centreData lap cv ci).1.r)) W := by rw [d1, s1.1]; exact hW.1
  obtain ⟨Ds, t1, t2⟩ := eivTrace_fit hs hl hsym hWw hWw hex hfit
  obtain ⟨-, -, -, e, e1, e2⟩ := (C33_eiv _ _ _ _ _ _ _ _ (Prod.ext f1 rfl)).2 hi
  rw [f3] at t1 t2 e1
  rw [f2] at e2
  exact ⟨p, cv, ci, _, _, S, W, Ds, hp, fun h => (hpm h).1, fun h => (hun h).1, c1, c2, c3, fun h => (hpm h).2, fun h => (hun h).2, hinv,
    t1, t2 fun t ht => .inl (ho t ht), e, e1, Option.some.inj e2⟩

theorem bind_same {α β : Type} (m : Except PyErr α) {f g : α → Except PyErr β} (h : ∀ a, f a = g a) : (m >>= f) = (m >>= g) := by
  cases m with
  | error e => rfl
  | ok a => exact h a

/-- arrays of standard deviations raise exactly if empty, for data with at least one column -/
theorem noise_array_cases (F : PolarCov) (M : Arr2 ℂ) (ss : List ℝ) (sdp : ℝ) (inv : Bool) :
    (∃ W, noiseCovariance F F M (.array ss) sdp inv = .ok W) ∧ (ss = [] → M.c = 0) ∨
      noiseCovariance F F M (.array ss) sdp inv = .error .valueError ∧ ss = [] ∧ M.c ≠ 0 := by
  by_cases hs : ss = []
  · subst hs
    by_cases hc : M.c = 0
    · obtain ⟨a, b, c, ha, hb, hc', -, hn⟩ := noise_diags F M (.array []) sdp (show ([] : List ℝ).length = M.c from hc.symm)
      obtain ⟨l1, l2, l3, -⟩ := invertDiag_spec ha hb hc'
      refine .inl ⟨?_, fun _ => hc⟩
      cases inv with
      | false => exact ⟨_, (hn false).trans (covBlock_closed ha hb hc')⟩
      | true => exact ⟨_, (hn true).trans (covBlock_closed l1 l2 l3)⟩
    · refine .inr ⟨?_, rfl, hc⟩
      simp only [noiseCovariance, List.length_nil, if_neg (Ne.symm hc), bind, Except.bind]
  · exact .inl ⟨noise_array_ok F M ss sdp inv hs, fun h => absurd h hs⟩

/-- C126 is violated: the weighted Bayesian method does not depend on the noise of the currents. All standard deviations and all
ratings give the same outcome, the same log and the same file. -/
theorem C126_violated (ext : NumExt) (cf : IdConf) (name : String) (v c : Option (Arr2 ℂ)) (y0 : Arr2 ℂ) (vsd isd isd' : SdPolar)
    (ratings ratings' : List ℝ) (hr : ratings = [] ↔ ratings' = []) (ye : Option (Arr2 ℂ)) (lap weighted pmu : Bool) (iters : Nat)
    (st : Store) : bayesianEiv ext cf name v c vsd isd ratings y0 ye lap weighted iters pmu st =
      bayesianEiv ext cf name v c vsd isd' ratings' y0 ye lap weighted iters pmu st := by
  have hok : ∀ (F : PolarCov) (M : Arr2 ℂ), (∃ W W', noiseCovariance F F M (ratedSd isd ratings) isd.p true = .ok W ∧
      noiseCovariance F F M (ratedSd isd' ratings') isd'.p true = .ok W') ∨
      noiseCovariance F F M (ratedSd isd ratings) isd.p true = .error .valueError ∧
      noiseCovariance F F M (ratedSd isd' ratings') isd'.p true = .error .valueError := by
    intro F M
    have e1 := noise_array_cases F M (ratings.map (fun r => isd.m * r)) isd.p true
    have e2 := noise_array_cases F M (ratings'.map (fun r => isd'.m * r)) isd'.p true
    simp only [List.map_eq_nil_iff] at e1 e2
    rcases e1 with ⟨⟨W, h1⟩, h2⟩ | ⟨h1, h2, h3⟩ <;> rcases e2 with ⟨⟨W', h4⟩, h5⟩ | ⟨h4, h5, h6⟩
    · exact .inl ⟨W, W', h1, h4⟩
    · exact absurd (h2 (hr.2 h5)) h6
    · exact absurd (h5 (hr.1 h2)) h3
    · exact .inr ⟨h1, h4⟩
  have key : ∀ prior v c, eivCompute ext cf prior v c vsd isd ratings y0 lap weighted iters pmu =
      eivCompute ext cf prior v c vsd isd' ratings' y0 lap weighted iters pmu := by
    intro prior v c
    cases weighted with
    | false => cases pmu <;> rfl
    | true =>
    cases pmu with
    | true =>
      simp only [eivCompute, eivWeights, Bool.and_self, if_true]
      simp only [bind_assoc]
      refine bind_same _ fun W => ?_
      rcases hok averageCov c with ⟨w1, w2, h1, h2⟩ | ⟨h1, h2⟩ <;>
        rw [show averageTrueNoiseCovariance c (ratedSd isd ratings) isd.p true = _ from h1,
          show averageTrueNoiseCovariance c (ratedSd isd' ratings') isd'.p true = _ from h2] <;>
        rfl
    | false =>
      simp only [eivCompute, eivWeights, Bool.and_false, Bool.false_eq_true, if_false, Bool.not_false, Bool.and_self, if_true]
      simp only [bind_assoc]
      refine bind_same _ fun ci => bind_same _ fun W => ?_
      rcases hok naiveAll c with ⟨w1, w2, h1, h2⟩ | ⟨h1, h2⟩ <;>
        rw [show naiveNoiseCovariance c (ratedSd isd ratings) isd.p true = _ from h1,
          show naiveNoiseCovariance c (ratedSd isd' ratings') isd'.p true = _ from h2] <;>
        rfl
  unfold bayesianEiv
  simp only [key]

/-- C126 is violated, for the program: `identify_network.py` gives the same results and files whatever the noise of the current sensors,
with one phase or three -/
theorem C126_identify_violated (ext : NumExt) (cf : IdConf) (sc : SimConf) (a : IdArgs) (cm cp : ℝ) :
    identify ext cf sc a = identify ext cf { sc with cm := cm, cp := cp } a := by
  have key : ∀ d y0, identifyBayesian ext cf sc a d y0 = identifyBayesian ext cf { sc with cm := cm, cp := cp } a d y0 := by
    intro d y0
    have h1 : ∀ name v c vsd isd isd' rs y ye lap w it pmu, bayesianEiv ext cf name v c vsd isd rs y ye lap w it pmu =
        bayesianEiv ext cf name v c vsd isd' rs y ye lap w it pmu :=
      fun name v c vsd isd isd' rs y ye lap w it pmu => funext fun st => C126_violated _ _ _ _ _ _ _ _ _ _ _ Iff.rfl _ _ _ _ _ _
    unfold identifyBayesian
    dsimp only
    split
    · unfold bayesianEiv3 bayesianStep
      simp only [h1 _ _ _ _ (averagedSd sc.cm sc.cp d.fparam) (averagedSd cm cp d.fparam)]
    · rw [h1 _ _ _ _ (averagedSd sc.cm sc.cp d.fparam) (averagedSd cm cp d.fparam)]
  unfold identify
  simp only [key]

/-- C127 is violated without weights: the option `--unsynchronized` changes nothing, the phases are used as if they were measured -/
theorem C127_violated (ext : NumExt) (cf : IdConf) (sc : SimConf) (a : IdArgs) (hw : a.weighted = false) (u : Bool) :
    identify ext cf sc a = identify ext cf sc { a with unsynchronized := u } := by
  have h1 : ∀ prior v c vsd isd rs y lap it p p', eivCompute ext cf prior v c vsd isd rs y lap false it p =
      eivCompute ext cf prior v c vsd isd rs y lap false it p' := fun prior v c vsd isd rs y lap it p p' => rfl
  have h2 : ∀ name v c vsd isd rs y ye lap it p p', bayesianEiv ext cf name v c vsd isd rs y ye lap false it p =
      bayesianEiv ext cf name v c vsd isd rs y ye lap false it p' := by
    intro name v c vsd isd rs y ye lap it p p'
    funext st
    unfold bayesianEiv
    simp only [h1 _ _ _ _ _ _ _ _ _ p p']
  have key : ∀ d y0, identifyBayesian ext cf sc a d y0 = identifyBayesian ext cf sc { a with unsynchronized := u } d y0 := by
    intro d y0
    unfold identifyBayesian
    simp only [IdArgs.threePhased, IdArgs.redoStls, hw]
    split
    · unfold bayesianEiv3 bayesianStep
      simp only [h2 _ _ _ _ _ _ _ _ _ _ (!a.unsynchronized) (!u)]
      rfl
    · rw [h2 _ _ _ _ _ _ _ _ _ _ (!a.unsynchronized) (!u)]
      rfl
  unfold identify
  simp only [key]
  rfl

/-- C42 for the program: `eiv_fim` evaluates the information matrix of C42 at the centred voltages with the mean covariances (C25) of
voltages and currents, where the magnitude error of a current is relative to the rating of its node -/
theorem C42_program {invR : Arr2 ℝ → Except PyErr (Arr2 ℝ)} {spread : List ℝ → Arr2 ℝ → Nat → ℝ} {name : String} {v c yMat : Arr2 ℂ}
    {vsd isd : SdPolar} {ratings : List ℝ} {nSamples : Option Nat} {lap : Bool} {st : Store} {F C : Arr2 ℝ} {e : ℝ}
    (hv : 0 < v.r ∧ 0 < v.c ∧ v.c ≠ 1) (hsh : c.r = v.r ∧ c.c = v.c) (hr : ratings.length = v.c) (hy : Spec.IsSquare v.c yMat)
    (h : (eivFim invR spread name (some v) (some c) vsd isd ratings yMat nSamples lap st).1 = .ok (F, C, e)) :
    ∃ x Sv Si W, Spec.Centred lap v x ∧ averageTrueNoiseCovariance v (.pyFloat vsd.m) vsd.p false = .ok Sv ∧
      averageTrueNoiseCovariance c (.array (ratings.map (fun r => isd.m * r))) isd.p false = .ok Si ∧
      Spec.FisherArgs x Sv Si yMat ∧ fisherW x Sv Si yMat = .ok W ∧ invR F = .ok C ∧
      (∀ k ii, k < v.r → ii < 2 * v.c → W.get (ii * v.r + k) (ii * v.r + k) = Si.get (ii * v.r + k) (ii * v.r + k) +
        Spec.sampleCov v.r v.c Sv (makeRealVector (vectorizeMatrix yMat)) ((k * (2 * v.c) + ii) % v.r) ((k * (2 * v.c) + ii) % v.r)) ∧
      ∀ a b, a < v.c * v.c → b < v.c * v.c → F.get a b =
        ∑ p ∈ range (v.c * v.r), Spec.kronRe x p a * (fisherWeights (v.c * v.r) W).1.getD p 0 * Spec.kronRe x p b := by
  obtain ⟨Sv, hSv, r1, r2, -⟩ := noise_reads averageCov v (.pyFloat vsd.m) vsd.p trivial
  obtain ⟨Si, hSi, r3, r4, -⟩ := noise_reads averageCov c (.array (ratings.map (fun r => isd.m * r))) isd.p
    (show (ratings.map _).length = _ by rw [List.length_map, hr, hsh.2])
  have hSv' : averageTrueNoiseCovariance v (.npScalar vsd.m) vsd.p false = .ok Sv := by
    rw [← hSv]
    simp only [averageTrueNoiseCovariance, noiseCovariance, if_neg (Ne.symm hv.2.2)]
  have hSi' : averageTrueNoiseCovariance c (ratedSd isd ratings) isd.p false = .ok Si := hSi
  replace h : fimCompute invR spread v c vsd isd ratings yMat nSamples lap = .ok (F, C, e) := by
    unfold eivFim at h
    dsimp only at h
    cases hc : fimCompute invR spread v c vsd isd ratings yMat nSamples lap with
    | error q => rw [hc] at h; cases h
    | ok q => rw [hc] at h; exact h
  simp only [fimCompute, hSv', hSi', bind, Except.bind] at h
  obtain ⟨c1, -, -⟩ := centreData_centred lap v c
  have hargs : Spec.FisherArgs (centreData lap v c).1 Sv Si yMat := by
    obtain ⟨d1, d2, -, -⟩ := centreData_shape lap v c
    refine ⟨by rw [d1]; exact hv.1, by rw [d2]; exact hv.2.1, ?_, ?_, by rw [d2]; exact hy⟩
    · rw [d1, d2, r1, r2, Nat.mul_assoc]; exact ⟨rfl, rfl⟩
    · rw [d1, d2, r3, r4, hsh.1, hsh.2, Nat.mul_assoc]; exact ⟨rfl, rfl⟩
  obtain ⟨⟨W, hW, hdiag⟩, -⟩ := C42_samples_partial hargs
  obtain ⟨F', hF', -, -, hform⟩ := fisherF_form (centreData lap v c).1 W
  cases hf : fisherInfo invR (centreData lap v c).1 (some Sv) (some Si) yMat with
  | error q => rw [hf] at h; cases h
  | ok q =>
    rw [hf] at h
    cases h
    simp only [fisherInfo, hW, hF', bind, Except.bind] at hf
    cases hi : invR F' with
    | error q => rw [hi] at hf; cases hf
    | ok C' =>
      rw [hi] at hf
      cases hf
      rw [c1.rows, c1.cols] at hdiag hform
      exact ⟨_, Sv, Si, W, c1, hSv, hSi, hargs, hW, hi, hdiag, fun a b ha hb => (hform a b ha hb).1⟩

/-! ### an instance -/

/-- two samples of two nodes -/
def demoV126 : Arr2 ℂ := Arr2.ofFn 2 2 (fun t j => if t = j then 1 else 2)

/-- an admittance matrix with a line between the nodes -/
def demoY126 : Arr2 ℂ := Arr2.ofFn 2 2 (fun t j => if t = j then 1 else 1 + Complex.I)

theorem demoY126_symm : Spec.IsSymm demoY126 := by
  refine ⟨rfl, fun i j => ?_⟩
  unfold demoY126
  rw [Arr2.ofFn_get', Arr2.ofFn_get']
  by_cases hi : i < 2 <;> by_cases hj : j < 2 <;> simp [hi, hj, eq_comm]

theorem demoY126_seen : Spec.LinesSeen 2 demoY126 := by
  intro e he im
  rw [mem_offPairs] at he
  have h1 : e.1 = 1 := by omega
  have h2 : e.2 = 0 := by omega
  cases im <;> simp [Spec.symPart, Spec.part, demoY126, h1, h2, Arr2.ofFn_get']

example (pmu : Bool) (st : Store) : ∃ r, (bayesianEiv ⟨exactPinv, exactSvd, exactInv, exactSolve⟩ ⟨1, 1, 1, 1, 1, true, true, true⟩ "a"
    (some demoV126) (some demoV126) ⟨1, 1⟩ ⟨1, 1⟩ [1, 1] demoY126 none false true 5 pmu st).1 = .ok r := by
  obtain ⟨p, hp, ha, hu, hsp, -⟩ := eiv_prior ⟨1, 1, 1, 1, 1, true, true, true⟩ 2 demoY126 ⟨rfl, rfl⟩ none false
    (fun y h => by cases h) (fun h => by cases h.1)
  obtain ⟨r, hr⟩ := eivCompute_ok (ext := ⟨exactPinv, exactSvd, exactInv, exactSolve⟩) (cf := ⟨1, 1, 1, 1, 1, true, true, true⟩)
    exactInv_contract exactSolve_exact exactSolve_total (v := demoV126) (i := demoV126) (y0 := demoY126) ⟨rfl, rfl⟩ ⟨rfl, rfl⟩ false true 5
    pmu ha hu zero_le_one ⟨1, 1⟩ ⟨1, 1⟩ [1, 1] (.inr ⟨one_pos, hsp demoY126_seen (.inr ⟨rfl, rfl, one_ne_zero⟩), fun _ =>
      ⟨by decide, one_pos, one_pos, by simp, fun _ t j (ht : t < 2) (hj : j < 2) => by
        unfold demoV126
        rw [Arr2.ofFn_get _ ht hj]
        split <;> norm_num⟩⟩)
  refine ⟨r, ?_⟩
  rw [bayesianEiv_fst (by norm_num)]
  exact (congrArg (· >>= _) hp).trans hr

example (spread : List ℝ → Arr2 ℝ → Nat → ℝ) (st : Store) : ∃ r, (eivFim (fun m => .ok m) spread "a" (some demoV126) (some demoV126)
    ⟨1, 1⟩ ⟨1, 1⟩ [1, 1] demoY126 none false st).1 = .ok r := by
  obtain ⟨Sv, hSv, r1, r2, -⟩ := noise_reads averageCov demoV126 (.npScalar 1) 1 (show (2 : ℕ) ≠ 1 by decide)
  obtain ⟨Si, hSi, r3, r4, -⟩ := noise_reads averageCov demoV126 (ratedSd ⟨1, 1⟩ [1, 1]) 1 rfl
  have hargs : Spec.FisherArgs (centreData false demoV126 demoV126).1 Sv Si demoY126 :=
    ⟨Nat.two_pos, Nat.two_pos, ⟨r1, r2⟩, ⟨r3, r4⟩, ⟨rfl, rfl⟩⟩
  obtain ⟨W, F, -, -, -, -, -, -, -, hF, -⟩ := C42_partial hargs
  refine ⟨(F, F, spread (makeRealVector (vectorizeMatrix demoY126)) F 10000), ?_⟩
  have h1 : averageTrueNoiseCovariance demoV126 (.npScalar 1) 1 false = .ok Sv := hSv
  have h2 : averageTrueNoiseCovariance demoV126 (ratedSd ⟨1, 1⟩ [1, 1]) 1 false = .ok Si := hSi
  have h3 : fimCompute (fun m => .ok m) spread demoV126 demoV126 ⟨1, 1⟩ ⟨1, 1⟩ [1, 1] demoY126 none false =
      .ok (F, F, spread (makeRealVector (vectorizeMatrix demoY126)) F 10000) := by
    simp only [fimCompute, h1, h2, bind, Except.bind, hF (fun m => .ok m) F rfl]
    rfl
  simp only [eivFim, h3]

end
end Verif
