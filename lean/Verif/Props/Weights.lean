/-
The weights that `bayesian_eiv` computes are positive definite (used by C119).
-/
import Verif.Props.NoiseTransformation
import Verif.Props.IdPriors
import Verif.Lemmas.EivTotal
import Verif.Model.Identification

namespace Verif
open Finset Spec
noncomputable section

/-- quadratic form of a block matrix of diagonals -/
theorem block_quad (N : Nat) (a b c v : List ℝ) :
    wquad (Arr2.ofFn (N + N) (N + N) (blockEntry N a b c)) v =
      ∑ p ∈ range N, (a.getD p 0 * v.getD p 0 ^ 2 + 2 * c.getD p 0 * v.getD p 0 * v.getD (N + p) 0 +
        b.getD p 0 * v.getD (N + p) 0 ^ 2) := by
  have h0 : wquad (Arr2.ofFn (N + N) (N + N) (blockEntry N a b c)) v =
      ∑ i ∈ range (N + N), ∑ j ∈ range (N + N), v.getD i 0 * blockEntry N a b c i j * v.getD j 0 := by
    refine Finset.sum_congr rfl fun i hi => Finset.sum_congr rfl fun j hj => ?_
    rw [Arr2.ofFn_get _ (Finset.mem_range.1 hi) (Finset.mem_range.1 hj)]
  have row : ∀ i, i < N + N → ∑ j ∈ range (N + N), v.getD i 0 * blockEntry N a b c i j * v.getD j 0 =
      if i < N then v.getD i 0 * (a.getD i 0 * v.getD i 0 + c.getD i 0 * v.getD (N + i) 0)
      else v.getD i 0 * (c.getD (i - N) 0 * v.getD (i - N) 0 + b.getD (i - N) 0 * v.getD i 0) := by
    intro i hi
    rw [Finset.sum_range_add]
    by_cases h : i < N
    · have e1 : ∀ j ∈ range N, v.getD i 0 * blockEntry N a b c i j * v.getD j 0 =
          (if i = j then a.getD i 0 else 0) * (v.getD i 0 * v.getD j 0) := by
        intro j hj
        simp only [blockEntry, h, Finset.mem_range.1 hj, if_true]
        ring
      have e2 : ∀ j ∈ range N, v.getD i 0 * blockEntry N a b c i (N + j) * v.getD (N + j) 0 =
          (if i = j then c.getD i 0 else 0) * (v.getD i 0 * v.getD (N + j) 0) := by
        intro j hj
        simp only [blockEntry, h, if_true, show ¬ (N + j < N) by omega, if_false, Nat.add_sub_cancel_left]
        ring
      rw [Finset.sum_congr rfl e1, Finset.sum_congr rfl e2, sum_ite_left N i _ _ h,
        sum_ite_left N i _ (fun j => v.getD i 0 * v.getD (N + j) 0) h, if_pos h]
      ring
    · have hk : i - N < N := by omega
      have e1 : ∀ j ∈ range N, v.getD i 0 * blockEntry N a b c i j * v.getD j 0 =
          (if i - N = j then c.getD (i - N) 0 else 0) * (v.getD i 0 * v.getD j 0) := by
        intro j hj
        simp only [blockEntry, h, Finset.mem_range.1 hj, if_true, if_false]
        by_cases hij : i - N = j
        · subst hij; simp; ring
        · simp [hij]
      have e2 : ∀ j ∈ range N, v.getD i 0 * blockEntry N a b c i (N + j) * v.getD (N + j) 0 =
          (if i - N = j then b.getD (i - N) 0 else 0) * (v.getD i 0 * v.getD (N + j) 0) := by
        intro j hj
        simp only [blockEntry, h, show ¬ (N + j < N) by omega, if_false, Nat.add_sub_cancel_left]
        ring
      rw [Finset.sum_congr rfl e1, Finset.sum_congr rfl e2, sum_ite_left N (i - N) _ _ hk,
        sum_ite_left N (i - N) _ (fun j => v.getD i 0 * v.getD (N + j) 0) hk, if_neg h,
        show N + (i - N) = i by omega]
      ring
  rw [h0, Finset.sum_congr rfl fun i hi => row i (Finset.mem_range.1 hi), Finset.sum_range_add, ← Finset.sum_add_distrib]
  refine Finset.sum_congr rfl fun p hp => ?_
  rw [if_pos (Finset.mem_range.1 hp), if_neg (by omega), Nat.add_sub_cancel_left]
  ring

/-- a block matrix of diagonals whose blocks are positive definite -/
theorem block_posDef {N : Nat} {a b c : List ℝ} (h : ∀ p < N, 0 < a.getD p 0 ∧ 0 < a.getD p 0 * b.getD p 0 - c.getD p 0 * c.getD p 0) :
    PosDef (2 * N) (Arr2.ofFn (N + N) (N + N) (blockEntry N a b c)) := by
  have hsq : ∀ p < N, ∀ x y : ℝ, 0 ≤ a.getD p 0 * x ^ 2 + 2 * c.getD p 0 * x * y + b.getD p 0 * y ^ 2 ∧
      (a.getD p 0 * x ^ 2 + 2 * c.getD p 0 * x * y + b.getD p 0 * y ^ 2 = 0 → x = 0 ∧ y = 0) := by
    intro p hp x y
    obtain ⟨ha, hd⟩ := h p hp
    have e : a.getD p 0 * (a.getD p 0 * x ^ 2 + 2 * c.getD p 0 * x * y + b.getD p 0 * y ^ 2) =
        (a.getD p 0 * x + c.getD p 0 * y) ^ 2 + (a.getD p 0 * b.getD p 0 - c.getD p 0 * c.getD p 0) * y ^ 2 := by ring
    have hn : 0 ≤ (a.getD p 0 * x + c.getD p 0 * y) ^ 2 + (a.getD p 0 * b.getD p 0 - c.getD p 0 * c.getD p 0) * y ^ 2 := by
      positivity
    refine ⟨?_, ?_⟩
    · rw [← e] at hn
      exact nonneg_of_mul_nonneg_right hn ha
    · intro h0
      rw [h0, mul_zero] at e
      have hy : y = 0 := by
        by_contra hy
        have : 0 < (a.getD p 0 * b.getD p 0 - c.getD p 0 * c.getD p 0) * y ^ 2 := by positivity
        have := sq_nonneg (a.getD p 0 * x + c.getD p 0 * y)
        linarith
      rw [hy] at e
      have : (a.getD p 0 * x) ^ 2 = 0 := by rw [mul_zero, add_zero] at e; linarith [e]
      have := pow_eq_zero_iff (two_ne_zero) |>.1 this
      exact ⟨(mul_eq_zero.1 this).resolve_left ha.ne', hy⟩
  refine ⟨⟨by show N + N = _; omega, by show N + N = _; omega, ?_, ?_⟩, ?_⟩
  · intro i j
    by_cases hi : i < N + N
    · by_cases hj : j < N + N
      · rw [Arr2.ofFn_get _ hi hj, Arr2.ofFn_get _ hj hi]
        unfold blockEntry
        by_cases h1 : i < N <;> by_cases h2 : j < N <;> simp only [h1, h2, if_true, if_false]
        · by_cases hij : i = j
          · subst hij; rfl
          · rw [if_neg hij, if_neg (Ne.symm hij)]
        · by_cases hij : i = j - N
          · rw [if_pos hij, if_pos hij.symm]
          · rw [if_neg hij, if_neg (fun e => hij e.symm)]
        · by_cases hij : i - N = j
          · rw [if_pos hij, if_pos hij.symm]
          · rw [if_neg hij, if_neg (fun e => hij e.symm)]
        · by_cases hij : i - N = j - N
          · rw [if_pos hij, if_pos hij.symm, hij]
          · rw [if_neg hij, if_neg (fun e => hij e.symm)]
      · rw [Arr2.ofFn_get', Arr2.ofFn_get', if_neg (fun h => hj h.2), if_neg (fun h => hj h.1)]
    · rw [Arr2.ofFn_get', Arr2.ofFn_get', if_neg (fun h => hi h.1), if_neg (fun h => hi h.2)]
  · intro v
    rw [block_quad]
    exact Finset.sum_nonneg fun p hp => (hsq p (Finset.mem_range.1 hp) _ _).1
  · intro v hv h0
    rw [block_quad, Finset.sum_eq_zero_iff_of_nonneg (fun p hp => (hsq p (Finset.mem_range.1 hp) _ _).1)] at h0
    apply List.ext_getElem (by simp [hv])
    intro k hk _
    rw [List.getElem_replicate]
    have hg : v.getD k 0 = v[k] := by rw [List.getD_eq_getElem?_getD, List.getElem?_eq_getElem hk]; rfl
    rw [← hg]
    by_cases hkN : k < N
    · exact ((hsq k hkN _ _).2 (h0 k (Finset.mem_range.2 hkN))).1
    · have := ((hsq (k - N) (by omega) _ _).2 (h0 (k - N) (Finset.mem_range.2 (by omega)))).2
      rwa [show N + (k - N) = k by omega] at this

/-- the weights of synchronised measurements are positive definite -/
theorem average_posDef (M : Arr2 ℂ) (sd : SdArg) (sdp : ℝ) (h : ValidSd sd M.c) (hp : 0 < sdp) (hs : ∀ j < M.c, 0 < sdAt sd j) :
    ∃ W, averageTrueNoiseCovariance M sd sdp true = .ok W ∧ PosDef (2 * (M.c * M.r)) W := by
  obtain ⟨a, b, c, ha, hb, hc, he, hn⟩ := noise_diags averageCov M sd sdp h
  obtain ⟨l1, l2, l3, hv⟩ := invertDiag_spec ha hb hc
  refine ⟨_, (hn true).trans (covBlock_closed l1 l2 l3), block_posDef fun p hpN => ?_⟩
  obtain ⟨t, j, ht, hj, rfl⟩ := exists_pos hpN
  obtain ⟨e1, e2, e3⟩ := he t j ht hj
  obtain ⟨v1, v2, v3⟩ := hv _ hpN
  have hsj := hs j hj
  obtain ⟨q1, q2, q3⟩ := average_pos (m := ‖M.get t j‖) (f := Complex.arg (M.get t j)) (σ := sdAt sd j ^ 2) (v := sdp ^ 2)
    (by positivity) (by positivity)
  rw [v1, v2, v3, e1, e2, e3]
  generalize averageCov.re ‖M.get t j‖ (Complex.arg (M.get t j)) (sdAt sd j ^ 2) (sdp ^ 2) = A at *
  generalize averageCov.im ‖M.get t j‖ (Complex.arg (M.get t j)) (sdAt sd j ^ 2) (sdp ^ 2) = B at *
  generalize averageCov.cov ‖M.get t j‖ (Complex.arg (M.get t j)) (sdAt sd j ^ 2) (sdp ^ 2) = C at *
  have d1 : A - C * (C / B) = (A * B - C * C) / B := by field_simp
  have d2 : B - C * (C / A) = (A * B - C * C) / A := by field_simp
  rw [d1, d2]
  refine ⟨by positivity, ?_⟩
  have : 1 / ((A * B - C * C) / B) * (1 / ((A * B - C * C) / A)) -
      -(C * (1 / ((A * B - C * C) / B)) / B) * -(C * (1 / ((A * B - C * C) / B)) / B) = 1 / (A * B - C * C) := by
    have hD := q3.ne'
    generalize hDD : A * B - C * C = D at *
    field_simp
    linarith
  rw [this]
  positivity

/-- the reciprocal of the entries that are stored -/
def recip (t : ℝ) : ℝ := if t = 0 then 0 else 1 / t

/-- the weights of unsynchronised measurements: magnitudes have no phase, so the covariance is diagonal -/
theorem magnitude_posDef (M : Arr2 ℂ) (sd : SdArg) (sdp : ℝ) (h : ValidSd sd M.c) (hp : 0 < sdp) (hs : ∀ j < M.c, 0 < sdAt sd j)
    (hM : ∀ t j, t < M.r → j < M.c → M.get t j ≠ 0) :
    ∃ W, naiveNoiseCovariance (M.map (fun z => ((‖z‖ : ℝ) : ℂ))) sd sdp false = .ok W ∧
      PosDef (2 * (M.c * M.r)) (W.map recip) := by
  set A := M.map (fun z => ((‖z‖ : ℝ) : ℂ)) with hA
  obtain ⟨a, b, c, ha, hb, hc, he, hn⟩ := noise_diags naiveAll A sd sdp h
  refine ⟨_, (hn false).trans (covBlock_closed ha hb hc), ?_⟩
  have hval : ∀ k < M.c * M.r, 0 < a.getD k 0 ∧ 0 < b.getD k 0 ∧ c.getD k 0 = 0 := by
    intro k hk
    obtain ⟨t, j, ht, hj, rfl⟩ := exists_pos hk
    obtain ⟨e1, e2, e3⟩ := he t j ht hj
    have hg : A.get t j = ((‖M.get t j‖ : ℝ) : ℂ) := Arr2.ofFn_get _ ht hj
    have hne : 0 < ‖M.get t j‖ := norm_pos_iff.2 (hM t j ht hj)
    have hsj := hs j hj
    rw [show pos M.r t j = pos A.r t j from rfl, e1, e2, e3, hg, Complex.arg_ofReal_of_nonneg hne.le, Complex.norm_real, norm_norm]
    simp only [naiveAll, Real.cos_zero, Real.sin_zero]
    refine ⟨by positivity, by positivity, by ring⟩
  have : (Arr2.ofFn (A.c * A.r + A.c * A.r) (A.c * A.r + A.c * A.r) (blockEntry (A.c * A.r) a b c)).map recip =
      Arr2.ofFn (M.c * M.r + M.c * M.r) (M.c * M.r + M.c * M.r) (blockEntry (M.c * M.r) (a.map recip) (b.map recip) (c.map recip)) := by
    refine Arr2.ext' rfl rfl ?_
    intro i j hi hj
    have hi : i < M.c * M.r + M.c * M.r := hi
    have hj : j < M.c * M.r + M.c * M.r := hj
    refine (Arr2.map_get recip (if_pos rfl) _ i j).trans ?_
    refine (congrArg recip (Arr2.ofFn_get _ hi hj)).trans ((?_ : _ = _).trans (Arr2.ofFn_get _ hi hj).symm)
    have h0 : recip 0 = 0 := if_pos rfl
    have hgd : ∀ (l : List ℝ) k, (l.map recip).getD k 0 = recip (l.getD k 0) := by
      intro l k
      simp only [List.getD_eq_getElem?_getD, List.getElem?_map]
      cases l[k]? with
      | none => exact h0.symm
      | some t => rfl
    show recip (blockEntry (M.c * M.r) a b c i j) = _
    unfold blockEntry
    simp only [hgd]
    repeat' split
    all_goals first | rfl | exact h0
  rw [this]
  refine block_posDef fun k hk => ?_
  obtain ⟨q1, q2, q3⟩ := hval k hk
  have hgd : ∀ (l : List ℝ), (l.map recip).getD k 0 = recip (l.getD k 0) := by
    intro l
    simp only [List.getD_eq_getElem?_getD, List.getElem?_map]
    cases l[k]? with
    | none => exact (if_pos rfl : recip 0 = 0).symm
    | some t => rfl
  rw [hgd, hgd, hgd, q3]
  unfold recip
  rw [if_neg q1.ne', if_neg q2.ne', if_pos rfl]
  refine ⟨by positivity, ?_⟩
  have : 0 < 1 / a.getD k 0 * (1 / b.getD k 0) := by positivity
  linarith

/-- arrays of standard deviations never raise unless empty -/
theorem noise_array_ok (F : PolarCov) (M : Arr2 ℂ) (ss : List ℝ) (sdp : ℝ) (inv : Bool) (h : ss ≠ []) :
    ∃ W, noiseCovariance F F M (.array ss) sdp inv = .ok W := by
  by_cases hl : ss.length = M.c
  · obtain ⟨a, b, c, ha, hb, hc, -, hn⟩ := noise_diags F M (.array ss) sdp hl
    obtain ⟨l1, l2, l3, -⟩ := invertDiag_spec ha hb hc
    cases inv with
    | false => exact ⟨_, (hn false).trans (covBlock_closed ha hb hc)⟩
    | true => exact ⟨_, (hn true).trans (covBlock_closed l1 l2 l3)⟩
  · cases ss with
    | nil => exact absurd rfl h
    | cons s ss =>
      obtain ⟨a, b, c, ha, hb, hc, -, hn⟩ := noise_diags F M (.pyFloat s) sdp trivial
      obtain ⟨l1, l2, l3, -⟩ := invertDiag_spec ha hb hc
      have : noiseCovariance F F M (.array (s :: ss)) sdp inv = noiseCovariance F F M (.pyFloat s) sdp inv := by
        simp only [noiseCovariance, if_neg hl]
      rw [this]
      cases inv with
      | false => exact ⟨_, (hn false).trans (covBlock_closed ha hb hc)⟩
      | true => exact ⟨_, (hn true).trans (covBlock_closed l1 l2 l3)⟩

/-- the weights of `bayesian_eiv`, synchronised or not -/
theorem eivWeights_ok (v i : Arr2 ℂ) (vsd isd : SdPolar) (ratings : List ℝ) (pmu : Bool) (hn : v.c ≠ 1) (hm : 0 < vsd.m) (hp : 0 < vsd.p)
    (hr : ratings ≠ []) (hsh : i.r = v.r ∧ i.c = v.c) (hv : pmu = false → ∀ t j, t < v.r → j < v.c → v.get t j ≠ 0) :
    ∃ cv ci W wi, eivWeights v i vsd isd ratings true pmu = .ok (cv, ci, some W, some wi) ∧ (cv.r = v.r ∧ cv.c = v.c) ∧
      (ci.r = v.r ∧ ci.c = v.c) ∧ PosDef (2 * (v.c * v.r)) W := by
  have hr' : ratings.map (fun r => isd.m * r) ≠ [] := by simpa using hr
  cases pmu with
  | true =>
    obtain ⟨W, hW, hpos⟩ := average_posDef v (.npScalar vsd.m) vsd.p hn hp (fun _ _ => hm)
    obtain ⟨wi, hwi⟩ := noise_array_ok averageCov i _ isd.p true hr'
    have hwi' : averageTrueNoiseCovariance i (ratedSd isd ratings) isd.p true = .ok wi := hwi
    exact ⟨v, i, W, wi, by simp only [eivWeights, hW, hwi', bind, Except.bind]; rfl, ⟨rfl, rfl⟩, hsh, hpos⟩
  | false =>
    obtain ⟨W, hW, hpos⟩ := magnitude_posDef v (.npScalar vsd.m) (vsd.p * 100) hn (by positivity) (fun _ _ => hm) (hv rfl)
    obtain ⟨wi, hwi⟩ := noise_array_ok naiveAll i _ isd.p true hr'
    have hwi' : naiveNoiseCovariance i (ratedSd isd ratings) isd.p true = .ok wi := hwi
    obtain ⟨ci, hci, c1, c2⟩ : ∃ ci, Arr2.zipWith (fun i v => i * (starRingEnd ℂ) v / ((‖v‖ : ℝ) : ℂ)) i v = .ok ci ∧
        ci.r = v.r ∧ ci.c = v.c := by
      unfold Arr2.zipWith
      rw [if_pos ⟨hsh.1, hsh.2⟩]
      exact ⟨_, rfl, hsh.1, hsh.2⟩
    exact ⟨v.map (fun z => ((‖z‖ : ℝ) : ℂ)), ci, W.map recip, wi, by simp only [eivWeights, hW, hwi', hci, bind, Except.bind]; rfl,
      ⟨rfl, rfl⟩, ⟨c1, c2⟩, hpos⟩

end
end Verif
