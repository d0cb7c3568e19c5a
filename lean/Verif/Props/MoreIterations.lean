/-
C185: a run with fewer iterations is an initial part of one with more.
-/
import Verif.Props.NoPrior
import Verif.Props.LassoNoisy

namespace Verif

noncomputable section

/-- the loop only appends to the log -/
theorem fitLoop_prefix (cfg : RegConfig) (step : FitState → Except PyErr (FitState × ℝ)) :
    ∀ k it s log r L, fitLoop cfg step k it s log = (r, L) → log <+: L
  | 0, it, s, log, r, L, h => by
    rw [fitLoop] at h
    cases h
    exact List.prefix_rfl
  | k + 1, it, s, log, r, L, h => by
    rw [fitLoop] at h
    split at h
    · cases h
      exact List.prefix_rfl
    · rename_i s' target _
      have hp : log <+: log ++ [⟨it, s'.yMat, target⟩] := List.prefix_append _ _
      dsimp only at h
      split at h
      · split at h
        · cases h
          exact hp
        · split at h
          · cases h
            exact hp
          · exact hp.trans (fitLoop_prefix cfg step k _ _ _ _ _ h)
      · exact hp.trans (fitLoop_prefix cfg step k _ _ _ _ _ h)

/-- a loop with fewer iterations logs an initial part -/
theorem fitLoop_take {cfg cfg' : RegConfig} (hc : ∀ a b, isStationary cfg a b ↔ isStationary cfg' a b)
    (step : FitState → Except PyErr (FitState × ℝ)) (m : Nat) :
    ∀ k it s log s' L, fitLoop cfg step (k + m) it s log = (.ok s', L) →
      ∃ s'', fitLoop cfg' step k it s log = (.ok s'', L.take (log.length + k))
  | 0, it, s, log, s', L, h => by
    refine ⟨s, ?_⟩
    rw [fitLoop, Nat.add_zero, ← List.prefix_iff_eq_take.1 (fitLoop_prefix cfg step _ _ _ _ _ _ h)]
  | k + 1, it, s, log, s', L, h => by
    rw [Nat.add_right_comm, fitLoop] at h
    rw [fitLoop]
    cases hs : step s with
    | error e => rw [hs] at h; cases h
    | ok q =>
      obtain ⟨s1, target⟩ := q
      rw [hs] at h
      dsimp only at h ⊢
      have hlen : log.length + (k + 1) = (log ++ [(⟨it, s1.yMat, target⟩ : IterationStatus)]).length + k := by simp; omega
      rw [hlen]
      by_cases hit : it > 0
      · rw [if_pos hit] at h ⊢
        cases hg : (log ++ [(⟨it, s1.yMat, target⟩ : IterationStatus)])[it - 1]? with
        | none => rw [hg] at h; cases h
        | some prev =>
          rw [hg] at h
          dsimp only at h ⊢
          by_cases hst : isStationary cfg target prev.target
          · rw [if_pos hst] at h
            rw [if_pos ((hc _ _).1 hst)]
            cases h
            exact ⟨s', by rw [List.take_of_length_le (by omega)]⟩
          · rw [if_neg hst] at h
            rw [if_neg (fun e => hst ((hc _ _).2 e))]
            exact fitLoop_take hc step m k _ _ _ _ _ h
      · rw [if_neg hit] at h ⊢
        exact fitLoop_take hc step m k _ _ _ _ _ h

/-- C185 for the regression with prior -/
theorem C185_regression (solve : Solver) (cfg : RegConfig) (x z yInit : Arr2 ℂ) {k m : ℕ} {obj : RegObj}
    (h : bayesianFit solve { cfg with maxIter := k + m } .fresh x z yInit = (.ok (), obj)) :
    ∃ y, bayesianFit solve { cfg with maxIter := k } .fresh x z yInit = (.ok (), ⟨obj.iterations.take k, some y⟩) := by
  unfold bayesianFit at h ⊢
  dsimp only at h ⊢
  split at h
  · cases h
  · rename_i dt A b s hset
    generalize hq : fitLoop { cfg with maxIter := k + m } _ (k + m) 0 s RegObj.fresh.iterations = q at h
    obtain ⟨r, L⟩ := q
    cases r with
    | error e => cases h
    | ok s' =>
      cases h
      obtain ⟨s'', hs⟩ := fitLoop_take (cfg := { cfg with maxIter := k + m }) (cfg' := { cfg with maxIter := k }) (fun _ _ => Iff.rfl) _ m k 0 s _ s' L hq
      refine ⟨s''.yMat, ?_⟩
      have hs : fitLoop { cfg with maxIter := k } (regStep solve { cfg with maxIter := k } x.c dt A b) k 0 s RegObj.fresh.iterations =
        (.ok s'', L.take (0 + k)) := hs
      rw [hs, Nat.zero_add]
      rfl

/-- C185 for the errors-in-variables regression -/
theorem C185_eiv (solve : Solver) (inv : Arr2 ℂ → Except PyErr (Arr2 ℂ)) (cfg : RegConfig) (x z : Arr2 ℂ) (xW zW : Option (Arr2 ℝ))
    (yInit : Arr2 ℂ) {k m : ℕ} {obj : RegObj}
    (h : eivFit solve inv { cfg with maxIter := k + m } .fresh x z xW zW yInit = (.ok (), obj)) :
    ∃ y, eivFit solve inv { cfg with maxIter := k } .fresh x z xW zW yInit = (.ok (), ⟨obj.iterations.take k, some y⟩) := by
  unfold eivFit eivBody at h ⊢
  dsimp only at h ⊢
  split at h
  · cases h
  · rename_i dt A a b s hset
    generalize hq : fitLoop { cfg with maxIter := k + m } _ (k + m) 0 s RegObj.fresh.iterations = q at h
    obtain ⟨r, L⟩ := q
    cases r with
    | error e => cases h
    | ok s' =>
      cases h
      obtain ⟨s'', hs⟩ := fitLoop_take (cfg := { cfg with maxIter := k + m }) (cfg' := { cfg with maxIter := k }) (fun _ _ => Iff.rfl) _ m k 0 s _ s' L hq
      refine ⟨s''.yMat, ?_⟩
      rw [show L.take k = L.take (RegObj.fresh.iterations.length + k) by rw [show RegObj.fresh.iterations.length = 0 from rfl, Nat.zero_add]]
      exact congrArg (finishFit RegObj.fresh) hs

/-- the last entry of a log of a run holds the estimate -/
theorem eiv_last {ext : NumExt} {cf : IdConf} {name : String} {v i : Arr2 ℂ} {vsd isd : SdPolar} {ratings : List ℝ} {y0 : Arr2 ℂ}
    {ye : Option (Arr2 ℂ)} {lap weighted pmu : Bool} {K : ℕ} (hK : 0 < K) {st st' : Store} {Y : Arr2 ℂ} {log : List IterationStatus}
    (h : bayesianEiv ext cf name (some v) (some i) vsd isd ratings y0 ye lap weighted K pmu st = (.ok (Y, log), st')) :
    ∃ prior cv ci wv wi, eivPrior cf v.c y0 ye lap = .ok prior ∧ eivWeights v i vsd isd ratings weighted pmu = .ok (cv, ci, wv, wi) ∧
      eivFit ext.solve ext.inv (regConfig cf prior cf.lambdaEiv lap K) .fresh (centreData lap cv ci).1 (centreData lap cv ci).2 wv wi y0 =
        (.ok (), ⟨log, some Y⟩) ∧ st' = st.savez (resultFile .bayesian name) (bayesianNpz (Y, log)) := by
  unfold bayesianEiv at h
  dsimp only at h
  cases hp : eivPrior cf v.c y0 ye lap with
  | error e => rw [hp] at h; cases h
  | ok prior =>
    have hK0 : decide (K > 0) = true := by simpa using hK
    rw [hp] at h
    dsimp only at h
    rw [hK0] at h
    dsimp only at h
    cases hc : eivCompute ext cf prior v i vsd isd ratings y0 lap weighted K pmu with
    | error e => rw [hc] at h; cases h
    | ok r =>
      rw [hc] at h
      cases h
      unfold eivCompute at hc
      obtain ⟨⟨cv, ci, wv, wi⟩, hw, hc⟩ := Prior.bind_ok hc
      refine ⟨prior, cv, ci, wv, wi, rfl, hw, ?_, rfl⟩
      dsimp only at hc
      unfold fitted at hc
      split at hc
      · cases hc
      · rename_i o ho
        split at hc
        · rename_i y hy
          cases hc
          rw [ho]
          cases o
          cases hy
          rfl
        · cases hc

/-- C185: if `bayesian_eiv` returns when `k + m` iterations are allowed, it returns when `k` are allowed. Its log is then the first `k`
entries of the longer one, and both estimates are those of the last entries. Nothing is assumed of the solver. -/
theorem C185 {ext : NumExt} {cf : IdConf} {name : String} {v i : Arr2 ℂ} {vsd isd : SdPolar} {ratings : List ℝ} {y0 : Arr2 ℂ}
    {ye : Option (Arr2 ℂ)} {lap weighted pmu : Bool} {k m : ℕ} (hk : 0 < k) {st st' : Store} {Y' : Arr2 ℂ} {log' : List IterationStatus}
    (h : bayesianEiv ext cf name (some v) (some i) vsd isd ratings y0 ye lap weighted (k + m) pmu st = (.ok (Y', log'), st')) :
    ∃ Y, bayesianEiv ext cf name (some v) (some i) vsd isd ratings y0 ye lap weighted k pmu st =
        (.ok (Y, log'.take k), st.savez (resultFile .bayesian name) (bayesianNpz (Y, log'.take k))) ∧
      (log'.take k).getLast?.map IterationStatus.params = some Y ∧ log'.getLast?.map IterationStatus.params = some Y' ∧
      (log'.length ≤ k → Y = Y') := by
  obtain ⟨prior, cv, ci, wv, wi, hp, hw, hf, -⟩ := eiv_last (by omega) h
  obtain ⟨Y, hY⟩ := C185_eiv ext.solve ext.inv (regConfig cf prior cf.lambdaEiv lap 0) _ _ wv wi y0 (k := k) (m := m) hf
  have hY : eivFit ext.solve ext.inv (regConfig cf prior cf.lambdaEiv lap k) .fresh (centreData lap cv ci).1 (centreData lap cv ci).2
      wv wi y0 = (.ok (), ⟨log'.take k, some Y⟩) := hY
  obtain ⟨-, h1⟩ := C33_eiv _ _ _ _ _ _ _ _ hf
  obtain ⟨-, h2⟩ := C33_eiv _ _ _ _ _ _ _ _ hY
  obtain ⟨-, -, -, e', he', hy'⟩ := h1 (show 0 < k + m by omega)
  obtain ⟨-, -, -, e, he, hy⟩ := h2 hk
  have he' : log'.getLast? = some e' := he'
  have he : (log'.take k).getLast? = some e := he
  have hy' : Y' = e'.params := Option.some.inj hy'
  have hy : Y = e.params := Option.some.inj hy
  refine ⟨Y, ?_, by rw [he, hy]; rfl, by rw [he', hy']; rfl, fun hl => ?_⟩
  · have hK0 : decide (k > 0) = true := by simpa using hk
    have hc : eivCompute ext cf prior v i vsd isd ratings y0 lap weighted k pmu = .ok (Y, log'.take k) := by
      simp only [eivCompute, hw, Bind.bind, Except.bind, hY, fitted]
    simp only [bayesianEiv, hp, hK0, hc]
  · rw [List.take_of_length_le hl, he'] at he
    rw [hy, hy', Option.some.inj he]

/-- merging commutes with dropping the entries after the first `k` -/
theorem merged_take {ids : List Int} {m : Fin 3 → Nat} {f : Fin 3 → Nat → Nat} {logs : Fin 3 → List IterationStatus}
    {log : List IterationStatus} (h : Spec.Merged ids m f logs log) (k : ℕ) : Spec.Merged ids m f (fun l => (logs l).take k) (log.take k) := by
  refine ⟨⟨fun l => ?_, ?_⟩, fun j e he => ?_⟩
  · have := h.shortest.1 l
    simp only [List.length_take]
    omega
  · obtain ⟨l, hl⟩ := h.shortest.2
    exact ⟨l, by simp only [List.length_take, hl]⟩
  · rw [List.getElem?_take] at he
    split at he
    · rename_i hj
      obtain ⟨es, h1, h2⟩ := h.entry j e he
      exact ⟨es, fun l => by rw [List.getElem?_take, if_pos hj, h1 l], h2⟩
    · cases he

/-- C185 for three phases -/
theorem C185_three {ext : NumExt} {cf : IdConf} {name : String} {v c : Arr2 ℂ} {ids : List Int} {vsd isd : SdPolar} {ratings : List ℝ}
    {y0 : Arr2 ℂ} {ye : Option (Arr2 ℂ)} {lap weighted pmu : Bool} (h0 : 0 ∈ ids) (hd : Spec.PhaseData ids v c ratings y0 ye)
    {m : Fin 3 → Nat} {f : Fin 3 → Nat → Nat} (hp : ∀ l : Fin 3, Spec.LabelPos ids (l.val : Int) (m l) (f l)) {k n : ℕ} (hk : 0 < k)
    {st : Store} {Y' : Arr2 ℂ} {log' : List IterationStatus}
    (h : (bayesianEiv3 ext cf name v c ids vsd isd ratings y0 ye lap weighted (k + n) pmu st).res = .ok (Y', log')) :
    ∃ Y, (bayesianEiv3 ext cf name v c ids vsd isd ratings y0 ye lap weighted k pmu st).res = .ok (Y, log'.take k) := by
  obtain ⟨rs, hrs, hA, hM⟩ := (C52_bayesian (by omega) h0 hd hp st _).1.1 h
  have hl : ∀ l, ∃ Y, labelRun ext cf name v c vsd isd ratings y0 ye lap weighted k pmu (m l) (f l) st = .ok (Y, (rs l).2.take k) := by
    intro l
    have := hrs l st
    unfold labelRun at this ⊢
    obtain ⟨Y, hY, -⟩ := C185 hk (Y' := (rs l).1) (log' := (rs l).2) (Prod.ext this rfl)
    exact ⟨Y, by rw [hY]⟩
  choose Ys hYs using hl
  have hq := fun l => labelRun_square hk (hYs l)
  obtain ⟨-, -, a, -, -, -, -, -, hA'⟩ := assemble hp (fun l => (hq l).1) rfl
  exact ⟨a, (C52_bayesian hk h0 hd hp st (a, log'.take k)).1.2 ⟨fun l => (Ys l, (rs l).2.take k), fun l st' => by
    rw [labelRun_const hk _ _ st' st]
    exact hYs l, hA', merged_take hM k⟩⟩

/-- the lasso estimate of `standard_methods`: if it returns when `k + m` iterations are allowed, it returns when `k` are allowed, with
the same ordinary and total least squares estimates -/
theorem C185_standard {ext : NumExt} {cf : IdConf} {name : String} {v i : Arr2 ℂ} {lap : Bool} {k m : ℕ} (hk : 0 < k) {st st' : Store}
    {r : Arr2 ℂ × Arr2 ℂ × Arr2 ℂ} (h : standardMethods ext cf name (some v) (some i) lap (k + m) st = (.ok r, st')) :
    ∃ Y, standardMethods ext cf name (some v) (some i) lap k st =
      (.ok (r.1, r.2.1, Y), st.savez (resultFile .standard name) (standardNpz (r.1, r.2.1, Y))) := by
  unfold standardMethods at h
  dsimp only at h
  cases hc : standardCompute ext cf v i lap (k + m) with
  | error e => rw [hc] at h; cases h
  | ok q =>
    rw [hc] at h
    cases h
    unfold standardCompute at hc
    dsimp only at hc
    obtain ⟨yo, ho, hc⟩ := Prior.bind_ok hc
    obtain ⟨yt, ht, hc⟩ := Prior.bind_ok hc
    obtain ⟨prior, hp, hc⟩ := Prior.bind_ok hc
    rw [if_pos (by omega)] at hc
    obtain ⟨y0, hy0, hc⟩ := Prior.bind_ok hc
    obtain ⟨⟨yl, log⟩, hl, hc⟩ := Prior.bind_ok hc
    cases hc
    unfold fitted at hl
    split at hl
    · cases hl
    · rename_i o hf
      obtain ⟨Y, hY⟩ := C185_regression ext.solve (regConfig cf prior cf.lambdaLasso lap 0) _ _ y0 (k := k) (m := m) hf
      have hY : bayesianFit ext.solve (regConfig cf prior cf.lambdaLasso lap k) .fresh (centreData lap v i).1 (centreData lap v i).2 y0 =
        (.ok (), ⟨o.iterations.take k, some Y⟩) := hY
      refine ⟨Y, ?_⟩
      have hc : standardCompute ext cf v i lap k = .ok (yo, yt, Y) := by
        simp only [standardCompute, ho, ht, hp, hy0, hY, fitted, Bind.bind, Except.bind, if_pos hk, pure, Except.pure]
      simp only [standardMethods, hc]

/-- `C185` applies to the diverging run: its first three entries are the log of a run of three iterations -/
example (st : Store) : ∃ (K : ℕ) (log' : List IterationStatus) (Y : Arr2 ℂ), 3 < K ∧ log'.length = K ∧
    bayesianEiv ⟨exactPinv, exactSvd, exactInv, exactSolve⟩ ⟨0, 0, 1, 0, 0, true, true, false⟩ "a" (some shortX) (some shortZ) ⟨1, 1⟩ ⟨1, 1⟩
      [1] (scalarArr ((1 : ℝ) : ℂ)) none false false 3 true st =
      (.ok (Y, log'.take 3), st.savez (resultFile .bayesian "a") (bayesianNpz (Y, log'.take 3))) := by
  obtain ⟨K0, hK⟩ := (C184_violated exactSolve_exact exactSolve_total exactInv_contract (cf := ⟨0, 0, 1, 0, 0, true, true, false⟩) (y := 1)
    rfl le_rfl le_rfl one_pos "a" ⟨1, 1⟩ ⟨1, 1⟩ [1] true st (ext := ⟨exactPinv, exactSvd, exactInv, exactSolve⟩)).2 0
  obtain ⟨g, log, -, hlen, hrun⟩ := hK (3 + (K0 + 1)) (by omega)
  obtain ⟨Y, hY, -⟩ := C185 (by norm_num) hrun
  exact ⟨3 + (K0 + 1), log, Y, by omega, hlen, hY⟩

/-- `C185_three` applies to two samples of two nodes on each sequence -/
example (pmu : Bool) (st : Store) : ∃ Y' log' Y, (bayesianEiv3 ⟨exactPinv, exactSvd, exactInv, exactSolve⟩
      ⟨1, 1, 1, 0, 0, true, true, true⟩ "a" demoV150 demoV150 [0, 1, 2, 0, 1, 2] ⟨1, 1⟩ ⟨1, 1⟩ [1, 1, 1, 1, 1, 1] demoY150 none false false 50
      pmu st).res = .ok (Y', log') ∧ (bayesianEiv3 ⟨exactPinv, exactSvd, exactInv, exactSolve⟩
      ⟨1, 1, 1, 0, 0, true, true, true⟩ "a" demoV150 demoV150 [0, 1, 2, 0, 1, 2] ⟨1, 1⟩ ⟨1, 1⟩ [1, 1, 1, 1, 1, 1] demoY150 none false false 20
      pmu st).res = .ok (Y, log'.take 20) := by
  obtain ⟨B, hB⟩ := C184_three_partial (ext := ⟨exactPinv, exactSvd, exactInv, exactSolve⟩) (cf := ⟨1, 1, 1, 0, 0, true, true, true⟩)
    exactSolve_exact exactSolve_total exactInv_contract one_pos le_rfl le_rfl (by simp) demo150_data
    rfl demo150_labels false pmu (fun h => absurd rfl h) (fun h => by cases h.1) demo150_seen (.inr ⟨rfl, rfl, one_ne_zero⟩)
    ⟨1, 1⟩ ⟨1, 1⟩ "a" st
  obtain ⟨⟨Y', log'⟩, h, -⟩ := hB 50 (by norm_num)
  obtain ⟨Y, hY⟩ := C185_three (by simp) demo150_data demo150_labels (k := 20) (n := 30) (by norm_num) h
  exact ⟨Y', log', Y, h, hY⟩

/-- `C185_standard` applies to noisy data of two nodes -/
example (st : Store) : ∃ o t Y Y',
    (standardMethods ⟨exactPinv, exactSvd, exactInv, exactSolve⟩ demoConf161 "a" (some demoV161) (some demoN161) false 20 st).1 =
      .ok (o, t, Y) ∧
    (standardMethods ⟨exactPinv, exactSvd, exactInv, exactSolve⟩ demoConf161 "a" (some demoV161) (some demoN161) false 50 st).1 =
      .ok (o, t, Y') := by
  obtain ⟨-, hc, -, hN⟩ := demo161_facts (fun _ => none) demoArgs161
  obtain ⟨B, T, L, h1, -⟩ := standard_noisy (ext := ⟨exactPinv, exactSvd, exactInv, exactSolve⟩) (cf := demoConf161) (v := demoV161) (i := demoN161)
    (lap := false) (by simp [demoConf161]) exactInv_contract exactSolve_exact exactSolve_total exactPinv_contract exactSvd_contract
    (x0 := demoV161) (z0 := demoI161) (Y := demoY126) rfl (by rw [hc]; exact hN) demo161_excited (by norm_num) (by norm_num) 50
  have h2 : standardMethods ⟨exactPinv, exactSvd, exactInv, exactSolve⟩ demoConf161 "a" (some demoV161) (some demoN161) false (20 + 30) st =
      (.ok (B, T, L), st.savez (resultFile .standard "a") (standardNpz (B, T, L))) := by
    simp only [standardMethods, h1]
  obtain ⟨Y, hY⟩ := C185_standard (by norm_num) h2
  exact ⟨B, T, Y, L, by rw [hY], by rw [h2]⟩

end
end Verif
