/-
C108 to C110: the last plotted error, the names of the files of a report, and the colours and labels of the plots.
-/
import Verif.Props.PlotSparsity
import Verif.Props.Phases

namespace Verif
open Spec
noncomputable section

/-! ### C108: the last logged iterate -/

theorem eivCompute_last {ext : NumExt} {cf : IdConf} {prior : Prior} {v c : Arr2 ℂ} {vsd isd : SdPolar} {ratings : List ℝ} {y0 : Arr2 ℂ}
    {lap weighted pmu : Bool} {iters : Nat} (hi : 0 < iters) {r : Arr2 ℂ × List IterationStatus}
    (h : eivCompute ext cf prior v c vsd isd ratings y0 lap weighted iters pmu = .ok r) :
    ∃ e, r.2.getLast? = some e ∧ r.1 = e.params := by
  unfold eivCompute at h
  obtain ⟨w, -, h⟩ := Prior.bind_ok h
  dsimp only at h
  generalize hq : eivFit ext.solve ext.inv _ _ _ _ _ _ _ = q at h
  obtain ⟨q, obj⟩ := q
  unfold fitted at h
  cases q with
  | error e => exact nomatch h
  | ok u =>
    obtain ⟨-, h2⟩ := C33_eiv _ _ _ _ _ _ _ _ hq
    obtain ⟨-, -, -, e, he, ha⟩ := h2 hi
    dsimp only at h
    rw [ha] at h
    cases h
    exact ⟨e, he, rfl⟩

/-- C108, one phase: the last logged iterate is the estimate -/
theorem C108_single {ext : NumExt} {cf : IdConf} {name : String} {v c : Arr2 ℂ} {vsd isd : SdPolar} {ratings : List ℝ} {y0 : Arr2 ℂ}
    {ye : Option (Arr2 ℂ)} {lap weighted pmu : Bool} {iters : Nat} (hi : 0 < iters) {st : Store} {r : Arr2 ℂ × List IterationStatus}
    (h : (bayesianEiv ext cf name (some v) (some c) vsd isd ratings y0 ye lap weighted iters pmu st).1 = .ok r) :
    ∃ e, r.2.getLast? = some e ∧ r.1 = e.params := by
  rw [bayesianEiv_fst hi] at h
  obtain ⟨pr, -, h⟩ := Prior.bind_ok h
  exact eivCompute_last hi h

theorem assembled_eq {ids : List Int} {m : Fin 3 → Nat} {f : Fin 3 → Nat → Nat} (hp : ∀ l : Fin 3, LabelPos ids (l.val : Int) (m l) (f l))
    {ys zs : Fin 3 → Arr2 ℂ} {y z : Arr2 ℂ} (hy : Assembled ids m f ys y) (hz : Assembled ids m f zs z)
    (sy : ∀ l, IsSquare (m l) (ys l)) (sz : ∀ l, IsSquare (m l) (zs l)) : y = z ↔ ys = zs := by
  constructor
  · rintro rfl
    funext l
    refine Arr2.ext' ((sy l).1.trans (sz l).1.symm) ((sy l).2.trans (sz l).2.symm) fun a b ha hb => ?_
    rw [(sy l).1] at ha
    rw [(sy l).2] at hb
    rw [← hy.block l a b ha hb, ← hz.block l a b ha hb]
  · rintro rfl
    refine Arr2.ext' (hy.square.1.trans hz.square.1.symm) (hy.square.2.trans hz.square.2.symm) fun p q h1 h2 => ?_
    rw [hy.square.1] at h1
    rw [hy.square.2] at h2
    by_cases hpq : ids.getD p 0 = ids.getD q 0
    · by_cases hl : ∃ l : Fin 3, ids.getD p 0 = (l.val : Int)
      · obtain ⟨l, hl⟩ := hl
        obtain ⟨a, ha, rfl⟩ := (hp l).all p h1 hl
        obtain ⟨b, hb, rfl⟩ := (hp l).all q h2 (hpq.symm.trans hl)
        rw [hy.block l a b ha hb, hz.block l a b ha hb]
      · push Not at hl
        rw [hy.other p q h1 h2 hl, hz.other p q h1 h2 hl]
    · rw [hy.cross p q h1 h2 hpq, hz.cross p q h1 h2 hpq]

/-- C108, several phases: the last logged iterate is the estimate exactly when the fit of each sequence had reached its own estimate by
the length of the shortest log; this is so when the three fits took the same number of iterations. -/
theorem C108_partial {ext : NumExt} {cf : IdConf} {name : String} {v c : Arr2 ℂ} {ids : List Int} {vsd isd : SdPolar} {ratings : List ℝ}
    {y0 : Arr2 ℂ} {ye : Option (Arr2 ℂ)} {lap weighted pmu : Bool} {iters : Nat} (hi : 0 < iters) (h0 : 0 ∈ ids)
    (hd : Spec.PhaseData ids v c ratings y0 ye) {m : Fin 3 → Nat} {f : Fin 3 → Nat → Nat}
    (hp : ∀ l : Fin 3, LabelPos ids (l.val : Int) (m l) (f l)) {st : Store} {r : Arr2 ℂ × List IterationStatus}
    (h : (bayesianEiv3 ext cf name v c ids vsd isd ratings y0 ye lap weighted iters pmu st).res = .ok r) :
    ∃ rs : Fin 3 → Arr2 ℂ × List IterationStatus,
      (∀ l st', labelRun ext cf name v c vsd isd ratings y0 ye lap weighted iters pmu (m l) (f l) st' = .ok (rs l)) ∧
      (∃ e, r.2.getLast? = some e ∧
        (e.params = r.1 ↔ ∀ l, ((rs l).2[r.2.length - 1]?).map (fun e => e.params) = some (rs l).1)) ∧
      ((∀ l, (rs l).2.length = (rs 0).2.length) → ∃ e, r.2.getLast? = some e ∧ e.params = r.1) := by
  obtain ⟨rs, hrs, hA, hM⟩ := ((C52_bayesian hi h0 hd hp st r).1).1 h
  have hlast : ∀ l, ∃ e, (rs l).2.getLast? = some e ∧ (rs l).1 = e.params := fun l => by
    have := hrs l st
    unfold labelRun at this
    exact C108_single hi this
  have hsq := fun l => labelRun_square hi (hrs l st)
  have hpos : 0 < r.2.length := by
    obtain ⟨l, hl⟩ := hM.shortest.2
    obtain ⟨e, he, -⟩ := hlast l
    rw [hl]
    exact List.length_pos_iff.2 (by rintro h; rw [h] at he; exact nomatch he)
  have hk : r.2.length - 1 < r.2.length := by omega
  have hg : r.2.getLast? = some r.2[r.2.length - 1] := by
    rw [List.getLast?_eq_getElem?, List.getElem?_eq_getElem hk]
  obtain ⟨es, h1, -, -, hB⟩ := hM.entry (r.2.length - 1) _ (List.getElem?_eq_getElem hk)
  have key : r.2[r.2.length - 1].params = r.1 ↔ ∀ l, ((rs l).2[r.2.length - 1]?).map (fun e => e.params) = some (rs l).1 := by
    rw [assembled_eq hp hB hA (fun l => ((hsq l).2.2 _ (List.mem_of_getElem? (h1 l))).1) (fun l => (hsq l).1), funext_iff]
    refine forall_congr' fun l => ?_
    rw [h1 l]
    simp
  refine ⟨rs, hrs, ⟨_, hg, key⟩, fun he => ⟨_, hg, key.2 fun l => ?_⟩⟩
  have hlen : r.2.length = (rs l).2.length := by
    obtain ⟨l', hl'⟩ := hM.shortest.2
    rw [hl', he l', he l]
  obtain ⟨e, hle, hpe⟩ := hlast l
  rw [hlen, ← List.getLast?_eq_getElem?, hle, hpe]
  rfl

/-- C108: in a complete report the last point of the plotted errors is the stated error of the estimate when the last logged iterate is
the estimate. -/
theorem C108_report (ext : PlotExt) {st : Store} {name : String} {R : Spec.StoredResults} (hst : Spec.Stored st name R) {seq : Bool}
    (h : (plotResults ext ⟨name, seq⟩ st).1 = .ok ()) {b : Arr2 ℂ × List IterationStatus} (hb : R.bayesian = some b)
    (hlast : ∃ e, b.2.getLast? = some e ∧ b.1 = e.params) :
    ∃ m a, .text "sparse_tls_error_metrics.txt" [m] ∈ (plotResults ext ⟨name, seq⟩ st).2 ∧
      .plot "errors" a ∈ (plotResults ext ⟨name, seq⟩ st).2 ∧ a.r = b.2.length ∧ a.get (a.r - 1) 0 = m.rrms := by
  obtain ⟨m, hm, hs⟩ := (C104_stated ext hst h).2 b hb
  obtain ⟨e, he, hbe⟩ := hlast
  refine ⟨m, column (b.2.map (fun i => Spec.froDist R.y i.params / Spec.froSize R.y * 100)), hs (by simp), hs (by simp),
    by simp [column, Arr2.ofFn], ?_⟩
  have hpos : 0 < b.2.length := List.length_pos_iff.2 (by rintro h; rw [h] at he; exact nomatch he)
  have hr : (column (b.2.map (fun i => Spec.froDist R.y i.params / Spec.froSize R.y * 100))).r = b.2.length := by
    simp [column, Arr2.ofFn]
  rw [hr]
  unfold column
  rw [Arr2.ofFn_get _ (by rw [List.length_map]; omega) (by norm_num), List.getD_eq_getElem?_getD, List.getElem?_map,
    ← List.getLast?_eq_getElem?, he, hm.2.2.2, hbe]
  rfl

/-! ### C109: names of the files of a report -/

theorem names_standard {cc : Arr2 ℂ → Except PyErr (Arr2 ℂ)} {st : Store} {name : String} {yb : Arr2 ℂ}
    {s : Option (Arr2 ℂ × Arr2 ℂ × Arr2 ℂ)} (h : (plotStandard cc st name yb).1 = .ok s) :
    ((plotStandard cc st name yb).2).map outputName = if st (resultFile .standard name) = none then [] else
      ["ols_error_metrics.txt", "y_ols", "tls_error_metrics.txt", "y_tls", "lasso_error_metrics.txt", "y_lasso"] := by
  rcases plotStandard_inv h with ⟨h1, -, h2⟩ | ⟨d, o, t, l, mo, mt, ml, h1, -, -, -, -, -, -, -, h2⟩
  · rw [h2, h1]
    rfl
  · rw [h2, h1]
    rfl

theorem names_bayesian {cc : Arr2 ℂ → Except PyErr (Arr2 ℂ)} {st : Store} {name : String} {n : Nat} {lap : Bool} {yb : Arr2 ℂ}
    {s : Option (Arr2 ℂ × Arr2 ℂ × Arr2 ℂ)} (h : (plotBayesian cc st name n lap yb s).1 = .ok ()) :
    ((plotBayesian cc st name n lap yb s).2).map outputName = if st (resultFile .bayesian name) = none then [] else
      ["sparse_tls_error_metrics.txt", "y_sparse_tls_cov", "y_sparse_tls_cov_errors", "errors", "targets", "comparison",
        "sparsity_metrics.txt"] := by
  rcases plotBayesian_inv h with ⟨h1, h2⟩ | ⟨d, _, _, _, _, _, _, _, _, _, _, _, _, _, _, _, _, _, _, h1, -, -, -, -, -, -, -, -, -, -, -, -,
    -, -, -, -, -, -, h2⟩
  · rw [h2, h1]
    rfl
  · rw [h2, h1]
    rfl

theorem names_uncertainty {ext : PlotExt} {st : Store} {name : String} {n : Nat} {yb : Arr2 ℂ}
    {s : Option (Arr2 ℂ × Arr2 ℂ × Arr2 ℂ)} (h : (plotUncertainty ext st name n yb s).1 = .ok ()) :
    ((plotUncertainty ext st name n yb s).2).map outputName = if st (resultFile .uncertainty name) = none then [] else
      ["tls_errors", "tls_cov", "tls_cov_est"] := by
  rcases plotUncertainty_inv h with ⟨h1, h2⟩ | ⟨d, _, _, _, h1, h2⟩
  · rw [h2, h1]
    rfl
  · rw [h2, h1]
    rfl

theorem names_report {ext : PlotExt} {a : PlotArgs} {st : Store} (h : (plotResults ext a st).1 = .ok ()) :
    ((plotResults ext a st).2).map outputName = ["correlations", "y_bus"] ++
      ((if st (resultFile .standard a.network) = none then [] else
        ["ols_error_metrics.txt", "y_ols", "tls_error_metrics.txt", "y_tls", "lasso_error_metrics.txt", "y_lasso"]) ++
      ((if st (resultFile .bayesian a.network) = none then [] else
        ["sparse_tls_error_metrics.txt", "y_sparse_tls_cov", "y_sparse_tls_cov_errors", "errors", "targets", "comparison",
          "sparsity_metrics.txt"]) ++
      (if st (resultFile .uncertainty a.network) = none then [] else ["tls_errors", "tls_cov", "tls_cov_est"]))) := by
  obtain ⟨r, w, v, yb, sd, -, -, -, -, hsd, hbay, hunc, e⟩ := plotResults_inv h
  rw [e, List.map_cons, List.map_cons, List.map_append, List.map_append, names_standard hsd, names_bayesian hbay, names_uncertainty hunc]
  rfl

/-- C109: the reports of two networks with the same kinds of results consist of the same files, whatever their names and options: the
later report replaces every file of the earlier one. -/
theorem C109_violated (ext ext' : PlotExt) {a b : PlotArgs} {st st' : Store} (ha : (plotResults ext a st).1 = .ok ())
    (hb : (plotResults ext' b st').1 = .ok ())
    (hk : ∀ k ∈ [Stage.standard, .bayesian, .uncertainty], st (resultFile k a.network) = none ↔ st' (resultFile k b.network) = none) :
    ((plotResults ext a st).2).map outputName = ((plotResults ext' b st').2).map outputName ∧
      2 ≤ ((plotResults ext a st).2).length := by
  constructor
  · rw [names_report ha, names_report hb]
    simp only [hk .standard (by simp), hk .bayesian (by simp), hk .uncertainty (by simp)]
  · have := congrArg List.length (names_report ha)
    rw [List.length_map, List.length_append] at this
    rw [this]
    exact Nat.le_add_right _ _

/-- C109: a report without results of some kind leaves the files of that kind of an earlier report in place, so that one finds the
estimates of another network there. -/
theorem C109_stale (ext ext' : PlotExt) {a b : PlotArgs} {st st' : Store} (ha : (plotResults ext a st).1 = .ok ())
    (hb : (plotResults ext' b st').1 = .ok ()) (h1 : st (resultFile .bayesian a.network) ≠ none)
    (h2 : st' (resultFile .bayesian b.network) = none) :
    "sparse_tls_error_metrics.txt" ∈ ((plotResults ext a st).2).map outputName ∧
      "sparse_tls_error_metrics.txt" ∉ ((plotResults ext' b st').2).map outputName := by
  rw [names_report ha, names_report hb, if_neg h1, if_pos h2]
  refine ⟨by simp, ?_⟩
  split <;> split <;> decide

theorem complete_three (ext : PlotExt) (name phases : String) (seq : Bool) :
    (plotResults ext ⟨name, seq⟩ (storeOf name (threeNodes phases false))).1 = .ok () := by
  obtain ⟨y, hy⟩ := shown_exists (threeNodes_shapes phases false) seq
  exact (C105_partial ext (storeOf_stored _ _) (by norm_num) (threeNodes_shapes _ _) hy).2
    (Or.inr ⟨fun h => (nomatch h), threeNodes_count _ _, fun h => (nomatch h)⟩)

/-- hypotheses of C109: networks `a` and `b` with all estimates, network `c` without the Bayesian one -/
example (ext : PlotExt) :
    ((plotResults ext ⟨"a", false⟩ (storeOf "a" (threeNodes "1" false))).1 = .ok () ∧
      (plotResults ext ⟨"b", true⟩ (storeOf "b" (threeNodes "012" false))).1 = .ok () ∧
      ∀ k ∈ [Stage.standard, .bayesian, .uncertainty], storeOf "a" (threeNodes "1" false) (resultFile k "a") = none ↔
        storeOf "b" (threeNodes "012" false) (resultFile k "b") = none) ∧
    (plotResults ext ⟨"c", false⟩ (storeOf "c" { threeNodes "1" false with bayesian := none })).1 = .ok () ∧
      storeOf "a" (threeNodes "1" false) (resultFile .bayesian "a") ≠ none ∧
      storeOf "c" { threeNodes "1" false with bayesian := none } (resultFile .bayesian "c") = none := by
  refine ⟨⟨complete_three ext _ _ _, complete_three ext _ _ _, fun k hk => ?_⟩, ?_, ?_, ?_⟩
  · simp only [List.mem_cons, List.not_mem_nil, or_false] at hk
    rcases hk with rfl | rfl | rfl <;> simp [storeOf, resultFile_inj, threeNodes]
  · have hsh : Spec.ResultShapes 3 { threeNodes "1" false with bayesian := none } :=
      ⟨(threeNodes_shapes "1" false).y, (threeNodes_shapes "1" false).standard, fun b h => (nomatch h), (threeNodes_shapes "1" false).labels,
        (threeNodes_shapes "1" false).three⟩
    obtain ⟨y, hy⟩ := shown_exists hsh false
    exact (C105_partial ext (storeOf_stored _ _) (by norm_num) hsh hy).2 (Or.inl rfl)
  · simp [storeOf, resultFile_inj, threeNodes]
  · simp [storeOf, resultFile_inj]

/-! ### C110: colours and labels -/

theorem mapM_range_ok {β : Type} {n : Nat} {f : Nat → Except PyErr β} {g : Nat → β} (h : ∀ i, i < n → f i = .ok (g i)) :
    (List.range n).mapM f = .ok ((List.range n).map g) := by
  have : ∀ l : List Nat, (∀ i ∈ l, f i = .ok (g i)) → l.mapM f = .ok (l.map g) := by
    intro l
    induction l with
    | nil => intro _; rfl
    | cons a l ih =>
      intro hl
      rw [List.mapM_cons, hl a (by simp), ih fun i hi => hl i (by simp [hi])]
      rfl
  exact this _ fun i hi => h i (List.mem_range.1 hi)

theorem mapM_range_error {β : Type} {n : Nat} {f : Nat → Except PyErr β} {e : PyErr} (hn : 0 < n) (h : f 0 = .error e) :
    (List.range n).mapM f = .error e := by
  obtain ⟨k, rfl⟩ : ∃ k, n = k + 1 := ⟨n - 1, by omega⟩
  rw [List.range_succ_eq_map, List.mapM_cons, h]
  rfl

/-- C110: the colours of `n` series: those of the map, those of the list when it is long enough, its first one for every series when it
is not, and the colour itself otherwise; only an empty list fails. -/
theorem C110_colors (maps : List String) (sample : String → Nat → Nat → String) (n : Nat) :
    (∀ s, ∃ l, mapColorColormap maps sample (.name s) n = .ok l ∧ l.length = n ∧
      ∀ i, i < n → l[i]? = some (if s ∈ maps then sample s n i else s)) ∧
    (∀ c, (0 < c.length ∨ n = 0) → ∃ l, mapColorColormap maps sample (.list c) n = .ok l ∧ l.length = n ∧
      ∀ i, i < n → l[i]? = if n ≤ c.length then c[i]? else c[0]?) ∧
    (0 < n → mapColorColormap maps sample (.list []) n = .error .indexError) := by
  refine ⟨fun s => ?_, fun c hc => ?_, fun hn => ?_⟩
  · unfold mapColorColormap
    dsimp only
    by_cases h : s ∈ maps
    · rw [if_pos h]
      exact ⟨_, rfl, by simp, fun i hi => by simp [h, hi]⟩
    · rw [if_neg h]
      exact ⟨_, rfl, by simp, fun i hi => by simp [h, hi]⟩
  · unfold mapColorColormap
    dsimp only
    by_cases h : n ≤ c.length
    · rw [if_pos h, mapM_range_ok (g := fun i => c.getD i "") fun i hi => by
        rw [List.getElem?_eq_getElem (by omega), List.getD_eq_getElem?_getD, List.getElem?_eq_getElem (by omega)]; rfl]
      exact ⟨_, rfl, by simp, fun i hi => by simp [h, hi, show i < c.length by omega]⟩
    · rw [if_neg h, mapM_range_ok (g := fun _ => c.getD 0 "") fun i hi => by
        rw [List.getElem?_eq_getElem (by omega), List.getD_eq_getElem?_getD, List.getElem?_eq_getElem (by omega)]; rfl]
      exact ⟨_, rfl, by simp, fun i hi => by simp [h, hi, show 0 < c.length by omega]⟩
  · unfold mapColorColormap
    dsimp only
    rw [if_neg (by simp; omega)]
    exact mapM_range_error hn rfl

/-- C110: `plot_scatter` draws one series per column, in the colour of its index, with its label when there are as many labels as columns
and without labels otherwise. -/
theorem C110_scatter (maps : List String) (sample : String → Nat → Nat → String) (c : ColorArg) (labels : Option (List String)) (m : Arr2 ℝ)
    {colors : List String} (h : mapColorColormap maps sample c m.c = .ok colors) (hl : colors.length = m.c) :
    ∃ s, plotScatter maps sample c labels m = .ok s ∧ s.length = m.c ∧ ∀ i, i < m.c → ∃ x, s[i]? = some x ∧ colors[i]? = some x.1 ∧
      (∀ ls, labels = some ls → ls.length = m.c → ls[i]? = x.2) ∧ ((∀ ls, labels = some ls → ls.length ≠ m.c) → x.2 = none) := by
  unfold plotScatter scatterSeries
  rw [h]
  dsimp only [bind, Except.bind]
  cases labels with
  | none =>
    rw [mapM_range_ok (g := fun i => (colors.getD i "", none)) fun i hi => by
      rw [List.getElem?_eq_getElem (by omega), List.getD_eq_getElem?_getD, List.getElem?_eq_getElem (by omega)]; rfl]
    refine ⟨_, rfl, by simp, fun i hi => ⟨(colors.getD i "", none), by simp [hi], ?_, fun ls hls => (nomatch hls), fun _ => rfl⟩⟩
    rw [List.getD_eq_getElem?_getD, List.getElem?_eq_getElem (by omega)]
    rfl
  | some ls =>
    dsimp only
    by_cases hc : ls.length = m.c
    · rw [mapM_range_ok (g := fun i => (colors.getD i "", some (ls.getD i ""))) fun i hi => by
        rw [List.getElem?_eq_getElem (by omega), List.getD_eq_getElem?_getD, List.getElem?_eq_getElem (by omega)]
        dsimp only
        rw [if_neg (not_not.2 hc), List.getElem?_eq_getElem (by omega), List.getD_eq_getElem?_getD, List.getElem?_eq_getElem (by omega)]
        rfl]
      refine ⟨_, rfl, by simp, fun i hi => ⟨(colors.getD i "", some (ls.getD i "")), by simp [hi], ?_, fun ls' hls _ => ?_,
        fun h => absurd hc (h ls rfl)⟩⟩
      · rw [List.getD_eq_getElem?_getD, List.getElem?_eq_getElem (by omega)]
        rfl
      · cases hls
        show ls[i]? = some (ls.getD i "")
        rw [List.getD_eq_getElem?_getD, List.getElem?_eq_getElem (by omega)]
        rfl
    · rw [mapM_range_ok (g := fun i => (colors.getD i "", none)) fun i hi => by
        have hci : colors[i]? = some (colors[i]'(by omega)) := List.getElem?_eq_getElem (by omega)
        rw [List.getD_eq_getElem?_getD, hci]
        dsimp only
        rw [if_pos hc]
        rfl]
      refine ⟨_, rfl, by simp, fun i hi => ⟨(colors.getD i "", none), by simp [hi], ?_, fun ls' hls hl => ?_, fun _ => rfl⟩⟩
      · rw [List.getD_eq_getElem?_getD, List.getElem?_eq_getElem (by omega)]
        rfl
      · cases hls
        exact absurd hl hc

/-- C110: `plot_series` never draws labels: with one label per column it raises `AttributeError`. -/
theorem C110_violated (maps : List String) (sample : String → Nat → Nat → String) (c : ColorArg) (ls : List String) (m : Arr2 ℝ)
    {colors : List String} (h : mapColorColormap maps sample c m.c = .ok colors) (hm : 0 < m.c) (hl : ls.length = m.c) :
    plotSeries maps sample c (some ls) m = .error .attributeError := by
  unfold plotSeries lineSeries
  rw [h]
  refine mapM_range_error hm ?_
  dsimp only
  rw [if_neg (not_not.2 hl)]

/-- C110: without labels, or with a number of labels that does not match, `plot_series` draws one line per column -/
theorem C110_series (maps : List String) (sample : String → Nat → Nat → String) (c : ColorArg) (labels : Option (List String)) (m : Arr2 ℝ)
    {colors : List String} (h : mapColorColormap maps sample c m.c = .ok colors) (hl : colors.length = m.c)
    (hn : ∀ ls, labels = some ls → ls.length ≠ m.c) :
    plotSeries maps sample c labels m = .ok (colors.map (fun x => (x, none))) := by
  have key : (colors.map (fun x => (x, none)) : List Series) = (List.range m.c).map (fun i => (colors.getD i "", none)) := by
    refine List.ext_getElem (by simp [hl]) fun i h1 h2 => ?_
    rw [List.length_map] at h1
    simp [h1]
  unfold plotSeries lineSeries
  rw [h, key]
  refine mapM_range_ok fun i hi => ?_
  cases labels with
  | none =>
    dsimp only
    rw [List.getElem?_eq_getElem (by omega), List.getD_eq_getElem?_getD, List.getElem?_eq_getElem (by omega)]
    rfl
  | some ls =>
    dsimp only
    rw [if_pos (hn ls rfl), List.getElem?_eq_getElem (by omega), List.getD_eq_getElem?_getD, List.getElem?_eq_getElem (by omega)]
    rfl

/-- hypotheses of C110: the five columns of the comparison with their labels, and two lines with labels -/
example : mapColorColormap ["hsv"] (fun s _ _ => s) (.list ["navy", "royalblue", "forestgreen", "peru", "darkred"]) (Arr2.zeros (α := ℝ) 7 5).c =
      .ok ["navy", "royalblue", "forestgreen", "peru", "darkred"] ∧
    mapColorColormap ["hsv"] (fun s _ _ => s) (.name "blue2") (Arr2.zeros (α := ℝ) 7 2).c = .ok ["blue2", "blue2"] ∧
    (["a", "b"] : List String).length = (Arr2.zeros (α := ℝ) 7 2).c := by
  refine ⟨?_, ?_, rfl⟩
  · rfl
  · show mapColorColormap ["hsv"] (fun s _ _ => s) (.name "blue2") 2 = _
    unfold mapColorColormap
    dsimp only
    rw [if_neg (by decide)]
    rfl

end
end Verif
