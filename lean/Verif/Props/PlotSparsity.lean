/-
C104, C106: what the report of plot_results.py states.
-/
import Verif.Props.PlotReport

namespace Verif
open Finset
noncomputable section

/-- pairs of nodes in the order of the lower triangle -/
def lowerPairs (n : Nat) : List (Nat × Nat) :=
  (List.range n).flatMap (fun j => (List.range (n - 1 - j)).map (fun t => (j + 1 + t, j)))

theorem mem_lowerPairs {n : Nat} {p : Nat × Nat} : p ∈ lowerPairs n ↔ p.2 < p.1 ∧ p.1 < n := by
  unfold lowerPairs
  simp only [List.mem_flatMap, List.mem_range, List.mem_map]
  constructor
  · rintro ⟨j, hj, t, ht, rfl⟩
    exact ⟨by show j < j + 1 + t; omega, by show j + 1 + t < n; omega⟩
  · rintro ⟨h1, h2⟩
    refine ⟨p.2, by omega, p.1 - p.2 - 1, by omega, ?_⟩
    apply Prod.ext
    · show p.2 + 1 + (p.1 - p.2 - 1) = p.1
      omega
    · rfl

theorem vel_map [Zero α] (n : Nat) (M : Arr2 α) : Spec.vel n M = (lowerPairs n).map (fun p => M.get p.1 p.2) := by
  unfold Spec.vel lowerPairs
  rw [List.map_flatMap]
  simp only [List.map_map]
  rfl

theorem sum_lowerPairs (n : Nat) (F : Nat → Nat → ℝ) :
    ((lowerPairs n).map (fun p => F p.1 p.2)).sum = ∑ i ∈ range n, ∑ j ∈ range i, F i j := by
  have h1 : ((lowerPairs n).map (fun p => F p.1 p.2)).sum = ∑ j ∈ range n, ∑ t ∈ range (n - 1 - j), F (j + 1 + t) j := by
    unfold lowerPairs
    rw [List.map_flatMap, sum_flatMap, sum_map_list_range]
    refine Finset.sum_congr rfl fun j _ => ?_
    rw [List.map_map]
    exact sum_map_list_range _ _
  rw [h1]
  have h2 : ∀ j ∈ range n, ∑ t ∈ range (n - 1 - j), F (j + 1 + t) j = ∑ i ∈ Finset.Ico (j + 1) n, F i j := by
    intro j _
    rw [Finset.sum_Ico_eq_sum_range]
    congr 2
    omega
  rw [Finset.sum_congr rfl h2]
  refine Finset.sum_comm' ?_
  intro a b
  simp only [Finset.mem_range, Finset.mem_Ico]
  omega

theorem masked_map {ι : Type} (l : List ι) (f g : ι → ℂ) (keep : Bool) :
    masked (l.map f) keep (l.map g) = ((open scoped Classical in l.filter (fun p => decide (0 < ‖f p‖) == keep))).map g := by
  unfold masked
  rw [List.zip_map', List.filter_map, List.map_map]
  rfl

theorem normFro_oneRow (a : List ℂ) : normFro (oneRow a) = Real.sqrt ((a.map (fun z => ‖z‖ ^ 2)).sum) := by
  unfold normFro
  congr 1
  have h1 : (oneRow a).r = 1 := rfl
  have h2 : (oneRow a).c = a.length := rfl
  rw [h1, h2, Finset.sum_range_one]
  have h3 : a.map (fun z => ‖z‖ ^ 2) = (List.range a.length).map (fun j => ‖a.getD j 0‖ ^ 2) := by
    apply List.ext_getElem
    · simp
    · intro k h1 h2
      have hk : k < a.length := by simpa using h1
      simp [List.getD_eq_getElem?_getD, hk]
  rw [h3, sum_map_list_range]
  refine Finset.sum_congr rfl fun j hj => ?_
  unfold oneRow
  rw [Arr2.ofFn_get _ Nat.one_pos (Finset.mem_range.1 hj)]

theorem oneRow_zero {b : List ℂ} (h : ∀ z ∈ b, z = 0) : oneRow b = Arr2.zeros 1 b.length := by
  refine Arr2.ext' (A := oneRow b) (B := Arr2.zeros 1 b.length) rfl rfl fun i j hi hj => ?_
  have hj' : j < b.length := hj
  have hi' : i < 1 := hi
  unfold oneRow Arr2.zeros
  rw [Arr2.ofFn_get _ hi' hj', Arr2.ofFn_get _ hi' hj']
  apply h
  rw [List.getD_eq_getElem?_getD, List.getElem?_eq_getElem hj']
  exact List.getElem_mem _

/-- metrics of a list against zeros -/
theorem metrics_zero {a b : List ℂ} (hl : a.length = b.length) (hb : ∀ z ∈ b, z = 0) (h0 : 0 < a.length) {m : ErrorMetrics}
    (hm : errorMetrics (oneRow a) (oneRow b) = .ok m) :
    m.fro = Real.sqrt ((a.map (fun z => ‖z‖ ^ 2)).sum) ∧ (∃ z ∈ a, m.max = ‖z‖) ∧ (∀ z ∈ a, ‖z‖ ≤ m.max) ∧
      ((∃ z ∈ a, z ≠ 0) → m.rrms = 100 ∧ m.map = 100) := by
  rw [oneRow_zero hb, ← hl] at hm
  have hd : ∀ i j, i < 1 → j < a.length → (oneRow a).get i j - (Arr2.zeros 1 a.length : Arr2 ℂ).get i j = a.getD j 0 := by
    intro i j hi hj
    unfold oneRow Arr2.zeros
    rw [Arr2.ofFn_get _ hi hj, Arr2.ofFn_get _ hi hj, sub_zero]
  have hmem : ∀ j, j < a.length → a.getD j 0 ∈ a := by
    intro j hj
    rw [List.getD_eq_getElem?_getD, List.getElem?_eq_getElem hj]
    exact List.getElem_mem _
  obtain ⟨m', hm', hf, hx, hr, hp⟩ := C22_bundle (oneRow a) (Arr2.zeros 1 a.length) rfl rfl Nat.one_pos h0
  rw [hm] at hm'
  cases hm'
  have hdiff : normFro (diff (oneRow a) (Arr2.zeros 1 a.length)) = normFro (oneRow a) := by
    have : diff (oneRow a) (Arr2.zeros 1 a.length) = oneRow a := by
      refine Arr2.ext' (A := diff (oneRow a) (Arr2.zeros 1 a.length)) (B := oneRow a) rfl rfl fun i j hi hj => ?_
      have hi' : i < 1 := hi
      have hj' : j < a.length := hj
      have e : (diff (oneRow a) (Arr2.zeros 1 a.length)).get i j = _ := Arr2.ofFn_get _ hi' hj'
      rw [e, hd i j hi' hj']
      unfold oneRow
      rw [Arr2.ofFn_get _ hi' hj']
    rw [this]
  refine ⟨?_, ?_, ?_, ?_⟩
  · rw [froError_eq (y := oneRow a) (z := Arr2.zeros 1 a.length) rfl rfl, hdiff, normFro_oneRow] at hf
    exact (Except.ok.inj hf).symm
  · obtain ⟨x, hx', ⟨i, j, hi, hj, e⟩, -⟩ := maxError_spec (y := oneRow a) (z := Arr2.zeros 1 a.length) rfl rfl Nat.one_pos h0
    rw [hx] at hx'
    cases hx'
    exact ⟨_, hmem j hj, by rw [e, hd i j hi hj]⟩
  · obtain ⟨x, hx', -, e⟩ := maxError_spec (y := oneRow a) (z := Arr2.zeros 1 a.length) rfl rfl Nat.one_pos h0
    rw [hx] at hx'
    cases hx'
    intro z hz
    obtain ⟨j, hj, rfl⟩ := List.getElem_of_mem hz
    have := e 0 j Nat.one_pos hj
    rw [hd 0 j Nat.one_pos hj, List.getD_eq_getElem _ _ hj] at this
    exact this
  · rintro ⟨z, hz, hne⟩
    obtain ⟨j, hj, rfl⟩ := List.getElem_of_mem hz
    have hex : ∃ i j, (oneRow a).get i j ≠ 0 := by
      refine ⟨0, j, ?_⟩
      unfold oneRow
      rw [Arr2.ofFn_get _ Nat.one_pos hj, List.getD_eq_getElem _ _ hj]
      exact hne
    constructor
    · have := C22_rrms_zero (oneRow a) hex
      rw [show (oneRow a).r = 1 from rfl, show (oneRow a).c = a.length from rfl, hr] at this
      exact Except.ok.inj this
    · rw [mapError_eq (y := oneRow a) (z := Arr2.zeros 1 a.length) rfl rfl] at hp
      have e : ∑ i ∈ range (oneRow a).r, ∑ j ∈ range (oneRow a).c, (if (oneRow a).get i j ≠ 0 then
          ‖(oneRow a).get i j - (Arr2.zeros 1 a.length : Arr2 ℂ).get i j‖ ^ 2 else 0) =
          ∑ i ∈ range (oneRow a).r, ∑ j ∈ range (oneRow a).c, ‖(oneRow a).get i j‖ ^ 2 := by
        refine Finset.sum_congr rfl fun i hi => Finset.sum_congr rfl fun j hj => ?_
        have hi : i < 1 := Finset.mem_range.1 hi
        have hj : j < a.length := Finset.mem_range.1 hj
        have : (Arr2.zeros 1 a.length : Arr2 ℂ).get i j = 0 := by unfold Arr2.zeros; rw [Arr2.ofFn_get _ hi hj]
        rw [this, sub_zero]
        split
        · rfl
        · rename_i h
          rw [not_not.1 h]
          simp
      rw [e] at hp
      have := Except.ok.inj hp
      rw [← this]
      change normFro (oneRow a) / normFro (oneRow a) * 100 = 100
      rw [div_self (normFro_pos hex).ne', one_mul]

/-- one entry of the sparsity metrics of a Laplacian -/
theorem sparsity_spurious {n : Nat} {y z : Arr2 ℂ} {m : ErrorMetrics}
    (h : sparsityMetrics (Spec.compared true n (offArr n y)) (Spec.compared true n z) (Spec.compared true n y) = .ok m) :
    Spec.Spurious n y z m := by
  classical
  have hmask : ∀ M, Spec.compared true n M = (lowerPairs n).map (fun p => -(Spec.symHalf n M).get p.1 p.2) := by
    intro M
    unfold Spec.compared
    rw [if_pos rfl, vel_map, List.map_map]
    rfl
  let L := (lowerPairs n).filter (fun p => decide (y.get p.1 p.2 = 0 ∧ y.get p.2 p.1 = 0))
  have hL : ∀ M, (masked (Spec.compared true n (offArr n y)) false (Spec.compared true n M)).map (fun x => 2 * x) =
      L.map (fun p => -(M.get p.1 p.2 + M.get p.2 p.1)) := by
    intro M
    rw [hmask, hmask, masked_map, List.map_map]
    have e : (lowerPairs n).filter (fun p => decide (0 < ‖-(Spec.symHalf n (offArr n y)).get p.1 p.2‖) == false) = L := by
      refine List.filter_congr fun p hp => ?_
      obtain ⟨h1, h2⟩ := mem_lowerPairs.1 hp
      have hz := symOff_zero (n := n) (y := y) h2 (show p.2 < n by omega) (show p.1 ≠ p.2 by omega)
      have hd : decide (y.get p.1 p.2 = 0 ∧ y.get p.2 p.1 = 0) = decide ((Spec.symHalf n (offArr n y)).get p.1 p.2 = 0) :=
        decide_eq_decide.2 hz.symm
      rw [hd]
      by_cases h : (Spec.symHalf n (offArr n y)).get p.1 p.2 = 0 <;> simp [h]
    have e' := e
    convert congrArg (List.map ((fun x => 2 * x) ∘ fun p => -(Spec.symHalf n M).get p.1 p.2)) e' using 1
    refine List.map_congr_left fun p hp => ?_
    obtain ⟨h1, h2⟩ := mem_lowerPairs.1 (List.mem_filter.1 hp).1
    simp only [Function.comp]
    unfold Spec.symHalf
    rw [Arr2.ofFn_get _ h2 (by omega)]
    ring
  unfold sparsityMetrics at h
  rw [hL, hL] at h
  have hmemL : ∀ i j, (i, j) ∈ L ↔ j < i ∧ i < n ∧ y.get i j = 0 ∧ y.get j i = 0 := by
    intro i j
    simp only [L, List.mem_filter, mem_lowerPairs, decide_eq_true_eq]
    tauto
  have hz0 : ∀ x ∈ L.map (fun p => -(y.get p.1 p.2 + y.get p.2 p.1)), x = 0 := by
    intro x hx
    obtain ⟨p, hp, rfl⟩ := List.mem_map.1 hx
    obtain ⟨-, -, h3, h4⟩ := (hmemL p.1 p.2).1 hp
    rw [h3, h4]
    simp
  have hlen : (L.map (fun p => -(z.get p.1 p.2 + z.get p.2 p.1))).length = (L.map (fun p => -(y.get p.1 p.2 + y.get p.2 p.1))).length := by
    rw [List.length_map, List.length_map]
  have hpos : 0 < (L.map (fun p => -(z.get p.1 p.2 + z.get p.2 p.1))).length := by
    by_contra hn
    have := (rowMetrics_iff hlen).2 (by omega)
    rw [this] at h
    exact nomatch h
  obtain ⟨hf, ⟨x, hx, hxe⟩, hb, hp⟩ := metrics_zero hlen hz0 hpos h
  refine ⟨?_, ?_, ?_, ?_, ?_⟩
  · rw [hf, Real.sq_sqrt (List.sum_nonneg (by
      intro x hx
      obtain ⟨w, -, rfl⟩ := List.mem_map.1 hx
      positivity)), List.map_map]
    rw [← sum_lowerPairs n (fun i j => if y.get i j = 0 ∧ y.get j i = 0 then ‖z.get i j + z.get j i‖ ^ 2 else 0)]
    have : ∀ l : List (Nat × Nat), ((l.filter (fun p => decide (y.get p.1 p.2 = 0 ∧ y.get p.2 p.1 = 0))).map
        ((fun w => ‖w‖ ^ 2) ∘ fun p : Nat × Nat => -(z.get p.1 p.2 + z.get p.2 p.1))).sum =
        (l.map (fun p => if y.get p.1 p.2 = 0 ∧ y.get p.2 p.1 = 0 then ‖z.get p.1 p.2 + z.get p.2 p.1‖ ^ 2 else 0)).sum := by
      intro l
      induction l with
      | nil => rfl
      | cons p l ih =>
        rw [List.filter_cons, List.map_cons, List.sum_cons]
        by_cases hp : y.get p.1 p.2 = 0 ∧ y.get p.2 p.1 = 0
        · rw [if_pos (by simpa using hp), if_pos hp, List.map_cons, List.sum_cons, ih]
          simp only [Function.comp, norm_neg]
        · rw [if_neg (by simpa using hp), if_neg hp, ih, zero_add]
    exact this (lowerPairs n)
  · rw [hf]; exact Real.sqrt_nonneg _
  · obtain ⟨p, hpL, rfl⟩ := List.mem_map.1 hx
    obtain ⟨h1, h2, h3, h4⟩ := (hmemL p.1 p.2).1 hpL
    exact ⟨p.1, p.2, h1, h2, h3, h4, by rw [hxe, norm_neg]⟩
  · intro i j h1 h2 h3 h4
    have := hb _ (List.mem_map.2 ⟨(i, j), (hmemL i j).2 ⟨h1, h2, h3, h4⟩, rfl⟩)
    rwa [norm_neg] at this
  · rintro ⟨i, j, h1, h2, h3, h4, h5⟩
    exact hp ⟨_, List.mem_map.2 ⟨(i, j), (hmemL i j).2 ⟨h1, h2, h3, h4⟩, rfl⟩, neg_ne_zero.2 h5⟩

/-- C106: the sparsity metrics of a complete report in Laplacian mode measure the admittances estimated between unconnected nodes; their
percentages are always 100 when there are any. -/
theorem C106 (ext : PlotExt) {st : Store} {name : String} {R : Spec.StoredResults} (hst : Spec.Stored st name R) {n : Nat} (hn : 0 < n)
    (hsh : Spec.ResultShapes n R) {seq : Bool} (hsame : ¬(R.phases = "012" ∧ seq = false) ∧ ¬(R.phases = "123" ∧ seq = true))
    (hl : R.laplacian = true) {s : Arr2 ℂ × Arr2 ℂ × Arr2 ℂ} (hs : R.standard = some s) {b : Arr2 ℂ × List IterationStatus}
    (hb : R.bayesian = some b) (h : (plotResults ext ⟨name, seq⟩ st).1 = .ok ()) :
    ∃ m1 m2 m3 m4, .text "sparsity_metrics.txt" [m1, m2, m3, m4] ∈ (plotResults ext ⟨name, seq⟩ st).2 ∧
      Spec.Spurious n R.y s.1 m1 ∧ Spec.Spurious n R.y s.2.1 m2 ∧ Spec.Spurious n R.y s.2.2 m3 ∧ Spec.Spurious n R.y b.1 m4 := by
  have hy : Spec.Shown R seq R.y := Or.inr (Or.inr ⟨hsame.1, hsame.2, rfl⟩)
  have hid : ∀ z, correctComponent R.phases seq z = .ok z := fun z => by
    unfold correctComponent
    rw [if_neg hsame.1, if_neg hsame.2]
    split <;> rfl
  have hcount : Spec.NodeCount R n := by
    rcases (C105_partial ext hst hn hsh hy).1 h with h' | ⟨-, h', -⟩
    · rw [hb] at h'
      exact nomatch h'
    · exact h'
  obtain ⟨r, w, v, yb, sd, hr, hw, hv, hyb, hsd, hbay, -, e⟩ := plotResults_inv h
  dsimp only at hr hw hv hyb hsd hbay e
  have hr' : referenceLoad st name = .ok (R.y, R.phases, R.laplacian) := by
    obtain ⟨d, hd, h1, h2, h3⟩ := hst.reference
    unfold referenceLoad Store.load Npz.mat Npz.str Npz.bool
    simp only [hd, h1, h2, h3, bind, Except.bind, pure, Except.pure]
  have hw' : plotDataLoad st name = .ok (R.voltage, R.labels) := by
    obtain ⟨d, hd, h1, h2⟩ := hst.network
    unfold plotDataLoad Store.load Npz.mat Npz.ints
    simp only [hd, h1, h2, bind, Except.bind, pure, Except.pure]
  rw [hr'] at hr
  rw [hw'] at hw
  cases hr
  cases hw
  dsimp only at hv hyb hsd hbay e
  obtain ⟨v', hv', hvc⟩ := plotVoltage_ok hsh seq
  rw [hv'] at hv
  cases hv
  rw [hid] at hyb
  cases hyb
  have hvn := hvc.2 hcount
  rw [hvn] at hbay e
  obtain ⟨d1, e1, a1, a2, a3⟩ := hst.standard s hs
  obtain ⟨d2, e2, b1, b2⟩ := hst.bayesian b hb
  rcases plotStandard_inv hsd with ⟨h0, -⟩ | ⟨d, o, t, l, mo, mt, ml, hd, ho, ht, hl', -, -, -, hsd', -⟩
  · rw [e1] at h0
    exact nomatch h0
  rw [e1] at hd
  cases hd
  rw [Npz.mat_of a1] at ho
  rw [Npz.mat_of a2] at ht
  rw [Npz.mat_of a3] at hl'
  have ho := (hid s.1).symm.trans ho
  have ht := (hid s.2.1).symm.trans ht
  have hl' := (hid s.2.2).symm.trans hl'
  cases ho
  cases ht
  cases hl'
  subst hsd'
  rcases plotBayesian_inv hbay with ⟨h0, -⟩ | ⟨d, y, its, er, m, df, E, off, mask, s', co, ct, cl, cy, cb, mo, mt, ml, my, hd, hy', -, -,
    -, -, hE, hoff, hmask, hs', hco, hct, hcl, hcy, hcb, hmo, hmt, hml, hmy, eb⟩
  · rw [e2] at h0
    exact nomatch h0
  rw [e2] at hd
  cases hd
  rw [Npz.mat_of b1] at hy'
  have hy' := (hid b.1).symm.trans hy'
  cases hy'
  cases hs'
  obtain ⟨E', hE', -, em⟩ := comparison_ok R.laplacian n
  rw [hE'] at hE
  cases hE
  rw [offDiagonal_ok hsh.y] at hoff
  cases hoff
  obtain ⟨q1, q2, q3⟩ := hsh.standard s hs
  obtain ⟨q4, -⟩ := hsh.bayesian b hb
  rw [em _ ⟨rfl, rfl⟩] at hmask
  rw [em _ q1] at hco
  rw [em _ q2] at hct
  rw [em _ q3] at hcl
  rw [em _ q4] at hcy
  rw [em _ hsh.y] at hcb
  cases hmask
  cases hco
  cases hct
  cases hcl
  cases hcy
  cases hcb
  rw [hl] at hmo hmt hml hmy
  refine ⟨mo, mt, ml, my, ?_, sparsity_spurious hmo, sparsity_spurious hmt, sparsity_spurious hml, sparsity_spurious hmy⟩
  rw [e, eb]
  simp

/-! ### C104: the stated errors are those of the stored estimates -/

theorem states_of {f : Arr2 ℂ → Except PyErr (Arr2 ℂ)} (hf : KeepsNorm f) {y z y1 z1 : Arr2 ℂ} (h1 : f y = .ok y1) (h2 : f z = .ok z1)
    {m : ErrorMetrics} (h : errorMetrics y1 z1 = .ok m) : Spec.States y z m := by
  obtain ⟨a1, a2, a3, a4⟩ := errorMetrics_inv h
  have s1 := hf.shape h1
  have s2 := hf.shape h2
  have hr : y.r = z.r := by omega
  have hc : y.c = z.c := by omega
  rw [hf.dist h1 h2 hr hc, normFro_diff] at a3 a4
  rw [hf.norm h1] at a4
  exact ⟨hr, hc, a3, a4⟩

theorem series_of {f : Arr2 ℂ → Except PyErr (Arr2 ℂ)} (hf : KeepsNorm f) {y y1 : Arr2 ℂ} (h1 : f y = .ok y1) {its : List IterationStatus}
    {e : List ℝ} (k : its.mapM (fun i => f i.params >>= rrmsError y1) = .ok e) :
    e = its.map (fun i => Spec.froDist y i.params / Spec.froSize y * 100) := by
  induction its generalizing e with
  | nil =>
    rw [List.mapM_nil] at k
    cases k
    rfl
  | cons i its ih =>
    rw [List.mapM_cons] at k
    obtain ⟨x, hx, k⟩ := Prior.bind_ok k
    obtain ⟨l, hl, k⟩ := Prior.bind_ok k
    cases k
    rw [ih hl, List.map_cons]
    obtain ⟨z1, hz1, hx⟩ := Prior.bind_ok hx
    obtain ⟨a1, a2, a3⟩ := rrmsError_inv hx
    have s1 := hf.shape h1
    have s2 := hf.shape hz1
    have hr : y.r = i.params.r := by omega
    have hc : y.c = i.params.c := by omega
    rw [a3, hf.dist h1 hz1 hr hc, normFro_diff, hf.norm h1]
    rfl

/-- C104: a complete report, with or without `--sequence`, states for each estimate the Frobenius error and its percentage of the stored
matrices, and plots these percentages and the values of the objective for the logged iterations. -/
theorem C104_stated (ext : PlotExt) {st : Store} {name : String} {R : Spec.StoredResults} (hst : Spec.Stored st name R) {seq : Bool}
    (h : (plotResults ext ⟨name, seq⟩ st).1 = .ok ()) :
    (∀ s, R.standard = some s → ∃ m1 m2 m3, Spec.States R.y s.1 m1 ∧ Spec.States R.y s.2.1 m2 ∧ Spec.States R.y s.2.2 m3 ∧
      [.text "ols_error_metrics.txt" [m1], .text "tls_error_metrics.txt" [m2], .text "lasso_error_metrics.txt" [m3]] ⊆
        (plotResults ext ⟨name, seq⟩ st).2) ∧
    ∀ b, R.bayesian = some b → ∃ m, Spec.States R.y b.1 m ∧
      [.text "sparse_tls_error_metrics.txt" [m],
        .plot "errors" (column (b.2.map (fun i => Spec.froDist R.y i.params / Spec.froSize R.y * 100))),
        .plot "targets" (column ((b.2.map (fun i => i.target)).drop 1))] ⊆ (plotResults ext ⟨name, seq⟩ st).2 := by
  obtain ⟨r, w, v, yb, sd, hr, hw, hv, hyb, hsd, hbay, -, e⟩ := plotResults_inv h
  dsimp only at hr hw hv hyb hsd hbay e
  have hr' : referenceLoad st name = .ok (R.y, R.phases, R.laplacian) := by
    obtain ⟨d, hd, h1, h2, h3⟩ := hst.reference
    unfold referenceLoad Store.load Npz.mat Npz.str Npz.bool
    simp only [hd, h1, h2, h3, bind, Except.bind, pure, Except.pure]
  rw [hr'] at hr
  cases hr
  dsimp only at hv hyb hsd hbay e
  have kn := keepsNorm_correct R.phases seq
  constructor
  · intro s hs
    obtain ⟨d1, e1, a1, a2, a3⟩ := hst.standard s hs
    rcases plotStandard_inv hsd with ⟨h0, -⟩ | ⟨d, o, t, l, mo, mt, ml, hd, ho, ht, hl', hmo, hmt, hml, -, es⟩
    · rw [e1] at h0
      exact nomatch h0
    rw [e1] at hd
    cases hd
    rw [Npz.mat_of a1] at ho
    rw [Npz.mat_of a2] at ht
    rw [Npz.mat_of a3] at hl'
    refine ⟨mo, mt, ml, states_of kn hyb ho hmo, states_of kn hyb ht hmt, states_of kn hyb hl' hml, ?_⟩
    rw [e, es]
    intro x hx
    simp only [List.mem_cons, List.not_mem_nil, or_false] at hx
    rcases hx with rfl | rfl | rfl <;> simp
  · intro b hb
    obtain ⟨d2, e2, b1, b2⟩ := hst.bayesian b hb
    rcases plotBayesian_inv hbay with ⟨h0, -⟩ | ⟨d, y, its, er, m, df, E, off, mask, s', co, ct, cl, cy, cb, mo, mt, ml, my, hd, hy', hi,
      her, hm, -, -, -, -, -, -, -, -, -, -, -, -, -, -, eb⟩
    · rw [e2] at h0
      exact nomatch h0
    rw [e2] at hd
    cases hd
    rw [Npz.mat_of b1] at hy'
    have hi' : d2.log "i" = .ok b.2 := by unfold Npz.log; rw [b2]
    rw [hi'] at hi
    cases hi
    refine ⟨m, states_of kn hyb hy' hm, ?_⟩
    rw [e, eb, series_of kn hyb her]
    intro x hx
    simp only [List.mem_cons, List.not_mem_nil, or_false] at hx
    rcases hx with rfl | rfl | rfl <;> simp

/-! ### instances -/

/-- results for three nodes in a row; two of the estimates see a line that does not exist -/
def threeNodes (phases : String) (lap : Bool) : Spec.StoredResults :=
  ⟨Arr2.ofFn 3 3 (fun i j => if i = j then 1 else if i + j = 2 then 0 else -1), phases, lap, Arr2.zeros 4 3, [1, 1, 1],
    some (Arr2.ofFn 3 3 (fun _ _ => 1), Arr2.ofFn 3 3 (fun _ _ => 5), Arr2.eye 3), some (Arr2.eye 3, [⟨0, Arr2.eye 3, 0⟩])⟩

theorem threeNodes_shapes (phases : String) (lap : Bool) : Spec.ResultShapes 3 (threeNodes phases lap) where
  y := ⟨rfl, rfl⟩
  standard s h := by cases h; exact ⟨⟨rfl, rfl⟩, ⟨rfl, rfl⟩, ⟨rfl, rfl⟩⟩
  bayesian b h := by
    cases h
    refine ⟨⟨rfl, rfl⟩, fun i hi => ?_⟩
    rw [List.mem_singleton] at hi
    subst hi
    exact ⟨rfl, rfl⟩
  labels := rfl
  three _ := (by show 3 % 3 = 0 ∧ 3 % 3 = 0; decide)

theorem threeNodes_count (phases : String) (lap : Bool) : Spec.NodeCount (threeNodes phases lap) 3 := ⟨fun _ => rfl, fun _ => rfl⟩

theorem threeNodes_absent (phases : String) (lap : Bool) : Spec.AbsentLine 3 (threeNodes phases lap).y := by
  refine ⟨2, 0, by norm_num, by norm_num, ?_, ?_⟩
  · show (Arr2.ofFn 3 3 (fun i j => if i = j then (1 : ℂ) else if i + j = 2 then 0 else -1)).get 2 0 = 0
    rw [Arr2.ofFn_get _ (by norm_num) (by norm_num)]
    norm_num
  · show (Arr2.ofFn 3 3 (fun i j => if i = j then (1 : ℂ) else if i + j = 2 then 0 else -1)).get 0 2 = 0
    rw [Arr2.ofFn_get _ (by norm_num) (by norm_num)]
    norm_num

/-- hypotheses of C104 and C106: a complete report on a single phase -/
example (ext : PlotExt) : (plotResults ext ⟨"net", false⟩ (storeOf "net" (threeNodes "1" true))).1 = .ok () ∧
    ((threeNodes "1" true).y.get 2 0 = 0 ∧ (1 : ℂ) + 1 ≠ 0) := by
  refine ⟨(C105_partial ext (storeOf_stored _ _) (by norm_num) (threeNodes_shapes _ _) (y := (threeNodes "1" true).y)
    (Or.inr (Or.inr ⟨fun h => absurd h.1 (by show ("1" : String) ≠ _; decide), fun h => absurd h.1 (by show ("1" : String) ≠ _; decide), rfl⟩))).2
    (Or.inr ⟨by simp [threeNodes], threeNodes_count _ _, fun _ => threeNodes_absent _ _⟩), ?_, by norm_num⟩
  show (Arr2.ofFn 3 3 (fun i j => if i = j then (1 : ℂ) else if i + j = 2 then 0 else -1)).get 2 0 = 0
  rw [Arr2.ofFn_get _ (by norm_num) (by norm_num)]
  norm_num

theorem shown_exists {n : Nat} {R : Spec.StoredResults} (hsh : Spec.ResultShapes n R) (seq : Bool) : ∃ y, Spec.Shown R seq y := by
  obtain ⟨y, hy, -⟩ := accepts_correct hsh seq R.y hsh.y
  refine ⟨y, ?_⟩
  unfold correctComponent at hy
  by_cases h1 : R.phases = "012" ∧ seq = false
  · rw [if_neg (fun h => h.1 h1.1), if_pos h1] at hy
    exact Or.inl ⟨h1.1, h1.2, hy⟩
  · by_cases h2 : R.phases = "123" ∧ seq = true
    · rw [if_neg (fun h => h.2 h2.1), if_neg h1, if_pos h2] at hy
      exact Or.inr (Or.inl ⟨h2.1, h2.2, hy⟩)
    · rw [if_neg h1, if_neg h2, ite_self] at hy
      cases hy
      exact Or.inr (Or.inr ⟨h1, h2, rfl⟩)

/-- hypotheses of C104: complete reports on sequence components with and without `--sequence` -/
example (ext : PlotExt) (seq : Bool) : (plotResults ext ⟨"net", seq⟩ (storeOf "net" (threeNodes "012" false))).1 = .ok () := by
  obtain ⟨y, hy⟩ := shown_exists (threeNodes_shapes "012" false) seq
  exact (C105_partial ext (storeOf_stored _ _) (by norm_num) (threeNodes_shapes _ _) hy).2
    (Or.inr ⟨fun h => (nomatch h), threeNodes_count _ _, fun h => (nomatch h)⟩)

end
end Verif
