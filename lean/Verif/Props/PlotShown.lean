/-
C173: what the plots of a report show.
-/
import Verif.Props.PlotSparsity

namespace Verif
open Finset
noncomputable section

namespace Spec

/-- a stored matrix as it is shown: converted when the results are in sequences but `--sequence` is absent, or the other way round -/
def Displayed (phases : String) (sequence : Bool) (m y : Arr2 ℂ) : Prop :=
  if phases = "012" ∧ sequence = false then admittanceSequenceToPhase m = .ok y
  else if phases = "123" ∧ sequence = true then admittancePhaseToSequence m = .ok y
  else y = m

/-- one of the outputs is a plot of this name with the moduli of the matrix -/
def ShowsModuli (outs : List Output) (name : String) (n : ℕ) (m : ℕ → ℕ → ℂ) : Prop :=
  ∃ a, .plot name a ∈ outs ∧ a.r = n ∧ a.c = n ∧ ∀ i < n, ∀ j < n, a.get i j = ‖m i j‖

/-- one of the outputs is a plot of this name with one point for each value -/
def ShowsCurve (outs : List Output) (name : String) (l : List ℝ) : Prop :=
  ∃ a, .plot name a ∈ outs ∧ a.r = l.length ∧ a.c = 1 ∧ ∀ k (hk : k < l.length), a.get k 0 = l[k]

/-- the pairs of nodes with a line between them, ordered by the smaller and then the larger number -/
structure IsLines (n : ℕ) (y : Arr2 ℂ) (L : List (ℕ × ℕ)) : Prop where
  mem : ∀ i j, (i, j) ∈ L ↔ j < i ∧ i < n ∧ ¬(y.get i j = 0 ∧ y.get j i = 0)
  sorted : L.Pairwise (fun p q => p.2 < q.2 ∨ p.2 = q.2 ∧ p.1 < q.1)

/-- admittance of a line according to a matrix -/
def lineValue (m : Arr2 ℂ) (p : ℕ × ℕ) : ℝ := ‖(m.get p.1 p.2 + m.get p.2 p.1) / 2‖

end Spec

theorem displayed_iff {phases : String} {sequence : Bool} {m y : Arr2 ℂ} :
    correctComponent phases sequence m = .ok y ↔ Spec.Displayed phases sequence m y := by
  unfold correctComponent Spec.Displayed
  by_cases h1 : phases = "012" ∧ sequence = false
  · rw [if_neg (by simp [h1.1]), if_pos h1, if_pos h1]
  · by_cases h2 : phases = "123" ∧ sequence = true
    · rw [if_neg (by simp [h2.1]), if_neg h1, if_neg h1, if_pos h2, if_pos h2]
    · rw [if_neg h1, if_neg h2, if_neg h1, if_neg h2]
      split <;> (constructor <;> intro h <;> first | (cases h; rfl) | rw [h])

theorem shown_iff {R : Spec.StoredResults} {sequence : Bool} {y : Arr2 ℂ} (h : Spec.Displayed R.phases sequence R.y y) :
    Spec.Shown R sequence y := by
  unfold Spec.Displayed at h
  unfold Spec.Shown
  split at h
  · rename_i c
    exact Or.inl ⟨c.1, c.2, h⟩
  · rename_i c1
    split at h
    · rename_i c
      exact Or.inr (Or.inl ⟨c.1, c.2, h⟩)
    · rename_i c2
      exact Or.inr (Or.inr ⟨c1, c2, h⟩)

theorem shows_abs {outs : List Output} {name : String} {m : Arr2 ℂ} {n : ℕ} (hm : Spec.IsSquare n m)
    (h : Output.plot name (absArr m) ∈ outs) : Spec.ShowsModuli outs name n m.get :=
  ⟨_, h, hm.1, hm.2, fun i _ j _ => Arr2.map_get _ norm_zero _ _ _⟩

theorem shows_column {outs : List Output} {name : String} {l : List ℝ} (h : Output.plot name (column l) ∈ outs) :
    Spec.ShowsCurve outs name l := by
  refine ⟨_, h, rfl, rfl, fun k hk => ?_⟩
  unfold column
  rw [Arr2.ofFn_get _ hk one_pos, List.getD_eq_getElem _ _ hk]

theorem lowerPairs_sorted (n : ℕ) : (lowerPairs n).Pairwise (fun p q => p.2 < q.2 ∨ p.2 = q.2 ∧ p.1 < q.1) := by
  unfold lowerPairs
  rw [List.pairwise_flatMap]
  constructor
  · intro j _
    rw [List.pairwise_map]
    refine List.pairwise_lt_range.imp fun {a b} h => Or.inr ⟨rfl, ?_⟩
    show j + 1 + a < j + 1 + b
    omega
  · refine List.pairwise_lt_range.imp fun {a b} h => ?_
    intro x hx y hy
    obtain ⟨s, -, rfl⟩ := List.mem_map.1 hx
    obtain ⟨t, -, rfl⟩ := List.mem_map.1 hy
    exact Or.inl h

/-- the pairs of the triangle with the diagonal -/
def trianglePairs (n : ℕ) : List (ℕ × ℕ) := (List.range n).flatMap (fun j => (List.range (n - j)).map (fun t => (j + t, j)))

theorem triangle_filter (n : ℕ) (f : ℕ × ℕ → Bool) (hf : ∀ j < n, f (j, j) = false) : (trianglePairs n).filter f = (lowerPairs n).filter f := by
  unfold trianglePairs lowerPairs
  rw [List.filter_flatMap, List.filter_flatMap]
  refine List.flatMap_congr fun j hj => ?_
  have hj := List.mem_range.1 hj
  rw [show n - j = (n - 1 - j) + 1 by omega, List.range_succ_eq_map, List.map_cons, List.filter_cons, if_neg (by simp [hf j hj]), List.map_map]
  congr 1
  refine List.map_congr_left fun t _ => ?_
  simp only [Function.comp, Prod.mk.injEq, and_true]
  omega

theorem symOff_diag {n : ℕ} {y : Arr2 ℂ} {i : ℕ} (hi : i < n) : (Spec.symHalf n (offArr n y)).get i i = 0 := by
  rw [symOff_get hi hi, if_pos rfl]

/-- the compared values where the mask is on are the moduli of the lines -/
theorem compared_lines (lap : Bool) (n : ℕ) (y : Arr2 ℂ) : ∃ L, Spec.IsLines n y L ∧
    ∀ M, (masked (Spec.compared lap n (offArr n y)) true (Spec.compared lap n M)).map (fun z => ‖z‖) = L.map (Spec.lineValue M) := by
  classical
  refine ⟨(lowerPairs n).filter (fun p => decide ¬(y.get p.1 p.2 = 0 ∧ y.get p.2 p.1 = 0)), ⟨?_, ?_⟩, ?_⟩
  · intro i j
    rw [List.mem_filter, mem_lowerPairs]
    simp only [decide_eq_true_eq]
    tauto
  · exact (lowerPairs_sorted n).filter _
  · intro M
    have hval : ∀ p ∈ lowerPairs n, ‖(Spec.symHalf n M).get p.1 p.2‖ = Spec.lineValue M p := by
      intro p hp
      obtain ⟨h1, h2⟩ := mem_lowerPairs.1 hp
      unfold Spec.symHalf Spec.lineValue
      rw [Arr2.ofFn_get _ h2 (by omega)]
    have hmask : ∀ p ∈ lowerPairs n, (decide (0 < ‖(Spec.symHalf n (offArr n y)).get p.1 p.2‖) == true) =
        decide ¬(y.get p.1 p.2 = 0 ∧ y.get p.2 p.1 = 0) := by
      intro p hp
      obtain ⟨h1, h2⟩ := mem_lowerPairs.1 hp
      have hz := symOff_zero (n := n) (y := y) h2 (show p.2 < n by omega) (show p.1 ≠ p.2 by omega)
      rw [beq_true]
      exact decide_eq_decide.2 (by rw [norm_pos_iff, Ne, hz])
    have hfin : ∀ (l : List (ℕ × ℕ)), l.filter (fun p => decide (0 < ‖(Spec.symHalf n (offArr n y)).get p.1 p.2‖) == true) =
        (lowerPairs n).filter (fun p => decide (0 < ‖(Spec.symHalf n (offArr n y)).get p.1 p.2‖) == true) →
        (l.filter (fun p => decide (0 < ‖(Spec.symHalf n (offArr n y)).get p.1 p.2‖) == true)).map (fun p => ‖(Spec.symHalf n M).get p.1 p.2‖) =
        ((lowerPairs n).filter (fun p => decide ¬(y.get p.1 p.2 = 0 ∧ y.get p.2 p.1 = 0))).map (Spec.lineValue M) := by
      intro l hl
      rw [hl, List.filter_congr hmask]
      exact List.map_congr_left fun p hp => hval p (List.mem_filter.1 hp).1
    cases lap with
    | true =>
      have e : ∀ M, Spec.compared true n M = (lowerPairs n).map (fun p => -(Spec.symHalf n M).get p.1 p.2) := by
        intro M
        unfold Spec.compared
        rw [if_pos rfl, vel_map, List.map_map]
        rfl
      rw [e, e, masked_map, List.map_map]
      simp only [norm_neg]
      convert hfin (lowerPairs n) rfl using 1
      refine List.map_congr_left fun p _ => ?_
      simp
    | false =>
      have e : ∀ M, Spec.compared false n M = (trianglePairs n).map (fun p => (Spec.symHalf n M).get p.1 p.2) := by
        intro M
        unfold Spec.compared Spec.vech trianglePairs
        rw [if_neg (by simp), List.map_flatMap]
        simp only [List.map_map]
        rfl
      rw [e, e, masked_map, List.map_map]
      convert hfin (trianglePairs n) (triangle_filter n _ (fun j hj => by rw [symOff_diag hj]; simp)) using 1
      exact List.map_congr_left fun p _ => rfl

/-- C173: what a complete report shows, for standard and Bayesian results in any mode. The plots are the moduli of the stored matrices in
the selected coordinates and of the error of the Bayesian one; the relative error of each logged iterate and the objective from the
second one on; and in `comparison` exactly the lines of the reference, in order, according to the four estimates and the reference. -/
theorem C173 (ext : PlotExt) {st : Store} {name : String} {R : Spec.StoredResults} (hst : Spec.Stored st name R) {n : ℕ} (hn : 0 < n)
    (hsh : Spec.ResultShapes n R) {seq : Bool} {s : Arr2 ℂ × Arr2 ℂ × Arr2 ℂ} (hs : R.standard = some s)
    {b : Arr2 ℂ × List IterationStatus} (hb : R.bayesian = some b) {outs : List Output} (h : plotResults ext ⟨name, seq⟩ st = (.ok (), outs)) :
    ∃ y o t l z, Spec.Displayed R.phases seq R.y y ∧ Spec.Displayed R.phases seq s.1 o ∧ Spec.Displayed R.phases seq s.2.1 t ∧
      Spec.Displayed R.phases seq s.2.2 l ∧ Spec.Displayed R.phases seq b.1 z ∧
      Spec.ShowsModuli outs "y_bus" n y.get ∧ Spec.ShowsModuli outs "y_ols" n o.get ∧ Spec.ShowsModuli outs "y_tls" n t.get ∧
      Spec.ShowsModuli outs "y_lasso" n l.get ∧ Spec.ShowsModuli outs "y_sparse_tls_cov" n z.get ∧
      Spec.ShowsModuli outs "y_sparse_tls_cov_errors" n (fun i j => z.get i j - y.get i j) ∧
      Spec.ShowsCurve outs "errors" (b.2.map (fun i => Spec.froDist R.y i.params / Spec.froSize R.y * 100)) ∧
      Spec.ShowsCurve outs "targets" ((b.2.drop 1).map (fun i => i.target)) ∧
      ∃ a L, .plot "comparison" a ∈ outs ∧ Spec.IsLines n y L ∧ a.r = L.length ∧ a.c = 5 ∧
        ∀ k (hk : k < L.length), a.get k 0 = Spec.lineValue o L[k] ∧ a.get k 1 = Spec.lineValue t L[k] ∧
          a.get k 2 = Spec.lineValue l L[k] ∧ a.get k 3 = Spec.lineValue z L[k] ∧ a.get k 4 = Spec.lineValue y L[k] := by
  have h' : (plotResults ext ⟨name, seq⟩ st).1 = .ok () := by rw [h]
  have ho' : (plotResults ext ⟨name, seq⟩ st).2 = outs := by rw [h]
  have hc := (C104_stated ext hst h').2 b hb
  rw [ho'] at hc
  obtain ⟨m0, -, hc⟩ := hc
  obtain ⟨r, w, v, yb, sd, hr, hw, hv, hyb, hsd, hbay, -, e⟩ := plotResults_inv h'
  rw [ho'] at e
  dsimp only at hr hw hv hyb hsd hbay e
  have hr' : referenceLoad st name = .ok (R.y, R.phases, R.laplacian) := by
    obtain ⟨d, hd, h1, h2, h3⟩ := hst.reference
    unfold referenceLoad Store.load Npz.mat Npz.str Npz.bool
    simp only [hd, h1, h2, h3, bind, Except.bind, pure, Except.pure]
  have hw' : plotDataLoad st name = .ok (R.voltage, R.labels) := by
    obtain ⟨d, hd, h1, h2⟩ := hst.network
    unfold plotDataLoad Store.load Npz.mat Npz.ints
    simp only [hd, h1, h2, bind, Except.bind, pure, Except.pure]
  rw [hr'] at hr
  rw [hw'] at hw
  cases hr
  cases hw
  dsimp only at hv hyb hsd hbay e
  have hdy := displayed_iff.1 hyb
  have hcount : Spec.NodeCount R n := by
    rcases (C105_partial ext hst hn hsh (shown_iff hdy)).1 h' with h' | ⟨-, h', -⟩
    · rw [hb] at h'
      exact nomatch h'
    · exact h'
  obtain ⟨v', hv', hvc⟩ := plotVoltage_ok hsh seq
  rw [hv'] at hv
  cases hv
  have hvn := hvc.2 hcount
  rw [hvn] at hbay e
  have kn := keepsNorm_correct R.phases seq
  have ksq : ∀ {m y : Arr2 ℂ}, correctComponent R.phases seq m = .ok y → Spec.IsSquare n m → Spec.IsSquare n y := by
    intro m y hm hsq
    have := kn.shape hm
    exact ⟨this.1.trans hsq.1, this.2.trans hsq.2⟩
  obtain ⟨d1, e1, a1, a2, a3⟩ := hst.standard s hs
  obtain ⟨d2, e2, b1, b2⟩ := hst.bayesian b hb
  rcases plotStandard_inv hsd with ⟨h0, -⟩ | ⟨d, o, t, l, mo, mt, ml, hd, ho, ht, hl', -, -, -, hsd', es⟩
  · rw [e1] at h0
    exact nomatch h0
  rw [e1] at hd
  cases hd
  rw [Npz.mat_of a1] at ho
  rw [Npz.mat_of a2] at ht
  rw [Npz.mat_of a3] at hl'
  subst hsd'
  rcases plotBayesian_inv hbay with ⟨h0, -⟩ | ⟨d, z, its, er, m, df, E, off, mask, s', co, ct, cl, cy, cb, mo', mt', ml', my, hd, hz, -, -,
    -, hdf, hE, hoff, hmask, hs', hco, hct, hcl, hcy, hcb, hmo, hmt, hml, hmy, eb⟩
  · rw [e2] at h0
    exact nomatch h0
  rw [e2] at hd
  cases hd
  rw [Npz.mat_of b1] at hz
  cases hs'
  obtain ⟨q1, q2, q3⟩ := hsh.standard s hs
  obtain ⟨q4, -⟩ := hsh.bayesian b hb
  have sy := ksq hyb hsh.y
  have so := ksq ho q1
  have s_t := ksq ht q2
  have sl := ksq hl' q3
  have sz := ksq hz q4
  obtain ⟨E', hE', -, em⟩ := comparison_ok R.laplacian n
  rw [hE'] at hE
  cases hE
  rw [offDiagonal_ok sy] at hoff
  cases hoff
  rw [em _ ⟨rfl, rfl⟩] at hmask
  rw [em _ so] at hco
  rw [em _ s_t] at hct
  rw [em _ sl] at hcl
  rw [em _ sz] at hcy
  rw [em _ sy] at hcb
  cases hmask
  cases hco
  cases hct
  cases hcl
  cases hcy
  cases hcb
  obtain ⟨L, hL, hLv⟩ := compared_lines R.laplacian n yb
  obtain ⟨g1, g2, g3, g4, g5⟩ := Arr2.zipWith_inv hdf
  refine ⟨yb, o, t, l, z, hdy, displayed_iff.1 ho, displayed_iff.1 ht, displayed_iff.1 hl', displayed_iff.1 hz,
    shows_abs sy (by rw [e]; simp), shows_abs so (by rw [e, es]; simp), shows_abs s_t (by rw [e, es]; simp), shows_abs sl (by rw [e, es]; simp),
    shows_abs sz (by rw [e, eb]; simp), ?_, shows_column (hc (by simp)), ?_, ?_⟩
  · obtain ⟨a, ha1, ha2, ha3, ha4⟩ := shows_abs (outs := outs) (name := "y_sparse_tls_cov_errors") (m := df)
      ⟨g3.trans sz.1, g4.trans sz.2⟩ (by rw [e, eb]; simp)
    exact ⟨a, ha1, ha2, ha3, fun i hi j hj => by rw [ha4 i hi j hj, g5 i j (by rw [sz.1]; exact hi) (by rw [sz.2]; exact hj)]⟩
  · rw [List.map_drop]
    exact shows_column (hc (by simp))
  · have hlen : ∀ M, (masked (Spec.compared R.laplacian n (offArr n yb)) true (Spec.compared R.laplacian n M)).length = L.length := by
      intro M
      have := congrArg List.length (hLv M)
      simpa using this
    have hval : ∀ M k (hk : k < L.length),
        ‖(masked (Spec.compared R.laplacian n (offArr n yb)) true (Spec.compared R.laplacian n M)).getD k 0‖ = Spec.lineValue M L[k] := by
      intro M k hk
      have := congrArg (fun l : List ℝ => l[k]?) (hLv M)
      simp only [List.getElem?_map, List.getElem?_eq_getElem hk, Option.map_some] at this
      rw [List.getD_eq_getElem?_getD]
      cases hq : (masked (Spec.compared R.laplacian n (offArr n yb)) true (Spec.compared R.laplacian n M))[k]? with
      | none => rw [hq] at this; cases this
      | some x => rw [hq] at this; simpa using this
    refine ⟨_, L, by rw [e, eb]; simp only [List.mem_cons, List.mem_append]; exact Or.inr (Or.inr (Or.inr (Or.inl (Or.inr (Or.inr (Or.inr
      (Or.inr (Or.inr (Or.inl rfl))))))))), hL, hlen yb, rfl, ?_⟩
    intro k hk
    have hk' : k < (masked (Spec.compared R.laplacian n (offArr n yb)) true (Spec.compared R.laplacian n yb)).length := by rw [hlen]; exact hk
    refine ⟨?_, ?_, ?_, ?_, ?_⟩ <;> rw [Arr2.ofFn_get _ hk' (by norm_num)]
    · exact hval o k hk
    · exact hval t k hk
    · exact hval l k hk
    · exact hval z k hk
    · exact hval yb k hk

/-! ### instances -/

theorem threeNodes_y {i j : ℕ} (hi : i < 3) (hj : j < 3) (phases : String) (lap : Bool) :
    (threeNodes phases lap).y.get i j = if i = j then 1 else if i + j = 2 then 0 else -1 := Arr2.ofFn_get _ hi hj

/-- three nodes in a row: two lines are compared -/
example (ext : PlotExt) : ∃ outs a, plotResults ext ⟨"net", false⟩ (storeOf "net" (threeNodes "1" true)) = (.ok (), outs) ∧
    .plot "comparison" a ∈ outs ∧ a.r = 2 ∧ a.c = 5 ∧ a.get 1 1 = 5 ∧ a.get 1 4 = 1 := by
  have h1 : (plotResults ext ⟨"net", false⟩ (storeOf "net" (threeNodes "1" true))).1 = .ok () :=
    (C105_partial ext (storeOf_stored _ _) (by norm_num) (threeNodes_shapes _ _) (y := (threeNodes "1" true).y)
    (Or.inr (Or.inr ⟨fun h => absurd h.1 (by show ("1" : String) ≠ _; decide), fun h => absurd h.1 (by show ("1" : String) ≠ _; decide), rfl⟩))).2
    (Or.inr ⟨by simp [threeNodes], threeNodes_count _ _, fun _ => threeNodes_absent _ _⟩)
  obtain ⟨y, o, t, l, z, dy, -, dt, -, -, -, -, -, -, -, -, -, -, a, L, ha, hL, a1, a2, hv⟩ :=
    C173 ext (storeOf_stored _ (threeNodes "1" true)) (by norm_num) (threeNodes_shapes "1" true) rfl rfl
      (outs := (plotResults ext ⟨"net", false⟩ (storeOf "net" (threeNodes "1" true))).2) (Prod.ext h1 rfl)
  have hd : ∀ {m y : Arr2 ℂ}, Spec.Displayed (threeNodes "1" true).phases false m y → y = m := by
    intro m y h
    unfold Spec.Displayed at h
    rw [if_neg (fun h => absurd h.1 (by show ("1" : String) ≠ _; decide)), if_neg (fun h => absurd h.1 (by show ("1" : String) ≠ _; decide))] at h
    exact h
  have hy := hd dy
  have ht := hd dt
  subst hy ht
  have hLe : L = [(1, 0), (2, 1)] := by
    haveI : Std.Antisymm (fun p q : ℕ × ℕ => p.2 < q.2 ∨ p.2 = q.2 ∧ p.1 < q.1) := ⟨fun p q h1 h2 => by exfalso; omega⟩
    haveI : Std.Irrefl (fun p q : ℕ × ℕ => p.2 < q.2 ∨ p.2 = q.2 ∧ p.1 < q.1) := ⟨fun p h => by omega⟩
    refine List.Pairwise.eq_of_mem_iff (r := fun p q : ℕ × ℕ => p.2 < q.2 ∨ p.2 = q.2 ∧ p.1 < q.1) hL.sorted (by simp) ?_
    rintro ⟨i, j⟩
    rw [hL.mem]
    constructor
    · rintro ⟨g1, g2, g3⟩
      rw [threeNodes_y g2 (by omega), threeNodes_y (by omega) g2] at g3
      have : (i = 1 ∧ j = 0) ∨ (i = 2 ∧ j = 0) ∨ (i = 2 ∧ j = 1) := by omega
      rcases this with ⟨rfl, rfl⟩ | ⟨rfl, rfl⟩ | ⟨rfl, rfl⟩
      · simp
      · exact absurd ⟨by norm_num, by norm_num⟩ g3
      · simp
    · intro h
      simp only [List.mem_cons, Prod.mk.injEq, List.not_mem_nil, or_false] at h
      rcases h with ⟨rfl, rfl⟩ | ⟨rfl, rfl⟩
      · exact ⟨by norm_num, by norm_num, by rw [threeNodes_y (by norm_num) (by norm_num)]; norm_num⟩
      · exact ⟨by norm_num, by norm_num, by rw [threeNodes_y (by norm_num) (by norm_num)]; norm_num⟩
  subst hLe
  obtain ⟨-, v1, -, -, v4⟩ := hv 1 (by simp)
  refine ⟨_, a, Prod.ext h1 rfl, ha, a1, a2, v1.trans ?_, v4.trans ?_⟩
  · show ‖((Arr2.ofFn 3 3 (fun _ _ => (5 : ℂ))).get 2 1 + (Arr2.ofFn 3 3 (fun _ _ => (5 : ℂ))).get 1 2) / 2‖ = 5
    rw [Arr2.ofFn_get _ (by norm_num) (by norm_num), Arr2.ofFn_get _ (by norm_num) (by norm_num)]
    norm_num
  · show ‖((threeNodes "1" true).y.get 2 1 + (threeNodes "1" true).y.get 1 2) / 2‖ = 1
    rw [threeNodes_y (by norm_num) (by norm_num), threeNodes_y (by norm_num) (by norm_num)]
    norm_num

end
end Verif
