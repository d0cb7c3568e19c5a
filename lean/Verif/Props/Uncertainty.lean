/-
C129, C130: the uncertainty results and their report.
-/
import Verif.Spec.Uncertainty
import Verif.Props.PlotPipeline
import Verif.Props.Store
import Verif.Props.Programs2

namespace Verif
open Finset Spec
noncomputable section

/-! ### C129 -/

/-- no sequence of runs creates uncertainty results -/
theorem runs_uncertainty (h : List ProgRun) (hp : ∀ r ∈ h, PlainName r.network) {n : String} (hn : PlainName n) (st : Store) :
    (h.foldl (fun s r => r.after s) st) (resultFile .uncertainty n) = st (resultFile .uncertainty n) := by
  induction h generalizing st with
  | nil => rfl
  | cons r h ih =>
    rw [List.foldl_cons, ih (fun x hx => hp x (List.mem_cons_of_mem _ hx))]
    have h0 := hp r List.mem_cons_self
    cases r with
    | sim w cf a =>
      exact ((simulate_frame (w := w) (cf := cf) (a := a) fun s hs he => by
        have := (C50_partial hn h0 he).1
        subst this
        simp at hs) st).1
    | ident ext cf sc a =>
      exact ((identify_frame (ext := ext) (cf := cf) (sc := sc) (a := a) fun s hs he => by
        have := (C50_partial hn h0 he).1
        subst this
        simp at hs) st).1

/-- the outputs that report the uncertainty -/
def Spec.uncertaintyOutputs : List String := ["tls_errors", "tls_cov", "tls_cov_est"]

/-- C129 violated: whatever runs of the two programs are made on whatever networks and with whatever options, `--uncertainty` included,
there are no uncertainty results afterwards if there were none before, and a completed report does not show any of them. -/
theorem C129_violated (h : List ProgRun) (hp : ∀ r ∈ h, PlainName r.network) {n : String} (hn : PlainName n) {st st' : Store}
    (h0 : st (resultFile .uncertainty n) = none) (he : h.foldl (fun s r => r.after s) st = st') :
    st' (resultFile .uncertainty n) = none ∧ ∀ pe seq, (plotResults pe ⟨n, seq⟩ st').1 = .ok () →
      ∀ o ∈ (plotResults pe ⟨n, seq⟩ st').2, outputName o ∉ uncertaintyOutputs := by
  have hu : st' (resultFile .uncertainty n) = none := by rw [← he, runs_uncertainty h hp hn, h0]
  refine ⟨hu, fun pe seq hok o ho => ?_⟩
  obtain ⟨r, w, v, yb, s, -, -, -, -, hs, hb, hun, e⟩ := plotResults_inv hok
  rw [e] at ho
  have h1 := plotStandard_inv hs
  have h2 := plotBayesian_inv hb
  have h3 : (plotUncertainty pe st' n v.c yb s).2 = [] := by
    rcases plotUncertainty_inv hun with ⟨-, h⟩ | ⟨d, _, _, _, hd, -⟩
    · exact h
    · rw [hu] at hd; exact nomatch hd
  rw [h3, List.append_nil] at ho
  rcases List.mem_cons.1 ho with rfl | ho
  · simp [outputName, uncertaintyOutputs]
  rcases List.mem_cons.1 ho with rfl | ho
  · simp [outputName, uncertaintyOutputs]
  rcases List.mem_append.1 ho with ho | ho
  · rcases h1 with ⟨-, -, e1⟩ | ⟨d, o', t, l, mo, mt, ml, hd, -, -, -, -, -, -, -, e1⟩
    · rw [e1] at ho; exact absurd ho (by simp)
    · rw [e1] at ho
      simp only [List.mem_cons, List.not_mem_nil, or_false] at ho
      rcases ho with rfl | rfl | rfl | rfl | rfl | rfl <;> simp [outputName, uncertaintyOutputs]
  · rcases h2 with ⟨-, e1⟩ | ⟨d, y, its, er, m, df, E, off, mask, s, co, ct, cl, cy, cb, mo, mt, ml, my, -, -, -, -, -, -, -, -, -, -, -,
      -, -, -, -, -, -, -, -, e1⟩
    · rw [e1] at ho; exact absurd ho (by simp)
    · rw [e1] at ho
      simp only [List.mem_cons, List.not_mem_nil, or_false] at ho
      rcases ho with rfl | rfl | rfl | rfl | rfl | rfl | rfl <;> simp [outputName, uncertaintyOutputs]

/-- the matrix as shown: the entries converted when the results are in sequences but `--sequence` is absent, or the other way round -/
def Spec.ShownAs (phases : String) (sequence : Bool) (m m' : Arr2 ℂ) : Prop :=
  (phases = "012" ∧ sequence = false ∧ admittanceSequenceToPhase m = .ok m') ∨
  (phases = "123" ∧ sequence = true ∧ admittancePhaseToSequence m = .ok m') ∨
  (¬(phases = "012" ∧ sequence = false) ∧ ¬(phases = "123" ∧ sequence = true) ∧ m' = m)

theorem correct_shownAs {p : String} {s : Bool} {m m' : Arr2 ℂ} (h : correctComponent p s m = .ok m') : ShownAs p s m m' := by
  unfold correctComponent at h
  split at h
  · next hc => exact Or.inr (Or.inr ⟨fun h => hc.1 h.1, fun h => hc.2 h.1, (Except.ok.inj h).symm⟩)
  · split at h
    · next h1 => exact Or.inl ⟨h1.1, h1.2, h⟩
    · split at h
      · next h1 h2 => exact Or.inr (Or.inl ⟨h2.1, h2.2, h⟩)
      · next h1 h2 => exact Or.inr (Or.inr ⟨h1, h2, (Except.ok.inj h).symm⟩)

theorem rmat_inv {d : Npz} {k : String} {m : Arr2 ℝ} (h : d.rmat k = .ok m) : d k = some (.rmat m) := by
  unfold Npz.rmat at h
  split at h
  · next e => rw [e, Except.ok.inj h]
  · exact nomatch h
  · exact nomatch h

theorem mat_inv {d : Npz} {k : String} {m : Arr2 ℂ} (h : d.mat k = .ok m) : d k = some (.mat m) := by
  unfold Npz.mat at h
  split at h
  · next e => rw [e, Except.ok.inj h]
  · exact nomatch h
  · exact nomatch h

theorem deviations_square {eig : Arr2 ℝ → Except PyErr (List ℝ × Arr2 ℝ)} {c : Arr2 ℝ} {n : Nat} {z : Arr2 ℂ}
    (h : deviations eig c n = .ok z) : IsSquare n z := by
  unfold deviations at h
  obtain ⟨wv, -, h⟩ := Prior.bind_ok h
  obtain ⟨x, -, h⟩ := Prior.bind_ok h
  obtain ⟨u, -, h⟩ := Prior.bind_ok h
  unfold unvectorizeMatrix at h
  split at h
  · cases h
    exact ⟨rfl, rfl⟩
  · exact nomatch h

/-- C129, what is proved: if there are uncertainty results (which no run of the programs creates), a completed report shows, in this
order, the moduli of the differences between the stored total least squares estimate and the reference, and the two matrices taken from
the two stored covariance matrices. Missing: that the covariance matrices get stored. -/
theorem C129_partial {pe : PlotExt} {n : String} {seq : Bool} {st : Store} (h : (plotResults pe ⟨n, seq⟩ st).1 = .ok ()) {d : Npz}
    (hd : st (resultFile .uncertainty n) = some d) :
    ∃ (e b : Arr2 ℝ) (y t yb tb cw ce : Arr2 ℂ) (p : String) (l : Bool) (dr ds : Npz), d "e" = some (.rmat e) ∧ d "b" = some (.rmat b) ∧
      st (resultFile .reference n) = some dr ∧ dr "y" = some (.mat y) ∧ dr "p" = some (.str p) ∧ dr "l" = some (.bool l) ∧
      st (resultFile .standard n) = some ds ∧ ds "t" = some (.mat t) ∧
      ShownAs p seq y yb ∧ ShownAs p seq t tb ∧ IsSquare tb.r tb ∧ IsSquare tb.r yb ∧
      deviations pe.eig e tb.r = .ok cw ∧ deviations pe.eig b tb.r = .ok ce ∧
      ∃ before, (plotResults pe ⟨n, seq⟩ st).2 = before ++
        [.plot "tls_errors" (Arr2.ofFn tb.r tb.r (fun i j => ‖tb.get i j - yb.get i j‖)),
          .plot "tls_cov" (Arr2.ofFn tb.r tb.r (fun i j => ‖cw.get i j‖)),
          .plot "tls_cov_est" (Arr2.ofFn tb.r tb.r (fun i j => ‖ce.get i j‖))] := by
  obtain ⟨r, w, v, yb, s, hr, hw, hv, hyb, hs, hb, hun, e⟩ := plotResults_inv h
  rcases plotUncertainty_values hun with ⟨h0, -⟩ | ⟨d', e', b', cw, ce, s', df, hd', h1, h2, h3, h4, hs', hdf, ⟨m, hm⟩, eu⟩
  · rw [hd] at h0; exact nomatch h0
  rw [hd] at hd'
  cases hd'
  rcases plotStandard_inv hs with ⟨-, hn, -⟩ | ⟨ds, o, t, l, mo, mt, ml, hds, ho, ht, hl, -, -, -, hss, -⟩
  · rw [hn] at hs'; exact nomatch hs'
  rw [hss] at hs'
  cases hs'
  obtain ⟨t0, ht0, ht1⟩ := Prior.bind_ok ht
  obtain ⟨z1, z2, z3, z4, z5⟩ := Arr2.zipWith_inv hdf
  dsimp only at z1 z2 z3 z4 z5
  obtain ⟨m1, m2, -⟩ := errorMetrics_inv hm
  have qw := deviations_square h3
  have qe := deviations_square h4
  have hvc : v.c = t.r := by rw [← z3, m1, qw.1]
  have htc : t.c = t.r := by rw [← z4, m2, qw.2, hvc]
  obtain ⟨dr, y, p, l', hdr, hy, hp, hl', hreq⟩ : ∃ dr y p l', st (resultFile .reference n) = some dr ∧ dr "y" = some (.mat y) ∧
      dr "p" = some (.str p) ∧ dr "l" = some (.bool l') ∧ r = (y, p, l') := by
    unfold referenceLoad at hr
    obtain ⟨dr, hdr, hr⟩ := Prior.bind_ok hr
    obtain ⟨y, hy, hr⟩ := Prior.bind_ok hr
    obtain ⟨p, hp, hr⟩ := Prior.bind_ok hr
    obtain ⟨l', hl', hr⟩ := Prior.bind_ok hr
    refine ⟨dr, y, p, l', ?_, mat_inv hy, ?_, ?_, (Except.ok.inj hr).symm⟩
    · unfold Store.load at hdr
      split at hdr
      · next e => rw [e, Except.ok.inj hdr]
      · exact nomatch hdr
    · unfold Npz.str at hp
      split at hp
      · next e => rw [e, Except.ok.inj hp]
      · exact nomatch hp
      · exact nomatch hp
    · unfold Npz.bool at hl'
      split at hl'
      · next e => rw [e, Except.ok.inj hl']
      · exact nomatch hl'
      · exact nomatch hl'
  subst hreq
  refine ⟨e', b', y, t0, yb, t, cw, ce, p, l', dr, ds, rmat_inv h1, rmat_inv h2, hdr, hy, hp, hl', hds, mat_inv ht0,
    correct_shownAs hyb, correct_shownAs ht1, ⟨rfl, htc⟩, ⟨z1.symm, z2.symm.trans htc⟩, hvc ▸ h3, hvc ▸ h4, ?_⟩
  have a1 : absArr df = Arr2.ofFn t.r t.r (fun i j => ‖t.get i j - yb.get i j‖) :=
    Arr2.ext' z3 (z4.trans htc) fun i j (hi : i < df.r) (hj : j < df.c) => by
      rw [Arr2.ofFn_get _ (by omega) (by omega), ← z5 i j (by omega) (by omega)]
      exact Arr2.ofFn_get _ hi hj
  have a2 : ∀ {z : Arr2 ℂ}, IsSquare v.c z → absArr z = Arr2.ofFn t.r t.r (fun i j => ‖z.get i j‖) := fun {z} hz =>
    Arr2.ext' (hz.1.trans hvc) (hz.2.trans hvc) fun i j (hi : i < z.r) (hj : j < z.c) => by
      rw [Arr2.ofFn_get _ (by rw [← hvc, ← hz.1]; exact hi) (by rw [← hvc, ← hz.2]; exact hj)]
      exact Arr2.ofFn_get _ hi hj
  rw [e, eu, a1, a2 qw, a2 qe]
  exact ⟨_ :: _ :: (_ ++ _), by rw [List.cons_append, List.cons_append, List.append_assoc]⟩

theorem load_other {st : Store} {f g : String} {d : Npz} (h : f ≠ g) : (st.savez g d).load f = st.load f := by
  unfold Store.load
  rw [savez_other h]

/-- C129, what is proved: a report that is completed without uncertainty results and with estimates of the standard methods is also
completed with uncertainty results for as many nodes, if the decompositions succeed with the right sizes. -/
theorem C129_completes {pe : PlotExt} {n : String} (hn : PlainName n) {seq : Bool} {st : Store} {R : StoredResults} (hst : Stored st n R)
    {m : Nat} (hm : 0 < m) (hsh : ResultShapes m R) (hc : NodeCount R m) (hR : R.standard ≠ none) (h : (plotResults pe ⟨n, seq⟩ st).1 = .ok ())
    {e b : Arr2 ℝ} {cw ce : Arr2 ℂ} (he : deviations pe.eig e m = .ok cw) (hb : deviations pe.eig b m = .ok ce)
    (hne : 0 < e.r ∧ 0 < e.c) (heb : e.r = b.r ∧ e.c = b.c) :
    (plotResults pe ⟨n, seq⟩ (st.savez (resultFile .uncertainty n) (npz [("e", .rmat e), ("b", .rmat b)]))).1 = .ok () := by
  obtain ⟨r, w, v, yb, s, hr, hw, hv, hyb, hs, hbb, -, -⟩ := plotResults_inv h
  dsimp only at *
  have hacc := accepts_correct hsh seq
  have hr0 : referenceLoad st n = .ok (R.y, R.phases, R.laplacian) := by
    obtain ⟨d, hd, h1, h2, h3⟩ := hst.reference
    unfold referenceLoad Store.load Npz.mat Npz.str Npz.bool
    simp only [hd, h1, h2, h3, bind, Except.bind, pure, Except.pure]
  have hw0 : plotDataLoad st n = .ok (R.voltage, R.labels) := by
    obtain ⟨d, hd, h1, h2⟩ := hst.network
    unfold plotDataLoad Store.load Npz.mat Npz.ints
    simp only [hd, h1, h2, bind, Except.bind, pure, Except.pure]
  rw [hr0] at hr
  cases hr
  rw [hw0] at hw
  cases hw
  dsimp only at *
  have qy : IsSquare m yb := by
    obtain ⟨p, hp, qp⟩ := hacc _ hsh.y
    rw [hyb] at hp
    cases hp
    exact qp
  obtain ⟨x, hx⟩ : ∃ x, R.standard = some x := Option.ne_none_iff_exists'.1 hR
  obtain ⟨o, t, l, qo, qt, ql, es⟩ := (plotStandard_ok hm hacc hst hsh qy).2 x hx
  rw [hs] at es
  have hs' := Except.ok.inj es
  obtain ⟨v', hv', hvc⟩ := plotVoltage_ok hsh seq
  rw [hv] at hv'
  cases hv'
  have hvm : v.c = m := hvc.2 hc
  have met : ∀ {k k' : Nat} {y z : Arr2 ℂ}, 0 < k → 0 < k' → y.r = k → y.c = k' → z.r = k → z.c = k' → ∃ q, errorMetrics y z = .ok q :=
    fun {k k' y z} h1 h2 a1 a2 a3 a4 => by
      obtain ⟨q, hq, _⟩ := C22_bundle y z (a1.trans a3.symm) (a2.trans a4.symm) (by rw [a1]; exact h1) (by rw [a2]; exact h2)
      exact ⟨q, hq⟩
  have hun : (plotUncertainty pe (st.savez (resultFile .uncertainty n) (npz [("e", .rmat e), ("b", .rmat b)])) n v.c yb s).1 = .ok () := by
    unfold plotUncertainty
    rw [savez_same]
    dsimp only
    have k1 : (npz [("e", .rmat e), ("b", .rmat b)]).rmat "e" = .ok e := by simp [npz, Npz.rmat, List.lookup]
    have k2 : (npz [("e", .rmat e), ("b", .rmat b)]).rmat "b" = .ok b := by simp [npz, Npz.rmat, List.lookup]
    obtain ⟨q1, hq1⟩ := met (y := complexArr e) (z := complexArr b) hne.1 hne.2 rfl rfl heb.1.symm heb.2.symm
    obtain ⟨df, hdf, dr, dc, -⟩ := Arr2.zipWith_mat (fun a b : ℂ => a - b) qt qy
    have qw := deviations_square he
    have qe := deviations_square hb
    obtain ⟨q2, hq2⟩ := met (y := df) (z := cw) hm hm dr dc qw.1 qw.2
    obtain ⟨q3, hq3⟩ := met (y := df) (z := ce) hm hm dr dc qe.1 qe.2
    rw [k1, Rep.ofExcept_ok, hvm, he, Rep.ofExcept_ok, k2, Rep.ofExcept_ok, hb, Rep.ofExcept_ok, hq1, Rep.ofExcept_ok, hs']
    unfold unboundLocal
    dsimp only
    rw [Rep.ofExcept_ok]
    dsimp only
    rw [hdf, Rep.ofExcept_ok, Rep.write_bind, hq2, Rep.ofExcept_ok, Rep.write_bind, hq3, Rep.ofExcept_ok]
    rfl
  have f1 : resultFile .reference n ≠ resultFile .uncertainty n := file_ne hn (by simp)
  have f2 : resultFile .network n ≠ resultFile .uncertainty n := file_ne hn (by simp)
  have f3 : resultFile .standard n ≠ resultFile .uncertainty n := file_ne hn (by simp)
  have f4 : resultFile .bayesian n ≠ resultFile .uncertainty n := file_ne hn (by simp)
  unfold plotResults
  have a1 : referenceLoad (st.savez (resultFile .uncertainty n) (npz [("e", .rmat e), ("b", .rmat b)])) n = referenceLoad st n := by
    unfold referenceLoad; rw [load_other f1]
  have a2 : plotDataLoad (st.savez (resultFile .uncertainty n) (npz [("e", .rmat e), ("b", .rmat b)])) n = plotDataLoad st n := by
    unfold plotDataLoad; rw [load_other f2]
  have a3 : ∀ cc, plotStandard cc (st.savez (resultFile .uncertainty n) (npz [("e", .rmat e), ("b", .rmat b)])) n yb =
      plotStandard cc st n yb := fun cc => by
    unfold plotStandard; rw [savez_other f3]
  have a4 : ∀ cc k l s, plotBayesian cc (st.savez (resultFile .uncertainty n) (npz [("e", .rmat e), ("b", .rmat b)])) n k l yb s =
      plotBayesian cc st n k l yb s := fun cc k l s => by
    unfold plotBayesian; rw [savez_other f4]
  dsimp only
  rw [a1, a2, hr0, Rep.ofExcept_ok, hw0, Rep.ofExcept_ok]
  dsimp only
  rw [hv, Rep.ofExcept_ok, hyb, Rep.ofExcept_ok, Rep.write_bind, Rep.write_bind]
  dsimp only
  rw [a3, Rep.bind_fst hs, a4, Rep.bind_fst hbb]
  exact hun

/-! ### C130 -/

/-- entry `p` of `v @ np.sqrt(w)` -/
def rootSum (N : Nat) (w : List ℝ) (v : Arr2 ℝ) (p : Nat) : ℝ := ∑ k ∈ range N, v.get p k * Real.sqrt (w.getD k 0)

theorem deviations_ok {eig : Arr2 ℝ → Except PyErr (List ℝ × Arr2 ℝ)} {c : Arr2 ℝ} {n : Nat} {w : List ℝ} {v : Arr2 ℝ}
    (he : eig c = .ok (w, v)) (h : Eigen (2 * (n * n)) c w v) :
    ∃ z, deviations eig c n = .ok z ∧ IsSquare n z ∧ ∀ i j, i < n → j < n →
      (z.get i j).re = rootSum (2 * (n * n)) w v (j * n + i) / n ∧
      (z.get i j).im = rootSum (2 * (n * n)) w v (n * n + (j * n + i)) / n := by
  obtain ⟨x, hx, xl, xg⟩ := Arr2.mulVec_ok v (w.map Real.sqrt) (by rw [List.length_map, h.vectors.2, h.values])
  rw [h.vectors.1] at xl xg
  rw [h.vectors.2] at xg
  have hxl : (x.map (fun t => t / (n : ℝ))).length = 2 * (n * n) := by rw [List.length_map, xl]
  have hroot : ∀ p, p < 2 * (n * n) → x.getD p 0 = rootSum (2 * (n * n)) w v p := by
    intro p hp
    rw [xg p hp]
    refine Finset.sum_congr rfl fun k hk => ?_
    have hk' := Finset.mem_range.1 hk
    congr 1
    rw [List.getD_eq_getElem _ _ (by rw [List.length_map, h.values]; exact hk'), List.getElem_map,
      List.getD_eq_getElem _ _ (by rw [h.values]; exact hk')]
  have hz : deviations eig c n = .ok (Arr2.ofFn n n (fun i j =>
      ((x.getD (j * n + i) 0 / n : ℝ) : ℂ) + Complex.I * ((x.getD (n * n + (j * n + i)) 0 / n : ℝ) : ℂ))) := by
    unfold deviations
    rw [he]
    dsimp only [Bind.bind, Except.bind]
    rw [hx]
    dsimp only
    rw [makeComplexVector_even _ (n * n) hxl]
    dsimp only
    unfold unvectorizeMatrix
    rw [if_pos (by rw [List.length_zipWith, List.length_take, List.length_drop, hxl]; dsimp only; omega)]
    congr 1
    refine Arr2.ext' rfl rfl fun i j (hi : i < n) (hj : j < n) => ?_
    have hp : j * n + i < n * n := mul_add_lt hj hi
    rw [Arr2.ofFn_get _ hi hj, Arr2.ofFn_get _ hi hj]
    dsimp only
    rw [List.getD_eq_getElem _ _ (by rw [List.length_zipWith, List.length_take, List.length_drop, hxl]; omega), List.getElem_zipWith,
      List.getElem_take, List.getElem_drop, List.getElem_map, List.getElem_map, List.getD_eq_getElem _ _ (by omega),
      List.getD_eq_getElem _ _ (by omega)]
  refine ⟨_, hz, ⟨rfl, rfl⟩, fun i j hi hj => ?_⟩
  have hp : j * n + i < n * n := mul_add_lt hj hi
  rw [Arr2.ofFn_get _ hi hj, hroot _ (by omega), hroot _ (by omega)]
  simp only [Complex.add_re, Complex.add_im, Complex.ofReal_re, Complex.ofReal_im, Complex.mul_re, Complex.mul_im, Complex.I_re,
    Complex.I_im]
  constructor <;> ring

/-- the squares of the entries of `v @ np.sqrt(w)` add up to the sum of the variances -/
theorem rootSum_trace {N : Nat} {c : Arr2 ℝ} {w : List ℝ} {v : Arr2 ℝ} (h : Eigen N c w v) :
    ∑ p ∈ range N, rootSum N w v p ^ 2 = ∑ p ∈ range N, c.get p p := by
  have hVV : (v.toMat N N).transpose * v.toMat N N = 1 := by
    ext a b
    rw [Matrix.mul_apply, Matrix.one_apply]
    refine (Finset.sum_range (fun k => v.get k a * v.get k b)).symm.trans ((h.orthonormal a b a.2 b.2).trans ?_)
    simp only [Fin.ext_iff]
  have hCV : c.toMat N N * v.toMat N N = v.toMat N N * Matrix.diagonal (toVec N w) := by
    ext i b
    rw [Matrix.mul_apply, Matrix.mul_diagonal]
    exact (Finset.sum_range (fun k => c.get i k * v.get k b)).symm.trans ((h.eigen i b i.2 b.2).trans (mul_comm _ _))
  have hC : c.toMat N N = v.toMat N N * Matrix.diagonal (toVec N w) * (v.toMat N N).transpose := by
    rw [← hCV, Matrix.mul_assoc, mul_eq_one_comm.1 hVV, Matrix.mul_one]
  have ht : ∑ p ∈ range N, c.get p p = ∑ k : Fin N, toVec N w k := by
    rw [Finset.sum_range]
    show (c.toMat N N).trace = _
    rw [hC, Matrix.trace_mul_comm, ← Matrix.mul_assoc, hVV, Matrix.one_mul, Matrix.trace_diagonal]
  have hx : ∀ p : Fin N, rootSum N w v p = (v.toMat N N).mulVec (fun k => Real.sqrt (toVec N w k)) p := fun p => by
    unfold rootSum
    rw [Finset.sum_range]
    rfl
  rw [ht, Finset.sum_range]
  have : ∑ p : Fin N, rootSum N w v p ^ 2 = (v.toMat N N).mulVec (fun k => Real.sqrt (toVec N w k)) ⬝ᵥ
      (v.toMat N N).mulVec (fun k => Real.sqrt (toVec N w k)) := by
    refine Finset.sum_congr rfl fun p _ => ?_
    rw [hx, pow_two]
  rw [this, Matrix.dotProduct_mulVec, ← Matrix.mulVec_transpose, Matrix.mulVec_mulVec, hVV, Matrix.one_mulVec]
  exact Finset.sum_congr rfl fun k _ => Real.mul_self_sqrt (h.nonneg k k.2)

theorem sum_columns {n : Nat} (f : Nat → ℝ) :
    ∑ i ∈ range n, ∑ j ∈ range n, (f (j * n + i) + f (n * n + (j * n + i))) = ∑ p ∈ range (2 * (n * n)), f p := by
  rw [two_mul, Finset.sum_range_add, sum_range_mul', sum_range_mul' n n (fun k => f (n * n + k)), ← Finset.sum_add_distrib,
    Finset.sum_comm]
  exact Finset.sum_congr rfl fun j _ => Finset.sum_add_distrib

/-- the variances are not negative -/
theorem variance_nonneg {N : Nat} {c : Arr2 ℝ} {w : List ℝ} {v : Arr2 ℝ} (h : Eigen N c w v) {p : Nat} (hp : p < N) : 0 ≤ c.get p p := by
  have hVV : (v.toMat N N).transpose * v.toMat N N = 1 := by
    ext a b
    rw [Matrix.mul_apply, Matrix.one_apply]
    refine (Finset.sum_range (fun k => v.get k a * v.get k b)).symm.trans ((h.orthonormal a b a.2 b.2).trans ?_)
    simp only [Fin.ext_iff]
  have hVV' := mul_eq_one_comm.1 hVV
  have hCV : c.toMat N N * v.toMat N N = v.toMat N N * Matrix.diagonal (toVec N w) := by
    ext i b
    rw [Matrix.mul_apply, Matrix.mul_diagonal]
    exact (Finset.sum_range (fun k => c.get i k * v.get k b)).symm.trans ((h.eigen i b i.2 b.2).trans (mul_comm _ _))
  have hC : c.toMat N N = v.toMat N N * Matrix.diagonal (toVec N w) * (v.toMat N N).transpose := by
    rw [← hCV, Matrix.mul_assoc, hVV', Matrix.mul_one]
  have : c.get p p = c.toMat N N ⟨p, hp⟩ ⟨p, hp⟩ := rfl
  rw [this, hC, Matrix.mul_apply]
  refine Finset.sum_nonneg fun k _ => ?_
  rw [Matrix.mul_diagonal, Matrix.transpose_apply, mul_right_comm]
  exact mul_nonneg (mul_self_nonneg _) (h.nonneg k k.2)

theorem sdEntry_sq {n : Nat} {c : Arr2 ℝ} {w : List ℝ} {v : Arr2 ℝ} (h : Eigen (2 * (n * n)) c w v) {i j : Nat} (hi : i < n) (hj : j < n) :
    sdEntry n c i j ^ 2 = c.get (j * n + i) (j * n + i) + c.get (n * n + (j * n + i)) (n * n + (j * n + i)) := by
  have hp : j * n + i < n * n := mul_add_lt hj hi
  exact Real.sq_sqrt (add_nonneg (variance_nonneg h (by omega)) (variance_nonneg h (by omega)))

/-- C130, what is proved: with an exact decomposition of the covariance matrix, the matrix that is shown has `n²` entries whose squares
add up to the mean of the squares of the standard deviations of the `n²` estimated entries. For a single node it is the standard
deviation. Missing: the entries themselves (`C130_violated`, `C130_choice_violated`). -/
theorem C130_partial {eig : Arr2 ℝ → Except PyErr (List ℝ × Arr2 ℝ)} {c : Arr2 ℝ} {n : Nat} {w : List ℝ} {v : Arr2 ℝ}
    (he : eig c = .ok (w, v)) (h : Eigen (2 * (n * n)) c w v) :
    ∃ z, deviations eig c n = .ok z ∧ IsSquare n z ∧
      ∑ i ∈ range n, ∑ j ∈ range n, ‖z.get i j‖ ^ 2 = (∑ i ∈ range n, ∑ j ∈ range n, sdEntry n c i j ^ 2) / (n * n : ℝ) ∧
      (n = 1 → ‖z.get 0 0‖ = sdEntry n c 0 0) := by
  obtain ⟨z, hz, hs, hg⟩ := deviations_ok he h
  have hsum : ∑ i ∈ range n, ∑ j ∈ range n, ‖z.get i j‖ ^ 2 = (∑ i ∈ range n, ∑ j ∈ range n, sdEntry n c i j ^ 2) / (n * n : ℝ) := by
    have h1 : ∑ i ∈ range n, ∑ j ∈ range n, ‖z.get i j‖ ^ 2 = (∑ i ∈ range n, ∑ j ∈ range n,
        (rootSum (2 * (n * n)) w v (j * n + i) ^ 2 + rootSum (2 * (n * n)) w v (n * n + (j * n + i)) ^ 2)) / (n * n : ℝ) := by
      rw [Finset.sum_div]
      refine Finset.sum_congr rfl fun i hi => ?_
      rw [Finset.sum_div]
      refine Finset.sum_congr rfl fun j hj => ?_
      rw [← Complex.normSq_eq_norm_sq, Complex.normSq_apply, (hg i j (mem_range.1 hi) (mem_range.1 hj)).1,
        (hg i j (mem_range.1 hi) (mem_range.1 hj)).2, div_mul_div_comm, div_mul_div_comm, ← add_div]
      ring
    rw [h1, sum_columns (fun p => rootSum (2 * (n * n)) w v p ^ 2), rootSum_trace h, ← sum_columns (fun p => c.get p p)]
    congr 1
    exact Finset.sum_congr rfl fun i hi => Finset.sum_congr rfl fun j hj => (sdEntry_sq h (mem_range.1 hi) (mem_range.1 hj)).symm
  refine ⟨z, hz, hs, hsum, fun hn => ?_⟩
  subst hn
  simp only [Finset.sum_range_one, Nat.cast_one, mul_one, div_one] at hsum
  exact (sq_eq_sq₀ (norm_nonneg _) (Real.sqrt_nonneg _)).1 hsum

/-- C130 violated: for two or more nodes and any covariance matrix other than zero, however it is decomposed, the moduli shown are not
the standard deviations of the entries. -/
theorem C130_violated {eig : Arr2 ℝ → Except PyErr (List ℝ × Arr2 ℝ)} {c : Arr2 ℝ} {n : Nat} (hn : 2 ≤ n) {w : List ℝ} {v : Arr2 ℝ}
    (he : eig c = .ok (w, v)) (h : Eigen (2 * (n * n)) c w v) {i j : Nat} (hi : i < n) (hj : j < n) (hpos : 0 < sdEntry n c i j)
    {z : Arr2 ℂ} (hz : deviations eig c n = .ok z) : ∃ a b, a < n ∧ b < n ∧ ‖z.get a b‖ ≠ sdEntry n c a b := by
  obtain ⟨z', hz', -, hsum, -⟩ := C130_partial he h
  rw [hz] at hz'
  cases hz'
  by_contra hcon
  push Not at hcon
  have e : ∑ i ∈ range n, ∑ j ∈ range n, ‖z.get i j‖ ^ 2 = ∑ i ∈ range n, ∑ j ∈ range n, sdEntry n c i j ^ 2 :=
    Finset.sum_congr rfl fun a ha => Finset.sum_congr rfl fun b hb => by rw [hcon a b (mem_range.1 ha) (mem_range.1 hb)]
  rw [e] at hsum
  have hS : 0 < ∑ i ∈ range n, ∑ j ∈ range n, sdEntry n c i j ^ 2 := by
    refine Finset.sum_pos' (fun _ _ => Finset.sum_nonneg fun _ _ => sq_nonneg _) ⟨i, mem_range.2 hi, ?_⟩
    exact Finset.sum_pos' (fun _ _ => sq_nonneg _) ⟨j, mem_range.2 hj, by positivity⟩
  have hn' : (2 : ℝ) ≤ n := by exact_mod_cast hn
  rw [eq_div_iff (by positivity)] at hsum
  have h4 : (4 : ℝ) ≤ n * n := by nlinarith
  have := mul_le_mul_of_nonneg_left h4 hS.le
  linarith

/-- two decompositions of the identity matrix of size 8 -/
def turned : Arr2 ℝ := Arr2.ofFn 8 8 (fun i j => if i = 0 ∧ j = 0 then 3 / 5 else if i = 1 ∧ j = 1 then -3 / 5 else
  if i = 0 ∧ j = 1 ∨ i = 1 ∧ j = 0 then 4 / 5 else if i = j then 1 else 0)

theorem eye_eigen : Eigen (2 * (2 * 2)) (Arr2.eye 8) (List.replicate 8 1) (Arr2.eye 8) where
  square := ⟨rfl, rfl⟩
  values := rfl
  vectors := ⟨rfl, rfl⟩
  nonneg := fun k hk => by
    rw [List.getD_eq_getElem _ _ (by simpa using hk), List.getElem_replicate]
    exact zero_le_one
  orthonormal := fun a b ha hb => by
    have ha : a < 8 := ha
    have hb : b < 8 := hb
    have : ∀ k ∈ range (2 * (2 * 2)), (Arr2.eye 8 : Arr2 ℝ).get k a * (Arr2.eye 8 : Arr2 ℝ).get k b = if k = a then if a = b then 1 else 0 else 0 := by
      intro k hk
      have hk : k < 8 := mem_range.1 hk
      rw [Arr2.eye, Arr2.ofFn_get _ hk ha, Arr2.ofFn_get _ hk hb]
      by_cases h : k = a
      · subst h; simp
      · simp [h]
    rw [Finset.sum_congr rfl this, Finset.sum_ite_eq' (range _) a, if_pos (mem_range.2 ha)]
  eigen := fun i b hi hb => by
    have hi : i < 8 := hi
    have hb : b < 8 := hb
    have : ∀ k ∈ range (2 * (2 * 2)), (Arr2.eye 8 : Arr2 ℝ).get i k * (Arr2.eye 8 : Arr2 ℝ).get k b = if k = b then if i = b then 1 else 0 else 0 := by
      intro k hk
      have hk : k < 8 := mem_range.1 hk
      rw [Arr2.eye, Arr2.ofFn_get _ hi hk, Arr2.ofFn_get _ hk hb]
      by_cases h : k = b
      · subst h; simp
      · simp [h]
    rw [Finset.sum_congr rfl this, Finset.sum_ite_eq' (range _) b, if_pos (mem_range.2 hb), Arr2.eye, Arr2.ofFn_get _ hi hb,
      List.getD_eq_getElem _ _ (by simpa using hb), List.getElem_replicate, one_mul]

theorem turned_eigen : Eigen (2 * (2 * 2)) (Arr2.eye 8) (List.replicate 8 1) turned where
  square := ⟨rfl, rfl⟩
  values := rfl
  vectors := ⟨rfl, rfl⟩
  nonneg := eye_eigen.nonneg
  orthonormal := fun a b ha hb => by
    have ha : a < 8 := ha
    have hb : b < 8 := hb
    have : ∀ k ∈ range (2 * (2 * 2)), turned.get k a * turned.get k b =
        (if k = 0 ∧ a = 0 then 3 / 5 else if k = 1 ∧ a = 1 then -3 / 5 else
          if k = 0 ∧ a = 1 ∨ k = 1 ∧ a = 0 then 4 / 5 else if k = a then 1 else 0) *
        (if k = 0 ∧ b = 0 then 3 / 5 else if k = 1 ∧ b = 1 then -3 / 5 else
          if k = 0 ∧ b = 1 ∨ k = 1 ∧ b = 0 then 4 / 5 else if k = b then 1 else 0 : ℝ) := fun k hk => by
      have hk : k < 8 := mem_range.1 hk
      rw [turned, Arr2.ofFn_get _ hk ha, Arr2.ofFn_get _ hk hb]
    rw [Finset.sum_congr rfl this]
    clear this
    simp only [Nat.reduceMul, Finset.sum_range_succ, Finset.sum_range_zero]
    interval_cases a <;> interval_cases b <;> norm_num
  eigen := fun i b hi hb => by
    have hi : i < 8 := hi
    have hb : b < 8 := hb
    have : ∀ k ∈ range (2 * (2 * 2)), (Arr2.eye 8 : Arr2 ℝ).get i k * turned.get k b = if k = i then turned.get k b else 0 := by
      intro k hk
      have hk : k < 8 := mem_range.1 hk
      rw [Arr2.eye, Arr2.ofFn_get _ hi hk]
      by_cases h : k = i
      · subst h; simp
      · simp [h, Ne.symm h]
    rw [Finset.sum_congr rfl this, Finset.sum_ite_eq' (range _) i, if_pos (mem_range.2 hi),
      List.getD_eq_getElem _ _ (by simpa using hb), List.getElem_replicate, one_mul]

/-- C130 violated, dependence on the choice of the eigenvectors: two exact decompositions of the same covariance matrix, for two nodes,
give different moduli. -/
theorem C130_choice_violated : ∃ (c : Arr2 ℝ) (w : List ℝ) (v v' : Arr2 ℝ) (z z' : Arr2 ℂ), Eigen (2 * (2 * 2)) c w v ∧
    Eigen (2 * (2 * 2)) c w v' ∧ deviations (fun _ => .ok (w, v)) c 2 = .ok z ∧ deviations (fun _ => .ok (w, v')) c 2 = .ok z' ∧
    ‖z.get 0 0‖ ≠ ‖z'.get 0 0‖ := by
  obtain ⟨z, hz, -, hg⟩ := deviations_ok (n := 2) (eig := fun _ => .ok (List.replicate 8 1, Arr2.eye 8)) rfl eye_eigen
  obtain ⟨z', hz', -, hg'⟩ := deviations_ok (n := 2) (eig := fun _ => .ok (List.replicate 8 1, turned)) rfl turned_eigen
  refine ⟨_, _, _, _, z, z', eye_eigen, turned_eigen, hz, hz', fun hcon => ?_⟩
  have h1 := hg 0 0 (by norm_num) (by norm_num)
  have h2 := hg' 0 0 (by norm_num) (by norm_num)
  have e1 : ∀ p, p < 8 → rootSum (2 * (2 * 2)) (List.replicate 8 1) (Arr2.eye 8) p = 1 := by
    intro p hp
    unfold rootSum
    have : ∀ k ∈ range (2 * (2 * 2)), (Arr2.eye 8 : Arr2 ℝ).get p k * Real.sqrt ((List.replicate 8 (1 : ℝ)).getD k 0) = if k = p then 1 else 0 := by
      intro k hk
      have hk : k < 8 := mem_range.1 hk
      rw [Arr2.eye, Arr2.ofFn_get _ hp hk, List.getD_eq_getElem _ _ (by simpa using hk), List.getElem_replicate, Real.sqrt_one, mul_one]
      by_cases h : k = p
      · subst h; simp
      · simp [h, Ne.symm h]
    rw [Finset.sum_congr rfl this, Finset.sum_ite_eq' (range _) p, if_pos (mem_range.2 hp)]
  have e2 : ∀ p, p < 8 → rootSum (2 * (2 * 2)) (List.replicate 8 1) turned p = ∑ k ∈ range 8, turned.get p k := by
    intro p hp
    unfold rootSum
    refine Finset.sum_congr rfl fun k hk => ?_
    have hk : k < 8 := mem_range.1 hk
    rw [List.getD_eq_getElem _ _ (by simpa using hk), List.getElem_replicate, Real.sqrt_one, mul_one]
  have t0 : ∑ k ∈ range 8, turned.get 0 k = 7 / 5 := by
    have : ∀ k ∈ range 8, turned.get 0 k = if k = 0 then 3 / 5 else if k = 1 then 4 / 5 else 0 := fun k hk => by
      have hk := mem_range.1 hk
      rw [turned, Arr2.ofFn_get _ (by norm_num) hk]
      by_cases h : k = 0
      · simp [h]
      · by_cases h' : k = 1
        · simp [h']
        · simp [h, h', Ne.symm h]
    rw [Finset.sum_congr rfl this]
    simp only [Finset.sum_range_succ, Finset.sum_range_zero]
    norm_num
  have t4 : ∑ k ∈ range 8, turned.get 4 k = 1 := by
    have : ∀ k ∈ range 8, turned.get 4 k = if k = 4 then 1 else 0 := fun k hk => by
      have hk := mem_range.1 hk
      rw [turned, Arr2.ofFn_get _ (by norm_num) hk]
      by_cases h : k = 4
      · simp [h]
      · simp [h, Ne.symm h]
    rw [Finset.sum_congr rfl this]
    simp
  have k1 : ‖z.get 0 0‖ ^ 2 = 1 / 2 := by
    rw [← Complex.normSq_eq_norm_sq, Complex.normSq_apply, h1.1, h1.2, e1 _ (by norm_num), e1 _ (by norm_num)]
    norm_num
  have k2 : ‖z'.get 0 0‖ ^ 2 = 37 / 50 := by
    rw [← Complex.normSq_eq_norm_sq, Complex.normSq_apply, h2.1, h2.2, e2 _ (by norm_num), e2 _ (by norm_num)]
    norm_num [t0, t4]
  rw [hcon, k2] at k1
  norm_num at k1

/-! ### concrete cases -/

/-- a run with `--uncertainty` raises an exception at the end; the report on what it has stored is completed and shows no uncertainty -/
theorem demo_C129 (sc : SimConf) (pe : PlotExt) (seq : Bool) : ∃ st',
    [ProgRun.ident shapedExt demoIdConf sc { demoIdArgs with uncertainty := true }].foldl (fun s r => r.after s) demoStore = st' ∧
    (identify shapedExt demoIdConf sc { demoIdArgs with uncertainty := true } demoStore).res = .error .nameError ∧
    (plotResults pe ⟨"ieee_33", seq⟩ st').1 = .ok () ∧
    ∀ o ∈ (plotResults pe ⟨"ieee_33", seq⟩ st').2, outputName o ∉ uncertaintyOutputs := by
  have hn := templates_plain "ieee_33" (by decide)
  obtain ⟨r, h, hu, hok⟩ := demo_report sc pe seq
  obtain ⟨h1, h2⟩ := C80_uncertainty h
  have e : [ProgRun.ident shapedExt demoIdConf sc { demoIdArgs with uncertainty := true }].foldl (fun s r => r.after s) demoStore =
      (identify shapedExt demoIdConf sc demoIdArgs demoStore).store := h2
  refine ⟨_, e, h1, hok, ?_⟩
  exact (C129_violated _ (fun r hr => by rw [List.mem_singleton.1 hr]; exact hn) hn hu e).2 pe seq hok

/-- stored results of two nodes -/
def demoResults : StoredResults :=
  ⟨Arr2.eye 2, "1", false, Arr2.zeros 5 2, [1, 1], some (Arr2.eye 2, Arr2.zeros 2 2, Arr2.eye 2), none⟩

def demoResultStore : Store :=
  ((Store.savez (fun _ => none) (resultFile .reference "ieee_33") (referenceNpz (Arr2.eye 2) "1" false)).savez
    (resultFile .network "ieee_33") (npz [("w", .mat (Arr2.zeros 5 2)), ("h", .ints [1, 1])])).savez
    (resultFile .standard "ieee_33") (npz [("o", .mat (Arr2.eye 2)), ("t", .mat (Arr2.zeros 2 2)), ("l", .mat (Arr2.eye 2))])

theorem demoResultStore_stored : Stored demoResultStore "ieee_33" demoResults := by
  have hn := templates_plain "ieee_33" (by decide)
  unfold demoResultStore
  refine ⟨⟨referenceNpz (Arr2.eye 2) "1" false, ?_, ?_⟩, ⟨npz [("w", .mat (Arr2.zeros 5 2)), ("h", .ints [1, 1])], ?_, ?_⟩, fun h => (nomatch h), ?_, fun _ => ?_, fun b h => (nomatch h), ?_⟩
  · rw [savez_other (file_ne hn (by simp)), savez_other (file_ne hn (by simp)), savez_same]
  · simp [referenceNpz, npz, List.lookup, demoResults]
  · rw [savez_other (file_ne hn (by simp)), savez_same]
  · simp [npz, List.lookup, demoResults]
  · intro s hs
    cases hs
    exact ⟨_, savez_same .., by simp [npz, List.lookup]⟩
  · rw [savez_other (file_ne hn (by simp)), savez_other (file_ne hn (by simp)), savez_other (file_ne hn (by simp))]
  · rw [savez_other (file_ne hn (by simp)), savez_other (file_ne hn (by simp)), savez_other (file_ne hn (by simp))]

/-- a report with uncertainty results: covariance matrices are the identity, the moduli shown are `√2 / 2` and not `√2` -/
theorem demo_C130 (eigvals : Arr2 ℂ → List ℂ) (seq : Bool) : ∃ (st : Store) (z : Arr2 ℂ) (before : List Output),
    (plotResults ⟨eigvals, fun _ => .ok (List.replicate 8 1, Arr2.eye 8)⟩ ⟨"ieee_33", seq⟩ st).1 = .ok () ∧
    (plotResults ⟨eigvals, fun _ => .ok (List.replicate 8 1, Arr2.eye 8)⟩ ⟨"ieee_33", seq⟩ st).2 = before ++
      [.plot "tls_errors" (Arr2.ofFn 2 2 (fun i j => ‖(Arr2.zeros 2 2).get i j - (Arr2.eye 2 : Arr2 ℂ).get i j‖)),
        .plot "tls_cov" (Arr2.ofFn 2 2 (fun i j => ‖z.get i j‖)), .plot "tls_cov_est" (Arr2.ofFn 2 2 (fun i j => ‖z.get i j‖))] ∧
    ∃ a b, a < 2 ∧ b < 2 ∧ ‖z.get a b‖ ≠ sdEntry 2 (Arr2.eye 8) a b := by
  have hn := templates_plain "ieee_33" (by decide)
  obtain ⟨z, hz, -, -⟩ := deviations_ok (n := 2) (eig := fun _ => .ok (List.replicate 8 1, Arr2.eye 8)) rfl eye_eigen
  have hsh : ResultShapes 2 demoResults := ⟨⟨rfl, rfl⟩, fun s hs => by cases hs; exact ⟨⟨rfl, rfl⟩, ⟨rfl, rfl⟩, rfl, rfl⟩,
    fun b h => (nomatch h), rfl, fun h => absurd (show demoResults.phases ≠ "012" ∧ demoResults.phases ≠ "123" by decide) h⟩
  have hsp : SinglePhase demoResults := show demoResults.phases ≠ "012" ∧ demoResults.phases ≠ "123" by decide
  have h := C129_completes (pe := ⟨eigvals, fun _ => .ok (List.replicate 8 1, Arr2.eye 8)⟩) (seq := seq) hn demoResultStore_stored
    (m := 2) (by norm_num) hsh ⟨fun _ => rfl, fun h => absurd hsp h⟩ (fun h => (nomatch h))
    ((C105_partial _ demoResultStore_stored (n := 2) (by norm_num) hsh (y := Arr2.eye 2)
      (Or.inr (Or.inr ⟨fun h => hsp.1 h.1, fun h => hsp.2 h.1, rfl⟩))).2 (Or.inl rfl)) (e := Arr2.eye 8) (b := Arr2.eye 8) hz hz
    ⟨by show 0 < 8; norm_num, by show 0 < 8; norm_num⟩ ⟨rfl, rfl⟩
  obtain ⟨e, b, y, t, yb, tb, cw, ce, p, l, dr, ds, h1, h2, h3, h4, h5, -, h6, h7, s1, s2, -, -, d1, d2, before, hout⟩ :=
    C129_partial h (savez_same ..)
  have he : e = Arr2.eye 8 := by simp [npz, List.lookup] at h1; exact h1.symm
  have hb : b = Arr2.eye 8 := by simp [npz, List.lookup] at h2; exact h2.symm
  subst he
  subst hb
  rw [savez_other (file_ne hn (by simp))] at h3 h6
  unfold demoResultStore at h3 h6
  rw [savez_other (file_ne hn (by simp)), savez_other (file_ne hn (by simp)), savez_same] at h3
  rw [savez_same] at h6
  cases h3
  cases h6
  have hy : y = Arr2.eye 2 := by simp [referenceNpz, npz, List.lookup] at h4; exact h4.symm
  have hp : p = "1" := by simp [referenceNpz, npz, List.lookup] at h5; exact h5.symm
  have ht : t = Arr2.zeros 2 2 := by simp [npz, List.lookup] at h7; exact h7.symm
  subst hy
  subst ht
  subst hp
  have e1 : yb = Arr2.eye 2 := by
    rcases s1 with ⟨h, -⟩ | ⟨h, -⟩ | ⟨-, -, h⟩
    · exact absurd h (by decide)
    · exact absurd h (by decide)
    · exact h
  have e2 : tb = Arr2.zeros 2 2 := by
    rcases s2 with ⟨h, -⟩ | ⟨h, -⟩ | ⟨-, -, h⟩
    · exact absurd h (by decide)
    · exact absurd h (by decide)
    · exact h
  subst e1
  subst e2
  have c1 : cw = z := Except.ok.inj (d1.symm.trans hz)
  have c2 : ce = z := Except.ok.inj (d2.symm.trans hz)
  subst c1
  subst c2
  refine ⟨_, ce, before, h, hout, ?_⟩
  refine C130_violated (n := 2) le_rfl (eig := fun _ => .ok (List.replicate 8 1, Arr2.eye 8)) rfl eye_eigen (i := 0) (j := 0) (by norm_num)
    (by norm_num) ?_ hz
  refine Real.sqrt_pos.2 ?_
  rw [Arr2.eye, Arr2.ofFn_get _ (by norm_num) (by norm_num), Arr2.ofFn_get _ (by norm_num) (by norm_num)]
  norm_num

end
end Verif
