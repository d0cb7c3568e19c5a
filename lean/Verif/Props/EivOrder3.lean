/-
C146 and C147 for three-phase networks in sequence values.
-/
import Verif.Props.EivOrder
import Verif.Props.LassoGram
import Verif.Props.EivCritical3
import Verif.Props.PipelineDemo3

namespace Verif
noncomputable section

/-- columns picked from measurements with rewritten samples are rewritten the same way -/
theorem columns_resampled {T N m : Nat} {f : Nat → Nat} (hf : ∀ j < m, f j < N) {π : Equiv.Perm (Fin T)} {θ : Nat → ℂ} {x x' : Arr2 ℂ}
    (h : Spec.Rewritten (n := N) x x' 1 θ π 1) : Spec.Rewritten (n := m) (Spec.columnsAt x m f) (Spec.columnsAt x' m f) 1 θ π 1 := by
  refine ⟨⟨h.shape.1, rfl⟩, ⟨h.shape'.1, rfl⟩, fun t k => ?_⟩
  have ht : t.val < x'.r := by rw [h.shape'.1]; exact t.2
  have ht' : (π t).val < x.r := by rw [h.shape.1]; exact (π t).2
  unfold Spec.columnsAt
  rw [Arr2.ofFn_get _ ht k.2, Arr2.ofFn_get _ ht' ((1 : Equiv.Perm (Fin m)) k).2]
  exact h.entries t ⟨f k, hf k k.2⟩

/-- a step of the loop over the labels uses the measurements only through the call for its label -/
theorem bayesianStep_congr {ext : NumExt} {cf : IdConf} {name : String} {v c v' c' : Arr2 ℂ} {ids : List Int} {vsd isd : SdPolar}
    {ratings : List ℝ} {y0 : Arr2 ℂ} {ye : Option (Arr2 ℂ)} {lap weighted pmu : Bool} {K : Nat} {i : Int} {m : Nat} {f : Nat → Nat}
    (hp : Spec.LabelPos ids i m f) (hd : Spec.PhaseData ids v c ratings y0 ye) (hv : ids.length = v'.c) (hc : ids.length = c'.c)
    (h : ∀ st, bayesianEiv ext cf name (some (Spec.columnsAt v' m f)) (some (Spec.columnsAt c' m f)) vsd isd (Spec.entriesAt ratings m f)
        (Spec.blockAt y0 m f) (ye.map (fun y => Spec.blockAt y m f)) lap weighted K pmu st =
      bayesianEiv ext cf name (some (Spec.columnsAt v m f)) (some (Spec.columnsAt c m f)) vsd isd (Spec.entriesAt ratings m f)
        (Spec.blockAt y0 m f) (ye.map (fun y => Spec.blockAt y m f)) lap weighted K pmu st) (y : Arr2 ℂ) :
    bayesianStep ext cf name v' c' ids vsd isd ratings y0 ye lap weighted K pmu y i =
      bayesianStep ext cf name v c ids vsd isd ratings y0 ye lap weighted K pmu y i := by
  have he : labelExact ye ids i = .ok (ye.map (fun y => Spec.blockAt y m f)) := by
    unfold labelExact
    cases ye with
    | none => rfl
    | some y =>
      dsimp only
      rw [labelBlock_eq hp (hd.exact y rfl)]
      rfl
  funext st
  unfold bayesianStep
  simp only [Prog.bind_def, Prog.bind, Prog.ofExcept_run, labelCols_eq hp hd.v, labelCols_eq hp hd.c, labelCols_eq hp hv, labelCols_eq hp hc,
    labelEntries_eq hp hd.ratings, labelBlock_eq hp hd.init, he, Prog.call_run, h]

/-- C147 for `bayesian_eiv` of run3ph.py: the outcome, with the log, the stored file and the errors, does not depend on the order of the
samples, and for weighted unsynchronised measurements not on the reference angles of the samples -/
theorem C147_three {ext : NumExt} (hex : Spec.Exact ext.solve) (htot : Spec.Total ext.solve) (cf : IdConf) (name : String) {T N : Nat}
    {π : Equiv.Perm (Fin T)} {θ : Nat → ℂ} (hθ : ∀ t, Complex.normSq (θ t) = 1) {v c v' c' : Arr2 ℂ}
    (hv : Spec.Rewritten (n := N) v v' 1 θ π 1) (hc : Spec.Rewritten (n := N) c c' 1 θ π 1) (vsd isd : SdPolar) {ids : List Int}
    {ratings : List ℝ} {y0 : Arr2 ℂ} {ye : Option (Arr2 ℂ)} (hd : Spec.PhaseData ids v c ratings y0 ye) {m : Fin 3 → Nat}
    {f : Fin 3 → Nat → Nat} (hp : ∀ l : Fin 3, Spec.LabelPos ids (l.val : Int) (m l) (f l)) (lap weighted : Bool) (K : Nat) (pmu : Bool)
    (hone : weighted = false ∨ pmu = true → ∀ t, θ t = 1)
    (hw : weighted = true → (∀ l, 2 ≤ m l) ∧ 0 < vsd.m ∧ 0 < vsd.p ∧ (pmu = false → ∀ t j, t < T → j < N → v.get t j ≠ 0)) :
    bayesianEiv3 ext cf name v' c' ids vsd isd ratings y0 ye lap weighted K pmu =
      bayesianEiv3 ext cf name v c ids vsd isd ratings y0 ye lap weighted K pmu := by
  have hN : ids.length = N := by rw [hd.v, hv.shape.2]
  have step : ∀ (l : Fin 3) (y : Arr2 ℂ), bayesianStep ext cf name v' c' ids vsd isd ratings y0 ye lap weighted K pmu y (l.val : Int) =
      bayesianStep ext cf name v c ids vsd isd ratings y0 ye lap weighted K pmu y (l.val : Int) := fun l y => by
    have hf : ∀ j < m l, f l j < N := fun j hj => by rw [← hN]; exact (hp l).lt j hj
    refine bayesianStep_congr (hp l) hd (by rw [hN, hv.shape'.2]) (by rw [hN, hc.shape'.2]) (fun st => ?_) y
    refine C147_run hex htot cf name hθ (columns_resampled hf hv) (columns_resampled hf hc) vsd isd ⟨rfl, rfl⟩ _ lap weighted K pmu st hone
      fun hwt => ?_
    obtain ⟨h1, h2, h3, h4⟩ := hw hwt
    have := h1 l
    refine ⟨by omega, h2, h3, ?_, fun hpm t j ht hj => ?_⟩
    · intro e
      have := congrArg List.length e
      simp only [Spec.entriesAt, List.length_map, List.length_range, List.length_nil] at this
      omega
    · have ht' : t < v.r := by rw [hv.shape.1]; exact ht
      unfold Spec.columnsAt
      rw [Arr2.ofFn_get _ ht' hj]
      exact h4 hpm t _ ht (hf j hj)
  have s0 := step 0
  have s1 := step 1
  have s2 := step 2
  simp only [Fin.val_zero, Fin.val_one, Fin.val_two, Nat.cast_zero, Nat.cast_one, Nat.cast_ofNat] at s0 s1 s2
  unfold bayesianEiv3
  simp only [s0, s1, s2]

/-- C146 for `standard_methods` of run3ph.py: two runs on measurements whose centred values have the same correlations within every
sequence return the same ordinary least squares and lasso estimates, and with gaps the same total least squares estimate -/
theorem C146_three {ext : NumExt} (hsh : Spec.Shapes ext) (hsvd : Spec.SvdContract ext.svdVh) (hinv : Spec.InvSound ext.inv)
    (hpinv : Spec.PinvContract ext.pinv) {cf : IdConf} {name name' : String} {v c v' c' : Arr2 ℂ} {ids : List Int} {lap : Bool} {K : Nat}
    {st st' : Store} {o t l o' t' l' : Arr2 ℂ} (hv : ids.length = v.c) (hc : ids.length = c.c) (hv' : ids.length = v'.c)
    (hc' : ids.length = c'.c) {m : Fin 3 → Nat} {f : Fin 3 → Nat → Nat}
    (hp : ∀ s : Fin 3, Spec.LabelPos ids (s.val : Int) (m s) (f s))
    (h : (standardMethods3 ext cf name (some v) (some c) (some ids) lap K st).res = .ok (o, t, l))
    (h' : (standardMethods3 ext cf name' (some v') (some c') (some ids) lap K st').res = .ok (o', t', l'))
    (hs : ∀ s, Spec.SameCorrelations (centreData lap (Spec.columnsAt v (m s) (f s)) (Spec.columnsAt c (m s) (f s))).1
      (centreData lap (Spec.columnsAt v (m s) (f s)) (Spec.columnsAt c (m s) (f s))).2
      (centreData lap (Spec.columnsAt v' (m s) (f s)) (Spec.columnsAt c' (m s) (f s))).1
      (centreData lap (Spec.columnsAt v' (m s) (f s)) (Spec.columnsAt c' (m s) (f s))).2) :
    o' = o ∧ l' = l ∧
      ((∀ s, ∀ xz, hstack (centreData lap (Spec.columnsAt v (m s) (f s)) (Spec.columnsAt c (m s) (f s))).1
          (centreData lap (Spec.columnsAt v (m s) (f s)) (Spec.columnsAt c (m s) (f s))).2 = .ok xz → Spec.SingularGap xz (m s)) →
        t' = t) := by
  obtain ⟨rs, hr, a1, a2, a3⟩ := (C52_standard hsh hv hc hp st _).1 h
  obtain ⟨rs', hr', b1, b2, b3⟩ := (C52_standard hsh hv' hc' hp st' _).1 h'
  have key := fun s => C146_standard hsvd hinv hpinv (v := Spec.columnsAt v (m s) (f s)) (i := Spec.columnsAt c (m s) (f s)) rfl (hr s st) (hr' s st') (hs s)
  have e1 : (fun s => (rs' s).1) = fun s => (rs s).1 := funext fun s => (key s).1
  have e3 : (fun s => (rs' s).2.2) = fun s => (rs s).2.2 := funext fun s => (key s).2.1
  refine ⟨Spec.Assembled.unique hp b1 (e1 ▸ a1), Spec.Assembled.unique hp b3 (e3 ▸ a3), fun hg => ?_⟩
  have e2 : (fun s => (rs' s).2.1) = fun s => (rs s).2.1 := funext fun s => by
    have hst : ∃ xz, hstack (centreData lap (Spec.columnsAt v (m s) (f s)) (Spec.columnsAt c (m s) (f s))).1
        (centreData lap (Spec.columnsAt v (m s) (f s)) (Spec.columnsAt c (m s) (f s))).2 = .ok xz := ⟨_, if_pos (hs s).rows⟩
    obtain ⟨xz, hst⟩ := hst
    exact (key s).2.2 xz hst (hg s xz hst)
  exact Spec.Assembled.unique hp b2 (e2 ▸ a2)

/-- Concrete case: six columns in two nodes of three sequences; the two samples exchanged and turned by a quarter give the same
weighted fit on unsynchronised measurements. -/
example (cf : IdConf) (lap : Bool) (K : Nat) : ∃ v' : Arr2 ℂ, v' ≠ demoV150 ∧
    bayesianEiv3 ⟨exactPinv, exactSvd, exactInv, exactSolve⟩ cf "a" v' v' [0, 1, 2, 0, 1, 2] ⟨1, 1⟩ ⟨1, 1⟩ [1, 1, 1, 1, 1, 1] demoY150 none lap true K false =
      bayesianEiv3 ⟨exactPinv, exactSvd, exactInv, exactSolve⟩ cf "a" demoV150 demoV150 [0, 1, 2, 0, 1, 2] ⟨1, 1⟩ ⟨1, 1⟩ [1, 1, 1, 1, 1, 1] demoY150 none lap true K false := by
  have hs : ∀ t : Fin 2, ((Equiv.swap (0 : Fin 2) 1) t).val = 1 - t.val := by decide
  refine ⟨Arr2.ofFn 2 6 (fun t j => Complex.I * demoV150.get (1 - t) j), ?_, ?_⟩
  · intro h
    have h0 := congrArg (fun A => (Arr2.get A 0 0).im) h
    simp [demoV150, demoV126, Arr2.ofFn_get'] at h0
  · have hr : Spec.Rewritten (T := 2) (n := 6) demoV150 (Arr2.ofFn 2 6 (fun t j => Complex.I * demoV150.get (1 - t) j)) 1 (fun _ => Complex.I)
        (Equiv.swap 0 1) 1 := ⟨⟨rfl, rfl⟩, ⟨rfl, rfl⟩, fun t k => by rw [Arr2.ofFn_get _ t.2 k.2, hs]; simp⟩
    refine C147_three exactSolve_exact exactSolve_total cf "a" (fun _ => by simp) hr hr _ _ demo150_data demo150_labels lap true K false
      (by simp) (fun _ => ⟨fun _ => le_rfl, one_pos, one_pos, fun _ t j ht hj => ?_⟩)
    rw [demoV150, Arr2.ofFn_get _ ht hj, demoV126, Arr2.ofFn_get _ ht (by omega)]
    split <;> simp

/-- Concrete case for the standard methods: with the two samples exchanged, two runs give the same estimates. -/
example (cf : IdConf) (lap : Bool) (K : Nat) (st st' : Store) (r r' : Arr2 ℂ × Arr2 ℂ × Arr2 ℂ)
    (h : (standardMethods3 demoExt115 cf "a" (some demoV150) (some demoV150) (some [0, 1, 2, 0, 1, 2]) lap K st).res = .ok r)
    (h' : (standardMethods3 demoExt115 cf "b" (some (Arr2.ofFn 2 6 (fun t j => demoV150.get (1 - t) j)))
      (some (Arr2.ofFn 2 6 (fun t j => demoV150.get (1 - t) j))) (some [0, 1, 2, 0, 1, 2]) lap K st').res = .ok r') :
    r'.1 = r.1 ∧ r'.2.2 = r.2.2 := by
  have hs : ∀ t : Fin 2, ((Equiv.swap (0 : Fin 2) 1) t).val = 1 - t.val := by decide
  have hr : Spec.Rewritten (T := 2) (n := 6) demoV150 (Arr2.ofFn 2 6 (fun t j => demoV150.get (1 - t) j)) 1 (fun _ => 1)
      (Equiv.swap 0 1) 1 := ⟨⟨rfl, rfl⟩, ⟨rfl, rfl⟩, fun t k => by rw [Arr2.ofFn_get _ t.2 k.2, hs]; simp⟩
  have hc := fun l => columns_resampled (m := 2) (fun j hj => (demo150_labels l).lt j hj) hr
  obtain ⟨h1, h2, -⟩ := C146_three demoExt_shapes exactSvd_contract exactInv_sound exactPinv_contract rfl rfl rfl rfl demo150_labels h h'
    fun l => C146_samples (fun _ => by simp) (centreData_order lap (hc l) (hc l)).1 (centreData_order lap (hc l) (hc l)).2
  exact ⟨h1, h2⟩

end
end Verif
