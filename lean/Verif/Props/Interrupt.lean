/-
Properties C51 and C54: interruption and reloading of three-phase identification.
-/
import Verif.Props.Phases
import Verif.Lemmas.Kron

namespace Verif
open Prog hiding pure bind read save call ofExcept
open Spec (LabelPos Assembled Merged columnsAt blockAt entriesAt IsSquare IsSymm)

theorem seen_left {α β : Type} {p : Prog α} {f : α → Prog β} {st s : Store} (h : s ∈ (p st).seen) : s ∈ ((p >>= f) st).seen := by
  match hp : (p st).res with
  | .error e => rw [bind_error hp]; exact h
  | .ok a => rw [Prog.bind_ok hp]; exact List.mem_append_left _ h

theorem seen_right {α β : Type} {p : Prog α} {f : α → Prog β} {st s : Store} {a : α} (hp : (p st).res = .ok a)
    (h : s ∈ (f a (p st).store).seen) : s ∈ ((p >>= f) st).seen := by
  rw [Prog.bind_ok hp]; exact List.mem_append_right _ h

variable {ext : NumExt} {cf : IdConf} {name : String} {v c : Arr2 ℂ} {ids : List Int} {lap : Bool} {iters : Nat}
variable {vsd isd : SdPolar} {ratings : List ℝ} {y0 : Arr2 ℂ} {ye : Option (Arr2 ℂ)} {weighted pmu : Bool}

/-! ### C51 -/

/-- the file holds nothing or a result for all labels -/
def Spec.CompleteStandard (n : Nat) (d : Option Npz) : Prop := d = none ∨ ∃ y, d = some (standardNpz y) ∧ IsSquare n y.1

/-- the file holds nothing or a result for all labels -/
def Spec.CompleteBayesian (n : Nat) (d : Option Npz) : Prop := d = none ∨ ∃ y, d = some (bayesianNpz y) ∧ IsSquare n y.1

theorem standardNpz_inj {y y' : Arr2 ℂ × Arr2 ℂ × Arr2 ℂ} (h : standardNpz y = standardNpz y') : y.1 = y'.1 := by
  have := congrFun h "o"
  simpa [standardNpz, npz, List.lookup] using this

theorem bayesianNpz_inj {y y' : Arr2 ℂ × List IterationStatus} (h : bayesianNpz y = bayesianNpz y') : y.1 = y'.1 := by
  have := congrFun h "y"
  simpa [bayesianNpz, npz, List.lookup] using this

/-- C51 violated, standard methods: whenever not all labels are zero and the identification of sequence zero succeeds, an
interruption after it leaves a file that is not complete: neither the previous result nor a new one -/
theorem C51_standard_violated (hs : Spec.Shapes ext) (hv : ids.length = v.c) (hc : ids.length = c.c) {m : Nat} {f : Nat → Nat}
    (hp : LabelPos ids 0 m f) (hm : m ≠ ids.length) {r : Arr2 ℂ × Arr2 ℂ × Arr2 ℂ}
    (hr : standardCompute ext cf (columnsAt v m f) (columnsAt c m f) lap iters = .ok r) (st : Store) :
    ∃ s ∈ crashStates (standardMethods3 ext cf name (some v) (some c) (some ids) lap iters) st,
      ¬Spec.CompleteStandard ids.length (s (resultFile .standard name)) := by
  refine ⟨st.savez (resultFile .standard name) (standardNpz r), ?_, ?_⟩
  · refine List.mem_cons_of_mem _ ?_
    unfold standardMethods3
    refine seen_left ?_
    dsimp only
    unfold standardLoop
    refine seen_left ?_
    unfold standardStep
    refine seen_right (a := columnsAt v m f) (by rw [ofExcept_run, labelCols_eq hp hv]) ?_
    refine seen_right (a := columnsAt c m f) (by rw [ofExcept_run, ofExcept_run, labelCols_eq hp hc]) ?_
    refine seen_left ?_
    simp [standardMethods, hr]
  · rw [savez_same]
    rintro (h | ⟨y, h, hy⟩)
    · cases h
    · have hq := (standardCompute_square hs (v := columnsAt v m f) (c := columnsAt c m f) (m := m) rfl rfl hr).1
      rw [standardNpz_inj (Option.some.inj h)] at hq
      exact hm (hq.1.symm.trans hy.1)

/-- C51 violated, Bayesian method -/
theorem C51_bayesian_violated (hi : 0 < iters) (h0 : 0 ∈ ids) (hd : Spec.PhaseData ids v c ratings y0 ye) {m : Nat} {f : Nat → Nat}
    (hp : LabelPos ids 0 m f) (hm : m ≠ ids.length) {r : Arr2 ℂ × List IterationStatus} (st : Store)
    (hr : labelRun ext cf name v c vsd isd ratings y0 ye lap weighted iters pmu m f st = .ok r) :
    ∃ s ∈ crashStates (bayesianEiv3 ext cf name v c ids vsd isd ratings y0 ye lap weighted iters pmu) st,
      ¬Spec.CompleteBayesian ids.length (s (resultFile .bayesian name)) := by
  have he : labelExact ye ids 0 = .ok (ye.map (fun y => blockAt y m f)) := by
    unfold labelExact
    cases ye with
    | none => rfl
    | some y =>
      dsimp only
      rw [labelBlock_eq hp (hd.exact y rfl)]
      rfl
  refine ⟨st.savez (resultFile .bayesian name) (bayesianNpz r), ?_, ?_⟩
  · refine List.mem_cons_of_mem _ ?_
    unfold bayesianEiv3
    rw [if_pos h0]
    refine seen_left ?_
    unfold bayesianStep
    refine seen_right (a := columnsAt v m f) (by rw [ofExcept_run, labelCols_eq hp hd.v]) ?_
    refine seen_right (a := columnsAt c m f) (by rw [ofExcept_run, labelCols_eq hp hd.c]) ?_
    refine seen_right (a := entriesAt ratings m f) (by rw [ofExcept_run, labelEntries_eq hp hd.ratings]) ?_
    refine seen_right (a := blockAt y0 m f) (by rw [ofExcept_run, labelBlock_eq hp hd.init]) ?_
    refine seen_right (a := ye.map (fun y => blockAt y m f)) (by rw [ofExcept_run, he]) ?_
    refine seen_left ?_
    simp only [ofExcept_run, call_run, List.mem_singleton]
    unfold labelRun at hr
    unfold bayesianEiv at hr ⊢
    dsimp only at hr ⊢
    split at hr
    · cases hr
    · rw [decide_eq_true hi] at hr ⊢
      dsimp only at hr ⊢
      split at hr
      · cases hr
      · cases hr
        rfl
  · rw [savez_same]
    rintro (h | ⟨y, h, hy⟩)
    · cases h
    · have hq := (labelRun_square hi hr).1
      rw [bayesianNpz_inj (Option.some.inj h)] at hq
      exact hm (hq.1.symm.trans hy.1)

/-- C51 for runs that identify all phases together, and for single-phase runs: at every point the file is the previous one or the
complete new one -/
theorem C51_partial (st : Store) :
    (∀ s ∈ crashStates (standardMethods3 ext cf name (some v) (some c) none lap iters) st,
      s (resultFile .standard name) = st (resultFile .standard name) ∨
      ∃ r, (standardMethods3 ext cf name (some v) (some c) none lap iters st).res = .ok r ∧
        s (resultFile .standard name) = some (standardNpz r)) ∧
    (∀ s ∈ crashStates (Prog.call (standardMethods ext cf name (some v) (some c) lap iters)) st,
      s (resultFile .standard name) = st (resultFile .standard name) ∨
      ∃ r, (standardMethods ext cf name (some v) (some c) lap iters st).1 = .ok r ∧
        s (resultFile .standard name) = some (standardNpz r)) ∧
    (∀ s ∈ crashStates (Prog.call (bayesianEiv ext cf name (some v) (some c) vsd isd ratings y0 ye lap weighted iters pmu)) st,
      s (resultFile .bayesian name) = st (resultFile .bayesian name) ∨
      ∃ r, (bayesianEiv ext cf name (some v) (some c) vsd isd ratings y0 ye lap weighted iters pmu st).1 = .ok r ∧
        s (resultFile .bayesian name) = some (bayesianNpz r)) := by
  refine ⟨?_, ?_, ?_⟩
  · intro s hs
    rcases List.mem_cons.1 hs with rfl | hs
    · exact .inl rfl
    · unfold standardMethods3 at hs ⊢
      dsimp only at hs ⊢
      cases hq : standardCompute ext cf v c lap iters with
      | error e =>
        rw [hq, bind_error (e := e) rfl] at hs
        simp at hs
      | ok r =>
        rw [hq, Prog.bind_ok (a := r) rfl, Prog.bind_ok (a := ()) rfl] at hs
        simp only [ofExcept_run, save_run, pure_run, List.append_nil, List.nil_append, List.mem_singleton] at hs
        subst hs
        exact .inr ⟨r, rfl, savez_same ..⟩
  · intro s hs
    rcases List.mem_cons.1 hs with rfl | hs
    · exact .inl rfl
    · simp only [call_run, List.mem_singleton] at hs
      subst hs
      unfold standardMethods
      dsimp only
      split
      · exact .inl rfl
      · rename_i r _
        exact .inr ⟨r, rfl, savez_same ..⟩
  · intro s hs
    rcases List.mem_cons.1 hs with rfl | hs
    · exact .inl rfl
    · simp only [call_run, List.mem_singleton] at hs
      subst hs
      unfold bayesianEiv
      dsimp only
      split
      · exact .inl rfl
      · split
        · split
          · exact .inl rfl
          · rename_i r _
            exact .inr ⟨r, rfl, savez_same ..⟩
        · exact .inl rfl

/-! ### C54 -/

theorem bayesian_reload_fst {st : Store} :
    (bayesianEiv ext cf name (some v) (some c) vsd isd ratings y0 ye lap weighted 0 pmu st).1 =
      (eivPrior cf v.c y0 ye lap >>= fun _ => bayesianLoad st name) ∧
    (bayesianEiv ext cf name (some v) (some c) vsd isd ratings y0 ye lap weighted 0 pmu st).2 = st := by
  unfold bayesianEiv
  dsimp only
  split
  · rename_i h; rw [h]; exact ⟨rfl, rfl⟩
  · rename_i h
    rw [h]
    exact ⟨rfl, rfl⟩

/-- a program that writes nothing -/
theorem quiet {α : Type} {p : Prog α} (h : ∀ file, Frame file p) (st : Store) : (p st).store = st ∧ ∀ s ∈ (p st).seen, s = st :=
  ⟨funext fun file => (h file st).1, fun s hs => funext fun file => (h file st).2 s hs⟩

theorem bayesianStep_reload {y : Arr2 ℂ} {i : Int} (file : String) :
    Frame file (bayesianStep ext cf name v c ids vsd isd ratings y0 ye lap weighted 0 pmu y i) := by
  unfold bayesianStep
  exact .bind (.ofExcept _) fun _ => .bind (.ofExcept _) fun _ => .bind (.ofExcept _) fun _ => .bind (.ofExcept _) fun _ =>
    .bind (.ofExcept _) fun _ => .bind (.call fun st => by rw [bayesian_reload_fst.2]) fun _ => .bind (.ofExcept _) fun _ => .pure _

theorem scatter_error {a b : Arr2 ℂ} {i : Int} (ha : IsSquare ids.length a) (h1 : b.r * b.c ≠ ids.count i * ids.count i)
    (h2 : b.r * b.c ≠ 1) : a.scatter ids i b = .error .valueError := by
  unfold Arr2.scatter
  rw [if_pos ⟨ha.1.symm, ha.2.symm⟩]
  dsimp only
  rw [if_neg h1, if_neg h2]

theorem scatter_shape {a b a' : Arr2 ℂ} {i : Int} (h : a.scatter ids i b = .ok a') : a'.r = a.r ∧ a'.c = a.c := by
  unfold Arr2.scatter at h
  dsimp only at h
  split at h
  · split at h
    · cases h; exact ⟨rfl, rfl⟩
    · split at h
      · cases h; exact ⟨rfl, rfl⟩
      · cases h
  · cases h

theorem bayesianStep_reload_run (hd : Spec.PhaseData ids v c ratings y0 ye) {i : Int} {a y : Arr2 ℂ} {log : List IterationStatus}
    {st : Store} (hl : bayesianLoad st name = .ok (y, log)) :
    (∃ e, (bayesianStep ext cf name v c ids vsd isd ratings y0 ye lap weighted 0 pmu a i st).res = .error e) ∨
    ∃ a', a.scatter ids i y = .ok a' ∧
      (bayesianStep ext cf name v c ids vsd isd ratings y0 ye lap weighted 0 pmu a i st).res = .ok (a', log) := by
  obtain ⟨m, f, hp⟩ := exists_labelPos ids i
  rw [bayesianStep_run hd hp]
  unfold labelRun
  rw [bayesian_reload_fst.1]
  cases eivPrior cf (columnsAt v m f).c (blockAt y0 m f) (ye.map (fun y => blockAt y m f)) lap with
  | error e => exact .inl ⟨e, rfl⟩
  | ok pr =>
    dsimp only [bind, Except.bind]
    rw [hl]
    dsimp only
    cases ha : a.scatter ids i y with
    | error e => exact .inl ⟨e, rfl⟩
    | ok a' => exact .inr ⟨a', rfl, rfl⟩

theorem reload_fails (hd : Spec.PhaseData ids v c ratings y0 ye) (hn : 2 ≤ ids.length) {y : Arr2 ℂ} {log : List IterationStatus}
    (hy : IsSquare ids.length y) {st : Store} (hl : bayesianLoad st name = .ok (y, log)) :
    ∃ e seen, bayesianEiv3 ext cf name v c ids vsd isd ratings y0 ye lap weighted 0 pmu st = ⟨.error e, st, seen⟩ ∧ ∀ s ∈ seen, s = st := by
  unfold bayesianEiv3
  split
  · have hbig : y.r * y.c ≠ 1 := by
      rw [hy.1, hy.2]
      intro h
      have := Nat.eq_one_of_mul_eq_one_left h
      omega
    have q0 := quiet (fun file => bayesianStep_reload (ext := ext) (cf := cf) (name := name) (v := v) (c := c) (ids := ids) (vsd := vsd)
      (isd := isd) (ratings := ratings) (y0 := y0) (ye := ye) (lap := lap) (weighted := weighted) (pmu := pmu)
      (y := Arr2.zeros y0.r y0.c) (i := 0) file) st
    rcases bayesianStep_reload_run (ext := ext) (cf := cf) (vsd := vsd) (isd := isd) (lap := lap) (weighted := weighted) (pmu := pmu)
      (a := Arr2.zeros y0.r y0.c) (i := 0) hd hl with ⟨e, he⟩ | ⟨a, ha, he⟩
    · exact ⟨e, _, by rw [bind_error he, q0.1], q0.2⟩
    · have h0 : ids.count 0 = ids.length := by
        by_contra hne
        rw [scatter_error (a := Arr2.zeros y0.r y0.c) ⟨hd.init.1, hd.init.2⟩ (by
          rw [hy.1, hy.2]
          intro h
          exact hne (Nat.mul_self_inj.1 h).symm) hbig] at ha
        cases ha
      have h1 : ids.count 1 = 0 := by
        rw [List.count_eq_zero]
        intro hmem
        have := List.count_eq_length.1 h0 1 hmem
        exact absurd this (by decide)
      rw [Prog.bind_ok he, q0.1]
      dsimp only
      have q1 := quiet (fun file => bayesianStep_reload (ext := ext) (cf := cf) (name := name) (v := v) (c := c) (ids := ids) (vsd := vsd)
        (isd := isd) (ratings := ratings) (y0 := y0) (ye := ye) (lap := lap) (weighted := weighted) (pmu := pmu)
        (y := a) (i := 1) file) st
      rcases bayesianStep_reload_run (ext := ext) (cf := cf) (vsd := vsd) (isd := isd) (lap := lap) (weighted := weighted) (pmu := pmu)
        (a := a) (i := 1) hd hl with ⟨e, he⟩ | ⟨a', ha', -⟩
      · refine ⟨e, _, by rw [bind_error he, q1.1], ?_⟩
        intro s hs
        rcases List.mem_append.1 hs with hs | hs
        · exact q0.2 s hs
        · exact q1.2 s hs
      · have hs := scatter_shape ha
        rw [scatter_error ⟨hs.1.trans hd.init.1, hs.2.trans hd.init.2⟩ (by
          rw [hy.1, hy.2, h1]
          intro h
          have := Nat.mul_self_inj.1 h
          omega) hbig] at ha'
        cases ha'
  · exact ⟨_, _, rfl, by simp⟩

/-- C54 violated: with a stored three-phase result of at least two nodes, a run that is to reload it never returns -/
theorem C54_violated (hd : Spec.PhaseData ids v c ratings y0 ye) (hn : 2 ≤ ids.length) {y : Arr2 ℂ} {log : List IterationStatus}
    (hy : IsSquare ids.length y) {st : Store} (hl : bayesianLoad st name = .ok (y, log)) :
    ∃ e, (bayesianEiv3 ext cf name v c ids vsd isd ratings y0 ye lap weighted 0 pmu st).res = .error e := by
  obtain ⟨e, seen, h, -⟩ := reload_fails (ext := ext) (cf := cf) (vsd := vsd) (isd := isd) (lap := lap) (weighted := weighted) (pmu := pmu)
    hd hn hy hl
  exact ⟨e, by rw [h]⟩

/-- C54, what remains true: the failing run leaves the stored result as it is, so that `bayesian_eiv` for one phase, or a repetition
of the three-phase method, can still use it -/
theorem C54_partial (hd : Spec.PhaseData ids v c ratings y0 ye) (hn : 2 ≤ ids.length) {y : Arr2 ℂ} {log : List IterationStatus}
    (hy : IsSquare ids.length y) {st : Store} (hl : bayesianLoad st name = .ok (y, log)) :
    (bayesianEiv3 ext cf name v c ids vsd isd ratings y0 ye lap weighted 0 pmu st).store = st ∧
    ∀ s ∈ crashStates (bayesianEiv3 ext cf name v c ids vsd isd ratings y0 ye lap weighted 0 pmu) st, s = st := by
  obtain ⟨e, seen, h, hs⟩ := reload_fails (ext := ext) (cf := cf) (vsd := vsd) (isd := isd) (lap := lap) (weighted := weighted)
    (pmu := pmu) hd hn hy hl
  unfold crashStates
  rw [h]
  exact ⟨rfl, by simpa using hs⟩

/-- a stored result and data as in C54 -/
example : ∃ (ids : List Int) (v c : Arr2 ℂ) (ratings : List ℝ) (y0 y : Arr2 ℂ) (log : List IterationStatus) (st : Store),
    Spec.PhaseData ids v c ratings y0 none ∧ ids = [0, 1, 2] ∧ 0 ∈ ids ∧ IsSquare ids.length y ∧ bayesianLoad st "a" = .ok (y, log) := by
  refine ⟨[0, 1, 2], Arr2.zeros 5 3, Arr2.zeros 5 3, [1, 1, 1], Arr2.zeros 3 3, Arr2.eye 3, [⟨0, Arr2.eye 3, 1⟩],
    Store.savez (fun _ => none) (resultFile .bayesian "a") (bayesianNpz (Arr2.eye 3, [⟨0, Arr2.eye 3, 1⟩])),
    ⟨rfl, rfl, rfl, ⟨rfl, rfl⟩, by simp⟩, rfl, by simp, ⟨rfl, rfl⟩, ?_⟩
  simp [bayesianLoad, Store.load, savez_same, bind, Except.bind, bayesianNpz, npz, Npz.mat, Npz.log, List.lookup, pure, Except.pure]

/-! ### data meeting the hypotheses of C51 and C52 -/

noncomputable section

/-- exact pseudo-inverse; the two other routines return matrices of the right shape -/
def shapedExt : NumExt := ⟨exactPinv, fun a => .ok (Arr2.eye a.c), fun a => .ok a, exactSolve⟩

theorem shapedExt_shapes : Spec.Shapes shapedExt := by
  refine ⟨fun a b h => ?_, fun a b h => ?_, fun a b h => ?_⟩
  · obtain ⟨p, h1, h2⟩ := exactPinv_contract a
    have : p = b := Except.ok.inj (h1.symm.trans h)
    exact this ▸ ⟨h2.rows, h2.cols⟩
  · cases h
    exact ⟨rfl, rfl⟩
  · cases h
    exact ⟨rfl, rfl⟩

theorem shapedExt_runs (cf : IdConf) (v c : Arr2 ℂ) (hr : v.r = c.r) (hc : v.c = c.c) (lap : Bool) :
    ∃ r, standardCompute shapedExt cf v c lap 0 = .ok r := by
  obtain ⟨s1, s2, s3, s4⟩ := centreData_shape lap v c
  unfold standardCompute
  generalize centreData lap v c = d at s1 s2 s3 s4
  obtain ⟨x, z⟩ := d
  dsimp only at s1 s2 s3 s4 ⊢
  obtain ⟨p, h1, h2⟩ := exactPinv_contract x
  have ho : complexRegressionFit shapedExt.pinv x z = .ok (Arr2.ofFn p.r z.c (p.mulGet z)) := by
    unfold complexRegressionFit
    have : shapedExt.pinv x = .ok p := h1
    rw [this]
    dsimp only [bind, Except.bind]
    unfold Arr2.matmul
    rw [if_pos (by rw [h2.cols, s1, s3, hr])]
  have ht : ∃ t, tlsFit shapedExt.svdVh shapedExt.inv x z = .ok t := by
    unfold tlsFit hstack
    rw [if_pos (by rw [s1, s3, hr])]
    dsimp only [bind, Except.bind, shapedExt, pure, Except.pure]
    unfold Arr2.matmul
    rw [if_pos]
    · exact ⟨_, rfl⟩
    · show x.c + z.c - min x.c (x.c + z.c) = x.c + z.c - min x.c (x.c + z.c)
      rfl
  obtain ⟨t, ht⟩ := ht
  obtain ⟨pr, hp, -⟩ := lasso_computes v.c (Arr2.ofFn p.r z.c (p.mulGet z))
    ⟨h2.rows.trans s2, s4.trans hc.symm⟩ lap
  rw [ho, ht]
  dsimp only [bind, Except.bind]
  rw [hp]
  exact ⟨_, rfl⟩

/-- positions of the labels `[0, 1, 2, 0]` -/
theorem labels4 : LabelPos [0, 1, 2, 0] 0 2 (fun a => 3 * a) := by
  refine ⟨fun a b h _ => by omega, fun a h => ?_, fun a h => ?_, fun p h hl => ?_⟩
  · show 3 * a < 4
    omega
  · interval_cases a <;> rfl
  · have : p < 4 := h
    interval_cases p
    · exact ⟨0, by omega, rfl⟩
    · cases hl
    · cases hl
    · exact ⟨1, by omega, rfl⟩

/-- three-phase data of four columns: the whole run succeeds, with the standard files of two of the columns being visible on the way -/
example (cf : IdConf) (v c : Arr2 ℂ) (hv : v.c = 4) (hc : c.c = 4) (h : v.r = c.r) (st : Store) :
    (∃ r, (standardMethods3 shapedExt cf "a" (some v) (some c) (some [0, 1, 2, 0]) false 0 st).res = .ok r) ∧
    ∃ s ∈ crashStates (standardMethods3 shapedExt cf "a" (some v) (some c) (some [0, 1, 2, 0]) false 0) st,
      ¬Spec.CompleteStandard 4 (s (resultFile .standard "a")) := by
  constructor
  · choose m f hp using fun l : Fin 3 => exists_labelPos [0, 1, 2, 0] (l.val : Int)
    choose rs hr using fun l : Fin 3 =>
      shapedExt_runs cf (columnsAt v (m l) (f l)) (columnsAt c (m l) (f l)) h rfl false
    obtain ⟨r, hr, -⟩ := standardMethods3_ok (name := "a") (ids := [0, 1, 2, 0]) shapedExt_shapes hv.symm hc.symm hp hr st
    exact ⟨r, hr⟩
  · obtain ⟨r, hr⟩ := shapedExt_runs cf (columnsAt v 2 fun a => 3 * a) (columnsAt c 2 fun a => 3 * a) h rfl false
    exact C51_standard_violated (ids := [0, 1, 2, 0]) shapedExt_shapes hv.symm hc.symm labels4 (by decide) hr st

/-- logs of lengths two, one and two for one node per phase: one merged entry -/
example (a b c : ℝ) : ∃ log, mergedLog 3 [0, 1, 2] ![[⟨0, Arr2.eye 1, a⟩, ⟨1, Arr2.eye 1, 0⟩], [⟨0, Arr2.eye 1, b⟩],
    [⟨0, Arr2.eye 1, c⟩, ⟨1, Arr2.eye 1, 0⟩]] = .ok log ∧ log.length = 1 := by
  refine ⟨_, rfl, ?_⟩
  rfl

end

end Verif
