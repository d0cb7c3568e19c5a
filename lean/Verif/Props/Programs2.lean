/-
Properties C79 to C81: phase selection, uncertainty analysis, continued identification and constant loads.
-/
import Verif.Props.Programs
import Verif.Props.Loads2

namespace Verif
open Prog hiding pure bind read save call ofExcept
open Spec (Redone Requested PlainName LabelPos columnsAt blockAt entriesAt IsSquare Digit Selected Columns)

/-! ### C79 -/

/-- C79, accepted strings: other strings are rejected before anything is read or written -/
theorem C79_accepts (ext : NumExt) (cf : IdConf) (sc : SimConf) (a : IdArgs) :
    (checkPhases a.phases a.sequence = .ok () ↔
      (a.sequence = true ∧ a.phases ∈ ["012", "0", "1", "2"]) ∨ (a.sequence = false ∧ a.phases ∈ ["123", "1", "2", "3"])) ∧
    (¬((a.sequence = true ∧ a.phases ∈ ["012", "0", "1", "2"]) ∨ (a.sequence = false ∧ a.phases ∈ ["123", "1", "2", "3"])) →
      ∀ st, identify ext cf sc a st = ⟨.error .notImplementedError, st, []⟩) := by
  have h : checkPhases a.phases a.sequence = .ok () ↔
      (a.sequence = true ∧ a.phases ∈ ["012", "0", "1", "2"]) ∨ (a.sequence = false ∧ a.phases ∈ ["123", "1", "2", "3"]) := by
    unfold checkPhases
    simp only [List.mem_cons, List.not_mem_nil, or_false]
    split
    · rename_i hc
      refine ⟨fun h => (nomatch h), fun h => ?_⟩
      cases hs : a.sequence <;> simp only [hs] at hc h <;> simp at hc h <;> tauto
    · rename_i hc
      refine ⟨fun _ => ?_, fun _ => rfl⟩
      cases hs : a.sequence <;> simp only [hs] at hc ⊢ <;> simp at hc ⊢ <;> tauto
  refine ⟨h, fun hn st => ?_⟩
  rw [← h] at hn
  have he : checkPhases a.phases a.sequence = .error .notImplementedError := by
    unfold checkPhases at hn ⊢
    split
    · rfl
    · rename_i hc
      rw [if_neg hc] at hn
      exact absurd rfl hn
  unfold identify
  rw [bind_error (e := .notImplementedError) (by rw [ofExcept_run, he])]
  rw [ofExcept_run]

theorem label_mem {ids : List Int} {k : Nat} (h : k < ids.length) : ids.getD k 0 ∈ ids := by
  simp [List.getD, List.getElem?_eq_getElem h]

theorem keep_other (ids : List Int) (l : Int) : Arr2.keepIdx ids.length (otherLabels ids l) = labelled ids l := by
  unfold Arr2.keepIdx otherLabels labelled
  refine List.filter_congr fun k hk => ?_
  simp only [List.mem_filter, hk, true_and, decide_not]
  simp

theorem other_lt (ids : List Int) (l : Int) : ∀ k ∈ otherLabels ids l, k < ids.length := fun k hk => by
  unfold otherLabels at hk
  exact List.mem_range.1 (List.mem_filter.1 hk).1

theorem deleteCols_other {ids : List Int} {l : Int} {m : Nat} {f : Nat → Nat} (h : LabelPos ids l m f) {a : Arr2 ℂ}
    (hc : a.c = ids.length) : a.deleteCols (otherLabels ids l) = .ok (columnsAt a m f) := by
  have h1 := labelCols_eq h hc.symm
  unfold Arr2.labelCols at h1
  rw [if_pos hc.symm] at h1
  unfold Arr2.deleteCols
  rw [hc, if_pos (other_lt ids l), keep_other]
  exact h1

theorem deleteBlock_other {ids : List Int} {l : Int} {m : Nat} {f : Nat → Nat} (h : LabelPos ids l m f) {y : Arr2 ℂ}
    (hy : IsSquare ids.length y) :
    (y.deleteRows (otherLabels ids l) >>= fun y => y.deleteCols (otherLabels ids l)) = .ok (blockAt y m f) := by
  have h1 := labelBlock_eq h hy
  unfold labelBlock Arr2.labelRows at h1
  rw [if_pos hy.1.symm] at h1
  unfold Arr2.deleteRows
  rw [hy.1, if_pos (other_lt ids l), keep_other]
  dsimp only [bind, Except.bind] at h1 ⊢
  unfold Arr2.labelCols at h1
  unfold Arr2.deleteCols
  have hc : ids.length = y.c := hy.2.symm
  rw [if_pos (show ids.length = (Arr2.ofFn _ y.c _).c from hc)] at h1
  rw [if_pos (fun k hk => by show k < y.c; rw [← hc]; exact other_lt ids l k hk)]
  have : Arr2.keepIdx (Arr2.ofFn (labelled ids l).length y.c fun i j => y.get ((labelled ids l).getD i 0) j).c (otherLabels ids l) =
      labelled ids l := by
    show Arr2.keepIdx y.c _ = _
    rw [← hc, keep_other]
  rw [this]
  exact h1

theorem deleteEntries_other {ids : List Int} {l : Int} {m : Nat} {f : Nat → Nat} (h : LabelPos ids l m f) {v : List ℝ}
    (hv : v.length = ids.length) : deleteEntries v (otherLabels ids l) 0 = .ok (entriesAt v m f) := by
  have h1 := labelEntries_eq h hv.symm
  unfold labelEntries at h1
  rw [if_pos hv.symm] at h1
  unfold deleteEntries
  rw [hv, if_pos (other_lt ids l), keep_other]
  exact h1

theorem phaseNumber_digit {p : String} {l : Int} (h : Digit p l) : phaseNumber p = .ok l := by
  unfold Digit at h
  simp only [List.mem_cons, List.not_mem_nil, or_false, Prod.mk.injEq] at h
  rcases h with ⟨rfl, rfl⟩ | ⟨rfl, rfl⟩ | ⟨rfl, rfl⟩ | ⟨rfl, rfl⟩ <;> rfl

theorem digit_single {a : IdArgs} {l : Int} (h : Digit a.phases l) : a.threePhased = false := by
  unfold Digit at h
  unfold IdArgs.threePhased
  simp only [List.mem_cons, List.not_mem_nil, or_false, Prod.mk.injEq] at h
  rcases h with ⟨h, -⟩ | ⟨h, -⟩ | ⟨h, -⟩ | ⟨h, -⟩ <;> rw [h] <;> decide

/-- C79 where it holds: there is a label other than 1, or phase 1 is asked for. The selection fails exactly when no column has the
label (and there are labels other than 1); otherwise exactly the columns, rows and ratings with the label are kept, in order. -/
theorem C79_partial {a : IdArgs} {l : Int} (hl : Digit a.phases l) {d : NetworkData} {n : Nat} (hd : Columns n d) :
    ((∃ x ∈ d.ids, x ≠ 1) ∨ l = 1 → l ∈ d.ids → ∃ d', selectPhase a d = .ok d' ∧ Selected l d d') ∧
    ((∃ x ∈ d.ids, x ≠ 1) → l ∉ d.ids → selectPhase a d = .error .indexError) := by
  have h3 := digit_single hl
  constructor
  · intro hor hmem
    obtain ⟨m, f, hp⟩ := exists_labelPos d.ids l
    unfold selectPhase
    by_cases hx : ∃ x ∈ d.ids, x ≠ 1
    · rw [if_pos ⟨h3, hx⟩, phaseNumber_digit hl]
      dsimp only [bind, Except.bind]
      rw [if_pos hmem]
      have hb := deleteBlock_other hp (y := d.y) (by rw [hd.ids]; exact hd.y)
      obtain ⟨y1, hy1, hy2⟩ := Prior.bind_ok hb
      rw [hy1]
      dsimp only
      rw [hy2]
      dsimp only
      rw [deleteEntries_other hp (hd.ratings.trans hd.ids.symm)]
      dsimp only
      rw [deleteCols_other hp (hd.noisyVoltage.trans hd.ids.symm), deleteCols_other hp (hd.noisyCurrent.trans hd.ids.symm),
        deleteCols_other hp (hd.voltage.trans hd.ids.symm), deleteCols_other hp (hd.current.trans hd.ids.symm)]
      exact ⟨_, rfl, m, f, hp, rfl, rfl, rfl, rfl, rfl, rfl, rfl⟩
    · rw [if_neg fun h => hx h.2]
      have hl1 : l = 1 := hor.resolve_left hx
      have hall : ∀ p, p < d.ids.length → d.ids.getD p 0 = l := fun p hp => by
        rw [hl1]
        by_contra hne
        exact hx ⟨_, label_mem hp, hne⟩
      have hp' : LabelPos d.ids l n id := ⟨fun a b h _ => h, fun a ha => by rw [hd.ids]; exact ha,
        fun a ha => hall a (by rw [hd.ids]; exact ha), fun p hp _ => ⟨p, by rw [← hd.ids]; exact hp, rfl⟩⟩
      have hcol : ∀ x : Arr2 ℂ, x.c = n → x = columnsAt x n id := fun x hx => by
        refine Arr2.ext' rfl hx fun t j ht hj => ?_
        unfold columnsAt
        rw [Arr2.ofFn_get _ ht (by rw [← hx]; exact hj)]
        rfl
      refine ⟨d, rfl, n, id, hp', hcol _ hd.noisyVoltage, hcol _ hd.noisyCurrent, hcol _ hd.voltage, hcol _ hd.current, ?_, ?_, rfl⟩
      · refine Arr2.ext' hd.y.1 hd.y.2 fun t j ht hj => ?_
        unfold blockAt
        rw [Arr2.ofFn_get _ (by rw [← hd.y.1]; exact ht) (by rw [← hd.y.2]; exact hj)]
        rfl
      · refine List.ext_getElem (by simp [entriesAt, hd.ratings]) fun k h1 h2 => ?_
        simp [entriesAt, List.getD, List.getElem?_eq_getElem h1]
  · intro hx hmem
    unfold selectPhase
    rw [if_pos ⟨h3, hx⟩, phaseNumber_digit hl]
    dsimp only [bind, Except.bind]
    rw [if_neg hmem]

/-- C79 violated: on data of phase 1 only, asking for any other phase or sequence keeps everything instead of failing -/
theorem C79_violated {a : IdArgs} {l : Int} (hl : Digit a.phases l) (h1 : l ≠ 1) {d : NetworkData} {n : Nat} (hd : Columns n d)
    (hn : 0 < n) (hx : ∀ x ∈ d.ids, x = 1) :
    selectPhase a d = .ok d ∧ l ∉ d.ids ∧ ¬Selected l d d := by
  have hnot : l ∉ d.ids := fun h => h1 (hx l h)
  refine ⟨?_, hnot, ?_⟩
  · unfold selectPhase
    exact if_neg fun h => by
      obtain ⟨x, h2, h3⟩ := h.2
      exact h3 (hx x h2)
  · rintro ⟨m, f, hp, h2, -⟩
    have hm : m = n := by
      have := congrArg Arr2.c h2
      rw [hd.noisyVoltage] at this
      exact this.symm
    have hlt := hp.lt 0 (by omega)
    have := hp.label 0 (by omega)
    have hmem := label_mem hlt
    rw [this] at hmem
    exact hnot hmem

/-- data of two phases with three columns -/
example : ∃ (a : IdArgs) (d : NetworkData), Digit a.phases 2 ∧ Columns 3 d ∧ d.ids = [1, 2, 1] := by
  refine ⟨⟨"a", 1, true, false, false, "2", false, false, false, false, false, false⟩,
    ⟨Arr2.zeros 5 3, Arr2.zeros 5 3, Arr2.zeros 5 3, Arr2.zeros 5 3, Arr2.eye 3, [1, 1, 1], 1, [1, 2, 1]⟩, by simp [Digit],
    ⟨rfl, rfl, rfl, rfl, ⟨rfl, rfl⟩, rfl, rfl⟩, rfl⟩

/-! ### C80 -/

/-- C80 violated: no run with `--uncertainty` or `--continue-id` completes -/
theorem C80_violated (ext : NumExt) (cf : IdConf) (sc : SimConf) (a : IdArgs) (h : a.uncertainty = true ∨ a.continueId = true)
    (st : Store) : ∃ e, (identify ext cf sc a st).res = .error e := by
  cases hr : (identify ext cf sc a st).res with
  | error e => exact ⟨e, rfl⟩
  | ok r =>
    obtain ⟨h1, h2, -⟩ := identify_ok.1 hr
    rw [h1, h2] at h
    simp at h

/-- C80: a run that completes without `--uncertainty` fails with it, by reading an undefined name, after all files were written -/
theorem C80_uncertainty {ext : NumExt} {cf : IdConf} {sc : SimConf} {a : IdArgs} {st : Store}
    {r : (Arr2 ℂ × Arr2 ℂ × Arr2 ℂ) × (Arr2 ℂ × List IterationStatus)} (h : (identify ext cf sc a st).res = .ok r) :
    (identify ext cf sc { a with uncertainty := true } st).res = .error .nameError ∧
    (identify ext cf sc { a with uncertainty := true } st).store = (identify ext cf sc a st).store := by
  obtain ⟨hc, hu, h1, d, d', y0, st1, st2, h2, h3, rfl, h5, rfl, h6, h7, e⟩ := identify_ok.1 h
  rw [e]
  unfold identify
  rw [Prog.bind_ok (a := ()) h1]
  simp only [ofExcept_run]
  rw [Prog.bind_ok (a := d) h2]
  simp only [read_run]
  rw [Prog.bind_ok (a := d') h3]
  simp only [ofExcept_run]
  rw [Prog.bind_ok (a := ()) rfl]
  simp only [save_run]
  have h5' : (identifyStandard ext cf { a with uncertainty := true } d' (st.savez (resultFile .reference a.network)
      (referenceNpz d'.y a.phases a.laplacian))) = identifyStandard ext cf a d' (st.savez (resultFile .reference a.network)
      (referenceNpz d'.y a.phases a.laplacian)) := rfl
  rw [Prog.bind_ok (a := r.1) (by rw [h5']; exact h5), h5']
  have e : ∀ s, initialEstimate { a with uncertainty := true } r.1.2.1 s = ⟨.ok y0, s, []⟩ := fun s => by
    unfold initialEstimate
    dsimp only
    rw [hc]
    simp only [Bool.false_eq_true, if_false, ofExcept_run, h6]
  rw [Prog.bind_ok (a := y0) (by rw [e]), e]
  dsimp only
  have h7' : ∀ s, identifyBayesian ext cf sc { a with uncertainty := true } d' y0 s = identifyBayesian ext cf sc a d' y0 s := fun s => rfl
  rw [Prog.bind_ok (a := r.2) (by rw [h7']; exact h7), h7', hc]
  exact ⟨rfl, rfl⟩

/-- C80: a continued identification of one phase whose inputs are all there, and whose stages all complete, still fails, and the
previous result with its log is replaced by the result of the new iterations alone -/
theorem C80_continue {ext : NumExt} {cf : IdConf} {sc : SimConf} {a : IdArgs} {st : Store} {d d' : NetworkData}
    {s : Arr2 ℂ × Arr2 ℂ × Arr2 ℂ} {old new : Arr2 ℂ × List IterationStatus} {prior : Prior} (hn : PlainName a.network)
    (hc : a.continueId = true) (hph : checkPhases a.phases a.sequence = .ok ()) (h3 : a.threePhased = false)
    (hr : a.redoStls = true) (hi : 0 < a.maxIter) (h1 : networkLoad st a.network = .ok d) (h2 : selectPhase a d = .ok d')
    (h4 : ∀ st', st' (resultFile .standard a.network) = st (resultFile .standard a.network) →
      (identifyStandard ext cf a d' st').res = .ok s)
    (h5 : bayesianLoad st a.network = .ok old)
    (h6 : eivPrior cf d'.noisyVoltage.c old.1 (if a.exact && !a.laplacian then some d'.y else none) a.laplacian = .ok prior)
    (h7 : eivCompute ext cf prior d'.noisyVoltage d'.noisyCurrent (averagedSd sc.vm sc.vp d'.fparam) (averagedSd sc.cm sc.cp d'.fparam)
      d'.ratings old.1 a.laplacian a.weighted a.maxIter (!a.unsynchronized) = .ok new) :
    (identify ext cf sc a st).res = .error .attributeError ∧
    bayesianLoad (identify ext cf sc a st).store a.network = .ok new := by
  have hsr : resultFile .standard a.network ≠ resultFile .reference a.network := file_ne hn (by simp)
  have hbr : resultFile .bayesian a.network ≠ resultFile .reference a.network := file_ne hn (by simp)
  have hsb : resultFile .standard a.network ≠ resultFile .bayesian a.network := file_ne hn (by simp)
  unfold identify
  rw [Prog.bind_ok (a := ()) hph]
  simp only [ofExcept_run]
  rw [Prog.bind_ok (a := d) h1]
  simp only [read_run]
  rw [Prog.bind_ok (a := d') h2]
  simp only [ofExcept_run]
  rw [Prog.bind_ok (a := ()) rfl]
  simp only [save_run]
  have hst : (identifyStandard ext cf a d' (st.savez (resultFile .reference a.network)
      (referenceNpz d'.y a.phases a.laplacian))).store (resultFile .bayesian a.network) = st (resultFile .bayesian a.network) := by
    unfold identifyStandard
    rw [h3]
    simp only [Bool.false_eq_true, if_false, call_run]
    rw [standardMethods_frame hsb.symm, savez_other hbr]
  rw [Prog.bind_ok (a := s) (h4 _ (savez_other hsr))]
  generalize (identifyStandard ext cf a d' (st.savez (resultFile .reference a.network)
      (referenceNpz d'.y a.phases a.laplacian))).store = st2 at hst ⊢
  have e : initialEstimate a s.2.1 st2 = ⟨.ok old.1, st2, []⟩ := by
    have : bayesianLoad st2 a.network = .ok old := by
      unfold bayesianLoad at h5 ⊢
      rw [load_congr hst]
      exact h5
    unfold initialEstimate
    rw [hc]
    simp only [if_true]
    rw [Prog.bind_ok (a := old) this]
    simp
  rw [Prog.bind_ok (a := old.1) (by rw [e]), e]
  dsimp only
  have hb : identifyBayesian ext cf sc a d' old.1 st2 = ⟨.ok new, st2.savez (resultFile .bayesian a.network) (bayesianNpz new),
      [st2.savez (resultFile .bayesian a.network) (bayesianNpz new)]⟩ := by
    unfold identifyBayesian
    rw [h3, hr]
    simp only [Bool.false_eq_true, if_false, if_true, call_run]
    have : bayesianEiv ext cf a.network (some d'.noisyVoltage) (some d'.noisyCurrent) (averagedSd sc.vm sc.vp d'.fparam)
        (averagedSd sc.cm sc.cp d'.fparam) d'.ratings old.1 (if a.exact && !a.laplacian then some d'.y else none) a.laplacian
        a.weighted a.maxIter (!a.unsynchronized) st2 = (.ok new, st2.savez (resultFile .bayesian a.network) (bayesianNpz new)) := by
      unfold bayesianEiv
      dsimp only
      rw [h6]
      dsimp only
      rw [decide_eq_true hi]
      dsimp only
      rw [h7]
    rw [this]
  rw [Prog.bind_ok (a := new) (by rw [hb]), hb, hc]
  refine ⟨rfl, ?_⟩
  simp [bayesianLoad, Store.load, savez_same, bind, Except.bind, bayesianNpz, npz, Npz.mat, Npz.log, List.lookup, pure, Except.pure]

/-- C80 where it holds: without the two flags a run completes exactly when the data can be read and selected and the two methods
complete one after the other -/
theorem C80_partial {ext : NumExt} {cf : IdConf} {sc : SimConf} {a : IdArgs} (hc : a.continueId = false) (hu : a.uncertainty = false)
    (st : Store) (r : (Arr2 ℂ × Arr2 ℂ × Arr2 ℂ) × (Arr2 ℂ × List IterationStatus)) :
    (identify ext cf sc a st).res = .ok r ↔ checkPhases a.phases a.sequence = .ok () ∧
    ∃ d d' y0 st1 st2, networkLoad st a.network = .ok d ∧ selectPhase a d = .ok d' ∧
      st1 = st.savez (resultFile .reference a.network) (referenceNpz d'.y a.phases a.laplacian) ∧
      (identifyStandard ext cf a d' st1).res = .ok r.1 ∧ st2 = (identifyStandard ext cf a d' st1).store ∧
      halfSum r.1.2.1 = .ok y0 ∧ (identifyBayesian ext cf sc a d' y0 st2).res = .ok r.2 := by
  constructor
  · intro h
    obtain ⟨-, -, h1, d, d', y0, st1, st2, h2, h3, h4, h5, h6, h7, h8, -⟩ := identify_ok.1 h
    exact ⟨h1, d, d', y0, st1, st2, h2, h3, h4, h5, h6, h7, h8⟩
  · rintro ⟨h1, d, d', y0, st1, st2, h2, h3, h4, h5, h6, h7, h8⟩
    have key : ∀ s, (identify ext cf sc a st).store = s → (identify ext cf sc a st).res = .ok r := fun s hs => by
      subst h4 h6
      unfold identify
      rw [Prog.bind_ok (a := ()) h1]
      simp only [ofExcept_run]
      rw [Prog.bind_ok (a := d) h2]
      simp only [read_run]
      rw [Prog.bind_ok (a := d') h3]
      simp only [ofExcept_run]
      rw [Prog.bind_ok (a := ()) rfl]
      simp only [save_run]
      rw [Prog.bind_ok (a := r.1) h5]
      have e : ∀ s, initialEstimate a r.1.2.1 s = ⟨.ok y0, s, []⟩ := fun s => by
        unfold initialEstimate
        rw [hc]
        simp only [Bool.false_eq_true, if_false, ofExcept_run, h7]
      rw [Prog.bind_ok (a := y0) (by rw [e]), e]
      dsimp only
      rw [Prog.bind_ok (a := r.2) h8, hc, hu]
      rfl
    exact key _ rfl

/-! ### C81 -/

/-- the nodes whose load is kept constant, as they are used -/
theorem C81_exact (w : SimWorld) (cf : SimConf) (a : SimArgs) (bs : List BusData) (lp : LoadParams)
    (h : Requested w cf a (constantNodes cf a bs) lp) (x : Int) :
    (∃ L, lp.const = some L ∧ x ∈ L) ↔
      cf.constantHidden = true ∧ (x ∈ cf.hidden ∨ (a.laplacian = false ∧ a.threePhased = false ∧ ∃ b ∈ bs, b.type = typePcc ∧ b.id = x)) := by
  have hl : lp.const = constantNodes cf a bs := by
    rcases h with ⟨-, rfl⟩ | ⟨-, -, -, rfl⟩ <;> rfl
  rw [hl]
  unfold constantNodes hiddenNodes
  cases cf.constantHidden <;> cases a.laplacian <;> cases a.threePhased <;> simp [and_assoc]

/-- C81 violated: for a single-phase network that is not identified as a Laplacian, the buses connecting to the external grid are
among the nodes of constant load, configured or not -/
theorem C81_violated (w : SimWorld) (cf : SimConf) (a : SimArgs) (bs : List BusData) (lp : LoadParams)
    (h : Requested w cf a (constantNodes cf a bs) lp) (hc : cf.constantHidden = true) (h1 : a.laplacian = false)
    (h2 : a.threePhased = false) {b : BusData} (hb : b ∈ bs) (ht : b.type = typePcc) (hx : b.id ∉ cf.hidden) :
    ∃ L, lp.const = some L ∧ b.id ∈ L ∧ b.id ∉ cf.hidden := by
  obtain ⟨L, h3, h4⟩ := (C81_exact w cf a bs lp h b.id).2 ⟨hc, .inr ⟨h1, h2, b, hb, ht, rfl⟩⟩
  exact ⟨L, h3, h4, hx⟩

/-- C81 where it holds: Laplacian or three-phase identification, or no such bus outside the configured nodes -/
theorem C81_partial (w : SimWorld) (cf : SimConf) (a : SimArgs) (bs : List BusData) (lp : LoadParams)
    (h : Requested w cf a (constantNodes cf a bs) lp) (hc : cf.constantHidden = true)
    (hg : a.laplacian = true ∨ a.threePhased = true ∨ ∀ b ∈ bs, b.type = typePcc → b.id ∈ cf.hidden) (x : Int) :
    (∃ L, lp.const = some L ∧ x ∈ L) ↔ x ∈ cf.hidden := by
  rw [C81_exact w cf a bs lp h x]
  constructor
  · rintro ⟨-, hx | ⟨h1, h2, b, hb, ht, rfl⟩⟩
    · exact hx
    · rcases hg with hg | hg | hg
      · rw [hg] at h1; cases h1
      · rw [hg] at h2; cases h2
      · exact hg b hb ht
  · exact fun hx => ⟨hc, .inl hx⟩

/-- C81: the additional nodes change no load if their nominal powers are zero -/
theorem C81_harmless (rng : RandInt) (z : Nat → ℝ) (files : String → Option (Arr2 ℝ)) (α : ℝ) (net : Net) (lp lp' : LoadParams)
    (hraw : rawLoads rng z files net lp = rawLoads rng z files net lp') (hdays : lp.days = lp'.days) {L L' : List Int}
    (hL : lp.const = some L) (hL' : lp'.const = some L')
    (hz : ∀ l ∈ net.load, (l.bus ∈ L ↔ l.bus ∈ L') ∨ (l.p = 0 ∧ l.q = 0)) {r r' : Arr2 ℝ × Arr2 ℝ × List ℝ}
    (h : computeLoads rng z files α net lp = .ok r) (h' : computeLoads rng z files α net lp' = .ok r') : r = r' := by
  obtain ⟨p, q, t⟩ := r
  obtain ⟨p', q', t'⟩ := r'
  have z1 := C98 rng z files α net lp p q t h
  have z2 := C98 rng z files α net lp' p' q' t' h'
  obtain ⟨p0, q0, g0, g1, g2⟩ := computeLoads_ok h
  obtain ⟨p1, q1, k0, k1, k2⟩ := computeLoads_ok h'
  rw [hraw, k0] at g0
  cases g0
  obtain ⟨bp, bq⟩ := blendLoads_ok g1
  obtain ⟨bp', bq'⟩ := blendLoads_ok k1
  rw [hL] at bp bq
  rw [hL'] at bp' bq'
  have key : ∀ (nom : LoadRow → ℝ) (m m1 m2 : Arr2 ℝ), Blended α (some L) net.load LoadRow.bus nom m m1 →
      Blended α (some L') net.load LoadRow.bus nom m m2 →
      (∀ (i : Nat) (l : LoadRow), net.load[i]? = some l → nom l = 0 → (∀ k < m1.r, m1.get k i = 0) ∧ ∀ k < m2.r, m2.get k i = 0) →
      (∀ l ∈ net.load, (l.bus ∈ L ↔ l.bus ∈ L') ∨ nom l = 0) → m1 = m2 := by
    intro nom m m1 m2 hb hb' hzero hor
    refine Arr2.ext' (hb.1.trans hb'.1.symm) (hb.2.1.trans hb'.2.1.symm) fun i j hi hj => ?_
    have hi' : i < m.r := by rw [← hb.1]; exact hi
    have hj' : j < m.c := by rw [← hb.2.1]; exact hj
    obtain ⟨x1, x2⟩ := hb.2.2 i hi' j hj'
    obtain ⟨y1, y2⟩ := hb'.2.2 i hi' j hj'
    cases hl : net.load[j]? with
    | none =>
      rw [x2 (fun _ _ _ h => by rw [hl] at h; cases h), y2 (fun _ _ _ h => by rw [hl] at h; cases h)]
    | some l =>
      rcases hor l (List.mem_of_getElem? hl) with he | he
      · by_cases hm : l.bus ∈ L
        · rw [x1 L l rfl hl hm, y1 L' l rfl hl (he.1 hm)]
        · rw [x2 (fun N l' hN hl' => by rw [hl] at hl'; cases hl'; cases hN; exact hm),
            y2 (fun N l' hN hl' => by rw [hl] at hl'; cases hl'; cases hN; exact fun h => hm (he.2 h))]
      · obtain ⟨w1, w2⟩ := hzero j l hl he
        rw [w1 i hi, w2 i (by rw [hb'.1]; exact hi')]
  have e1 : p = p' := key LoadRow.p _ _ _ bp bp' (fun i l hl h0 => ⟨(z1 i l hl).1 h0, (z2 i l hl).1 h0⟩)
    (fun l hl => (hz l hl).imp id (·.1))
  have e2 : q = q' := key LoadRow.q _ _ _ bq bq' (fun i l hl h0 => ⟨(z1 i l hl).2 h0, (z2 i l hl).2 h0⟩)
    (fun l hl => (hz l hl).imp id (·.2))
  have e3 : t = t' := by rw [g2, k2, hdays]
  rw [e1, e2, e3]

/-! ### C54: a stored result of a single phase -/

section
variable {ext : NumExt} {cf : IdConf} {name : String} {v c : Arr2 ℂ} {ids : List Int} {lap : Bool} {vsd isd : SdPolar}
  {ratings : List ℝ} {y0 : Arr2 ℂ} {ye : Option (Arr2 ℂ)} {weighted pmu : Bool}

/-- C54 violated differently: if the stored result has the size of one phase (from an identification of a single phase of the same
network), the three-phase program that is to reload it puts three copies of it together, returns that and stores it over the
result -/
theorem C54_copies (h0 : 0 ∈ ids) (hd : Spec.PhaseData ids v c ratings y0 ye) {m : Nat} {f : Fin 3 → Nat → Nat}
    (hp : ∀ l : Fin 3, LabelPos ids (l.val : Int) m (f l))
    (hpr : ∀ l : Fin 3, ∃ prior, eivPrior cf m (blockAt y0 m (f l)) (ye.map (fun y => blockAt y m (f l))) lap = .ok prior)
    {y : Arr2 ℂ} {log : List IterationStatus} (hy : IsSquare m y) (hlog : ∀ e ∈ log, IsSquare m e.params) {st : Store}
    (hl : bayesianLoad st name = .ok (y, log)) :
    ∃ r, (bayesianEiv3 ext cf name v c ids vsd isd ratings y0 ye lap weighted 0 pmu st).res = .ok r ∧
      Spec.Assembled ids (fun _ => m) f (fun _ => y) r.1 ∧
      bayesianLoad (bayesianEiv3 ext cf name v c ids vsd isd ratings y0 ye lap weighted 0 pmu st).store name = .ok r := by
  obtain ⟨a1, a2, a3, e1, e2, e3, -, -, hA⟩ := assemble (m := fun _ => m) hp (ys := fun _ => y) (fun _ => hy) rfl
  obtain ⟨lg, hlg, -⟩ := mergedLog_ok (m := fun _ => m) hp (logs := fun _ => log) fun _ e he => hlog e he
  have run : ∀ (l : Fin 3) st', bayesianLoad st' name = .ok (y, log) →
      labelRun ext cf name v c vsd isd ratings y0 ye lap weighted 0 pmu m (f l) st' = .ok (y, log) := fun l st' hst => by
    unfold labelRun
    rw [bayesian_reload_fst.1]
    obtain ⟨prior, hq⟩ := hpr l
    have hq : eivPrior cf (columnsAt v m (f l)).c (blockAt y0 m (f l)) (ye.map (fun y => blockAt y m (f l))) lap = .ok prior := hq
    rw [hq]
    exact hst
  have kept : ∀ a i, (bayesianStep ext cf name v c ids vsd isd ratings y0 ye lap weighted 0 pmu a i st).store = st := fun a i =>
    (quiet (fun file => bayesianStep_reload file) st).1
  have s0 : (bayesianStep ext cf name v c ids vsd isd ratings y0 ye lap weighted 0 pmu (Arr2.zeros y0.r y0.c) 0 st).res =
      .ok (a1, log) := by
    rw [bayesianStep_run (i := 0) hd (hp 0), run 0 st hl, hd.init.1, hd.init.2]
    dsimp only [bind, Except.bind]
    rw [e1]
  have s1 : (bayesianStep ext cf name v c ids vsd isd ratings y0 ye lap weighted 0 pmu a1 1 st).res = .ok (a2, log) := by
    rw [bayesianStep_run (i := 1) hd (hp 1), run 1 st hl]
    dsimp only [bind, Except.bind]
    rw [e2]
  have s2 : (bayesianStep ext cf name v c ids vsd isd ratings y0 ye lap weighted 0 pmu a2 2 st).res = .ok (a3, log) := by
    rw [bayesianStep_run (i := 2) hd (hp 2), run 2 st hl]
    dsimp only [bind, Except.bind]
    rw [e3]
  have hlogs : (![log, log, log] : Fin 3 → List IterationStatus) = fun _ => log := by
    funext l
    fin_cases l <;> rfl
  have hres : (bayesianEiv3 ext cf name v c ids vsd isd ratings y0 ye lap weighted 0 pmu st).res = .ok (a3, lg) := by
    unfold bayesianEiv3
    rw [if_pos h0]
    rw [Prog.bind_ok s0]
    dsimp only
    rw [kept, Prog.bind_ok s1]
    dsimp only
    rw [kept, Prog.bind_ok s2]
    dsimp only
    rw [hlogs, hd.init.1, hlg]
    rfl
  refine ⟨_, hres, hA, ?_⟩
  have hk := bayesianEiv3_stored hres
  simp [bayesianLoad, Store.load, hk, bind, Except.bind, bayesianNpz, npz, Npz.mat, Npz.log, List.lookup, pure, Except.pure]

end

/-- C54 for the whole program: with data of at least two columns and a stored three-phase result, `identify` on the three sequences
with only the standard methods to be redone never completes, and keeps the stored result -/
theorem C54_program {ext : NumExt} (hs : Spec.Shapes ext) {cf : IdConf} {sc : SimConf} {a : IdArgs} (hn : PlainName a.network)
    (hph : a.phases = "012") (h1 : a.standard = true) (h2 : a.bayesian = false) {st : Store} {d : NetworkData} {n : Nat} (h3 : 2 ≤ n)
    (hd : networkLoad st a.network = .ok d) (hc : Columns n d) {y : Arr2 ℂ} {log : List IterationStatus} (hy : IsSquare n y)
    (hl : bayesianLoad st a.network = .ok (y, log)) :
    ∃ e, (identify ext cf sc a st).res = .error e := by
  have hsb : resultFile .bayesian a.network ≠ resultFile .standard a.network := file_ne hn (by simp)
  have hbr : resultFile .bayesian a.network ≠ resultFile .reference a.network := file_ne hn (by simp)
  cases hr : (identify ext cf sc a st).res with
  | error e => exact ⟨e, rfl⟩
  | ok r =>
    exfalso
    obtain ⟨-, -, -, d1, d', y0, st1, st2, g1, g2, g3, g4, g5, g6, g7, -⟩ := identify_ok.1 hr
    have ht : a.threePhased = true := by unfold IdArgs.threePhased; rw [hph]; decide
    have hdd : d1 = d := Except.ok.inj (g1.symm.trans hd)
    subst hdd
    have hd' : d' = d1 := by
      unfold selectPhase at g2
      rw [if_neg (fun hx => by rw [ht] at hx; cases hx.1)] at g2
      cases g2
      rfl
    subst hd'
    have hb2 : bayesianLoad st2 a.network = .ok (y, log) := by
      have : st2 (resultFile .bayesian a.network) = st (resultFile .bayesian a.network) := by
        rw [g5]
        unfold identifyStandard
        rw [ht]
        simp only [if_true]
        rw [(standardMethods3_frame hsb st1).1, g3, savez_other hbr]
      unfold bayesianLoad at hl ⊢
      rw [load_congr this]
      exact hl
    have hrs : a.redoStandard = true := by unfold IdArgs.redoStandard; rw [h1]; rfl
    have hrb : a.redoStls = false := by unfold IdArgs.redoStls; rw [h1, h2]; rfl
    unfold identifyStandard at g4
    rw [ht, hrs, hph] at g4
    simp only [if_true] at g4
    choose m f hp using fun l : Fin 3 => exists_labelPos d'.ids (l.val : Int)
    obtain ⟨rs, -, -, hT, -⟩ := (C52_standard hs (hc.ids.trans hc.noisyVoltage.symm) (hc.ids.trans hc.noisyCurrent.symm) hp st1 r.1).1 g4
    have hy0 : IsSquare d'.ids.length y0 := by
      unfold halfSum Arr2.zipWith at g6
      split at g6
      · cases g6
        exact hT.square
      · cases g6
    unfold identifyBayesian at g7
    rw [ht, hrb] at g7
    simp only [if_true, Bool.false_eq_true, if_false] at g7
    obtain ⟨e, he⟩ := C54_violated (ext := ext) (cf := cf) (vsd := averagedSd sc.vm sc.vp d'.fparam) (isd := averagedSd sc.cm sc.cp d'.fparam)
      (lap := a.laplacian) (weighted := a.weighted) (pmu := !a.unsynchronized)
      (ye := if a.exact && !a.laplacian then some d'.y else none) (y0 := y0)
      ⟨hc.ids.trans hc.noisyVoltage.symm, hc.ids.trans hc.noisyCurrent.symm, hc.ids.trans hc.ratings.symm, hy0, fun z hz => by
        split at hz
        · cases hz; rw [hc.ids]; exact hc.y
        · cases hz⟩ (by rw [hc.ids]; exact h3) (by rw [hc.ids]; exact hy) hb2
    rw [he] at g7
    cases g7

/-! ### a run that completes -/

noncomputable section

/-- options: phase 1 of a network, standard methods to be redone, no iterations -/
def demoIdArgs : IdArgs := ⟨"ieee_33", 0, true, false, false, "1", false, false, false, false, false, false⟩

def demoIdConf : IdConf := ⟨1, 1, 1, 1, 1, true, true, false⟩

/-- data of five samples and two nodes -/
def demoNetwork : NetworkData :=
  ⟨Arr2.zeros 5 2, Arr2.zeros 5 2, Arr2.zeros 5 2, Arr2.zeros 5 2, Arr2.eye 2, [1, 1], 1, [1, 1]⟩

/-- network data and a Bayesian result -/
def demoStore : Store :=
  Store.savez (Store.savez (fun _ => none) (resultFile .network "ieee_33") (networkNpz demoNetwork)) (resultFile .bayesian "ieee_33")
    (bayesianNpz (Arr2.eye 2, []))

theorem demo_identify (sc : SimConf) : ∃ r, (identify shapedExt demoIdConf sc demoIdArgs demoStore).res = .ok r := by
  have hn := templates_plain "ieee_33" (by decide)
  have hbn : resultFile .network "ieee_33" ≠ resultFile .bayesian "ieee_33" := file_ne hn (by simp)
  have hbr : resultFile .bayesian "ieee_33" ≠ resultFile .reference "ieee_33" := file_ne hn (by simp)
  have hbs : resultFile .bayesian "ieee_33" ≠ resultFile .standard "ieee_33" := file_ne hn (by simp)
  obtain ⟨s, hs⟩ := shapedExt_runs demoIdConf demoNetwork.noisyVoltage demoNetwork.noisyCurrent rfl rfl false
  have hsq := (standardCompute_square shapedExt_shapes (m := 2) rfl rfl hs).2.1
  have hy0 : ∃ y0, halfSum s.2.1 = .ok y0 ∧ IsSquare 2 y0 := by
    unfold halfSum Arr2.zipWith
    rw [if_pos ⟨by rw [hsq.1]; exact hsq.2.symm, by rw [hsq.2]; exact hsq.1.symm⟩]
    exact ⟨_, rfl, hsq⟩
  obtain ⟨y0, hy0, hsq0⟩ := hy0
  obtain ⟨prior, hp, -⟩ := C44_complex_prior 2 1 y0 hsq0 false true
  refine ⟨(s, (Arr2.eye 2, [])), (C80_partial rfl rfl _ _).2 ⟨by decide, demoNetwork, demoNetwork, y0, _, _, ?_, ?_, rfl, ?_, rfl, hy0, ?_⟩⟩
  · show networkLoad demoStore "ieee_33" = _
    have : demoStore (resultFile .network "ieee_33") = some (networkNpz demoNetwork) := by
      unfold demoStore
      rw [savez_other hbn, savez_same]
    simp [networkLoad, Store.load, this, bind, Except.bind, networkNpz, npz, Npz.mat, Npz.vec, Npz.num, Npz.ints, List.lookup, pure,
      Except.pure]
  · unfold selectPhase
    rw [if_neg]
    · rfl
    · rintro ⟨-, x, hx, hne⟩
      simp [demoNetwork] at hx
      exact hne hx
  · show (Prog.call _ _).res = _
    simp only [call_run]
    exact (standardMethods_fst ..).trans hs
  · show (Prog.call (bayesianEiv shapedExt demoIdConf "ieee_33" (some demoNetwork.noisyVoltage) (some demoNetwork.noisyCurrent) _ _ _ y0
      none false false 0 true) _).res = _
    simp only [call_run]
    rw [bayesian_reload_fst.1]
    have he : eivPrior demoIdConf demoNetwork.noisyVoltage.c y0 none false = .ok prior := by
      unfold eivPrior
      show (buildComplexPrior 2 1 y0 false true true false >>= _) = _
      rw [hp]
      rfl
    rw [he]
    show bayesianLoad _ "ieee_33" = _
    have : (identifyStandard shapedExt demoIdConf demoIdArgs demoNetwork (demoStore.savez (resultFile .reference "ieee_33")
        (referenceNpz demoNetwork.y "1" false))).store (resultFile .bayesian "ieee_33") = some (bayesianNpz (Arr2.eye 2, [])) := by
      show (Prog.call _ _).store _ = _
      simp only [call_run]
      rw [standardMethods_frame (show resultFile .bayesian "ieee_33" ≠ resultFile .standard demoIdArgs.network from hbs), savez_other hbr]
      exact savez_same ..
    have e := load_some this
    have e : Store.load (identifyStandard shapedExt demoIdConf demoIdArgs demoNetwork (demoStore.savez
        (resultFile .reference demoIdArgs.network) (referenceNpz demoNetwork.y demoIdArgs.phases demoIdArgs.laplacian))).store
        (resultFile .bayesian "ieee_33") = .ok (bayesianNpz (Arr2.eye 2, [])) := e
    unfold bayesianLoad
    rw [e]
    simp [bind, Except.bind, bayesianNpz, npz, Npz.mat, Npz.log, List.lookup, pure, Except.pure]

/-- it meets the hypotheses of C78, with the standard methods redone and the Bayesian method not, and those of C80 -/
example : PlainName demoIdArgs.network ∧ demoIdArgs.threePhased = false ∧
    Redone demoIdArgs.standard [demoIdArgs.standard, demoIdArgs.bayesian] ∧
    ¬Redone demoIdArgs.bayesian [demoIdArgs.standard, demoIdArgs.bayesian] := by
  refine ⟨templates_plain "ieee_33" (by decide), by decide, .inl rfl, ?_⟩
  rintro (h | h)
  · cases h
  · simpa [demoIdArgs] using h true

/-- and the run fails with `--uncertainty` -/
example (sc : SimConf) : (identify shapedExt demoIdConf sc { demoIdArgs with uncertainty := true } demoStore).res = .error .nameError := by
  obtain ⟨r, hr⟩ := demo_identify sc
  exact (C80_uncertainty hr).1

/-- three sequences of one node each, and the stored result of one of them: C54_copies -/
example (y : Arr2 ℂ) (hy : IsSquare 1 y) (e : ℝ) : ∃ r, (bayesianEiv3 shapedExt demoIdConf "ieee_33" (Arr2.zeros 5 3) (Arr2.zeros 5 3) [0, 1, 2]
    ⟨1, 1⟩ ⟨1, 1⟩ [1, 1, 1] (Arr2.eye 3) none false false 0 true
    (Store.savez (fun _ => none) (resultFile .bayesian "ieee_33") (bayesianNpz (y, [⟨0, y, e⟩])))).res = .ok r ∧
    Spec.Assembled [0, 1, 2] (fun _ => 1) (fun l _ => l.val) (fun _ => y) r.1 := by
  have hp : ∀ l : Fin 3, LabelPos [0, 1, 2] (l.val : Int) 1 (fun _ => l.val) := by
    intro l
    refine ⟨fun a b h hb => by omega, fun a _ => l.isLt, fun a _ => by fin_cases l <;> rfl, fun p hp hl => ⟨0, by omega, ?_⟩⟩
    have hp : p < 3 := hp
    interval_cases p <;> fin_cases l <;> first | rfl | (simp at hl)
  have hpr : ∀ l : Fin 3, ∃ prior, eivPrior demoIdConf 1 (blockAt (Arr2.eye 3) 1 (fun _ => l.val)) none false = .ok prior := by
    intro l
    obtain ⟨prior, hp, -⟩ := C44_complex_prior 1 1 (blockAt (Arr2.eye 3) 1 (fun _ => l.val)) ⟨rfl, rfl⟩ false true
    refine ⟨prior, ?_⟩
    unfold eivPrior
    show (buildComplexPrior 1 1 _ false true true false >>= _) = _
    rw [hp]
    rfl
  have hl : bayesianLoad (Store.savez (fun _ => none) (resultFile .bayesian "ieee_33") (bayesianNpz (y, [⟨0, y, e⟩]))) "ieee_33" =
      .ok (y, [⟨0, y, e⟩]) := by
    simp [bayesianLoad, Store.load, savez_same, bind, Except.bind, bayesianNpz, npz, Npz.mat, Npz.log, List.lookup, pure, Except.pure]
  obtain ⟨r, h1, h2, -⟩ := C54_copies (ext := shapedExt) (v := Arr2.zeros 5 3) (c := Arr2.zeros 5 3) (vsd := ⟨1, 1⟩) (isd := ⟨1, 1⟩)
    (ratings := [1, 1, 1]) (ye := none) (weighted := false) (pmu := true) (by simp) ⟨rfl, rfl, rfl, ⟨rfl, rfl⟩, by simp⟩ hp hpr hy
    (by simpa using hy) hl
  exact ⟨r, h1, h2⟩

/-- a bus connecting to the external grid outside the configured nodes: C81_violated -/
example (w : SimWorld) (b : BusData) (hb : b.type = typePcc) (hid : b.id = 1) :
    ∃ (cf : SimConf) (a : SimArgs) (lp : LoadParams), Requested w cf a (constantNodes cf a [b]) lp ∧ cf.constantHidden = true ∧
      a.laplacian = false ∧ a.threePhased = false ∧ b.id ∉ cf.hidden := by
  refine ⟨⟨[5, 6], true, 0.84, [0], 7, 10080, 50, 4, 1, 1, 1, 1⟩,
    ⟨"ieee_33", "p", "q", 0.1, true, false, false, false, false, false, false⟩, _, .inl ⟨by norm_num, rfl⟩, rfl, rfl, rfl, ?_⟩
  rw [hid]
  simp

end

end Verif
