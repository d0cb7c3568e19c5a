/-
C176: results left from a network with another number of nodes.
-/
import Verif.Props.MissingFiles
import Verif.Props.BayesProgram

namespace Verif
noncomputable section
open Spec (IsSquare)

/-- a matrix with another number of entries is rejected by the prior -/
theorem complex_prior_size {n : Nat} {y : Arr2 ℂ} (h : y.c * y.r ≠ n ^ 2) (lp : ℝ) (lap utd cer rd : Bool) :
    buildComplexPrior n lp y lap utd cer rd = .error .valueError := by
  obtain ⟨E, hE, hEr, hEc, -⟩ := e_closed (α := ℂ) lap n
  obtain ⟨D, hD, hDr, hDc, -⟩ := dt_closed (α := ℂ) lap n
  have hs : symmetrize lap n y = .error .valueError := by
    unfold symmetrize
    rw [hD, hE]
    simp only [bind, Except.bind]
    rw [Arr2.matmul_ok _ _ (by omega)]
    simp only [Arr2.mulVec]
    rw [if_neg (by rw [vec_length]; exact fun e => h (e.symm.trans hEc))]
  unfold buildComplexPrior
  rw [hE, hs]
  rfl

variable {ext : NumExt} {cf : IdConf} {sc : SimConf} {a : IdArgs} {st : Store}

/-- C176 for one phase: a run of `identify_network.py -b` on stored standard estimates of another size raises `ValueError`; only the
reference has been written -/
theorem C176_partial {d d' : NetworkData} (hph : checkPhases a.phases a.sequence = .ok ()) (hd : networkLoad st a.network = .ok d)
    (hd' : selectPhase a d = .ok d') (hb : a.bayesian = true) (hs : a.standard = false) (hc : a.continueId = false)
    (h3 : a.threePhased = false) {s : Arr2 ℂ × Arr2 ℂ × Arr2 ℂ} (hst : standardLoad st a.network = .ok s) {m : Nat} (hm : IsSquare m s.2.1)
    (hne : m ≠ d'.noisyVoltage.c) :
    (identify ext cf sc a st).res = .error .valueError ∧
      ∀ f, f ≠ resultFile .reference a.network → (identify ext cf sc a st).store f = st f := by
  have hfile : resultFile .standard a.network ≠ resultFile .reference a.network := fun h => nomatch resultFile_inj.1 h
  have hr : a.redoStandard = false := by simp [IdArgs.redoStandard, hs, hb]
  have hload : standardLoad (st.savez (resultFile .reference a.network) (referenceNpz d'.y a.phases a.laplacian)) a.network = .ok s := by
    rw [← hst]
    unfold standardLoad Store.load
    rw [savez_other hfile]
  have hp : ∀ ye, eivPrior cf d'.noisyVoltage.c (Arr2.ofFn m m (fun i j => (s.2.1.get i j + s.2.1.get j i) / 2)) ye a.laplacian =
      .error .valueError := by
    intro ye
    unfold eivPrior
    rw [complex_prior_size (by
      show m * m ≠ _
      rw [pow_two]
      intro e
      exact hne (Nat.mul_self_inj.1 e))]
    rfl
  have hsf : ∀ f, f ≠ resultFile .reference a.network →
      (st.savez (resultFile .reference a.network) (referenceNpz d'.y a.phases a.laplacian)) f = st f := fun f hf => if_neg hf
  constructor
  · simp [identify, Bind.bind, Prog.bind, Prog.ofExcept, Prog.read, Prog.save, Prog.call, hph, hd, hd', identifyStandard, hr, h3,
      standardMethods, hload, initialEstimate, hc, halfSum_eq hm, identifyBayesian, bayesianEiv, hp]
  · intro f hf
    rw [← hsf f hf]
    simp [identify, Bind.bind, Prog.bind, Prog.ofExcept, Prog.read, Prog.save, Prog.call, hph, hd, hd', identifyStandard, hr, h3,
      standardMethods, hload, initialEstimate, hc, halfSum_eq hm, identifyBayesian, bayesianEiv, hp]

/-- C176 in sequence values: `IndexError` -/
theorem C176_three_partial {d d' : NetworkData} (hph : checkPhases a.phases a.sequence = .ok ()) (hd : networkLoad st a.network = .ok d)
    (hd' : selectPhase a d = .ok d') (hb : a.bayesian = true) (hs : a.standard = false) (hc : a.continueId = false)
    (h3 : a.phases = "012") {s : Arr2 ℂ × Arr2 ℂ × Arr2 ℂ} (hst : standardLoad st a.network = .ok s) {m : Nat} (hm : IsSquare m s.2.1)
    (h0 : 0 ∈ d'.ids) (hv : d'.noisyVoltage.c = d'.ids.length) (hi : d'.noisyCurrent.c = d'.ids.length)
    (hrt : d'.ratings.length = d'.ids.length) (hne : m ≠ d'.ids.length) :
    (identify ext cf sc a st).res = .error .indexError ∧
      ∀ f, f ≠ resultFile .reference a.network → (identify ext cf sc a st).store f = st f := by
  have hfile : resultFile .standard a.network ≠ resultFile .reference a.network := fun h => nomatch resultFile_inj.1 h
  have hr : a.redoStandard = false := by simp [IdArgs.redoStandard, hs, hb]
  have h3' : a.threePhased = true := by simp [IdArgs.threePhased, h3]
  have hload : standardLoad (st.savez (resultFile .reference a.network) (referenceNpz d'.y a.phases a.laplacian)) a.network = .ok s := by
    rw [← hst]
    unfold standardLoad Store.load
    rw [savez_other hfile]
  have hsf : ∀ f, f ≠ resultFile .reference a.network →
      (st.savez (resultFile .reference a.network) (referenceNpz d'.y a.phases a.laplacian)) f = st f := fun f hf => if_neg hf
  have hlb : labelBlock (Arr2.ofFn m m (fun i j => (s.2.1.get i j + s.2.1.get j i) / 2)) d'.ids 0 = .error .indexError := by
    unfold labelBlock Arr2.labelRows
    rw [if_neg (fun e => hne e.symm)]
    rfl
  constructor
  · simp [identify, Bind.bind, Prog.bind, Prog.ofExcept, Prog.read, Prog.save, Prog.call, hph, hd, hd', identifyStandard, hr, h3',
      standardMethods3, hload, initialEstimate, hc, halfSum_eq hm, identifyBayesian, bayesianEiv3, bayesianStep, h0, Arr2.labelCols,
      labelEntries, hv, hi, hrt, hlb]
  · intro f hf
    rw [← hsf f hf]
    simp [identify, Bind.bind, Prog.bind, Prog.ofExcept, Prog.read, Prog.save, Prog.call, hph, hd, hd', identifyStandard, hr, h3',
      standardMethods3, hload, initialEstimate, hc, halfSum_eq hm, identifyBayesian, bayesianEiv3, bayesianStep, h0, Arr2.labelCols,
      labelEntries, hv, hi, hrt, hlb]

/-- C176 violated: whenever a full run succeeds, a run of `identify_network.py -s` on the same data succeeds with any stored Bayesian
result, of any size, and returns that result beside the new standard estimates -/
theorem C176_violated {r : (Arr2 ℂ × Arr2 ℂ × Arr2 ℂ) × (Arr2 ℂ × List IterationStatus)} (h3 : a.threePhased = false) (hsb : a.standard = a.bayesian) (h : (identify ext cf sc a st).res = .ok r) (Y : Arr2 ℂ)
    (log : List IterationStatus) :
    (identify ext cf sc { a with standard := true, bayesian := false }
      (st.savez (resultFile .bayesian a.network) (bayesianNpz (Y, log)))).res = .ok (r.1, (Y, log)) := by
  have hbr : resultFile .bayesian a.network ≠ resultFile .reference a.network := fun h => nomatch resultFile_inj.1 h
  have hbs : resultFile .bayesian a.network ≠ resultFile .standard a.network := fun h => nomatch resultFile_inj.1 h
  have hbn : resultFile .network a.network ≠ resultFile .bayesian a.network := fun h => nomatch resultFile_inj.1 h
  obtain ⟨hc, hu, hph, d, d', y0, st1, st2, h1, h2, e1, k1, e2, hy, k2, -⟩ := identify_ok.1 h
  have hr : a.redoStandard = true := by
    unfold IdArgs.redoStandard
    rw [hsb]
    cases a.bayesian <;> rfl
  have hcomp : standardCompute ext cf d'.noisyVoltage d'.noisyCurrent a.laplacian a.maxIter = .ok r.1 := by
    unfold identifyStandard at k1
    rw [h3, hr] at k1
    simp only [Bool.false_eq_true, if_false, if_true, Prog.call_run, standardMethods_fst] at k1
    exact k1
  have hprior : ∃ p, eivPrior cf d'.noisyVoltage.c y0 (if a.exact && !a.laplacian then some d'.y else none) a.laplacian = .ok p := by
    unfold identifyBayesian at k2
    rw [h3] at k2
    simp only [Bool.false_eq_true, if_false, Prog.call_run] at k2
    unfold bayesianEiv at k2
    simp only [] at k2
    cases hp : eivPrior cf d'.noisyVoltage.c y0 (if a.exact && !a.laplacian then some d'.y else none) a.laplacian with
    | ok p => exact ⟨p, rfl⟩
    | error e => rw [hp] at k2; cases k2
  obtain ⟨p, hp⟩ := hprior
  have h3' : ({ a with standard := true, bayesian := false } : IdArgs).threePhased = false := h3
  have hstd : identifyStandard ext cf { a with standard := true, bayesian := false } d' =
      Prog.call (standardMethods ext cf a.network (some d'.noisyVoltage) (some d'.noisyCurrent) a.laplacian a.maxIter) := by
    unfold identifyStandard
    rw [h3']
    rfl
  refine identify_of (d := d) (d' := d') (y0 := y0) hc hu hph ?_ h2 ?_ hy ?_
  · rw [← h1]
    unfold networkLoad Store.load
    rw [savez_other hbn]
  · rw [hstd, Prog.call_run, standardMethods_fst]
    exact hcomp
  · rw [hstd, Prog.call_run]
    unfold identifyBayesian
    rw [h3']
    simp only [Bool.false_eq_true, if_false, Prog.call_run, IdArgs.redoStls, Bool.not_true, Bool.false_and, Bool.false_or]
    unfold bayesianEiv
    simp only [hp, gt_iff_lt, lt_irrefl, decide_false]
    unfold standardMethods
    simp only [hcomp]
    unfold bayesianLoad Store.load
    rw [savez_other hbs, savez_other hbr, savez_same]
    rfl

/-- a store with data of two nodes and standard estimates of one -/
example (sc : SimConf) (st : Store) : (identify ⟨exactPinv, exactSvd, exactInv, exactSolve⟩ demoConf126 sc
    { demoArgs126 with bayesian := true } ((st.savez (resultFile .network "ieee_33") (networkNpz demoData126)).savez
      (resultFile .standard "ieee_33") (standardNpz (Arr2.eye 1, Arr2.eye 1, Arr2.eye 1)))).res = .error .valueError :=
  (C176_partial (d := demoData126) (d' := demoData126) (by decide) (by
      show networkLoad _ "ieee_33" = _
      unfold networkLoad Store.load
      rw [savez_other (fun h => by simpa using resultFile_inj.1 h), savez_same]
      rfl) (by simp [selectPhase, demoData126, pure, Except.pure]) rfl rfl rfl (by decide)
    (s := (Arr2.eye 1, Arr2.eye 1, Arr2.eye 1)) (by
      unfold standardLoad Store.load
      rw [show ({ demoArgs126 with bayesian := true } : IdArgs).network = "ieee_33" from rfl, savez_same]
      rfl) (m := 1) ⟨rfl, rfl⟩ (by show 1 ≠ 2; decide)).1

/-- data of one node in sequence values and standard estimates of two columns -/
example (ext : NumExt) (sc : SimConf) (st : Store) : (identify ext demoConf126 sc
    ⟨"ieee_33", 50, false, true, false, "012", true, false, false, false, false, false⟩ ((st.savez (resultFile .network "ieee_33")
      (networkNpz ⟨Arr2.eye 3, Arr2.eye 3, Arr2.eye 3, Arr2.eye 3, Arr2.eye 3, [1, 1, 1], 4, [0, 1, 2]⟩)).savez
      (resultFile .standard "ieee_33") (standardNpz (demoY126, demoY126, demoY126)))).res = .error .indexError :=
  (C176_three_partial (d := ⟨Arr2.eye 3, Arr2.eye 3, Arr2.eye 3, Arr2.eye 3, Arr2.eye 3, [1, 1, 1], 4, [0, 1, 2]⟩)
    (d' := ⟨Arr2.eye 3, Arr2.eye 3, Arr2.eye 3, Arr2.eye 3, Arr2.eye 3, [1, 1, 1], 4, [0, 1, 2]⟩) (by decide) (by
      show networkLoad _ "ieee_33" = _
      unfold networkLoad Store.load
      rw [savez_other (fun h => by simpa using resultFile_inj.1 h), savez_same]
      rfl) (by
      unfold selectPhase
      rw [if_neg (fun h => by simpa [IdArgs.threePhased] using h.1)]
      rfl) rfl rfl rfl rfl
    (s := (demoY126, demoY126, demoY126)) (by
      show standardLoad _ "ieee_33" = _
      unfold standardLoad Store.load
      rw [savez_same]
      rfl) (m := 2) ⟨rfl, rfl⟩ (by simp) rfl rfl rfl (by decide)).1

/-- a result of one node is returned for data of two nodes -/
example (sc : SimConf) (hs : 0 < sc.vm ∧ 0 < sc.vp) (st : Store) : ∃ s, s.2.1 = demoY126 ∧
    (identify ⟨exactPinv, exactSvd, exactInv, exactSolve⟩ demoConf126 sc { demoArgs126 with standard := true, bayesian := false }
      ((st.savez (resultFile .network "ieee_33") (networkNpz demoData126)).savez (resultFile .bayesian "ieee_33")
        (bayesianNpz (Arr2.eye 1, [])))).res = .ok (s, (Arr2.eye 1, [])) := by
  obtain ⟨r, h, h1, -⟩ := demo_C126 sc hs st
  exact ⟨r.1, h1, C176_violated (a := demoArgs126) (by decide) rfl h (Arr2.eye 1) []⟩

end
end Verif
