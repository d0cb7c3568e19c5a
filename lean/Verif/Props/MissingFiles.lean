/-
C145: a run that needs a result file that does not exist ends with FileNotFoundError, before it changes a result file other than those
of its own earlier steps.
-/
import Verif.Model.PlotResults
import Verif.Props.PlotReport
import Verif.Props.Shipped

namespace Verif
noncomputable section

theorem load_missing {st : Store} {f : String} (h : st f = none) : st.load f = .error .fileNotFoundError := by
  unfold Store.load
  rw [h]

/-- C145, simulate_network.py: loads that are not recomputed must exist; otherwise nothing is written -/
theorem C145_loads {w : SimWorld} {cf : SimConf} {a : SimArgs} {st : Store} {nb : Net × List BusData}
    (hnet : (if a.threePhased then makeNet3 w a.network else makeNet w a.network) = .ok nb) (hredo : a.networkSim = true ∨ a.noise = true)
    (hl : a.loads = false) (hmiss : st (resultFile .loads a.network) = none) :
    (simulate w cf a st).res = .error .fileNotFoundError ∧ (simulate w cf a st).store = st := by
  have hr : a.redoLoads = false := by
    unfold SimArgs.redoLoads
    rcases hredo with h | h <;> simp [hl, h]
  have hp : loadParams w cf a nb.2 = .ok none := by simp [loadParams, hr]
  cases h3 : a.threePhased <;> rw [h3] at hnet <;> simp only [if_true, if_false, Bool.false_eq_true] at hnet <;>
    simp [simulate, stages, stages1, stages3, Bind.bind, Prog.bind, Prog.ofExcept, Prog.call, hnet, hp, h3, generateLoads, generateLoads3,
      loadsLoad, loadsLoad3, load_missing hmiss, Except.bind]

/-- C145, simulate_network.py: if the simulation is not recomputed it must exist; otherwise only the loads may have been written -/
theorem C145_simulation {w : SimWorld} {cf : SimConf} {a : SimArgs} {st : Store} {nb : Net × List BusData} {lp : Option LoadParams}
    (hnet : makeNet w a.network = .ok nb) (h3 : a.threePhased = false) (hlp : loadParams w cf a nb.2 = .ok lp)
    {l : Arr2 ℝ × Arr2 ℝ × List ℝ} (hloads : (generateLoads w.rng w.z w.files cf.constantness a.network nb.1 lp st).1 = .ok l)
    (hredo : a.loads = true ∨ a.noise = true) (hn : a.networkSim = false) (hmiss : st (resultFile .simulation a.network) = none) :
    (simulate w cf a st).res = .error .fileNotFoundError ∧
      ∀ f, f ≠ resultFile .loads a.network → (simulate w cf a st).store f = st f := by
  have hfile : resultFile .simulation a.network ≠ resultFile .loads a.network := fun h => nomatch resultFile_inj.1 h
  have hr : a.redoNetsim = false := by
    unfold SimArgs.redoNetsim
    rcases hredo with h | h <;> simp [hn, h]
  have hfr : ∀ f, f ≠ resultFile .loads a.network → (generateLoads w.rng w.z w.files cf.constantness a.network nb.1 lp st).2 f = st f := by
    intro f hf
    unfold generateLoads
    cases lp with
    | none => rfl
    | some lp =>
      dsimp only
      split
      · rfl
      · exact if_neg hf
  have hs : (generateLoads w.rng w.z w.files cf.constantness a.network nb.1 lp st).2 (resultFile .simulation a.network) = none := by
    rw [hfr _ hfile, hmiss]
  constructor
  · simp [simulate, stages, stages1, netsim1, Bind.bind, Prog.bind, Prog.ofExcept, Prog.call, hnet, hlp, h3, hloads, hr, simulateNet, simLoad,
      load_missing hs, Except.bind]
  · intro f hf
    rw [← hfr f hf]
    simp [simulate, stages, stages1, netsim1, Bind.bind, Prog.bind, Prog.ofExcept, Prog.call, hnet, hlp, h3, hloads, hr, simulateNet, simLoad,
      load_missing hs, Except.bind]

/-- C145, simulate_network.py, three phases: if the simulation is not recomputed it must exist; otherwise only the loads may have been written -/
theorem C145_simulation3 {w : SimWorld} {cf : SimConf} {a : SimArgs} {st : Store} {nb : Net × List BusData} {lp : Option LoadParams}
    (hnet : makeNet3 w a.network = .ok nb) (h3 : a.threePhased = true) (hlp : loadParams w cf a nb.2 = .ok lp)
    {l : Arr2 ℝ × Arr2 ℝ × List (Arr2 ℝ) × List ℝ} (hloads : (generateLoads3 w.rng w.files cf.constantness a.network nb.1 lp st).1 = .ok l)
    (hredo : a.loads = true ∨ a.noise = true) (hn : a.networkSim = false) (hmiss : st (resultFile .simulation a.network) = none) :
    (simulate w cf a st).res = .error .fileNotFoundError ∧
      ∀ f, f ≠ resultFile .loads a.network → (simulate w cf a st).store f = st f := by
  have hfile : resultFile .simulation a.network ≠ resultFile .loads a.network := fun h => nomatch resultFile_inj.1 h
  have hr : a.redoNetsim = false := by
    unfold SimArgs.redoNetsim
    rcases hredo with h | h <;> simp [hn, h]
  have hfr : ∀ f, f ≠ resultFile .loads a.network → (generateLoads3 w.rng w.files cf.constantness a.network nb.1 lp st).2 f = st f := by
    intro f hf
    unfold generateLoads3
    cases lp with
    | none => rfl
    | some lp =>
      dsimp only
      split
      · rfl
      · split
        · exact if_neg hf
        · rfl
  have hs : (generateLoads3 w.rng w.files cf.constantness a.network nb.1 lp st).2 (resultFile .simulation a.network) = none := by
    rw [hfr _ hfile, hmiss]
  constructor
  · simp [simulate, stages, stages3, netsim3, Bind.bind, Prog.bind, Prog.ofExcept, Prog.call, hnet, hlp, h3, hloads, hr, simulateNet3, simLoad,
      load_missing hs, Except.bind]
  · intro f hf
    rw [← hfr f hf]
    simp [simulate, stages, stages3, netsim3, Bind.bind, Prog.bind, Prog.ofExcept, Prog.call, hnet, hlp, h3, hloads, hr, simulateNet3, simLoad,
      load_missing hs, Except.bind]

/-- C145, identify_network.py: without the network data of a simulation nothing is written -/
theorem C145_identify {ext : NumExt} {cf : IdConf} {sc : SimConf} {a : IdArgs} {st : Store} (hph : checkPhases a.phases a.sequence = .ok ())
    (hmiss : st (resultFile .network a.network) = none) :
    (identify ext cf sc a st).res = .error .fileNotFoundError ∧ (identify ext cf sc a st).store = st := by
  simp [identify, Bind.bind, Prog.bind, Prog.ofExcept, Prog.read, hph, networkLoad, load_missing hmiss, Except.bind]

/-- C145, identify_network.py: standard estimates that are not recomputed must exist; otherwise only the reference has been written -/
theorem C145_standard {ext : NumExt} {cf : IdConf} {sc : SimConf} {a : IdArgs} {st : Store} {d d' : NetworkData}
    (hph : checkPhases a.phases a.sequence = .ok ()) (hd : networkLoad st a.network = .ok d) (hd' : selectPhase a d = .ok d')
    (hb : a.bayesian = true) (hs : a.standard = false) (hmiss : st (resultFile .standard a.network) = none) :
    (identify ext cf sc a st).res = .error .fileNotFoundError ∧
      ∀ f, f ≠ resultFile .reference a.network → (identify ext cf sc a st).store f = st f := by
  have hfile : resultFile .standard a.network ≠ resultFile .reference a.network := fun h => nomatch resultFile_inj.1 h
  have hr : a.redoStandard = false := by simp [IdArgs.redoStandard, hs, hb]
  have hm : (st.savez (resultFile .reference a.network) (referenceNpz d'.y a.phases a.laplacian)) (resultFile .standard a.network) = none := by
    rw [← hmiss]; exact if_neg hfile
  have hsf : ∀ f, f ≠ resultFile .reference a.network →
      (st.savez (resultFile .reference a.network) (referenceNpz d'.y a.phases a.laplacian)) f = st f := fun f hf => if_neg hf
  constructor
  · cases h3 : a.threePhased <;>
      simp [identify, Bind.bind, Prog.bind, Prog.ofExcept, Prog.read, Prog.save, Prog.call, hph, hd, hd', identifyStandard, hr, h3, standardMethods,
        standardMethods3, standardLoad, load_missing hm, Except.bind]
  · intro f hf
    rw [← hsf f hf]
    cases h3 : a.threePhased <;>
      simp [identify, Bind.bind, Prog.bind, Prog.ofExcept, Prog.read, Prog.save, Prog.call, hph, hd, hd', identifyStandard, hr, h3, standardMethods,
        standardMethods3, standardLoad, load_missing hm, Except.bind]

/-- C145, plot_results.py: without the reference or the network data nothing is written -/
theorem C145_plot {ext : PlotExt} {a : PlotArgs} {st : Store} (hmiss : st (resultFile .reference a.network) = none ∨
      ((∃ r, referenceLoad st a.network = .ok r) ∧ st (resultFile .network a.network) = none)) :
    plotResults ext a st = (.error .fileNotFoundError, []) := by
  rcases hmiss with h | ⟨⟨r, hr⟩, h⟩
  · simp [plotResults, Bind.bind, Rep.bind, Rep.ofExcept, referenceLoad, load_missing h, Except.bind]; rfl
  · simp [plotResults, Bind.bind, Rep.bind, Rep.ofExcept, hr, plotDataLoad, load_missing h, Except.bind]; rfl

/-- Concrete case: on a fresh installation, repeating only the noise of a shipped network, identifying it and plotting its results all fail
this way. -/
theorem demo_C145 {w : SimWorld} (hw : w.Shipped) (cf : SimConf) (ext : NumExt) (ic : IdConf) (pe : PlotExt) :
    (simulate w cf ⟨"bolognani56", "", "", 0, false, false, true, false, false, false, false⟩ (fun _ => none)).res = .error .fileNotFoundError ∧
    (identify ext ic cf ⟨"bolognani56", 50, true, true, false, "1", false, true, false, false, false, false⟩ (fun _ => none)).res =
      .error .fileNotFoundError ∧
    plotResults pe ⟨"bolognani56", false⟩ (fun _ => none) = (.error .fileNotFoundError, []) := by
  obtain ⟨net, -, -, -, hnet, -⟩ := C136_network hw (name := "bolognani56") (bs := bolognani56Bus) rfl
  refine ⟨(C145_loads (a := ⟨"bolognani56", "", "", 0, false, false, true, false, false, false, false⟩) hnet (Or.inr rfl) rfl rfl).1,
    (C145_identify (by decide) rfl).1, C145_plot (Or.inl rfl)⟩

end
end Verif
