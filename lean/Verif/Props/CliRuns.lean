/-
C171: the commands of the README.
-/
import Verif.Props.Cli
import Verif.Props.SimulateRun3

namespace Verif
namespace Cli

/-- README.md:50 -/
def Spec.cdcSim (env : Env) : SimArgs where
  network := "cigre_mv_feeder1"
  active := env.dataDir ++ "/profiles/Electricity_Profile_RNEplus_small.npy"
  reactive := env.dataDir ++ "/profiles/Reactive_Electricity_Profile_RNEplus_small.npy"
  gaussian := 0
  loads := false
  networkSim := false
  noise := false
  threePhased := false
  sequence := false
  equivalent := true
  laplacian := true

/-- README.md:51 -/
def Spec.cdcId : IdArgs where
  network := "cigre_mv_feeder1"
  maxIter := 50
  standard := false
  bayesian := false
  continueId := false
  phases := "1"
  sequence := false
  exact := false
  laplacian := true
  weighted := true
  uncertainty := false
  unsynchronized := false

/-- README.md:52 -/
noncomputable def Spec.cdcPlot : PlotParams where
  args := { network := "cigre_mv_feeder1", sequence := false }
  maxY := none
  maxErr := none
  color := 1

theorem cdc_sim (env : Env) : runLine env "simulate_network.py -vle --network cigre_mv_feeder1" = .simulate (.run (Spec.cdcSim env)) :=
  runLine_sim env (args := ["-vle".toList, "--network".toList, "cigre_mv_feeder1".toList])
    (st := [(sVerbose, none), (sLaplacian, none), (sEquivalent, none), (sNetwork, some "cigre_mv_feeder1".toList)])
    (by decide +kernel) (by decide +kernel) (by decide +kernel)
    (simConvert_of env "cigre_mv_feeder1" false false false false false true true (by decide +kernel) (by decide +kernel) (by decide +kernel))

theorem cdc_id (env : Env) : runLine env "identify_network.py -vlw --network cigre_mv_feeder1 --max-iterations 50" = .identify (.run Spec.cdcId) :=
  runLine_id env (args := ["-vlw".toList, "--network".toList, "cigre_mv_feeder1".toList, "--max-iterations".toList, "50".toList])
    (st := [(iVerbose, none), (iLaplacian, none), (iWeighted, none), (iNetwork, some "cigre_mv_feeder1".toList), (iMaxIter, some "50".toList)])
    (by decide +kernel) (by decide +kernel) (by decide +kernel)
    (idConvert_of (m := 50) (by decide +kernel) rfl (by decide +kernel) (by decide +kernel) (by decide +kernel))

theorem cdc_plot (env : Env) (hf : env.toFloat "1.0".toList = some 1) :
    runLine env "plot_results.py -v --network cigre_mv_feeder1 --color-scale 1.0" = .plot (.run Spec.cdcPlot) := by
  have key : ∃ st, st = [(pVerbose, none), (pNetwork, some "cigre_mv_feeder1".toList), (pColor, some "1.0".toList)] := ⟨_, rfl⟩
  obtain ⟨st, hst⟩ := key
  refine runLine_plot env (args := ["-v".toList, "--network".toList, "cigre_mv_feeder1".toList, "--color-scale".toList, "1.0".toList])
    (st := st) (by decide +kernel) (by rw [hst]; decide +kernel) (by rw [hst]; decide +kernel)
    ((plotConvert_of env (c := 1) (by rw [hst]; decide +kernel) ?_).trans ?_)
  · have : text st pColor = some "1.0".toList := by rw [hst]; decide +kernel
    unfold num
    rw [this]
    exact hf
  · have h1 : str st pNetwork "bolognani56" = "cigre_mv_feeder1" := by rw [hst]; decide +kernel
    have h2 : flag st pSequence = false := by rw [hst]; decide +kernel
    rw [h1, h2]
    rfl

theorem tsg_id (env : Env) : runLine env "identify_network.py -vwq --max-iterations 20 --network ieee123center --phases 012" =
    .identify (.run { Spec.sequenceId with weighted := true }) :=
  runLine_id env (args := ["-vwq".toList, "--max-iterations".toList, "20".toList, "--network".toList, "ieee123center".toList, "--phases".toList, "012".toList])
    (st := [(iVerbose, none), (iWeighted, none), (iSequence, none), (iMaxIter, some "20".toList), (iNetwork, some "ieee123center".toList),
      (iPhases, some "012".toList)])
    (by decide +kernel) (by decide +kernel) (by decide +kernel)
    (idConvert_of (m := 20) (by decide +kernel) rfl (by decide +kernel) (by decide +kernel) (by decide +kernel))

/-- C171: all commands of the README are accepted; their parameters -/
theorem C171_accepted (env : Env) (hf : env.toFloat "1.0".toList = some 1) :
    runLine env "simulate_network.py -vle --network cigre_mv_feeder1" = .simulate (.run (Spec.cdcSim env)) ∧
    runLine env "identify_network.py -vlw --network cigre_mv_feeder1 --max-iterations 50" = .identify (.run Spec.cdcId) ∧
    runLine env "plot_results.py -v --network cigre_mv_feeder1 --color-scale 1.0" = .plot (.run Spec.cdcPlot) ∧
    runLine env "simulate_network.py -vqte --network ieee123center" = .simulate (.run (Spec.fullRun env)) ∧
    runLine env "identify_network.py -vwq --max-iterations 20 --network ieee123center --phases 012" =
      .identify (.run { Spec.sequenceId with weighted := true }) ∧
    runLine env "plot_results.py -v --network ieee123center" = .plot (.run Spec.phasePlot) :=
  ⟨cdc_sim env, cdc_id env, cdc_plot env hf, line_full_v env, tsg_id env, line_plot env⟩

/-- C171 violated: with the shipped hidden nodes, which the README does not ask to change, the first command for the CDC manuscript never
completes, whatever days, steps and identification settings are -/
theorem C171_violated (env : Env) {w : SimWorld} (hw : w.Shipped) {cf : SimConf} (hcf : cf.hidden = shippedHidden) (st : Store) (d : NetworkData) :
    ∃ a, runLine env "simulate_network.py -vle --network cigre_mv_feeder1" = .simulate (.run a) ∧ (simulate w cf a st).res ≠ .ok d :=
  ⟨_, cdc_sim env, C137_violated hw hcf (by simp [Spec.cdcSim]) st d⟩

/-- C171 partial: with no hidden nodes it completes if the profile files contain the selected weeks and the power flow converges -/
theorem C171_partial (env : Env) {w : SimWorld} (hw : w.Shipped) {cf : SimConf} (hhid : cf.hidden = []) {a : SimArgs}
    (ha : runLine env "simulate_network.py -vle --network cigre_mv_feeder1" = .simulate (.run a)) (st : Store) {weeks : List ℕ}
    (hwk : cf.weeks = weeks.map (fun w : ℕ => (w : Int))) (hprof : Spec.Profiles w.files a.active a.reactive weeks cf.days)
    (hpinv : Spec.PinvContract w.pinv) (hsd : 0 ≤ cf.vm ∧ 0 ≤ cf.cm ∧ 0 ≤ cf.vp ∧ 0 ≤ cf.cp) (hsf : 0 ≤ cf.safety)
    (hdays : 0 < cf.days) (hfm : 0 ≤ cf.fmeas) (hsteps : 0 < cf.steps) (hN : cf.steps ≤ Spec.rawCount (minuteTimes cf.days) cf.fmeas)
    {bs : List BusData} (hname : shippedBuses "cigre_mv_feeder1" = some bs)
    {sn : ℝ} (hsn : 0 < sn) (hy : ∀ net, makeNet w "cigre_mv_feeder1" = .ok (net, bs) → w.yBus net = .ok (net.makeYBus sn))
    (hruns : ∀ net, makeNet w "cigre_mv_feeder1" = .ok (net, bs) → Spec.FlowRuns w.flow net (cf.days * 1440) bs.length)
    (hf : ∀ net, makeNet w "cigre_mv_feeder1" = .ok (net, bs) → ∀ c res, w.flow net c = .ok res → Spec.PowerFlow bs (net.makeYBus sn) res) :
    ∃ d, (simulate w cf a st).res = .ok d := by
  rw [cdc_sim env] at ha
  have ha : a = Spec.cdcSim env := by
    simp only [Run.simulate.injEq, Outcome.run.injEq] at ha
    exact ha.symm
  subst ha
  obtain ⟨ls, n, kv, root, passive, hl, hs⟩ := shipped_cases hname
  obtain ⟨net, ls', root', hl', hm, -, -, hgm⟩ := C136_network hw hname
  rw [hl] at hl'
  cases hl'
  have hlen := hs.feeder.length
  have hin := hs.feeder.inside
  refine C116_profiles st rfl rfl ⟨rfl, rfl⟩ le_rfl hwk hprof hhid hpinv hsd hsf hdays hfm hsteps hN hm (by omega) ?_ (hy net hm) (hruns net hm)
    (hf net hm) (hs.reducible hsn (hgm sn hsn).1 (Spec.cdcSim env).laplacian)
  intro b hb
  refine ⟨?_, hs.nonneg b hb⟩
  obtain ⟨k, hk, rfl⟩ := List.getElem_of_mem hb
  have := hs.feeder.types k hk
  unfold Spec.LoadOrConnection
  split at this
  · exact Or.inr this
  · exact Or.inl this

/-- a line with every spelling: `-qtn=x`-like clusters, `--name=value`, letters with a value, the last setting counts -/
example : parse (idOpts ++ [helpOpt]) ["-qwi20".toList, "--network=a=b".toList, "-vp".toList, "012".toList, "--network".toList, "-x".toList, "--".toList] =
    some ([(iSequence, none), (iWeighted, none), (iMaxIter, some "20".toList), (iNetwork, some "a=b".toList), (iVerbose, none),
      (iPhases, some "012".toList), (iNetwork, some "-x".toList)], []) := by decide +kernel

/-- words that are refused -/
example : parse (idOpts ++ [helpOpt]) ["--max-iter".toList, "20".toList] = none ∧ parse (idOpts ++ [helpOpt]) ["-qz".toList] = none ∧
    parse (idOpts ++ [helpOpt]) ["--sequence=1".toList] = none ∧ parse (idOpts ++ [helpOpt]) ["-n".toList] = none := by decide +kernel

/-- a limit with a decimal point -/
example (env : Env) (a : PlotParams) : plotCommand env ["--max-plot-err".toList, "0.5".toList] ≠ .run a := by
  refine C170_violated env (st := [(pMaxErr, some "0.5".toList)]) ?_ (.inr rfl) (v := "0.5".toList) ⟨[], pMaxErr, [], rfl, by decide +kernel, ?_⟩
    (by decide +kernel) a
  · exact .longNext (o := pMaxErr) (by decide) (by decide) .nil
  · intro s hs
    simp at hs

/-- limits 20 and 0 -/
example (env : Env) : ∃ a, plotCommand env ["-m".toList, "20".toList, "-e".toList, "0".toList] = .run a ∧ a.maxY = some 20 ∧ a.maxErr = none := by
  obtain ⟨a, h1, h2, h3⟩ := C170_partial env (ds := [2, 0]) (es := [0]) (by simp) (by simp)
  exact ⟨a, h1, h2 20 (by decide), h3 0 (by decide)⟩

end Cli
end Verif
