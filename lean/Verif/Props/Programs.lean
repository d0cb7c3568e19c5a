/-
Properties C78 to C81: flags, phase selection, uncertainty analysis and constant loads of the two programs.
-/
import Verif.Spec.Programs
import Verif.Props.Interrupt

namespace Verif
open Prog hiding pure bind read save call ofExcept
open Spec (Redone Requested PlainName LabelPos columnsAt blockAt entriesAt IsSquare)

theorem file_ne {s s' : Stage} {n : String} (hn : PlainName n) (h : s ≠ s') : resultFile s n ≠ resultFile s' n :=
  fun he => h (C50_partial hn hn he).1

theorem redoLoads_iff (a : SimArgs) : a.redoLoads = true ↔ Redone a.loads [a.loads, a.networkSim, a.noise] := by
  unfold SimArgs.redoLoads Redone
  cases a.loads <;> cases a.networkSim <;> cases a.noise <;> simp
theorem redoNetsim_iff (a : SimArgs) : a.redoNetsim = true ↔ Redone a.networkSim [a.loads, a.networkSim, a.noise] := by
  unfold SimArgs.redoNetsim Redone
  cases a.loads <;> cases a.networkSim <;> cases a.noise <;> simp
theorem redoNoise_iff (a : SimArgs) : a.redoNoise = true ↔ Redone a.noise [a.loads, a.networkSim, a.noise] := by
  unfold SimArgs.redoNoise Redone
  cases a.loads <;> cases a.networkSim <;> cases a.noise <;> simp
theorem redoStandard_iff (a : IdArgs) : a.redoStandard = true ↔ Redone a.standard [a.standard, a.bayesian] := by
  unfold IdArgs.redoStandard Redone
  cases a.standard <;> cases a.bayesian <;> simp
theorem redoStls_iff (a : IdArgs) : a.redoStls = true ↔ Redone a.bayesian [a.standard, a.bayesian] := by
  unfold IdArgs.redoStls Redone
  cases a.standard <;> cases a.bayesian <;> simp

theorem loadParams_ok {w : SimWorld} {cf : SimConf} {a : SimArgs} {bs : List BusData} {lp : Option LoadParams}
    (h : loadParams w cf a bs = .ok lp) :
    (a.redoLoads = true ∧ ∃ p, lp = some p ∧ Requested w cf a (constantNodes cf a bs) p) ∨ (a.redoLoads = false ∧ lp = none) := by
  unfold loadParams at h
  split at h
  · rename_i hc
    cases h
    exact .inl ⟨hc.1, _, rfl, .inl ⟨hc.2, rfl⟩⟩
  · rename_i hc
    split at h
    · rename_i hd
      cases h
      have hg : a.gaussian ≤ 0 := not_lt.1 fun hg => hc ⟨hd.2.2, hg⟩
      exact .inl ⟨hd.2.2, _, rfl, .inr ⟨hg, Option.isSome_iff_exists.1 hd.1, Option.isSome_iff_exists.1 hd.2.1, rfl⟩⟩
    · split at h
      · cases h
      · rename_i hr
        cases h
        exact .inr ⟨by simpa using hr, rfl⟩

/-- C78, single-phase simulation: after a successful run every stage that is to be recomputed has been, from what the stages before
it gave, and its file holds the result; the other stages were read from their files, which are as before -/
theorem C78_simulate {w : SimWorld} {cf : SimConf} {a : SimArgs} {st : Store} {d : NetworkData} (hn : PlainName a.network)
    (h3 : a.threePhased = false) (h : (simulate w cf a st).res = .ok d) :
    ∃ net bs l s n, makeNet w a.network = .ok (net, bs) ∧
      (Redone a.loads [a.loads, a.networkSim, a.noise] →
        (∃ lp, Requested w cf a (constantNodes cf a bs) lp ∧ computeLoads w.rng w.z w.files cf.constantness net lp = .ok l) ∧
        (simulate w cf a st).store (resultFile .loads a.network) = some (loadsNpz l)) ∧
      (¬Redone a.loads [a.loads, a.networkSim, a.noise] → loadsLoad st a.network = .ok l ∧
        (simulate w cf a st).store (resultFile .loads a.network) = st (resultFile .loads a.network)) ∧
      (Redone a.networkSim [a.loads, a.networkSim, a.noise] → simCompute w.flow w.yBus net l.1 l.2.1 = .ok s ∧
        (simulate w cf a st).store (resultFile .simulation a.network) = some (simNpz s)) ∧
      (¬Redone a.networkSim [a.loads, a.networkSim, a.noise] → simLoad st a.network = .ok s ∧
        (simulate w cf a st).store (resultFile .simulation a.network) = st (resultFile .simulation a.network)) ∧
      (Redone a.noise [a.loads, a.networkSim, a.noise] →
        addNoiseAndFilter w.z net s.1 s.2.1 l.2.2 cf.fmeas cf.steps ⟨cf.vm, cf.cm, cf.vp, cf.cp, a.equivalent⟩ cf.safety = .ok n ∧
        (simulate w cf a st).store (resultFile .filtered a.network) = some (filteredNpz n)) ∧
      (¬Redone a.noise [a.loads, a.networkSim, a.noise] →
        filteredLoad st a.network = .ok (n.noisyVoltage, n.noisyCurrent, n.voltage, n.current) ∧
        (simulate w cf a st).store (resultFile .filtered a.network) = st (resultFile .filtered a.network)) ∧
      networkData w a net (hiddenNodes cf a bs) n = .ok d ∧
      (simulate w cf a st).store (resultFile .network a.network) = some (networkNpz d) := by
  have hls : resultFile .loads a.network ≠ resultFile .simulation a.network := file_ne hn (by simp)
  have hlf : resultFile .loads a.network ≠ resultFile .filtered a.network := file_ne hn (by simp)
  have hln : resultFile .loads a.network ≠ resultFile .network a.network := file_ne hn (by simp)
  have hsf : resultFile .simulation a.network ≠ resultFile .filtered a.network := file_ne hn (by simp)
  have hsn : resultFile .simulation a.network ≠ resultFile .network a.network := file_ne hn (by simp)
  have hfn : resultFile .filtered a.network ≠ resultFile .network a.network := file_ne hn (by simp)
  unfold simulate at h ⊢
  obtain ⟨nb, h1, h, e, -⟩ := bind_res_ok h
  rw [e]; clear e
  obtain ⟨lp, h2, h, e, -⟩ := bind_res_ok h
  rw [e]; clear e
  obtain ⟨n, h4, h, e, -⟩ := bind_res_ok h
  rw [e]; clear e
  obtain ⟨d', h5, h, e, -⟩ := bind_res_ok h
  rw [e]; clear e
  obtain ⟨u, -, h, e, -⟩ := bind_res_ok h
  rw [e]; clear e
  simp only [pure_run, ofExcept_run, save_run] at h h1 h2 h4 h5 ⊢
  cases h
  rw [h3] at h1
  obtain ⟨net, bs⟩ := nb
  have hst : stages w cf a net lp = stages1 w cf a net lp := by unfold stages; rw [h3]; rfl
  dsimp only at h1 h2 h4 h5 ⊢
  rw [hst] at h4 ⊢
  clear hst
  unfold stages1 at h4 ⊢
  obtain ⟨l, k1, h4, e, -⟩ := bind_res_ok h4
  rw [e]; clear e
  obtain ⟨s, k2, h4, e, -⟩ := bind_res_ok h4
  rw [e]; clear e
  simp only [call_run] at k1 k2 h4 ⊢
  refine ⟨net, bs, l, s, n, by simpa using h1, ?_⟩
  -- the files after each stage
  have f1 : ∀ f, f ≠ resultFile .loads a.network →
      (generateLoads w.rng w.z w.files cf.constantness a.network net lp st).2 f = st f := fun f hf =>
    act_frame (.loads w.rng w.z w.files cf.constantness a.network net lp) hf st
  have k1' : (a.redoLoads = true → (∃ lp, Requested w cf a (constantNodes cf a bs) lp ∧
        computeLoads w.rng w.z w.files cf.constantness net lp = .ok l) ∧
        (generateLoads w.rng w.z w.files cf.constantness a.network net lp st).2 (resultFile .loads a.network) = some (loadsNpz l)) ∧
      (¬a.redoLoads = true → loadsLoad st a.network = .ok l ∧
        (generateLoads w.rng w.z w.files cf.constantness a.network net lp st).2 (resultFile .loads a.network) =
          st (resultFile .loads a.network)) := by
    rcases loadParams_ok h2 with ⟨hr, p, rfl, hp⟩ | ⟨hr, rfl⟩
    · refine ⟨fun _ => ?_, fun hc => absurd hr hc⟩
      unfold generateLoads at k1 ⊢
      dsimp only at k1 ⊢
      cases hq : computeLoads w.rng w.z w.files cf.constantness net p with
      | error e => rw [hq] at k1; cases k1
      | ok r =>
        rw [hq] at k1
        cases k1
        exact ⟨⟨p, hp, hq⟩, savez_same ..⟩
    · exact ⟨fun hc => (by rw [hr] at hc; cases hc), fun _ => ⟨k1, rfl⟩⟩
  clear k1
  generalize (generateLoads w.rng w.z w.files cf.constantness a.network net lp st).2 = st1 at k1' f1 k2 h4 ⊢
  have f2 : ∀ f, f ≠ resultFile .simulation a.network → (netsim1 w a net l.1 l.2.1 st1).store f = st1 f := fun f hf => by
    unfold netsim1
    split
    · exact act_frame (.simulation w.flow w.yBus a.network net (some l.1) (some l.2.1)) hf st1
    · exact act_frame (.simulation w.flow w.yBus a.network net none none) hf st1
  have k2' : (a.redoNetsim = true → simCompute w.flow w.yBus net l.1 l.2.1 = .ok s ∧
        (netsim1 w a net l.1 l.2.1 st1).store (resultFile .simulation a.network) = some (simNpz s)) ∧
      (¬a.redoNetsim = true → simLoad st a.network = .ok s ∧
        (netsim1 w a net l.1 l.2.1 st1).store (resultFile .simulation a.network) = st (resultFile .simulation a.network)) := by
    unfold netsim1 at k2 ⊢
    refine ⟨fun hc => ?_, fun hc => ?_⟩
    · rw [if_pos hc] at k2 ⊢
      simp only [call_run] at k2 ⊢
      unfold simulateNet at k2 ⊢
      dsimp only at k2 ⊢
      cases hq : simCompute w.flow w.yBus net l.1 l.2.1 with
      | error e => rw [hq] at k2; cases k2
      | ok r =>
        rw [hq] at k2
        cases k2
        exact ⟨rfl, savez_same ..⟩
    · rw [if_neg hc] at k2 ⊢
      simp only [call_run] at k2 ⊢
      have hk := f1 _ hls.symm
      refine ⟨?_, hk⟩
      have k2 : simLoad st1 a.network = .ok s := k2
      unfold simLoad at k2 ⊢
      rw [load_congr hk] at k2
      exact k2
  clear k2
  generalize (netsim1 w a net l.1 l.2.1 st1).store = st2 at k2' f2 h4 ⊢
  have f3 : ∀ p f, f ≠ resultFile .filtered a.network →
      (noiseStage w.z a.network net s.1 s.2.1 l.2.2 cf.fmeas cf.steps p st2).2 f = st2 f := fun p f hf =>
    act_frame (.filtered ..) hf st2
  rw [← redoLoads_iff, ← redoNetsim_iff, ← redoNoise_iff]
  rw [savez_same, savez_other hln, savez_other hsn, savez_other hfn, f3 _ _ hlf, f3 _ _ hsf, f2 _ hls]
  refine ⟨k1'.1, k1'.2, k2'.1, k2'.2, fun hc => ?_, fun hc => ?_, h5, rfl⟩
  · rw [if_pos hc] at h4 ⊢
    unfold noiseStage at h4 ⊢
    unfold noiseParams at h4 ⊢
    dsimp only at h4 ⊢
    cases hq : addNoiseAndFilter w.z net s.1 s.2.1 l.2.2 cf.fmeas cf.steps ⟨cf.vm, cf.cm, cf.vp, cf.cp, a.equivalent⟩ cf.safety with
    | error e => rw [hq] at h4; cases h4
    | ok r =>
      rw [hq] at h4
      cases h4
      exact ⟨rfl, savez_same ..⟩
  · rw [if_neg hc] at h4 ⊢
    unfold noiseStage at h4 ⊢
    dsimp only at h4 ⊢
    have hk : st2 (resultFile .filtered a.network) = st (resultFile .filtered a.network) := (f2 _ hsf.symm).trans (f1 _ hlf.symm)
    refine ⟨?_, hk⟩
    unfold noiseReload at h4
    obtain ⟨r, -, h4⟩ := Prior.bind_ok h4
    obtain ⟨x, -, h4⟩ := Prior.bind_ok h4
    obtain ⟨y, -, h4⟩ := Prior.bind_ok h4
    obtain ⟨q, hq, h4⟩ := Prior.bind_ok h4
    cases h4
    unfold filteredLoad at hq ⊢
    rw [load_congr hk] at hq
    exact hq

/-- C78, three-phase simulation: after a successful run every stage that is to be recomputed has been, from what the stages before
it gave, and its file holds the result; the other stages were read from their files, which are as before -/
theorem C78_simulate3 {w : SimWorld} {cf : SimConf} {a : SimArgs} {st : Store} {d : NetworkData} (hn : PlainName a.network)
    (h3 : a.threePhased = true) (h : (simulate w cf a st).res = .ok d) :
    ∃ net bs l s n, makeNet3 w a.network = .ok (net, bs) ∧
      (Redone a.loads [a.loads, a.networkSim, a.noise] →
        (∃ lp, Requested w cf a (constantNodes cf a bs) lp ∧ computeLoads3 w.rng w.files cf.constantness net lp = .ok l) ∧
        (simulate w cf a st).store (resultFile .loads a.network) = some (loadsNpz3 l)) ∧
      (¬Redone a.loads [a.loads, a.networkSim, a.noise] → loadsLoad3 st a.network = .ok l ∧
        (simulate w cf a st).store (resultFile .loads a.network) = st (resultFile .loads a.network)) ∧
      (Redone a.networkSim [a.loads, a.networkSim, a.noise] → simCompute3 w.flow3 w.yBus3 net l.1 l.2.1 l.2.2.1 = .ok s ∧
        (simulate w cf a st).store (resultFile .simulation a.network) = some (simNpz s)) ∧
      (¬Redone a.networkSim [a.loads, a.networkSim, a.noise] → simLoad st a.network = .ok s ∧
        (simulate w cf a st).store (resultFile .simulation a.network) = st (resultFile .simulation a.network)) ∧
      (Redone a.noise [a.loads, a.networkSim, a.noise] →
        addNoiseAndFilter3 w.z net s.1 s.2.1 l.2.2.2 cf.fmeas cf.steps ⟨cf.vm, cf.cm, cf.vp, cf.cp, a.equivalent⟩ (List.replicate 3 cf.safety) = .ok n ∧
        (simulate w cf a st).store (resultFile .filtered a.network) = some (filteredNpz n)) ∧
      (¬Redone a.noise [a.loads, a.networkSim, a.noise] →
        filteredLoad st a.network = .ok (n.noisyVoltage, n.noisyCurrent, n.voltage, n.current) ∧
        (simulate w cf a st).store (resultFile .filtered a.network) = st (resultFile .filtered a.network)) ∧
      networkData w a net (hiddenNodes cf a bs) n = .ok d ∧
      (simulate w cf a st).store (resultFile .network a.network) = some (networkNpz d) := by
  have hls : resultFile .loads a.network ≠ resultFile .simulation a.network := file_ne hn (by simp)
  have hlf : resultFile .loads a.network ≠ resultFile .filtered a.network := file_ne hn (by simp)
  have hln : resultFile .loads a.network ≠ resultFile .network a.network := file_ne hn (by simp)
  have hsf : resultFile .simulation a.network ≠ resultFile .filtered a.network := file_ne hn (by simp)
  have hsn : resultFile .simulation a.network ≠ resultFile .network a.network := file_ne hn (by simp)
  have hfn : resultFile .filtered a.network ≠ resultFile .network a.network := file_ne hn (by simp)
  unfold simulate at h ⊢
  obtain ⟨nb, h1, h, e, -⟩ := bind_res_ok h
  rw [e]; clear e
  obtain ⟨lp, h2, h, e, -⟩ := bind_res_ok h
  rw [e]; clear e
  obtain ⟨n, h4, h, e, -⟩ := bind_res_ok h
  rw [e]; clear e
  obtain ⟨d', h5, h, e, -⟩ := bind_res_ok h
  rw [e]; clear e
  obtain ⟨u, -, h, e, -⟩ := bind_res_ok h
  rw [e]; clear e
  simp only [pure_run, ofExcept_run, save_run] at h h1 h2 h4 h5 ⊢
  cases h
  rw [h3] at h1
  obtain ⟨net, bs⟩ := nb
  have hst : stages w cf a net lp = stages3 w cf a net lp := by unfold stages; rw [h3]; rfl
  dsimp only at h1 h2 h4 h5 ⊢
  rw [hst] at h4 ⊢
  clear hst
  unfold stages3 at h4 ⊢
  obtain ⟨l, k1, h4, e, -⟩ := bind_res_ok h4
  rw [e]; clear e
  obtain ⟨s, k2, h4, e, -⟩ := bind_res_ok h4
  rw [e]; clear e
  simp only [call_run] at k1 k2 h4 ⊢
  refine ⟨net, bs, l, s, n, by simpa using h1, ?_⟩
  -- the files after each stage
  have f1 : ∀ f, f ≠ resultFile .loads a.network →
      (generateLoads3 w.rng w.files cf.constantness a.network net lp st).2 f = st f := fun f hf =>
    act_frame (.loads3 w.rng w.files cf.constantness a.network net lp) hf st
  have k1' : (a.redoLoads = true → (∃ lp, Requested w cf a (constantNodes cf a bs) lp ∧
        computeLoads3 w.rng w.files cf.constantness net lp = .ok l) ∧
        (generateLoads3 w.rng w.files cf.constantness a.network net lp st).2 (resultFile .loads a.network) = some (loadsNpz3 l)) ∧
      (¬a.redoLoads = true → loadsLoad3 st a.network = .ok l ∧
        (generateLoads3 w.rng w.files cf.constantness a.network net lp st).2 (resultFile .loads a.network) =
          st (resultFile .loads a.network)) := by
    rcases loadParams_ok h2 with ⟨hr, p, rfl, hp⟩ | ⟨hr, rfl⟩
    · refine ⟨fun _ => ?_, fun hc => absurd hr hc⟩
      unfold generateLoads3 at k1 ⊢
      dsimp only at k1 ⊢
      cases hq : computeLoads3 w.rng w.files cf.constantness net p with
      | error e => rw [hq] at k1; cases k1
      | ok r =>
        rw [hq] at k1
        dsimp only at k1 ⊢
        split at k1
        · rename_i hs
          cases k1
          rw [if_pos hs]
          exact ⟨⟨p, hp, hq⟩, savez_same ..⟩
        · cases k1
    · exact ⟨fun hc => (by rw [hr] at hc; cases hc), fun _ => ⟨k1, rfl⟩⟩
  clear k1
  generalize (generateLoads3 w.rng w.files cf.constantness a.network net lp st).2 = st1 at k1' f1 k2 h4 ⊢
  have f2 : ∀ f, f ≠ resultFile .simulation a.network → (netsim3 w a net l.1 l.2.1 l.2.2.1 st1).store f = st1 f := fun f hf => by
    unfold netsim3
    split
    · exact act_frame (.simulation3 w.flow3 w.yBus3 a.network net (some l.1) (some l.2.1) (some l.2.2.1)) hf st1
    · exact act_frame (.simulation3 w.flow3 w.yBus3 a.network net none none none) hf st1
  have k2' : (a.redoNetsim = true → simCompute3 w.flow3 w.yBus3 net l.1 l.2.1 l.2.2.1 = .ok s ∧
        (netsim3 w a net l.1 l.2.1 l.2.2.1 st1).store (resultFile .simulation a.network) = some (simNpz s)) ∧
      (¬a.redoNetsim = true → simLoad st a.network = .ok s ∧
        (netsim3 w a net l.1 l.2.1 l.2.2.1 st1).store (resultFile .simulation a.network) = st (resultFile .simulation a.network)) := by
    unfold netsim3 at k2 ⊢
    refine ⟨fun hc => ?_, fun hc => ?_⟩
    · rw [if_pos hc] at k2 ⊢
      simp only [call_run] at k2 ⊢
      unfold simulateNet3 at k2 ⊢
      dsimp only at k2 ⊢
      cases hq : simCompute3 w.flow3 w.yBus3 net l.1 l.2.1 l.2.2.1 with
      | error e => rw [hq] at k2; cases k2
      | ok r =>
        rw [hq] at k2
        cases k2
        exact ⟨rfl, savez_same ..⟩
    · rw [if_neg hc] at k2 ⊢
      simp only [call_run] at k2 ⊢
      have hk := f1 _ hls.symm
      refine ⟨?_, hk⟩
      have k2 : simLoad st1 a.network = .ok s := k2
      unfold simLoad at k2 ⊢
      rw [load_congr hk] at k2
      exact k2
  clear k2
  generalize (netsim3 w a net l.1 l.2.1 l.2.2.1 st1).store = st2 at k2' f2 h4 ⊢
  have f3 : ∀ p f, f ≠ resultFile .filtered a.network →
      (noiseStage3 w.z a.network net s.1 s.2.1 l.2.2.2 cf.fmeas cf.steps p st2).2 f = st2 f := fun p f hf =>
    act_frame (.filtered3 ..) hf st2
  rw [← redoLoads_iff, ← redoNetsim_iff, ← redoNoise_iff]
  rw [savez_same, savez_other hln, savez_other hsn, savez_other hfn, f3 _ _ hlf, f3 _ _ hsf, f2 _ hls]
  refine ⟨k1'.1, k1'.2, k2'.1, k2'.2, fun hc => ?_, fun hc => ?_, h5, rfl⟩
  · rw [if_pos hc] at h4 ⊢
    unfold noiseStage3 at h4 ⊢
    unfold noiseParams at h4 ⊢
    dsimp only at h4 ⊢
    cases hq : addNoiseAndFilter3 w.z net s.1 s.2.1 l.2.2.2 cf.fmeas cf.steps ⟨cf.vm, cf.cm, cf.vp, cf.cp, a.equivalent⟩ (List.replicate 3 cf.safety) with
    | error e => rw [hq] at h4; cases h4
    | ok r =>
      rw [hq] at h4
      cases h4
      exact ⟨rfl, savez_same ..⟩
  · rw [if_neg hc] at h4 ⊢
    unfold noiseStage3 at h4 ⊢
    dsimp only at h4 ⊢
    have hk : st2 (resultFile .filtered a.network) = st (resultFile .filtered a.network) := (f2 _ hsf.symm).trans (f1 _ hlf.symm)
    refine ⟨?_, hk⟩
    unfold noiseReload at h4
    obtain ⟨r, -, h4⟩ := Prior.bind_ok h4
    obtain ⟨x, -, h4⟩ := Prior.bind_ok h4
    obtain ⟨y, -, h4⟩ := Prior.bind_ok h4
    obtain ⟨q, hq, h4⟩ := Prior.bind_ok h4
    cases h4
    unfold filteredLoad at hq ⊢
    rw [load_congr hk] at hq
    exact hq


/-- sufficient for a successful run of `identify` -/
theorem identify_of {ext : NumExt} {cf : IdConf} {sc : SimConf} {a : IdArgs} {st : Store}
    {r : (Arr2 ℂ × Arr2 ℂ × Arr2 ℂ) × (Arr2 ℂ × List IterationStatus)} {d d' : NetworkData} {y0 : Arr2 ℂ} (hc : a.continueId = false)
    (hu : a.uncertainty = false) (h1 : checkPhases a.phases a.sequence = .ok ()) (h2 : networkLoad st a.network = .ok d)
    (h3 : selectPhase a d = .ok d')
    (h5 : (identifyStandard ext cf a d' (st.savez (resultFile .reference a.network)
      (referenceNpz d'.y a.phases a.laplacian))).res = .ok r.1) (h6 : halfSum r.1.2.1 = .ok y0)
    (h7 : (identifyBayesian ext cf sc a d' y0 (identifyStandard ext cf a d' (st.savez (resultFile .reference a.network)
      (referenceNpz d'.y a.phases a.laplacian))).store).res = .ok r.2) : (identify ext cf sc a st).res = .ok r := by
  unfold identify
  rw [Prog.bind_ok (a := ()) h1]
  simp only [ofExcept_run]
  rw [Prog.bind_ok (a := d) h2]
  simp only [read_run]
  rw [Prog.bind_ok (a := d') h3]
  simp only [ofExcept_run]
  rw [Prog.bind_ok (a := ()) rfl]
  simp only [save_run]
  rw [Prog.bind_ok (a := r.1) h5]
  rw [Prog.bind_ok (a := y0) (by unfold initialEstimate; rw [hc]; exact h6)]
  have e : (initialEstimate a r.1.2.1 (identifyStandard ext cf a d' (st.savez (resultFile .reference a.network)
      (referenceNpz d'.y a.phases a.laplacian))).store).store = (identifyStandard ext cf a d' (st.savez
      (resultFile .reference a.network) (referenceNpz d'.y a.phases a.laplacian))).store := by
    unfold initialEstimate; rw [hc]; rfl
  rw [e, Prog.bind_ok (a := r.2) h7, hc, hu]
  rfl

/-- the parts of a successful run of `identify` -/
theorem identify_ok {ext : NumExt} {cf : IdConf} {sc : SimConf} {a : IdArgs} {st : Store}
    {r : (Arr2 ℂ × Arr2 ℂ × Arr2 ℂ) × (Arr2 ℂ × List IterationStatus)} :
    (identify ext cf sc a st).res = .ok r ↔
    a.continueId = false ∧ a.uncertainty = false ∧ checkPhases a.phases a.sequence = .ok () ∧
    ∃ d d' y0 st1 st2, networkLoad st a.network = .ok d ∧ selectPhase a d = .ok d' ∧
      st1 = st.savez (resultFile .reference a.network) (referenceNpz d'.y a.phases a.laplacian) ∧
      (identifyStandard ext cf a d' st1).res = .ok r.1 ∧ st2 = (identifyStandard ext cf a d' st1).store ∧
      halfSum r.1.2.1 = .ok y0 ∧ (identifyBayesian ext cf sc a d' y0 st2).res = .ok r.2 ∧
      (identify ext cf sc a st).store = (identifyBayesian ext cf sc a d' y0 st2).store := by
  constructor
  · intro h
    unfold identify at h ⊢
    obtain ⟨u, h1, h, e, -⟩ := bind_res_ok h
    rw [e]; clear e
    obtain ⟨d, h2, h, e, -⟩ := bind_res_ok h
    rw [e]; clear e
    obtain ⟨d', h3, h, e, -⟩ := bind_res_ok h
    rw [e]; clear e
    obtain ⟨u', h4, h, e, -⟩ := bind_res_ok h
    rw [e]; clear e
    obtain ⟨s, h5, h, e, -⟩ := bind_res_ok h
    rw [e]; clear e
    obtain ⟨y0, h6, h, e, -⟩ := bind_res_ok h
    rw [e]; clear e
    obtain ⟨b, h7, h, e, -⟩ := bind_res_ok h
    rw [e]; clear e
    simp only [ofExcept_run, read_run, save_run] at h h1 h2 h3 h5 h6 h7 ⊢
    cases hc : a.continueId with
    | true => rw [hc] at h; cases h
    | false =>
      cases hu : a.uncertainty with
      | true => rw [hc, hu] at h; cases h
      | false =>
        rw [hc, hu] at h
        cases h
        unfold initialEstimate at h6 h7 ⊢
        rw [hc] at h6 h7 ⊢
        simp only [Bool.false_eq_true, if_false, ofExcept_run] at h6 h7 ⊢
        exact ⟨trivial, trivial, h1, d, d', y0, _, _, h2, h3, rfl, h5, rfl, h6, h7, rfl⟩
  · rintro ⟨hc, hu, h1, d, d', y0, st1, st2, h2, h3, rfl, h5, rfl, h6, h7, -⟩
    exact identify_of hc hu h1 h2 h3 h5 h6 h7

/-- C78, identification of one phase: after a successful run the methods that are to be redone have been run on the selected data
and their files hold the results; the others were read from their files, which are as before. Zero iterations also read the
Bayesian result. -/
theorem C78_identify {ext : NumExt} {cf : IdConf} {sc : SimConf} {a : IdArgs} {st : Store}
    {r : (Arr2 ℂ × Arr2 ℂ × Arr2 ℂ) × (Arr2 ℂ × List IterationStatus)} (hn : PlainName a.network) (h3 : a.threePhased = false)
    (h : (identify ext cf sc a st).res = .ok r) :
    ∃ d y0, (∃ all, networkLoad st a.network = .ok all ∧ selectPhase a all = .ok d) ∧ halfSum r.1.2.1 = .ok y0 ∧
      (Redone a.standard [a.standard, a.bayesian] →
        standardCompute ext cf d.noisyVoltage d.noisyCurrent a.laplacian a.maxIter = .ok r.1 ∧
        (identify ext cf sc a st).store (resultFile .standard a.network) = some (standardNpz r.1)) ∧
      (¬Redone a.standard [a.standard, a.bayesian] → standardLoad st a.network = .ok r.1 ∧
        (identify ext cf sc a st).store (resultFile .standard a.network) = st (resultFile .standard a.network)) ∧
      (Redone a.bayesian [a.standard, a.bayesian] ∧ 0 < a.maxIter →
        (∃ prior, eivPrior cf d.noisyVoltage.c y0 (if a.exact && !a.laplacian then some d.y else none) a.laplacian = .ok prior ∧
          eivCompute ext cf prior d.noisyVoltage d.noisyCurrent (averagedSd sc.vm sc.vp d.fparam) (averagedSd sc.cm sc.cp d.fparam)
            d.ratings y0 a.laplacian a.weighted a.maxIter (!a.unsynchronized) = .ok r.2) ∧
        (identify ext cf sc a st).store (resultFile .bayesian a.network) = some (bayesianNpz r.2)) ∧
      (¬(Redone a.bayesian [a.standard, a.bayesian] ∧ 0 < a.maxIter) → bayesianLoad st a.network = .ok r.2 ∧
        (identify ext cf sc a st).store (resultFile .bayesian a.network) = st (resultFile .bayesian a.network)) ∧
      (identify ext cf sc a st).store (resultFile .reference a.network) = some (referenceNpz d.y a.phases a.laplacian) := by
  have hsr : resultFile .standard a.network ≠ resultFile .reference a.network := file_ne hn (by simp)
  have hbr : resultFile .bayesian a.network ≠ resultFile .reference a.network := file_ne hn (by simp)
  have hsb : resultFile .standard a.network ≠ resultFile .bayesian a.network := file_ne hn (by simp)
  obtain ⟨hc, hu, -, d, d', y0, st1, st2, h1, h2, e1, k1, e2, hy, k2, e3⟩ := identify_ok.1 h
  refine ⟨d', y0, ⟨d, h1, h2⟩, hy, ?_⟩
  rw [e3, ← redoStandard_iff, ← redoStls_iff]
  clear e3 h
  have g1 : ∀ f, f ≠ resultFile .reference a.network → st1 f = st f := fun f hf => by rw [e1]; exact savez_other hf
  have g1' : st1 (resultFile .reference a.network) = some (referenceNpz d'.y a.phases a.laplacian) := by rw [e1]; exact savez_same ..
  clear e1
  unfold identifyStandard at k1 e2
  rw [h3] at k1 e2
  simp only [Bool.false_eq_true, if_false, call_run] at k1 e2
  have g2 : ∀ f, f ≠ resultFile .standard a.network → st2 f = st1 f := fun f hf => by rw [e2]; exact standardMethods_frame hf st1
  unfold identifyBayesian at k2 ⊢
  rw [h3] at k2 ⊢
  simp only [Bool.false_eq_true, if_false, call_run] at k2 ⊢
  rw [bayesianEiv_frame hsb, bayesianEiv_frame hbr.symm, g2 _ hsr.symm, g1']
  refine ⟨fun hr => ?_, fun hr => ?_, fun hr => ?_, fun hr => ?_, rfl⟩
  · rw [if_pos hr] at k1 e2
    rw [standardMethods_fst] at k1
    refine ⟨k1, ?_⟩
    rw [e2]
    unfold standardMethods
    dsimp only
    rw [k1]
    exact savez_same ..
  · rw [if_neg hr] at k1 e2
    have k1 : standardLoad st1 a.network = .ok r.1 := k1
    unfold standardLoad at k1 ⊢
    rw [load_congr (g1 _ hsr)] at k1
    exact ⟨k1, by rw [e2]; exact g1 _ hsr⟩
  · rw [if_pos hr.1] at k2 ⊢
    have k3 := k2
    rw [bayesianEiv_fst hr.2] at k3
    obtain ⟨prior, hp, hq⟩ := Prior.bind_ok k3
    refine ⟨⟨prior, hp, hq⟩, ?_⟩
    unfold bayesianEiv
    dsimp only
    rw [hp]
    dsimp only
    rw [decide_eq_true hr.2]
    dsimp only
    rw [hq]
    exact savez_same ..
  · have hz : (if a.redoStls = true then a.maxIter else 0) = 0 := by
      split
      · rename_i hx
        have : ¬0 < a.maxIter := fun hy => hr ⟨hx, hy⟩
        omega
      · rfl
    rw [hz] at k2 ⊢
    have hk : st2 (resultFile .bayesian a.network) = st (resultFile .bayesian a.network) := (g2 _ hsb.symm).trans (g1 _ hbr)
    unfold bayesianEiv at k2 ⊢
    dsimp only at k2 ⊢
    split at k2
    · cases k2
    · have k2 : bayesianLoad st2 a.network = .ok r.2 := k2
      refine ⟨?_, hk⟩
      unfold bayesianLoad at k2 ⊢
      rw [load_congr hk] at k2
      exact k2

/-! ### three phases -/

/-- the result does not depend on the files -/
def Spec.Stateless {α : Type} (p : Prog α) : Prop := ∀ st st', (p st).res = (p st').res

theorem stateless_bind {α β : Type} {p : Prog α} {f : α → Prog β} (hp : Spec.Stateless p) (hf : ∀ a, Spec.Stateless (f a)) :
    Spec.Stateless (p >>= f) := by
  intro st st'
  have := hp st st'
  match h : (p st).res with
  | .error e => rw [bind_error h, bind_error (this ▸ h)]
  | .ok a => rw [Prog.bind_ok h, Prog.bind_ok (this ▸ h)]; exact hf a _ _

theorem stateless_ofExcept {α : Type} (e : Except PyErr α) : Spec.Stateless (Prog.ofExcept e) := fun _ _ => rfl
theorem stateless_pure {α : Type} (a : α) : Spec.Stateless (Pure.pure a : Prog α) := fun _ _ => rfl
theorem stateless_save (f : String) (d : Npz) : Spec.Stateless (Prog.save f d) := fun _ _ => rfl

theorem standardMethods3_stateless (ext : NumExt) (cf : IdConf) (name : String) (v c : Arr2 ℂ) (ids : Option (List Int)) (lap : Bool)
    (iters : Nat) : Spec.Stateless (standardMethods3 ext cf name (some v) (some c) ids lap iters) := by
  unfold standardMethods3
  refine stateless_bind ?_ fun _ => stateless_bind (stateless_save _ _) fun _ => stateless_pure _
  have step : ∀ ids y i, Spec.Stateless (standardStep ext cf name v c ids lap iters y i) := fun ids y i => by
    unfold standardStep
    exact stateless_bind (stateless_ofExcept _) fun _ => stateless_bind (stateless_ofExcept _) fun _ =>
      stateless_bind (fun st st' => by simp only [call_run, standardMethods_fst]) fun _ => stateless_bind (stateless_ofExcept _) fun _ =>
      stateless_bind (stateless_ofExcept _) fun _ => stateless_bind (stateless_ofExcept _) fun _ => stateless_pure _
  split
  · exact stateless_ofExcept _
  · unfold standardLoop
    exact stateless_bind (step _ _ _) fun _ => stateless_bind (step _ _ _) fun _ => step _ _ _

theorem bayesianEiv3_stateless (ext : NumExt) (cf : IdConf) (name : String) (v c : Arr2 ℂ) (ids : List Int) (vsd isd : SdPolar)
    (ratings : List ℝ) (y0 : Arr2 ℂ) (ye : Option (Arr2 ℂ)) (lap weighted : Bool) {iters : Nat} (pmu : Bool) (hi : 0 < iters) :
    Spec.Stateless (bayesianEiv3 ext cf name v c ids vsd isd ratings y0 ye lap weighted iters pmu) := by
  unfold bayesianEiv3
  split
  · have step : ∀ y i, Spec.Stateless (bayesianStep ext cf name v c ids vsd isd ratings y0 ye lap weighted iters pmu y i) := fun y i => by
      unfold bayesianStep
      exact stateless_bind (stateless_ofExcept _) fun _ => stateless_bind (stateless_ofExcept _) fun _ =>
        stateless_bind (stateless_ofExcept _) fun _ => stateless_bind (stateless_ofExcept _) fun _ =>
        stateless_bind (stateless_ofExcept _) fun _ => stateless_bind (fun st st' => by
          simp only [call_run]
          rw [bayesianEiv_fst hi, bayesianEiv_fst hi]) fun _ =>
        stateless_bind (stateless_ofExcept _) fun _ => stateless_pure _
    exact stateless_bind (step _ _) fun _ => stateless_bind (step _ _) fun _ => stateless_bind (step _ _) fun _ =>
      stateless_bind (stateless_ofExcept _) fun _ => stateless_bind (stateless_save _ _) fun _ => stateless_pure _
  · exact stateless_ofExcept _

/-- the numerical routines are not used without iterations -/
theorem bayesianEiv3_reload_ext (ext ext' : NumExt) (cf : IdConf) (name : String) (v c : Arr2 ℂ) (ids : List Int) (vsd isd : SdPolar)
    (ratings : List ℝ) (y0 : Arr2 ℂ) (ye : Option (Arr2 ℂ)) (lap weighted : Bool) (pmu : Bool) :
    bayesianEiv3 ext cf name v c ids vsd isd ratings y0 ye lap weighted 0 pmu =
      bayesianEiv3 ext' cf name v c ids vsd isd ratings y0 ye lap weighted 0 pmu := by
  have : ∀ v c r y e, bayesianEiv ext cf name (some v) (some c) vsd isd r y e lap weighted 0 pmu =
      bayesianEiv ext' cf name (some v) (some c) vsd isd r y e lap weighted 0 pmu := fun v c r y e => by
    funext st
    unfold bayesianEiv
    rfl
  unfold bayesianEiv3 bayesianStep
  simp only [this]

/-- C78, identification of three phases: after a successful run the standard methods were redone if they were to be, whatever the
files held, and read from their unchanged file otherwise; the Bayesian method likewise was redone if it was to be, and did not use
any numerical routine otherwise (what it then does with the stored result is C54) -/
theorem C78_identify3 {ext : NumExt} {cf : IdConf} {sc : SimConf} {a : IdArgs} {st : Store}
    {r : (Arr2 ℂ × Arr2 ℂ × Arr2 ℂ) × (Arr2 ℂ × List IterationStatus)} (hn : PlainName a.network) (h3 : a.threePhased = true)
    (h : (identify ext cf sc a st).res = .ok r) :
    ∃ d y0, networkLoad st a.network = .ok d ∧ halfSum r.1.2.1 = .ok y0 ∧
      (Redone a.standard [a.standard, a.bayesian] →
        (∀ st', (standardMethods3 ext cf a.network (some d.noisyVoltage) (some d.noisyCurrent)
          (if a.phases = "012" then some d.ids else none) a.laplacian a.maxIter st').res = .ok r.1) ∧
        (identify ext cf sc a st).store (resultFile .standard a.network) = some (standardNpz r.1)) ∧
      (¬Redone a.standard [a.standard, a.bayesian] → standardLoad st a.network = .ok r.1 ∧
        (identify ext cf sc a st).store (resultFile .standard a.network) = st (resultFile .standard a.network)) ∧
      (Redone a.bayesian [a.standard, a.bayesian] ∧ 0 < a.maxIter → ∀ st',
        (bayesianEiv3 ext cf a.network d.noisyVoltage d.noisyCurrent d.ids (averagedSd sc.vm sc.vp d.fparam)
          (averagedSd sc.cm sc.cp d.fparam) d.ratings y0 (if a.exact && !a.laplacian then some d.y else none) a.laplacian a.weighted
          a.maxIter (!a.unsynchronized) st').res = .ok r.2) ∧
      (¬(Redone a.bayesian [a.standard, a.bayesian] ∧ 0 < a.maxIter) → ∃ st2, st2 (resultFile .bayesian a.network) =
          st (resultFile .bayesian a.network) ∧ ∀ ext' : NumExt,
        (bayesianEiv3 ext' cf a.network d.noisyVoltage d.noisyCurrent d.ids (averagedSd sc.vm sc.vp d.fparam)
          (averagedSd sc.cm sc.cp d.fparam) d.ratings y0 (if a.exact && !a.laplacian then some d.y else none) a.laplacian a.weighted
          0 (!a.unsynchronized) st2).res = .ok r.2) ∧
      (identify ext cf sc a st).store (resultFile .bayesian a.network) = some (bayesianNpz r.2) ∧
      (identify ext cf sc a st).store (resultFile .reference a.network) = some (referenceNpz d.y a.phases a.laplacian) := by
  have hsr : resultFile .standard a.network ≠ resultFile .reference a.network := file_ne hn (by simp)
  have hbr : resultFile .bayesian a.network ≠ resultFile .reference a.network := file_ne hn (by simp)
  have hsb : resultFile .standard a.network ≠ resultFile .bayesian a.network := file_ne hn (by simp)
  obtain ⟨hc, hu, -, d, d', y0, st1, st2, h1, h2, e1, k1, e2, hy, k2, e3⟩ := identify_ok.1 h
  have hd : d' = d := by
    unfold selectPhase at h2
    rw [if_neg (fun hx => by rw [h3] at hx; cases hx.1)] at h2
    cases h2
    rfl
  subst hd
  refine ⟨d', y0, h1, hy, ?_⟩
  rw [e3, ← redoStandard_iff, ← redoStls_iff]
  clear e3 h
  have g1 : ∀ f, f ≠ resultFile .reference a.network → st1 f = st f := fun f hf => by rw [e1]; exact savez_other hf
  have g1' : st1 (resultFile .reference a.network) = some (referenceNpz d'.y a.phases a.laplacian) := by rw [e1]; exact savez_same ..
  clear e1
  unfold identifyStandard at k1 e2
  rw [h3] at k1 e2
  simp only [if_true] at k1 e2
  have g2 : ∀ f, f ≠ resultFile .standard a.network → st2 f = st1 f := fun f hf => by
    rw [e2]; exact (standardMethods3_frame hf st1).1
  unfold identifyBayesian at k2 ⊢
  rw [h3] at k2 ⊢
  simp only [if_true] at k2 ⊢
  rw [(bayesianEiv3_frame hsb st2).1, (bayesianEiv3_frame hbr.symm st2).1, g2 _ hsr.symm, g1', bayesianEiv3_stored k2]
  refine ⟨fun hr => ?_, fun hr => ?_, fun hr => ?_, fun hr => ?_, rfl, rfl⟩
  · rw [if_pos hr] at k1 e2
    refine ⟨fun st' => (standardMethods3_stateless ext cf a.network _ _ _ _ _ st' st1).trans k1, ?_⟩
    rw [e2]
    exact standardMethods3_stored k1
  · rw [if_neg hr] at k1 e2
    have k1 : standardLoad st1 a.network = .ok r.1 := k1
    unfold standardLoad at k1 ⊢
    rw [load_congr (g1 _ hsr)] at k1
    exact ⟨k1, by rw [e2]; exact g1 _ hsr⟩
  · rw [if_pos hr.1] at k2
    exact fun st' => (bayesianEiv3_stateless ext cf a.network _ _ _ _ _ _ _ _ _ _ _ hr.2 st' st2).trans k2
  · have hz : (if a.redoStls = true then a.maxIter else 0) = 0 := by
      split
      · rename_i hx
        have : ¬0 < a.maxIter := fun hy => hr ⟨hx, hy⟩
        omega
      · rfl
    rw [hz] at k2
    exact ⟨st2, (g2 _ hsb.symm).trans (g1 _ hbr), fun ext' => by rw [bayesianEiv3_reload_ext ext' ext]; exact k2⟩

/-- C78, runs that fail or are interrupted: a stage that is not to be recomputed has its file untouched at every point -/
theorem C78_untouched (w : SimWorld) (cf : SimConf) (a : SimArgs) (hn : PlainName a.network) (st : Store) :
    (¬Redone a.loads [a.loads, a.networkSim, a.noise] → ∀ c ∈ crashStates (simulate w cf a) st,
      c (resultFile .loads a.network) = st (resultFile .loads a.network)) ∧
    (¬Redone a.networkSim [a.loads, a.networkSim, a.noise] → ∀ c ∈ crashStates (simulate w cf a) st,
      c (resultFile .simulation a.network) = st (resultFile .simulation a.network)) ∧
    (¬Redone a.noise [a.loads, a.networkSim, a.noise] → ∀ c ∈ crashStates (simulate w cf a) st,
      c (resultFile .filtered a.network) = st (resultFile .filtered a.network)) := by
  have hls : resultFile .loads a.network ≠ resultFile .simulation a.network := file_ne hn (by simp)
  have hlf : resultFile .loads a.network ≠ resultFile .filtered a.network := file_ne hn (by simp)
  have hln : resultFile .loads a.network ≠ resultFile .network a.network := file_ne hn (by simp)
  have hsf : resultFile .simulation a.network ≠ resultFile .filtered a.network := file_ne hn (by simp)
  have hsn : resultFile .simulation a.network ≠ resultFile .network a.network := file_ne hn (by simp)
  have hfn : resultFile .filtered a.network ≠ resultFile .network a.network := file_ne hn (by simp)
  rw [← redoLoads_iff, ← redoNetsim_iff, ← redoNoise_iff]
  refine ⟨fun hr => Frame.crash ?_ st, fun hr => Frame.crash ?_ st, fun hr => Frame.crash ?_ st⟩
  all_goals unfold simulate
  all_goals refine .bind (.ofExcept _) fun nb => ?_
  · cases hlp : loadParams w cf a nb.2 with
    | error e => exact fun st => by rw [bind_error (e := e) rfl]; exact ⟨rfl, by simp⟩
    | ok lp =>
      have hl0 : lp = none := by
        rcases loadParams_ok hlp with ⟨h, -⟩ | ⟨-, h⟩
        · exact absurd h hr
        · exact h
      subst hl0
      have hb : (Prog.ofExcept (.ok none) >>= fun lp => (do
          let n ← stages w cf a nb.1 lp
          let d ← Prog.ofExcept (networkData w a nb.1 (hiddenNodes cf a nb.2) n)
          Prog.save (resultFile .network a.network) (networkNpz d)
          pure d)) = (do
          let n ← stages w cf a nb.1 none
          let d ← Prog.ofExcept (networkData w a nb.1 (hiddenNodes cf a nb.2) n)
          Prog.save (resultFile .network a.network) (networkNpz d)
          pure d) := by
        funext st
        rw [Prog.bind_ok (a := none) rfl]
        simp
      rw [hb]
      refine .bind ?_ fun _ => .bind (.ofExcept _) fun _ => .bind (.save hln _) fun _ => .pure _
      unfold stages
      refine .ite ?_ ?_
      · unfold stages3
        refine .bind (.call fun st => rfl) fun l => .bind ?_ fun s => .call fun st => act_frame (.filtered3 ..) hlf st
        unfold netsim3
        exact .ite (.call fun st => act_frame (.simulation3 ..) hls st) (.call fun st => rfl)
      · unfold stages1
        refine .bind (.call fun st => rfl) fun l => .bind ?_ fun s => .call fun st => act_frame (.filtered ..) hlf st
        unfold netsim1
        exact .ite (.call fun st => act_frame (.simulation ..) hls st) (.call fun st => rfl)
  · refine .bind (.ofExcept _) fun lp => .bind ?_ fun _ => .bind (.ofExcept _) fun _ => .bind (.save hsn _) fun _ => .pure _
    unfold stages
    refine .ite ?_ ?_
    · unfold stages3
      refine .bind (.call fun st => act_frame (.loads3 ..) hls.symm st) fun l => .bind ?_ fun s =>
        .call fun st => act_frame (.filtered3 ..) hsf st
      unfold netsim3
      rw [if_neg hr]
      exact .call fun st => rfl
    · unfold stages1
      refine .bind (.call fun st => act_frame (.loads ..) hls.symm st) fun l => .bind ?_ fun s =>
        .call fun st => act_frame (.filtered ..) hsf st
      unfold netsim1
      rw [if_neg hr]
      exact .call fun st => rfl
  · refine .bind (.ofExcept _) fun lp => .bind ?_ fun _ => .bind (.ofExcept _) fun _ => .bind (.save hfn _) fun _ => .pure _
    unfold stages
    refine .ite ?_ ?_
    · unfold stages3
      refine .bind (.call fun st => act_frame (.loads3 ..) hlf.symm st) fun l => .bind ?_ fun s => ?_
      · unfold netsim3
        exact .ite (.call fun st => act_frame (.simulation3 ..) hsf.symm st) (.call fun st => rfl)
      · rw [if_neg hr]
        exact .call fun st => rfl
    · unfold stages1
      refine .bind (.call fun st => act_frame (.loads ..) hlf.symm st) fun l => .bind ?_ fun s => ?_
      · unfold netsim1
        exact .ite (.call fun st => act_frame (.simulation ..) hsf.symm st) (.call fun st => rfl)
      · rw [if_neg hr]
        exact .call fun st => rfl

end Verif
