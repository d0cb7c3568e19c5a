/-
C49, C50, C100: file names of the stages, results read back after any history, runs for different networks.
-/
import Verif.Lemmas.Prog
import Verif.Spec.Store
import Verif.Props.Sampling

namespace Verif
open Prog hiding pure bind read save call ofExcept

/-! ### C50 -/

theorem resultFile_toList (s : Stage) (n : String) : (resultFile s n).toList = s.pre.toList ++ n.toList ++ ".npz".toList := by
  simp [resultFile]

theorem resultFile_eq_iff {s s' : Stage} {n n' : String} :
    resultFile s n = resultFile s' n' ↔ s.pre.toList ++ n.toList = s'.pre.toList ++ n'.toList := by
  constructor
  · intro h
    have := congrArg String.toList h
    rw [resultFile_toList, resultFile_toList] at this
    exact List.append_cancel_right this
  · intro h
    apply String.toList_inj.1
    rw [resultFile_toList, resultFile_toList, h]

theorem pre_ne {s s' : Stage} (hs : s ≠ .network) (hs' : s' ≠ .network) {a b : List Char}
    (h : s.pre.toList ++ a = s'.pre.toList ++ b) : s = s' := by
  cases s <;> cases s' <;> first | rfl | (exact absurd rfl hs) | (exact absurd rfl hs') | (exfalso; revert h; simp [Stage.pre])

/-- C50 exactly: two different pairs of stage and network share a file if and only if one is the network stage and its name begins
with the other stage's prefix -/
theorem C50_exact (s s' : Stage) (n n' : String) :
    resultFile s n = resultFile s' n' ↔ (s = s' ∧ n = n') ∨ (s = .network ∧ s' ≠ .network ∧ n = s'.pre ++ n') ∨
      (s' = .network ∧ s ≠ .network ∧ n' = s.pre ++ n) := by
  rw [resultFile_eq_iff]
  constructor
  · intro h
    by_cases hs : s = .network
    · by_cases hs' : s' = .network
      · subst hs hs'
        exact Or.inl ⟨rfl, String.toList_inj.1 (by simpa [Stage.pre] using h)⟩
      · subst hs
        refine Or.inr (Or.inl ⟨rfl, hs', String.toList_inj.1 ?_⟩)
        simpa [Stage.pre] using h
    · by_cases hs' : s' = .network
      · subst hs'
        refine Or.inr (Or.inr ⟨rfl, hs, String.toList_inj.1 ?_⟩)
        simpa [Stage.pre] using h.symm
      · have := pre_ne hs hs' h
        subst this
        exact Or.inl ⟨rfl, String.toList_inj.1 (List.append_cancel_left h)⟩
  · rintro (⟨rfl, rfl⟩ | ⟨rfl, -, rfl⟩ | ⟨rfl, -, rfl⟩)
    · rfl
    · simp [Stage.pre]
    · simp [Stage.pre]

/-- C50 violated: simulating a network named `sim_loads_x` writes the file in which the loads of the network `x` are kept, and
the same for every other stage -/
theorem C50_violated (s : Stage) (hs : s ≠ .network) (x : String) :
    (Stage.network, s.pre ++ x) ≠ (s, x) ∧ resultFile .network (s.pre ++ x) = resultFile s x :=
  ⟨fun h => hs (congrArg Prod.fst h).symm, (C50_exact _ _ _ _).2 (Or.inr (Or.inl ⟨rfl, hs, rfl⟩))⟩

example : resultFile .network "sim_loads_x" = resultFile .loads "x" := by decide

/-- C50 partial: holds between networks whose names do not begin with a stage prefix. Missing: the other names, where it fails
(`C50_violated`; `C50_exact` says when). -/
theorem C50_partial {s s' : Stage} {n n' : String} (hn : Spec.PlainName n) (hn' : Spec.PlainName n')
    (h : resultFile s n = resultFile s' n') : s = s' ∧ n = n' := by
  rcases (C50_exact s s' n n').1 h with h | ⟨-, hs, h⟩ | ⟨-, hs, h⟩
  · exact h
  · exact absurd h (hn s' hs n')
  · exact absurd h (hn' s hs n)

/-- names of the networks in src/simulation/net_templates.py and net_templates_3ph.py -/
def templateNames : List String :=
  ["bolognani56", "bolognani33", "bolognani21", "cigre_mv_feeder1", "ieee_33", "cigre_mv_feeder3", "test_3phase", "ieee123center"]

/-- the networks that exist have such names -/
theorem templates_plain : ∀ n ∈ templateNames, Spec.PlainName n := by
  intro n hn s hs m h
  have h := congrArg String.toList h
  rw [String.toList_append] at h
  simp only [templateNames, List.mem_cons, List.not_mem_nil, or_false] at hn
  rcases hn with rfl | rfl | rfl | rfl | rfl | rfl | rfl | rfl <;> cases s <;>
    first | (exact hs rfl) | (revert h; simp [Stage.pre])

/-! ### C49 -/

theorem act_frame {s : Stage} {name : String} {f : Store → Store} (h : Spec.StageRun s name f) {file : String}
    (hf : file ≠ resultFile s name) (st : Store) : f st file = st file := by
  cases h with
  | loads =>
    dsimp only
    unfold generateLoads
    split
    · split
      · rfl
      · exact savez_other hf
    · rfl
  | loads3 =>
    dsimp only
    unfold generateLoads3
    split
    · split
      · rfl
      · split
        · exact savez_other hf
        · rfl
    · rfl
  | simulation =>
    dsimp only
    unfold simulateNet
    split
    · split
      · rfl
      · exact savez_other hf
    · rfl
  | simulation3 =>
    dsimp only
    unfold simulateNet3
    split
    · split
      · rfl
      · exact savez_other hf
    · rfl
  | filtered =>
    dsimp only
    unfold noiseStage
    split
    · split
      · rfl
      · exact savez_other hf
    · rfl
  | filtered3 =>
    dsimp only
    unfold noiseStage3
    split
    · split
      · rfl
      · exact savez_other hf
    · rfl
  | network => exact savez_other hf
  | reference => exact savez_other hf
  | standard => exact standardMethods_frame hf st
  | standard3 => exact (standardMethods3_frame hf st).1
  | bayesian => exact bayesianEiv_frame hf st
  | bayesian3 => exact (bayesianEiv3_frame hf st).1
  | fim =>
    dsimp only
    unfold eivFim
    split
    · split
      · rfl
      · exact savez_other hf
    · rfl

theorem after_frame {h : List Spec.Step} {file : String} (hf : ∀ s ∈ h, file ≠ resultFile s.stage s.name) (st : Store) :
    Spec.after h st file = st file := by
  unfold Spec.after
  induction h generalizing st with
  | nil => rfl
  | cons s h ih =>
    rw [List.foldl_cons, ih (fun s' hs' => hf s' (List.mem_cons_of_mem _ hs'))]
    exact act_frame s.run (hf s (List.mem_cons_self ..)) st

/-- a history without a run of the stage for the network; all network names are plain -/
def Spec.NotAgain (s : Stage) (name : String) (h : List Spec.Step) : Prop :=
  Spec.PlainName name ∧ ∀ x ∈ h, Spec.PlainName x.name ∧ ¬(x.stage = s ∧ x.name = name)

theorem after_kept {s : Stage} {name : String} {h : List Spec.Step} (hh : Spec.NotAgain s name h) {st : Store} {d : Npz}
    (hd : st (resultFile s name) = some d) : (Spec.after h st).load (resultFile s name) = .ok d := by
  refine load_some ((after_frame (fun x hx he => ?_) st).trans hd)
  obtain ⟨h1, h2⟩ := C50_partial hh.1 (hh.2 x hx).1 he
  exact (hh.2 x hx).2 ⟨h1.symm, h2.symm⟩

/-- C49, loads of single-phase networks -/
theorem C49_loads (rng z files a name net lp st r st') (hc : generateLoads rng z files a name net (some lp) st = (.ok r, st'))
    {h : List Spec.Step} (hh : Spec.NotAgain .loads name h) (rng' z' files' a' net') :
    (generateLoads rng' z' files' a' name net' none (Spec.after h st')).1 = .ok r := by
  have hd : st' (resultFile .loads name) = some (loadsNpz r) := by
    unfold generateLoads at hc
    dsimp only at hc
    split at hc
    · cases hc
    · cases hc; exact savez_same ..
  simp [generateLoads, loadsLoad, after_kept hh hd, bind, Except.bind, loadsNpz, npz, Npz.rmat, Npz.vec, List.lookup, pure, Except.pure]

/-- C49, loads of three-phase networks -/
theorem C49_loads3 (rng files a name net lp st r st') (hc : generateLoads3 rng files a name net (some lp) st = (.ok r, st'))
    {h : List Spec.Step} (hh : Spec.NotAgain .loads name h) (rng' files' a' net') :
    (generateLoads3 rng' files' a' name net' none (Spec.after h st')).1 = .ok r := by
  have hd : st' (resultFile .loads name) = some (loadsNpz3 r) := by
    unfold generateLoads3 at hc
    dsimp only at hc
    split at hc
    · cases hc
    · split at hc
      · cases hc; exact savez_same ..
      · cases hc
  simp [generateLoads3, loadsLoad3, after_kept hh hd, bind, Except.bind, loadsNpz3, npz, Npz.rmat, Npz.rmats, Npz.vec, List.lookup, pure,
    Except.pure]

/-- C49, simulation of single-phase networks -/
theorem C49_simulation (flow yBus name net p q st r st') (hc : simulateNet flow yBus name net (some p) (some q) st = (.ok r, st'))
    {h : List Spec.Step} (hh : Spec.NotAgain .simulation name h) (flow' yBus' net' p') :
    (simulateNet flow' yBus' name net' p' none (Spec.after h st')).1 = .ok r := by
  have hd : st' (resultFile .simulation name) = some (simNpz r) := by
    unfold simulateNet at hc
    dsimp only at hc
    split at hc
    · cases hc
    · cases hc; exact savez_same ..
  simp [simulateNet, simLoad, after_kept hh hd, bind, Except.bind, simNpz, npz, Npz.mat, List.lookup, pure, Except.pure]

/-- C49, simulation of three-phase networks -/
theorem C49_simulation3 (flow yBus name net p q asym st r st')
    (hc : simulateNet3 flow yBus name net (some p) (some q) (some asym) st = (.ok r, st'))
    {h : List Spec.Step} (hh : Spec.NotAgain .simulation name h) (flow' yBus' net') :
    (simulateNet3 flow' yBus' name net' none none none (Spec.after h st')).1 = .ok r := by
  have hd : st' (resultFile .simulation name) = some (simNpz r) := by
    unfold simulateNet3 at hc
    dsimp only at hc
    split at hc
    · cases hc
    · cases hc; exact savez_same ..
  simp [simulateNet3, simLoad, after_kept hh hd, bind, Except.bind, simNpz, npz, Npz.mat, List.lookup, pure, Except.pure]

/-- C49, network data -/
theorem C49_network (name : String) (d : NetworkData) (st : Store) {h : List Spec.Step} (hh : Spec.NotAgain .network name h) :
    networkLoad (Spec.after h (st.savez (resultFile .network name) (networkNpz d))) name = .ok d := by
  have hd := savez_same st (resultFile .network name) (networkNpz d)
  have hk := after_kept hh hd
  generalize Spec.after h _ = S at hk ⊢
  simp [networkLoad, hk, bind, Except.bind, networkNpz, npz, Npz.mat, Npz.vec, Npz.num, Npz.ints, List.lookup, pure,
    Except.pure]

/-- C49, standard methods on one phase -/
theorem C49_standard (ext cf name v c lap iters st r st')
    (hc : standardMethods ext cf name (some v) (some c) lap iters st = (.ok r, st'))
    {h : List Spec.Step} (hh : Spec.NotAgain .standard name h) (ext' cf' c' lap' iters') :
    (standardMethods ext' cf' name none c' lap' iters' (Spec.after h st')).1 = .ok r := by
  have hd : st' (resultFile .standard name) = some (standardNpz r) := by
    unfold standardMethods at hc
    dsimp only at hc
    split at hc
    · cases hc
    · cases hc; exact savez_same ..
  simp [standardMethods, standardLoad, after_kept hh hd, bind, Except.bind, standardNpz, npz, Npz.mat, List.lookup, pure, Except.pure]

theorem standardMethods3_stored {ext cf name v c ids lap iters st r}
    (hc : (standardMethods3 ext cf name (some v) (some c) ids lap iters st).res = .ok r) :
    (standardMethods3 ext cf name (some v) (some c) ids lap iters st).store (resultFile .standard name) = some (standardNpz r) := by
  unfold standardMethods3 at hc ⊢
  dsimp only at hc ⊢
  obtain ⟨y, h1, h2, h3, -⟩ := bind_res_ok hc
  rw [h3]
  obtain ⟨u, -, h5, h6, -⟩ := bind_res_ok h2
  rw [h6]
  cases h5
  exact savez_same ..

/-- C49, standard methods on three phases -/
theorem C49_standard3 (ext cf name v c ids lap iters st r)
    (hc : (standardMethods3 ext cf name (some v) (some c) ids lap iters st).res = .ok r)
    {h : List Spec.Step} (hh : Spec.NotAgain .standard name h) (ext' cf' c' ids' lap' iters') :
    (standardMethods3 ext' cf' name none c' ids' lap' iters'
      (Spec.after h (standardMethods3 ext cf name (some v) (some c) ids lap iters st).store)).res = .ok r := by
  have hk := after_kept hh (standardMethods3_stored hc)
  generalize Spec.after h _ = S at hk ⊢
  simp [standardMethods3, standardLoad, hk, bind, Except.bind, standardNpz, npz, Npz.mat, List.lookup, pure, Except.pure]

/-- C49, Bayesian method on one phase: `iterations = 0` reads the result (if the prior, which is built first, can be built) -/
theorem C49_bayesian (ext cf name v c vsd isd ratings y0 ye lap weighted iters pmu st r st') (hi : 0 < iters)
    (hc : bayesianEiv ext cf name (some v) (some c) vsd isd ratings y0 ye lap weighted iters pmu st = (.ok r, st'))
    {h : List Spec.Step} (hh : Spec.NotAgain .bayesian name h) (ext' cf' v' c' vsd' isd' ratings' y0' ye' lap' weighted' pmu')
    {prior : Prior} (hp : eivPrior cf' v'.c y0' ye' lap' = .ok prior) :
    (bayesianEiv ext' cf' name (some v') c' vsd' isd' ratings' y0' ye' lap' weighted' 0 pmu' (Spec.after h st')).1 = .ok r := by
  have hd : st' (resultFile .bayesian name) = some (bayesianNpz r) := by
    unfold bayesianEiv at hc
    dsimp only at hc
    split at hc
    · cases hc
    · rw [decide_eq_true hi] at hc
      dsimp only at hc
      split at hc
      · cases hc
      · cases hc; exact savez_same ..
  unfold bayesianEiv
  simp [hp, bayesianLoad, after_kept hh hd, bind, Except.bind, bayesianNpz, npz, Npz.mat, Npz.log, List.lookup, pure, Except.pure]

theorem bayesianEiv3_stored {ext cf name v c ids vsd isd ratings y0 ye lap weighted iters pmu st r}
    (hc : (bayesianEiv3 ext cf name v c ids vsd isd ratings y0 ye lap weighted iters pmu st).res = .ok r) :
    (bayesianEiv3 ext cf name v c ids vsd isd ratings y0 ye lap weighted iters pmu st).store (resultFile .bayesian name) =
      some (bayesianNpz r) := by
  unfold bayesianEiv3 at hc ⊢
  split at hc
  · rename_i h0
    rw [if_pos h0]
    obtain ⟨_, _, h2, h3, -⟩ := bind_res_ok hc
    rw [h3]
    obtain ⟨_, _, h2, h3, -⟩ := bind_res_ok h2
    rw [h3]
    obtain ⟨_, _, h2, h3, -⟩ := bind_res_ok h2
    rw [h3]
    obtain ⟨_, _, h2, h3, -⟩ := bind_res_ok h2
    rw [h3]
    obtain ⟨_, _, h2, h3, -⟩ := bind_res_ok h2
    rw [h3]
    cases h2
    exact savez_same ..
  · cases hc

/-- C49, Bayesian method on three phases: what the file holds afterwards. Reading it with the three-phase program is C54. -/
theorem C49_bayesian3 (ext cf name v c ids vsd isd ratings y0 ye lap weighted iters pmu st r)
    (hc : (bayesianEiv3 ext cf name v c ids vsd isd ratings y0 ye lap weighted iters pmu st).res = .ok r)
    {h : List Spec.Step} (hh : Spec.NotAgain .bayesian name h) :
    bayesianLoad (Spec.after h (bayesianEiv3 ext cf name v c ids vsd isd ratings y0 ye lap weighted iters pmu st).store) name =
      .ok r := by
  have hd := bayesianEiv3_stored hc
  simp [bayesianLoad, after_kept hh hd, bind, Except.bind, bayesianNpz, npz, Npz.mat, Npz.log, List.lookup, pure, Except.pure]

/-- C49, Fisher information -/
theorem C49_fim (invR spread name v c vsd isd ratings y n lap st r st')
    (hc : eivFim invR spread name (some v) (some c) vsd isd ratings y n lap st = (.ok r, st'))
    {h : List Spec.Step} (hh : Spec.NotAgain .fim name h) (invR' spread' c' vsd' isd' ratings' y' n' lap') :
    (eivFim invR' spread' name none c' vsd' isd' ratings' y' n' lap' (Spec.after h st')).1 = .ok r := by
  have hd : st' (resultFile .fim name) = some (fimNpz v c y r) := by
    unfold eivFim at hc
    dsimp only at hc
    split at hc
    · cases hc
    · cases hc; exact savez_same ..
  simp [eivFim, fimLoad, after_kept hh hd, bind, Except.bind, fimNpz, npz, Npz.rmat, Npz.num, List.lookup, pure, Except.pure]

/-- C49, filtered data of single-phase networks: the series are the stored ones; the ratings are those for a safety factor of 4, and
everything else is as computed when network, times and sampling are the same -/
theorem C49_filtered_partial (z name net v c times fmeas steps p safety st r st')
    (hc : noiseStage z name net v c times fmeas steps (some (p, safety)) st = (.ok r, st'))
    {h : List Spec.Step} (hh : Spec.NotAgain .filtered name h) (z' v' c') :
    (noiseStage z' name net v' c' times fmeas steps none (Spec.after h st')).1 = .ok { r with ratings := ratings 4 net } := by
  have hd : st' (resultFile .filtered name) = some (filteredNpz r) ∧ ∃ m ts, rawTimes times fmeas = .ok (m, ts) ∧
      averagingFactor ts.length steps = .ok r.fparam := by
    unfold noiseStage at hc
    dsimp only at hc
    split at hc
    · cases hc
    · rename_i r' hr
      cases hc
      refine ⟨savez_same .., ?_⟩
      unfold addNoiseAndFilter at hr
      obtain ⟨⟨m, ts⟩, h1, hr⟩ := Prior.bind_ok hr
      obtain ⟨f, h2, hr⟩ := Prior.bind_ok hr
      refine ⟨m, ts, h1, ?_⟩
      split at hr
      · obtain ⟨_, -, hr⟩ := Prior.bind_ok hr
        obtain ⟨_, -, hr⟩ := Prior.bind_ok hr
        cases hr; exact h2
      · obtain ⟨_, -, hr⟩ := Prior.bind_ok hr
        cases hr; exact h2
  obtain ⟨hd, m, ts, h1, h2⟩ := hd
  simp [noiseStage, noiseReload, filteredLoad, h1, h2, after_kept hh hd, bind, Except.bind, filteredNpz, npz, Npz.mat, List.lookup,
    pure, Except.pure]

/-- with the configured factor of 4 this is the computed result -/
theorem C49_filtered (z name net v c times fmeas steps p st r st')
    (hc : noiseStage z name net v c times fmeas steps (some (p, 4)) st = (.ok r, st'))
    {h : List Spec.Step} (hh : Spec.NotAgain .filtered name h) (z' v' c') :
    (noiseStage z' name net v' c' times fmeas steps none (Spec.after h st')).1 = .ok r := by
  rw [C49_filtered_partial z name net v c times fmeas steps p 4 st r st' hc hh z' v' c']
  have : r.ratings = ratings 4 net := by
    unfold noiseStage at hc
    dsimp only at hc
    split at hc
    · cases hc
    · rename_i r' hr
      cases hc
      unfold addNoiseAndFilter at hr
      obtain ⟨_, -, hr⟩ := Prior.bind_ok hr
      obtain ⟨_, -, hr⟩ := Prior.bind_ok hr
      split at hr
      · obtain ⟨_, -, hr⟩ := Prior.bind_ok hr
        obtain ⟨_, -, hr⟩ := Prior.bind_ok hr
        cases hr; rfl
      · obtain ⟨_, -, hr⟩ := Prior.bind_ok hr
        cases hr; rfl
  rw [← this]

theorem noise3_ok {z net v c times fmeas steps p safety r} (hr : addNoiseAndFilter3 z net v c times fmeas steps p safety = .ok r) :
    ratings3 safety net = .ok r.ratings ∧ ∃ m ts f, rawTimes times fmeas = .ok (m, ts) ∧ averagingFactor ts.length steps = .ok f ∧
      r.fparam = if p.equivalent then 1 else f := by
  unfold addNoiseAndFilter3 at hr
  obtain ⟨rt, h0, hr⟩ := Prior.bind_ok hr
  obtain ⟨⟨m, ts⟩, h1, hr⟩ := Prior.bind_ok hr
  obtain ⟨f, h2, hr⟩ := Prior.bind_ok hr
  split at hr
  · rename_i he
    obtain ⟨_, -, hr⟩ := Prior.bind_ok hr
    obtain ⟨_, -, hr⟩ := Prior.bind_ok hr
    cases hr
    exact ⟨h0, m, ts, f, h1, h2, by rw [if_pos he]⟩
  · rename_i he
    obtain ⟨_, -, hr⟩ := Prior.bind_ok hr
    cases hr
    exact ⟨h0, m, ts, f, h1, h2, by rw [if_neg he]⟩

theorem noiseStage3_stored {z name net v c times fmeas steps p safety st r st'}
    (hc : noiseStage3 z name net v c times fmeas steps (some (p, safety)) st = (.ok r, st')) :
    addNoiseAndFilter3 z net v c times fmeas steps p safety = .ok r ∧ st' (resultFile .filtered name) = some (filteredNpz r) := by
  unfold noiseStage3 at hc
  dsimp only at hc
  split at hc
  · cases hc
  · rename_i r' hr
    cases hc
    exact ⟨hr, savez_same ..⟩

/-- C49, filtered data of three-phase networks without the equivalent-noise option -/
theorem C49_filtered3_partial (z name net v c times fmeas steps p st r st')
    (hc : noiseStage3 z name net v c times fmeas steps (some (p, [4, 4, 4])) st = (.ok r, st')) (he : p.equivalent = false)
    {h : List Spec.Step} (hh : Spec.NotAgain .filtered name h) (z' v' c') :
    (noiseStage3 z' name net v' c' times fmeas steps none (Spec.after h st')).1 = .ok r := by
  obtain ⟨hr, hd⟩ := noiseStage3_stored hc
  obtain ⟨h0, m, ts, f, h1, h2, h3⟩ := noise3_ok hr
  rw [he] at h3
  subst h3
  simp [noiseStage3, noiseReload, filteredLoad, h0, h1, h2, after_kept hh hd, bind, Except.bind, filteredNpz, npz, Npz.mat, List.lookup,
    pure, Except.pure]

/-- C49 violated: with the equivalent-noise option and at least two raw samples per returned sample, what the three-phase program
computed is never what it reads back afterwards (the averaging factor is not stored and computed differently) -/
theorem C49_filtered3_violated (z name net v c times fmeas steps p safety st r st')
    (hc : noiseStage3 z name net v c times fmeas steps (some (p, safety)) st = (.ok r, st')) (he : p.equivalent = true)
    (hN : 2 * steps ≤ Spec.rawCount times fmeas) (z' v' c') (st'' : Store) :
    (noiseStage3 z' name net v' c' times fmeas steps none st'').1 ≠ .ok r := by
  obtain ⟨hr, -⟩ := noiseStage3_stored hc
  obtain ⟨-, m, ts, f, h1, h2, h3⟩ := noise3_ok hr
  rw [he, if_pos rfl] at h3
  intro hl
  unfold noiseStage3 noiseReload at hl
  dsimp only at hl
  obtain ⟨rt, -, hl⟩ := Prior.bind_ok hl
  rw [h1] at hl
  obtain ⟨_, e, hl⟩ := Prior.bind_ok hl
  cases e
  dsimp only at hl
  rw [h2] at hl
  obtain ⟨_, e, hl⟩ := Prior.bind_ok hl
  cases e
  obtain ⟨q, -, hl⟩ := Prior.bind_ok hl
  cases hl
  dsimp only at h3
  have hlen := (rawTimes_spec h1).2
  unfold averagingFactor at h2
  split at h2
  · cases h2
  · rename_i hs
    cases h2
    have : 2 ≤ ts.length / steps := (Nat.le_div_iff_mul_le (Nat.pos_of_ne_zero hs)).2 (by rw [hlen]; exact hN)
    omega

/-- such a computation exists -/
example : ∃ z net v c st r st', noiseStage3 z "a" net v c [0, 1] 40 20 (some (⟨1 / 100, 1 / 100, 0, 0, true⟩, [1, 1, 1])) st = (.ok r, st') ∧
    2 * 20 ≤ Spec.rawCount [0, 1] 40 := by
  obtain ⟨net, r, -, h2, h3, -, h5⟩ := demo_ratings3
  have ht : Spec.Times [0, 1] := ⟨by simp, by simp, rfl⟩
  have hN : Spec.rawCount [0, 1] 40 = 40 := by
    unfold Spec.rawCount
    have : pyRound (40 : ℝ) = 40 := by simpa using pyRound_int 40
    simp [this]
  obtain ⟨Ω, m, P, hP, z, hz, hi⟩ := exists_standard_normals
  obtain ⟨o, ho, -⟩ := C72_violated z hz hi ht (fmeas := 40) (by norm_num) (steps := 20) (by norm_num) (by rw [hN]) h2 h5
    (voltage := Arr2.ofFn 2 6 (fun _ _ => 1)) (current := Arr2.ofFn 2 6 (fun _ _ => 1)) rfl rfl h3.symm h3.symm
    (u := fun _ => 1) (w := fun _ => 1) (fun t j h1 h2 => Arr2.ofFn_get _ h1 h2) (fun _ _ => one_ne_zero)
    (fun t j h1 h2 => Arr2.ofFn_get _ h1 h2) ⟨1 / 100, 1 / 100, 0, 0, true⟩ (by norm_num) (by norm_num) rfl rfl rfl (by omega)
  have hΩ : Nonempty Ω := by
    by_contra h
    rw [not_nonempty_iff] at h
    have := MeasureTheory.measure_univ (μ := P)
    rw [Set.univ_eq_empty_iff.2 h, MeasureTheory.measure_empty] at this
    exact zero_ne_one this
  obtain ⟨ω⟩ := hΩ
  refine ⟨fun k => z k ω, net, Arr2.ofFn 2 6 (fun _ _ => 1), Arr2.ofFn 2 6 (fun _ _ => 1), fun _ => none, o ω,
    Store.savez (fun _ => none) (resultFile .filtered "a") (filteredNpz (o ω)), ?_, by rw [hN]⟩
  unfold noiseStage3
  dsimp only
  rw [ho ω]

/-- a history as in C49: another network is simulated, and another stage of this one is run -/
example (d d' : NetworkData) (y : Arr2 ℂ) : Spec.NotAgain .network "ieee_33"
    [⟨.network, "bolognani56", _, .network "bolognani56" d⟩, ⟨.reference, "ieee_33", _, .reference "ieee_33" y "1" false⟩] := by
  refine ⟨templates_plain _ (by decide), fun x hx => ?_⟩
  simp only [List.mem_cons, List.not_mem_nil, or_false] at hx
  rcases hx with rfl | rfl
  · exact ⟨templates_plain "bolognani56" (by decide), by simp⟩
  · exact ⟨templates_plain "ieee_33" (by decide), by simp⟩

/-! ### C100 -/

theorem stages_frame {w : SimWorld} {cf : SimConf} {a : SimArgs} {net : Net} {lp : Option LoadParams} {file : String}
    (h : ∀ s ∈ [Stage.loads, .simulation, .filtered], file ≠ resultFile s a.network) : Frame file (stages w cf a net lp) := by
  have hl := h .loads (by simp)
  have hs := h .simulation (by simp)
  have hf := h .filtered (by simp)
  unfold stages
  refine .ite ?_ ?_
  · unfold stages3
    refine .bind (.call fun st => act_frame (.loads3 ..) hl st) fun l => .bind ?_ fun s =>
      .call fun st => act_frame (.filtered3 ..) hf st
    unfold netsim3
    exact .ite (.call fun st => act_frame (.simulation3 ..) hs st) (.call fun st => act_frame (.simulation3 ..) hs st)
  · unfold stages1
    refine .bind (.call fun st => act_frame (.loads ..) hl st) fun l => .bind ?_ fun s =>
      .call fun st => act_frame (.filtered ..) hf st
    unfold netsim1
    exact .ite (.call fun st => act_frame (.simulation ..) hs st) (.call fun st => act_frame (.simulation ..) hs st)

theorem simulate_frame {w : SimWorld} {cf : SimConf} {a : SimArgs} {file : String}
    (h : ∀ s ∈ [Stage.loads, .simulation, .filtered, .network], file ≠ resultFile s a.network) : Frame file (simulate w cf a) := by
  unfold simulate
  exact .bind (.ofExcept _) fun _ => .bind (.ofExcept _) fun _ => .bind (stages_frame fun s hs => h s (by
      simp only [List.mem_cons, List.not_mem_nil, or_false] at hs ⊢
      tauto)) fun _ =>
    .bind (.ofExcept _) fun _ => .bind (.save (h .network (by simp)) _) fun _ => .pure _

theorem identify_frame {ext : NumExt} {cf : IdConf} {sc : SimConf} {a : IdArgs} {file : String}
    (h : ∀ s ∈ [Stage.reference, .standard, .bayesian], file ≠ resultFile s a.network) : Frame file (identify ext cf sc a) := by
  have h1 := h .reference (by simp)
  have h2 := h .standard (by simp)
  have h3 := h .bayesian (by simp)
  unfold identify
  refine .bind (.ofExcept _) fun _ => .bind (.read _) fun _ => .bind (.ofExcept _) fun _ => .bind (.save h1 _) fun _ =>
    .bind ?_ fun _ => .bind ?_ fun _ => .bind ?_ fun _ => .ofExcept _
  · unfold identifyStandard
    dsimp only
    exact .ite (standardMethods3_frame h2) (.call fun st => standardMethods_frame h2 st)
  · unfold initialEstimate
    exact .ite (.bind (.read _) fun _ => .pure _) (.ofExcept _)
  · unfold identifyBayesian
    dsimp only
    exact .ite (bayesianEiv3_frame h3) (.call fun st => bayesianEiv_frame h3 st)

/-- C100: a run of either program, completed or interrupted at any point, leaves all results of another network as they were, and a
run of one program leaves the results of the other program's stages as they were (plain names) -/
theorem C100 (w : SimWorld) (cf : SimConf) (a : SimArgs) (ext : NumExt) (ic : IdConf) (b : IdArgs) (st : Store) (s : Stage) (n : String)
    (hn : Spec.PlainName n) :
    (Spec.PlainName a.network → (n ≠ a.network ∨ s ∈ [Stage.reference, .standard, .bayesian, .fim, .uncertainty]) →
      (simulate w cf a st).store (resultFile s n) = st (resultFile s n) ∧
      ∀ c ∈ crashStates (simulate w cf a) st, c (resultFile s n) = st (resultFile s n)) ∧
    (Spec.PlainName b.network → (n ≠ b.network ∨ s ∈ [Stage.loads, .simulation, .filtered, .network, .fim, .uncertainty]) →
      (identify ext ic cf b st).store (resultFile s n) = st (resultFile s n) ∧
      ∀ c ∈ crashStates (identify ext ic cf b) st, c (resultFile s n) = st (resultFile s n)) := by
  constructor
  · intro ha hd
    have hf : Frame (resultFile s n) (simulate w cf a) := simulate_frame fun s' hs' he => by
      obtain ⟨h1, h2⟩ := C50_partial hn ha he
      subst h1
      rcases hd with hd | hd
      · exact hd h2
      · revert hs' hd
        cases s <;> simp
    exact ⟨(hf st).1, hf.crash st⟩
  · intro hb hd
    have hf : Frame (resultFile s n) (identify ext ic cf b) := identify_frame fun s' hs' he => by
      obtain ⟨h1, h2⟩ := C50_partial hn hb he
      subst h1
      rcases hd with hd | hd
      · exact hd h2
      · revert hs' hd
        cases s <;> simp
    exact ⟨(hf st).1, hf.crash st⟩

end Verif
