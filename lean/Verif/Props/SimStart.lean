/-
C160: simulations that cannot start.
-/
import Verif.Props.Template

namespace Verif
noncomputable section

/-- the templates of the network are there -/
def Spec.Known (w : SimWorld) (a : SimArgs) : Prop :=
  if a.threePhased then w.buses3 a.network ≠ none ∧ w.lines3 a.network ≠ none
  else w.buses a.network ≠ none ∧ w.lines a.network ≠ none

/-- the loads are to be created, but neither random loads nor profiles are given -/
def Spec.NoLoads (w : SimWorld) (a : SimArgs) : Prop :=
  (a.loads = true ∨ a.networkSim = false ∧ a.noise = false) ∧ a.gaussian ≤ 0 ∧ (w.files a.active = none ∨ w.files a.reactive = none)

/-- C160: the simulation of a network without a template raises `AttributeError` and writes no file -/
theorem C160_unknown (w : SimWorld) (cf : SimConf) (a : SimArgs) (st : Store) (h : ¬ Spec.Known w a) :
    simulate w cf a st = ⟨.error .attributeError, st, []⟩ := by
  have hm : (if a.threePhased then makeNet3 w a.network else makeNet w a.network) = .error .attributeError := by
    unfold Spec.Known at h
    split at h
    · rename_i h3
      rw [if_pos h3]
      unfold makeNet3 template
      cases hb : w.buses3 a.network with
      | none => rfl
      | some b =>
        cases hl : w.lines3 a.network with
        | none => rfl
        | some l => exact absurd ⟨by rw [hb]; exact Option.some_ne_none _, by rw [hl]; exact Option.some_ne_none _⟩ h
    · rename_i h3
      rw [if_neg h3]
      unfold makeNet template
      cases hb : w.buses a.network with
      | none => rfl
      | some b =>
        cases hl : w.lines a.network with
        | none => rfl
        | some l => exact absurd ⟨by rw [hb]; exact Option.some_ne_none _, by rw [hl]; exact Option.some_ne_none _⟩ h
  unfold simulate
  rw [hm]
  rfl

/-- a network that can be built is known -/
theorem known_of_builds {w : SimWorld} {a : SimArgs} {r : Net × List BusData}
    (h : (if a.threePhased then makeNet3 w a.network else makeNet w a.network) = .ok r) : Spec.Known w a := by
  unfold Spec.Known
  split
  · rename_i h3
    rw [if_pos h3] at h
    unfold makeNet3 template at h
    cases hb : w.buses3 a.network with
    | none => rw [hb] at h; cases h
    | some b =>
      cases hl : w.lines3 a.network with
      | none => rw [hb, hl] at h; cases h
      | some l => exact ⟨Option.some_ne_none _, Option.some_ne_none _⟩
  · rename_i h3
    rw [if_neg h3] at h
    unfold makeNet template at h
    cases hb : w.buses a.network with
    | none => rw [hb] at h; cases h
    | some b =>
      cases hl : w.lines a.network with
      | none => rw [hb, hl] at h; cases h
      | some l => exact ⟨Option.some_ne_none _, Option.some_ne_none _⟩

theorem redoLoads_flags (a : SimArgs) : a.redoLoads = true ↔ a.loads = true ∨ a.networkSim = false ∧ a.noise = false := by
  unfold SimArgs.redoLoads
  cases a.loads <;> cases a.networkSim <;> cases a.noise <;> simp

/-- the load information is missing exactly in the specified case -/
theorem loadParams_exit (w : SimWorld) (cf : SimConf) (a : SimArgs) (bs : List BusData) :
    (Spec.NoLoads w a → loadParams w cf a bs = .error .systemExit) ∧ (¬ Spec.NoLoads w a → ∃ lp, loadParams w cf a bs = .ok lp) := by
  have hr := redoLoads_flags a
  unfold Spec.NoLoads loadParams
  rw [← hr]
  constructor
  · rintro ⟨h1, h2, h3⟩
    rw [if_neg (fun h => absurd h.2 (not_lt.2 h2)), if_neg, if_pos h1]
    rintro ⟨f1, f2, -⟩
    rcases h3 with h3 | h3
    · rw [h3] at f1; cases f1
    · rw [h3] at f2; cases f2
  · intro h
    by_cases h1 : a.redoLoads = true
    · by_cases h2 : 0 < a.gaussian
      · exact ⟨_, if_pos ⟨h1, h2⟩⟩
      · have f : ¬ (w.files a.active = none ∨ w.files a.reactive = none) := fun f => h ⟨h1, not_lt.1 h2, f⟩
        rw [not_or] at f
        rw [if_neg (fun q => h2 q.2), if_pos ⟨Option.isSome_iff_ne_none.2 f.1, Option.isSome_iff_ne_none.2 f.2, h1⟩]
        exact ⟨_, rfl⟩
    · rw [if_neg (fun q => h1 q.1), if_neg (fun q => h1 q.2.2), if_neg h1]
      exact ⟨_, rfl⟩

/-- C160: a simulation that has to create loads from nothing exits and writes no file -/
theorem C160_exit (w : SimWorld) (cf : SimConf) (a : SimArgs) (st : Store)
    (hm : ∃ r, (if a.threePhased then makeNet3 w a.network else makeNet w a.network) = .ok r) (h : Spec.NoLoads w a) :
    simulate w cf a st = ⟨.error .systemExit, st, []⟩ := by
  obtain ⟨r, hr⟩ := hm
  unfold simulate
  rw [hr]
  show Prog.bind (Prog.ofExcept (loadParams w cf a r.2)) _ st = _
  rw [(loadParams_exit w cf a r.2).1 h]
  rfl

/-- C160: every other simulation of a network that can be built reaches the first stage: its result is that of the stages with some
parameters of the loads -/
theorem C160_starts (w : SimWorld) (cf : SimConf) (a : SimArgs) (st : Store) {r : Net × List BusData}
    (hm : (if a.threePhased then makeNet3 w a.network else makeNet w a.network) = .ok r) (h : ¬ Spec.NoLoads w a) :
    Spec.Known w a ∧ ∃ lp, ∀ e, (stages w cf a r.1 lp st).res = .error e → simulate w cf a st =
      ⟨.error e, (stages w cf a r.1 lp st).store, (stages w cf a r.1 lp st).seen⟩ := by
  refine ⟨known_of_builds hm, ?_⟩
  obtain ⟨lp, hlp⟩ := (loadParams_exit w cf a r.2).2 h
  refine ⟨lp, fun e he => ?_⟩
  unfold simulate
  rw [hm]
  show Prog.bind (Prog.ofExcept (loadParams w cf a r.2)) _ st = _
  rw [hlp]
  show Out.mk _ _ _ = _
  show Prog.bind (stages w cf a r.1 lp) _ st = _
  unfold Prog.bind
  rw [he]

/-! ### instances -/

/-- without random loads and files the example exits -/
theorem demo_C160_exit (cf : SimConf) (st : Store) :
    simulate demoWorld133 cf { demoArgs115 with gaussian := 0 } st = ⟨.error .systemExit, st, []⟩ := by
  obtain ⟨net, h⟩ := demo133_net
  exact C160_exit _ _ _ _ ⟨_, by rw [if_neg (by decide)]; exact h⟩ ⟨Or.inr ⟨rfl, rfl⟩, le_rfl, Or.inl rfl⟩

/-- there is no three-phase template in the example -/
theorem demo_C160_unknown (cf : SimConf) (st : Store) :
    simulate demoWorld133 cf { demoArgs115 with threePhased := true } st = ⟨.error .attributeError, st, []⟩ := by
  refine C160_unknown _ _ _ _ fun h => ?_
  unfold Spec.Known at h
  rw [if_pos rfl] at h
  exact h.1 rfl

/-- with random loads it starts -/
theorem demo_C160_starts : ∃ r, makeNet demoWorld133 demoArgs115.network = .ok r ∧ ¬ Spec.NoLoads demoWorld133 demoArgs115 := by
  obtain ⟨net, h⟩ := demo133_net
  refine ⟨_, h, fun hn => ?_⟩
  have := hn.2.1
  norm_num [demoArgs115] at this

end
end Verif
