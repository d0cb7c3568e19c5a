/-
C64 for tables in which a node may have a symmetric and an asymmetric load.
-/
import Verif.Props.Network

namespace Verif
open Net
noncomputable section

namespace Spec

/-- no power on the phase: no connection, no symmetric load with some power, no asymmetric load with some power on this phase -/
def NoPower (net : Net) (idx : Int) (ph : Fin 3) : Prop :=
  idx ∉ net.extGrid ∧ (∀ l ∈ net.load, l.bus = idx → l.p = 0 ∧ l.q = 0) ∧ ∀ l ∈ net.asym, l.bus = idx → l.p ph = 0 ∧ l.q ph = 0

/-- rows are numbered like their buses, one row for each -/
structure OneEach (net : Net) : Prop where
  load : ∀ l ∈ net.load, l.index = l.bus
  asym : ∀ l ∈ net.asym, l.index = l.bus
  loads : (net.load.map LoadRow.bus).Nodup
  asyms : (net.asym.map AsymRow.bus).Nodup

end Spec

theorem find_unique {ρ : Type} {key : ρ → Int} : ∀ {rows : List ρ}, (rows.map key).Nodup → ∀ {r : ρ}, r ∈ rows →
    rows.find? (fun x => key x = key r) = some r
  | [], _, _, h => absurd h (by simp)
  | x :: rows, hn, r, h => by
    rw [List.map_cons, List.nodup_cons] at hn
    rcases List.mem_cons.1 h with rfl | h
    · simp
    · have hne : key x ≠ key r := fun e => hn.1 (e ▸ List.mem_map.2 ⟨r, h, rfl⟩)
      rw [List.find?_cons_of_neg (by simpa using hne)]
      exact find_unique hn.2 h

theorem passiveAt_tables {net : Net} (h : Spec.OneEach net) (idx : Int) :
    ∃ f, net.passiveAt idx = .ok f ∧ ∀ ph, f ph = true ↔ Spec.NoPower net idx ph := by
  have el : net.load.map LoadRow.index = net.load.map LoadRow.bus := List.map_congr_left h.load
  have ea : net.asym.map AsymRow.index = net.asym.map AsymRow.bus := List.map_congr_left h.asym
  have hl' : (net.load.map LoadRow.index).Nodup := el ▸ h.loads
  have ha' : (net.asym.map AsymRow.index).Nodup := ea ▸ h.asyms
  -- the asymmetric loads
  have h2 : ∀ s : Bool, (s = true ↔ ∀ l ∈ net.load, l.bus = idx → l.p = 0 ∧ l.q = 0) → idx ∉ net.extGrid →
      ∃ f, (if idx ∈ net.asym.map AsymRow.index then
        match net.asym.find? (fun l => l.bus = idx) with
        | none => Except.error PyErr.indexError
        | some l =>
          match net.asym.find? (fun l' => l'.index = l.index) with
          | none => .error .keyError
          | some l => pure (fun ph : Fin 3 => if l.p ph = 0 ∧ l.q ph = 0 then s else false)
      else pure (fun _ => s)) = (.ok f : Except PyErr (Fin 3 → Bool)) ∧ ∀ ph, f ph = true ↔ Spec.NoPower net idx ph := by
    intro s hs hg
    by_cases hm : idx ∈ net.asym.map AsymRow.index
    · rw [if_pos hm]
      obtain ⟨l, hl, rfl⟩ := List.mem_map.1 (ea ▸ hm)
      rw [find_unique h.asyms hl]
      dsimp only
      rw [find_unique ha' hl]
      have huniq : ∀ l' ∈ net.asym, l'.bus = l.bus → l' = l := fun l' hl'' e =>
        Option.some.inj ((find_unique h.asyms hl'').symm.trans (by rw [e]; exact find_unique h.asyms hl))
      refine ⟨_, rfl, fun ph => ?_⟩
      by_cases h0 : l.p ph = 0 ∧ l.q ph = 0
      · simp only [if_pos h0]
        rw [hs]
        exact ⟨fun e => ⟨hg, e, fun l' hl'' e' => by rw [huniq l' hl'' e']; exact h0⟩, fun e => e.2.1⟩
      · simp only [if_neg h0]
        exact ⟨fun e => by simp at e, fun e => absurd (e.2.2 l hl rfl) h0⟩
    · rw [if_neg hm]
      refine ⟨_, rfl, fun ph => ?_⟩
      rw [hs]
      refine ⟨fun e => ⟨hg, e, fun l hl e' => absurd ?_ hm⟩, fun e => e.2.1⟩
      rw [ea]
      exact List.mem_map.2 ⟨l, hl, e'⟩
  unfold passiveAt
  by_cases hg : idx ∈ net.extGrid
  · exact ⟨_, if_pos hg, fun ph => ⟨fun e => by simp at e, fun e => absurd hg e.1⟩⟩
  rw [if_neg hg]
  by_cases hm : idx ∈ net.load.map LoadRow.index
  · dsimp only
    rw [if_pos hm]
    obtain ⟨l, hl, rfl⟩ := List.mem_map.1 (el ▸ hm)
    rw [find_unique h.loads hl]
    dsimp only
    rw [find_unique hl' hl]
    have huniq : ∀ l' ∈ net.load, l'.bus = l.bus → l' = l := fun l' hl'' e =>
      Option.some.inj ((find_unique h.loads hl'').symm.trans (by rw [e]; exact find_unique h.loads hl))
    dsimp only
    by_cases h0 : l.p = 0 ∧ l.q = 0
    · rw [if_pos h0]
      exact h2 true ⟨fun _ l' hl'' e => by rw [huniq l' hl'' e]; exact h0, fun _ => rfl⟩ hg
    · rw [if_neg h0]
      exact h2 false ⟨fun e => by simp at e, fun e => absurd (e l hl rfl) h0⟩ hg
  · dsimp only
    rw [if_neg hm]
    refine h2 true ⟨fun _ l hl e => absurd ?_ hm, fun _ => rfl⟩ hg
    rw [el]
    exact List.mem_map.2 ⟨l, hl, e⟩

open Classical in
/-- C64 for tables with at most one symmetric and one asymmetric load per node: the passive nodes of each phase are those without power from
either of them -/
theorem C64_tables {net : Net} (h : Spec.OneEach net) :
    net.givePassiveNodes = .ok (fun ph => (net.bus.filter (fun b => Spec.NoPower net b.index ph)).map BusRow.index) := by
  unfold givePassiveNodes
  have key : ∀ (bus : List BusRow) (acc : Fin 3 → List Int), forIn' bus acc (fun acc b => do
      let passive ← net.passiveAt b.index
      pure (fun ph => if passive ph then acc ph ++ [b.index] else acc ph)) =
      .ok (fun ph => acc ph ++ (bus.filter (fun b => Spec.NoPower net b.index ph)).map BusRow.index) := by
    intro bus
    induction bus with
    | nil => intro acc; simp [forIn', pure, Except.pure]
    | cons b bus ih =>
      intro acc
      obtain ⟨f, hf, hp⟩ := passiveAt_tables h b.index
      have step := ih (fun ph => if f ph then acc ph ++ [b.index] else acc ph)
      unfold forIn' at step ⊢
      rw [List.foldlM_cons, hf]
      refine Eq.trans step (congrArg Except.ok (funext fun ph => ?_))
      by_cases hb : Spec.NoPower net b.index ph
      · rw [if_pos ((hp ph).2 hb), List.filter_cons_of_pos (by simpa using hb), List.map_cons, List.append_assoc, List.singleton_append]
      · rw [if_neg (fun e => hb ((hp ph).1 e)), List.filter_cons_of_neg (by simpa using hb)]
  rw [key]
  simp

/-- a node with a symmetric load and an asymmetric one without power on the first phase, and a node without any load -/
def twoLoads : Net where
  bus := [⟨1, .int 1, 4⟩, ⟨2, .int 2, 4⟩]
  load := [⟨1, 1, 3, 1, 0, 0⟩]
  asym := [⟨1, 1, ![0, 1, 0], ![0, 0, 0]⟩]

theorem demo_C64_tables : ∃ f, twoLoads.givePassiveNodes = .ok f ∧ ∀ ph, f ph = [2] := by
  have h : Spec.OneEach twoLoads := ⟨by simp [twoLoads], by simp [twoLoads], by simp [twoLoads], by simp [twoLoads]⟩
  refine ⟨_, C64_tables h, fun ph => ?_⟩
  classical
  have h1 : ¬ Spec.NoPower twoLoads 1 ph := fun e => by
    have := (e.2.1 ⟨1, 1, 3, 1, 0, 0⟩ (by simp [twoLoads]) rfl).1
    norm_num at this
  have h2 : Spec.NoPower twoLoads 2 ph := ⟨by simp [twoLoads], by simp [twoLoads], by simp [twoLoads]⟩
  simp [twoLoads] at h1 h2 ⊢
  simp [h1, h2]

end
end Verif
