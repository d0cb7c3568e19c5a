/-
C118: the tables of a network refer to buses that exist, also after removals.
-/
import Verif.Props.Network

namespace Verif
open Net
noncomputable section

/-- every row of every table refers to a bus of the network; no number is used twice for buses, loads or lines -/
structure Spec.Closed (net : Net) : Prop where
  buses : (net.bus.map BusRow.index).Nodup
  load : ∀ l ∈ net.load, l.bus ∈ net.bus.map BusRow.index
  asym : ∀ l ∈ net.asym, l.bus ∈ net.bus.map BusRow.index
  ext : ∀ b ∈ net.extGrid, b ∈ net.bus.map BusRow.index
  ends : ∀ l ∈ net.line, l.fromBus ∈ net.bus.map BusRow.index ∧ l.toBus ∈ net.bus.map BusRow.index
  lines : (net.line.map LineRow.index).Nodup

theorem forIn_inv {α σ : Type} {P : σ → Prop} {f : σ → α → Except PyErr σ} (hf : ∀ s a s', P s → f s a = .ok s' → P s') :
    ∀ (l : List α) (s s' : σ), P s → forIn' l s f = .ok s' → P s' := by
  intro l
  induction l with
  | nil => intro s s' h h'; cases h'; exact h
  | cons a l ih =>
    intro s s' h h'
    rw [forIn'_cons] at h'
    cases h1 : f s a with
    | error e => rw [h1] at h'; cases h'
    | ok t => rw [h1] at h'; exact ih t s' (hf s a t h h1) h'

theorem busNamed_mem {net : Net} {n : Label} {i : Int} (h : net.busNamed n = .ok i) : i ∈ net.bus.map BusRow.index := by
  unfold busNamed at h
  split at h
  · rename_i b hb
    cases h
    have : b ∈ net.bus.filter (fun b => b.name = n) := by rw [hb]; simp
    exact List.mem_map.2 ⟨b, (List.mem_filter.1 this).1, rfl⟩
  · cases h

theorem nextLine_fresh (net : Net) : net.nextLine ∉ net.line.map LineRow.index := by
  have key : ∀ (l : List LineRow) (m : Int), m ≤ l.foldl (fun m l => max m (l.index + 1)) m ∧
      ∀ r ∈ l, r.index < l.foldl (fun m l => max m (l.index + 1)) m := by
    intro l
    induction l with
    | nil => intro m; exact ⟨le_refl _, by simp⟩
    | cons a l ih =>
      intro m
      obtain ⟨h1, h2⟩ := ih (max m (a.index + 1))
      refine ⟨le_trans (le_max_left _ _) h1, ?_⟩
      intro r hr
      rcases List.mem_cons.1 hr with rfl | hr
      · have := le_trans (le_max_right m _) h1
        simp only [List.foldl_cons]
        omega
      · exact h2 r hr
  intro h
  obtain ⟨r, hr, he⟩ := List.mem_map.1 h
  have := (key net.line 0).2 r hr
  unfold nextLine at he
  omega

theorem closed_addLine {net : Net} (h : Spec.Closed net) {f t : Int} (hf : f ∈ net.bus.map BusRow.index)
    (ht : t ∈ net.bus.map BusRow.index) (len : ℝ) (k : LineKind) : Spec.Closed (net.addLine f t len k) := by
  refine ⟨h.buses, h.load, h.asym, h.ext, ?_, ?_⟩
  · intro l hl
    rcases List.mem_append.1 hl with hl | hl
    · exact h.ends l hl
    · rw [List.mem_singleton] at hl
      subst hl
      exact ⟨hf, ht⟩
  · show ((net.line ++ _).map LineRow.index).Nodup
    rw [List.map_append, List.nodup_append]
    refine ⟨h.lines, by simp, ?_⟩
    intro a ha b hb
    simp only [List.map_cons, List.map_nil, List.mem_singleton] at hb
    subst hb
    intro e
    exact nextLine_fresh net (e ▸ ha)

theorem closed_createBuses {bs : List BusData} {net : Net} (hn : (bs.map BusData.id).Nodup) (hb : net.bus = bs.map busRow)
    (hl : net.load = bs.flatMap loadRows) (ha : net.asym = bs.flatMap asymRows) (he : net.extGrid = bs.flatMap extRows)
    (hline : net.line = []) : Spec.Closed net := by
  have hix : net.bus.map BusRow.index = bs.map BusData.id := by rw [hb, List.map_map]; rfl
  refine ⟨by rw [hix]; exact hn, ?_, ?_, ?_, by rw [hline]; simp, by rw [hline]; simp⟩
  · intro l h
    rw [hl] at h
    obtain ⟨b, hb, h⟩ := List.mem_flatMap.1 h
    rw [hix]
    refine List.mem_map.2 ⟨b, hb, ?_⟩
    unfold loadRows at h
    split at h
    · split at h
      · rw [List.mem_singleton] at h; rw [h]
      · simp at h
    · split at h
      · rw [List.mem_singleton] at h; rw [h]
      · simp at h
  · intro l h
    rw [ha] at h
    obtain ⟨b, hb, h⟩ := List.mem_flatMap.1 h
    rw [hix]
    refine List.mem_map.2 ⟨b, hb, ?_⟩
    unfold asymRows at h
    split at h
    · split at h
      · simp at h
      · rw [List.mem_singleton] at h; rw [h]
    · simp at h
  · intro l h
    rw [he] at h
    obtain ⟨b, hb, h⟩ := List.mem_flatMap.1 h
    rw [hix]
    refine List.mem_map.2 ⟨b, hb, ?_⟩
    unfold extRows at h
    split at h
    · rw [List.mem_singleton] at h; rw [h]
    · simp at h

theorem createBuses3_closed {bs : List BusData} {net : Net} {ts : List String}
    (h : createBuses3 { stdTypes := ts } bs = .ok net) : Spec.Closed net := by
  obtain ⟨h1, -, h2⟩ := createBuses3_inv h
  subst h2
  exact closed_createBuses h1 (by simp) (by simp) (by simp) (by simp) rfl

/-- C118: every network built from data is closed. -/
theorem C118_single {bs : Option (List BusData)} {ls : Option (List LineData)} {net : Net} {ls' : List LineData}
    (h : netData bs ls = .ok (net, ls')) : Spec.Closed net := by
  unfold netData at h
  simp only [bind, Except.bind] at h
  split at h
  · cases h
  · rename_i n hn
    have hc := createBuses3_closed (ts := []) (createBuses_eq3 hn)
    cases ls with
    | none => cases h
    | some ls =>
      refine forIn_inv (P := fun st : Net × List LineData => Spec.Closed st.1) ?_ ls (n, []) (net, ls') hc h
      rintro ⟨s, acc⟩ l ⟨s', acc'⟩ hs h
      simp only [bind, Except.bind] at h
      split at h
      · cases h
      · rename_i m hm
        have hm' : s.addLineData (sortEnds l) = .ok s' := by
          have := congrArg Prod.fst (Except.ok.inj h)
          rw [hm]; exact congrArg _ this
        clear hm h
        rename' hm' => hm
        show Spec.Closed s'
        unfold addLineData at hm
        split at hm
        · simp only [bind, Except.bind] at hm
          split at hm
          · cases hm
          · rename_i a ha
            split at hm
            · cases hm
            · rename_i b hb
              split at hm
              · cases hm
              · cases hm
                exact closed_addLine hs (busNamed_mem ha) (busNamed_mem hb) _ _
        · cases hm; exact hs

/-- C118 for three phases -/
theorem C118_three {ts : List String} {bs : Option (List BusData)} {ls : Option (List LineData)} {net : Net}
    (h : netData3 ts bs ls = .ok net) : Spec.Closed net := by
  unfold netData3 at h
  simp only [bind, Except.bind] at h
  split at h
  · cases h
  · rename_i n hn
    refine forIn_inv (P := Spec.Closed) ?_ _ n net (createBuses3_closed hn) h
    intro s l s' hs h
    split at h
    · unfold createLine3 at h
      simp only [bind, Except.bind] at h
      split at h
      · cases h
      · rename_i a ha
        split at h
        · cases h
        · rename_i b hb
          split at h
          · split at h
            · cases h
              exact closed_addLine hs (busNamed_mem ha) (busNamed_mem hb) _ _
            · cases h
          · cases h
    · cases h; exact hs

/-- C118: `remove_buses` returns for buses of the network only; the result is closed, its buses are the others in the same order, and
a load, connection or line is kept exactly if its buses are. -/
theorem C118_removeBuses {net : Net} (hc : Spec.Closed net) (bs : List Int) :
    ((∃ net', net.removeBuses bs = .ok net') ↔ ∀ b ∈ bs, b ∈ net.bus.map BusRow.index) ∧
    ∀ net', net.removeBuses bs = .ok net' → Spec.Closed net' ∧
      net'.bus.map BusRow.index = (net.bus.map BusRow.index).filter (· ∉ bs) ∧
      net'.bus.Sublist net.bus ∧ net'.load.Sublist net.load ∧ net'.line.Sublist net.line ∧
      (∀ l ∈ net.load, l ∈ net'.load ↔ l.bus ∈ net'.bus.map BusRow.index) ∧
      (∀ l ∈ net.asym, l ∈ net'.asym ↔ l.bus ∈ net'.bus.map BusRow.index) ∧
      (∀ b ∈ net.extGrid, b ∈ net'.extGrid ↔ b ∈ net'.bus.map BusRow.index) ∧
      (∀ l ∈ net.line, l ∈ net'.line ↔
        l.fromBus ∈ net'.bus.map BusRow.index ∧ l.toBus ∈ net'.bus.map BusRow.index) := by
  constructor
  · unfold removeBuses dropBuses
    split
    · rename_i h; exact ⟨fun _ => h, fun _ => ⟨_, rfl⟩⟩
    · rename_i h; exact ⟨(by rintro ⟨_, h'⟩; cases h'), fun h' => absurd h' h⟩
  · intro net' h
    unfold removeBuses dropBuses at h
    split at h
    swap
    · cases h
    cases h
    have hix : (net.bus.filter (fun b => b.index ∉ bs)).map BusRow.index = (net.bus.map BusRow.index).filter (· ∉ bs) := by
      rw [List.filter_map]; rfl
    have hmem : ∀ k, k ∈ net.bus.map BusRow.index → (k ∈ (net.bus.filter (fun b => b.index ∉ bs)).map BusRow.index ↔ k ∉ bs) := by
      intro k hk
      rw [hix, List.mem_filter]
      simp only [hk, true_and, decide_eq_true_eq]
    refine ⟨⟨?_, ?_, ?_, ?_, ?_, ?_⟩, hix, List.filter_sublist, List.filter_sublist, List.filter_sublist, ?_, ?_, ?_, ?_⟩
    · rw [hix]; exact hc.buses.filter _
    · intro l hl
      have hl := List.mem_filter.1 hl
      exact (hmem _ (hc.load l hl.1)).2 (by simpa using hl.2)
    · intro l hl
      have hl := List.mem_filter.1 hl
      exact (hmem _ (hc.asym l hl.1)).2 (by simpa using hl.2)
    · intro l hl
      have hl := List.mem_filter.1 hl
      exact (hmem _ (hc.ext l hl.1)).2 (by simpa using hl.2)
    · intro l hl
      have hl := List.mem_filter.1 hl
      have h2 : l.fromBus ∉ bs ∧ l.toBus ∉ bs := by simpa using hl.2
      exact ⟨(hmem _ (hc.ends l hl.1).1).2 h2.1, (hmem _ (hc.ends l hl.1).2).2 h2.2⟩
    · exact hc.lines.sublist (List.Sublist.map _ List.filter_sublist)
    · intro l hl
      rw [hmem _ (hc.load l hl), List.mem_filter]
      simp [hl]
    · intro l hl
      rw [hmem _ (hc.asym l hl), List.mem_filter]
      simp [hl]
    · intro l hl
      rw [hmem _ (hc.ext l hl), List.mem_filter]
      simp [hl]
    · intro l hl
      rw [hmem _ (hc.ends l hl).1, hmem _ (hc.ends l hl).2, List.mem_filter]
      simp [hl]

/-- C118: `remove_bus` removes that bus. -/
theorem C118_removeBus (net : Net) (b : Int) : net.removeBus b = net.removeBuses [b] := rfl

/-- C118: `remove_line` returns for lines of the network only; it removes exactly these. -/
theorem C118_removeLine {net : Net} (hc : Spec.Closed net) (ks : List Int) :
    ((∃ net', net.removeLine ks = .ok net') ↔ ∀ k ∈ ks, k ∈ net.line.map LineRow.index) ∧
    ∀ net', net.removeLine ks = .ok net' → Spec.Closed net' ∧ net'.bus = net.bus ∧ net'.load = net.load ∧ net'.asym = net.asym ∧
      net'.extGrid = net.extGrid ∧ net'.line.Sublist net.line ∧ ∀ l ∈ net.line, l ∈ net'.line ↔ l.index ∉ ks := by
  constructor
  · unfold removeLine
    split
    · rename_i h; exact ⟨fun _ => h, fun _ => ⟨_, rfl⟩⟩
    · rename_i h; exact ⟨(by rintro ⟨_, h'⟩; cases h'), fun h' => absurd h' h⟩
  · intro net' h
    unfold removeLine at h
    split at h
    swap
    · cases h
    cases h
    refine ⟨⟨hc.buses, hc.load, hc.asym, hc.ext, fun l hl => hc.ends l (List.mem_filter.1 hl).1, ?_⟩, rfl, rfl, rfl, rfl,
      List.filter_sublist, ?_⟩
    · exact hc.lines.sublist (List.Sublist.map _ List.filter_sublist)
    · intro l hl
      rw [List.mem_filter]
      simp [hl]

/-- The network of C64 without bus 2 has no lines left; without its second line it keeps the first. -/
example : ∃ net ls' net1 net2, netData (some demoBuses64) (some demoLines64) = .ok (net, ls') ∧ Spec.Closed net ∧
    net.removeBus 2 = .ok net1 ∧ net1.line = [] ∧ net.removeLine [1] = .ok net2 ∧
    net2.line = [⟨0, 1, 2, 2, .params (3 / 2) (4 / 2)⟩] := by
  obtain ⟨net, ls', h1, h2, -⟩ := demo_network
  obtain ⟨-, hb, -⟩ := netData_tables h1
  refine ⟨net, ls', _, _, h1, C118_single h1, if_pos ?_, ?_, if_pos ?_, ?_⟩
  · rw [hb]; simp [demoBuses64, busRow]
  · show List.filter _ net.line = []
    rw [h2]; simp
  · rw [h2]; simp
  · show List.filter _ net.line = _
    rw [h2]; simp

end
end Verif
