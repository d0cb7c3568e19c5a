/-
C64 passive nodes; C65 lines from templates; C66 admittance matrix round trip; C67 line editing.
-/
import Verif.Model.Network
import Verif.Lemmas.ToMat
import Mathlib.Data.List.Nodup
import Mathlib.Tactic.FinCases
import Mathlib.Tactic.NormNum
import Mathlib.Tactic.FieldSimp

namespace Verif
open Net
noncomputable section

/-! ### what the constructors build -/

namespace Net

def busRow (b : BusData) : BusRow := ⟨b.id, .str b.id, b.kv⟩

def loadRows (b : BusData) : List LoadRow :=
  if b.type = typeLoad then
    match b.demand with
    | .sym p q => [⟨b.id, b.id, p, q, b.z, b.i⟩]
    | .asym _ _ => []
  else if b.type = typePcc then [⟨b.id, b.id, 0, 0, 0, 0⟩] else []

def asymRows (b : BusData) : List AsymRow :=
  if b.type = typeLoad then
    match b.demand with
    | .sym _ _ => []
    | .asym p q => [⟨b.id, b.id, p, q⟩]
  else []

def extRows (b : BusData) : List Int := if b.type = typePcc then [b.id] else []

/-- the tables after adding one bus -/
def withBus (net : Net) (b : BusData) : Net :=
  { net with
    bus := net.bus ++ [busRow b]
    load := net.load ++ loadRows b
    asym := net.asym ++ asymRows b
    extGrid := net.extGrid ++ extRows b }

theorem createBus3_inv {net net' : Net} {b : BusData} (h : net.createBus3 b = .ok net') :
    b.id ∉ net.bus.map BusRow.index ∧ net' = net.withBus b := by
  unfold createBus3 addBus at h
  split at h
  · cases h
  · rename_i hb
    refine ⟨hb, ?_⟩
    simp only [bind, Except.bind] at h
    split at h
    · rename_i ht
      split at h
      · rename_i p q hd
        unfold addLoad at h
        split at h
        · cases h
        · cases h
          simp [withBus, busRow, loadRows, asymRows, extRows, ht, hd, typeLoad, typePcc]
      · rename_i p q hd
        unfold addAsym at h
        split at h
        · cases h
        · cases h
          simp [withBus, busRow, loadRows, asymRows, extRows, ht, hd, typeLoad, typePcc]
    · rename_i ht
      split at h
      · rename_i hp
        split at h
        · rename_i p q hd
          unfold addLoad addExtGrid at h
          split at h
          · cases h
          · rename_i v hv
            split at hv
            · cases hv
            · cases hv
              split at h
              · cases h
              · cases h
                simp [withBus, busRow, loadRows, asymRows, extRows, hp, typeLoad, typePcc]
        · cases h
      · rename_i hp
        cases h
        simp [withBus, busRow, loadRows, asymRows, extRows, ht, hp]

theorem createBus_eq3 {net net' : Net} {b : BusData} (h : net.createBus b = .ok net') : net.createBus3 b = .ok net' := by
  unfold createBus at h
  unfold createBus3
  cases ha : net.addBus b.id b.kv with
  | error e => rw [ha] at h; cases h
  | ok n =>
    rw [ha] at h
    simp only [bind, Except.bind] at h ⊢
    cases hd : b.demand with
    | sym p q => rw [hd] at h; exact h
    | asym p q => rw [hd] at h; cases h

theorem createBuses_eq3 {bs : List BusData} {net net' : Net} (h : net.createBuses bs = .ok net') :
    net.createBuses3 bs = .ok net' := by
  unfold createBuses createBuses3 at *
  induction bs generalizing net with
  | nil => exact h
  | cons b bs ih =>
    rw [forIn'_cons] at h ⊢
    cases hb : net.createBus b with
    | error e => rw [hb] at h; cases h
    | ok n =>
      rw [hb] at h
      rw [createBus_eq3 hb]
      exact ih h

theorem createBuses3_inv {bs : List BusData} {net net' : Net} (h : net.createBuses3 bs = .ok net') :
    (bs.map BusData.id).Nodup ∧ (∀ b ∈ bs, b.id ∉ net.bus.map BusRow.index) ∧
    net' = { net with
      bus := net.bus ++ bs.map busRow
      load := net.load ++ bs.flatMap loadRows
      asym := net.asym ++ bs.flatMap asymRows
      extGrid := net.extGrid ++ bs.flatMap extRows } := by
  unfold createBuses3 at h
  induction bs generalizing net with
  | nil =>
    cases h
    simp
  | cons b bs ih =>
    rw [forIn'_cons] at h
    cases hb : net.createBus3 b with
    | error e => rw [hb] at h; cases h
    | ok n =>
      rw [hb] at h
      obtain ⟨h1, h2⟩ := createBus3_inv hb
      subst h2
      obtain ⟨i1, i2, i3⟩ := ih h
      refine ⟨?_, ?_, ?_⟩
      · rw [List.map_cons, List.nodup_cons]
        refine ⟨?_, i1⟩
        intro hc
        obtain ⟨b', hb', he⟩ := List.mem_map.1 hc
        exact i2 b' hb' (by simp [withBus, busRow, he])
      · intro b' hb'
        rcases List.mem_cons.1 hb' with rfl | hb'
        · exact h1
        · intro hc
          refine i2 b' hb' ?_
          simp only [withBus, List.map_append, List.mem_append]
          exact Or.inl hc
      · rw [i3]
        simp [withBus, List.append_assoc]

/-- with distinct ids, looking a row up by the id of a bus finds the rows of that bus -/
theorem find_rows {ρ : Type} {rows : BusData → List ρ} {key : ρ → Int} (hkey : ∀ b, ∀ r ∈ rows b, key r = b.id)
    {bs : List BusData} (hn : (bs.map BusData.id).Nodup) {b : BusData} (hb : b ∈ bs) :
    (bs.flatMap rows).find? (fun r => key r = b.id) = (rows b).head? := by
  induction bs with
  | nil => cases hb
  | cons a bs ih =>
    rw [List.map_cons, List.nodup_cons] at hn
    rw [List.flatMap_cons, List.find?_append]
    rcases List.mem_cons.1 hb with rfl | hb'
    · cases hr : rows b with
      | nil =>
        simp only [List.find?_nil, Option.none_or, List.head?_nil]
        rw [List.find?_eq_none]
        intro r hr'
        obtain ⟨c, hc, hrc⟩ := List.mem_flatMap.1 hr'
        intro he
        have he : key r = b.id := by simpa using he
        rw [hkey c r hrc] at he
        exact hn.1 (List.mem_map.2 ⟨c, hc, he⟩)
      | cons r l =>
        have := hkey b r (by rw [hr]; simp)
        simp [this]
    · have hne : a.id ≠ b.id := fun he => hn.1 (List.mem_map.2 ⟨b, hb', he.symm⟩)
      have : (rows a).find? (fun r => key r = b.id) = none := by
        rw [List.find?_eq_none]
        intro r hr he
        have he : key r = b.id := by simpa using he
        rw [hkey a r hr] at he
        exact hne he
      rw [this, Option.none_or]
      exact ih hn.2 hb'

theorem mem_rows {ρ : Type} {rows : BusData → List ρ} {key : ρ → Int} (hkey : ∀ b, ∀ r ∈ rows b, key r = b.id)
    {bs : List BusData} (hn : (bs.map BusData.id).Nodup) {b : BusData} (hb : b ∈ bs) :
    b.id ∈ (bs.flatMap rows).map key ↔ rows b ≠ [] := by
  have h1 : b.id ∈ (bs.flatMap rows).map key ↔ ((bs.flatMap rows).find? (fun r => key r = b.id)).isSome := by
    rw [List.find?_isSome, List.mem_map]
    simp
  rw [h1, find_rows hkey hn hb]
  cases rows b <;> simp

theorem loadRows_index (b : BusData) : ∀ r ∈ loadRows b, r.index = b.id := by
  unfold loadRows
  intro r hr
  split at hr
  · split at hr <;> simp at hr
    rw [hr]
  · split at hr <;> simp at hr
    rw [hr]

theorem loadRows_bus (b : BusData) : ∀ r ∈ loadRows b, r.bus = b.id := by
  unfold loadRows
  intro r hr
  split at hr
  · split at hr <;> simp at hr
    rw [hr]
  · split at hr <;> simp at hr
    rw [hr]

theorem asymRows_index (b : BusData) : ∀ r ∈ asymRows b, r.index = b.id := by
  unfold asymRows
  intro r hr
  split at hr
  · split at hr <;> simp at hr
    rw [hr]
  · simp at hr

theorem asymRows_bus (b : BusData) : ∀ r ∈ asymRows b, r.bus = b.id := by
  unfold asymRows
  intro r hr
  split at hr
  · split at hr <;> simp at hr
    rw [hr]
  · simp at hr

theorem extRows_id (b : BusData) : ∀ r ∈ extRows b, id r = b.id := by
  unfold extRows
  intro r hr
  split at hr <;> simp at hr
  exact hr

end Net

/-! ### C64 -/

/-- power demand of a bus on a phase; scalar demands count for every phase -/
def Spec.demandOn (d : Demand) (ph : Fin 3) : ℝ × ℝ :=
  match d with
  | .sym p q => (p, q)
  | .asym p q => (p ph, q ph)

/-- neither a grid connection (type 3) nor a load (type 1) with some power on the phase -/
def Spec.Passive (b : BusData) (ph : Fin 3) : Prop := b.type ≠ 3 ∧ (b.type = 1 → Spec.demandOn b.demand ph = (0, 0))

theorem passiveAt_eq {bs : List BusData} {net : Net} (hn : (bs.map BusData.id).Nodup)
    (hl : net.load = bs.flatMap loadRows) (ha : net.asym = bs.flatMap asymRows) (he : net.extGrid = bs.flatMap extRows)
    {b : BusData} (hb : b ∈ bs) : ∃ f, net.passiveAt b.id = .ok f ∧ ∀ ph, f ph = true ↔ Spec.Passive b ph := by
  have m1 := mem_rows extRows_id hn hb
  rw [List.map_id] at m1
  have m2 := mem_rows loadRows_index hn hb
  have m3 := mem_rows asymRows_index hn hb
  have f1 := find_rows loadRows_bus hn hb
  have f2 := find_rows loadRows_index hn hb
  have f3 := find_rows asymRows_bus hn hb
  have f4 := find_rows asymRows_index hn hb
  unfold passiveAt
  rw [hl, ha, he]
  simp only [m1, m2, m3, f1, bind, Except.bind, pure, Except.pure]
  by_cases hp : b.type = 3
  · refine ⟨fun _ => false, ?_, ?_⟩
    · rw [if_pos (by simp [extRows, typePcc, hp])]
    · intro ph; simp [Spec.Passive, hp]
  · rw [if_neg (by simp [extRows, typePcc, hp])]
    by_cases hlod : b.type = 1
    · cases hd : b.demand with
      | sym p q =>
        have hr : loadRows b = [⟨b.id, b.id, p, q, b.z, b.i⟩] := by simp [loadRows, typeLoad, hlod, hd]
        have hr' : asymRows b = [] := by simp [asymRows, typeLoad, hlod, hd]
        rw [hr] at f2
        simp only [hr, hr', ne_eq, List.cons_ne_nil, not_false_eq_true, if_true, List.head?_cons, not_true, if_false]
        simp only [List.head?_cons] at f2
        rw [f2]
        refine ⟨_, rfl, ?_⟩
        intro ph
        simp only [Spec.Passive, Spec.demandOn, hd, hlod, Prod.mk.injEq]
        by_cases h0 : p = 0 ∧ q = 0
        · simp [h0]
        · simp [h0]
      | asym p q =>
        have hr : asymRows b = [⟨b.id, b.id, p, q⟩] := by simp [asymRows, typeLoad, hlod, hd]
        have hr' : loadRows b = [] := by simp [loadRows, typeLoad, hlod, hd]
        rw [hr] at f3 f4
        simp only [List.head?_cons] at f3 f4
        simp only [hr, hr', ne_eq, List.cons_ne_nil, not_false_eq_true, if_true, not_true, if_false]
        rw [f3]
        simp only
        rw [f4]
        refine ⟨_, rfl, ?_⟩
        intro ph
        simp only [Spec.Passive, Spec.demandOn, hd, hlod, Prod.mk.injEq]
        by_cases h0 : p ph = 0 ∧ q ph = 0
        · simp [h0]
        · simp [h0]
    · have hr : loadRows b = [] := by simp [loadRows, typeLoad, typePcc, hlod, hp]
      have hr' : asymRows b = [] := by simp [asymRows, typeLoad, hlod]
      simp only [hr, hr', ne_eq, not_true, if_false]
      exact ⟨_, rfl, fun ph => by simp [Spec.Passive, hp, hlod]⟩

open Classical in
theorem givePassive_eq {bs : List BusData} {net : Net} (hn : (bs.map BusData.id).Nodup) (hb : net.bus = bs.map busRow)
    (hl : net.load = bs.flatMap loadRows) (ha : net.asym = bs.flatMap asymRows) (he : net.extGrid = bs.flatMap extRows) :
    net.givePassiveNodes = .ok (fun ph => (bs.filter (fun b => Spec.Passive b ph)).map BusData.id) := by
  unfold givePassiveNodes
  rw [hb]
  have key : ∀ (cs : List BusData) (acc : Fin 3 → List Int), (∀ c ∈ cs, c ∈ bs) →
      forIn' (cs.map busRow) acc (fun acc b => do
        let passive ← net.passiveAt b.index
        pure (fun ph => if passive ph then acc ph ++ [b.index] else acc ph)) =
      .ok (fun ph => acc ph ++ (cs.filter (fun b => Spec.Passive b ph)).map BusData.id) := by
    intro cs
    induction cs with
    | nil => intro acc _; simp
    | cons c cs ih =>
      intro acc hcs
      obtain ⟨f, hf, hfp⟩ := passiveAt_eq hn hl ha he (hcs c (by simp))
      rw [List.map_cons, forIn'_cons]
      have hidx : (busRow c).index = c.id := rfl
      simp only [hidx, hf, bind, Except.bind, pure, Except.pure]
      have := ih (fun ph => if f ph then acc ph ++ [c.id] else acc ph) (fun c' hc' => hcs c' (by simp [hc']))
      simp only [bind, Except.bind, pure, Except.pure] at this
      rw [this]
      congr 1
      funext ph
      by_cases hp : Spec.Passive c ph
      · rw [if_pos ((hfp ph).2 hp), List.filter_cons_of_pos (by simpa using hp)]
        simp
      · have : ¬ f ph = true := fun h => hp ((hfp ph).1 h)
        rw [if_neg this, List.filter_cons_of_neg (by simpa using hp)]
  have := key bs (fun _ => []) (fun c hc => hc)
  simpa using this

namespace Net
/-- adding lines leaves the other tables alone -/
def SameNodes (a b : Net) : Prop :=
  a.bus = b.bus ∧ a.load = b.load ∧ a.asym = b.asym ∧ a.extGrid = b.extGrid ∧ a.stdTypes = b.stdTypes

theorem addLineData_same {net net' : Net} {l : LineData} (h : net.addLineData l = .ok net') : SameNodes net' net := by
  unfold addLineData at h
  split at h
  · cases h1 : net.busNamed (.str l.startBus) with
    | error e => rw [h1] at h; cases h
    | ok a =>
      rw [h1] at h
      cases h2 : net.busNamed (.str l.endBus) with
      | error e => rw [h2] at h; cases h
      | ok b =>
        rw [h2] at h
        simp only [bind, Except.bind] at h
        split at h
        · cases h
        · cases h
          exact ⟨rfl, rfl, rfl, rfl, rfl⟩
  · cases h
    exact ⟨rfl, rfl, rfl, rfl, rfl⟩

theorem SameNodes.trans {a b c : Net} (h : SameNodes a b) (h' : SameNodes b c) : SameNodes a c :=
  ⟨h.1.trans h'.1, h.2.1.trans h'.2.1, h.2.2.1.trans h'.2.2.1, h.2.2.2.1.trans h'.2.2.2.1, h.2.2.2.2.trans h'.2.2.2.2⟩

theorem createLines_same {ls : List LineData} {net net' : Net} {ls' : List LineData}
    (h : net.createLines ls = .ok (net', ls')) : SameNodes net' net := by
  unfold createLines at h
  have key : ∀ (ls : List LineData) (st st' : Net × List LineData),
      forIn' ls st (fun st l => do
        let net ← st.1.addLineData (sortEnds l)
        pure (net, st.2 ++ [sortEnds l])) = .ok st' → SameNodes st'.1 st.1 := by
    intro ls
    induction ls with
    | nil => intro st st' h; cases h; exact ⟨rfl, rfl, rfl, rfl, rfl⟩
    | cons l ls ih =>
      intro st st' h
      rw [forIn'_cons] at h
      cases h1 : st.1.addLineData (sortEnds l) with
      | error e => rw [h1] at h; cases h
      | ok n =>
        rw [h1] at h
        exact (ih _ _ h).trans (addLineData_same h1)
  exact key ls _ _ h

theorem createLine3_same {net net' : Net} {f t : Int} {l : ℝ} {typ : Option String}
    (h : net.createLine3 f t l typ = .ok net') : SameNodes net' net := by
  unfold createLine3 at h
  simp only [bind, Except.bind] at h
  split at h
  · cases h
  · split at h
    · cases h
    · split at h
      · split at h
        · cases h; exact ⟨rfl, rfl, rfl, rfl, rfl⟩
        · cases h
      · cases h

theorem createLines3_same {ls : List LineData} {net net' : Net} (h : net.createLines3 ls = .ok net') :
    SameNodes net' net := by
  unfold createLines3 at h
  induction ls generalizing net with
  | nil => cases h; exact ⟨rfl, rfl, rfl, rfl, rfl⟩
  | cons l ls ih =>
    rw [forIn'_cons] at h
    split at h
    · cases h1 : net.createLine3 l.startBus l.endBus l.length l.typ with
      | error e => rw [h1] at h; cases h
      | ok n =>
        rw [h1] at h
        exact (ih h).trans (createLine3_same h1)
    · exact ih h

/-- tables of a single-phase network built from data -/
theorem netData_tables {bs : List BusData} {ls : Option (List LineData)} {net : Net} {ls' : List LineData}
    (h : netData (some bs) ls = .ok (net, ls')) : (bs.map BusData.id).Nodup ∧ net.bus = bs.map busRow ∧
      net.load = bs.flatMap loadRows ∧ net.asym = bs.flatMap asymRows ∧ net.extGrid = bs.flatMap extRows := by
  unfold netData at h
  simp only [Option.getD_some, bind, Except.bind] at h
  split at h
  · cases h
  · rename_i n hn
    obtain ⟨h1, -, h2⟩ := createBuses3_inv (createBuses_eq3 hn)
    cases ls with
    | none => cases h
    | some ls =>
      obtain ⟨e1, e2, e3, e4, -⟩ := createLines_same h
      subst h2
      exact ⟨h1, by simpa using e1, by simpa using e2, by simpa using e3, by simpa using e4⟩

theorem netData3_tables {ts : List String} {bs : List BusData} {ls : Option (List LineData)} {net : Net}
    (h : netData3 ts (some bs) ls = .ok net) : (bs.map BusData.id).Nodup ∧ net.bus = bs.map busRow ∧
      net.load = bs.flatMap loadRows ∧ net.asym = bs.flatMap asymRows ∧ net.extGrid = bs.flatMap extRows := by
  unfold netData3 at h
  simp only [Option.getD_some, bind, Except.bind] at h
  split at h
  · cases h
  · rename_i n hn
    obtain ⟨h1, -, h2⟩ := createBuses3_inv hn
    obtain ⟨e1, e2, e3, e4, -⟩ := createLines3_same h
    subst h2
    exact ⟨h1, by simpa using e1, by simpa using e2, by simpa using e3, by simpa using e4⟩

end Net

open Classical in
/-- C64, single phase: the passive nodes of a network built from bus data are, in order, the buses that are neither grid
connections nor loads with some power -/
theorem C64_single {bs : List BusData} {ls : Option (List LineData)} {net : Net} {ls' : List LineData}
    (h : netData (some bs) ls = .ok (net, ls')) :
    net.givePassiveNodes = .ok (fun ph => (bs.filter (fun b => Spec.Passive b ph)).map BusData.id) := by
  obtain ⟨h1, h2, h3, h4, h5⟩ := netData_tables h
  exact givePassive_eq h1 h2 h3 h4 h5

open Classical in
/-- C64, three phases: the same phase by phase, symmetric and asymmetric loads -/
theorem C64_three {ts : List String} {bs : List BusData} {ls : Option (List LineData)} {net : Net}
    (h : netData3 ts (some bs) ls = .ok net) :
    net.givePassiveNodes = .ok (fun ph => (bs.filter (fun b => Spec.Passive b ph)).map BusData.id) := by
  obtain ⟨h1, h2, h3, h4, h5⟩ := netData3_tables h
  exact givePassive_eq h1 h2 h3 h4 h5

/-! ### names -/

namespace Net

theorem busNamed_str {bs : List BusData} {net : Net} (hn : (bs.map BusData.id).Nodup) (hb : net.bus = bs.map busRow)
    (k : Int) : net.busNamed (.str k) = if k ∈ bs.map BusData.id then .ok k else .error .userWarning := by
  unfold busNamed
  rw [hb]
  have key : ∀ bs : List BusData, (bs.map BusData.id).Nodup →
      ((bs.map busRow).filter (fun b => b.name = Label.str k)).map BusRow.index =
        if k ∈ bs.map BusData.id then [k] else [] := by
    intro bs
    induction bs with
    | nil => intro _; simp
    | cons b bs ih =>
      intro hn
      rw [List.map_cons, List.nodup_cons] at hn
      have := ih hn.2
      by_cases hk : b.id = k
      · have hnm : k ∉ bs.map BusData.id := hk ▸ hn.1
        rw [if_neg hnm] at this
        rw [List.map_cons, List.filter_cons_of_pos (by simp [busRow, hk]), List.map_cons, this,
          if_pos (by simp [hk])]
        simp [busRow, hk]
      · rw [List.map_cons, List.filter_cons_of_neg (by simp [busRow, hk]), this, List.map_cons]
        have : k ∈ b.id :: bs.map BusData.id ↔ k ∈ bs.map BusData.id := by
          rw [List.mem_cons]
          constructor
          · rintro (h | h)
            · exact absurd h.symm hk
            · exact h
          · exact Or.inr
        simp only [this]
  have h := key bs hn
  split at h
  · rename_i hk
    rw [if_pos hk]
    split
    · rename_i r hr
      rw [hr] at h
      simp at h
      rw [h]
    · rename_i hr
      have : ((bs.map busRow).filter (fun b => b.name = Label.str k)).length = 1 := by
        rw [← List.length_map (f := BusRow.index), h]; rfl
      obtain ⟨r, hr'⟩ := List.length_eq_one_iff.1 this
      exact absurd hr' (hr r)
  · rename_i hk
    rw [if_neg hk]
    rw [List.map_eq_nil_iff] at h
    rw [h]

theorem busNamed_int {bs : List BusData} {net : Net} (hb : net.bus = bs.map busRow) (k : Int) :
    net.busNamed (.int k) = .error .userWarning := by
  unfold busNamed
  rw [hb]
  have : (bs.map busRow).filter (fun b => b.name = Label.int k) = [] := by
    rw [List.filter_eq_nil_iff]
    intro r hr
    obtain ⟨b, -, rfl⟩ := List.mem_map.1 hr
    simp [busRow]
  rw [this]

theorem nextLine_addLine (net : Net) (f t : Int) (l : ℝ) (k : LineKind) : (net.addLine f t l k).nextLine = net.nextLine + 1 := by
  unfold nextLine addLine
  simp only [List.foldl_append, List.foldl_cons, List.foldl_nil]
  unfold nextLine
  omega

/-- the constructors accept any bus data with distinct ids (and, for connections, scalar powers) -/
theorem createBuses3_ok (bs : List BusData) (hn : (bs.map BusData.id).Nodup)
    (hs : ∀ b ∈ bs, b.type = 3 → ∃ p q, b.demand = .sym p q) (net : Net) (hd : ∀ b ∈ bs, b.id ∉ net.bus.map BusRow.index)
    (hl : ∀ b ∈ bs, b.id ∉ net.load.map LoadRow.index) (ha : ∀ b ∈ bs, b.id ∉ net.asym.map AsymRow.index) :
    ∃ net', net.createBuses3 bs = .ok net' := by
  unfold createBuses3
  induction bs generalizing net with
  | nil => exact ⟨net, rfl⟩
  | cons b bs ih =>
    rw [List.map_cons, List.nodup_cons] at hn
    have hd0 := hd b (by simp)
    have hl0 := hl b (by simp)
    have ha0 := ha b (by simp)
    have hstep : net.createBus3 b = .ok (net.withBus b) := by
      unfold createBus3 addBus
      rw [if_neg hd0]
      simp only [bind, Except.bind]
      by_cases ht : b.type = 1
      · cases hdm : b.demand with
        | sym p q =>
          simp only [typeLoad, ht, if_true]
          unfold addLoad
          rw [if_neg (by
            rintro (h | h)
            · simp at h
            · exact hl0 h)]
          simp [withBus, busRow, loadRows, asymRows, extRows, typeLoad, typePcc, ht, hdm]
        | asym p q =>
          simp only [typeLoad, ht, if_true]
          unfold addAsym
          rw [if_neg (by
            rintro (h | h)
            · simp at h
            · exact ha0 h)]
          simp [withBus, busRow, loadRows, asymRows, extRows, typeLoad, typePcc, ht, hdm]
      · by_cases hp : b.type = 3
        · obtain ⟨p, q, hdm⟩ := hs b (by simp) hp
          have h31 : ¬ ((3 : Int) = 1) := by omega
          simp only [typeLoad, typePcc, hp, if_true, hdm, if_neg h31]
          unfold addLoad addExtGrid
          rw [if_neg (by
            rintro (h | h)
            · simp at h
            · exact hl0 h)]
          simp [withBus, busRow, loadRows, asymRows, extRows, typeLoad, typePcc, hp]
        · simp only [typeLoad, typePcc, ht, hp, if_false]
          simp [withBus, busRow, loadRows, asymRows, extRows, typeLoad, typePcc, ht, hp, pure, Except.pure]
    rw [forIn'_cons, hstep]
    refine ih hn.2 (fun b' hb' => hs b' (by simp [hb'])) (net.withBus b) ?_ ?_ ?_
    · intro b' hb' hc
      simp only [withBus, List.map_append, List.mem_append, List.map_cons, List.map_nil, List.mem_singleton, busRow] at hc
      rcases hc with hc | hc
      · exact hd b' (by simp [hb']) hc
      · exact hn.1 (List.mem_map.2 ⟨b', hb', hc⟩)
    · intro b' hb' hc
      simp only [withBus, List.map_append, List.mem_append] at hc
      rcases hc with hc | hc
      · exact hl b' (by simp [hb']) hc
      · obtain ⟨r, hr, he⟩ := List.mem_map.1 hc
        rw [loadRows_index b r hr] at he
        exact hn.1 (List.mem_map.2 ⟨b', hb', he.symm⟩)
    · intro b' hb' hc
      simp only [withBus, List.map_append, List.mem_append] at hc
      rcases hc with hc | hc
      · exact ha b' (by simp [hb']) hc
      · obtain ⟨r, hr, he⟩ := List.mem_map.1 hc
        rw [asymRows_index b r hr] at he
        exact hn.1 (List.mem_map.2 ⟨b', hb', he.symm⟩)

/-- single-phase creation is three-phase creation for scalar powers -/
theorem createBuses_of3 {bs : List BusData} (hs : ∀ b ∈ bs, ∃ p q, b.demand = .sym p q) {net net' : Net}
    (h : net.createBuses3 bs = .ok net') : net.createBuses bs = .ok net' := by
  unfold createBuses createBuses3 at *
  induction bs generalizing net with
  | nil => exact h
  | cons b bs ih =>
    obtain ⟨p, q, hd⟩ := hs b (by simp)
    have he : net.createBus b = net.createBus3 b := by
      unfold createBus createBus3
      cases ha : net.addBus b.id b.kv with
      | error e => rfl
      | ok n => simp only [bind, Except.bind, hd]
    rw [forIn'_cons] at h ⊢
    rw [he]
    cases hb : net.createBus3 b with
    | error e => rw [hb] at h; cases h
    | ok n =>
      rw [hb] at h
      exact ih (fun b' hb' => hs b' (by simp [hb'])) h

end Net

/-! ### C65 -/

/-- the line table that a list of line data stands for: one row per entry in service, numbered from `k` -/
def Spec.lineTable (kind : LineData → LineKind) (ls : List LineData) (k : Nat) : List LineRow :=
  ((ls.filter (fun l => 0 < l.status)).zipIdx k).map
    (fun x => ⟨x.2, min x.1.startBus x.1.endBus, max x.1.startBus x.1.endBus, x.1.length, kind x.1⟩)

/-- ohmic parameters of an entry -/
def Spec.ohmic (l : LineData) : LineKind := .params (l.R / l.length) (l.X / l.length)

theorem sortEnds_fields (l : LineData) : (sortEnds l).startBus = min l.startBus l.endBus ∧
    (sortEnds l).endBus = max l.startBus l.endBus ∧ (sortEnds l).length = l.length ∧ (sortEnds l).R = l.R ∧
    (sortEnds l).X = l.X ∧ (sortEnds l).status = l.status ∧ (sortEnds l).typ = l.typ := by
  unfold sortEnds
  split
  · refine ⟨?_, ?_, rfl, rfl, rfl, rfl, rfl⟩ <;> simp only <;> omega
  · refine ⟨?_, ?_, rfl, rfl, rfl, rfl, rfl⟩ <;> omega

theorem sortEnds_idem (l : LineData) : sortEnds (sortEnds l) = sortEnds l := by
  have h := sortEnds_fields l
  generalize hm : sortEnds l = m at h
  unfold sortEnds
  rw [if_neg (by omega)]

theorem createLines_ok {bs : List BusData} (hn : (bs.map BusData.id).Nodup) {ls : List LineData}
    (hends : ∀ l ∈ ls, 0 < l.status → l.startBus ∈ bs.map BusData.id ∧ l.endBus ∈ bs.map BusData.id ∧ l.length ≠ 0)
    {net : Net} (hb : net.bus = bs.map busRow) {k : Nat} (hk : net.nextLine = k) :
    net.createLines ls = .ok ({ net with line := net.line ++ Spec.lineTable Spec.ohmic ls k }, ls.map sortEnds) := by
  unfold createLines
  have key : ∀ (ls : List LineData), (∀ l ∈ ls, 0 < l.status → l.startBus ∈ bs.map BusData.id ∧
      l.endBus ∈ bs.map BusData.id ∧ l.length ≠ 0) → ∀ (net : Net) (k : Nat) (acc : List LineData),
      net.bus = bs.map busRow → net.nextLine = k →
      forIn' ls (net, acc) (fun st l => do
        let net ← st.1.addLineData (sortEnds l)
        pure (net, st.2 ++ [sortEnds l])) =
      .ok ({ net with line := net.line ++ Spec.lineTable Spec.ohmic ls k }, acc ++ ls.map sortEnds) := by
    intro ls
    induction ls with
    | nil => intro _ net k acc _ _; simp [Spec.lineTable]
    | cons l ls ih =>
      intro hends net k acc hb hk
      obtain ⟨f1, f2, f3, f4, f5, f6, -⟩ := sortEnds_fields l
      have ih' := ih (fun l' hl' => hends l' (by simp [hl']))
      rw [forIn'_cons]
      by_cases hs : 0 < l.status
      · obtain ⟨e1, e2, e3⟩ := hends l (by simp) hs
        have hmin : min l.startBus l.endBus ∈ bs.map BusData.id := by
          rcases min_choice l.startBus l.endBus with h | h <;> rw [h] <;> assumption
        have hmax : max l.startBus l.endBus ∈ bs.map BusData.id := by
          rcases max_choice l.startBus l.endBus with h | h <;> rw [h] <;> assumption
        have hadd : net.addLineData (sortEnds l) = .ok (net.addLine (min l.startBus l.endBus) (max l.startBus l.endBus)
            l.length (Spec.ohmic l)) := by
          unfold addLineData
          rw [if_pos (by rw [f6]; exact hs), f1, f2, f3, f4, f5, busNamed_str hn hb, busNamed_str hn hb, if_pos hmin,
            if_pos hmax]
          simp only [bind, Except.bind, if_neg e3]
          rfl
        have h2 := ih' (net.addLine (min l.startBus l.endBus) (max l.startBus l.endBus) l.length (Spec.ohmic l)) (k + 1)
          (acc ++ [sortEnds l]) hb (by rw [nextLine_addLine, hk]; simp)
        simp only [hadd, bind, Except.bind, pure, Except.pure] at h2 ⊢
        rw [h2]
        simp only [addLine, hk, Spec.lineTable, List.append_assoc, List.cons_append, List.nil_append, List.map_cons]
        rw [List.filter_cons_of_pos (by simpa using hs), List.zipIdx_cons, List.map_cons]
      · have hadd : net.addLineData (sortEnds l) = .ok net := by
          unfold addLineData
          rw [if_neg (by rw [f6]; exact hs)]
          rfl
        have h2 := ih' net k (acc ++ [sortEnds l]) hb hk
        simp only [hadd, bind, Except.bind, pure, Except.pure] at h2 ⊢
        rw [h2]
        simp only [Spec.lineTable, List.append_assoc, List.cons_append, List.nil_append, List.map_cons]
        rw [List.filter_cons_of_neg (by simpa using hs)]
  have := key ls hends net k [] hb hk
  simpa using this

/-- C65: single-phase networks get exactly one line per entry in service, between the two named buses in increasing order,
with the entry's length and its impedance per kilometre -/
theorem C65_single (bs : List BusData) (ls : List LineData) (hn : (bs.map BusData.id).Nodup)
    (hs : ∀ b ∈ bs, ∃ p q, b.demand = .sym p q)
    (hends : ∀ l ∈ ls, 0 < l.status → l.startBus ∈ bs.map BusData.id ∧ l.endBus ∈ bs.map BusData.id ∧ l.length ≠ 0) :
    ∃ net ls', netData (some bs) (some ls) = .ok (net, ls') ∧ net.line = Spec.lineTable Spec.ohmic ls 0 ∧
      net.bus.map BusRow.index = bs.map BusData.id := by
  obtain ⟨net, h3⟩ := createBuses3_ok bs hn (fun b hb _ => hs b hb) {} (by simp) (by simp) (by simp)
  have h1 := createBuses_of3 hs h3
  obtain ⟨-, -, h2⟩ := createBuses3_inv h3
  have hb : net.bus = bs.map busRow := by rw [h2]; simp
  have hl : net.line = [] := by rw [h2]
  have := createLines_ok hn hends hb (k := 0) (by unfold nextLine; rw [hl]; rfl)
  refine ⟨{ net with line := net.line ++ Spec.lineTable Spec.ohmic ls 0 }, ls.map sortEnds, ?_, ?_, ?_⟩
  · unfold netData
    simp only [Option.getD_some, bind, Except.bind, h1]
    exact this
  · simp [hl]
  · simp only [hb, List.map_map]
    rfl

/-- lines with an unknown bus are refused -/
theorem C65_rejected {bs : List BusData} {ls : List LineData} {net : Net} {ls' : List LineData}
    (h : netData (some bs) (some ls) = .ok (net, ls')) :
    ∀ l ∈ ls, 0 < l.status → l.startBus ∈ bs.map BusData.id ∧ l.endBus ∈ bs.map BusData.id ∧ l.length ≠ 0 := by
  unfold netData at h
  simp only [Option.getD_some, bind, Except.bind] at h
  split at h
  · cases h
  · rename_i n hn
    obtain ⟨h1, -, h2⟩ := createBuses3_inv (createBuses_eq3 hn)
    have hb : n.bus = bs.map busRow := by rw [h2]; simp
    have key : ∀ (ls : List LineData) (st st' : Net × List LineData), st.1.bus = bs.map busRow →
        forIn' ls st (fun st l => do
          let net ← st.1.addLineData (sortEnds l)
          pure (net, st.2 ++ [sortEnds l])) = .ok st' →
        ∀ l ∈ ls, 0 < l.status → l.startBus ∈ bs.map BusData.id ∧ l.endBus ∈ bs.map BusData.id ∧ l.length ≠ 0 := by
      intro ls
      induction ls with
      | nil => intro st st' _ _ l hl; cases hl
      | cons l ls ih =>
        intro st st' hb h
        rw [forIn'_cons] at h
        cases h1' : st.1.addLineData (sortEnds l) with
        | error e => rw [h1'] at h; cases h
        | ok n =>
          rw [h1'] at h
          have hrest := ih (n, st.2 ++ [sortEnds l]) st' (by rw [(addLineData_same h1').1]; exact hb) h
          intro l' hl' hs
          rcases List.mem_cons.1 hl' with rfl | hl'
          · obtain ⟨f1, f2, f3, f4, f5, f6, -⟩ := sortEnds_fields l'
            unfold addLineData at h1'
            rw [if_pos (by rw [f6]; exact hs), f1, f2, f3, busNamed_str h1 hb, busNamed_str h1 hb] at h1'
            split at h1'
            · rename_i hm1
              split at h1'
              · rename_i hm2
                simp only [bind, Except.bind] at h1'
                split at h1'
                · cases h1'
                · rename_i h0
                  rcases le_total l'.startBus l'.endBus with hle | hle
                  · rw [min_eq_left hle] at hm1
                    rw [max_eq_right hle] at hm2
                    exact ⟨hm1, hm2, h0⟩
                  · rw [min_eq_right hle] at hm1
                    rw [max_eq_left hle] at hm2
                    exact ⟨hm2, hm1, h0⟩
              · cases h1'
            · cases h1'
          · exact hrest l' hl' hs
    exact key ls _ _ hb h

theorem forIn'_congr_map {σ β γ : Type} (g : β → γ) (f : σ → γ → Except PyErr σ) (xs ys : List β) (s : σ)
    (h : xs.map g = ys.map g) : forIn' xs s (fun s x => f s (g x)) = forIn' ys s (fun s x => f s (g x)) := by
  have : ∀ xs : List β, forIn' xs s (fun s x => f s (g x)) = forIn' (xs.map g) s f := by
    intro xs
    unfold forIn'
    rw [List.foldlM_map]
  rw [this, this, h]

/-- the result depends on the entries only up to the order of their ends -/
theorem createLines_congr {ls ms : List LineData} (h : ls.map sortEnds = ms.map sortEnds) (net : Net) :
    net.createLines ls = net.createLines ms :=
  forIn'_congr_map sortEnds (fun (st : Net × List LineData) l => do
    let net ← st.1.addLineData l
    pure (net, st.2 ++ [l])) ls ms _ h

/-- C65: exchanging the two ends of any entries changes nothing (nor does it turn success into an error or back) -/
theorem C65_orientation (bs : Option (List BusData)) {ls ms : List LineData}
    (h : List.Forall₂ (fun l m => m = l ∨ m = { l with startBus := l.endBus, endBus := l.startBus }) ls ms) :
    netData bs (some ls) = netData bs (some ms) := by
  have hmap : ls.map sortEnds = ms.map sortEnds := by
    induction h with
    | nil => rfl
    | @cons l m ls ms hlm _ ih =>
      rw [List.map_cons, List.map_cons, ih]
      congr 1
      rcases hlm with rfl | rfl
      · rfl
      · unfold sortEnds
        rcases lt_trichotomy l.startBus l.endBus with hlt | heq | hgt
        · rw [if_neg (by omega), if_pos hlt]
        · rw [if_neg (by omega), if_neg (by simp only; omega)]
          cases l; simp at heq; simp [heq]
        · rw [if_pos hgt, if_neg (by simp only; omega)]
  unfold netData
  simp only [createLines_congr hmap]

/-- the template is left with sorted ends -/
theorem createLines_templates {ls : List LineData} {net net' : Net} {ls' : List LineData}
    (h : net.createLines ls = .ok (net', ls')) : ls' = ls.map sortEnds := by
  unfold createLines at h
  have key : ∀ (ls : List LineData) (st st' : Net × List LineData),
      forIn' ls st (fun st l => do
        let net ← st.1.addLineData (sortEnds l)
        pure (net, st.2 ++ [sortEnds l])) = .ok st' → st'.2 = st.2 ++ ls.map sortEnds := by
    intro ls
    induction ls with
    | nil => intro st st' h; cases h; simp
    | cons l ls ih =>
      intro st st' h
      rw [forIn'_cons] at h
      cases h1 : st.1.addLineData (sortEnds l) with
      | error e => rw [h1] at h; cases h
      | ok n =>
        rw [h1] at h
        rw [ih _ _ h]
        simp
  have := key ls _ _ h
  simpa using this

/-- C65: building again from the modified template gives the same network (and leaves the template as it is) -/
theorem C65_twice {bs : Option (List BusData)} {ls : List LineData} {net : Net} {ls' : List LineData}
    (h : netData bs (some ls) = .ok (net, ls')) : netData bs (some ls') = .ok (net, ls') := by
  rw [← h]
  unfold netData at h ⊢
  simp only [bind, Except.bind] at h ⊢
  split at h
  · cases h
  · rename_i n hn
    have := createLines_templates h
    apply createLines_congr
    rw [this, List.map_map]
    apply List.map_congr_left
    intro l _
    exact sortEnds_idem l

/-- standard type of an entry -/
def Spec.standard (l : LineData) : LineKind := .std (l.typ.getD "")

theorem createLines3_ok {bs : List BusData} (hn : (bs.map BusData.id).Nodup) {ls : List LineData} {ts : List String}
    (hends : ∀ l ∈ ls, 0 < l.status → l.startBus ∈ bs.map BusData.id ∧ l.endBus ∈ bs.map BusData.id ∧
      ∃ s ∈ ts, l.typ = some s)
    {net : Net} (hb : net.bus = bs.map busRow) (hts : net.stdTypes = ts) {k : Nat} (hk : net.nextLine = k) :
    net.createLines3 ls = .ok { net with line := net.line ++ Spec.lineTable Spec.standard ls k } := by
  unfold createLines3
  induction ls generalizing net k with
  | nil => simp [Spec.lineTable]
  | cons l ls ih =>
    have ih' := @ih (fun l' hl' => hends l' (by simp [hl']))
    rw [forIn'_cons]
    by_cases hs : 0 < l.status
    · obtain ⟨e1, e2, t, ht, e3⟩ := hends l (by simp) hs
      have hmin : min l.startBus l.endBus ∈ bs.map BusData.id := by
        rcases min_choice l.startBus l.endBus with h | h <;> rw [h] <;> assumption
      have hmax : max l.startBus l.endBus ∈ bs.map BusData.id := by
        rcases max_choice l.startBus l.endBus with h | h <;> rw [h] <;> assumption
      have hadd : net.createLine3 l.startBus l.endBus l.length l.typ = .ok (net.addLine (min l.startBus l.endBus)
          (max l.startBus l.endBus) l.length (Spec.standard l)) := by
        unfold createLine3
        have : (if l.startBus > l.endBus then (l.endBus, l.startBus) else (l.startBus, l.endBus)) =
            (min l.startBus l.endBus, max l.startBus l.endBus) := by
          split
          · rw [min_eq_right (by omega), max_eq_left (by omega)]
          · rw [min_eq_left (by omega), max_eq_right (by omega)]
        rw [this]
        simp only [busNamed_str hn hb, if_pos hmin, if_pos hmax, bind, Except.bind, e3, hts, if_pos ht]
        simp [pure, Except.pure, Spec.standard, e3]
      have h2 := ih' (net := net.addLine (min l.startBus l.endBus) (max l.startBus l.endBus) l.length (Spec.standard l))
        (k := k + 1) hb hts (by rw [nextLine_addLine, hk]; simp)
      rw [if_pos hs, hadd]
      simp only [Except.bind]
      rw [h2]
      simp only [addLine, hk, Spec.lineTable, List.append_assoc, List.cons_append, List.nil_append]
      rw [List.filter_cons_of_pos (by simpa using hs), List.zipIdx_cons, List.map_cons]
    · have h2 := ih' (net := net) (k := k) hb hts hk
      rw [if_neg hs]
      refine h2.trans ?_
      simp only [Spec.lineTable]
      rw [List.filter_cons_of_neg (by simpa using hs)]

/-- C65, three phases: one line per entry in service between the two named buses in increasing order, of the entry's type;
the template is not modified, so building again gives the same network -/
theorem C65_three (ts : List String) (bs : List BusData) (ls : List LineData) (hn : (bs.map BusData.id).Nodup)
    (hs : ∀ b ∈ bs, b.type = 3 → ∃ p q, b.demand = .sym p q)
    (hends : ∀ l ∈ ls, 0 < l.status → l.startBus ∈ bs.map BusData.id ∧ l.endBus ∈ bs.map BusData.id ∧
      ∃ s ∈ ts, l.typ = some s) :
    ∃ net, netData3 ts (some bs) (some ls) = .ok net ∧ net.line = Spec.lineTable Spec.standard ls 0 ∧
      net.bus.map BusRow.index = bs.map BusData.id := by
  obtain ⟨net, h3⟩ := createBuses3_ok bs hn hs { stdTypes := ts } (by simp) (by simp) (by simp)
  obtain ⟨-, -, h2⟩ := createBuses3_inv h3
  have hb : net.bus = bs.map busRow := by rw [h2]; simp
  have hl : net.line = [] := by rw [h2]
  have ht : net.stdTypes = ts := by rw [h2]
  have := createLines3_ok hn hends hb ht (k := 0) (by unfold nextLine; rw [hl]; rfl)
  refine ⟨{ net with line := net.line ++ Spec.lineTable Spec.standard ls 0 }, ?_, ?_, ?_⟩
  · unfold netData3
    simp only [Option.getD_some, bind, Except.bind, h3]
    exact this
  · simp [hl]
  · simp only [hb, List.map_map]
    rfl

/-! ### C66 -/

/-- nominal voltage of the bus at a position of the table -/
def Spec.kvAt (bs : List BusData) (i : Nat) : ℝ := ((bs[i]?).map BusData.kv).getD 0

/-- nominal voltage of the bus with a given label -/
def Spec.kvLabel (bs : List BusData) (i : Int) : ℝ := ((bs.find? (fun b => b.id = i)).map BusData.kv).getD 0

namespace Net

theorem vnKv_eq {bs : List BusData} {net : Net} (hb : net.bus = bs.map busRow) {i : Int} (hi : i ∈ bs.map BusData.id) :
    net.vnKv i = .ok (Spec.kvLabel bs i) := by
  unfold vnKv Spec.kvLabel
  rw [hb, List.find?_map]
  have : ((fun b : BusRow => decide (b.index = i)) ∘ busRow) = fun b : BusData => decide (b.id = i) := rfl
  rw [this]
  cases h : bs.find? (fun b => decide (b.id = i)) with
  | none =>
    rw [List.find?_eq_none] at h
    obtain ⟨b, hb', he⟩ := List.mem_map.1 hi
    exact absurd (decide_eq_true he) (h b hb')
  | some b => rfl

theorem busIndexAt_eq {bs : List BusData} {net : Net} (hb : net.bus = bs.map busRow) {i : Nat} (hi : i < bs.length) :
    net.busIndexAt i = .ok bs[i].id := by
  unfold busIndexAt
  rw [hb, List.getElem?_map, List.getElem?_eq_getElem hi]
  rfl

theorem posOf_eq {bs : List BusData} {net : Net} (hn : (bs.map BusData.id).Nodup) (hb : net.bus = bs.map busRow) {i : Nat}
    (hi : i < bs.length) : net.posOf bs[i].id = i := by
  unfold posOf
  rw [hb]
  have hlen : i < (bs.map busRow).length := by simpa using hi
  rw [List.findIdx_eq hlen]
  refine ⟨by simp [busRow], ?_⟩
  intro j hj
  have hj' : j < bs.length := by omega
  simp only [List.getElem_map, busRow, decide_eq_false_iff_not]
  intro he
  have := (List.Nodup.getElem_inj_iff hn (i := j) (hi := by simpa using hj') (j := i) (hj := by simpa using hi)).1
    (by simpa using he)
  omega

theorem find_bus {bs : List BusData} {net : Net} (hn : (bs.map BusData.id).Nodup) (hb : net.bus = bs.map busRow) {i : Nat}
    (hi : i < bs.length) : net.bus.find? (fun b => b.index = bs[i].id) = some (busRow bs[i]) := by
  have h := find_rows (rows := fun b => [busRow b]) (key := BusRow.index) (by simp [busRow]) hn (List.getElem_mem hi)
  rw [hb]
  have hm : ∀ bs : List BusData, bs.flatMap (fun b => [busRow b]) = bs.map busRow := by
    intro bs
    induction bs with
    | nil => rfl
    | cons b bs ih => rw [List.flatMap_cons, ih]; rfl
  rw [hm] at h
  simpa using h

/-- what one line contributes to an entry of the admittance matrix -/
def contribution (sn : ℝ) (net : Net) (p q : Nat) (l : LineRow) : ℂ :=
  (if p = net.posOf l.fromBus ∧ q = net.posOf l.fromBus then net.lineAdmittance sn l else 0) +
  (if p = net.posOf l.toBus ∧ q = net.posOf l.toBus then net.lineAdmittance sn l else 0) -
  (if p = net.posOf l.fromBus ∧ q = net.posOf l.toBus then net.lineAdmittance sn l else 0) -
  (if p = net.posOf l.toBus ∧ q = net.posOf l.fromBus then net.lineAdmittance sn l else 0)

theorem contribution_congr {sn : ℝ} {net net' : Net} (h : net.bus = net'.bus) (p q : Nat) (l : LineRow) :
    net.contribution sn p q l = net'.contribution sn p q l := by
  unfold contribution posOf lineAdmittance
  rw [h]

end Net

/-- the admittance of the line created for the entry `(i, j)` as seen by `make_y_bus` -/
def entryAdmittance (bs : List BusData) (y : Arr2 ℂ) (i j : Nat) : ℂ :=
  -y.get i j * ((Spec.kvAt bs i / Spec.kvLabel bs i : ℝ) : ℂ) ^ 2

theorem lineFromEntry_ok {bs : List BusData} (hn : (bs.map BusData.id).Nodup) {sn : ℝ} (hsn : sn ≠ 0) {y : Arr2 ℂ}
    {net : Net} (hb : net.bus = bs.map busRow) {i j : Nat} (hi : i < bs.length) (hj : j < bs.length)
    (hlab : y.get i j ≠ 0 → (i : Int) ∈ bs.map BusData.id ∧ Spec.kvLabel bs i ≠ 0) :
    ∃ net', lineFromEntry sn y i net j = .ok net' ∧ SameNodes net' net ∧ ∀ p q,
      (net'.line.map (net'.contribution sn p q)).sum = (net.line.map (net.contribution sn p q)).sum +
        ((if p = i ∧ q = i then entryAdmittance bs y i j else 0) + (if p = j ∧ q = j then entryAdmittance bs y i j else 0) -
         (if p = i ∧ q = j then entryAdmittance bs y i j else 0) - (if p = j ∧ q = i then entryAdmittance bs y i j else 0)) := by
  unfold lineFromEntry
  by_cases h0 : y.get i j = 0
  · rw [if_neg (by simpa using h0)]
    refine ⟨net, rfl, ⟨rfl, rfl, rfl, rfl, rfl⟩, ?_⟩
    intro p q
    simp [entryAdmittance, h0]
  · rw [if_pos h0]
    obtain ⟨hl, hkv⟩ := hlab h0
    have hmi : bs[i].id ∈ bs.map BusData.id := List.mem_map.2 ⟨_, List.getElem_mem hi, rfl⟩
    have hmj : bs[j].id ∈ bs.map BusData.id := List.mem_map.2 ⟨_, List.getElem_mem hj, rfl⟩
    simp only [vnKv_eq hb hl, busIndexAt_eq hb hi, busIndexAt_eq hb hj, busNamed_str hn hb, if_pos hmi, if_pos hmj, bind,
      Except.bind, pure, Except.pure]
    refine ⟨_, rfl, ⟨rfl, rfl, rfl, rfl, rfl⟩, ?_⟩
    intro p q
    set a : ℂ := -y.get i j / ((Spec.kvLabel bs i : ℂ) * (Spec.kvLabel bs i : ℂ)) * sn with ha
    set l : LineRow := ⟨net.nextLine, bs[i].id, bs[j].id, 1, .params (1 / a).re (1 / a).im⟩ with hl'
    have hline : (net.addLine bs[i].id bs[j].id 1 (.params (1 / a).re (1 / a).im)).line = net.line ++ [l] := rfl
    have hbus : (net.addLine bs[i].id bs[j].id 1 (.params (1 / a).re (1 / a).im)).bus = net.bus := rfl
    rw [hline, List.map_append, List.sum_append]
    rw [List.map_congr_left (fun l _ => contribution_congr (sn := sn) hbus p q l)]
    congr 1
    rw [List.map_cons, List.map_nil, List.sum_singleton, contribution_congr (sn := sn) hbus]
    have hadm : net.lineAdmittance sn l = entryAdmittance bs y i j := by
      unfold lineAdmittance
      have hf : net.bus.find? (fun b => decide (b.index = l.fromBus)) = some (busRow bs[i]) := find_bus hn hb hi
      rw [hf]
      have hk : Spec.kvAt bs i = bs[i].kv := by
        unfold Spec.kvAt
        rw [List.getElem?_eq_getElem hi]; rfl
      simp only [hl', busRow]
      have hz : (⟨(1 / a).re, (1 / a).im⟩ : ℂ) = 1 / a := rfl
      rw [hz, entryAdmittance, hk, ha]
      have h1 : (Spec.kvLabel bs i : ℂ) ≠ 0 := by exact_mod_cast hkv
      have h2 : (sn : ℂ) ≠ 0 := by exact_mod_cast hsn
      push_cast
      field_simp
    unfold contribution
    rw [hadm]
    have e1 : net.posOf l.fromBus = i := posOf_eq hn hb hi
    have e2 : net.posOf l.toBus = j := posOf_eq hn hb hj
    rw [e1, e2]

/-- C66: the admittance matrix of the network created from `y`: off the diagonal, each entry of `y` times the squared ratio of
the nominal voltage of the bus at the position of the row (the larger of the two) to that of the bus *labelled* with this
number; on the diagonal, minus the sum of the others. -/
theorem C66_entries {bs : List BusData} {ls' : List LineData} {net : Net} (hnet : netData (some bs) (some []) = .ok (net, ls'))
    {sn : ℝ} (hsn : sn ≠ 0) {y : Arr2 ℂ} (hy : y.r = bs.length ∧ y.c = bs.length) (hsym : ∀ i j, y.get i j = y.get j i)
    (hlab : ∀ i j, j < i → i < bs.length → y.get i j ≠ 0 → (i : Int) ∈ bs.map BusData.id ∧ Spec.kvLabel bs i ≠ 0) :
    ∃ net', net.createLinesFromYbus sn y = .ok net' ∧ (net'.makeYBus sn).r = bs.length ∧ (net'.makeYBus sn).c = bs.length ∧
      (∀ p q, p < bs.length → q < bs.length → p ≠ q → (net'.makeYBus sn).get p q =
        y.get p q * ((Spec.kvAt bs (max p q) / Spec.kvLabel bs (max p q : Nat) : ℝ) : ℂ) ^ 2) ∧
      ∀ p, p < bs.length → (net'.makeYBus sn).get p p =
        - ∑ q ∈ (Finset.range bs.length).erase p, (net'.makeYBus sn).get p q := by
  obtain ⟨hn, hb, -⟩ := netData_tables hnet
  have hline : net.line = [] := by
    unfold netData at hnet
    simp only [Option.getD_some, bind, Except.bind] at hnet
    split at hnet
    · cases hnet
    · rename_i m hm
      obtain ⟨-, -, h2⟩ := createBuses3_inv (createBuses_eq3 hm)
      cases hnet
      rw [h2]
  let n := bs.length
  let c : Nat → Nat → Nat → Nat → ℂ := fun p q i j =>
    (if p = i ∧ q = i then entryAdmittance bs y i j else 0) + (if p = j ∧ q = j then entryAdmittance bs y i j else 0) -
    (if p = i ∧ q = j then entryAdmittance bs y i j else 0) - (if p = j ∧ q = i then entryAdmittance bs y i j else 0)
  obtain ⟨net', h1, h2, h3⟩ := forRange_inv
    (P := fun i (m : Net) => SameNodes m net ∧ ∀ p q, (m.line.map (m.contribution sn p q)).sum =
      ∑ i' ∈ Finset.range i, ∑ j' ∈ Finset.range i', c p q i' j') y.r net
    (fun m i => forRange i m (lineFromEntry sn y i))
    ⟨⟨rfl, rfl, rfl, rfl, rfl⟩, by intro p q; simp [hline]⟩
    (by
      intro i hi m hm
      obtain ⟨m', e1, e2, e3⟩ := forRange_inv
        (P := fun j (m' : Net) => SameNodes m' net ∧ ∀ p q, (m'.line.map (m'.contribution sn p q)).sum =
          ∑ i' ∈ Finset.range i, ∑ j' ∈ Finset.range i', c p q i' j' + ∑ j' ∈ Finset.range j, c p q i j') i m
        (lineFromEntry sn y i) ⟨hm.1, by intro p q; rw [hm.2]; simp⟩
        (by
          intro j hj m' hm'
          obtain ⟨m'', g1, g2, g3⟩ := lineFromEntry_ok hn hsn (net := m') (hm'.1.1.trans hb) (i := i) (j := j) (y := y)
            (by omega) (by omega) (hlab i j hj (by omega))
          refine ⟨m'', g1, g2.trans hm'.1, ?_⟩
          intro p q
          rw [g3, hm'.2, Finset.sum_range_succ, add_assoc])
      refine ⟨m', e1, e2, ?_⟩
      intro p q
      rw [e3, Finset.sum_range_succ])
  have hget : ∀ p q, p < n → q < n → (net'.makeYBus sn).get p q = ∑ i ∈ Finset.range n, ∑ j ∈ Finset.range i, c p q i j := by
    intro p q hp hq
    have hbl : net'.bus.length = n := by rw [h2.1, hb]; simp [n]
    unfold makeYBus
    rw [Arr2.ofFn_get _ (by rw [hbl]; exact hp) (by rw [hbl]; exact hq)]
    have hr : n = y.r := hy.1.symm
    rw [hr, ← h3 p q]
    rfl
  let b : Nat → Nat → ℂ := fun i j => if j < i then entryAdmittance bs y i j else 0
  have hfull : ∀ p q, p < n → q < n → (net'.makeYBus sn).get p q =
      (if p = q then ∑ j ∈ Finset.range n, b p j + ∑ i ∈ Finset.range n, b i p else 0) - b p q - b q p := by
    intro p q hp hq
    rw [hget p q hp hq]
    have hin : ∀ i ∈ Finset.range n, ∑ j ∈ Finset.range i, c p q i j = ∑ j ∈ Finset.range n,
        ((if p = i ∧ q = i then b i j else 0) + (if p = j ∧ q = j then b i j else 0) -
          (if p = i ∧ q = j then b i j else 0) - (if p = j ∧ q = i then b i j else 0)) := by
      intro i hi
      have hsub : Finset.range i ⊆ Finset.range n := Finset.range_subset_range.2 (Finset.mem_range.1 hi).le
      rw [← Finset.sum_subset hsub]
      · apply Finset.sum_congr rfl
        intro j hj
        simp only [c, b, if_pos (Finset.mem_range.1 hj)]
      · intro j _ hj
        have : ¬ j < i := fun h => hj (Finset.mem_range.2 h)
        simp [b, this]
    rw [Finset.sum_congr rfl hin]
    simp only [Finset.sum_sub_distrib, Finset.sum_add_distrib]
    have s1 : ∑ i ∈ Finset.range n, ∑ j ∈ Finset.range n, (if p = i ∧ q = i then b i j else 0) =
        if p = q then ∑ j ∈ Finset.range n, b p j else 0 := by
      rw [Finset.sum_eq_single p]
      · by_cases hpq : p = q
        · subst hpq; simp
        · have : ¬ q = p := fun h => hpq h.symm
          simp [hpq, this]
      · intro i _ hne
        apply Finset.sum_eq_zero
        intro j _
        exact if_neg (fun h => hne h.1.symm)
      · intro h; exact absurd (Finset.mem_range.2 hp) h
    have s2 : ∑ i ∈ Finset.range n, ∑ j ∈ Finset.range n, (if p = j ∧ q = j then b i j else 0) =
        if p = q then ∑ i ∈ Finset.range n, b i p else 0 := by
      rw [Finset.sum_comm, Finset.sum_eq_single p]
      · by_cases hpq : p = q
        · subst hpq; simp
        · have : ¬ q = p := fun h => hpq h.symm
          simp [hpq, this]
      · intro i _ hne
        apply Finset.sum_eq_zero
        intro j _
        exact if_neg (fun h => hne h.1.symm)
      · intro h; exact absurd (Finset.mem_range.2 hp) h
    have s3 : ∀ u v, u < n → v < n → ∑ i ∈ Finset.range n, ∑ j ∈ Finset.range n, (if u = i ∧ v = j then b i j else 0) =
        b u v := by
      intro u v hu hv
      rw [Finset.sum_eq_single u]
      · rw [Finset.sum_eq_single v]
        · simp
        · intro j _ hne; exact if_neg (fun h => hne h.2.symm)
        · intro h; exact absurd (Finset.mem_range.2 hv) h
      · intro i _ hne
        apply Finset.sum_eq_zero
        intro j _
        exact if_neg (fun h => hne h.1.symm)
      · intro h; exact absurd (Finset.mem_range.2 hu) h
    have s4 : ∑ i ∈ Finset.range n, ∑ j ∈ Finset.range n, (if p = j ∧ q = i then b i j else 0) = b q p := by
      rw [← s3 q p hq hp]
      apply Finset.sum_congr rfl
      intro i _
      apply Finset.sum_congr rfl
      intro j _
      simp only [and_comm]
    rw [s1, s2, s3 p q hp hq, s4]
    by_cases hpq : p = q
    · simp [hpq]
    · simp [hpq]
  have hbl : net'.bus.length = n := by rw [h2.1, hb]; simp [n]
  refine ⟨net', h1, hbl, hbl, ?_, ?_⟩
  · intro p q hp hq hpq
    rw [hfull p q hp hq, if_neg hpq]
    rcases Nat.lt_or_gt_of_ne hpq with h | h
    · have : ¬ q < p := by omega
      simp only [b, if_pos h, if_neg this, entryAdmittance]
      rw [max_eq_right h.le, hsym p q]
      ring
    · have : ¬ p < q := by omega
      simp only [b, if_pos h, if_neg this, entryAdmittance]
      rw [max_eq_left h.le]
      ring
  · intro p hp
    rw [hfull p p hp hp, if_pos rfl]
    have hbpp : b p p = 0 := by simp [b]
    rw [hbpp, sub_zero, sub_zero]
    have hoff : ∀ q ∈ (Finset.range bs.length).erase p, (net'.makeYBus sn).get p q = -(b p q + b q p) := by
      intro q hq
      have hq' := Finset.mem_erase.1 hq
      rw [hfull p q hp (Finset.mem_range.1 hq'.2), if_neg (fun h => hq'.1 h.symm)]
      ring
    rw [Finset.sum_congr rfl hoff]
    rw [Finset.sum_neg_distrib, neg_neg, Finset.sum_add_distrib]
    rw [← Finset.add_sum_erase _ _ (Finset.mem_range.2 hp), hbpp, zero_add]
    congr 1
    rw [← Finset.add_sum_erase _ _ (Finset.mem_range.2 hp), hbpp, zero_add]

/-- C66 partial: when every bus number that is looked up as a label exists and has the nominal voltage of the bus at this
position, `create_lines_from_ybus` followed by `make_y_bus` gives back every symmetric matrix with zero row sums.
Missing: other label and voltage assignments, for which it fails (`C66_violated`, `C66_raises`). -/
theorem C66_partial {bs : List BusData} {ls' : List LineData} {net : Net} (hnet : netData (some bs) (some []) = .ok (net, ls'))
    {sn : ℝ} (hsn : sn ≠ 0) {y : Arr2 ℂ} (hy : y.r = bs.length ∧ y.c = bs.length) (hsym : ∀ i j, y.get i j = y.get j i)
    (hsum : ∀ i, i < bs.length → ∑ j ∈ Finset.range bs.length, y.get i j = 0)
    (hlab : ∀ i, 0 < i → i < bs.length → (i : Int) ∈ bs.map BusData.id ∧ Spec.kvLabel bs i = Spec.kvAt bs i ∧
      Spec.kvAt bs i ≠ 0) :
    ∃ net', net.createLinesFromYbus sn y = .ok net' ∧ net'.makeYBus sn = y := by
  obtain ⟨net', h1, h2, h3, h4, h5⟩ := C66_entries hnet hsn hy hsym (by
    intro i j hj hi _
    obtain ⟨a, b, c⟩ := hlab i (by omega) hi
    exact ⟨a, by rw [b]; exact c⟩)
  have hoff : ∀ p q, p < bs.length → q < bs.length → p ≠ q → (net'.makeYBus sn).get p q = y.get p q := by
    intro p q hp hq hpq
    rw [h4 p q hp hq hpq]
    obtain ⟨-, b, c⟩ := hlab (max p q) (by omega) (by omega)
    rw [b, div_self c]
    simp
  refine ⟨net', h1, Arr2.ext' (h2.trans hy.1.symm) (h3.trans hy.2.symm) ?_⟩
  intro p q hp hq
  rw [h2] at hp
  rw [h3] at hq
  by_cases hpq : p = q
  · subst hpq
    rw [h5 p hp]
    have hs := hsum p hp
    rw [← Finset.add_sum_erase _ _ (Finset.mem_range.2 hp)] at hs
    rw [Finset.sum_congr rfl (g := fun q => y.get p q) (fun q hq => by
      have hq' := Finset.mem_erase.1 hq
      exact hoff p q hp (Finset.mem_range.1 hq'.2) (fun h => hq'.1 h.symm))]
    exact (eq_neg_of_add_eq_zero_left hs).symm
  · exact hoff p q hp hq hpq

theorem kvLabel_uniform {bs : List BusData} {kv : ℝ} (h : ∀ b ∈ bs, b.kv = kv) {i : Int} (hi : i ∈ bs.map BusData.id) :
    Spec.kvLabel bs i = kv := by
  unfold Spec.kvLabel
  cases h' : bs.find? (fun b => decide (b.id = i)) with
  | none =>
    rw [List.find?_eq_none] at h'
    obtain ⟨b, hb', he⟩ := List.mem_map.1 hi
    exact absurd (decide_eq_true he) (h' b hb')
  | some b => exact h b (List.mem_of_find?_eq_some h')

theorem kvAt_eq {bs : List BusData} {i : Nat} (hi : i < bs.length) : Spec.kvAt bs i = bs[i].kv := by
  unfold Spec.kvAt
  rw [List.getElem?_eq_getElem hi]; rfl

/-- The round trip for buses numbered from one with a single nominal voltage, as in the shipped templates. -/
theorem C66_templates_partial {bs : List BusData} {ls' : List LineData} {net : Net}
    (hnet : netData (some bs) (some []) = .ok (net, ls'))
    (hids : bs.map BusData.id = (List.range bs.length).map (fun k : Nat => (k : Int) + 1)) {kv : ℝ} (hkv : kv ≠ 0)
    (hu : ∀ b ∈ bs, b.kv = kv)
    {sn : ℝ} (hsn : sn ≠ 0) {y : Arr2 ℂ} (hy : y.r = bs.length ∧ y.c = bs.length) (hsym : ∀ i j, y.get i j = y.get j i)
    (hsum : ∀ i, i < bs.length → ∑ j ∈ Finset.range bs.length, y.get i j = 0) :
    ∃ net', net.createLinesFromYbus sn y = .ok net' ∧ net'.makeYBus sn = y := by
  refine C66_partial hnet hsn hy hsym hsum ?_
  intro i h0 hi
  have hm : (i : Int) ∈ bs.map BusData.id := by
    rw [hids]
    exact List.mem_map.2 ⟨i - 1, List.mem_range.2 (by omega), by omega⟩
  have ha : Spec.kvAt bs i = kv := by rw [kvAt_eq hi]; exact hu _ (List.getElem_mem hi)
  exact ⟨hm, by rw [kvLabel_uniform hu hm, ha], by rw [ha]; exact hkv⟩

/-- every iteration of a loop that completes has completed -/
theorem forRange_visits {σ : Type} (P : σ → Prop) {f : σ → Nat → Except PyErr σ} (hP : ∀ s k s', P s → f s k = .ok s' → P s')
    (n : Nat) {s0 s : σ} (h0 : P s0) (h : forRange n s0 f = .ok s) :
    P s ∧ ∀ k, k < n → ∃ a b, P a ∧ f a k = .ok b := by
  unfold forRange at h
  induction n generalizing s with
  | zero => cases h; exact ⟨h0, fun k hk => absurd hk (by omega)⟩
  | succ n ih =>
    rw [List.range_succ, List.foldlM_append] at h
    cases h1 : List.foldlM f s0 (List.range n) with
    | error e => rw [h1] at h; cases h
    | ok m =>
      rw [h1] at h
      simp only [bind, Except.bind, List.foldlM_cons, List.foldlM_nil] at h
      cases h2 : f m n with
      | error e => rw [h2] at h; cases h
      | ok m' =>
        rw [h2] at h
        obtain ⟨p1, p2⟩ := ih h1
        refine ⟨hP m n s p1 (h2.trans h), ?_⟩
        intro k hk
        rcases Nat.lt_succ_iff_lt_or_eq.1 hk with hk | rfl
        · exact p2 k hk
        · exact ⟨m, m', p1, h2⟩

theorem lineFromEntry_bus {sn : ℝ} {y : Arr2 ℂ} {i j : Nat} {net net' : Net} (h : lineFromEntry sn y i net j = .ok net') :
    net'.bus = net.bus ∧ (y.get i j ≠ 0 → ∃ kv, net.vnKv i = .ok kv) := by
  unfold lineFromEntry at h
  split at h
  · rename_i hne
    obtain ⟨kv, h1, h⟩ := Prior.bind_ok h
    obtain ⟨f, -, h⟩ := Prior.bind_ok h
    obtain ⟨f', -, h⟩ := Prior.bind_ok h
    obtain ⟨t, -, h⟩ := Prior.bind_ok h
    obtain ⟨t', -, h⟩ := Prior.bind_ok h
    cases h
    exact ⟨rfl, fun _ => ⟨kv, h1⟩⟩
  · rename_i hne
    cases h
    exact ⟨rfl, fun hc => absurd hc (by simpa using hne)⟩

/-- C66 violated: when an entry below the diagonal is non-zero and no bus is labelled with the position of its row, no network is
created at all -/
theorem C66_raises {net : Net} {sn : ℝ} {y : Arr2 ℂ} {i j : Nat} (hj : j < i) (hi : i < y.r) (hne : y.get i j ≠ 0)
    (hlab : (i : Int) ∉ net.bus.map BusRow.index) : ∃ e, net.createLinesFromYbus sn y = .error e := by
  cases h : net.createLinesFromYbus sn y with
  | error e => exact ⟨e, rfl⟩
  | ok net' =>
    exfalso
    unfold createLinesFromYbus at h
    have hin : ∀ (m : Net) (k : Nat) (m' : Net), m.bus = net.bus → forRange k m (lineFromEntry sn y k) = .ok m' →
        m'.bus = net.bus := by
      intro m k m' hm hk
      exact (forRange_visits (fun m : Net => m.bus = net.bus)
        (fun s l s' hs hl => (lineFromEntry_bus hl).1.trans hs) k hm hk).1
    obtain ⟨-, h2⟩ := forRange_visits (fun m : Net => m.bus = net.bus) hin y.r rfl h
    obtain ⟨a, b, ha, hb⟩ := h2 i hi
    obtain ⟨-, h3⟩ := forRange_visits (fun m : Net => m.bus = net.bus)
        (fun s l s' hs hl => (lineFromEntry_bus hl).1.trans hs) i ha hb
    obtain ⟨c, d, hc, hd⟩ := h3 j hj
    obtain ⟨kv, hkv⟩ := (lineFromEntry_bus hd).2 hne
    unfold vnKv at hkv
    split at hkv
    · rename_i r hr
      apply hlab
      rw [← hc]
      refine List.mem_map.2 ⟨r, List.mem_of_find?_eq_some hr, ?_⟩
      simpa using List.find?_some hr
    · cases hkv

/-- buses labelled 1 and 2 with nominal voltages 1 and 2 -/
def demoBuses66 : List BusData :=
  [⟨1, 3, .sym 0 0, 1, 0, 0⟩, ⟨2, 1, .sym 1 1, 2, 0, 0⟩]

/-- C66 violated: buses 1 and 2 with nominal voltages 1 kV and 2 kV; the matrix `[[1, -1], [-1, 1]]` comes back four times as
large -/
theorem C66_violated : ∃ net net' ls', netData (some demoBuses66) (some []) = .ok (net, ls') ∧
    net.createLinesFromYbus 1 (Arr2.ofFn 2 2 (fun i j => if i = j then 1 else -1)) = .ok net' ∧
    net'.makeYBus 1 = Arr2.ofFn 2 2 (fun i j => if i = j then 4 else -4) := by
  obtain ⟨net, ls', h1, -, -⟩ := C65_single demoBuses66 [] (by simp [demoBuses66])
    (by intro b hb; simp only [demoBuses66, List.mem_cons, List.not_mem_nil, or_false] at hb
        rcases hb with rfl | rfl <;> exact ⟨_, _, rfl⟩) (by simp)
  have hlen : demoBuses66.length = 2 := rfl
  have k1 : Spec.kvLabel demoBuses66 ((1 : Nat) : Int) = 1 := by simp [Spec.kvLabel, demoBuses66]
  have k2 : Spec.kvAt demoBuses66 1 = 2 := by simp [Spec.kvAt, demoBuses66]
  obtain ⟨net', g1, g2, g3, g4, g5⟩ := C66_entries h1 (sn := 1) one_ne_zero
    (y := Arr2.ofFn 2 2 (fun i j => if i = j then 1 else -1)) ⟨rfl, rfl⟩
    (by
      intro i j
      simp only [Arr2.ofFn]
      by_cases h : i < 2 ∧ j < 2
      · rw [if_pos h, if_pos (show j < 2 ∧ i < 2 from ⟨h.2, h.1⟩)]
        by_cases hij : i = j
        · rw [if_pos hij, if_pos hij.symm]
        · rw [if_neg hij, if_neg (fun e => hij e.symm)]
      · rw [if_neg h, if_neg (show ¬ (j < 2 ∧ i < 2) from fun h' => h ⟨h'.2, h'.1⟩)])
    (by
      intro i j hj hi _
      rw [hlen] at hi
      have : i = 1 := by omega
      subst this
      exact ⟨by simp [demoBuses66], by rw [k1]; norm_num⟩)
  rw [hlen] at g2 g3 g4 g5
  refine ⟨net, net', ls', h1, g1, Arr2.ext' g2 g3 ?_⟩
  have off : ∀ p q, p < 2 → q < 2 → p ≠ q → (net'.makeYBus 1).get p q = -4 := by
    intro p q hp hq hpq
    rw [g4 p q hp hq hpq, Arr2.ofFn_get _ hp hq, if_neg hpq]
    have : max p q = 1 := by omega
    rw [this, k1, k2]
    norm_num
  intro p q hp hq
  rw [g2] at hp
  rw [g3] at hq
  rw [Arr2.ofFn_get _ hp hq]
  by_cases hpq : p = q
  · subst hpq
    rw [if_pos rfl, g5 p hp]
    have : (Finset.range 2).erase p = {1 - p} := by
      ext k
      simp only [Finset.mem_erase, Finset.mem_range, Finset.mem_singleton]
      omega
    rw [this, Finset.sum_singleton, off p (1 - p) hp (by omega) (by omega)]
    norm_num
  · rw [if_neg hpq, off p q hp hq hpq]

/-! ### C67 -/

/-- C67 violated: in every network built from data, `NetData.create_line` raises, whatever the line -/
theorem C67_createLine_violated {bs : List BusData} {ls : Option (List LineData)} {net : Net} {ls' : List LineData}
    (h : netData (some bs) ls = .ok (net, ls')) (f t : Int) (r x l : ℝ) :
    net.createLine f t r x l = .error .userWarning := by
  obtain ⟨-, h2, -⟩ := netData_tables h
  unfold createLine
  simp only [busNamed_int h2, bind, Except.bind]

/-- C67 violated: constructing a network without line data raises, whatever the buses -/
theorem C67_constructor_violated (ns : Option (List BusData)) : ∃ e, netData ns none = .error e := by
  unfold netData
  cases h : createBuses {} (ns.getD []) with
  | error e => exact ⟨e, by simp only [h, bind, Except.bind]⟩
  | ok n => exact ⟨.typeError, by simp only [h, bind, Except.bind]⟩

/-- C67 violated: whenever `remove_lines` returns, it has removed the buses with the given numbers, and none of the lines
that do not end there -/
theorem C67_removeLines_violated {net net' : Net} {lines : List Int} (h : net.removeLines lines = .ok net') :
    (∀ k ∈ lines, k ∈ net.bus.map BusRow.index ∧ k ∉ net'.bus.map BusRow.index) ∧
    ∀ l ∈ net.line, l.fromBus ∉ lines → l.toBus ∉ lines → l ∈ net'.line := by
  unfold removeLines dropBuses at h
  split at h
  · rename_i hall
    cases h
    refine ⟨fun k hk => ⟨hall k hk, ?_⟩, ?_⟩
    · intro hc
      obtain ⟨b, hb, rfl⟩ := List.mem_map.1 hc
      have := (List.mem_filter.1 hb).2
      simp at this
      exact this hk
    · intro l hl h1 h2
      exact List.mem_filter.2 ⟨hl, by simp [h1, h2]⟩
  · cases h

/-- C67 partial: three-phase networks can be built without line data, and `NetData3P.create_line` adds exactly the given line.
Missing: everything else in the statement, which fails (see the `_violated` theorems). -/
theorem C67_partial (ts : List String) (bs : List BusData) (hn : (bs.map BusData.id).Nodup)
    (hs : ∀ b ∈ bs, b.type = 3 → ∃ p q, b.demand = .sym p q) :
    ∃ net, netData3 ts (some bs) none = .ok net ∧ net.line = [] ∧
      ∀ f t l s, f ∈ bs.map BusData.id → t ∈ bs.map BusData.id → s ∈ ts →
        net.createLine3 f t l (some s) = .ok { net with line := [⟨0, min f t, max f t, l, .std s⟩] } := by
  obtain ⟨net, h3⟩ := createBuses3_ok bs hn hs { stdTypes := ts } (by simp) (by simp) (by simp)
  obtain ⟨-, -, h2⟩ := createBuses3_inv h3
  have hb : net.bus = bs.map busRow := by rw [h2]; simp
  have hl : net.line = [] := by rw [h2]
  have ht : net.stdTypes = ts := by rw [h2]
  refine ⟨net, ?_, hl, ?_⟩
  · unfold netData3
    simp only [Option.getD_some, bind, Except.bind, h3, Option.getD_none]
    rfl
  · intro f t l s hf htt hss
    have hmin : min f t ∈ bs.map BusData.id := by
      rcases min_choice f t with h | h <;> rw [h] <;> assumption
    have hmax : max f t ∈ bs.map BusData.id := by
      rcases max_choice f t with h | h <;> rw [h] <;> assumption
    unfold createLine3
    have : (if f > t then (t, f) else (f, t)) = (min f t, max f t) := by
      split
      · rw [min_eq_right (by omega), max_eq_left (by omega)]
      · rw [min_eq_left (by omega), max_eq_right (by omega)]
    rw [this]
    simp only [busNamed_str hn hb, if_pos hmin, if_pos hmax, bind, Except.bind, ht, if_pos hss]
    simp [pure, Except.pure, addLine, nextLine, hl, ht]

/-! ### concrete networks meeting the hypotheses -/

/-- grid connection 1, load 2, bus 3 without power, load 5 with reactive power only -/
def demoBuses64 : List BusData :=
  [⟨1, 3, .sym 7 7, 20, 0, 0⟩, ⟨2, 1, .sym 1 2, 20, 0, 0⟩, ⟨3, 1, .sym 0 0, 20, 0, 0⟩, ⟨5, 1, .sym 0 3, 20, 0, 0⟩]

/-- a line given from the larger to the smaller bus, one out of service with an unknown end, one regular -/
def demoLines64 : List LineData :=
  [⟨2, 1, 2, 3, 4, 1, none⟩, ⟨9, 1, 0, 0, 0, 0, none⟩, ⟨2, 5, 1, 1, 1, 1, none⟩]

theorem demo_network : ∃ net ls', netData (some demoBuses64) (some demoLines64) = .ok (net, ls') ∧
    net.line = [⟨0, 1, 2, 2, .params (3 / 2) (4 / 2)⟩, ⟨1, 2, 5, 1, .params (1 / 1) (1 / 1)⟩] ∧
    net.givePassiveNodes = .ok (fun _ => [3]) := by
  obtain ⟨net, ls', h1, h2, -⟩ := C65_single demoBuses64 demoLines64 (by simp [demoBuses64])
    (by
      intro b hb
      simp only [demoBuses64, List.mem_cons, List.not_mem_nil, or_false] at hb
      rcases hb with rfl | rfl | rfl | rfl <;> exact ⟨_, _, rfl⟩)
    (by
      intro l hl hs
      simp only [demoLines64, List.mem_cons, List.not_mem_nil, or_false] at hl
      rcases hl with rfl | rfl | rfl
      · simp [demoBuses64]
      · simp at hs
      · simp [demoBuses64])
  refine ⟨net, ls', h1, ?_, ?_⟩
  · rw [h2]
    simp [Spec.lineTable, Spec.ohmic, demoLines64, List.filter]
  · rw [C64_single h1]
    congr 1
    funext ph
    simp [demoBuses64, Spec.Passive, Spec.demandOn, List.filter_cons]

/-- a bus loaded on the second phase only -/
def demoBuses64' : List BusData :=
  [⟨1, 3, .sym 0 0, 20, 0, 0⟩, ⟨2, 1, .asym (fun k => if k = 1 then 4 else 0) (fun _ => 0), 20, 0, 0⟩]

theorem demo_network3 : ∃ net, netData3 ["NAYY"] (some demoBuses64') (some [⟨2, 1, 3, 0, 0, 1, some "NAYY"⟩]) = .ok net ∧
    net.line = [⟨0, 1, 2, 3, .std "NAYY"⟩] ∧
    net.givePassiveNodes = .ok (fun ph => if ph = 1 then [] else [2]) := by
  obtain ⟨net, h1, h2, -⟩ := C65_three ["NAYY"] demoBuses64' [⟨2, 1, 3, 0, 0, 1, some "NAYY"⟩] (by simp [demoBuses64'])
    (by
      intro b hb ht
      simp only [demoBuses64', List.mem_cons, List.not_mem_nil, or_false] at hb
      rcases hb with rfl | rfl
      · exact ⟨_, _, rfl⟩
      · simp at ht)
    (by
      intro l hl hs
      simp only [List.mem_cons, List.not_mem_nil, or_false] at hl
      subst hl
      simp [demoBuses64'])
  refine ⟨net, h1, ?_, ?_⟩
  · rw [h2]
    simp [Spec.lineTable, Spec.standard, List.filter]
  · rw [C64_three h1]
    congr 1
    funext ph
    fin_cases ph <;> simp [demoBuses64', Spec.Passive, Spec.demandOn, List.filter_cons]

end
end Verif
