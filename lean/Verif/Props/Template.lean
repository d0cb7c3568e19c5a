/-
C133: the network that simulate_network.py simulates is the one of the template.
-/
import Verif.Props.Programs
import Verif.Props.PipelineDemo

namespace Verif
open Finset Net
noncomputable section

/-- what the tables of a network built from bus data hold -/
structure Spec.HasBuses (net : Net) (bs : List BusData) : Prop where
  nodup : (bs.map BusData.id).Nodup
  bus : net.bus.map (fun b => (b.index, b.kv)) = bs.map (fun b => (b.id, b.kv))
  grid : net.extGrid = (bs.filter (fun b => b.type = 3)).map BusData.id
  load : ∀ b ∈ bs, b.type = 1 → ∀ p q, b.demand = .sym p q → ⟨b.id, b.id, p, q, b.z, b.i⟩ ∈ net.load
  asym : ∀ b ∈ bs, b.type = 1 → ∀ p q, b.demand = .asym p q → ⟨b.id, b.id, p, q⟩ ∈ net.asym
  loads : net.load.length + net.asym.length = (bs.filter (fun b => b.type = 1 ∨ b.type = 3)).length

theorem hasBuses_of {net : Net} {bs : List BusData} (h1 : (bs.map BusData.id).Nodup) (h2 : net.bus = bs.map busRow)
    (h3 : net.load = bs.flatMap loadRows) (h4 : net.asym = bs.flatMap asymRows) (h5 : net.extGrid = bs.flatMap extRows) :
    Spec.HasBuses net bs where
  nodup := h1
  bus := by rw [h2, List.map_map]; rfl
  grid := by
    rw [h5]
    clear h1 h2 h3 h4 h5
    induction bs with
    | nil => rfl
    | cons b bs ih =>
      rw [List.flatMap_cons, ih, List.filter_cons]
      unfold extRows typePcc
      by_cases h : b.type = 3 <;> simp [h]
  load := by
    intro b hb ht p q hd
    rw [h3]
    refine List.mem_flatMap.2 ⟨b, hb, ?_⟩
    unfold loadRows typeLoad
    rw [if_pos ht, hd]
    exact List.mem_singleton.2 rfl
  asym := by
    intro b hb ht p q hd
    rw [h4]
    refine List.mem_flatMap.2 ⟨b, hb, ?_⟩
    unfold asymRows typeLoad
    rw [if_pos ht, hd]
    exact List.mem_singleton.2 rfl
  loads := by
    rw [h3, h4]
    clear h1 h2 h3 h4 h5
    induction bs with
    | nil => rfl
    | cons b bs ih =>
      rw [List.flatMap_cons, List.flatMap_cons, List.length_append, List.length_append, List.filter_cons]
      have hb : (loadRows b).length + (asymRows b).length = if b.type = 1 ∨ b.type = 3 then 1 else 0 := by
        unfold loadRows asymRows typeLoad typePcc
        by_cases h : b.type = 1
        · rw [if_pos h, if_pos h, if_pos (Or.inl h)]
          cases b.demand <;> rfl
        · rw [if_neg h, if_neg h]
          by_cases h' : b.type = 3
          · rw [if_pos h', if_pos (Or.inr h')]; rfl
          · rw [if_neg h', if_neg (by simp [h, h'])]; rfl
      by_cases h : b.type = 1 ∨ b.type = 3
      · rw [if_pos h] at hb
        rw [if_pos (by simpa using h), List.length_cons]
        omega
      · rw [if_neg h] at hb
        rw [if_neg (by simpa using h)]
        omega

/-- data from which a single-phase network can be built -/
structure Spec.Buildable (bs : List BusData) (ls : List LineData) : Prop where
  nodup : (bs.map BusData.id).Nodup
  sym : ∀ b ∈ bs, ∃ p q, b.demand = .sym p q
  ends : ∀ l ∈ ls, 0 < l.status → l.startBus ∈ bs.map BusData.id ∧ l.endBus ∈ bs.map BusData.id ∧ l.length ≠ 0

/-- C133, single phase: `make_net` succeeds exactly for templates with different bus numbers, powers without phases and lines in
service between known buses and of nonzero length -/
theorem C133_builds (w : SimWorld) (name : String) :
    (∃ r, makeNet w name = .ok r) ↔ ∃ bs ls, w.buses name = some bs ∧ w.lines name = some ls ∧ Spec.Buildable bs ls := by
  constructor
  · rintro ⟨⟨net, bs'⟩, h⟩
    unfold makeNet template at h
    obtain ⟨bs, h1, h⟩ := Prior.bind_ok h
    obtain ⟨ls, h2, h⟩ := Prior.bind_ok h
    obtain ⟨⟨net', ls'⟩, h3, h⟩ := Prior.bind_ok h
    have e1 : w.buses name = some bs := by
      cases hb : w.buses name with
      | none => rw [hb] at h1; cases h1
      | some b => rw [hb] at h1; rw [Except.ok.inj h1]
    have e2 : w.lines name = some ls := by
      cases hb : w.lines name with
      | none => rw [hb] at h2; cases h2
      | some b => rw [hb] at h2; rw [Except.ok.inj h2]
    refine ⟨bs, ls, e1, e2, (netData_tables h3).1, ?_, C65_rejected h3⟩
    unfold netData at h3
    obtain ⟨n, h4, _⟩ := Prior.bind_ok h3
    exact createBuses_sym h4
  · rintro ⟨bs, ls, h1, h2, h⟩
    obtain ⟨net, ls', h3, _⟩ := C65_single bs ls h.nodup h.sym h.ends
    refine ⟨(net, bs), ?_⟩
    unfold makeNet template
    rw [h1, h2]
    show (do let (net, _) ← netData (some bs) (some ls); pure (net, bs) : Except PyErr _) = _
    rw [h3]
    rfl

/-- C133, single phase: the network has the buses, loads and grid connections of the template and one line per entry in service,
with the entry's ends, length and impedance -/
theorem C133_single {w : SimWorld} {name : String} {net : Net} {bs : List BusData} (h : makeNet w name = .ok (net, bs)) :
    ∃ ls, w.buses name = some bs ∧ w.lines name = some ls ∧ Spec.Buildable bs ls ∧ Spec.HasBuses net bs ∧ net.asym = [] ∧
      net.line = Spec.lineTable Spec.ohmic ls 0 := by
  obtain ⟨bs', ls, h1, h2, hb⟩ := (C133_builds w name).1 ⟨_, h⟩
  obtain ⟨net', ls', h3, hl, _⟩ := C65_single bs' ls hb.nodup hb.sym hb.ends
  unfold makeNet template at h
  rw [h1, h2] at h
  have e : (netData (some bs') (some ls) >>= fun r => pure (r.1, bs') : Except PyErr _) = .ok (net, bs) := h
  rw [h3] at e
  cases e
  obtain ⟨t1, t2, t3, t4, t5⟩ := netData_tables h3
  refine ⟨ls, h1, h2, hb, hasBuses_of t1 t2 t3 t4 t5, ?_, hl⟩
  rw [t4]
  refine List.flatMap_eq_nil_iff.2 fun b hb' => ?_
  obtain ⟨p, q, hd⟩ := hb.sym b hb'
  unfold asymRows
  rw [hd]
  split <;> rfl

/-- the standard types known to the class are the only ones lines may have -/
structure Spec.Buildable3 (ts : List String) (bs : List BusData) (ls : List LineData) : Prop where
  nodup : (bs.map BusData.id).Nodup
  sym : ∀ b ∈ bs, b.type = 3 → ∃ p q, b.demand = .sym p q
  ends : ∀ l ∈ ls, 0 < l.status → l.startBus ∈ bs.map BusData.id ∧ l.endBus ∈ bs.map BusData.id ∧ ∃ s ∈ ts, l.typ = some s

theorem createBuses3_sym {bs : List BusData} {net net' : Net} (h : net.createBuses3 bs = .ok net') :
    ∀ b ∈ bs, b.type = 3 → ∃ p q, b.demand = .sym p q := by
  induction bs generalizing net with
  | nil => intro b hb; cases hb
  | cons b bs ih =>
    unfold createBuses3 at h
    rw [forIn'_cons] at h
    obtain ⟨n, h1, h2⟩ := Prior.bind_ok h
    intro c hc ht
    rcases List.mem_cons.1 hc with rfl | hc
    · unfold createBus3 typeLoad typePcc at h1
      obtain ⟨m, _, h1⟩ := Prior.bind_ok h1
      rw [if_neg (by rw [ht]; decide), if_pos ht] at h1
      cases hd : c.demand with
      | sym p q => exact ⟨p, q, rfl⟩
      | asym p q => rw [hd] at h1; cases h1
    · exact ih h2 c hc ht

theorem createLines3_ends {bs : List BusData} (hn : (bs.map BusData.id).Nodup) {ls : List LineData} {net net' : Net}
    (hb : net.bus = bs.map busRow) (h : net.createLines3 ls = .ok net') :
    ∀ l ∈ ls, 0 < l.status → l.startBus ∈ bs.map BusData.id ∧ l.endBus ∈ bs.map BusData.id ∧ ∃ s ∈ net.stdTypes, l.typ = some s := by
  induction ls generalizing net with
  | nil => intro l hl; cases hl
  | cons l ls ih =>
    unfold createLines3 at h
    rw [forIn'_cons] at h
    obtain ⟨n, h1, h2⟩ := Prior.bind_ok h
    have hrest : SameNodes n net := by
      split at h1
      · exact createLine3_same h1
      · cases h1; exact ⟨rfl, rfl, rfl, rfl, rfl⟩
    have ih' := ih (net := n) (by rw [hrest.1]; exact hb) h2
    intro c hc hs
    rcases List.mem_cons.1 hc with rfl | hc
    · rw [if_pos hs] at h1
      unfold createLine3 at h1
      have : (if c.startBus > c.endBus then (c.endBus, c.startBus) else (c.startBus, c.endBus)) =
          (min c.startBus c.endBus, max c.startBus c.endBus) := by
        split
        · rw [min_eq_right (by omega), max_eq_left (by omega)]
        · rw [min_eq_left (by omega), max_eq_right (by omega)]
      rw [this] at h1
      simp only [busNamed_str hn hb] at h1
      by_cases m1 : min c.startBus c.endBus ∈ bs.map BusData.id
      · by_cases m2 : max c.startBus c.endBus ∈ bs.map BusData.id
        · rw [if_pos m1, if_pos m2] at h1
          refine ⟨?_, ?_, ?_⟩
          · rcases le_total c.startBus c.endBus with h | h
            · rwa [min_eq_left h] at m1
            · rwa [max_eq_left h] at m2
          · rcases le_total c.startBus c.endBus with h | h
            · rwa [max_eq_right h] at m2
            · rwa [min_eq_right h] at m1
          · simp only [bind, Except.bind] at h1
            cases ht : c.typ with
            | none => rw [ht] at h1; cases h1
            | some s =>
              rw [ht] at h1
              by_cases hm : s ∈ net.stdTypes
              · exact ⟨s, hm, rfl⟩
              · dsimp only at h1; rw [if_neg hm] at h1; cases h1
        · rw [if_pos m1, if_neg m2] at h1; cases h1
      · rw [if_neg m1] at h1; cases h1
    · have := ih' c hc hs
      rw [hrest.2.2.2.2] at this
      exact this

/-- C133, three phases: when `make_net` succeeds -/
theorem C133_builds3 (w : SimWorld) (name : String) :
    (∃ r, makeNet3 w name = .ok r) ↔ ∃ bs ls, w.buses3 name = some bs ∧ w.lines3 name = some ls ∧ Spec.Buildable3 w.types3 bs ls := by
  constructor
  · rintro ⟨⟨net, bs'⟩, h⟩
    unfold makeNet3 template at h
    obtain ⟨bs, h1, h⟩ := Prior.bind_ok h
    obtain ⟨ls, h2, h⟩ := Prior.bind_ok h
    obtain ⟨net', h3, h⟩ := Prior.bind_ok h
    have e1 : w.buses3 name = some bs := by
      cases hb : w.buses3 name with
      | none => rw [hb] at h1; cases h1
      | some b => rw [hb] at h1; rw [Except.ok.inj h1]
    have e2 : w.lines3 name = some ls := by
      cases hb : w.lines3 name with
      | none => rw [hb] at h2; cases h2
      | some b => rw [hb] at h2; rw [Except.ok.inj h2]
    have hn := (netData3_tables h3).1
    unfold netData3 at h3
    obtain ⟨n, h4, h5⟩ := Prior.bind_ok h3
    obtain ⟨_, _, hn2⟩ := createBuses3_inv h4
    refine ⟨bs, ls, e1, e2, hn, createBuses3_sym h4, ?_⟩
    have := createLines3_ends hn (net := n) (by rw [hn2]; simp) h5
    rw [show n.stdTypes = w.types3 by rw [hn2]] at this
    exact this
  · rintro ⟨bs, ls, h1, h2, h⟩
    obtain ⟨net, h3, _⟩ := C65_three w.types3 bs ls h.nodup h.sym h.ends
    refine ⟨(net, bs), ?_⟩
    unfold makeNet3 template
    rw [h1, h2]
    show (do let net ← netData3 w.types3 (some bs) (some ls); pure (net, bs) : Except PyErr _) = _
    rw [h3]
    rfl

/-- C133, three phases: buses, symmetric and asymmetric loads, grid connections and lines of the template, each line of the type
that the template names -/
theorem C133_three {w : SimWorld} {name : String} {net : Net} {bs : List BusData} (h : makeNet3 w name = .ok (net, bs)) :
    ∃ ls, w.buses3 name = some bs ∧ w.lines3 name = some ls ∧ Spec.Buildable3 w.types3 bs ls ∧ Spec.HasBuses net bs ∧
      net.line = Spec.lineTable Spec.standard ls 0 := by
  obtain ⟨bs', ls, h1, h2, hb⟩ := (C133_builds3 w name).1 ⟨_, h⟩
  obtain ⟨net', h3, hl, _⟩ := C65_three w.types3 bs' ls hb.nodup hb.sym hb.ends
  unfold makeNet3 template at h
  rw [h1, h2] at h
  have e : (netData3 w.types3 (some bs') (some ls) >>= fun r => pure (r, bs') : Except PyErr _) = .ok (net, bs) := h
  rw [h3] at e
  cases e
  obtain ⟨t1, t2, t3, t4, t5⟩ := netData3_tables h3
  exact ⟨ls, h1, h2, hb, hasBuses_of t1 t2 t3 t4 t5, hl⟩

/-! ### the admittance matrix -/

/-- admittance in per unit of a line of the template; the code puts it on the nominal voltage of its first bus -/
def Spec.branch (sn : ℝ) (bs : List BusData) (l : LineData) : ℂ :=
  (Spec.kvLabel bs (min l.startBus l.endBus) : ℂ) ^ 2 / sn / ⟨l.R, l.X⟩

/-- `y` is the admittance matrix of the lines in service, without shunts: between two buses minus the sum of the admittances of the
lines that join them, and rows of sum zero -/
structure Spec.IsGridMatrix (sn : ℝ) (bs : List BusData) (ls : List LineData) (y : Arr2 ℂ) : Prop where
  square : Spec.IsSquare bs.length y
  off : ∀ i j (hi : i < bs.length) (hj : j < bs.length), i ≠ j → y.get i j = - ((ls.filter (fun l => 0 < l.status ∧
    ((l.startBus = bs[i].id ∧ l.endBus = bs[j].id) ∨ (l.startBus = bs[j].id ∧ l.endBus = bs[i].id)))).map (Spec.branch sn bs)).sum
  rows : ∀ i < bs.length, ∑ j ∈ range bs.length, y.get i j = 0

theorem lineTable_sum (kind : LineData → LineKind) (ls : List LineData) (k : Nat) (F : LineRow → ℂ) (G : LineData → ℂ)
    (h : ∀ l ∈ ls, 0 < l.status → ∀ k : Nat, F ⟨k, min l.startBus l.endBus, max l.startBus l.endBus, l.length, kind l⟩ = G l) :
    ((Spec.lineTable kind ls k).map F).sum = ((ls.filter (fun l => 0 < l.status)).map G).sum := by
  induction ls generalizing k with
  | nil => rfl
  | cons l ls ih =>
    have ih' := fun k => ih k (fun l' hl' => h l' (by simp [hl']))
    unfold Spec.lineTable at ih' ⊢
    by_cases hs : 0 < l.status
    · rw [List.filter_cons_of_pos (by simpa using hs), List.zipIdx_cons, List.map_cons, List.map_cons, List.sum_cons, ih',
        List.map_cons, List.sum_cons, h l (by simp) hs]
    · rw [List.filter_cons_of_neg (by simpa using hs), ih']

theorem filter_sum_neg (p q : LineData → Prop) [DecidablePred p] [DecidablePred q] (F G : LineData → ℂ) (L : List LineData)
    (h : ∀ l ∈ L, p l → F l = if q l then - G l else 0) :
    ((L.filter (fun l => p l)).map F).sum = - ((L.filter (fun l => p l ∧ q l)).map G).sum := by
  induction L with
  | nil => simp
  | cons l L ih =>
    have ih' := ih fun l' hl' => h l' (List.mem_cons_of_mem _ hl')
    by_cases hp : p l
    · have hl := h l (by simp) hp
      rw [List.filter_cons_of_pos (by simpa using hp), List.map_cons, List.sum_cons, ih', hl]
      by_cases hq : q l
      · rw [if_pos hq, List.filter_cons_of_pos (by simpa using ⟨hp, hq⟩), List.map_cons, List.sum_cons, neg_add]
      · rw [if_neg hq, List.filter_cons_of_neg (by simp [hq]), zero_add]
    · rw [List.filter_cons_of_neg (by simpa using hp), ih', List.filter_cons_of_neg (by simp [hp])]

theorem sum_list_comm (n : Nat) (f : Nat → LineData → ℂ) (L : List LineData) :
    ∑ j ∈ range n, (L.map (f j)).sum = (L.map (fun l => ∑ j ∈ range n, f j l)).sum := by
  induction L with
  | nil => simp
  | cons l L ih => simp only [List.map_cons, List.sum_cons, Finset.sum_add_distrib, ih]

/-- C133: the admittance matrix that the network gives is that of the lines of the template -/
theorem C133_ybus {w : SimWorld} {name : String} {net : Net} {bs : List BusData} (h : makeNet w name = .ok (net, bs)) (sn : ℝ) :
    ∃ ls, w.lines name = some ls ∧ Spec.IsGridMatrix sn bs ls (net.makeYBus sn) := by
  obtain ⟨ls, h1, h2, hb, _, _, hline⟩ := C133_single h
  have hbus : net.bus = bs.map busRow := by
    unfold makeNet template at h
    rw [h1, h2] at h
    have e : (netData (some bs) (some ls) >>= fun r => pure (r.1, bs) : Except PyErr _) = .ok (net, bs) := h
    obtain ⟨r, h3, e⟩ := Prior.bind_ok e
    cases e
    exact (netData_tables h3).2.1
  have hn : net.bus.length = bs.length := by rw [hbus, List.length_map]
  refine ⟨ls, h2, ?_⟩
  -- positions of the ends of a line
  have hpos : ∀ b ∈ bs.map BusData.id, ∃ (i : Nat) (hi : i < bs.length), bs[i].id = b ∧ net.posOf b = i := by
    intro b hm
    obtain ⟨c, hc, rfl⟩ := List.mem_map.1 hm
    obtain ⟨i, hi, rfl⟩ := List.getElem_of_mem hc
    exact ⟨i, hi, rfl, posOf_eq hb.nodup hbus hi⟩
  have hadm : ∀ l ∈ ls, 0 < l.status → ∀ k : Nat,
      net.lineAdmittance sn ⟨k, min l.startBus l.endBus, max l.startBus l.endBus, l.length, Spec.ohmic l⟩ = Spec.branch sn bs l := by
    intro l hl hs k
    obtain ⟨e1, e2, e3⟩ := hb.ends l hl hs
    have hmin : min l.startBus l.endBus ∈ bs.map BusData.id := by
      rcases min_choice l.startBus l.endBus with h | h <;> rw [h] <;> assumption
    have hkv := vnKv_eq hbus hmin
    unfold vnKv at hkv
    unfold lineAdmittance Spec.branch Spec.ohmic
    dsimp only
    cases hf : net.bus.find? (fun b => b.index = min l.startBus l.endBus) with
    | none => rw [hf] at hkv; cases hkv
    | some b =>
      rw [hf] at hkv
      have hkv : b.kv = _ := Except.ok.inj hkv
      dsimp only
      rw [hkv]
      congr 1
      have e3' : (l.length : ℂ) ≠ 0 := by exact_mod_cast e3
      apply Complex.ext
      · simp [e3]
      · simp [e3]
  have hsum : ∀ i j, i < bs.length → j < bs.length → (net.makeYBus sn).get i j =
      ((ls.filter (fun l => 0 < l.status)).map (fun l =>
        (if i = net.posOf l.startBus ∧ j = net.posOf l.startBus then Spec.branch sn bs l else 0) +
        (if i = net.posOf l.endBus ∧ j = net.posOf l.endBus then Spec.branch sn bs l else 0) -
        (if i = net.posOf l.startBus ∧ j = net.posOf l.endBus then Spec.branch sn bs l else 0) -
        (if i = net.posOf l.endBus ∧ j = net.posOf l.startBus then Spec.branch sn bs l else 0))).sum := by
    intro i j hi hj
    unfold makeYBus
    rw [Arr2.ofFn_get _ (by omega) (by omega), hline]
    refine lineTable_sum Spec.ohmic ls 0 _ _ fun l hl hs k => ?_
    dsimp only
    rw [hadm l hl hs k]
    rcases le_total l.startBus l.endBus with h | h
    · rw [min_eq_left h, max_eq_right h]
    · rw [min_eq_right h, max_eq_left h]
      ring
  have hmem : ∀ l ∈ ls.filter (fun l => 0 < l.status), l ∈ ls ∧ 0 < l.status := by
    intro l hl
    simpa using hl
  refine ⟨⟨hn, hn⟩, ?_, ?_⟩
  · intro i j hi hj hij
    rw [hsum i j hi hj]
    refine filter_sum_neg _ _ _ _ ls fun l hl hs => ?_
    obtain ⟨e1, e2, e3⟩ := hb.ends l hl hs
    obtain ⟨a, ha, a1, a2⟩ := hpos _ e1
    obtain ⟨b, hb', b1, b2⟩ := hpos _ e2
    have hid : ∀ (p q : Nat) (hp : p < bs.length) (hq : q < bs.length), bs[p].id = bs[q].id ↔ p = q := by
      intro p q hp hq
      refine ⟨fun he => ?_, fun he => by subst he; rfl⟩
      exact (List.Nodup.getElem_inj_iff hb.nodup (i := p) (hi := by simpa using hp) (j := q) (hj := by simpa using hq)).1
        (by simpa using he)
    simp only [a2, b2]
    simp only [← a1, ← b1, hid]
    rw [if_neg (show ¬(i = a ∧ j = a) by omega), if_neg (show ¬(i = b ∧ j = b) by omega)]
    by_cases c1 : i = a ∧ j = b
    · rw [if_pos c1, if_neg (show ¬(i = b ∧ j = a) by omega), if_pos (by omega)]
      ring
    · rw [if_neg c1]
      by_cases c2 : i = b ∧ j = a
      · rw [if_pos c2, if_pos (by omega)]
        ring
      · rw [if_neg c2, if_neg (by omega)]
        ring
  · intro i hi
    rw [Finset.sum_congr rfl (fun j hj => hsum i j hi (Finset.mem_range.1 hj)), sum_list_comm]
    refine List.sum_eq_zero fun x hx => ?_
    obtain ⟨l, hl, rfl⟩ := List.mem_map.1 hx
    obtain ⟨hl, hs⟩ := hmem l hl
    obtain ⟨e1, e2, e3⟩ := hb.ends l hl hs
    obtain ⟨a, ha, a1, a2⟩ := hpos _ e1
    obtain ⟨b, hb', b1, b2⟩ := hpos _ e2
    rw [a2, b2]
    have key : ∀ (p q : Nat), q < bs.length → ∑ j ∈ range bs.length, (if i = p ∧ j = q then Spec.branch sn bs l else 0) =
        if i = p then Spec.branch sn bs l else 0 := by
      intro p q hq
      by_cases hp : i = p
      · simp only [hp, true_and, if_true]
        rw [Finset.sum_ite_eq', if_pos (Finset.mem_range.2 hq)]
      · simp only [hp, false_and, if_false, Finset.sum_const_zero]
    rw [Finset.sum_sub_distrib, Finset.sum_sub_distrib, Finset.sum_add_distrib, key _ _ ha, key _ _ hb', key _ _ hb', key _ _ ha]
    ring

/-- C133, stored result: if pandapower gives the admittance matrix of its line table, the matrix that a simulation stores is that of
the lines of the template -/
theorem C133_stored {w : SimWorld} {cf : SimConf} {a : SimArgs} {st : Store} {d : NetworkData} (hn : Spec.PlainName a.network)
    (h3 : a.threePhased = false) {sn : ℝ} (hy : ∀ net, w.yBus net = .ok (net.makeYBus sn))
    (h : (simulate w cf a st).res = .ok d) (hr : Spec.Redone a.networkSim [a.loads, a.networkSim, a.noise]) :
    ∃ bs ls f y, w.buses a.network = some bs ∧ w.lines a.network = some ls ∧
      (simulate w cf a st).store (resultFile .simulation a.network) = some f ∧ f.mat "y" = .ok y ∧ Spec.IsGridMatrix sn bs ls y := by
  obtain ⟨net, bs, l, s, n, hnet, -, -, hsim, -⟩ := C78_simulate hn h3 h
  obtain ⟨hs, hst⟩ := hsim hr
  obtain ⟨ls, h1, _⟩ := C133_single hnet
  obtain ⟨ls', h2, hg⟩ := C133_ybus hnet sn
  refine ⟨bs, ls', _, net.makeYBus sn, h1, h2, hst, ?_, hg⟩
  unfold simCompute at hs
  obtain ⟨y, e1, hs⟩ := Prior.bind_ok hs
  rw [hy] at e1
  cases e1
  obtain ⟨r, e2, hs⟩ := Prior.bind_ok hs
  obtain ⟨o, e3, hs⟩ := Prior.bind_ok hs
  cases o with
  | none => cases hs
  | some o => cases hs; rfl

/-! ### C134: networks recreated from an admittance matrix -/

theorem gridMatrix_symm {sn : ℝ} {bs : List BusData} {ls : List LineData} {y : Arr2 ℂ} (h : Spec.IsGridMatrix sn bs ls y) (i j : Nat) :
    y.get i j = y.get j i := by
  obtain ⟨⟨h1, h2⟩, h3, -⟩ := h
  by_cases hij : i = j
  · rw [hij]
  by_cases hi : i < bs.length
  · by_cases hj : j < bs.length
    · rw [h3 i j hi hj hij, h3 j i hj hi (Ne.symm hij)]
      congr 3
      refine List.filter_congr fun l _ => ?_
      simp only [or_comm]
    · rw [y.oob i j (by omega), y.oob j i (by omega)]
  · rw [y.oob i j (by omega), y.oob j i (by omega)]

/-- C134: `make_net` without an admittance matrix is `make_net` of the scripts -/
theorem C134_none (sn : ℝ) (w : SimWorld) (name : String) (net : Net) (bs : List BusData) :
    makeNet w name = .ok (net, bs) ↔ ∃ ls, makeNetFrom sn w name none = .ok (net, bs, ls) := by
  unfold makeNet makeNetFrom
  constructor
  · intro h
    obtain ⟨bs', h1, h⟩ := Prior.bind_ok h
    obtain ⟨ls, h2, h⟩ := Prior.bind_ok h
    obtain ⟨⟨n, ls'⟩, h3, h⟩ := Prior.bind_ok h
    cases h
    refine ⟨ls', ?_⟩
    rw [h1]
    show (template w.lines name >>= _) = _
    rw [h2]
    show (netData (some bs) (some ls) >>= _) = _
    rw [h3]
    rfl
  · rintro ⟨ls', h⟩
    obtain ⟨bs', h1, h⟩ := Prior.bind_ok h
    obtain ⟨ls, h2, h⟩ := Prior.bind_ok h
    obtain ⟨⟨n, ls''⟩, h3, h⟩ := Prior.bind_ok h
    cases h
    rw [h1]
    show (template w.lines name >>= _) = _
    rw [h2]
    show (netData (some bs) (some ls) >>= _) = _
    rw [h3]
    rfl

/-- C134: for buses numbered from one with one nominal voltage, a network recreated from the admittance matrix of the template has
this admittance matrix and the buses of the template -/
theorem C134_roundtrip {w : SimWorld} {name : String} {net : Net} {bs : List BusData} (h : makeNet w name = .ok (net, bs)) {sn : ℝ}
    (hsn : sn ≠ 0) (hids : bs.map BusData.id = (List.range bs.length).map (fun k : Nat => (k : Int) + 1)) {kv : ℝ} (hkv : kv ≠ 0)
    (hu : ∀ b ∈ bs, b.kv = kv) :
    ∃ net' ls, makeNetFrom sn w name (some (net.makeYBus sn)) = .ok (net', bs, ls) ∧ net'.makeYBus sn = net.makeYBus sn := by
  obtain ⟨ls, h1, h2, hb, -⟩ := C133_single h
  obtain ⟨ls', h3, hg⟩ := C133_ybus h sn
  obtain ⟨net0, ls0, h0, -⟩ := C65_single bs [] hb.nodup hb.sym (fun l hl => nomatch hl)
  obtain ⟨net', h4, h5⟩ := C66_templates_partial h0 hids hkv hu hsn (y := net.makeYBus sn) hg.square (gridMatrix_symm hg) hg.rows
  refine ⟨net', ls0, ?_, h5⟩
  unfold makeNetFrom template
  rw [h1]
  show (netData (some bs) (some []) >>= _) = _
  rw [h0]
  show (net0.createLinesFromYbus sn (net.makeYBus sn) >>= _) = _
  rw [h4]
  rfl

/-- C134: three-phase networks cannot be recreated -/
theorem C134_three (w : SimWorld) (name : String) (y : Arr2 ℂ) (net : Net) (bs : List BusData) (hnet : makeNet3 w name = .ok (net, bs)) :
    makeNetFrom3 w name (some y) = .error .notImplementedError := by
  obtain ⟨ls, h1, h2, hb, -⟩ := C133_three hnet
  obtain ⟨r, hr⟩ := (C133_builds3 { w with lines3 := fun _ => some [] } name).2 ⟨bs, [], h1, rfl, hb.nodup, hb.sym, fun l hl => nomatch hl⟩
  obtain ⟨bs', e1, hr⟩ := Prior.bind_ok hr
  obtain ⟨ls', e2, hr⟩ := Prior.bind_ok hr
  obtain ⟨n, e3, hr⟩ := Prior.bind_ok hr
  unfold makeNetFrom3
  rw [e1]
  cases e2
  show (netData3 w.types3 (some bs') (some []) >>= _) = _
  rw [e3]
  rfl

/-! ### a concrete template -/

/-- the two nodes of `demoBuses115`, joined by a line given from the larger to the smaller number; and a line out of service -/
def demoLines133 : List LineData := [⟨2, 1, 1, 1, 0, 1, none⟩, ⟨1, 2, 5, 1, 1, 0, none⟩]

def demoWorld133 : SimWorld :=
  { demoWorld115 with lines := fun _ => some demoLines133, yBus := fun net => .ok (net.makeYBus 400) }

theorem demo133_buildable : Spec.Buildable demoBuses115 demoLines133 := by
  refine ⟨by decide, ?_, ?_⟩
  · intro b hb
    simp only [demoBuses115, List.mem_cons, List.not_mem_nil, or_false] at hb
    rcases hb with rfl | rfl <;> exact ⟨_, _, rfl⟩
  · intro l hl hs
    simp only [demoLines133, List.mem_cons, List.not_mem_nil, or_false] at hl
    rcases hl with rfl | rfl
    · simp [demoBuses115]
    · simp at hs

theorem demo133_net : ∃ net, makeNet demoWorld133 "ieee_33" = .ok (net, demoBuses115) := by
  obtain ⟨⟨net, bs⟩, h⟩ := (C133_builds demoWorld133 "ieee_33").2 ⟨_, _, rfl, rfl, demo133_buildable⟩
  obtain ⟨ls, h1, -⟩ := C133_single h
  cases h1
  exact ⟨net, h⟩

theorem demo133_grid {y : Arr2 ℂ} (h : Spec.IsGridMatrix 400 demoBuses115 demoLines133 y) : y = demoY115 := by
  obtain ⟨⟨h1, h2⟩, h3, h4⟩ := h
  have hb : Spec.branch 400 demoBuses115 ⟨2, 1, 1, 1, 0, 1, none⟩ = 1 := by
    have h1 : (⟨1, 0⟩ : ℂ) = 1 := rfl
    unfold Spec.branch
    have h2 : Spec.kvLabel demoBuses115 (min 2 1) = 20 := by
      simp [Spec.kvLabel, demoBuses115]
    dsimp only
    rw [h2, h1]
    norm_num
  have e01 : y.get 0 1 = -1 := by
    rw [h3 0 1 (by decide) (by decide) (by decide)]
    simp [demoLines133, demoBuses115, List.filter_cons] 
    simpa [demoBuses115] using hb
  have e10 : y.get 1 0 = -1 := by
    rw [h3 1 0 (by decide) (by decide) (by decide)]
    simp [demoLines133, demoBuses115, List.filter_cons] 
    simpa [demoBuses115] using hb
  have r0 : y.get 0 0 + y.get 0 1 = 0 := by
    simpa [demoBuses115, Finset.sum_range_succ] using h4 0 (by decide)
  have r1 : y.get 1 0 + y.get 1 1 = 0 := by
    simpa [demoBuses115, Finset.sum_range_succ] using h4 1 (by decide)
  refine Arr2.ext' h1 h2 fun i j hi hj => ?_
  have hi : i < 2 := by rw [h1] at hi; exact hi
  have hj : j < 2 := by rw [h2] at hj; exact hj
  unfold demoY115
  rw [Arr2.ofFn_get _ hi hj]
  interval_cases i <;> interval_cases j
  · rw [if_pos rfl]; linear_combination r0 - e01
  · rw [if_neg (by decide)]; exact e01
  · rw [if_neg (by decide)]; exact e10
  · rw [if_pos rfl]; linear_combination r1 - e10

/-- the hypotheses of C133, and what it states: the stored matrix is that of the one line in service -/
theorem demo_C133 (st : Store) : ∃ d f, (simulate demoWorld133 demoConf115 demoArgs115 st).res = .ok d ∧
    (simulate demoWorld133 demoConf115 demoArgs115 st).store (resultFile .simulation "ieee_33") = some f ∧
    f.mat "y" = .ok demoY115 := by
  obtain ⟨net, hm⟩ := demo133_net
  have hy : demoWorld133.yBus net = .ok demoY115 := by
    obtain ⟨ls, h1, h2⟩ := C133_ybus hm 400
    cases h1
    rw [← demo133_grid h2]
    rfl
  obtain ⟨d, hd⟩ : ∃ d, (simulate demoWorld133 demoConf115 demoArgs115 st).res = .ok d := by
    refine C116 st rfl rfl ⟨rfl, rfl⟩ (by simp [demoArgs115]) rfl exactPinv_contract ⟨le_rfl, le_rfl, le_rfl, le_rfl⟩ (by simp [demoConf115])
      (by simp [demoConf115]) (by simp [demoConf115]) (by simp [demoConf115]) (by
        show 1439 ≤ Spec.rawCount (minuteTimes 1) (1 / 60)
        rw [demo115_count]) hm (by simp [demoBuses115]) ?_ hy (demo115_runs net) (fun c res => demo115_flow net c res) demo115_reducible
    intro b hb
    simp only [demoBuses115, List.mem_cons, List.not_mem_nil, or_false] at hb
    rcases hb with rfl | rfl
    · exact ⟨Or.inl rfl, fun p q hpq => by cases hpq; norm_num⟩
    · exact ⟨Or.inr rfl, fun p q hpq => by cases hpq; norm_num⟩
  obtain ⟨bs, ls, f, y, h1, h2, h3, h4, h5⟩ := C133_stored (templates_plain "ieee_33" (by decide)) rfl (sn := 400) (fun _ => rfl) hd
    (Or.inr (by decide))
  cases h1
  cases h2
  exact ⟨d, f, hd, h3, by rw [h4, demo133_grid h5]⟩

/-- the hypotheses of C134 -/
theorem demo_C134 : ∃ net net' ls, makeNet demoWorld133 "ieee_33" = .ok (net, demoBuses115) ∧
    makeNetFrom 400 demoWorld133 "ieee_33" (some demoY115) = .ok (net', demoBuses115, ls) ∧ net'.makeYBus 400 = demoY115 := by
  obtain ⟨net, hm⟩ := demo133_net
  obtain ⟨ls', h1, h2⟩ := C133_ybus hm 400
  cases h1
  obtain ⟨net', ls, h3, h4⟩ := C134_roundtrip hm (sn := 400) (by norm_num) (by decide) (kv := 20) (by norm_num) (by
    intro b hb
    simp only [demoBuses115, List.mem_cons, List.not_mem_nil, or_false] at hb
    rcases hb with rfl | rfl <;> rfl)
  rw [demo133_grid h2] at h3 h4
  exact ⟨net, net', ls, hm, h3, h4⟩

/-- a three-phase template of the two buses and no lines -/
theorem demo_C134_three : makeNetFrom3 { demoWorld133 with buses3 := fun _ => some demoBuses115, lines3 := fun _ => some [] } "x" (some demoY115) =
    .error .notImplementedError := by
  obtain ⟨⟨net, bs⟩, h⟩ := (C133_builds3 { demoWorld133 with buses3 := fun _ => some demoBuses115, lines3 := fun _ => some [] } "x").2
    ⟨demoBuses115, [], rfl, rfl, by decide, fun b hb _ => demo133_buildable.sym b hb, fun l hl => nomatch hl⟩
  exact C134_three _ _ _ _ _ h

end
end Verif
