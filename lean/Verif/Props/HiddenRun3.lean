/-
Three-phase simulations with hidden nodes: when they complete and which phases are stored (C172).
-/
import Verif.Props.HiddenRun
import Verif.Props.CliRuns

namespace Verif
open Finset Net
noncomputable section

namespace Spec

/-- column `i` of the arrays of a three-phase network, phase `i % 3` of node `i / 3`, is left out of the stored data: the node is hidden,
a grid connection, or without load; in phase values only the phases without load are left out -/
def LeftOut (bs : List BusData) (hidden : List Int) (sequence : Bool) (i : ℕ) : Prop :=
  i / 3 ∈ labelled bs hidden ∨ i / 3 ∈ connections bs ∨ (if sequence then ∀ ph, i / 3 ∈ passive bs ph else i / 3 ∈ passive bs (phaseOf i))

open Classical in
/-- the stored columns, of `n`, in order -/
def storedPhases (bs : List BusData) (hidden : List Int) (sequence : Bool) (n : ℕ) : List ℕ :=
  (List.range n).filter (fun i => ¬LeftOut bs hidden sequence i)

/-- the array with the stored columns -/
def storedPhaseColumns (bs : List BusData) (hidden : List Int) (sequence : Bool) (a : Arr2 ℂ) : Arr2 ℂ :=
  columnsAt a (storedPhases bs hidden sequence a.c).length (fun j => (storedPhases bs hidden sequence a.c).getD j 0)

/-- values of the phases, or their conversion to sequences -/
def InCoordinates (sequence : Bool) (phases m : Arr2 ℂ) : Prop :=
  if sequence then measurementPhaseToSequence phases = .ok m else m = phases

/-- the angle of each phase without load, in degrees -/
def nominalAngle : Fin 3 → ℝ := ![0, -120, 120]

/-- a power flow with voltages of all nodes and phases -/
def FlowSize3 (n : ℕ) (res : SimResult3) : Prop :=
  ∃ T, ∀ p, ((res.vm p).r = T ∧ (res.vm p).c = n) ∧ (res.va p).r = T ∧ (res.va p).c = n

/-- all magnitudes are positive and all angles differ from that of their phase by less than a right angle -/
def Upright3 (res : SimResult3) : Prop :=
  ∀ p, ∀ t < (res.vm p).r, ∀ k < (res.vm p).c, 0 < (res.vm p).get t k ∧ |(res.va p).get t k - nominalAngle p| < 90

end Spec

/-! ### what is deleted -/

theorem deleteGrids_idx {net : Net} : ∀ {l : List Int} {st r : List ℕ × Arr2 ℂ} (acc : List ℕ),
    forIn' l st (fun st b => do
      let k ← net.busPos b
      let idx := [3 * k, 3 * k + 1, 3 * k + 2]
      let y ← st.2.deleteBoth idx
      pure (st.1 ++ idx, y)) = .ok r →
    ∃ C, forIn' l acc (fun acc b => do
        let k ← net.busPos b
        pure (acc ++ [k])) = .ok (acc ++ C) ∧ r.1 = st.1 ++ C.flatMap (fun k => [3 * k, 3 * k + 1, 3 * k + 2]) := by
  intro l
  induction l with
  | nil =>
    intro st r acc h
    cases h
    exact ⟨[], by simp [forIn', pure, Except.pure], by simp⟩
  | cons b l ih =>
    intro st r acc h
    rw [forIn'_cons] at h
    obtain ⟨st', h1, h⟩ := Prior.bind_ok h
    obtain ⟨k, hk, h1⟩ := Prior.bind_ok h1
    obtain ⟨y, -, h1⟩ := Prior.bind_ok h1
    cases h1
    obtain ⟨C, hC, hr⟩ := ih (acc ++ [k]) h
    refine ⟨k :: C, ?_, ?_⟩
    · rw [forIn'_cons]
      simp only [hk, bind, Except.bind, pure, Except.pure] at hC ⊢
      rw [hC]
      simp
    · rw [hr]
      simp

theorem mem_triples (C : List ℕ) (i : ℕ) : i ∈ C.flatMap (fun k => [3 * k, 3 * k + 1, 3 * k + 2]) ↔ i / 3 ∈ C := by
  rw [List.mem_flatMap]
  constructor
  · rintro ⟨k, hk, hi⟩
    have : i / 3 = k := by simp at hi; omega
    rw [this]; exact hk
  · intro h
    refine ⟨i / 3, h, ?_⟩
    simp
    omega

open Classical in
/-- positions to reduce on each phase -/
theorem reducedPassive_mem {bs : List BusData} {net : Net} (hn : (bs.map BusData.id).Nodup) (hb : net.bus = bs.map busRow) (rs : Bool)
    (ph : Fin 3) : ∃ P, net.positions (reducedPassive (fun ph => (bs.filter (fun b => Spec.Passive b ph)).map BusData.id) rs ph) = .ok P ∧
      ∀ k, k ∈ P ↔ if rs then k ∈ Spec.passive bs ph else ∀ ph, k ∈ Spec.passive bs ph := by
  cases rs with
  | true =>
    obtain ⟨P, hP, -, hPm⟩ := positions_eq hn hb ((bs.filter (fun b => Spec.Passive b ph)).map BusData.id) (by
      intro b hb
      obtain ⟨c, hc, rfl⟩ := List.mem_map.1 hb
      exact List.mem_map_of_mem (List.mem_filter.1 hc).1)
    exact ⟨P, hP, fun k => by rw [hPm, labelled_passive hn]; simp⟩
  | false =>
    obtain ⟨P, hP, hPm⟩ := reducedPassive_same hn hb (rs := false) (by simp)
    refine ⟨P, hP ph, fun k => ?_⟩
    rw [hPm, Finset.mem_inter, Finset.mem_inter]
    simp only [Bool.false_eq_true, if_false]
    constructor
    · rintro ⟨h0, h1, h2⟩ p
      fin_cases p
      · exact h0
      · exact h1
      · exact h2
    · exact fun h => ⟨h 0, h 1, h 2⟩

/-- the columns deleted by a successful reduction -/
theorem reduce3_deleted {ts : List String} {bs : List BusData} {ls : Option (List LineData)} {net : Net}
    (h : netData3 ts (some bs) ls = .ok net) {pinv : Arr2 ℂ → Except PyErr (Arr2 ℂ)} {y voltage current red : Arr2 ℂ}
    {hidden : List Int} {seq : Bool} {todel : List ℕ} (hr : reduceNetwork3 pinv net y voltage current hidden (!seq) = .ok (todel, red)) :
    ∀ i, i ∈ todel ↔ Spec.LeftOut bs hidden seq i := by
  obtain ⟨hn, hb, -, -, hext⟩ := netData3_tables h
  unfold reduceNetwork3 at hr
  rw [C64_three h] at hr
  obtain ⟨⟨grids, y'⟩, hg, hr⟩ := Prior.bind_ok hr
  obtain ⟨C, hC, hgC⟩ := deleteGrids_idx [] hg
  obtain ⟨C', hC', -, hCm⟩ := positions_ext hn hb hext
  unfold Net.positions at hC'
  rw [hC] at hC'
  cases hC'
  obtain ⟨ps, hps, hr⟩ := Prior.bind_ok hr
  cases hps
  obtain ⟨Q0, hQ0, m0⟩ := reducedPassive_mem hn hb (!seq) 0
  obtain ⟨Q1, hQ1, m1⟩ := reducedPassive_mem hn hb (!seq) 1
  obtain ⟨Q2, hQ2, m2⟩ := reducedPassive_mem hn hb (!seq) 2
  obtain ⟨p0, h0, hr⟩ := Prior.bind_ok hr
  obtain ⟨p1, h1, hr⟩ := Prior.bind_ok hr
  obtain ⟨p2, h2, hr⟩ := Prior.bind_ok hr
  have e0 : p0 = Q0 := Except.ok.inj (h0.symm.trans hQ0)
  have e1 : p1 = Q1 := Except.ok.inj (h1.symm.trans hQ1)
  have e2 : p2 = Q2 := Except.ok.inj (h2.symm.trans hQ2)
  subst e0 e1 e2
  obtain ⟨H, hH, hr⟩ := Prior.bind_ok hr
  have hid : ∀ b ∈ hidden, b ∈ bs.map BusData.id := by
    intro b hb'
    have := positions_known hH b hb'
    rw [hb] at this
    simpa [busRow] using this
  obtain ⟨H', hH', -, hHm⟩ := positions_eq hn hb hidden hid
  rw [hH] at hH'
  cases hH'
  obtain ⟨ya, -, hr⟩ := Prior.bind_ok hr
  obtain ⟨yb, -, hr⟩ := Prior.bind_ok hr
  obtain ⟨r0, -, hr⟩ := Prior.bind_ok hr
  obtain ⟨r1, -, hr⟩ := Prior.bind_ok hr
  obtain ⟨r2, -, hr⟩ := Prior.bind_ok hr
  obtain ⟨yc, -, hr⟩ := Prior.bind_ok hr
  obtain ⟨yd, -, hr⟩ := Prior.bind_ok hr
  cases hr
  intro i
  have hgm : i ∈ grids ↔ i / 3 ∈ Spec.connections bs := by
    dsimp only at hgC
    rw [hgC, List.nil_append, mem_triples, ← hCm, List.nil_append]
  have hPH : ∀ (Q : List ℕ) (ph : Fin 3), (∀ k, k ∈ Q ↔ if (!seq) = true then k ∈ Spec.passive bs ph else ∀ ph, k ∈ Spec.passive bs ph) →
      ∀ k, k ∈ Q ++ H ↔ k ∈ Spec.labelled bs hidden ∨ (if seq then ∀ ph, k ∈ Spec.passive bs ph else k ∈ Spec.passive bs ph) := by
    intro Q ph hQ k
    rw [List.mem_append, hQ, hHm]
    cases seq <;> simp <;> tauto
  have hmem : ∀ (Q : List ℕ) (r : ℕ), r < 3 → (i ∈ (Q ++ H).map (fun k => 3 * k + r) ↔ i % 3 = r ∧ i / 3 ∈ Q ++ H) := by
    intro Q r hr3
    rw [List.mem_map]
    constructor
    · rintro ⟨k, hk, rfl⟩
      exact ⟨by omega, by rw [show (3 * k + r) / 3 = k by omega]; exact hk⟩
    · rintro ⟨h1, h2⟩
      exact ⟨i / 3, h2, by omega⟩
  rw [List.mem_append, List.mem_append, List.mem_append, hgm]
  have a0 := hmem p0 0 (by norm_num)
  simp only [add_zero] at a0
  rw [a0, hmem p1 1 (by norm_num), hmem p2 2 (by norm_num), hPH p0 0 m0, hPH p1 1 m1, hPH p2 2 m2]
  unfold Spec.LeftOut
  have hph : ∀ r : Fin 3, i % 3 = r → Spec.phaseOf i = r := fun r hr => Fin.ext hr
  rcases (show i % 3 = 0 ∨ i % 3 = 1 ∨ i % 3 = 2 by omega) with e | e | e
  · rw [hph 0 e]; simp only [e]; norm_num; tauto
  · rw [hph 1 e]; simp only [e]; norm_num; tauto
  · rw [hph 2 e]; simp only [e]; norm_num; tauto

theorem makeNet3_data {w : SimWorld} {name : String} {net : Net} {bs : List BusData} (h : makeNet3 w name = .ok (net, bs)) :
    w.buses3 name = some bs ∧ ∃ ls, netData3 w.types3 (some bs) ls = .ok net := by
  obtain ⟨ls, e1, -⟩ := C133_three h
  unfold makeNet3 at h
  obtain ⟨b, hb, h⟩ := Prior.bind_ok h
  obtain ⟨l, -, h⟩ := Prior.bind_ok h
  obtain ⟨net', hnd, h⟩ := Prior.bind_ok h
  cases h
  exact ⟨e1, _, hnd⟩

open Classical in
theorem keep_stored {bs : List BusData} {hidden : List Int} {seq : Bool} {todel : List ℕ}
    (h : ∀ k, k ∈ todel ↔ Spec.LeftOut bs hidden seq k) (n : ℕ) : Arr2.keepIdx n todel = Spec.storedPhases bs hidden seq n := by
  unfold Arr2.keepIdx Spec.storedPhases
  refine List.filter_congr fun k _ => ?_
  simp only [h]

theorem deleteCols_stored3 {bs : List BusData} {hidden : List Int} {seq : Bool} {todel : List ℕ}
    (h : ∀ k, k ∈ todel ↔ Spec.LeftOut bs hidden seq k) {m m' : Arr2 ℂ} (hm : m.deleteCols todel = .ok m') :
    m' = Spec.storedPhaseColumns bs hidden seq m := by
  unfold Arr2.deleteCols at hm
  split at hm
  · rw [keep_stored h] at hm
    exact (Except.ok.inj hm).symm
  · cases hm

theorem hiddenNodes_three {cf : SimConf} {a : SimArgs} (h3 : a.threePhased = true) (bs : List BusData) : hiddenNodes cf a bs = cf.hidden := by
  unfold hiddenNodes
  rw [h3]
  simp

/-- C172: a successful run for a three-phase network stores, of the filtered arrays in its file, the columns of the nodes that are
neither hidden nor a grid connection and have a load (in phase values: of their phases with a load), in order, converted to sequences
if asked, with the number of the phase or sequence of each column -/
theorem C172_stored {w : SimWorld} {cf : SimConf} {a : SimArgs} {st : Store} {d : NetworkData} (hn : Spec.PlainName a.network)
    (h3 : a.threePhased = true) (h : (simulate w cf a st).res = .ok d) :
    ∃ bs nv ni v i, w.buses3 a.network = some bs ∧ filteredLoad (simulate w cf a st).store a.network = .ok (nv, ni, v, i) ∧
      Spec.InCoordinates a.sequence (Spec.storedPhaseColumns bs cf.hidden a.sequence nv) d.noisyVoltage ∧
      Spec.InCoordinates a.sequence (Spec.storedPhaseColumns bs cf.hidden a.sequence ni) d.noisyCurrent ∧
      Spec.InCoordinates a.sequence (Spec.storedPhaseColumns bs cf.hidden a.sequence v) d.voltage ∧
      Spec.InCoordinates a.sequence (Spec.storedPhaseColumns bs cf.hidden a.sequence i) d.current ∧
      d.ids = (Spec.storedPhases bs cf.hidden a.sequence (bs.length * 3)).map
        (fun k => ((k % 3 : ℕ) : Int) + if a.sequence then 0 else 1) := by
  obtain ⟨net, bs, l, s, n, hnet, -, -, -, -, hno, hno', hd, -⟩ := C78_simulate3 hn h3 h
  obtain ⟨hbs, ls, hnd⟩ := makeNet3_data hnet
  obtain ⟨-, hbus, -⟩ := netData3_tables hnd
  have hbl : net.bus.length = bs.length := by rw [hbus]; simp
  have hfl : filteredLoad (simulate w cf a st).store a.network = .ok (n.noisyVoltage, n.noisyCurrent, n.voltage, n.current) := by
    by_cases hR : Spec.Redone a.noise [a.loads, a.networkSim, a.noise]
    · unfold filteredLoad
      simp [Store.load, (hno hR).2, filteredNpz, npz, Npz.mat, List.lookup, bind, Except.bind, pure, Except.pure]
    · obtain ⟨h1, h2⟩ := hno' hR
      rw [← h1]
      unfold filteredLoad Store.load
      rw [h2]
  unfold networkData at hd
  obtain ⟨⟨todel, y⟩, hr, hd⟩ := Prior.bind_ok hd
  obtain ⟨d', hdr, hd⟩ := Prior.bind_ok hd
  unfold reduction at hr
  rw [h3, hiddenNodes_three h3] at hr
  obtain ⟨yb, -, hr⟩ := Prior.bind_ok hr
  have hmem := reduce3_deleted hnd hr
  unfold dropReduced at hdr
  obtain ⟨nv, e1, hdr⟩ := Prior.bind_ok hdr
  obtain ⟨ni, e2, hdr⟩ := Prior.bind_ok hdr
  obtain ⟨v, e3, hdr⟩ := Prior.bind_ok hdr
  obtain ⟨i, e4, hdr⟩ := Prior.bind_ok hdr
  obtain ⟨r, -, hdr⟩ := Prior.bind_ok hdr
  obtain ⟨hs, e5, hdr⟩ := Prior.bind_ok hdr
  rw [h3, hbl] at e5
  have hids : hs = (Spec.storedPhases bs cf.hidden a.sequence (bs.length * 3)).map (fun k => ((k % 3 : ℕ) : Int) + 1) := by
    unfold deleteEntries at e5
    simp only [if_true] at e5
    split at e5
    · rw [← Except.ok.inj e5, tile3_length, keep_stored hmem]
      refine List.map_congr_left (fun k hk => ?_)
      exact tile3_getD _ _ (List.mem_range.1 (List.mem_filter.1 hk).1)
    · cases e5
  have f1 := deleteCols_stored3 hmem e1
  have f2 := deleteCols_stored3 hmem e2
  have f3 := deleteCols_stored3 hmem e3
  have f4 := deleteCols_stored3 hmem e4
  cases hdr
  refine ⟨bs, _, _, _, _, hbs, hfl, ?_⟩
  cases hsq : a.sequence with
  | false =>
    rw [hsq] at hd f1 f2 f3 f4 hids
    cases hd
    simp only [Spec.InCoordinates, Bool.false_eq_true, if_false]
    exact ⟨f1, f2, f3, f4, hids⟩
  | true =>
    rw [hsq] at hd f1 f2 f3 f4 hids
    simp only [if_true] at hd
    unfold toSequence at hd
    obtain ⟨_, g1, hd⟩ := Prior.bind_ok hd
    obtain ⟨_, g2, hd⟩ := Prior.bind_ok hd
    obtain ⟨_, g3, hd⟩ := Prior.bind_ok hd
    obtain ⟨_, g4, hd⟩ := Prior.bind_ok hd
    obtain ⟨_, -, hd⟩ := Prior.bind_ok hd
    cases hd
    simp only [Spec.InCoordinates, if_true]
    rw [← f1, ← f2, ← f3, ← f4]
    refine ⟨g1, g2, g3, g4, ?_⟩
    show hs.map (· - 1) = _
    rw [hids, List.map_map]
    refine List.map_congr_left (fun k _ => ?_)
    show ((k % 3 : ℕ) : Int) + 1 - 1 = _
    omega

/-! ### the reduction completes -/

theorem kron_square {pinv : Arr2 ℂ → Except PyErr (Arr2 ℂ)} (hpinv : Spec.PinvContract pinv) {idx : List ℕ} {y : Arr2 ℂ} {m : ℕ}
    (hsq : Spec.IsSquare m y) (hidx : ∀ k ∈ idx, k < m) :
    ∃ red, kronReduction pinv idx y = .ok red ∧ Spec.IsSquare (PySet.complement m idx).length red := by
  obtain ⟨red, hred⟩ := kron_completes hpinv (y := y) (idx := idx) (by rw [hsq.1, hsq.2]) (by rw [hsq.1]; exact hidx)
  refine ⟨red, hred, ?_⟩
  have hr := (kron_rows hred).1
  rw [hsq.1] at hr
  refine ⟨hr, ?_⟩
  have h := hred
  unfold kronReduction at h
  obtain ⟨a, ha, h⟩ := Prior.bind_ok h
  obtain ⟨b, hb, h⟩ := Prior.bind_ok h
  obtain ⟨c, hc, h⟩ := Prior.bind_ok h
  obtain ⟨p, hp, h⟩ := Prior.bind_ok h
  obtain ⟨bp, hbp, h⟩ := Prior.bind_ok h
  obtain ⟨q, hq, h⟩ := Prior.bind_ok h
  obtain ⟨bpc, hbpc, h⟩ := Prior.bind_ok h
  unfold Arr2.take at ha
  split at ha
  · cases ha
    unfold Arr2.zipWith at h
    split at h
    · cases h
      show (PySet.complement y.r idx).length = _
      rw [hsq.1]
    · cases h
  · cases ha

theorem stride3_square {m : ℕ} {y : Arr2 ℂ} (h : Spec.IsSquare (m * 3) y) {s : ℕ} (hs : s < 3) : Spec.IsSquare m (y.stride3 s) := by
  have hd : (m * 3 + 2 - s) / 3 = m := by omega
  exact ⟨show (y.r + 2 - s) / 3 = m by rw [h.1, hd], show (y.c + 2 - s) / 3 = m by rw [h.2, hd]⟩

theorem mem_phases (H : List ℕ) (i : ℕ) : i ∈ H.map (3 * ·) ++ H.map (3 * · + 1) ++ H.map (3 * · + 2) ↔ i / 3 ∈ H := by
  rw [List.mem_append, List.mem_append, List.mem_map, List.mem_map, List.mem_map]
  constructor
  · rintro ((⟨k, hk, rfl⟩ | ⟨k, hk, rfl⟩) | ⟨k, hk, rfl⟩)
    · rw [show 3 * k / 3 = k by omega]; exact hk
    · rw [show (3 * k + 1) / 3 = k by omega]; exact hk
    · rw [show (3 * k + 2) / 3 = k by omega]; exact hk
  · intro hi
    rcases (show i % 3 = 0 ∨ i % 3 = 1 ∨ i % 3 = 2 by omega) with e | e | e
    · exact Or.inl (Or.inl ⟨i / 3, hi, by omega⟩)
    · exact Or.inl (Or.inr ⟨i / 3, hi, by omega⟩)
    · exact Or.inr ⟨i / 3, hi, by omega⟩

/-- in sequence view, with the last bus as the only connection, the reduction completes if that bus is not hidden -/
theorem reduce3_completes {ts : List String} {bs : List BusData} {ls : Option (List LineData)} {net : Net}
    (h : netData3 ts (some bs) ls = .ok net) {pinv : Arr2 ℂ → Except PyErr (Arr2 ℂ)} (hpinv : Spec.PinvContract pinv)
    {y voltage current : Arr2 ℂ} (hy : Spec.IsSquare (bs.length * 3) y) (hvc : voltage.c = bs.length * 3)
    (hic : current.c = bs.length * 3) {hidden : List Int} (hid : ∀ b ∈ hidden, b ∈ bs.map BusData.id)
    (hlast : Spec.connections bs = {bs.length - 1}) (hhid : bs.length - 1 ∉ Spec.labelled bs hidden)
    (hmean : ∀ i, i / 3 ∈ Spec.labelled bs hidden → colMean voltage i ≠ 0) :
    ∃ todel red k, reduceNetwork3 pinv net y voltage current hidden false = .ok (todel, red) ∧ Spec.IsSquare (k * 3) red := by
  obtain ⟨hn, hb, -, -, hext⟩ := netData3_tables h
  obtain ⟨P, hP, hPm⟩ := reducedPassive_same hn hb (rs := false) (by simp)
  obtain ⟨H, hH, -, hHm⟩ := positions_eq hn hb hidden hid
  have hpos : bs.length - 1 < bs.length := connections_lt (by rw [hlast]; simp)
  obtain ⟨m, hm⟩ : ∃ m, bs.length = m + 1 := ⟨bs.length - 1, by omega⟩
  have hm1 : bs.length - 1 = m := by omega
  rw [hm1] at hlast hhid
  have hHlt : ∀ k ∈ H, k < m := by
    intro k hk
    have := labelled_lt ((hHm k).1 hk)
    have h' : k ≠ m := fun e => hhid (e ▸ (hHm k).1 hk)
    omega
  have hPlt : ∀ k ∈ P, k < m := by
    intro k hk
    have hk := (Finset.mem_inter.1 ((hPm k).1 hk)).1
    have := passive_lt hk
    have h' : k ≠ m := fun e => passive_not_connection hk (by rw [hlast, e]; simp)
    omega
  have hPH : ∀ k ∈ P ++ H, k < m := fun k hk => (List.mem_append.1 hk).elim (hPlt k) (hHlt k)
  obtain ⟨y2, hadd, hy2⟩ : ∃ y2, addShunts (Arr2.ofFn (m * 3) (m * 3) y.get) voltage current
      (H.map (3 * ·) ++ H.map (3 * · + 1) ++ H.map (3 * · + 2)) = .ok y2 ∧ Spec.IsSquare (m * 3) y2 := by
    refine ⟨Arr2.ofFn (m * 3) (m * 3) (fun i j => (Arr2.ofFn (m * 3) (m * 3) y.get).get i j + if i = j ∧
      i ∈ H.map (3 * ·) ++ H.map (3 * · + 1) ++ H.map (3 * · + 2) then shuntAt voltage current i else 0), ?_, rfl, rfl⟩
    · unfold addShunts
      rw [if_pos, if_neg]
      · rfl
      · rintro ⟨i, hi, h0⟩
        exact hmean i ((hHm _).1 ((mem_phases H i).1 hi)) h0
      · intro i hi
        have := hHlt _ ((mem_phases H i).1 hi)
        refine ⟨?_, by omega, by omega⟩
        show i < m * 3
        omega
  obtain ⟨-, ys, hys, hysq⟩ := C61_admittance m y2 hy2
  obtain ⟨r0, e0, s0⟩ := kron_square hpinv (stride3_square hysq.1 (s := 0) (by norm_num)) hPH
  obtain ⟨r1, e1, s1⟩ := kron_square hpinv (stride3_square hysq.1 (s := 1) (by norm_num)) hPH
  obtain ⟨r2, e2, s2⟩ := kron_square hpinv (stride3_square hysq.1 (s := 2) (by norm_num)) hPH
  obtain ⟨sb, hsb, ssq, -⟩ := sequenceBus_ok _ s0 s1 s2
  obtain ⟨⟨red, hred, hredsq, -⟩, -⟩ := C61_admittance _ sb ssq
  refine ⟨[3 * m, 3 * m + 1, 3 * m + 2] ++ (P ++ H).map (3 * ·) ++ (P ++ H).map (3 * · + 1) ++ (P ++ H).map (3 * · + 2), red, _, ?_, hredsq⟩
  unfold reduceNetwork3
  rw [single_grid hn hb hext hlast, deleteBoth_last (by rw [← hm]; exact hy)]
  simp only [Except.map, bind, Except.bind, C64_three h, pure, Except.pure, hP, hH, hadd, hys, e0, e1, e2, hsb, hred]

/-- a hidden last connection makes the reduction fail -/
theorem reduce3_connection {ts : List String} {bs : List BusData} {ls : Option (List LineData)} {net : Net}
    (h : netData3 ts (some bs) ls = .ok net) {pinv : Arr2 ℂ → Except PyErr (Arr2 ℂ)}
    {y voltage current : Arr2 ℂ} (hy : Spec.IsSquare (bs.length * 3) y) {hidden : List Int} (hid : ∀ b ∈ hidden, b ∈ bs.map BusData.id)
    (hlast : Spec.connections bs = {bs.length - 1}) (hhid : bs.length - 1 ∈ Spec.labelled bs hidden) (rs : Bool) :
    reduceNetwork3 pinv net y voltage current hidden rs = .error .indexError := by
  classical
  obtain ⟨hn, hb, -, -, hext⟩ := netData3_tables h
  obtain ⟨P0, hP0, -⟩ := reducedPassive_mem hn hb rs 0
  obtain ⟨P1, hP1, -⟩ := reducedPassive_mem hn hb rs 1
  obtain ⟨P2, hP2, -⟩ := reducedPassive_mem hn hb rs 2
  obtain ⟨H, hH, -, hHm⟩ := positions_eq hn hb hidden hid
  have hpos : bs.length - 1 < bs.length := connections_lt (by rw [hlast]; simp)
  obtain ⟨m, hm⟩ : ∃ m, bs.length = m + 1 := ⟨bs.length - 1, by omega⟩
  have hm1 : bs.length - 1 = m := by omega
  rw [hm1] at hlast hhid
  have hadd : addShunts (Arr2.ofFn (m * 3) (m * 3) y.get) voltage current (H.map (3 * ·) ++ H.map (3 * · + 1) ++ H.map (3 * · + 2)) =
      .error .indexError := by
    unfold addShunts
    rw [if_neg]
    intro hc
    have : 3 * m < m * 3 := (hc (3 * m) ((mem_phases H _).2 (by rw [show 3 * m / 3 = m by omega]; exact (hHm m).2 hhid))).1
    omega
  unfold reduceNetwork3
  rw [single_grid hn hb hext hlast, deleteBoth_last (by rw [← hm]; exact hy)]
  simp only [Except.map, bind, Except.bind, C64_three h, pure, Except.pure, hP0, hP1, hP2, hH, hadd]

/-! ### averages of voltages -/

theorem Averages.re_pos_dir {R T : Nat} {W : Nat → Nat → ℂ} {a b : Arr2 ℂ} (h : Averages R T W a b)
    (hW : ∀ t < R, ∑ k ∈ range T, W t k = 1) (hpos : ∀ t k, ∃ x : ℝ, 0 ≤ x ∧ W t k = (x : ℂ)) {j : Nat} (hj : j < a.c) (u : ℂ)
    (ha : ∀ t < T, 0 < (u * a.get t j).re) : ∀ t < R, 0 < (u * b.get t j).re := by
  have h' : Averages R T W (Arr2.ofFn a.r a.c (fun t j => u * a.get t j)) (Arr2.ofFn b.r b.c (fun t j => u * b.get t j)) := by
    refine ⟨h.rows, h.orig, h.cols, fun t j ht hj => ?_⟩
    rw [Arr2.ofFn_get _ (by rw [h.rows]; exact ht) (by rw [h.cols]; exact hj), h.get t j ht hj, Finset.mul_sum]
    refine Finset.sum_congr rfl fun k hk => ?_
    rw [Arr2.ofFn_get _ (by rw [h.orig]; exact Finset.mem_range.1 hk) (show j < a.c from hj)]
    ring
  intro t ht
  have := h'.re_pos hW hpos (j := j) hj (fun t ht => by
    rw [Arr2.ofFn_get _ (by rw [h.orig]; exact ht) hj]
    exact ha t ht) t ht
  rwa [Arr2.ofFn_get _ (by rw [h.rows]; exact ht) (by rw [h.cols]; exact hj)] at this

theorem colMean_ne_zero_dir {a : Arr2 ℂ} (hr : 0 < a.r) {k : ℕ} (u : ℂ) (h : ∀ t < a.r, 0 < (u * a.get t k).re) : colMean a k ≠ 0 := by
  unfold colMean
  refine div_ne_zero (fun h0 => ?_) (Nat.cast_ne_zero.2 hr.ne')
  have : 0 < (u * ∑ t ∈ range a.r, a.get t k).re := by
    rw [Finset.mul_sum, Complex.re_sum]
    exact Finset.sum_pos (fun t ht => h t (Finset.mem_range.1 ht)) ⟨0, Finset.mem_range.2 hr⟩
  rw [h0, mul_zero, Complex.zero_re] at this
  exact lt_irrefl _ this

theorem phasor_dir (m deg a : ℝ) : Spec.phasor 1 (-a) * Spec.phasor m deg = Spec.phasor m (deg - a) := by
  unfold Spec.phasor
  rw [Complex.ofReal_one, one_mul, mul_left_comm, ← Complex.exp_add]
  congr 2
  push_cast
  ring

theorem stage3_weights {z : Nat → ℝ} {net : Net} {voltage current : Arr2 ℂ} {times : List ℝ} {fmeas : ℝ} {steps : Nat} {np : NoiseParams}
    {safety : List ℝ} {n : NoiseResult} (h : addNoiseAndFilter3 z net voltage current times fmeas steps np safety = .ok n)
    (ht : Spec.Times times) (hc : voltage.c = current.c) (h0 : 0 < voltage.c) :
    ∃ R W, (∀ t < R, ∑ k ∈ range times.length, W t k = 1) ∧ (∀ t k, ∃ x : ℝ, 0 ≤ x ∧ W t k = (x : ℂ)) ∧
      Averages R times.length W voltage n.voltage ∧ Averages R times.length W current n.current := by
  unfold addNoiseAndFilter3 at h
  obtain ⟨r, -, h⟩ := Prior.bind_ok h
  obtain ⟨⟨m, ts⟩, h1, h⟩ := Prior.bind_ok h
  obtain ⟨f, h2, h⟩ := Prior.bind_ok h
  unfold rawTimes at h1
  obtain ⟨m', hm, h1⟩ := Prior.bind_ok h1
  obtain ⟨ts', hl, h1⟩ := Prior.bind_ok h1
  cases h1
  rw [ht.npmax] at hm
  cases hm
  dsimp only at h h2
  split at h
  · obtain ⟨ts', h3, h⟩ := Prior.bind_ok h
    unfold equivalentTimes at h3
    split at h3
    · cases h3
    · obtain ⟨⟨nv, ni, v, i⟩, h4, h⟩ := Prior.bind_ok h
      cases h
      exact (series_weights h4 (ht.grid h3) hc h0).2
  · obtain ⟨⟨nv, ni, v, i⟩, h4, h⟩ := Prior.bind_ok h
    cases h
    exact (series_weights h4 (ht.grid hl) hc h0).2

/-! ### runs -/

/-- voltages and currents of a converged power flow, and the direction of the voltages -/
theorem sim3_upright {flow : Net → Controls3 → Except PyErr SimResult3} {yBus : Net → Except PyErr (Arr2 ℂ)} {net : Net} {p q : Arr2 ℝ}
    {asym : List (Arr2 ℝ)} {b : ℕ} {y : Arr2 ℂ} (hy : yBus net = .ok y) (hsz : Spec.IsSquare (b * 3) y)
    (hf : ∀ c res, flow net c = .ok res → Spec.FlowSize3 b res) {n : ℕ} (hruns : Spec.FlowRuns3 flow net n)
    (hp : p.r = n ∧ p.c = net.load.length) (hq : q.r = n ∧ q.c = net.load.length) (hal : asym.length = 6)
    (ha : ∀ m ∈ asym, m.r = n ∧ m.c = net.asym.length) :
    ∃ v i, simCompute3 flow yBus net p q asym = .ok (v, i, y) ∧ v.r = n ∧ v.c = b * 3 ∧ i.r = n ∧ i.c = b * 3 ∧
      ((∀ c res, flow net c = .ok res → Spec.Upright3 res) → ∀ t < n, ∀ j < b * 3,
        0 < (Spec.phasor 1 (-Spec.nominalAngle (Spec.phaseOf j)) * v.get t j).re) := by
  have hfr : ∀ k, (hk : k < 6) → asymFrame net asym k = .ok (asym[k]) := by
    intro k hk
    unfold asymFrame
    rw [List.getElem?_eq_getElem (by omega)]
    exact if_pos (ha _ (List.getElem_mem _)).2
  have hm : ∀ k, (hk : k < 6) → (asym[k]).r = n ∧ (asym[k]).c = net.asym.length := fun k hk => ha _ (List.getElem_mem _)
  obtain ⟨res, hres, hrn⟩ := hruns { p := p, q := q, pa := ![asym[0], asym[1], asym[2]], qa := ![asym[3], asym[4], asym[5]] }
    hp.1 hq.1 hp.2 hq.2 (by
      intro ph
      have e := fun k hk => hm k hk
      fin_cases ph
      · exact ⟨(e 0 (by norm_num)).1, (e 0 (by norm_num)).2, (e 3 (by norm_num)).1, (e 3 (by norm_num)).2⟩
      · exact ⟨(e 1 (by norm_num)).1, (e 1 (by norm_num)).2, (e 4 (by norm_num)).1, (e 4 (by norm_num)).2⟩
      · exact ⟨(e 2 (by norm_num)).1, (e 2 (by norm_num)).2, (e 5 (by norm_num)).1, (e 5 (by norm_num)).2⟩)
  have hrun : simRun3 flow net p q asym = .ok res := by
    unfold simRun3 frame
    rw [if_pos hp.2, if_pos hq.2, hfr 0 (by norm_num), hfr 1 (by norm_num), hfr 2 (by norm_num), hfr 3 (by norm_num),
      hfr 4 (by norm_num), hfr 5 (by norm_num)]
    exact hres
  obtain ⟨T, hT⟩ := hf _ _ hres
  have hTn : T = n := by rw [← hrn 0, (hT 0).1.1]
  subst hTn
  obtain ⟨v, i, hvi, hvr, hvc, hpol, hohm⟩ := C84_three res y T b (fun p => (hT p).1) (fun p => (hT p).2) hsz.1
  refine ⟨v, i, ?_, hvr, hvc, by rw [hohm.1, hvr], by rw [hohm.2.1, hsz.2], ?_⟩
  · unfold simCompute3
    simp only [hy, hrun, hvi, bind, Except.bind, pure, Except.pure]
  · intro hup t ht j hj
    have hpj := polar_eq_phasor (hpol t ht (j / 3) (by omega) (Spec.phaseOf j))
    have hj' : j / 3 * 3 + ((Spec.phaseOf j : Fin 3) : ℕ) = j := by
      show j / 3 * 3 + j % 3 = j
      omega
    rw [hj'] at hpj
    obtain ⟨u1, u2⟩ := hup _ _ hres (Spec.phaseOf j) t (by rw [(hT _).1.1]; exact ht) (j / 3) (by rw [(hT _).1.2]; omega)
    rw [abs_lt] at u2
    rw [hpj, phasor_dir]
    exact phasor_re_pos u1 u2.1 u2.2

/-- the last stage completes once the reduction does -/
theorem network3_completes {w : SimWorld} {a : SimArgs} (h3 : a.threePhased = true) (hseq : a.sequence = true)
    {net : Net} {bs : List BusData} {ts : List String} {ls : Option (List LineData)} (hnd : netData3 ts (some bs) ls = .ok net)
    {y : Arr2 ℂ} (hy : w.yBus3 net = .ok y) {n : NoiseResult}
    (hw : n.voltage.c = bs.length * 3 ∧ n.current.c = bs.length * 3 ∧ n.noisyVoltage.c = bs.length * 3 ∧
      n.noisyCurrent.c = bs.length * 3 ∧ bs.length * 3 ≤ n.ratings.length) {hidden : List Int} {todel : List ℕ} {red : Arr2 ℂ} {k : ℕ}
    (hr : reduceNetwork3 w.pinv net y n.voltage n.current hidden false = .ok (todel, red)) (hred : Spec.IsSquare (k * 3) red) :
    ∃ d, networkData w a net hidden n = .ok d := by
  classical
  obtain ⟨w1, w2, w3, w4, w5⟩ := hw
  have hmem := reduce3_deleted (seq := true) hnd hr
  have hmem3 : ∀ i, i ∈ todel ↔ i / 3 ∈ Spec.labelled bs hidden ∪ Spec.passive3 bs ∪ Spec.connections bs := by
    intro i
    rw [hmem]
    unfold Spec.LeftOut Spec.passive3
    simp only [if_true, Finset.mem_union, Finset.mem_inter]
    constructor
    · rintro (h | h | h)
      · exact Or.inl (Or.inl h)
      · exact Or.inr h
      · exact Or.inl (Or.inr ⟨h 0, h 1, h 2⟩)
    · rintro ((h | h) | h)
      · exact Or.inl h
      · refine Or.inr (Or.inr fun ph => ?_)
        fin_cases ph
        · exact h.1
        · exact h.2.1
        · exact h.2.2
      · exact Or.inr (Or.inl h)
  have hRlt : ∀ k ∈ Spec.labelled bs hidden ∪ Spec.passive3 bs ∪ Spec.connections bs, k < bs.length := by
    intro k hk
    rcases Finset.mem_union.1 hk with h | h
    · rcases Finset.mem_union.1 h with h | h
      · exact labelled_lt h
      · exact passive_lt (Finset.mem_inter.1 h).1
    · exact connections_lt h
  set R := Spec.labelled bs hidden ∪ Spec.passive3 bs ∪ Spec.connections bs with hR
  set K := (List.range bs.length).filter (fun k => k ∉ R) with hK
  have hL : Spec.Lists bs.length R K := ⟨List.nodup_range.filter _, fun k => by rw [hK]; simp⟩
  have hsort : K.Pairwise (· < ·) := List.pairwise_lt_range.filter _
  obtain ⟨-, hbus, -⟩ := netData3_tables hnd
  have hbl : net.bus.length = bs.length := by rw [hbus]; simp
  have hdel := fun {a : Arr2 ℂ} (ha : a.c = bs.length * 3) => deleteCols_phases hL hsort hmem3 hRlt ha
  obtain ⟨ra, hra⟩ : ∃ ra, deleteEntries n.ratings todel 0 = .ok ra :=
    ⟨_, if_pos (fun k hk => lt_of_lt_of_le (by have := hRlt _ ((hmem3 k).1 hk); omega) w5)⟩
  have hids := deleteIds_phases hL hsort hmem3 hRlt
  obtain ⟨-, vs, hvs, -⟩ := measurement_mat K.length (Spec.columnsAt n.voltage (K.length * 3) (phaseAt K)) rfl
  obtain ⟨-, is, his, -⟩ := measurement_mat K.length (Spec.columnsAt n.current (K.length * 3) (phaseAt K)) rfl
  obtain ⟨-, nvs, hnvs, -⟩ := measurement_mat K.length (Spec.columnsAt n.noisyVoltage (K.length * 3) (phaseAt K)) rfl
  obtain ⟨-, nis, hnis, -⟩ := measurement_mat K.length (Spec.columnsAt n.noisyCurrent (K.length * 3) (phaseAt K)) rfl
  obtain ⟨-, sm, hsm, -⟩ := C61_admittance k red hred
  have hredu : reduction w a net hidden n = .ok (todel, red) := by
    unfold reduction
    rw [h3, hy, hseq]
    simp only [if_true, bind, Except.bind]
    exact hr
  refine ⟨⟨nvs, nis, vs, is, sm, ra, n.fparam, ((List.range (K.length * 3)).map (fun i => ((i % 3 : ℕ) : Int) + 1)).map (· - 1)⟩, ?_⟩
  unfold networkData dropReduced toSequence
  rw [hredu, hseq, h3, hbl]
  simp only [bind, Except.bind, if_true, hdel w3, hdel w4, hdel w1, hdel w2, hra, hids, pure, Except.pure, hvs, his, hnvs, hnis, hsm]

/-- C172: a run of simulate_network.py that recomputes everything for a three-phase network in sequence values, with loads from files,
completes if and only if the hidden nodes are buses of the network other than the grid connection; the connection is the last bus,
nominal powers, noise levels, safety factor and measuring frequency are not negative, there is at least one day and at least as many
samples as steps, the files contain the selected weeks, and the power flow converges to voltages within a right angle of those without
load (needed only if some node is hidden) -/
theorem C172_completes {w : SimWorld} {cf : SimConf} {a : SimArgs} (st : Store) (hname : Spec.PlainName a.network)
    (h3 : a.threePhased = true) (hseq : a.sequence = true)
    (hall : a.loads = a.networkSim ∧ a.networkSim = a.noise) (hg : a.gaussian ≤ 0) {weeks : List ℕ}
    (hw : cf.weeks = weeks.map (fun w : ℕ => (w : Int))) (hprof : Spec.Profiles w.files a.active a.reactive weeks cf.days)
    (hpinv : Spec.PinvContract w.pinv) (hsd : 0 ≤ cf.vm ∧ 0 ≤ cf.cm ∧ 0 ≤ cf.vp ∧ 0 ≤ cf.cp) (hsf : 0 ≤ cf.safety)
    (hdays : 0 < cf.days) (hfm : 0 ≤ cf.fmeas) (hsteps : 0 < cf.steps)
    (hN : cf.steps ≤ Spec.rawCount (minuteTimes cf.days) cf.fmeas)
    {net : Net} {bs : List BusData} (hbs : makeNet3 w a.network = .ok (net, bs))
    (hloads : ∀ b ∈ bs, Spec.DemandNonneg3 b) {y : Arr2 ℂ} (hy : w.yBus3 net = .ok y) (hys : Spec.IsSquare (bs.length * 3) y)
    (hruns : Spec.FlowRuns3 w.flow3 net (cf.days * 1440)) (hf : ∀ c res, w.flow3 net c = .ok res → Spec.FlowSize3 bs.length res)
    (hup : cf.hidden = [] ∨ ∀ c res, w.flow3 net c = .ok res → Spec.Upright3 res)
    (hlast : Spec.connections bs = {bs.length - 1}) :
    (∃ d, (simulate w cf a st).res = .ok d) ↔
      (∀ k ∈ cf.hidden, k ∈ bs.map BusData.id) ∧ bs.length - 1 ∉ Spec.labelled bs cf.hidden := by
  obtain ⟨hwb, ls, hnd⟩ := makeNet3_data hbs
  obtain ⟨k1, k2, k3⟩ := redo_all hall
  constructor
  · rintro ⟨d, h⟩
    obtain ⟨bs', hbs', hk⟩ := C137_known hname h
    rw [if_pos h3, hwb] at hbs'
    cases hbs'
    refine ⟨hk, fun hc => ?_⟩
    obtain ⟨net', bs', l, s, n, hnet, -, -, -, -, -, -, hd, -⟩ := C78_simulate3 hname h3 h
    rw [hbs] at hnet
    cases hnet
    unfold networkData at hd
    obtain ⟨⟨todel, y'⟩, hr, -⟩ := Prior.bind_ok hd
    unfold reduction at hr
    rw [h3, hiddenNodes_three h3, hy] at hr
    obtain ⟨yb, hyb, hr⟩ := Prior.bind_ok hr
    cases hyb
    rw [reduce3_connection hnd hys hk hlast hc] at hr
    cases hr
  · rintro ⟨hid, hhid⟩
    obtain ⟨-, tb, tl, ta, -⟩ := netData3_tables hnd
    have hb0 : 0 < bs.length := by
      have : bs.length - 1 < bs.length := connections_lt (by rw [hlast]; simp)
      omega
    have hpos : ∀ l ∈ net.load, 0 ≤ l.p ∧ 0 ≤ l.q := by
      intro l hl
      rw [tl] at hl
      obtain ⟨b, hb, hl⟩ := List.mem_flatMap.1 hl
      unfold loadRows at hl
      split at hl
      · split at hl
        · rename_i p q hd
          simp only [List.mem_singleton] at hl
          subst hl
          exact (hloads b hb).1 p q hd
        · cases hl
      · split at hl
        · simp only [List.mem_singleton] at hl
          subst hl
          simp
        · cases hl
    have hpos3 : ∀ l ∈ net.asym, ∀ ph, 0 ≤ l.p ph ∧ 0 ≤ l.q ph := by
      intro l hl
      rw [ta] at hl
      obtain ⟨b, hb, hl⟩ := List.mem_flatMap.1 hl
      unfold asymRows at hl
      split at hl
      · split at hl
        · cases hl
        · rename_i p q hd
          simp only [List.mem_singleton] at hl
          subst hl
          exact (hloads b hb).2 p q hd
      · cases hl
    have hll : net.load.length ≤ net.bus.length := by
      rw [tl, tb, List.length_map]
      clear * -
      induction bs with
      | nil => simp
      | cons b bs ih =>
        rw [List.flatMap_cons, List.length_append, List.length_cons]
        have : (loadRows b).length ≤ 1 := by
          unfold loadRows
          split
          · split <;> simp
          · split <;> simp
        omega
    obtain ⟨p, q, asym, h4, hp, hq, hal, hasz⟩ := computeLoads3_profiles w.rng cf.constantness hdays hprof (constantNodes cf a bs) hpos hpos3
    have hlp : loadParams w cf a bs = .ok (some (.profiles a.active a.reactive cf.weeks cf.days (constantNodes cf a bs))) := by
      obtain ⟨pl, hpl, -⟩ := hprof.files a.active (.inl rfl)
      obtain ⟨ql, hql, -⟩ := hprof.files a.reactive (.inr rfl)
      unfold loadParams
      rw [if_neg (fun h => absurd h.2 (not_lt.2 hg)), if_pos ⟨by rw [hpl]; rfl, by rw [hql]; rfl, k1⟩]
    obtain ⟨v, i, hs, s1, s2, s3, s4, hdir⟩ := sim3_upright hy hys hf hruns hp hq hal hasz
    have htimes := minuteTimes_times hdays
    have htl : (minuteTimes cf.days).length = cf.days * 1440 := by rw [minuteTimes_length]; ring
    obtain ⟨n, hn⟩ := stage3_completes w.z (net := net) htimes hfm hsteps hN hsf (s1.trans htl.symm) (s3.trans htl.symm) (by rw [s2, s4])
      hll (by rw [s2, tb, List.length_map]) (p := noiseParams cf a) hsd.1 hsd.2.1 hsd.2.2.1 hsd.2.2.2
    obtain ⟨⟨w1, w2, w3⟩, -⟩ := stage3_exact hn htimes (by rw [s2, s4]) (by rw [s2]; omega)
    obtain ⟨R, W, hW, hWp, hAv, hAi⟩ := stage3_weights hn htimes (by rw [s2, s4]) (by rw [s2]; omega)
    have hRpos := (C86_three hn).2.2.2.1
    obtain ⟨todel, red, k, hr, hredsq⟩ := reduce3_completes hnd hpinv hys (voltage := n.voltage) (current := n.current)
      (by rw [hAv.cols, s2]) (by rw [hAi.cols, s4]) hid hlast hhid (by
        intro j hj
        rcases hup with hup | hup
        · rw [hup, labelled_nil] at hj
          simp at hj
        · have hjl : j < bs.length * 3 := by have := labelled_lt hj; omega
          refine colMean_ne_zero_dir (by omega) (Spec.phasor 1 (-Spec.nominalAngle (Spec.phaseOf j))) ?_
          rw [hAv.rows]
          refine hAv.re_pos_dir hW hWp (by rw [s2]; exact hjl) _ ?_
          intro t ht
          exact hdir hup t (by rw [← htl]; exact ht) j hjl)
    obtain ⟨d, hd⟩ := network3_completes (w := w) (a := a) h3 hseq hnd hy (n := n) ⟨by rw [hAv.cols, s2], by rw [hAi.cols, s4],
      by rw [w1, s2], by rw [w2, s2], by rw [← s2]; exact w3⟩ hr hredsq
    exact ⟨d, simulate3_run h3 k2 k3 hbs hlp (by rw [hw]; exact h4) (fun m hm m' hm' =>
      ⟨(hasz m hm).1.trans (hasz m' hm').1.symm, (hasz m hm).2.trans (hasz m' hm').2.symm⟩) hs hn (by rw [hiddenNodes_three h3]; exact hd)⟩

theorem nonneg_sym {id type : Int} {p q kv x y : ℝ} (h : 0 ≤ p ∧ 0 ≤ q) : Spec.DemandNonneg3 ⟨id, type, .sym p q, kv, x, y⟩ :=
  ⟨fun _ _ e => by cases e; exact h, fun _ _ e => by cases e⟩

theorem nonneg_asym {id type : Int} {a b c d e f kv x y : ℝ} (h : 0 ≤ a ∧ 0 ≤ b ∧ 0 ≤ c ∧ 0 ≤ d ∧ 0 ≤ e ∧ 0 ≤ f) :
    Spec.DemandNonneg3 ⟨id, type, .asym ![a, b, c] ![d, e, f], kv, x, y⟩ := by
  refine ⟨fun _ _ he => (by cases he), fun _ _ he ph => ?_⟩
  cases he
  fin_cases ph
  · exact ⟨h.1, h.2.2.2.1⟩
  · exact ⟨h.2.1, h.2.2.2.2.1⟩
  · exact ⟨h.2.2.1, h.2.2.2.2.2⟩

theorem ieee123Center_nonneg : ∀ b ∈ ieee123CenterBus, Spec.DemandNonneg3 b := by
  unfold ieee123CenterBus
  simp only [List.forall_mem_cons]
  refine ⟨?_, ?_, ?_, ?_, ?_, ?_, ?_, ?_, ?_, ?_, ?_, ?_, ?_, ?_, ?_, ?_, ?_, ?_, ?_, ?_, ?_, ?_, ?_, ?_, ?_, ?_, ?_, ?_, ?_, ?_, ?_, ?_, ?_,
    ?_, ?_, ?_, ?_, ?_, ?_, ?_, ?_, ?_, ?_, ?_, ?_, ?_, ?_, ?_, ?_, ?_, ?_, ?_, ?_, ?_, ?_, nonneg_sym (by norm_num), by simp⟩ <;>
  exact nonneg_asym (by norm_num)

theorem cigreFeeder3_nonneg : ∀ b ∈ cigreFeeder3Bus, Spec.DemandNonneg3 b := by
  unfold cigreFeeder3Bus
  simp only [List.forall_mem_cons]
  refine ⟨?_, ?_, ?_, ?_, ?_, ?_, ?_, ?_, ?_, nonneg_sym (by norm_num), by simp⟩ <;>
  exact nonneg_asym (by norm_num)

theorem test3Phase_nonneg : ∀ b ∈ test3PhaseBus, Spec.DemandNonneg3 b := by
  unfold test3PhaseBus
  simp only [List.forall_mem_cons]
  refine ⟨?_, ?_, ?_, ?_, nonneg_sym (by norm_num), by simp⟩ <;>
  exact nonneg_asym (by norm_num)

/-- C172: each shipped three-phase network, with any list of hidden nodes; the nodes are numbered from 1 and the last is the connection -/
theorem C172_shipped {w : SimWorld} (hws : w.Shipped) {cf : SimConf} {a : SimArgs} (st : Store)
    {bs : List BusData} (hsb : shippedBuses3 a.network = some bs)
    (h3 : a.threePhased = true) (hseq : a.sequence = true)
    (hall : a.loads = a.networkSim ∧ a.networkSim = a.noise) (hg : a.gaussian ≤ 0) {weeks : List ℕ}
    (hw : cf.weeks = weeks.map (fun w : ℕ => (w : Int))) (hprof : Spec.Profiles w.files a.active a.reactive weeks cf.days)
    (hpinv : Spec.PinvContract w.pinv) (hsd : 0 ≤ cf.vm ∧ 0 ≤ cf.cm ∧ 0 ≤ cf.vp ∧ 0 ≤ cf.cp) (hsf : 0 ≤ cf.safety)
    (hdays : 0 < cf.days) (hfm : 0 ≤ cf.fmeas) (hsteps : 0 < cf.steps)
    (hN : cf.steps ≤ Spec.rawCount (minuteTimes cf.days) cf.fmeas)
    (hy : ∀ net, makeNet3 w a.network = .ok (net, bs) → ∃ y, w.yBus3 net = .ok y ∧ Spec.IsSquare (bs.length * 3) y)
    (hruns : ∀ net, makeNet3 w a.network = .ok (net, bs) → Spec.FlowRuns3 w.flow3 net (cf.days * 1440))
    (hup : ∀ net, makeNet3 w a.network = .ok (net, bs) →
      ∀ c res, w.flow3 net c = .ok res → Spec.FlowSize3 bs.length res ∧ Spec.Upright3 res) :
    (∃ d, (simulate w cf a st).res = .ok d) ↔ ∀ k ∈ cf.hidden, 1 ≤ k ∧ k < bs.length := by
  obtain ⟨hname, ls, kv, hfe, hnn⟩ : Spec.PlainName a.network ∧ ∃ ls kv, Spec.OneFeeder bs ls bs.length kv (bs.length - 1) ∧
      ∀ b ∈ bs, Spec.DemandNonneg3 b := by
    unfold shippedBuses3 at hsb
    split_ifs at hsb with c1 c2 c3
    all_goals
      simp only [Option.some.injEq] at hsb
      subst hsb
    · refine ⟨templates_plain _ (by rw [c1]; decide), cigreFeeder3Net, 20, ?_, cigreFeeder3_nonneg⟩
      rw [cigreFeeder3_feeder.length]
      exact cigreFeeder3_feeder
    · refine ⟨templates_plain _ (by rw [c2]; decide), test3PhaseNet, 4.16, ?_, test3Phase_nonneg⟩
      rw [test3Phase_feeder.length]
      exact test3Phase_feeder
    · refine ⟨templates_plain _ (by rw [c3]; decide), ieee123CenterNet, 4.16, ?_, ieee123Center_nonneg⟩
      rw [ieee123Center_feeder.length]
      exact ieee123Center_feeder
  obtain ⟨net, -, -, -, hm, -, -⟩ := C136_three hws hsb
  obtain ⟨y, hy1, hy2⟩ := hy net hm
  rw [C172_completes st hname h3 hseq hall hg hw hprof hpinv hsd hsf hdays hfm hsteps hN hm
    hnn hy1 hy2 (hruns net hm) (fun c res h => (hup net hm c res h).1)
    (Or.inr fun c res h => (hup net hm c res h).2) hfe.connections]
  have hids := hfe.ids
  have hin := hfe.inside
  have hid : ∀ {k : ℕ} {b : BusData}, bs[k]? = some b → b.id = (k : Int) + 1 := by
    intro k b hb
    have h1 := congrArg (fun l => l[k]?) hids
    obtain ⟨hk, -⟩ := List.getElem?_eq_some_iff.1 hb
    simp only [List.getElem?_map, hb, Option.map_some] at h1
    rw [List.getElem?_range (by omega)] at h1
    simpa using h1
  have hlab : bs.length - 1 ∈ Spec.labelled bs cf.hidden ↔ (bs.length : Int) ∈ cf.hidden := by
    unfold Spec.labelled
    rw [Finset.mem_filter, Finset.mem_range]
    constructor
    · rintro ⟨-, b, hb, hh⟩
      rw [hid hb] at hh
      rwa [show ((bs.length - 1 : ℕ) : Int) + 1 = bs.length by omega] at hh
    · intro hh
      have hb : bs[bs.length - 1]? = some (bs[bs.length - 1]'(by omega)) := List.getElem?_eq_getElem _
      exact ⟨by omega, _, hb, by rw [hid hb, show ((bs.length - 1 : ℕ) : Int) + 1 = bs.length by omega]; exact hh⟩
  rw [hlab, hids]
  simp only [List.mem_map, List.mem_range]
  constructor
  · rintro ⟨h1, h2⟩ k hk
    obtain ⟨m, hm, rfl⟩ := h1 k hk
    have : m + 1 ≠ bs.length := by
      rintro e
      exact h2 (by rw [← e]; exact_mod_cast hk)
    omega
  · intro h
    refine ⟨fun k hk => ⟨(k - 1).toNat, ?_⟩, fun hc => ?_⟩
    · have := h k hk
      omega
    · have := h _ hc
      omega

/-- C171 partial, C137 partial: the first command of the README for the three-phase network, with the shipped hidden nodes, completes
whenever the profile files contain the selected weeks and the power flow converges to voltages within a right angle of those without
load -/
theorem C171_three_partial (env : Cli.Env) {w : SimWorld} (hws : w.Shipped) {cf : SimConf} (hcf : cf.hidden = shippedHidden) {a : SimArgs}
    (ha : Cli.runLine env "simulate_network.py -vqte --network ieee123center" = .simulate (.run a)) (st : Store) {weeks : List ℕ}
    (hw : cf.weeks = weeks.map (fun w : ℕ => (w : Int))) (hprof : Spec.Profiles w.files a.active a.reactive weeks cf.days)
    (hpinv : Spec.PinvContract w.pinv) (hsd : 0 ≤ cf.vm ∧ 0 ≤ cf.cm ∧ 0 ≤ cf.vp ∧ 0 ≤ cf.cp) (hsf : 0 ≤ cf.safety)
    (hdays : 0 < cf.days) (hfm : 0 ≤ cf.fmeas) (hsteps : 0 < cf.steps)
    (hN : cf.steps ≤ Spec.rawCount (minuteTimes cf.days) cf.fmeas)
    (hy : ∀ net, makeNet3 w "ieee123center" = .ok (net, ieee123CenterBus) → ∃ y, w.yBus3 net = .ok y ∧ Spec.IsSquare 168 y)
    (hruns : ∀ net, makeNet3 w "ieee123center" = .ok (net, ieee123CenterBus) → Spec.FlowRuns3 w.flow3 net (cf.days * 1440))
    (hup : ∀ net, makeNet3 w "ieee123center" = .ok (net, ieee123CenterBus) →
      ∀ c res, w.flow3 net c = .ok res → Spec.FlowSize3 56 res ∧ Spec.Upright3 res) :
    ∃ d, (simulate w cf a st).res = .ok d := by
  rw [Cli.line_full_v env] at ha
  have ha : a = Cli.Spec.fullRun env := by
    simp only [Cli.Run.simulate.injEq, Cli.Outcome.run.injEq] at ha
    exact ha.symm
  subst ha
  have hlen : ieee123CenterBus.length = 56 := ieee123Center_feeder.length
  refine (C172_shipped hws st (bs := ieee123CenterBus) rfl rfl rfl ⟨rfl, rfl⟩ le_rfl hw hprof hpinv hsd hsf hdays hfm hsteps hN
    (by rw [hlen]; exact hy) hruns (by rw [hlen]; exact hup)).2 ?_
  rw [hcf, hlen]
  decide +kernel

/-! ### the hypotheses can be met -/

/-- all voltages those without load -/
def flatFlow3 (net : Net) (c : Controls3) : Except PyErr SimResult3 :=
  .ok ⟨fun _ => Arr2.ofFn c.p.r net.bus.length (fun _ _ => 1), fun ph => Arr2.ofFn c.p.r net.bus.length (fun _ _ => Spec.nominalAngle ph)⟩

def shippedWorld3 : SimWorld :=
  { shippedWorld with
    files := fun _ => some (flatFile 1440), flow3 := flatFlow3, yBus3 := fun net => .ok (Arr2.zeros (net.bus.length * 3) (net.bus.length * 3)) }

/-- C171_three_partial: the shipped hidden nodes, one day -/
theorem shipped3_completes (env : Cli.Env) (st : Store) : ∃ a d, Cli.runLine env "simulate_network.py -vqte --network ieee123center" = .simulate (.run a) ∧
    (simulate shippedWorld3 { demoConf115 with hidden := shippedHidden, weeks := [0] } a st).res = .ok d := by
  have hws : shippedWorld3.Shipped := ⟨rfl, rfl, rfl, rfl, rfl⟩
  have hb : ∀ net, makeNet3 shippedWorld3 "ieee123center" = .ok (net, ieee123CenterBus) → net.bus.length = 56 := by
    intro net hm
    obtain ⟨-, ls, hnd⟩ := makeNet3_data hm
    obtain ⟨-, tb, -⟩ := netData3_tables hnd
    rw [tb, List.length_map]
    exact ieee123Center_feeder.length
  obtain ⟨d, hd⟩ := C171_three_partial env (w := shippedWorld3) hws (cf := { demoConf115 with hidden := shippedHidden, weeks := [0] }) rfl
    (Cli.line_full_v env) st (weeks := [0]) rfl
    ⟨by simp, by simp, fun f _ => ⟨_, rfl, by simp [demoConf115, flatFile], by simp [flatFile], fun t ht => flatFile_ne ht⟩⟩
    exactPinv_contract ⟨le_rfl, le_rfl, le_rfl, le_rfl⟩
    (by simp [demoConf115]) (by simp [demoConf115]) (by simp [demoConf115]) (by simp [demoConf115]) (by
      show 1439 ≤ Spec.rawCount (minuteTimes 1) (1 / 60)
      rw [demo115_count])
    (fun net hm => ⟨_, rfl, by rw [hb net hm]; exact ⟨rfl, rfl⟩⟩)
    (fun net hm c hp _ _ _ _ => ⟨_, rfl, fun _ => hp⟩)
    (by
      intro net hm c res hres
      cases hres
      refine ⟨⟨c.p.r, fun ph => ⟨⟨rfl, hb net hm⟩, rfl, hb net hm⟩⟩, fun ph t ht k hk => ?_⟩
      have h1 : Arr2.get (Arr2.ofFn c.p.r net.bus.length (fun _ _ => (1 : ℝ))) t k = 1 := Arr2.ofFn_get _ ht hk
      have h2 : Arr2.get (Arr2.ofFn c.p.r net.bus.length (fun _ _ => Spec.nominalAngle ph)) t k = Spec.nominalAngle ph := Arr2.ofFn_get _ ht hk
      dsimp only
      rw [h1, h2]
      norm_num)
  exact ⟨_, d, Cli.line_full_v env, hd⟩

end
end Verif
