/-
C111 for three phases: exactly when the report after an identification of all phases or sequences completes.
-/
import Verif.Props.PlotPipeline
import Verif.Props.Interrupt
import Verif.Props.Reference3Demo

namespace Verif
open Prog hiding pure bind read save call ofExcept
open Spec (Redone PlainName LabelPos columnsAt blockAt entriesAt IsSquare Digit Selected Columns)
noncomputable section

theorem ofExcept_inv {α : Type} {e : Except PyErr α} {st : Store} {a : α} (h : (Prog.ofExcept e st).res = .ok a) : e = .ok a := h

theorem standardStep_shape {ext : NumExt} {cf : IdConf} {name : String} {v c : Arr2 ℂ} {ids : List Int} {lap : Bool} {iters n : Nat}
    {y r : Arr2 ℂ × Arr2 ℂ × Arr2 ℂ} {i : Int} {st : Store} (hy : IsSquare n y.1 ∧ IsSquare n y.2.1 ∧ IsSquare n y.2.2)
    (h : (standardStep ext cf name v c ids lap iters y i st).res = .ok r) : IsSquare n r.1 ∧ IsSquare n r.2.1 ∧ IsSquare n r.2.2 := by
  unfold standardStep at h
  obtain ⟨v', -, h, -, -⟩ := bind_res_ok h
  obtain ⟨c', -, h, -, -⟩ := bind_res_ok h
  obtain ⟨s, -, h, -, -⟩ := bind_res_ok h
  obtain ⟨o, ho, h, -, -⟩ := bind_res_ok h
  obtain ⟨t, ht, h, -, -⟩ := bind_res_ok h
  obtain ⟨l, hl, h, -, -⟩ := bind_res_ok h
  cases h
  have s1 := scatter_shape (ofExcept_inv ho)
  have s2 := scatter_shape (ofExcept_inv ht)
  have s3 := scatter_shape (ofExcept_inv hl)
  exact ⟨⟨s1.1.trans hy.1.1, s1.2.trans hy.1.2⟩, ⟨s2.1.trans hy.2.1.1, s2.2.trans hy.2.1.2⟩, ⟨s3.1.trans hy.2.2.1, s3.2.trans hy.2.2.2⟩⟩

/-- the standard methods for three phases return square matrices with one row per column of the data -/
theorem standardMethods3_square {ext : NumExt} (hsh : Spec.Shapes ext) {cf : IdConf} {name : String} {v c : Arr2 ℂ} {ids : Option (List Int)}
    {lap : Bool} {iters n : Nat} (hv : v.c = n) (hc : c.c = n) {st : Store} {r : Arr2 ℂ × Arr2 ℂ × Arr2 ℂ}
    (h : (standardMethods3 ext cf name (some v) (some c) ids lap iters st).res = .ok r) :
    IsSquare n r.1 ∧ IsSquare n r.2.1 ∧ IsSquare n r.2.2 := by
  unfold standardMethods3 at h
  obtain ⟨q, hq, h, -, -⟩ := bind_res_ok h
  obtain ⟨_, -, h, -, -⟩ := bind_res_ok h
  cases h
  cases ids with
  | none => exact standardCompute_square hsh hv hc (ofExcept_inv hq)
  | some ids =>
    dsimp only at hq
    unfold standardLoop at hq
    obtain ⟨y0, h0, hq, -, -⟩ := bind_res_ok hq
    obtain ⟨y1, h1, hq, -, -⟩ := bind_res_ok hq
    have hz : IsSquare n (Arr2.zeros (α := ℂ) v.c v.c) := ⟨hv, hv⟩
    exact standardStep_shape (standardStep_shape (standardStep_shape ⟨hz, hz, hz⟩ h0) h1) hq

theorem bayesianStep_shape {ext : NumExt} {cf : IdConf} {name : String} {v c : Arr2 ℂ} {ids : List Int} {vsd isd : SdPolar}
    {ratings : List ℝ} {y0 : Arr2 ℂ} {ye : Option (Arr2 ℂ)} {lap weighted : Bool} {iters : Nat} {pmu : Bool} {n : Nat} {y : Arr2 ℂ} {i : Int}
    {st : Store} {r : Arr2 ℂ × List IterationStatus} (hy : IsSquare n y)
    (h : (bayesianStep ext cf name v c ids vsd isd ratings y0 ye lap weighted iters pmu y i st).res = .ok r) : IsSquare n r.1 := by
  unfold bayesianStep at h
  obtain ⟨_, -, h, -, -⟩ := bind_res_ok h
  obtain ⟨_, -, h, -, -⟩ := bind_res_ok h
  obtain ⟨_, -, h, -, -⟩ := bind_res_ok h
  obtain ⟨_, -, h, -, -⟩ := bind_res_ok h
  obtain ⟨_, -, h, -, -⟩ := bind_res_ok h
  obtain ⟨_, -, h, -, -⟩ := bind_res_ok h
  obtain ⟨y', hs, h, -, -⟩ := bind_res_ok h
  cases h
  have s := scatter_shape (ofExcept_inv hs)
  exact ⟨s.1.trans hy.1, s.2.trans hy.2⟩

theorem mergedLog_square {n : Nat} {ids : List Int} {logs : Fin 3 → List IterationStatus} {log : List IterationStatus}
    (h : mergedLog n ids logs = .ok log) : ∀ e ∈ log, IsSquare n e.params := by
  refine forRange_of_ok (fun _ l => ∀ e ∈ l, IsSquare n e.params) h (by simp) ?_
  intro k _ l l' hP hf
  obtain ⟨e, he, hf⟩ := Prior.bind_ok hf
  cases hf
  intro x hx
  rcases List.mem_append.1 hx with hx | hx
  · exact hP x hx
  · rw [List.mem_singleton.1 hx]
    unfold mergedEntry at he
    split at he
    · obtain ⟨a, ha, he⟩ := Prior.bind_ok he
      obtain ⟨b, hb, he⟩ := Prior.bind_ok he
      obtain ⟨c, hc, he⟩ := Prior.bind_ok he
      cases he
      have s1 := scatter_shape ha
      have s2 := scatter_shape hb
      have s3 := scatter_shape hc
      exact ⟨s3.1.trans (s2.1.trans s1.1), s3.2.trans (s2.2.trans s1.2)⟩
    · cases he

/-- the Bayesian method for three phases returns matrices of the size of its starting point -/
theorem bayesianEiv3_square {ext : NumExt} {cf : IdConf} {name : String} {v c : Arr2 ℂ} {ids : List Int} {vsd isd : SdPolar}
    {ratings : List ℝ} {y0 : Arr2 ℂ} {ye : Option (Arr2 ℂ)} {lap weighted : Bool} {iters : Nat} {pmu : Bool} {n : Nat}
    {st : Store} {r : Arr2 ℂ × List IterationStatus} (hy : IsSquare n y0)
    (h : (bayesianEiv3 ext cf name v c ids vsd isd ratings y0 ye lap weighted iters pmu st).res = .ok r) :
    IsSquare n r.1 ∧ ∀ e ∈ r.2, IsSquare n e.params := by
  unfold bayesianEiv3 at h
  split at h
  · obtain ⟨r0, h0, h, -, -⟩ := bind_res_ok h
    obtain ⟨r1, h1, h, -, -⟩ := bind_res_ok h
    obtain ⟨r2, h2, h, -, -⟩ := bind_res_ok h
    obtain ⟨l, hl, h, -, -⟩ := bind_res_ok h
    obtain ⟨_, -, h, -, -⟩ := bind_res_ok h
    cases h
    have hz : IsSquare n (Arr2.zeros (α := ℂ) y0.r y0.c) := ⟨hy.1, hy.2⟩
    have s2 := bayesianStep_shape (bayesianStep_shape (bayesianStep_shape hz h0) h1) h2
    refine ⟨s2, ?_⟩
    have := mergedLog_square (ofExcept_inv hl)
    rw [hy.1] at this
    exact this
  · cases h

/-- C111: after an identification of all phases or sequences, the report completes exactly if, for a Laplacian, two of the nodes are not
connected in the matrix that is shown. -/
theorem C111_completes3 {ext : NumExt} (hsh : Spec.Shapes ext) {cf : IdConf} {sc : SimConf} {a : IdArgs} {st : Store}
    {r : (Arr2 ℂ × Arr2 ℂ × Arr2 ℂ) × (Arr2 ℂ × List IterationStatus)} (hn : PlainName a.network)
    (h : (identify ext cf sc a st).res = .ok r) (hu : st (resultFile .uncertainty a.network) = none) {d : NetworkData}
    (hd : networkLoad st a.network = .ok d) {k : Nat} (hc : Columns (k * 3) d) (hph : a.phases = "012" ∨ a.phases = "123")
    (hs : Redone a.standard [a.standard, a.bayesian] ∨
      (IsSquare (k * 3) r.1.1 ∧ IsSquare (k * 3) r.1.2.1 ∧ IsSquare (k * 3) r.1.2.2)) (pe : PlotExt) (seq : Bool) :
    ∃ y, IsSquare (k * 3) y ∧
      (a.phases = "012" ∧ seq = false ∧ admittanceSequenceToPhase d.y = .ok y ∨
        a.phases = "123" ∧ seq = true ∧ admittancePhaseToSequence d.y = .ok y ∨
        (a.phases = "012" ∧ seq = true ∨ a.phases = "123" ∧ seq = false) ∧ y = d.y) ∧
      ((plotResults pe ⟨a.network, seq⟩ (identify ext cf sc a st).store).1 = .ok () ↔
        (a.laplacian = true → Spec.AbsentLine (k * 3) y)) := by
  have h3 : a.threePhased = true := by
    unfold IdArgs.threePhased
    rcases hph with hph | hph <;> rw [hph] <;> decide
  obtain ⟨d0, d', h1, h2, hst⟩ := C111_stored hn h hu
  rw [hd] at h1
  cases h1
  have hself : selectPhase a d = .ok d := by
    unfold selectPhase
    rw [if_neg (fun hx => by rw [h3] at hx; cases hx.1)]
    rfl
  rw [hself] at h2
  cases h2
  obtain ⟨d1, y0, g1, g2, hs1, -, hb1, hb2, -, -⟩ := C78_identify3 hn h3 h
  rw [hd] at g1
  cases g1
  have hstd : IsSquare (k * 3) r.1.1 ∧ IsSquare (k * 3) r.1.2.1 ∧ IsSquare (k * 3) r.1.2.2 := by
    rcases hs with hs | hs
    · exact standardMethods3_square hsh hc.noisyVoltage hc.noisyCurrent ((hs1 hs).1 st)
    · exact hs
  have hy0 : IsSquare (k * 3) y0 := by
    unfold halfSum Arr2.zipWith at g2
    split at g2
    · cases g2
      exact hstd.2.1
    · cases g2
  have hbay : IsSquare (k * 3) r.2.1 ∧ ∀ e ∈ r.2.2, IsSquare (k * 3) e.params := by
    by_cases hr : Redone a.bayesian [a.standard, a.bayesian] ∧ 0 < a.maxIter
    · exact bayesianEiv3_square hy0 (hb1 hr st)
    · obtain ⟨st2, -, hq⟩ := hb2 hr
      exact bayesianEiv3_square hy0 (hq ext)
  have hnsp : ¬ Spec.SinglePhase (Spec.reported a d d r) := by
    rintro ⟨e1, e2⟩
    rcases hph with hph | hph
    · exact e1 hph
    · exact e2 hph
  have hpos : 0 < k * 3 ∨ k = 0 := by omega
  have hshapes : Spec.ResultShapes (k * 3) (Spec.reported a d d r) := by
    refine ⟨hc.y, fun s hx => ?_, fun b hx => ?_, hc.ids.trans hc.voltage.symm, fun _ => ⟨?_, by omega⟩⟩
    · cases hx
      exact hstd
    · cases hx
      exact hbay
    · show d.voltage.c % 3 = 0
      rw [hc.voltage]
      omega
  obtain ⟨⟨p, hp, hpsq, -⟩, q, hq, hqsq, -⟩ := admittance_mat k d.y hc.y
  have hk : 0 < k * 3 := by
    have h0 : (0 : Int) ∈ d.ids := by
      have : ∀ {iters : Nat} {st' : Store} {ext' : NumExt}, (bayesianEiv3 ext' cf a.network d.noisyVoltage d.noisyCurrent d.ids (averagedSd sc.vm sc.vp d.fparam)
          (averagedSd sc.cm sc.cp d.fparam) d.ratings y0 (if a.exact && !a.laplacian then some d.y else none) a.laplacian a.weighted
          iters (!a.unsynchronized) st').res = .ok r.2 → (0 : Int) ∈ d.ids := by
        intro iters st' ext' hx
        by_contra hne
        unfold bayesianEiv3 at hx
        rw [if_neg hne] at hx
        cases hx
      by_cases hr : Redone a.bayesian [a.standard, a.bayesian] ∧ 0 < a.maxIter
      · exact this (hb1 hr st)
      · obtain ⟨st2, -, hq⟩ := hb2 hr
        exact this (hq ext)
    have := List.length_pos_of_mem h0
    rw [hc.ids] at this
    exact this
  have fin : ∀ y, Spec.Shown (Spec.reported a d d r) seq y →
      ((plotResults pe ⟨a.network, seq⟩ (identify ext cf sc a st).store).1 = .ok () ↔ (a.laplacian = true → Spec.AbsentLine (k * 3) y)) := by
    intro y hy
    rw [C105_partial pe hst hk hshapes hy]
    constructor
    · rintro (hx | ⟨-, -, hz⟩)
      · exact nomatch hx
      · exact hz
    · intro hz
      exact Or.inr ⟨fun h => (nomatch h), ⟨fun h => absurd h hnsp, fun _ => hc.voltage⟩, hz⟩
  rcases hph with hph | hph
  · have hne : a.phases ≠ "123" := by rw [hph]; decide
    cases seq with
    | false => exact ⟨p, hpsq, .inl ⟨hph, rfl, hp⟩, fin p (.inl ⟨hph, rfl, hp⟩)⟩
    | true => exact ⟨d.y, hc.y, .inr (.inr ⟨.inl ⟨hph, rfl⟩, rfl⟩), fin d.y (.inr (.inr ⟨fun h => (nomatch h.2), fun h => hne h.1, rfl⟩))⟩
  · have hne : a.phases ≠ "012" := by rw [hph]; decide
    cases seq with
    | false => exact ⟨d.y, hc.y, .inr (.inr ⟨.inr ⟨hph, rfl⟩, rfl⟩), fin d.y (.inr (.inr ⟨fun h => hne h.1, fun h => (nomatch h.2), rfl⟩))⟩
    | true => exact ⟨q, hqsq, .inr (.inl ⟨hph, rfl, hq⟩), fin q (.inr (.inl ⟨hph, rfl, hq⟩))⟩

/-- C111: a simulation of a three-phase network in sequence coordinates, an identification of the three sequences and the report in
sequence coordinates: the report completes, Laplacian or not, as there are no lines between sequences. -/
theorem C111_pipeline3 {w : SimWorld} {cf : SimConf} {a : SimArgs} {st : Store} {d : NetworkData} (hn : Spec.PlainName a.network)
    (h3 : a.threePhased = true) (hseq : a.sequence = true) (h : (simulate w cf a st).res = .ok d)
    (hall : a.loads = a.networkSim ∧ a.networkSim = a.noise) (hhid : cf.hidden = []) (hpinv : Spec.PinvContract w.pinv)
    {net : Net} {bs : List BusData} (hbs : makeNet3 w a.network = .ok (net, bs)) {y0 y1 y2 y : Arr2 ℂ}
    (h0 : Spec.IsSquare bs.length y0) (h1 : Spec.IsSquare bs.length y1) (h2 : Spec.IsSquare bs.length y2)
    (hyy : makeYBus3 y0 y1 y2 = .ok y) (hy : w.yBus3 net = .ok y)
    (hf : ∀ c res, w.flow3 net c = .ok res → Spec.PowerFlow3 bs y res) (hr : Spec.Reducible3 bs y0 y1 y2)
    {ext : NumExt} (hsh : Spec.Shapes ext) {ic : IdConf} {sc : SimConf} {b : IdArgs} (hb : b.network = a.network) (hph : b.phases = "012")
    (hs : Redone b.standard [b.standard, b.bayesian]) {r : (Arr2 ℂ × Arr2 ℂ × Arr2 ℂ) × (Arr2 ℂ × List IterationStatus)}
    (hid : (identify ext ic sc b (simulate w cf a st).store).res = .ok r) (hu : st (resultFile .uncertainty a.network) = none) (pe : PlotExt) :
    (plotResults pe ⟨a.network, true⟩ (identify ext ic sc b (simulate w cf a st).store).store).1 = .ok () := by
  obtain ⟨m, rs, -, hids, hvc, hcc, -, -, -, hA, -, hst, ⟨-, nvc, -, nic, hrat, -⟩, -⟩ :=
    C122_data hn h3 hseq h hall hhid hpinv hbs h0 h1 h2 hyy hy hf hr
  have hlen : d.ids.length = m * 3 := by rw [hids]; simp [Spec.sequenceIds]
  have hcol : Columns (m * 3) d := ⟨nvc, nic, hvc, hcc, by have := hA.square; rwa [hlen] at this, hrat, hlen⟩
  have hload : networkLoad (simulate w cf a st).store b.network = .ok d := by
    rw [hb]
    simp [networkLoad, Store.load, hst, bind, Except.bind, networkNpz, npz, Npz.mat, Npz.vec, Npz.num, Npz.ints, List.lookup, pure,
      Except.pure]
  have hu' : (simulate w cf a st).store (resultFile .uncertainty b.network) = none := by
    rw [hb, (simulate_frame (fun s hs => file_ne hn (by
      simp only [List.mem_cons, List.not_mem_nil, or_false] at hs
      rcases hs with rfl | rfl | rfl | rfl <;> simp)) st).1]
    exact hu
  obtain ⟨y', hy', hcases, hiff⟩ := C111_completes3 hsh (hb ▸ hn) hid hu' hload hcol (.inl hph) (.inl hs) pe true
  rw [← hb]
  refine hiff.2 fun _ => ?_
  have hyd : y' = d.y := by
    rcases hcases with ⟨-, hx, -⟩ | ⟨hx, -, -⟩ | ⟨-, hx⟩
    · cases hx
    · rw [hph] at hx
      exact absurd hx (by decide)
    · exact hx
  subst hyd
  have h0 : 0 < m := by
    by_contra hm
    have : m = 0 := by omega
    subst this
    obtain ⟨d1, z0, g1, -, -, -, hb1, hb2, -, -⟩ := C78_identify3 (hb ▸ hn) (by unfold IdArgs.threePhased; rw [hph]; decide) hid
    rw [hload] at g1
    cases g1
    have : ∀ {y0 : Arr2 ℂ} {ye : Option (Arr2 ℂ)} {vs cs : SdPolar} {la we pm : Bool} {iters : Nat} {st' : Store}
        {q : Arr2 ℂ × List IterationStatus}, (bayesianEiv3 ext ic b.network d.noisyVoltage d.noisyCurrent d.ids vs cs d.ratings y0 ye la we
          iters pm st').res = .ok q → False := by
      intro y0 ye vs cs la we pm iters st' q hx
      unfold bayesianEiv3 at hx
      rw [if_neg (by rw [hids]; simp [Spec.sequenceIds])] at hx
      cases hx
    by_cases hr : Redone b.bayesian [b.standard, b.bayesian] ∧ 0 < b.maxIter
    · exact this (hb1 hr st)
    · obtain ⟨st2, -, hq⟩ := hb2 hr
      exact this (hq ext)
  have e : ∀ i < m * 3, d.ids.getD i 0 = ((i % 3 : ℕ) : Int) := by
    intro i hi
    rw [hids]
    simp [Spec.sequenceIds, hi]
  refine ⟨1, 0, by omega, by omega, hA.cross 1 0 (by omega) (by omega) ?_, hA.cross 0 1 (by omega) (by omega) ?_⟩
  all_goals
    rw [e 1 (by omega), e 0 (by omega)]
    decide

/-! ### a Laplacian of one node with three sequences -/

/-- two measurements of one node; sequence `l` has the admittance `g l` -/
def demoData111 (g : Fin 3 → ℂ) : NetworkData :=
  let v := Arr2.ofFn 2 3 (fun t _ => if t = 0 then 1 else -1)
  let c := Arr2.ofFn 2 3 (fun t j => if t = 0 then g ⟨j % 3, Nat.mod_lt _ (by decide)⟩ else -g ⟨j % 3, Nat.mod_lt _ (by decide)⟩)
  ⟨v, c, v, c, Arr2.diag [g 0, g 1, g 2], [1, 1, 1], 1, Spec.sequenceIds 1⟩

def demoArgs111 : IdArgs := ⟨"ieee_33", 50, false, false, false, "012", true, false, true, false, false, false⟩

theorem demo111_columns (g : Fin 3 → ℂ) : Columns (1 * 3) (demoData111 g) := ⟨rfl, rfl, rfl, rfl, ⟨rfl, rfl⟩, rfl, rfl⟩

def demoV111 : Arr2 ℂ := Arr2.ofFn 2 1 (fun t _ => if t = 0 then 1 else -1)

def demoI111 (g : ℂ) : Arr2 ℂ := Arr2.ofFn 2 1 (fun t _ => if t = 0 then g else -g)

theorem demo111_parts (g : Fin 3 → ℂ) (l : Fin 3) : columnsAt (demoData111 g).noisyVoltage 1 (Spec.sequencePos l) = demoV111 ∧
    columnsAt (demoData111 g).noisyCurrent 1 (Spec.sequencePos l) = demoI111 (g l) := by
  constructor
  · refine Arr2.ext' rfl rfl fun t j (ht : t < 2) (hj : j < 1) => ?_
    unfold columnsAt demoV111 demoData111 Spec.sequencePos
    have := l.isLt
    rw [Arr2.ofFn_get _ (by exact ht) hj, Arr2.ofFn_get _ ht (by omega), Arr2.ofFn_get _ ht hj]
  · refine Arr2.ext' rfl rfl fun t j (ht : t < 2) (hj : j < 1) => ?_
    unfold columnsAt demoI111 demoData111 Spec.sequencePos
    have := l.isLt
    have hl : (⟨(j * 3 + l) % 3, Nat.mod_lt _ (by decide)⟩ : Fin 3) = l := Fin.ext (by simp only; omega)
    rw [Arr2.ofFn_get _ (by exact ht) hj, Arr2.ofFn_get _ ht (by omega), Arr2.ofFn_get _ ht hj, hl]

theorem demo111_centred (c : Arr2 ℂ) : centreData true demoV111 c = (demoV111, c) := by
  unfold centreData
  rw [if_pos rfl]
  congr 1
  refine Arr2.ext' rfl rfl fun t j (ht : t < 2) (hj : j < 1) => ?_
  unfold centreGlobal
  rw [Arr2.ofFn_get _ (by exact ht) (by exact hj)]
  have h0 : demoV111.get 0 0 = 1 := by unfold demoV111; rw [Arr2.ofFn_get _ (by omega) (by omega), if_pos rfl]
  have h1 : demoV111.get 1 0 = -1 := by unfold demoV111; rw [Arr2.ofFn_get _ (by omega) (by omega), if_neg (by decide)]
  have hz : (∑ s ∈ Finset.range demoV111.r, ∑ k ∈ Finset.range demoV111.c, demoV111.get s k) = 0 := by
    show (∑ s ∈ Finset.range 2, ∑ k ∈ Finset.range 1, demoV111.get s k) = 0
    simp [Finset.sum_range_succ, h0, h1]
  rw [hz, zero_div, sub_zero]

theorem demo111_noisy (g : ℂ) : Spec.Noisy demoV111 (demoI111 g) demoV111 (demoI111 g) (Arr2.ofFn 1 1 (fun _ _ => g)) 0 := by
  refine ⟨?_, ⟨rfl, rfl⟩, ⟨rfl, rfl⟩, fun a b => ?_⟩
  · unfold Arr2.matmul
    rw [if_pos (by rfl)]
    congr 1
    refine Arr2.ext' rfl rfl fun t j (ht : t < 2) (hj : j < 1) => ?_
    unfold demoV111 demoI111
    rw [Arr2.ofFn_get _ (by exact ht) (by exact hj), Arr2.ofFn_get _ ht hj]
    show ∑ k ∈ Finset.range 1, _ = _
    rw [Finset.sum_range_one, Arr2.ofFn_get _ ht (by omega), Arr2.ofFn_get _ (by omega) hj]
    split <;> simp
  · rw [sub_self, sub_self, Matrix.zero_mulVec, Matrix.zero_mulVec, add_zero, zero_mul, len_zero]

theorem demo111_excited : Spec.AtLeast demoV111 1 := by
  intro (v : Fin 1 → ℂ)
  rw [one_mul]
  refine Real.sqrt_le_sqrt ?_
  have e : ∀ i : Fin 2, ((demoV111.toMat demoV111.r demoV111.c).mulVec v) i = (if i = 0 then 1 else -1) * v 0 := by
    intro i
    show ∑ k : Fin 1, demoV111.get i k * v k = _
    rw [Fin.sum_univ_one]
    unfold demoV111
    rw [Arr2.ofFn_get _ i.isLt (by decide)]
    fin_cases i <;> simp
  have h1 : ∑ i, ‖v i‖ ^ 2 = ‖v 0‖ ^ 2 := Fin.sum_univ_one (fun i : Fin 1 => ‖v i‖ ^ 2)
  have h2 : ∑ i, ‖((demoV111.toMat demoV111.r demoV111.c).mulVec v) i‖ ^ 2 = ‖v 0‖ ^ 2 + ‖v 0‖ ^ 2 := by
    refine (Fin.sum_univ_two (fun i : Fin 2 => ‖((demoV111.toMat demoV111.r demoV111.c).mulVec v) i‖ ^ 2)).trans ?_
    rw [e, e]
    simp
  exact h1.le.trans ((le_add_of_nonneg_right (sq_nonneg _)).trans h2.ge)

theorem demo111_identify (g : Fin 3 → ℂ) (sc : SimConf) (st : Store) :
    ∃ r, (identify demoExt115 ⟨1, 1, 1, 1, 1, true, false, true⟩ sc demoArgs111
      (st.savez (resultFile .network "ieee_33") (networkNpz (demoData111 g)))).res = .ok r := by
  have hload : networkLoad (st.savez (resultFile .network "ieee_33") (networkNpz (demoData111 g))) demoArgs111.network = .ok (demoData111 g) :=
    C49_network "ieee_33" (demoData111 g) st (h := []) ⟨templates_plain "ieee_33" (by decide), by simp⟩
  obtain ⟨r, -, -, hr, -⟩ := C124 (ext := demoExt115) (cf := ⟨1, 1, 1, 1, 1, true, false, true⟩) (sc := sc) (a := demoArgs111)
    (st := st.savez (resultFile .network "ieee_33") (networkNpz (demoData111 g))) (d := demoData111 g)
    (m := fun _ => 1) (f := Spec.sequencePos)
    (x0 := fun _ => demoV111) (z0 := fun l => demoI111 (g l)) (Y := fun l => Arr2.ofFn 1 1 (fun _ _ => g l)) (ε := fun _ => 0)
    (σ := fun _ => 1) exactInv_contract exactSolve_exact exactSolve_total
    exactPinv_contract exactSvd_contract demoExt_shapes (by norm_num) (by norm_num)
    ⟨by decide, rfl, rfl, rfl, rfl, rfl, fun h => (nomatch h), by decide⟩ hload ⟨rfl, rfl, rfl, ⟨rfl, rfl⟩, fun y hy => (nomatch hy)⟩
    (by show (0 : Int) ∈ Spec.sequenceIds 1; decide) (fun l => labelPos_sequence 1 l) (fun h => (nomatch h.2.1))
    (v := fun _ => demoV111) (c := fun l => demoI111 (g l)) (funext fun l => (demo111_parts g l).1.symm)
    (funext fun l => (demo111_parts g l).2.symm) (fun l => ⟨rfl, by
      show Spec.Noisy (centreData true demoV111 _).1 (centreData true demoV111 _).2 _ _ _ _
      rw [demo111_centred]
      exact demo111_noisy (g l), demo111_excited, by norm_num, by norm_num⟩)
    (fun l => .inr ⟨by norm_num, .inl rfl, fun T _ e he => by simp [Spec.offPairs] at he, fun h => (nomatch h)⟩)
  exact ⟨r, hr⟩

/-- In sequence coordinates the report completes. In phase coordinates it fails if the mutual admittances do not vanish. -/
theorem demo111_report (g : Fin 3 → ℂ) (sc : SimConf) {st : Store} (hu : st (resultFile .uncertainty "ieee_33") = none) (pe : PlotExt) (seq : Bool) :
    (plotResults pe ⟨"ieee_33", seq⟩ (identify demoExt115 ⟨1, 1, 1, 1, 1, true, false, true⟩ sc demoArgs111
      (st.savez (resultFile .network "ieee_33") (networkNpz (demoData111 g)))).store).1 = .ok () ↔
      (seq = false → g 0 + rot (-120) * g 1 + rot 120 * g 2 = 0 ∧ g 0 + rot 120 * g 1 + rot (-120) * g 2 = 0) := by
  have hn := templates_plain "ieee_33" (by decide)
  obtain ⟨r, h⟩ := demo111_identify g sc st
  have hload : networkLoad (st.savez (resultFile .network "ieee_33") (networkNpz (demoData111 g))) demoArgs111.network = .ok (demoData111 g) :=
    C49_network "ieee_33" (demoData111 g) st (h := []) ⟨hn, by simp⟩
  obtain ⟨y, hy, hcases, hiff⟩ := C111_completes3 demoExt_shapes (a := demoArgs111) hn h (by
    exact (savez_other (file_ne hn (by simp))).trans hu) hload (demo111_columns g) (.inl rfl) (.inl (.inr (by simp [demoArgs111]))) pe seq
  refine hiff.trans ?_
  have hd : ∀ i < 3, ∀ j < 3, (demoData111 g).y.get i j = if i = j then [g 0, g 1, g 2].getD i 0 else 0 := by
    intro i hi j hj
    unfold demoData111 Arr2.diag
    rw [Arr2.ofFn_get _ (by exact hi) (by exact hj)]
  rcases hcases with ⟨-, hs, hp⟩ | ⟨hx, -, -⟩ | ⟨⟨-, hs⟩ | ⟨hx, -⟩, rfl⟩
  · subst hs
    obtain ⟨⟨p, hp', -, hm⟩, -⟩ := admittance_mat 1 (demoData111 g).y ⟨rfl, rfl⟩
    rw [hp] at hp'
    cases hp'
    have e : ∀ i < 3, ∀ j < 3, y.get i j = abcBlock.get i 0 * g 0 * seqBlock.get 0 j + abcBlock.get i 1 * g 1 * seqBlock.get 1 j +
        abcBlock.get i 2 * g 2 * seqBlock.get 2 j := by
      intro i hi j hj
      have hb : ∀ (b : ℕ → ℕ → ℂ) (i j : Fin 3), blockMat 1 b i j = b i j := by
        intro b i j
        show (if (i : ℕ) / 3 = (j : ℕ) / 3 then b ((i : ℕ) % 3) ((j : ℕ) % 3) else 0) = _
        rw [if_pos (by omega), Nat.mod_eq_of_lt i.isLt, Nat.mod_eq_of_lt j.isLt]
      have h1 := congrFun (congrFun hm (⟨i, hi⟩ : Fin 3)) (⟨j, hj⟩ : Fin 3)
      have h2 : ∀ l : Fin 3, (blockMat 1 abcBlock.get * (demoData111 g).y.toMat (1 * 3) (1 * 3)) (⟨i, hi⟩ : Fin 3) l = abcBlock.get i l * g l := by
        intro l
        refine (Fin.sum_univ_three (fun k : Fin 3 => blockMat 1 abcBlock.get (⟨i, hi⟩ : Fin 3) k * (demoData111 g).y.get k l)).trans ?_
        rw [hb, hb, hb, hd _ (by decide) _ l.isLt, hd _ (by decide) _ l.isLt, hd _ (by decide) _ l.isLt]
        fin_cases l <;> simp
      refine h1.trans ((Fin.sum_univ_three (fun l : Fin 3 => (blockMat 1 abcBlock.get * (demoData111 g).y.toMat (1 * 3) (1 * 3)) (⟨i, hi⟩ : Fin 3) l *
        blockMat 1 seqBlock.get l (⟨j, hj⟩ : Fin 3))).trans ?_)
      rw [h2, h2, h2, hb, hb, hb]
      rfl
    have ha : ∀ i < 3, ∀ j < 3, abcBlock.get i j = if i = 0 ∨ j = 0 then 1 else if i = j then rot (-120) else rot 120 :=
      fun i hi j hj => Arr2.ofFn_get _ hi hj
    have hq : ∀ i < 3, ∀ j < 3, seqBlock.get i j = (if i = 0 ∨ j = 0 then 1 else if i = j then rot 120 else rot (-120)) / 3 :=
      fun i hi j hj => Arr2.ofFn_get _ hi hj
    have r1 := rot_mul_neg
    have r2 := rot_sq
    have r3 := rot_neg_sq
    have e10 : y.get 1 0 = (g 0 + rot (-120) * g 1 + rot 120 * g 2) / 3 := by
      rw [e 1 (by decide) 0 (by decide)]; simp [ha, hq]; ring
    have e01 : y.get 0 1 = (g 0 + rot 120 * g 1 + rot (-120) * g 2) / 3 := by
      rw [e 0 (by decide) 1 (by decide)]; simp [ha, hq]; ring
    have e20 : y.get 2 0 = (g 0 + rot 120 * g 1 + rot (-120) * g 2) / 3 := by
      rw [e 2 (by decide) 0 (by decide)]; simp [ha, hq]; ring
    have e02 : y.get 0 2 = (g 0 + rot (-120) * g 1 + rot 120 * g 2) / 3 := by
      rw [e 0 (by decide) 2 (by decide)]; simp [ha, hq]; ring
    have e21 : y.get 2 1 = (g 0 + rot (-120) * g 1 + rot 120 * g 2) / 3 := by
      rw [e 2 (by decide) 1 (by decide)]; simp [ha, hq]; linear_combination (g 1 / 3) * r2 + (g 2 / 3) * r3
    have e12 : y.get 1 2 = (g 0 + rot 120 * g 1 + rot (-120) * g 2) / 3 := by
      rw [e 1 (by decide) 2 (by decide)]; simp [ha, hq]; linear_combination (g 1 / 3) * r3 + (g 2 / 3) * r2
    have h3 : ∀ x : ℂ, x / 3 = 0 → x = 0 := fun x hx => by simpa using hx
    constructor
    · intro hl _
      obtain ⟨i, j, hji, hi, h1, h2⟩ := hl rfl
      have hi : i < 3 := hi
      interval_cases i <;> interval_cases j
      · exact ⟨h3 _ (e10 ▸ h1), h3 _ (e01 ▸ h2)⟩
      · exact ⟨h3 _ (e02 ▸ h2), h3 _ (e20 ▸ h1)⟩
      · exact ⟨h3 _ (e21 ▸ h1), h3 _ (e12 ▸ h2)⟩
    · intro hz _
      obtain ⟨z1, z2⟩ := hz rfl
      exact ⟨1, 0, by decide, by decide, by rw [e10, z1, zero_div], by rw [e01, z2, zero_div]⟩
  · exact absurd hx (by decide)
  · subst hs
    refine ⟨fun _ hx => (nomatch hx), fun _ _ => ⟨1, 0, by decide, by decide, hd 1 (by decide) 0 (by decide), hd 0 (by decide) 1 (by decide)⟩⟩
  · exact absurd hx (by decide)

/-- C111 is violated: a completed identification after which the report fails -/
theorem C111_violated (sc : SimConf) (pe : PlotExt) : ∃ st r, (identify demoExt115 ⟨1, 1, 1, 1, 1, true, false, true⟩ sc demoArgs111 st).res = .ok r ∧
    (plotResults pe ⟨"ieee_33", false⟩ (identify demoExt115 ⟨1, 1, 1, 1, 1, true, false, true⟩ sc demoArgs111 st).store).1 ≠ .ok () := by
  obtain ⟨r, h⟩ := demo111_identify (fun l => if l = 0 then 4 else 1) sc (fun _ => none)
  refine ⟨_, r, h, fun hc => ?_⟩
  have := ((demo111_report _ sc rfl pe false).1 hc rfl).1
  simp only [if_true, Fin.reduceEq, if_false, mul_one] at this
  have e : (3 : ℂ) = 0 := by linear_combination this - rot_sum
  norm_num at e

/-- the three programs on the network of C167 -/
example (weighted : Bool) {g : Fin 3 → ℂ} (hg : ∀ l, (g l).re ≠ 0 ∧ (g l).im ≠ 0) {sc : SimConf} (hsc : 0 < sc.vm ∧ 0 < sc.vp) (pe : PlotExt) :
    (plotResults pe ⟨"ieee_33", true⟩ (identify demoExt115 ⟨1, 1, 1, 1, 1, true, true, true⟩ sc (demoArgs166 weighted)
        (simulate (demoWorld167 g) demoConf128 demoArgs128 (fun _ => none)).store).store).1 = .ok () := by
  obtain ⟨net, hnd, hm⟩ := demo167_net g
  obtain ⟨y, hy, -⟩ := demo167_ybus g
  obtain ⟨d, r, -, -, -, -, -, hd, hid, -⟩ := demo167 weighted hg hsc (fun _ => none)
  exact C111_pipeline3 (w := demoWorld167 g) (cf := demoConf128) (a := demoArgs128) (templates_plain "ieee_33" (by decide)) rfl rfl hd
    ⟨rfl, rfl⟩ rfl exactPinv_contract hm ⟨rfl, rfl⟩ ⟨rfl, rfl⟩ ⟨rfl, rfl⟩ hy hy (fun c res => demo167_flow g net c res) (demo167_reducible g)
    demoExt_shapes (b := demoArgs166 weighted) rfl rfl (.inr (by simp [demoArgs166])) hid rfl pe

end
end Verif
