/-
C141 for three phases: without noise the lasso estimate of every sequence is near the block that the two least squares estimates find,
but for the shipped three-phase networks never equal to the stored reference.
-/
import Verif.Props.Shipped3
import Verif.Props.LassoExact
import Verif.Props.PlotLog
import Verif.Props.PipelineDemo3

namespace Verif
open Finset
open Spec (LabelPos Assembled columnsAt blockAt)
noncomputable section

/-- the standard methods for each sequence on data without noise -/
theorem lasso_blocks3 {w : SimWorld} {cf : SimConf} {a : SimArgs} {st : Store} {d : NetworkData} (hn : Spec.PlainName a.network)
    (h3 : a.threePhased = true) (hseq : a.sequence = true) (h : (simulate w cf a st).res = .ok d)
    (hall : a.loads = a.networkSim ∧ a.networkSim = a.noise) (hsd : cf.vm = 0 ∧ cf.cm = 0 ∧ cf.vp = 0 ∧ cf.cp = 0)
    (hhid : cf.hidden = []) (hpinv : Spec.PinvContract w.pinv)
    {net : Net} {bs : List BusData} (hbs : makeNet3 w a.network = .ok (net, bs)) {y0 y1 y2 y : Arr2 ℂ}
    (h0 : Spec.IsSquare bs.length y0) (h1 : Spec.IsSquare bs.length y1) (h2 : Spec.IsSquare bs.length y2)
    (hyy : makeYBus3 y0 y1 y2 = .ok y) (hy : w.yBus3 net = .ok y)
    (hf : ∀ c res, w.flow3 net c = .ok res → Spec.PowerFlow3 bs y res) (hr : Spec.Reducible3 bs y0 y1 y2) {m : ℕ}
    (hm : m = bs.length - (Spec.passive3 bs ∪ Spec.connections bs).card)
    (hadm : ∀ l, Spec.Admissible false (blockAt d.y m (Spec.sequencePos l)))
    {ext : NumExt} {ic : IdConf} (hl : 0 ≤ ic.lambdaLasso) (hinv : Spec.InvContract ext.inv)
    (hex : Spec.Exact ext.solve) (htot : Spec.Total ext.solve) (hpinv' : Spec.PinvContract ext.pinv)
    (hsvd : Spec.SvdContract ext.svdVh) (hsh : Spec.Shapes ext)
    (hrank : ∀ l, Spec.FullColumnRank (centreColumns (columnsAt d.voltage m (Spec.sequencePos l)))) {sc : SimConf}
    {b : IdArgs} (hb : b.network = a.network ∧ b.laplacian = false ∧ b.phases = "012")
    (hstd : Spec.Redone b.standard [b.standard, b.bayesian]) (hit : 0 < b.maxIter)
    {r : (Arr2 ℂ × Arr2 ℂ × Arr2 ℂ) × (Arr2 ℂ × List IterationStatus)}
    (hid : (identify ext ic sc b (simulate w cf a st).store).res = .ok r) :
    ∃ L : Fin 3 → Arr2 ℂ, Assembled (Spec.sequenceIds m) (fun _ => m) Spec.sequencePos L r.1.2.2 ∧
      ∀ l, Spec.NearExact false ic.lambdaLasso (centreColumns (columnsAt d.voltage m (Spec.sequencePos l)))
        (centreColumns (columnsAt d.current m (Spec.sequencePos l))) (blockAt d.y m (Spec.sequencePos (Spec.exchanged l))) (L l) := by
  obtain ⟨hb1, hb2, hb3⟩ := hb
  have h3p : b.threePhased = true := by unfold IdArgs.threePhased; rw [hb3]; decide
  obtain ⟨m', -, hclean, -⟩ := C122_data hn h3 hseq h hall hhid hpinv hbs h0 h1 h2 hyy hy hf hr
  obtain ⟨n1, n2⟩ := hclean hsd.1 hsd.2.1 hsd.2.2.1 hsd.2.2.2
  obtain ⟨q1, q2, q3, -, -, -, -, q8, -⟩ := stored_data3 hn h3 hseq h hall hhid hpinv hbs h0 h1 h2 hyy hy hf hr hm hb1
  obtain ⟨all, y0', hload, -, hs1, -⟩ := C78_identify3 (by rw [hb1]; exact hn) h3p hid
  obtain rfl : all = d := Except.ok.inj (hload.symm.trans q1)
  obtain ⟨hcomp, -⟩ := hs1 hstd
  have hpos : ∀ l : Fin 3, LabelPos all.ids (l.val : Int) m (Spec.sequencePos l) := by
    intro l
    rw [q3]
    exact labelPos_sequence m l
  have hcomp := hcomp st
  rw [if_pos hb3, hb2, C52_standard hsh q2.v q2.c hpos, n1, n2] at hcomp
  obtain ⟨es, he, -, -, hA⟩ := hcomp
  rw [q3] at hA
  refine ⟨_, hA, fun l => ?_⟩
  obtain ⟨L, hL, hN⟩ := C141_standard ext ic hl hinv hex htot hpinv' hsvd (lap := false) (v := columnsAt all.voltage m (Spec.sequencePos l))
    (i := columnsAt all.current m (Spec.sequencePos l)) (hadm (Spec.exchanged l)) (q8 l) (hrank l) hit
  have := he l st
  rw [standardMethods_fst, hL] at this
  rw [← Except.ok.inj this]
  exact hN

/-- C141, three phases: simulate_network.py without noise in sequence coordinates, then identify_network.py for the three sequences:
every block of the third estimate is near the stored block with positive and negative sequence exchanged, as near as the weight of the
prior allows, and equal to it only if that weight or the block is zero -/
theorem C141_three {w : SimWorld} {cf : SimConf} {a : SimArgs} {st : Store} {d : NetworkData} (hn : Spec.PlainName a.network)
    (h3 : a.threePhased = true) (hseq : a.sequence = true) (h : (simulate w cf a st).res = .ok d)
    (hall : a.loads = a.networkSim ∧ a.networkSim = a.noise) (hsd : cf.vm = 0 ∧ cf.cm = 0 ∧ cf.vp = 0 ∧ cf.cp = 0)
    (hhid : cf.hidden = []) (hpinv : Spec.PinvContract w.pinv)
    {net : Net} {bs : List BusData} (hbs : makeNet3 w a.network = .ok (net, bs)) {y0 y1 y2 y : Arr2 ℂ}
    (h0 : Spec.IsSquare bs.length y0) (h1 : Spec.IsSquare bs.length y1) (h2 : Spec.IsSquare bs.length y2)
    (hyy : makeYBus3 y0 y1 y2 = .ok y) (hy : w.yBus3 net = .ok y)
    (hf : ∀ c res, w.flow3 net c = .ok res → Spec.PowerFlow3 bs y res) (hr : Spec.Reducible3 bs y0 y1 y2)
    (hsym : Spec.IsSymm y0 ∧ Spec.IsSymm y1 ∧ Spec.IsSymm y2) {m : ℕ}
    (hm : m = bs.length - (Spec.passive3 bs ∪ Spec.connections bs).card)
    {ext : NumExt} {ic : IdConf} (hl : 0 ≤ ic.lambdaLasso) (hinv : Spec.InvContract ext.inv)
    (hex : Spec.Exact ext.solve) (htot : Spec.Total ext.solve) (hpinv' : Spec.PinvContract ext.pinv)
    (hsvd : Spec.SvdContract ext.svdVh) (hsh : Spec.Shapes ext)
    (hrank : ∀ l, Spec.FullColumnRank (centreColumns (columnsAt d.voltage m (Spec.sequencePos l)))) {sc : SimConf}
    {b : IdArgs} (hb : b.network = a.network ∧ b.laplacian = false ∧ b.phases = "012")
    (hstd : Spec.Redone b.standard [b.standard, b.bayesian]) (hit : 0 < b.maxIter)
    {r : (Arr2 ℂ × Arr2 ℂ × Arr2 ℂ) × (Arr2 ℂ × List IterationStatus)}
    (hid : (identify ext ic sc b (simulate w cf a st).store).res = .ok r) :
    ∃ L : Fin 3 → Arr2 ℂ, Assembled (Spec.sequenceIds m) (fun _ => m) Spec.sequencePos L r.1.2.2 ∧
      ∀ l, Spec.NearExact false ic.lambdaLasso (centreColumns (columnsAt d.voltage m (Spec.sequencePos l)))
        (centreColumns (columnsAt d.current m (Spec.sequencePos l))) (blockAt d.y m (Spec.sequencePos (Spec.exchanged l))) (L l) :=
  lasso_blocks3 hn h3 hseq h hall hsd hhid hpinv hbs h0 h1 h2 hyy hy hf hr hm
    (C167 hn h3 hseq h hall hhid hpinv hbs h0 h1 h2 hyy hy hf hr hsym hm).2 hl hinv hex htot hpinv' hsvd hsh hrank hb hstd hit hid

theorem template3_nonempty {bs : List BusData} {ls : List LineData} {n : ℕ} {kv : ℝ} {passive : List Int} (h : Spec.Template3 bs ls n kv passive)
    (hlt : passive.length + 1 < n) : 0 < bs.length - (Spec.passive3 bs ∪ Spec.connections bs).card := by
  rw [h.feeder.connections, h.feeder.length]
  have := (Finset.card_union_le (Spec.passive3 bs) {n - 1}).trans (Nat.add_le_add_right h.passive_card _)
  rw [Finset.card_singleton] at this
  omega

theorem shipped3_nonempty {name : String} {bs : List BusData} (h : shippedBuses3 name = some bs) :
    0 < bs.length - (Spec.passive3 bs ∪ Spec.connections bs).card := by
  unfold shippedBuses3 at h
  split_ifs at h
  all_goals
    cases h
    first
      | exact template3_nonempty cigreFeeder3_template (by decide)
      | exact template3_nonempty test3Phase_template (by decide)
      | exact template3_nonempty ieee123Center_template (by decide)

/-- C141, shipped three-phase networks: on data without noise the lasso estimate differs from the stored reference, whatever its positive
weight, although both least squares estimates are that reference -/
theorem C141_three_shipped {w : SimWorld} (hw : w.Shipped) {cf : SimConf} {a : SimArgs} {st : Store} {d : NetworkData} (hn : Spec.PlainName a.network)
    (h3 : a.threePhased = true) (hseq : a.sequence = true) (h : (simulate w cf a st).res = .ok d)
    (hall : a.loads = a.networkSim ∧ a.networkSim = a.noise) (hsd : cf.vm = 0 ∧ cf.cm = 0 ∧ cf.vp = 0 ∧ cf.cp = 0)
    (hhid : cf.hidden = []) (hpinv : Spec.PinvContract w.pinv)
    {net : Net} {bs : List BusData} (hbs : makeNet3 w a.network = .ok (net, bs)) {ls : List LineData} (hls : shippedLines3 a.network = some ls)
    {y0 y1 y2 y : Arr2 ℂ} {sn : ℝ} (hsn : 0 < sn)
    (g0 : Spec.GridBesides sn bs (Spec.sequenceLines Spec.zero ls) y0) (g1 : Spec.GridBesides sn bs (Spec.sequenceLines Spec.positive ls) y1)
    (g2 : Spec.GridBesides sn bs (Spec.sequenceLines Spec.positive ls) y2) (hyy : makeYBus3 y0 y1 y2 = .ok y) (hy : w.yBus3 net = .ok y)
    (hf : ∀ c res, w.flow3 net c = .ok res → Spec.PowerFlow3 bs y res)
    {ext : NumExt} {ic : IdConf} (hl : 0 < ic.lambdaLasso) (hinv : Spec.InvContract ext.inv)
    (hex : Spec.Exact ext.solve) (htot : Spec.Total ext.solve) (hpinv' : Spec.PinvContract ext.pinv)
    (hsvd : Spec.SvdContract ext.svdVh) (hsh : Spec.Shapes ext)
    (hrank : ∀ l, Spec.FullColumnRank (centreColumns (columnsAt d.voltage (d.voltage.c / 3) (Spec.sequencePos l)))) {sc : SimConf}
    {b : IdArgs} (hb : b.network = a.network ∧ b.laplacian = false ∧ b.phases = "012")
    (hstd : Spec.Redone b.standard [b.standard, b.bayesian]) (hit : 0 < b.maxIter)
    {r : (Arr2 ℂ × Arr2 ℂ × Arr2 ℂ) × (Arr2 ℂ × List IterationStatus)}
    (hid : (identify ext ic sc b (simulate w cf a st).store).res = .ok r) :
    r.1.1 = d.y ∧ r.1.2.1 = d.y ∧ r.1.2.2 ≠ d.y := by
  have h3p : b.threePhased = true := by unfold IdArgs.threePhased; rw [hb.2.2]; decide
  obtain ⟨q1, q2⟩ := C122_shipped hw hn h3 hseq h hall hsd hhid hpinv hbs hls hsn g0 g1 g2 hyy hy hf hl.le hinv hex htot hpinv' hsvd hsh hrank
    ⟨hb.1, h3p, hb.2.1, hb.2.2⟩ hstd hid
  refine ⟨q1, q2, fun he => ?_⟩
  obtain ⟨ls', e1, -⟩ := C133_three hbs
  rw [hw.buses3] at e1
  have hm0 := shipped3_nonempty e1
  obtain ⟨hass, -, -⟩ := C167_shipped hw hn h3 hseq h hall hhid hpinv hbs hls hsn g0 g1 g2 hyy hy hf rfl
  obtain ⟨hr, hadm, hxc⟩ := shipped3_blocks hw hn h3 hseq h hall hhid hpinv hbs hls hsn g0 g1 g2 hyy hy hf rfl
  obtain ⟨m', rs, -, -, hvc, -, hm', -⟩ := C122_data hn h3 hseq h hall hhid hpinv hbs g0.1 g1.1 g2.1 hyy hy hf hr
  obtain ⟨-, hdis, -⟩ := C152_three_shipped_partial hw hn h3 hseq h hall hhid hpinv hbs hls hsn g0 g1 g2 hyy hy hf
  set m := bs.length - (Spec.passive3 bs ∪ Spec.connections bs).card with hm
  have hmm : d.voltage.c / 3 = m := by omega
  rw [hmm] at hrank
  obtain ⟨L, hA, hN⟩ := lasso_blocks3 hn h3 hseq h hall hsd hhid hpinv hbs g0.1 g1.1 g2.1 hyy hy hf hr hm hadm hl.le hinv hex htot hpinv' hsvd hsh
    hrank hb hstd hit hid
  have hLe := (assembled_eq (labelPos_sequence m) hA hass (fun l => (hN l).square) (fun l => ⟨rfl, rfl⟩)).1 he
  obtain ⟨p1, p2⟩ := assembled_power (m := m) (r := fun l => blockAt d.y m (Spec.sequencePos l)) (fun l => ⟨rfl, rfl⟩) hass (fun _ => 1)
  have hpos := hdis (fun _ => 1) ⟨0, by rw [p1]; omega, one_ne_zero⟩
  rw [p2, Finset.sum_eq_zero] at hpos
  · simp at hpos
  intro l _
  rcases (hN l).equal.1 ((congrFun hLe l).trans (hxc l).symm) with h1 | h1
  · exact absurd h1 hl.ne'
  rw [hxc l] at h1
  unfold Spec.power Spec.currents
  refine Finset.sum_eq_zero fun i hi => ?_
  rw [Finset.sum_eq_zero, map_zero, mul_zero]
  intro j hj
  rw [h1 j i (Finset.mem_range.1 hj) (Finset.mem_range.1 hi), mul_zero]

/-- the hypotheses of C141_three: a run of both programs in which the third estimate is none of the values that the other two find -/
theorem demo_C141_three (g : Fin 3 → ℂ) (hg : ∀ l, g l ≠ 0) (sc : SimConf) (st : Store) :
    ∃ d r, (simulate (demoWorld128 g) demoConf128 demoArgs128 st).res = .ok d ∧
    (identify demoExt115 ⟨1, 1, 1, 1, 1, true, true, true⟩ sc demoId128
      (simulate (demoWorld128 g) demoConf128 demoArgs128 st).store).res = .ok r ∧
    r.1.1 = Arr2.diag [g 0, g 2, g 1] ∧ r.1.2.1 = Arr2.diag [g 0, g 2, g 1] ∧
    ∀ l : Fin 3, r.1.2.2.get l l ≠ g (Spec.exchanged l) := by
  have hn := templates_plain "ieee_33" (by decide)
  obtain ⟨net, hnd, hm⟩ := demo128_net g
  obtain ⟨y, hy, -⟩ := demo128_bus g
  obtain ⟨d, r, hd, hid, -, q1, q2⟩ := demo_C128 g sc st
  obtain ⟨hwid, hrank, hblk⟩ := demo128_data hd
  have hs : ∀ c : ℂ, Spec.IsSymm (demoY128 c) := by
    intro c
    refine ⟨rfl, fun i j => ?_⟩
    unfold demoY128 Arr2.ofFn Arr2.get
    simp only [eq_comm, and_comm]
  obtain ⟨L, hA, hN⟩ := C141_three (sc := sc) (ic := ⟨1, 1, 1, 1, 1, true, true, true⟩) (b := demoId128) (ext := demoExt115)
    hn rfl rfl hd ⟨rfl, rfl⟩ ⟨rfl, rfl, rfl, rfl⟩ rfl exactPinv_contract hm ⟨rfl, rfl⟩ ⟨rfl, rfl⟩ ⟨rfl, rfl⟩ hy hy
    (fun c res => demo128_flow g net c res) (demo128_reducible g) ⟨hs _, hs _, hs _⟩ demo128_nodes (by norm_num) exactInv_contract
    exactSolve_exact exactSolve_total exactPinv_contract exactSvd_contract demoExt_shapes hrank ⟨rfl, rfl, rfl⟩ (Or.inr (by decide)) (by decide) hid
  have hval : ∀ l, (blockAt d.y 1 (Spec.sequencePos l)).get 0 0 = g l := by
    intro l
    rw [hblk, Arr2.ofFn_get _ one_pos one_pos]
  refine ⟨d, r, hd, hid, q1, q2, fun l he => ?_⟩
  have e := hA.block l 0 0 one_pos one_pos
  have hp : Spec.sequencePos l 0 = l := by simp [Spec.sequencePos]
  rw [hp, he] at e
  have hLY : L l = blockAt d.y 1 (Spec.sequencePos (Spec.exchanged l)) := by
    have hsq := (hN l).square
    refine Arr2.ext' hsq.1 hsq.2 fun i j hi hj => ?_
    have hi' : i < 1 := by rw [hsq.1] at hi; exact hi
    have hj' : j < 1 := by rw [hsq.2] at hj; exact hj
    obtain rfl : i = 0 := by omega
    obtain rfl : j = 0 := by omega
    rw [← e, hval]
  rcases (hN l).equal.1 hLY with h1 | h1
  · exact one_ne_zero h1
  · exact hg _ ((hval _).symm.trans (h1 0 0 one_pos one_pos))

end
end Verif
