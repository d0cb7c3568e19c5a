/-
C183 for three phases: what the least squares estimates of each sequence are when the data do not determine the network.
-/
import Verif.Props.Determined
import Verif.Props.LassoExact3

namespace Verif
open Finset
open Spec (LabelPos Assembled columnsAt blockAt)
noncomputable section

/-- the blocks of a matrix that consumes power at all voltages do so, too -/
theorem block_dissipative {m : ℕ} {r : Fin 3 → Arr2 ℂ} {y : Arr2 ℂ} (hr : ∀ l, Spec.IsSquare m (r l))
    (h : Assembled (Spec.sequenceIds m) (fun _ => m) Spec.sequencePos r y) (hy : Spec.Dissipative y) (l : Fin 3) : Spec.Dissipative (r l) := by
  rintro u ⟨k, hk, hne⟩
  rw [(hr l).1] at hk ⊢
  obtain ⟨h1, h2⟩ := assembled_power hr h (fun i => if i % 3 = l then u (i / 3) else 0)
  have hpos := hy (fun i => if i % 3 = l then u (i / 3) else 0) ⟨k * 3 + l, by rw [h1]; omega, by
    have e1 : (k * 3 + (l : ℕ)) % 3 = l := by omega
    have e2 : (k * 3 + (l : ℕ)) / 3 = k := by omega
    rw [if_pos e1, e2]
    exact hne⟩
  rw [h2] at hpos
  have e : ∀ l' : Fin 3, (fun a : ℕ => if (a * 3 + (l' : ℕ)) % 3 = (l : ℕ) then u ((a * 3 + (l' : ℕ)) / 3) else 0) =
      if l' = l then u else fun _ => 0 := by
    intro l'
    funext a
    have e1 : (a * 3 + (l' : ℕ)) % 3 = l' := by omega
    have e2 : (a * 3 + (l' : ℕ)) / 3 = a := by omega
    rw [e1, e2]
    by_cases hl : l' = l
    · rw [if_pos hl, if_pos (congrArg Fin.val hl)]
    · rw [if_neg hl, if_neg (fun e => hl (Fin.ext e))]
  rw [Finset.sum_eq_single l] at hpos
  · rw [e l, if_pos rfl] at hpos
    exact hpos
  · intro l' _ hl
    rw [e l', if_neg hl]
    unfold Spec.power
    exact Finset.sum_eq_zero fun k _ => zero_mul _
  · intro hn
    exact absurd (Finset.mem_univ l) hn

/-- C183, three phases: after a simulation without noise in sequence coordinates both least squares estimates of each sequence explain the
stored measurements of this sequence; the ordinary one is the stored block, with positive and negative sequence exchanged, exactly if the
voltages of the sequence show everything that this does -/
theorem C183_three {w : SimWorld} {cf : SimConf} {a : SimArgs} {st : Store} {d : NetworkData} (hn : Spec.PlainName a.network)
    (h3 : a.threePhased = true) (hseq : a.sequence = true) (h : (simulate w cf a st).res = .ok d)
    (hall : a.loads = a.networkSim ∧ a.networkSim = a.noise) (hsd : cf.vm = 0 ∧ cf.cm = 0 ∧ cf.vp = 0 ∧ cf.cp = 0)
    (hhid : cf.hidden = []) (hpinv : Spec.PinvContract w.pinv)
    {net : Net} {bs : List BusData} (hbs : makeNet3 w a.network = .ok (net, bs)) {y0 y1 y2 y : Arr2 ℂ}
    (h0 : Spec.IsSquare bs.length y0) (h1 : Spec.IsSquare bs.length y1) (h2 : Spec.IsSquare bs.length y2)
    (hyy : makeYBus3 y0 y1 y2 = .ok y) (hy : w.yBus3 net = .ok y)
    (hf : ∀ c res, w.flow3 net c = .ok res → Spec.PowerFlow3 bs y res) (hr : Spec.Reducible3 bs y0 y1 y2) {m : ℕ}
    (hm : m = bs.length - (Spec.passive3 bs ∪ Spec.connections bs).card)
    {ext : NumExt} {ic : IdConf} (hinv : Spec.InvSound ext.inv) (hpinv' : Spec.PinvContract ext.pinv)
    (hsvd : Spec.SvdContract ext.svdVh) (hsh : Spec.Shapes ext) {sc : SimConf}
    {b : IdArgs} (hb : b.network = a.network ∧ b.laplacian = false ∧ b.phases = "012")
    (hstd : Spec.Redone b.standard [b.standard, b.bayesian])
    {r : (Arr2 ℂ × Arr2 ℂ × Arr2 ℂ) × (Arr2 ℂ × List IterationStatus)}
    (hid : (identify ext ic sc b (simulate w cf a st).store).res = .ok r) :
    ∃ O T : Fin 3 → Arr2 ℂ, Assembled (Spec.sequenceIds m) (fun _ => m) Spec.sequencePos O r.1.1 ∧
      Assembled (Spec.sequenceIds m) (fun _ => m) Spec.sequencePos T r.1.2.1 ∧
      ∀ l, Spec.Explains (centreColumns (columnsAt d.voltage m (Spec.sequencePos l)))
          (centreColumns (columnsAt d.current m (Spec.sequencePos l))) (O l) ∧
        Spec.Explains (centreColumns (columnsAt d.voltage m (Spec.sequencePos l)))
          (centreColumns (columnsAt d.current m (Spec.sequencePos l))) (T l) ∧
        (O l = blockAt d.y m (Spec.sequencePos (Spec.exchanged l)) ↔
          Spec.Visible (centreColumns (columnsAt d.voltage m (Spec.sequencePos l))) (blockAt d.y m (Spec.sequencePos (Spec.exchanged l)))) := by
  obtain ⟨hb1, hb2, hb3⟩ := hb
  have h3p : b.threePhased = true := by unfold IdArgs.threePhased; rw [hb3]; decide
  obtain ⟨m', -, hclean, -⟩ := C122_data hn h3 hseq h hall hhid hpinv hbs h0 h1 h2 hyy hy hf hr
  obtain ⟨n1, n2⟩ := hclean hsd.1 hsd.2.1 hsd.2.2.1 hsd.2.2.2
  obtain ⟨q1, q2, q3, -, -, -, -, q8, -⟩ := stored_data3 hn h3 hseq h hall hhid hpinv hbs h0 h1 h2 hyy hy hf hr hm hb1
  obtain ⟨all, y0', hload, -, hs1, -⟩ := C78_identify3 (by rw [hb1]; exact hn) h3p hid
  obtain rfl : all = d := Except.ok.inj (hload.symm.trans q1)
  obtain ⟨hcomp, -⟩ := hs1 hstd
  have hpos : ∀ l : Fin 3, LabelPos all.ids (l.val : Int) m (Spec.sequencePos l) := by
    intro l
    rw [q3]
    exact labelPos_sequence m l
  have hcomp := hcomp st
  rw [if_pos hb3, hb2, C52_standard hsh q2.v q2.c hpos, n1, n2] at hcomp
  obtain ⟨es, he, hO, hT, -⟩ := hcomp
  rw [q3] at hO hT
  refine ⟨_, _, hO, hT, fun l => ?_⟩
  have hl := he l st
  rw [standardMethods_fst] at hl
  obtain ⟨kO, kT⟩ := standard_ols hl
  obtain ⟨-, hrows, hcols, -⟩ := matmul_entry (q8 l)
  have hE := (explains_iff hrows).2 ⟨q8 l, hcols.symm⟩
  obtain ⟨O, k1, k2, k3, -⟩ := C183_ols hpinv' hrows hE
  have k1' : O = (es l).1 := Except.ok.inj (k1.symm.trans kO)
  rw [k1'] at k2 k3
  exact ⟨k2, C183_tls hsvd hinv hE kT, k3⟩

/-- C183, shipped three-phase networks: the ordinary least squares estimate is the reference exactly if the centred voltages of each sequence
are linearly independent, hence only if more samples are stored than nodes -/
theorem C183_three_shipped {w : SimWorld} (hw : w.Shipped) {cf : SimConf} {a : SimArgs} {st : Store} {d : NetworkData} (hn : Spec.PlainName a.network)
    (h3 : a.threePhased = true) (hseq : a.sequence = true) (h : (simulate w cf a st).res = .ok d)
    (hall : a.loads = a.networkSim ∧ a.networkSim = a.noise) (hsd : cf.vm = 0 ∧ cf.cm = 0 ∧ cf.vp = 0 ∧ cf.cp = 0)
    (hhid : cf.hidden = []) (hpinv : Spec.PinvContract w.pinv)
    {net : Net} {bs : List BusData} (hbs : makeNet3 w a.network = .ok (net, bs)) {ls : List LineData} (hls : shippedLines3 a.network = some ls)
    {y0 y1 y2 y : Arr2 ℂ} {sn : ℝ} (hsn : 0 < sn)
    (g0 : Spec.GridBesides sn bs (Spec.sequenceLines Spec.zero ls) y0) (g1 : Spec.GridBesides sn bs (Spec.sequenceLines Spec.positive ls) y1)
    (g2 : Spec.GridBesides sn bs (Spec.sequenceLines Spec.positive ls) y2) (hyy : makeYBus3 y0 y1 y2 = .ok y) (hy : w.yBus3 net = .ok y)
    (hf : ∀ c res, w.flow3 net c = .ok res → Spec.PowerFlow3 bs y res)
    {ext : NumExt} {ic : IdConf} (hinv : Spec.InvSound ext.inv) (hpinv' : Spec.PinvContract ext.pinv)
    (hsvd : Spec.SvdContract ext.svdVh) (hsh : Spec.Shapes ext) {sc : SimConf}
    {b : IdArgs} (hb : b.network = a.network ∧ b.laplacian = false ∧ b.phases = "012")
    (hstd : Spec.Redone b.standard [b.standard, b.bayesian])
    {r : (Arr2 ℂ × Arr2 ℂ × Arr2 ℂ) × (Arr2 ℂ × List IterationStatus)}
    (hid : (identify ext ic sc b (simulate w cf a st).store).res = .ok r) :
    (r.1.1 = d.y ↔ ∀ l, Spec.FullColumnRank (centreColumns (columnsAt d.voltage (d.voltage.c / 3) (Spec.sequencePos l)))) ∧
      (d.voltage.r ≤ d.voltage.c / 3 → r.1.1 ≠ d.y) := by
  obtain ⟨ls', e1, -⟩ := C133_three hbs
  rw [hw.buses3] at e1
  obtain ⟨-, hr⟩ := C136_three_matrices e1 hls hsn g0 g1 g2
  obtain ⟨-, -, heq⟩ := C167_shipped hw hn h3 hseq h hall hhid hpinv hbs hls hsn g0 g1 g2 hyy hy hf rfl
  obtain ⟨-, hdis, -⟩ := C152_three_shipped_partial hw hn h3 hseq h hall hhid hpinv hbs hls hsn g0 g1 g2 hyy hy hf
  obtain ⟨m0, -, -, hids, hvc, -, hm', -⟩ := C122_data hn h3 hseq h hall hhid hpinv hbs g0.1 g1.1 g2.1 hyy hy hf hr
  obtain ⟨q1, q2, q3, -, -, -, q7, q8, -⟩ := stored_data3 hn h3 hseq h hall hhid hpinv hbs g0.1 g1.1 g2.1 hyy hy hf hr hm' hb.1
  obtain ⟨O, T, hO, -, key⟩ := C183_three hn h3 hseq h hall hsd hhid hpinv hbs g0.1 g1.1 g2.1 hyy hy hf hr hm' hinv hpinv' hsvd hsh hb hstd hid
  rw [← hm'] at heq
  have hm0 : 0 < m0 := hm' ▸ shipped3_nonempty e1
  have e3 : d.voltage.c / 3 = m0 := by omega
  rw [e3]
  rw [q3] at q7
  have hsq : ∀ l, Spec.IsSquare m0 (blockAt d.y m0 (Spec.sequencePos l)) := fun l => ⟨rfl, rfl⟩
  have hex : ∀ l, blockAt d.y m0 (Spec.sequencePos (Spec.exchanged l)) = blockAt d.y m0 (Spec.sequencePos l) := by
    intro l
    fin_cases l
    · rfl
    · exact heq.symm
    · exact heq
  have hblock : ∀ l, O l = blockAt d.y m0 (Spec.sequencePos l) ↔
      Spec.FullColumnRank (centreColumns (columnsAt d.voltage m0 (Spec.sequencePos l))) := by
    intro l
    have := (key l).2.2
    rw [hex l, shown_regular (y := blockAt d.y m0 (Spec.sequencePos l)) rfl rfl
      (regular_of_dissipative rfl (block_dissipative hsq q7 hdis l))] at this
    exact this
  have hiff : r.1.1 = d.y ↔ ∀ l, Spec.FullColumnRank (centreColumns (columnsAt d.voltage m0 (Spec.sequencePos l))) := by
    constructor
    · intro e l
      rw [← hblock l]
      obtain ⟨⟨o1, o2⟩, -⟩ := (key l).1
      refine Arr2.ext' o1 o2 (fun i j hi hj => ?_)
      have hi' : i < m0 := by rw [o1] at hi; exact hi
      have hj' : j < m0 := by rw [o2] at hj; exact hj
      rw [← hO.block l i j hi' hj', e, q7.block l i j hi' hj']
    · intro hk
      have e : O = fun l => blockAt d.y m0 (Spec.sequencePos l) := funext fun l => (hblock l).2 (hk l)
      rw [e] at hO
      exact Spec.Assembled.unique (fun l => labelPos_sequence m0 l) hO q7
  exact ⟨hiff, fun hle he => absurd (centred_rank (v := columnsAt d.voltage m0 (Spec.sequencePos 0)) hm0 (hiff.1 he 0)) (by
    show ¬ m0 < d.voltage.r
    omega)⟩

end
end Verif
