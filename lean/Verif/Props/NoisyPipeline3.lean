/-
C128: simulate_network.py for a three-phase network with noise, in sequence values, then identify_network.py for the three sequences:
the identification returns, and its least-squares estimates are close to the stored reference with positive and negative sequence
exchanged.
-/
import Verif.Props.NoisyPipeline
import Verif.Props.SimulateRun3
import Verif.Props.IdentifyRun3

namespace Verif
open Finset
open Spec (LabelPos Assembled columnsAt blockAt)
noncomputable section

/-- C128: simulate_network.py for a three-phase network in sequence values, then identify_network.py on the stored data with all
methods. If, for each sequence, the noise of the centred data is small against the excitation and the Bayesian method has data or a
prior that determine its estimate, the identification returns. Its ordinary and total least squares estimates have one block per
sequence and zeros elsewhere; the errors of the blocks are bounded relative to the stored zero-sequence block for the zero sequence,
to the stored negative-sequence block for the positive sequence and to the stored positive-sequence block for the negative one. -/
theorem C128 {w : SimWorld} {cf : SimConf} {a : SimArgs} {st : Store} {d : NetworkData} (hn : Spec.PlainName a.network)
    (h3 : a.threePhased = true) (hseq : a.sequence = true) (h : (simulate w cf a st).res = .ok d)
    (hall : a.loads = a.networkSim ∧ a.networkSim = a.noise) (hhid : cf.hidden = []) (hpinv : Spec.PinvContract w.pinv)
    {net : Net} {bs : List BusData} (hbs : makeNet3 w a.network = .ok (net, bs)) {y0 y1 y2 y : Arr2 ℂ}
    (h0 : Spec.IsSquare bs.length y0) (h1 : Spec.IsSquare bs.length y1) (h2 : Spec.IsSquare bs.length y2)
    (hyy : makeYBus3 y0 y1 y2 = .ok y) (hy : w.yBus3 net = .ok y)
    (hf : ∀ c res, w.flow3 net c = .ok res → Spec.PowerFlow3 bs y res) (hr : Spec.Reducible3 bs y0 y1 y2) {m : ℕ}
    (hm : m = bs.length - (Spec.passive3 bs ∪ Spec.connections bs).card) (hm0 : 0 < m)
    {ext : NumExt} {ic : IdConf} (hlasso : 0 ≤ ic.lambdaLasso) (hl : 0 ≤ ic.lambdaEiv) (hinv : Spec.InvContract ext.inv)
    (hex : Spec.Exact ext.solve) (htot : Spec.Total ext.solve) (hpinv' : Spec.PinvContract ext.pinv)
    (hsvd : Spec.SvdContract ext.svdVh) (hsh : Spec.Shapes ext) {sc : SimConf} {b : IdArgs}
    (hb : b.network = a.network ∧ b.threePhased = true ∧ b.laplacian = false ∧ b.sequence = true ∧ b.phases = "012" ∧
      b.continueId = false ∧ b.uncertainty = false ∧ b.standard = b.bayesian ∧ 0 < b.maxIter ∧ (b.exact = true → 29 ≤ m))
    {v c nv nc : Fin 3 → Arr2 ℂ} (hv : v = fun l => centreColumns (columnsAt d.voltage m (Spec.sequencePos l)))
    (hc : c = fun l => centreColumns (columnsAt d.current m (Spec.sequencePos l)))
    (hnv : nv = fun l => centreColumns (columnsAt d.noisyVoltage m (Spec.sequencePos l)))
    (hnc : nc = fun l => centreColumns (columnsAt d.noisyCurrent m (Spec.sequencePos l))) {ε σ : Fin 3 → ℝ}
    (hε : ∀ l, 0 ≤ ε l ∧ 2 * ε l < σ l) (hσ : ∀ l, Spec.AtLeast (v l) (σ l))
    (hnoise : ∀ l p q, Spec.len (((nv l).toMat (v l).r (v l).c - (v l).toMat (v l).r (v l).c).mulVec p +
        ((nc l).toMat (v l).r (c l).c - (c l).toMat (v l).r (c l).c).mulVec q) ≤ ε l * Spec.len (Fin.append p q))
    (hcase : ∀ l, (b.weighted = false ∧ Spec.Unrelated (nv l) (nc l)) ∨
      (0 < ic.lambdaEiv ∧ (ic.contrastEachRow = true ∧ ic.regularizeDiag = true ∧ ic.lambdaprime ≠ 0) ∧
        (∀ T, tlsFit ext.svdVh ext.inv (nv l) (nc l) = .ok T → Spec.LinesSeen m T) ∧
        (b.weighted = true → m ≠ 1 ∧ 0 < sc.vm ∧ 0 < sc.vp ∧
          (b.unsynchronized = true → ∀ t j, t < d.noisyVoltage.r → j < m * 3 → d.noisyVoltage.get t j ≠ 0)))) :
    ∃ r, ∃ B T : Fin 3 → Arr2 ℂ, (identify ext ic sc b (simulate w cf a st).store).res = .ok r ∧
      Assembled (Spec.sequenceIds m) (fun _ => m) Spec.sequencePos (fun l => blockAt d.y m (Spec.sequencePos l)) d.y ∧
      Assembled (Spec.sequenceIds m) (fun _ => m) Spec.sequencePos B r.1.1 ∧
      Assembled (Spec.sequenceIds m) (fun _ => m) Spec.sequencePos T r.1.2.1 ∧
      (∀ l, Spec.ErrorBound (B l) (blockAt d.y m (Spec.sequencePos (Spec.exchanged l))) (σ l - ε l) (ε l) ∧
        Spec.ErrorBound (T l) (blockAt d.y m (Spec.sequencePos (Spec.exchanged l))) (σ l - 2 * ε l) (2 * ε l)) ∧
      (identify ext ic sc b (simulate w cf a st).store).store (resultFile .reference a.network) =
        some (referenceNpz d.y "012" false) := by
  obtain ⟨hb1, hb2, hb3, hb4, hb5, hb6, hb7, hb8, hb9, hb10⟩ := hb
  obtain ⟨m', rs, -, hids, hvc, hic, hm', hsq, -, hass, heq, hst, ⟨k1, k2, k3, k4, k5, k6⟩, -⟩ :=
    C122_data hn h3 hseq h hall hhid hpinv hbs h0 h1 h2 hyy hy hf hr
  obtain rfl : m = m' := hm.trans hm'.symm
  have hload : networkLoad (simulate w cf a st).store b.network = .ok d := by
    have := C49_network a.network d (simulate w cf a st).store (h := []) ⟨hn, by simp⟩
    have e : (simulate w cf a st).store.savez (resultFile .network a.network) (networkNpz d) = (simulate w cf a st).store := by
      funext f
      by_cases hfn : f = resultFile .network a.network
      · subst hfn; rw [hst]; simp [Store.savez]
      · simp [Store.savez, hfn]
    rw [e] at this
    rw [hb1]; exact this
  have hlen : d.ids.length = m * 3 := by rw [hids]; simp [Spec.sequenceIds]
  have hpos : ∀ l : Fin 3, LabelPos d.ids (l.val : Int) m (Spec.sequencePos l) := by
    intro l
    rw [hids]
    exact labelPos_sequence m l
  have hblk : ∀ l, blockAt d.y m (Spec.sequencePos l) = rs l := by
    intro l
    refine Arr2.ext' (hsq l).1.symm (hsq l).2.symm fun i j (hi : i < m) (hj : j < m) => ?_
    unfold blockAt
    rw [Arr2.ofFn_get _ hi hj, hass.block l i j hi hj]
  have hysq : Spec.IsSquare d.ids.length d.y := hass.square
  subst hv hc hnv hnc
  obtain ⟨r, B, T, hres, hB, hT, hbound⟩ := C124 (cf := ic) (sc := sc) (a := b) (m := fun _ => m) (f := Spec.sequencePos)
    (x0 := fun l => centreColumns (columnsAt d.voltage m (Spec.sequencePos l)))
    (z0 := fun l => centreColumns (columnsAt d.current m (Spec.sequencePos l))) (Y := fun l => rs (Spec.exchanged l)) (ε := ε) (σ := σ)
    hinv hex htot hpinv' hsvd hsh hlasso hl ⟨hb2, hb4, hb5, hb6, hb7, hb8, fun hx => .inr fun _ => hb10 hx, hb9⟩ hload
    ⟨by rw [hlen, k2], by rw [hlen, k4], by rw [hlen, k5], hysq, fun y hy => nomatch hy⟩
    (by
      rw [hids]
      exact List.mem_map.2 ⟨0, List.mem_range.2 (by omega), rfl⟩)
    hpos (by rw [hb3]; simp) rfl rfl
    (fun l => ⟨by rw [(hsq _).1, (hsq _).2], by
      rw [hb3]
      exact ⟨heq l, ⟨k1, rfl⟩, ⟨k3, rfl⟩, hnoise l⟩, hσ l, (hε l).1, (hε l).2⟩)
    (fun l => by
      rw [hb3]
      rcases hcase l with g | ⟨g1, g2, g3, g4⟩
      · exact .inl g
      · refine .inr ⟨g1, .inr g2, g3, fun hw => ?_⟩
        obtain ⟨q1, q2, q3, q4⟩ := g4 hw
        refine ⟨hm0.ne', q1, q2, q3, k6, fun hu t j ht hj => ?_⟩
        have hj' : j < m := hj
        have ht' : t < d.noisyVoltage.r := ht
        have := q4 hu t (Spec.sequencePos l j) ht' (by unfold Spec.sequencePos; have := l.2; omega)
        unfold columnsAt
        rw [Arr2.ofFn_get _ ht' hj']
        exact this)
  rw [hids] at hass hB hT
  refine ⟨r, B, T, hres, ?_, hB, hT, ?_, ?_⟩
  · rw [show (fun l => blockAt d.y m (Spec.sequencePos l)) = rs from funext hblk]
    exact hass
  · intro l
    rw [hblk]
    exact hbound l
  · obtain ⟨all, y0', hload', -, -, -, -, -, -, href⟩ := C78_identify3 (by rw [hb1]; exact hn) hb2 hres
    rw [hload] at hload'
    cases hload'
    rw [hb1, hb3, hb5] at href
    exact href

end
end Verif
