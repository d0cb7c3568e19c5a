/-
C152 and C183 in the mode `--laplacian` for the shipped networks: only equal voltages cause no losses in the stored network, and the least
squares estimate is that network exactly if only equal voltages are orthogonal to all samples.
-/
import Verif.Props.Determined
import Verif.Props.Reference
import Verif.Props.ShippedDemo

namespace Verif
open Finset Matrix
noncomputable section

/-- the eliminated network loses power unless all its voltages are equal -/
theorem eliminated_losses {sn : ℝ} (hsn : 0 < sn) {bs : List BusData} {ls : List LineData} {y red : Arr2 ℂ} (hb : Spec.Buildable bs ls)
    (hg : Spec.IsGridMatrix sn bs ls y) (hR : Spec.Resistive bs ls) {S : Finset ℕ} (hS : ∀ s ∈ S, s < bs.length)
    (hns : Spec.BlockNonsingular y S) {K : List ℕ} (hK : Spec.Lists bs.length S K) (hr : Spec.Grounded y (fun _ => 0) ∅ S K red) {root : ℕ}
    (hconn : ∀ k < bs.length, Spec.Connected bs ls k root) {u : ℕ → ℂ} (hu : (Spec.power red.r u (Spec.currents red u)).re = 0) :
    ∀ i < red.r, ∀ j < red.r, u i = u j := by
  obtain ⟨v, h1, -, -, h4⟩ := grounded_power hg.square (C := ∅) (by simp) hS (by simp) (by rw [withShunts_zero]; exact hns)
    (by rw [Finset.empty_union]; exact hK) hr u
  have h0 : (Spec.lineLosses sn bs ls v).re = 0 := by
    rw [← C151_balance hb hg, ← hu, h4]
    simp
  have heq := (C151_losses hsn hb hR v).2.1 h0
  have key : ∀ i < red.r, u i = v root := by
    intro i hi
    rw [hr.1] at hi
    rw [← h1 i hi]
    exact equal_connected heq (hconn _ ((hK.2 _).1 (getD_mem hi)).1)
  intro i hi j hj
  rw [key i hi, key j hj]

/-- C152, shipped single-phase networks with `--laplacian`: the network that is stored consumes power unless all voltages are equal, and has
currents unless all voltages are equal -/
theorem C152_laplacian_partial {w : SimWorld} (hw : w.Shipped) {cf : SimConf} {a : SimArgs} {st : Store} {d : NetworkData}
    (hn : Spec.PlainName a.network) (h3 : a.threePhased = false) (hseq : a.sequence = false) (hlap : a.laplacian = true)
    (h : (simulate w cf a st).res = .ok d)
    (hall : a.loads = a.networkSim ∧ a.networkSim = a.noise) (hhid : cf.hidden = []) (hpinv : Spec.PinvContract w.pinv)
    {sn : ℝ} (hsn : 0 < sn) (hy : ∀ net bs, makeNet w a.network = .ok (net, bs) → w.yBus net = .ok (net.makeYBus sn)) (v : ℕ → ℂ) :
    ((Spec.power d.y.r v (Spec.currents d.y v)).re = 0 ↔ ∀ i < d.y.r, ∀ j < d.y.r, v i = v j) ∧
      ((∀ k < d.y.c, Spec.currents d.y v k = 0) ↔ ∀ i < d.y.r, ∀ j < d.y.r, v i = v j) := by
  obtain ⟨net, bs, -, -, -, hnet, -⟩ := C78_simulate hn h3 h
  obtain ⟨ls, e1, e2, -⟩ := C133_single hnet
  rw [hw.buses] at e1
  obtain ⟨ls', n, kv, root, passive, hl, hs⟩ := shipped_cases e1
  rw [hw.lines, hl] at e2
  cases e2
  have hlen := hs.feeder.length
  have hin := hs.feeder.inside
  obtain ⟨ls2, hl2, hg⟩ := C133_ybus hnet sn
  rw [hw.lines, hl] at hl2
  cases hl2
  have hred := hs.reducible hsn hg true
  obtain ⟨K, g1, g2, -⟩ := laplacian_grounded hn h3 hseq h hall hhid hpinv hnet (by omega) (hy net bs hnet) hg.square hlap hred.regular
  obtain ⟨⟨-, hsym⟩, hsum⟩ := C164 hn h3 hseq h hall hhid hpinv hnet (by omega) (hy net bs hnet) ⟨hg.square.1.trans hg.square.2.symm, fun i j => gridMatrix_symm hg i j⟩ hg.square
    (fun _ => ⟨hred.regular, hred.noShunt rfl⟩)
  have hsq : d.y.r = d.y.c := g2.1.trans g2.2.1.symm
  have h1 : (Spec.power d.y.r v (Spec.currents d.y v)).re = 0 → ∀ i < d.y.r, ∀ j < d.y.r, v i = v j :=
    eliminated_losses hsn hs.buildable hg hs.resistive (fun s hs => passive_lt hs) hred.regular g1 g2
      (fun k hk => hs.feeder.connected k (by rw [← hlen]; exact hk))
  have h2 : (∀ i < d.y.r, ∀ j < d.y.r, v i = v j) → ∀ k < d.y.c, Spec.currents d.y v k = 0 := by
    intro he k hk
    unfold Spec.currents
    have hk' : k < d.y.r := hsq ▸ hk
    calc ∑ i ∈ range d.y.r, v i * d.y.get i k = ∑ i ∈ range d.y.r, v k * d.y.get k i := by
          refine Finset.sum_congr rfl fun i hi => ?_
          rw [he i (Finset.mem_range.1 hi) k hk', hsym]
      _ = 0 := by
          rw [← Finset.mul_sum, hsq, hsum hlap k hk', mul_zero]
  have h3 : (∀ k < d.y.c, Spec.currents d.y v k = 0) → (Spec.power d.y.r v (Spec.currents d.y v)).re = 0 := by
    intro hz
    have : Spec.power d.y.r v (Spec.currents d.y v) = 0 := by
      unfold Spec.power
      exact Finset.sum_eq_zero fun k hk => by rw [hz k (hsq ▸ Finset.mem_range.1 hk), map_zero, mul_zero]
    rw [this, Complex.zero_re]
  exact ⟨⟨h1, fun he => h3 (h2 he)⟩, ⟨fun hz => h1 (h3 hz), h2⟩⟩

/-- C183, shipped networks with `--laplacian`: the ordinary least squares estimate is the reference exactly if no combination of the nodes
besides their sum vanishes in all centred samples, hence not with two samples less than nodes -/
theorem C183_laplacian {w : SimWorld} (hw : w.Shipped) {cf : SimConf} {a : SimArgs} {st : Store} {d : NetworkData} (hn : Spec.PlainName a.network)
    (h3 : a.threePhased = false) (hseq : a.sequence = false) (hlap : a.laplacian = true) (h : (simulate w cf a st).res = .ok d)
    (hall : a.loads = a.networkSim ∧ a.networkSim = a.noise) (hsd : cf.vm = 0 ∧ cf.cm = 0 ∧ cf.vp = 0 ∧ cf.cp = 0)
    (hhid : cf.hidden = []) (hpinv : Spec.PinvContract w.pinv) {sn : ℝ} (hp : Spec.Pandapower w a.network sn)
    {ext : NumExt} {ic : IdConf} (hinv : Spec.InvSound ext.inv) (hpinv' : Spec.PinvContract ext.pinv) (hsvd : Spec.SvdContract ext.svdVh)
    {sc : SimConf} {b : IdArgs} (hb : b.network = a.network ∧ b.threePhased = false ∧ b.laplacian = true)
    (hstd : Spec.Redone b.standard [b.standard, b.bayesian])
    {r : (Arr2 ℂ × Arr2 ℂ × Arr2 ℂ) × (Arr2 ℂ × List IterationStatus)}
    (hid : (identify ext ic sc b (simulate w cf a st).store).res = .ok r) :
    (r.1.1 = d.y ↔ ∀ u : Fin d.voltage.c → ℂ, ((centreGlobal d.voltage).toMat d.voltage.r d.voltage.c).mulVec u = 0 → ∀ i j, u i = u j) ∧
      (d.voltage.r + 1 < d.voltage.c → r.1.1 ≠ d.y) := by
  obtain ⟨net, bs, -, -, -, hbs, -⟩ := C78_simulate hn h3 h
  obtain ⟨h0, -, -, -, hr⟩ := shipped_setup hw hbs hp a.laplacian
  obtain ⟨-, -, hvis⟩ := C183_programs hn h3 hseq h hall hsd hhid hpinv hbs h0 (hp.yBus net bs hbs) (hp.flow net bs hbs) hr hinv hpinv' hsvd
    ⟨hb.1, hb.2.1, hb.2.2.trans hlap.symm⟩ hstd hid
  obtain ⟨-, -, hsq, heq, -⟩ := C115_data hn h3 hseq h hall hhid hpinv hbs h0 (hp.yBus net bs hbs) (hp.flow net bs hbs) hr
  have hx := (matmul_entry heq).1
  rw [hlap] at hvis hx
  change d.voltage.c = d.y.r at hx
  have key := C152_laplacian_partial hw hn h3 hseq hlap h hall hhid hpinv hp.pos hp.yBus
  have hconst : ∀ u : Fin d.voltage.c → ℂ, (d.y.toMat d.voltage.c d.y.c)ᴴ.mulVec u = 0 ↔ ∀ i j, u i = u j := by
    intro u
    have hk := (key (fun i => if hi : i < d.voltage.c then (starRingEnd ℂ) (u ⟨i, hi⟩) else 0)).2
    have hcur : ∀ k : Fin d.y.c, Spec.currents d.y (fun i => if hi : i < d.voltage.c then (starRingEnd ℂ) (u ⟨i, hi⟩) else 0) k =
        (starRingEnd ℂ) ((d.y.toMat d.voltage.c d.y.c)ᴴ.mulVec u k) := by
      intro k
      simp only [mulVec, dotProduct, conjTranspose_apply, map_sum, map_mul]
      unfold Spec.currents
      rw [← hx, ← Fin.sum_univ_eq_sum_range (fun i => (if hi : i < d.voltage.c then (starRingEnd ℂ) (u ⟨i, hi⟩) else 0) * d.y.get i k) d.voltage.c]
      refine Finset.sum_congr rfl (fun i _ => ?_)
      rw [dif_pos i.2, mul_comm]
      congr 1
      exact (Complex.conj_conj _).symm
    constructor
    · intro hz i j
      have := hk.1 (fun k hk => by rw [hcur ⟨k, hk⟩, hz, Pi.zero_apply, map_zero]) i (hx ▸ i.2) j (hx ▸ j.2)
      simp only [dif_pos i.2, dif_pos j.2] at this
      exact (starRingEnd ℂ).injective this
    · intro he
      funext k
      have := hk.2 (fun i hi j hj => by
        rw [← hx] at hi hj
        simp only [dif_pos hi, dif_pos hj]
        rw [he ⟨i, hi⟩ ⟨j, hj⟩]) k k.2
      rw [hcur k] at this
      exact (map_eq_zero _).1 this
  have hiff : r.1.1 = d.y ↔ ∀ u : Fin d.voltage.c → ℂ, ((centreGlobal d.voltage).toMat d.voltage.r d.voltage.c).mulVec u = 0 → ∀ i j, u i = u j := by
    rw [hvis]
    exact ⟨fun hv u hu => (hconst u).1 (hv u hu), fun hv u hu => (hconst u).2 (hv u hu)⟩
  refine ⟨hiff, fun hlt he => ?_⟩
  have hk := hiff.1 he
  have hc : 0 < d.voltage.c := by omega
  -- a combination without the first node that vanishes in all samples
  let f : (Fin d.voltage.c → ℂ) →ₗ[ℂ] (Fin d.voltage.r → ℂ) × ℂ :=
    (((centreGlobal d.voltage).toMat d.voltage.r d.voltage.c).mulVecLin).prod (LinearMap.proj ⟨0, hc⟩)
  have hker : LinearMap.ker f ≠ ⊥ := LinearMap.ker_ne_bot_of_finrank_lt (by simp; omega)
  obtain ⟨u, hu, hne⟩ := (Submodule.ne_bot_iff _).1 hker
  have hu' : ((centreGlobal d.voltage).toMat d.voltage.r d.voltage.c).mulVec u = 0 ∧ u ⟨0, hc⟩ = 0 := by
    have : f u = 0 := hu
    exact ⟨congrArg Prod.fst this, congrArg Prod.snd this⟩
  exact hne (funext fun i => (hk u hu'.1 i ⟨0, hc⟩).trans hu'.2)

/-- the hypotheses of C152_laplacian_partial, and what it states, for every shipped single-phase network -/
theorem demo_C152_laplacian {name : String} {bs : List BusData} (h : shippedBuses name = some bs) (st : Store) :
    ∃ (w : SimWorld) (d : NetworkData), w.Shipped ∧ Spec.Pandapower w name 1 ∧
      (simulate w demoConf115 { demoArgs115 with network := name, laplacian := true } st).res = .ok d ∧
      ∀ v : ℕ → ℂ, (Spec.power d.y.r v (Spec.currents d.y v)).re = 0 ↔ ∀ i < d.y.r, ∀ j < d.y.r, v i = v j := by
  have hn := shipped_names h
  obtain ⟨ls, n, kv, root, passive, hl, hs⟩ := shipped_cases h
  obtain ⟨net, ls', root', hl', hm, -, -, hgm⟩ := C136_network shippedWorld_shipped h
  rw [hl] at hl'
  cases hl'
  obtain ⟨hg, -⟩ := hgm 1 one_pos
  have hred := hs.reducible one_pos hg true
  have hm' : makeNet (givenWorld fun _ _ => 1) name = .ok (net, bs) := hm
  have hlenb : net.bus.length = bs.length := by
    obtain ⟨ls, -, -, -, hbus, -⟩ := C133_single hm
    simpa using congrArg List.length hbus.bus
  have hp : Spec.Pandapower (givenWorld fun _ _ => 1) name 1 := by
    refine ⟨one_pos, fun _ _ _ => rfl, fun net' bs' hm2 c res hres => ?_⟩
    rw [hm'] at hm2
    cases hm2
    refine given_powerFlow hg hlenb (fun k _ t => rfl) (fun k hk t => ?_) c res hres
    unfold Spec.currents
    simpa using hred.noShunt rfl k (by rw [hg.square.2]; exact passive_lt hk)
  obtain ⟨d, hd⟩ := C136_runs (givenWorld_shipped fun _ _ => 1) (cf := demoConf115) (a := { demoArgs115 with network := name, laplacian := true }) st rfl rfl ⟨rfl, rfl⟩
    (by simp [demoArgs115]) rfl exactPinv_contract ⟨le_rfl, le_rfl, le_rfl, le_rfl⟩
    (by simp [demoConf115]) (by simp [demoConf115]) (by simp [demoConf115]) (by simp [demoConf115]) (by
      show 1439 ≤ Spec.rawCount (minuteTimes 1) (1 / 60)
      rw [demo115_count]) h (sn := 1) one_pos (fun _ _ => rfl) (fun net' hm2 c hc _ _ _ => by
        have e : makeNet (givenWorld fun _ _ => 1) name = .ok (net', bs) := hm2
        rw [hm'] at e
        cases e
        exact ⟨_, rfl, ⟨hc, hlenb⟩, hc, hlenb⟩)
    (fun net' hm2 => hp.flow net' bs hm2)
  exact ⟨_, d, givenWorld_shipped _, hp, hd, fun v => (C152_laplacian_partial (givenWorld_shipped _)
    (a := { demoArgs115 with network := name, laplacian := true }) hn rfl rfl rfl hd ⟨rfl, rfl⟩ rfl exactPinv_contract one_pos hp.yBus v).1⟩

end
end Verif
