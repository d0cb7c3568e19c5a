/-
Property C175 for networks with hidden nodes: as the noise goes to zero the estimates approach the network with the hidden loads
connected, which is not the stored reference.
-/
import Verif.Props.NoiseLimit
import Verif.Props.HiddenLoads

namespace Verif
noncomputable section
open Finset
open Spec (Redone Requested PlainName Rerun SameGrid noiseOnly sweep Within)

/-- C175 with hidden nodes that draw constant admittances `s`: a first run without noise, and noise runs after it. Below some noise
level the least squares estimates are within a constant times the level of the network seen from the stored nodes with `s` connected
at the hidden nodes; the stored reference is the one with `-s`. -/
theorem C175_hidden (z' : Nat → ℝ) {w : SimWorld} {cf : SimConf} {a : SimArgs} {st : Store} {d : NetworkData} (hn : PlainName a.network)
    (hsf : 0 ≤ cf.safety) (h3 : a.threePhased = false) (hseq : a.sequence = false) (hlap : a.laplacian = false)
    (h : (simulate w cf a st).res = .ok d)
    (hall : a.loads = a.networkSim ∧ a.networkSim = a.noise) (hsd : cf.vm = 0 ∧ cf.cm = 0 ∧ cf.vp = 0 ∧ cf.cp = 0)
    (hpinv : Spec.PinvContract w.pinv) {net : Net} {bs : List BusData} (hbs : makeNet w a.network = .ok (net, bs)) (h0 : 0 < bs.length)
    {y : Arr2 ℂ} (hy : w.yBus net = .ok y) (hf : ∀ c res, w.flow net c = .ok res → Spec.PowerFlow bs y res) {s : ℕ → ℂ}
    (hs : ∀ c res, w.flow net c = .ok res → Spec.ConstantImpedance bs cf.hidden y s res)
    (hup : ∀ c res, w.flow net c = .ok res → Spec.Upright res)
    (hlast : ∀ k ∈ Spec.eliminated bs cf.hidden, ∀ c ∈ Spec.connections bs, k < c)
    (hfew : bs.length - (Spec.connections bs).card ≤ 8 ∨
      3 * (bs.length - (Spec.connections bs).card) ≤ 5 * (bs.length - (Spec.eliminated bs cf.hidden ∪ Spec.connections bs).card))
    (hns : Spec.BlockNonsingular (Spec.withShunts y (Spec.hiddenShunt bs cf.hidden s)) (Spec.eliminated bs cf.hidden))
    (hns' : Spec.BlockNonsingular (Spec.withShunts y (Spec.hiddenShunt bs cf.hidden (fun k => - s k))) (Spec.eliminated bs cf.hidden))
    (hrank : Spec.FullColumnRank (centreColumns d.voltage)) :
    ∃ M E K ν₀, Spec.Lists bs.length (Spec.eliminated bs cf.hidden ∪ Spec.connections bs) M ∧ M.Pairwise (· < ·) ∧
      Spec.Grounded y (Spec.hiddenShunt bs cf.hidden s) (Spec.connections bs) (Spec.eliminated bs cf.hidden) M E ∧
      Spec.Grounded y (Spec.hiddenShunt bs cf.hidden (fun k => - s k)) (Spec.connections bs) (Spec.eliminated bs cf.hidden) M d.y ∧
      0 ≤ K ∧ 0 < ν₀ ∧ ∀ {rs : List Rerun} {r : Rerun} {ν : ℝ}, (∀ r ∈ rs, r.Valid) → r.Valid → r.z = z' → r.UpTo ν → ν ≤ ν₀ →
      ∃ d', (simulate (r.world w) (r.conf cf) (noiseOnly a) (sweep w cf a rs (simulate w cf a st).store)).res = .ok d' ∧ d'.y = d.y ∧
      ∀ {ext : NumExt} {ic : IdConf}, 0 ≤ ic.lambdaLasso → Spec.InvContract ext.inv → Spec.Exact ext.solve → Spec.Total ext.solve →
        Spec.PinvContract ext.pinv → Spec.SvdContract ext.svdVh →
        (∀ maxIter, ∃ B T L, standardCompute ext ic d'.noisyVoltage d'.noisyCurrent false maxIter = .ok (B, T, L) ∧
          Within (K * ν) B E ∧ Within (K * ν) T E) ∧
        ∀ {sc : SimConf} {b : IdArgs} {o : (Arr2 ℂ × Arr2 ℂ × Arr2 ℂ) × (Arr2 ℂ × List IterationStatus)},
          (b.network = a.network ∧ b.laplacian = false ∧ b.threePhased = false) → Redone b.standard [b.standard, b.bayesian] →
          (identify ext ic sc b (sweep w cf a (rs ++ [r]) (simulate w cf a st).store)).res = .ok o →
          Within (K * ν) o.1.1 E ∧ Within (K * ν) o.1.2.1 E := by
  obtain ⟨M, k1, k2, ⟨E, hE⟩, k4, k5, -, e1, e2, e3, -⟩ := C140_data hn h3 hseq hlap h hall hsd hpinv hbs h0 hy hf hs hup hlast hfew hns hns'
  have hc : centreData a.laplacian d.voltage d.current = (centreColumns d.voltage, centreColumns d.current) := by
    rw [hlap]; rfl
  have heq := k5 E hE
  rw [e1, e2] at heq
  obtain ⟨K, ν₀, hK, hν₀, q⟩ := limit_near z' hn hsf h (redone_of_all hall) e3 (hE.1.trans hE.2.1.symm) (by rw [hc]; exact heq)
    (by rw [hc]; exact hrank)
  rw [hlap] at q
  exact ⟨M, E, K, ν₀, k1, k2, hE, k4, hK, hν₀, q⟩

/-- C175 with a hidden load: however small the noise, both estimates stay away from the stored reference -/
theorem C175_hidden_apart (z : Nat → ℝ) : ∃ st d ν₀, (simulate (demoWorld140 1) demoConf140 demoArgs115 st).res = .ok d ∧ 0 < ν₀ ∧
    ∀ ν, 0 < ν → ν ≤ ν₀ → ∃ d', (simulate { demoWorld140 1 with z := z } { demoConf140 with vm := ν, cm := ν, vp := ν, cp := ν }
        (noiseOnly demoArgs115) (simulate (demoWorld140 1) demoConf140 demoArgs115 st).store).res = .ok d' ∧ d'.y = d.y ∧
      ∃ B T L, standardCompute demoExt115 demoIdConf d'.noisyVoltage d'.noisyCurrent false 1 = .ok (B, T, L) ∧
        1 / 3 ≤ ‖B.get 0 0 - d'.y.get 0 0‖ ∧ 1 / 3 ≤ ‖T.get 0 0 - d'.y.get 0 0‖ := by
  have hn := templates_plain "ieee_33" (by decide)
  obtain ⟨net, hm⟩ := demo140_net 1
  obtain ⟨st, d, -, hd, -, -, -, -, hrank⟩ := demo140_run (x := 1) (by norm_num) (by norm_num) demoConf140
  have hel : Spec.eliminated demoBuses140 demoConf140.hidden = {1} := demo140_eliminated
  have hS1 : (2 : ℂ) + Spec.hiddenShunt demoBuses140 demoConf140.hidden (fun _ => ((1 : ℝ) : ℂ)) 1 ≠ 0 := by
    rw [show demoConf140.hidden = [2] from rfl, demo140_shunt]; norm_num
  have hS2 : (2 : ℂ) + Spec.hiddenShunt demoBuses140 demoConf140.hidden (fun k => - (fun _ => ((1 : ℝ) : ℂ)) k) 1 ≠ 0 := by
    rw [show demoConf140.hidden = [2] from rfl, demo140_shunt]; norm_num
  obtain ⟨M, E, K, ν₀, k1, k2, k3, k4, hK, hν₀, q⟩ := C175_hidden z hn (by norm_num [demoConf140, demoConf115]) rfl rfl rfl hd ⟨rfl, rfl⟩
    ⟨rfl, rfl, rfl, rfl⟩ exactPinv_contract hm (by simp [demoBuses140]) rfl (demo140_flow net) (demo140_impedance (by norm_num) net)
    (demo140_upright (by norm_num) net) (by rw [hel, demo140_connections]; simp)
    (by left; rw [demo140_connections]; simp [demoBuses140]) (by rw [hel]; exact demo140_regular hS1)
    (by rw [hel]; exact demo140_regular hS2) hrank
  have hM : M = [0] := by
    refine lists_unique k1 ?_ k2 (by simp)
    refine ⟨by simp, fun k => ?_⟩
    rw [hel, demo140_connections]
    show k ∈ [0] ↔ k < 3 ∧ _
    simp
    omega
  subst hM
  rw [hel, demo140_connections] at k3 k4
  have hE : E.get 0 0 = 2 / 3 := by
    rw [demo140_grounded hS1 k3, show demoConf140.hidden = [2] from rfl, demo140_shunt]; norm_num
  have hY : d.y.get 0 0 = 0 := by
    rw [demo140_grounded hS2 k4, show demoConf140.hidden = [2] from rfl, demo140_shunt]; norm_num
  have hpos : 0 < 1 / (3 * (K + 1)) := by positivity
  refine ⟨st, d, min ν₀ (1 / (3 * (K + 1))), hd, lt_min hν₀ hpos, fun ν h0 h1 => ?_⟩
  obtain ⟨d', g1, g2, g3⟩ := q (rs := []) (r := ⟨(demoWorld140 1).rng, z, (demoWorld140 1).files, ν, ν, ν, ν⟩) (by simp)
    ⟨h0.le, h0.le, h0.le, h0.le⟩ rfl ⟨le_rfl, le_rfl, le_rfl, le_rfl⟩ (h1.trans (min_le_left _ _))
  obtain ⟨B, T, L, b1, b2, b3⟩ := (g3 (ext := demoExt115) (ic := demoIdConf) (by simp [demoIdConf]) exactInv_contract exactSolve_exact
    exactSolve_total exactPinv_contract exactSvd_contract).1 1
  have hsmall : K * ν ≤ 1 / 3 := by
    have h2 := h1.trans (min_le_right _ _)
    rw [le_div_iff₀ (by positivity)] at h2
    nlinarith
  have key : ∀ m : Arr2 ℂ, Within (K * ν) m E → 1 / 3 ≤ ‖m.get 0 0 - d'.y.get 0 0‖ := by
    intro m hm
    have e := hm.2 0 0
    rw [hE] at e
    rw [g2, hY, sub_zero]
    have t := norm_sub_norm_le (2 / 3 : ℂ) (2 / 3 - m.get 0 0)
    rw [sub_sub_cancel, norm_sub_rev] at t
    have e23 : ‖(2 / 3 : ℂ)‖ = 2 / 3 := by norm_num
    rw [e23] at t
    linarith
  exact ⟨d', g1, g2, B, T, L, b1, key B b2, key T b3⟩

end
end Verif
