/-
C120: simulate_network.py with noise, then identify_network.py: the identification returns, and its least-squares estimates are close
to the stored reference.
-/
import Verif.Props.IdentifyRun
import Verif.Props.PipelineDemo
import Mathlib.Analysis.InnerProductSpace.PiL2
import Mathlib.Analysis.Normed.Module.FiniteDimension

namespace Verif
open Finset
noncomputable section

/-- data with and without noise have the same shape -/
theorem stage_shape {z : Nat → ℝ} {net : Net} {voltage current : Arr2 ℂ} {times : List ℝ} {fmeas : ℝ} {steps : Nat} {np : NoiseParams}
    {safety : ℝ} {n : NoiseResult} (h : addNoiseAndFilter z net voltage current times fmeas steps np safety = .ok n) :
    (n.noisyVoltage.r = n.voltage.r ∧ n.noisyVoltage.c = n.voltage.c) ∧ (n.noisyCurrent.r = n.current.r ∧ n.noisyCurrent.c = n.current.c) ∧
      0 < n.fparam := by
  have key : ∀ {ts : List ℝ} {f : Nat} {vm cm vp cp : ℝ} {x : Arr2 ℂ × Arr2 ℂ × Arr2 ℂ × Arr2 ℂ},
      noiseSeries z (ratings safety net) voltage current times ts f vm cm vp cp = .ok x →
      (x.1.r = x.2.2.1.r ∧ x.1.c = x.2.2.1.c) ∧ (x.2.1.r = x.2.2.2.r ∧ x.2.1.c = x.2.2.2.c) ∧ f ≠ 0 := by
    intro ts f vm cm vp cp x hx
    obtain ⟨hf, a1, a2, a3, a4, -⟩ := noiseSeries_shape hx
    unfold noiseSeries at hx
    obtain ⟨vi, h1, hx⟩ := Prior.bind_ok hx
    obtain ⟨noisy, h2, hx⟩ := Prior.bind_ok hx
    obtain ⟨⟨nv, ni⟩, h3, hx⟩ := Prior.bind_ok hx
    obtain ⟨clean, h4, hx⟩ := Prior.bind_ok hx
    obtain ⟨⟨v, i⟩, h5, hx⟩ := Prior.bind_ok hx
    cases hx
    obtain ⟨-, -, e4, -⟩ := filter_shape h2
    obtain ⟨-, -, e5, -⟩ := filter_shape h4
    obtain ⟨-, -, e6, e7⟩ := split2_ok h3
    obtain ⟨-, -, e8, e9⟩ := split2_ok h5
    dsimp only at a1 a2 a3 a4 e6 e7 e8 e9 ⊢
    exact ⟨⟨by omega, by rw [e6, e8, e4, e5]⟩, ⟨by omega, by rw [e7, e9, e4, e5]⟩, hf⟩
  unfold addNoiseAndFilter at h
  obtain ⟨⟨m, ts⟩, h1, h⟩ := Prior.bind_ok h
  obtain ⟨f, h2, h⟩ := Prior.bind_ok h
  dsimp only at h
  split at h
  · obtain ⟨ts', h3, h⟩ := Prior.bind_ok h
    obtain ⟨⟨nv, ni, v, i⟩, h4, h⟩ := Prior.bind_ok h
    cases h
    obtain ⟨k1, k2, k3⟩ := key h4
    refine ⟨k1, k2, ?_⟩
    have : f ≠ 0 := by
      intro h0
      unfold equivalentTimes at h3
      rw [if_pos h0] at h3
      cases h3
    exact Nat.pos_of_ne_zero this
  · obtain ⟨⟨nv, ni, v, i⟩, h4, h⟩ := Prior.bind_ok h
    cases h
    obtain ⟨k1, k2, k3⟩ := key h4
    exact ⟨k1, k2, Nat.pos_of_ne_zero k3⟩

theorem deleteCols_shape {A B A' B' : Arr2 ℂ} {l : List Nat} (h : A.r = B.r ∧ A.c = B.c) (hA : A.deleteCols l = .ok A')
    (hB : B.deleteCols l = .ok B') : A'.r = B'.r ∧ A'.c = B'.c := by
  unfold Arr2.deleteCols at hA hB
  split at hA
  · split at hB
    · rw [← Except.ok.inj hA, ← Except.ok.inj hB, h.2]
      exact ⟨h.1, rfl⟩
    · cases hB
  · cases hA

/-- a run that recomputes everything stores data with and without noise of the same shape -/
theorem simulate_shape {w : SimWorld} {cf : SimConf} {a : SimArgs} {st : Store} {d : NetworkData} (hn : Spec.PlainName a.network)
    (h3 : a.threePhased = false) (hseq : a.sequence = false) (h : (simulate w cf a st).res = .ok d)
    (hall : a.loads = a.networkSim ∧ a.networkSim = a.noise) :
    (d.noisyVoltage.r = d.voltage.r ∧ d.noisyVoltage.c = d.voltage.c) ∧ (d.noisyCurrent.r = d.current.r ∧ d.noisyCurrent.c = d.current.c) ∧
      0 < d.fparam := by
  obtain ⟨net, bs, l, s, n, -, -, -, -, -, hno, -, hd, -⟩ := C78_simulate hn h3 h
  have hR : Spec.Redone a.noise [a.loads, a.networkSim, a.noise] := by
    obtain ⟨e1, e2⟩ := hall
    cases hb : a.noise
    · right
      intro f hf
      rw [e1, e2, hb] at hf
      simpa using hf
    · left
      rfl
  obtain ⟨hno, -⟩ := hno hR
  obtain ⟨k1, k2, k3⟩ := stage_shape hno
  unfold networkData at hd
  obtain ⟨⟨idx, y⟩, -, hd⟩ := Prior.bind_ok hd
  obtain ⟨d', hdr, hd⟩ := Prior.bind_ok hd
  rw [hseq] at hd
  cases hd
  unfold dropReduced at hdr
  obtain ⟨nv, g1, hdr⟩ := Prior.bind_ok hdr
  obtain ⟨ni, g2, hdr⟩ := Prior.bind_ok hdr
  obtain ⟨v, g3, hdr⟩ := Prior.bind_ok hdr
  obtain ⟨i, g4, hdr⟩ := Prior.bind_ok hdr
  obtain ⟨r, g5, hdr⟩ := Prior.bind_ok hdr
  obtain ⟨hh, g6, hdr⟩ := Prior.bind_ok hdr
  rw [← Except.ok.inj hdr]
  exact ⟨deleteCols_shape k1 g1 g3, deleteCols_shape k2 g2 g4, Nat.cast_pos.2 k3⟩

/-- C120: simulate_network.py, then identify_network.py on the stored data. If the noise of the centred data is small against the
excitation and the Bayesian method has data or a prior that determine its estimate, the identification returns, and the errors
of the ordinary and the total least squares estimates relative to the stored reference are bounded by the ratio of both. -/
theorem C120 {w : SimWorld} {cf : SimConf} {a : SimArgs} {st : Store} {d : NetworkData} (hn : Spec.PlainName a.network)
    (h3 : a.threePhased = false) (hseq : a.sequence = false) (h : (simulate w cf a st).res = .ok d)
    (hall : a.loads = a.networkSim ∧ a.networkSim = a.noise) (hhid : cf.hidden = []) (hpinv : Spec.PinvContract w.pinv)
    {net : Net} {bs : List BusData} (hbs : makeNet w a.network = .ok (net, bs)) (h0 : 0 < bs.length) {y : Arr2 ℂ}
    (hy : w.yBus net = .ok y) (hf : ∀ c res, w.flow net c = .ok res → Spec.PowerFlow bs y res)
    (hr : Spec.Reducible bs y a.laplacian) {ext : NumExt} {ic : IdConf} (hlasso : 0 ≤ ic.lambdaLasso) (hl : 0 ≤ ic.lambdaEiv)
    (hinv : Spec.InvContract ext.inv) (hex : Spec.Exact ext.solve) (htot : Spec.Total ext.solve)
    (hpinv' : Spec.PinvContract ext.pinv) (hsvd : Spec.SvdContract ext.svdVh) {sc : SimConf} {b : IdArgs}
    (hb : b.network = a.network ∧ b.laplacian = a.laplacian ∧ b.threePhased = false ∧ b.continueId = false ∧ b.uncertainty = false)
    (hph : checkPhases b.phases b.sequence = .ok ()) (hstd : b.standard = b.bayesian) (hit : 0 < b.maxIter)
    (hexact : b.exact = true → b.laplacian = true ∨ 29 ≤ d.noisyVoltage.c)
    (h90 : ¬ (a.laplacian = true ∧ ic.contrastEachRow = true ∧ ic.regularizeDiag = true)) {ε σ : ℝ} (hε : 0 ≤ ε) (hεσ : 2 * ε < σ)
    (hσ : Spec.AtLeast (centreData a.laplacian d.voltage d.current).1 σ)
    (hnoise : ∀ p q, Spec.len
        (((centreData a.laplacian d.noisyVoltage d.noisyCurrent).1.toMat d.voltage.r d.voltage.c -
          (centreData a.laplacian d.voltage d.current).1.toMat d.voltage.r d.voltage.c).mulVec p +
        ((centreData a.laplacian d.noisyVoltage d.noisyCurrent).2.toMat d.voltage.r d.current.c -
          (centreData a.laplacian d.voltage d.current).2.toMat d.voltage.r d.current.c).mulVec q) ≤ ε * Spec.len (Fin.append p q))
    (hcase : (b.weighted = false ∧ Spec.Unrelated (centreData a.laplacian d.noisyVoltage d.noisyCurrent).1
        (centreData a.laplacian d.noisyVoltage d.noisyCurrent).2) ∨
      (0 < ic.lambdaEiv ∧ (a.laplacian = true ∨ (ic.contrastEachRow = true ∧ ic.regularizeDiag = true ∧ ic.lambdaprime ≠ 0)) ∧
        (∀ T, tlsFit ext.svdVh ext.inv (centreData a.laplacian d.noisyVoltage d.noisyCurrent).1
          (centreData a.laplacian d.noisyVoltage d.noisyCurrent).2 = .ok T → Spec.LinesSeen d.noisyVoltage.c T) ∧
        (b.weighted = true → d.noisyVoltage.c ≠ 1 ∧ 0 < sc.vm ∧ 0 < sc.vp ∧ d.ratings ≠ [] ∧
          (b.unsynchronized = true → ∀ t j, t < d.noisyVoltage.r → j < d.noisyVoltage.c → d.noisyVoltage.get t j ≠ 0)))) :
    ∃ r, (identify ext ic sc b (simulate w cf a st).store).res = .ok r ∧ Spec.ErrorBound r.1.1 d.y (σ - ε) ε ∧
      Spec.ErrorBound r.1.2.1 d.y (σ - 2 * ε) (2 * ε) ∧
      (identify ext ic sc b (simulate w cf a st).store).store (resultFile .reference a.network) =
        some (referenceNpz d.y b.phases a.laplacian) := by
  obtain ⟨hb1, hb2, hb3, hb4, hb5⟩ := hb
  obtain ⟨-, hids, hsq, heq, hst⟩ := C115_data hn h3 hseq h hall hhid hpinv hbs h0 hy hf hr
  obtain ⟨k1, k2, k3⟩ := simulate_shape hn h3 hseq h hall
  obtain ⟨s1, s2, s3, s4⟩ := centreData_shape a.laplacian d.voltage d.current
  obtain ⟨t1, t2, t3, t4⟩ := centreData_shape a.laplacian d.noisyVoltage d.noisyCurrent
  have hload : networkLoad (simulate w cf a st).store b.network = .ok d := by
    have := C49_network a.network d (simulate w cf a st).store (h := []) ⟨hn, by simp⟩
    have e : (simulate w cf a st).store.savez (resultFile .network a.network) (networkNpz d) = (simulate w cf a st).store := by
      funext f
      by_cases hfn : f = resultFile .network a.network
      · subst hfn; rw [hst]; simp [Store.savez]
      · simp [Store.savez, hfn]
    rw [e] at this
    rw [hb1]; exact this
  have hsel : selectPhase b d = .ok d := by
    unfold selectPhase
    rw [if_neg]
    · rfl
    · rintro ⟨-, x, hx, hx1⟩
      exact hx1 (hids x hx)
  have hds : Spec.IsSquare d.noisyVoltage.c d.y := by
    have h1 := (matmul_entry heq).1
    rw [s2] at h1
    exact ⟨by rw [k1.2, h1], by rw [k1.2, h1, hsq]⟩
  have hN : Spec.Noisy (centreData b.laplacian d.noisyVoltage d.noisyCurrent).1 (centreData b.laplacian d.noisyVoltage d.noisyCurrent).2
      (centreData a.laplacian d.voltage d.current).1 (centreData a.laplacian d.voltage d.current).2 d.y ε := by
    rw [hb2]
    refine ⟨heq, ⟨by rw [t1, s1, k1.1], by rw [t2, s2, k1.2]⟩, ⟨by rw [t3, s3, k2.1], by rw [t4, s4, k2.2]⟩, ?_⟩
    rw [s1, s2, s4]
    exact hnoise
  obtain ⟨r, hres, e1, e2⟩ := C119 (sc := sc) hinv hex htot hpinv' hsvd hlasso hl
    ⟨hb3, hb4, hb5, by rw [hstd]; cases b.bayesian <;> simp, fun hx => (hexact hx).imp_right fun h => ⟨h, hds⟩⟩ hph hload hsel (by rw [hb2]; exact h90) hsq hN hσ hε hεσ
    (by
      rintro (⟨g1, g2⟩ | g)
      · rw [hstd, g2] at g1; cases g1
      · omega)
    (fun _ => by
      rw [hb2]
      rcases hcase with g | ⟨g1, g2, g3, g4⟩
      · exact .inl g
      · refine .inr ⟨g1, g2, g3, fun hw => ?_⟩
        obtain ⟨q1, q2, q3, q4, q5⟩ := g4 hw
        exact ⟨q1, q2, q3, k3, q4, q5⟩)
  refine ⟨r, hres, e1, e2, ?_⟩
  obtain ⟨d', y0, ⟨all, hload', hsel'⟩, -, -, -, -, -, href⟩ := C78_identify (by rw [hb1]; exact hn) hb3 hres
  rw [hload] at hload'
  cases hload'
  rw [hsel] at hsel'
  cases hsel'
  rw [hb1, hb2] at href
  exact href

/-- linearly independent columns are excited by some positive amount -/
theorem atLeast_of_rank {x : Arr2 ℂ} (h : Spec.FullColumnRank x) : ∃ σ, 0 < σ ∧ Spec.AtLeast x σ := by
  let f : EuclideanSpace ℂ (Fin x.c) →ₗ[ℂ] EuclideanSpace ℂ (Fin x.r) :=
    { toFun := fun v => WithLp.toLp 2 ((x.toMat x.r x.c).mulVec v.ofLp)
      map_add' := fun v w => by
        rw [WithLp.ofLp_add, Matrix.mulVec_add, WithLp.toLp_add]
      map_smul' := fun c v => by
        rw [WithLp.ofLp_smul, Matrix.mulVec_smul, WithLp.toLp_smul]; rfl }
  have hker : LinearMap.ker f = ⊥ := by
    rw [LinearMap.ker_eq_bot']
    intro v hv
    have := h v.ofLp (congrArg WithLp.ofLp hv)
    exact WithLp.ofLp_injective 2 this
  obtain ⟨K, hK, hlip⟩ := LinearMap.exists_antilipschitzWith f hker
  have hlen : ∀ (n : Nat) (v : Fin n → ℂ), Spec.len v = ‖(WithLp.toLp 2 v : EuclideanSpace ℂ (Fin n))‖ := fun n v =>
    (EuclideanSpace.norm_eq _).symm
  refine ⟨(K : ℝ)⁻¹, inv_pos.2 (by exact_mod_cast hK), fun v => ?_⟩
  have := hlip.le_mul_dist (WithLp.toLp 2 v) 0
  rw [dist_zero_right, map_zero, dist_zero_right, ← hlen] at this
  have e : ‖f (WithLp.toLp 2 v)‖ = Spec.len ((x.toMat x.r x.c).mulVec v) := (hlen _ _).symm
  rw [e] at this
  rw [inv_mul_le_iff₀ (by exact_mod_cast hK)]
  exact this

/-- The hypotheses of C120 for the simulation of C115, with all methods of the identification. -/
theorem demo_C120 (sc : SimConf) (st : Store) : ∃ d σ r, 0 < σ ∧ (simulate demoWorld115 demoConf115 demoArgs115 st).res = .ok d ∧
    (identify demoExt115 ⟨1, 1, 1, 1, 1, true, true, true⟩ sc demoArgs119
      (simulate demoWorld115 demoConf115 demoArgs115 st).store).res = .ok r ∧
    Spec.ErrorBound r.1.1 d.y (σ - 0) 0 ∧ Spec.ErrorBound r.1.2.1 d.y (σ - 2 * 0) (2 * 0) := by
  have hn := templates_plain "ieee_33" (by decide)
  obtain ⟨net, ls', hnd, hm⟩ := demo115_net
  obtain ⟨d, hd⟩ := demo_C116 st
  obtain ⟨hwid, hrank⟩ := demo115_rank hd
  obtain ⟨hclean, hids, hsq, heq, hfile⟩ := C115_data hn rfl rfl hd ⟨rfl, rfl⟩ rfl exactPinv_contract hm (by simp [demoBuses115]) rfl
    (fun c res => demo115_flow net c res) demo115_reducible
  obtain ⟨n1, n2⟩ := hclean rfl rfl rfl rfl
  obtain ⟨σ, hσ0, hσ⟩ := atLeast_of_rank hrank
  obtain ⟨r, h1, h2, h3, -⟩ := C120 (sc := sc) (ic := ⟨1, 1, 1, 1, 1, true, true, true⟩) (b := demoArgs119) (ext := demoExt115) (ε := 0)
    (σ := σ) hn rfl rfl hd ⟨rfl, rfl⟩ rfl exactPinv_contract hm (by simp [demoBuses115]) rfl
    (fun c res => demo115_flow net c res) demo115_reducible (by norm_num) (by norm_num) exactInv_contract exactSolve_exact exactSolve_total
    exactPinv_contract exactSvd_contract ⟨rfl, rfl, by decide, rfl, rfl⟩ (by decide) rfl (by decide) (fun h => absurd h (by decide)) (by decide) le_rfl
    (by linarith) hσ (by
      intro p q
      rw [n1, n2, sub_self, sub_self, Matrix.zero_mulVec, Matrix.zero_mulVec, add_zero, zero_mul, len_zero])
    (.inr ⟨by norm_num, .inr ⟨rfl, rfl, by norm_num⟩, fun T _ => by
      rw [n1, hwid]
      intro e he
      simp [Spec.offPairs] at he, fun h => by cases h⟩)
  exact ⟨d, σ, r, hσ0, hd, h1, h2, h3⟩

end
end Verif
