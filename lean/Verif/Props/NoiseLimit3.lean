/-
Property C175 for three-phase networks in sequence values.
-/
import Verif.Props.NoiseLimit
import Verif.Props.Reference3Demo

namespace Verif
noncomputable section
open Prog hiding pure bind read save call ofExcept
open Finset
open Spec (Redone PlainName Rerun SameGrid noiseOnly sweep Within Assembled LabelPos columnsAt blockAt)

theorem columns_near {m m' : Arr2 ℂ} {b : ℝ} (h : Within b m m') (k : Nat) (f : Nat → Nat) : Within b (columnsAt m k f) (columnsAt m' k f) := by
  refine ⟨⟨h.1.1, rfl⟩, fun t j => ?_⟩
  unfold columnsAt
  rw [Arr2.ofFn_get', Arr2.ofFn_get', h.1.1]
  split
  · exact h.2 _ _
  · rw [sub_zero, norm_zero]; exact within_nonneg h

theorem block_near {ids : List Int} {m : Nat} {f : Fin 3 → Nat → Nat} {ys : Fin 3 → Arr2 ℂ} {y Y : Arr2 ℂ} {b : ℝ} {l : Fin 3}
    (hA : Assembled ids (fun _ => m) f ys y) (h : Within b (ys l) Y) (hY : Spec.IsSquare m Y) : Within b (blockAt y m (f l)) Y := by
  refine ⟨⟨hY.1.symm, hY.2.symm⟩, fun i j => ?_⟩
  unfold blockAt
  rw [Arr2.ofFn_get']
  split
  · rename_i hc
    rw [hA.block l i j hc.1 hc.2]
    exact h.2 i j
  · rename_i hc
    rw [Y.oob i j (by rw [hY.1, hY.2]; omega), sub_zero, norm_zero]
    exact within_nonneg h

/-- C175 for a three-phase network in sequence values: below some noise level the standard methods for the three sequences complete on the
measurements of a noise run, with zeros between the sequences; every entry of the zero-sequence block of the ordinary and the total
least squares estimate is within a constant times the noise level of the stored zero-sequence block, and those of the positive
(negative) sequence of the stored negative-sequence (positive-sequence) block -/
theorem C175_three (z' : Nat → ℝ) {w : SimWorld} {cf : SimConf} {a : SimArgs} {st : Store} {d : NetworkData} (hn : PlainName a.network)
    (hsf : 0 ≤ cf.safety) (h3 : a.threePhased = true) (hseq : a.sequence = true) (h : (simulate w cf a st).res = .ok d)
    (hall : a.loads = a.networkSim ∧ a.networkSim = a.noise) (hhid : cf.hidden = []) (hpinv : Spec.PinvContract w.pinv)
    {net : Net} {bs : List BusData} (hbs : makeNet3 w a.network = .ok (net, bs)) {y0 y1 y2 y : Arr2 ℂ}
    (h0 : Spec.IsSquare bs.length y0) (h1 : Spec.IsSquare bs.length y1) (h2 : Spec.IsSquare bs.length y2)
    (hyy : makeYBus3 y0 y1 y2 = .ok y) (hy : w.yBus3 net = .ok y)
    (hf : ∀ c res, w.flow3 net c = .ok res → Spec.PowerFlow3 bs y res) (hr : Spec.Reducible3 bs y0 y1 y2) {m : ℕ}
    (hm : m = bs.length - (Spec.passive3 bs ∪ Spec.connections bs).card)
    (hrank : ∀ l, Spec.FullColumnRank (centreColumns (columnsAt d.voltage m (Spec.sequencePos l)))) :
    ∃ K ν₀, 0 ≤ K ∧ 0 < ν₀ ∧ ∀ {rs : List Rerun} {r : Rerun} {ν : ℝ}, (∀ r ∈ rs, r.Valid) → r.Valid → r.z = z' → r.UpTo ν → ν ≤ ν₀ →
      ∃ d', (simulate (r.world w) (r.conf cf) (noiseOnly a) (sweep w cf a rs (simulate w cf a st).store)).res = .ok d' ∧ d'.y = d.y ∧
      ∀ {ext : NumExt} {ic : IdConf}, 0 ≤ ic.lambdaLasso → Spec.InvContract ext.inv → Spec.Exact ext.solve → Spec.Total ext.solve →
        Spec.PinvContract ext.pinv → Spec.SvdContract ext.svdVh → Spec.Shapes ext →
        (∀ name maxIter st', ∃ o, (standardMethods3 ext ic name (some d'.noisyVoltage) (some d'.noisyCurrent) (some d'.ids) false maxIter
            st').res = .ok o ∧ (∃ B, Assembled (Spec.sequenceIds m) (fun _ => m) Spec.sequencePos B o.1) ∧
            (∃ T, Assembled (Spec.sequenceIds m) (fun _ => m) Spec.sequencePos T o.2.1) ∧
          ∀ l, Within (K * ν) (blockAt o.1 m (Spec.sequencePos l)) (blockAt d.y m (Spec.sequencePos (Spec.exchanged l))) ∧
            Within (K * ν) (blockAt o.2.1 m (Spec.sequencePos l)) (blockAt d.y m (Spec.sequencePos (Spec.exchanged l)))) ∧
        ∀ {sc : SimConf} {b : IdArgs} {o : (Arr2 ℂ × Arr2 ℂ × Arr2 ℂ) × (Arr2 ℂ × List IterationStatus)},
          (b.network = a.network ∧ b.laplacian = false ∧ b.threePhased = true ∧ b.phases = "012") →
          Redone b.standard [b.standard, b.bayesian] →
          (identify ext ic sc b (sweep w cf a (rs ++ [r]) (simulate w cf a st).store)).res = .ok o →
          ∀ l, Within (K * ν) (blockAt o.1.1 m (Spec.sequencePos l)) (blockAt d.y m (Spec.sequencePos (Spec.exchanged l))) ∧
            Within (K * ν) (blockAt o.1.2.1 m (Spec.sequencePos l)) (blockAt d.y m (Spec.sequencePos (Spec.exchanged l))) := by
  have hredo := redone_of_all hall
  obtain ⟨m', -, -, hids, hvc, hic, hm', -⟩ := C122_data hn h3 hseq h hall hhid hpinv hbs h0 h1 h2 hyy hy hf hr
  obtain rfl : m = m' := hm.trans hm'.symm
  obtain ⟨-, -, -, -, -, -, -, heq, -⟩ := stored_data3 hn h3 hseq h hall hhid hpinv hbs h0 h1 h2 hyy hy hf hr hm
    (b := ⟨a.network, 0, false, false, false, "012", true, false, false, false, false, false⟩) rfl
  have hlen : d.ids.length = m * 3 := by rw [hids]; simp [Spec.sequenceIds]
  obtain ⟨K, hK, k⟩ := near_step z' hn hsf hredo h
  have q := fun l => estimates_near (v := columnsAt d.voltage m (Spec.sequencePos l)) (i := columnsAt d.current m (Spec.sequencePos l))
    (Y := blockAt d.y m (Spec.sequencePos (Spec.exchanged l))) (lap := false) rfl (heq l) (hrank l) hK
  choose K' ν₀ hK' hν₀ q using q
  have hKl : ∀ l, K' l ≤ K' 0 + K' 1 + K' 2 := by
    have a0 := hK' 0
    have a1 := hK' 1
    have a2 := hK' 2
    intro l
    fin_cases l
    · show K' 0 ≤ _; linarith
    · show K' 1 ≤ _; linarith
    · show K' 2 ≤ _; linarith
  have hνl : ∀ l, min (ν₀ 0) (min (ν₀ 1) (ν₀ 2)) ≤ ν₀ l := by
    intro l
    fin_cases l
    · exact min_le_left _ _
    · exact (min_le_right _ _).trans (min_le_left _ _)
    · exact (min_le_right _ _).trans (min_le_right _ _)
  refine ⟨K' 0 + K' 1 + K' 2, min (ν₀ 0) (min (ν₀ 1) (ν₀ 2)), add_nonneg (add_nonneg (hK' 0) (hK' 1)) (hK' 2),
    lt_min (hν₀ 0) (lt_min (hν₀ 1) (hν₀ 2)), fun {rs r ν} hrs hv hz hu hν => ?_⟩
  obtain ⟨d', k1, k2, -⟩ := C174 hn hsf hredo h hrs hv
  have hk := sweep_kept hn hsf hredo h rs _ hrs ⟨rfl, rfl⟩
  obtain ⟨m1, m2⟩ := k hk hv hz hu k1
  rw [k2.voltage] at m1
  rw [k2.current] at m2
  obtain ⟨-, hload⟩ := sweep_last hn hsf hredo h hrs hv k1
  have hν0 : 0 ≤ ν := hv.1.trans hu.1
  refine ⟨d', k1, k2.y, fun {ext ic} hl hinv hex htot hpinv' hsvd hsh => ?_⟩
  have key : ∀ name maxIter st', ∃ o, (standardMethods3 ext ic name (some d'.noisyVoltage) (some d'.noisyCurrent) (some d'.ids) false maxIter
            st').res = .ok o ∧ (∃ B, Assembled (Spec.sequenceIds m) (fun _ => m) Spec.sequencePos B o.1) ∧
            (∃ T, Assembled (Spec.sequenceIds m) (fun _ => m) Spec.sequencePos T o.2.1) ∧
          ∀ l, Within ((K' 0 + K' 1 + K' 2) * ν) (blockAt o.1 m (Spec.sequencePos l)) (blockAt d.y m (Spec.sequencePos (Spec.exchanged l))) ∧
            Within ((K' 0 + K' 1 + K' 2) * ν) (blockAt o.2.1 m (Spec.sequencePos l)) (blockAt d.y m (Spec.sequencePos (Spec.exchanged l))) := by
    intro name maxIter st'
    have p := fun l => q l (hν.trans (hνl l)) (columns_near m1 m (Spec.sequencePos l)) (columns_near m2 m (Spec.sequencePos l)) hν0 hl hinv hex
      htot hpinv' hsvd maxIter
    choose B T L p1 p2 p3 using p
    obtain ⟨o, o1, o2, o3, -⟩ := standardMethods3_ok (name := name) (v := d'.noisyVoltage) (c := d'.noisyCurrent) (ids := d'.ids) hsh
      (by rw [k2.ids, hlen, m1.1.2, hvc]) (by rw [k2.ids, hlen, m2.1.2, hic]) (m := fun _ => m) (f := Spec.sequencePos)
      (fun l => by rw [k2.ids, hids]; exact labelPos_sequence m l) p1 st'
    rw [k2.ids, hids] at o2 o3
    refine ⟨o, o1, ⟨_, o2⟩, ⟨_, o3⟩, fun l => ⟨?_, ?_⟩⟩
    · exact block_near o2 (within_mono (mul_le_mul_of_nonneg_right (hKl l) hν0) (p2 l)) ⟨rfl, rfl⟩
    · exact block_near o3 (within_mono (mul_le_mul_of_nonneg_right (hKl l) hν0) (p3 l)) ⟨rfl, rfl⟩
  refine ⟨key, ?_⟩
  intro sc b o hb hstd ho
  obtain ⟨hb1, hb2, hb3, hb4⟩ := hb
  obtain ⟨d1, y0', l1, -, c, -⟩ := C78_identify3 (by rw [hb1]; exact hn) hb3 ho
  have c := (c hstd).1 st
  rw [hb1, hload] at l1
  cases l1
  obtain ⟨o', g1, -, -, g2⟩ := key b.network b.maxIter st
  rw [hb2, hb4, if_pos rfl, g1] at c
  rw [← Except.ok.inj c]
  exact g2

/-- C175: two loads and the connection, in sequence values, and a run with noise of any small enough level -/
example (g : Fin 3 → ℂ) (st : Store) (z : Nat → ℝ) : ∃ d K ν₀, (simulate (demoWorld167 g) demoConf128 demoArgs128 st).res = .ok d ∧ 0 ≤ K ∧
    0 < ν₀ ∧ ∀ ν, 0 < ν → ν ≤ ν₀ → ∃ d' o, (simulate { demoWorld167 g with z := z } { demoConf128 with vm := ν, cm := ν, vp := ν, cp := ν }
        (noiseOnly demoArgs128) (simulate (demoWorld167 g) demoConf128 demoArgs128 st).store).res = .ok d' ∧
      (standardMethods3 demoExt115 demoIdConf "ieee_33" (some d'.noisyVoltage) (some d'.noisyCurrent) (some d'.ids) false 1 st).res = .ok o ∧
      ∀ l, Within (K * ν) (blockAt o.1 2 (Spec.sequencePos l)) (blockAt d.y 2 (Spec.sequencePos (Spec.exchanged l))) := by
  obtain ⟨net, hnd, hm⟩ := demo167_net g
  obtain ⟨y, hy, -⟩ := demo167_ybus g
  obtain ⟨d, hd⟩ := demo167_runs g st
  obtain ⟨K, ν₀, hK, hν₀, q⟩ := C175_three z (templates_plain "ieee_33" (by decide)) (by norm_num [demoConf128]) rfl rfl hd ⟨rfl, rfl⟩ rfl
    exactPinv_contract hm ⟨rfl, rfl⟩ ⟨rfl, rfl⟩ ⟨rfl, rfl⟩ hy hy (fun c res => demo167_flow g net c res) (demo167_reducible g) demo167_nodes
    (demo167_data hd).1
  refine ⟨d, K, ν₀, hd, hK, hν₀, fun ν n0 n1 => ?_⟩
  obtain ⟨d', k1, -, k2⟩ := q (rs := []) (r := ⟨(demoWorld167 g).rng, z, (demoWorld167 g).files, ν, ν, ν, ν⟩) (by simp)
    ⟨n0.le, n0.le, n0.le, n0.le⟩ rfl ⟨le_rfl, le_rfl, le_rfl, le_rfl⟩ n1
  obtain ⟨o, o1, -, -, o2⟩ := (k2 (ext := demoExt115) (ic := demoIdConf) (by simp [demoIdConf]) exactInv_contract exactSolve_exact
    exactSolve_total exactPinv_contract exactSvd_contract demoExt_shapes).1 "ieee_33" 1 st
  exact ⟨d', o, k1, o1, fun l => (o2 l).1⟩

end
end Verif
