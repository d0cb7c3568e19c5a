/-
C115, C120, C141, C165 and C175 for the shipped single-phase networks: what the two programs do with them, with the network given by its
name and nothing assumed about it.
-/
import Verif.Props.Energy
import Verif.Props.LassoExact
import Verif.Props.NoisyPipeline
import Verif.Props.NoiseLimit
import Verif.Props.Reference

namespace Verif
open Finset
noncomputable section

/-- pandapower for a single-phase network: it builds the admittance matrix that `makeYBus` describes, for a base power of `sn`, and the
results of its power flow satisfy the equations of the network -/
structure Spec.Pandapower (w : SimWorld) (name : String) (sn : ℝ) : Prop where
  pos : 0 < sn
  yBus : ∀ net bs, makeNet w name = .ok (net, bs) → w.yBus net = .ok (net.makeYBus sn)
  flow : ∀ net bs, makeNet w name = .ok (net, bs) → ∀ c res, w.flow net c = .ok res → Spec.PowerFlow bs (net.makeYBus sn) res

/-- what the shipped networks provide for the statements about the programs -/
theorem shipped_setup {w : SimWorld} (hw : w.Shipped) {name : String} {net : Net} {bs : List BusData} (hbs : makeNet w name = .ok (net, bs))
    {sn : ℝ} (hp : Spec.Pandapower w name sn) (lap : Bool) :
    0 < bs.length ∧ 0 < (Spec.remaining bs lap).length ∧ Spec.IsSquare bs.length (net.makeYBus sn) ∧ Spec.IsSymm (net.makeYBus sn) ∧
      Spec.Reducible bs (net.makeYBus sn) lap := by
  classical
  obtain ⟨ls, e1, e2, -⟩ := C133_single hbs
  rw [hw.buses] at e1
  obtain ⟨ls', n, kv, root, passive, hl, hs⟩ := shipped_cases e1
  rw [hw.lines, hl] at e2
  cases e2
  obtain ⟨ls2, hl2, hg⟩ := C133_ybus hbs sn
  rw [hw.lines, hl] at hl2
  cases hl2
  have hlen := hs.feeder.length
  have hin := hs.feeder.inside
  have hcard := hs.passive_card
  have hfew := hs.few
  refine ⟨by omega, ?_, hg.square, ⟨hg.square.1.trans hg.square.2.symm, fun i j => gridMatrix_symm hg i j⟩, hs.reducible hp.pos hg lap⟩
  have hc : (Spec.removed bs lap).card < bs.length := by
    unfold Spec.removed
    have := Finset.card_union_le (if lap then ∅ else Spec.connections bs) (Spec.passive bs 0)
    have h1 : (if lap then ∅ else Spec.connections bs).card ≤ 1 := by
      split
      · simp
      · rw [hs.connections]; simp
    omega
  obtain ⟨k, hk, hkr⟩ := Finset.exists_mem_notMem_of_card_lt_card (s := Spec.removed bs lap) (t := range bs.length) (by simpa using hc)
  exact List.length_pos_of_mem (a := k) (by unfold Spec.remaining; simpa using ⟨Finset.mem_range.1 hk, hkr⟩)

/-- a run that recomputes everything stores one column for each node that is neither a connection nor passive -/
theorem stored_width {w : SimWorld} {cf : SimConf} {a : SimArgs} {st : Store} {d : NetworkData} (hn : Spec.PlainName a.network)
    (h3 : a.threePhased = false) (hseq : a.sequence = false) (h : (simulate w cf a st).res = .ok d)
    (hall : a.loads = a.networkSim ∧ a.networkSim = a.noise) (hhid : cf.hidden = []) (hpinv : Spec.PinvContract w.pinv)
    {net : Net} {bs : List BusData} (hbs : makeNet w a.network = .ok (net, bs)) (h0 : 0 < bs.length) {y : Arr2 ℂ}
    (hy : w.yBus net = .ok y) (hf : ∀ c res, w.flow net c = .ok res → Spec.PowerFlow bs y res)
    (hr : Spec.Reducible bs y a.laplacian) : d.voltage.c = (Spec.remaining bs a.laplacian).length := by
  obtain ⟨net', bs', l, s, n, hnet, hl, -, hs, -, hno, -, hd, hst⟩ := C78_simulate hn h3 h
  have hR : Spec.Redone a.loads [a.loads, a.networkSim, a.noise] := by
    obtain ⟨e1, e2⟩ := hall
    cases hb : a.noise
    · right
      intro f hf
      rw [e1, e2, hb] at hf
      simpa using hf
    · left
      rw [e1, e2, hb]
  obtain ⟨⟨lp, -, hlp⟩, -⟩ := hl hR
  obtain ⟨hs, -⟩ := hs (by rw [← hall.1]; rw [← hall.1] at hR; exact hR)
  obtain ⟨hno, -⟩ := hno (by rw [← hall.2, ← hall.1]; rw [← hall.2, ← hall.1] at hR; exact hR)
  rw [hbs] at hnet
  cases hnet
  have hnet := hbs
  unfold makeNet at hnet
  obtain ⟨b, hb, hnet⟩ := Prior.bind_ok hnet
  obtain ⟨ls, -, hnet⟩ := Prior.bind_ok hnet
  obtain ⟨⟨net', ls'⟩, hnd, hnet⟩ := Prior.bind_ok hnet
  cases hnet
  have ht : Spec.Times l.2.2 := by
    unfold computeLoads at hlp
    obtain ⟨⟨p, q⟩, -, hlp⟩ := Prior.bind_ok hlp
    obtain ⟨⟨p', q'⟩, -, hlp⟩ := Prior.bind_ok hlp
    rw [← Except.ok.inj hlp] at hno ⊢
    refine minuteTimes_times (Nat.pos_of_ne_zero fun hd0 => ?_)
    unfold addNoiseAndFilter rawTimes at hno
    simp only [hd0, minuteTimes] at hno
    cases hno
  obtain ⟨d', g1, -, -, -, -, g6⟩ := network_exact h3 hseq hhid hpinv hnd h0 hy hf hr hs ht hno
  rw [hd] at g1
  cases g1
  rw [g6]
  rfl

/-- C141, both programs: after a simulation without noise the two least squares estimates of the identification are the stored
reference; the lasso estimate is near it but differs from it, unless its prior has no weight or the reference is zero -/
theorem C141_programs {w : SimWorld} {cf : SimConf} {a : SimArgs} {st : Store} {d : NetworkData} (hn : Spec.PlainName a.network)
    (h3 : a.threePhased = false) (hseq : a.sequence = false) (h : (simulate w cf a st).res = .ok d)
    (hall : a.loads = a.networkSim ∧ a.networkSim = a.noise) (hsd : cf.vm = 0 ∧ cf.cm = 0 ∧ cf.vp = 0 ∧ cf.cp = 0)
    (hhid : cf.hidden = []) (hpinv : Spec.PinvContract w.pinv) {net : Net} {bs : List BusData}
    (hbs : makeNet w a.network = .ok (net, bs)) (h0 : 0 < bs.length) {y : Arr2 ℂ} (hy : w.yBus net = .ok y)
    (hsym : Spec.IsSymm y) (hsz : Spec.IsSquare bs.length y)
    (hf : ∀ c res, w.flow net c = .ok res → Spec.PowerFlow bs y res) (hr : Spec.Reducible bs y a.laplacian)
    {ext : NumExt} {ic : IdConf} (hl : 0 ≤ ic.lambdaLasso) (hinv : Spec.InvContract ext.inv)
    (hex : Spec.Exact ext.solve) (htot : Spec.Total ext.solve) (hpinv' : Spec.PinvContract ext.pinv)
    (hsvd : Spec.SvdContract ext.svdVh) (hrank : Spec.FullColumnRank (centreData a.laplacian d.voltage d.current).1) {sc : SimConf}
    {b : IdArgs} (hb : b.network = a.network ∧ b.laplacian = a.laplacian ∧ b.threePhased = false)
    (hstd : Spec.Redone b.standard [b.standard, b.bayesian]) (hit : 0 < b.maxIter)
    {r : (Arr2 ℂ × Arr2 ℂ × Arr2 ℂ) × (Arr2 ℂ × List IterationStatus)}
    (hid : (identify ext ic sc b (simulate w cf a st).store).res = .ok r) :
    r.1.1 = d.y ∧ r.1.2.1 = d.y ∧
      Spec.NearExact a.laplacian ic.lambdaLasso (centreData a.laplacian d.voltage d.current).1 (centreData a.laplacian d.voltage d.current).2
        d.y r.1.2.2 := by
  obtain ⟨hb1, hb2, hb3⟩ := hb
  obtain ⟨hclean, -, -, heq, -⟩ := C115_data hn h3 hseq h hall hhid hpinv hbs h0 hy hf hr
  obtain ⟨n1, n2⟩ := hclean hsd.1 hsd.2.1 hsd.2.2.1 hsd.2.2.2
  obtain ⟨q1, q2, -⟩ := stored_data hn h3 hseq h hall hhid hpinv hbs h0 hy hf hr hb1
  have had := C164 hn h3 hseq h hall hhid hpinv hbs h0 hy hsym hsz (fun hlap => ⟨hr.regular, hr.noShunt hlap⟩)
  obtain ⟨d', y0, ⟨all, hload, hsel⟩, -, hs1, -⟩ := C78_identify (by rw [hb1]; exact hn) hb3 hid
  rw [q1] at hload
  cases hload
  rw [q2] at hsel
  cases hsel
  obtain ⟨hcomp, -⟩ := hs1 hstd
  rw [n1, n2, hb2] at hcomp
  obtain ⟨L, hL, hnear⟩ := C141_standard ext ic hl hinv hex htot hpinv' hsvd had heq hrank hit
  rw [hL] at hcomp
  have hr1 := (Except.ok.inj hcomp).symm
  rw [hr1]
  exact ⟨rfl, rfl, hnear⟩

/-- C115, shipped networks: without noise the ordinary and the total least squares estimates are the stored reference -/
theorem C115_shipped {w : SimWorld} (hw : w.Shipped) {cf : SimConf} {a : SimArgs} {st : Store} {d : NetworkData} (hn : Spec.PlainName a.network)
    (h3 : a.threePhased = false) (hseq : a.sequence = false) (h : (simulate w cf a st).res = .ok d)
    (hall : a.loads = a.networkSim ∧ a.networkSim = a.noise) (hsd : cf.vm = 0 ∧ cf.cm = 0 ∧ cf.vp = 0 ∧ cf.cp = 0)
    (hhid : cf.hidden = []) (hpinv : Spec.PinvContract w.pinv) {sn : ℝ} (hp : Spec.Pandapower w a.network sn)
    {ext : NumExt} {ic : IdConf} (hl : 0 ≤ ic.lambdaLasso) (hinv : Spec.InvContract ext.inv)
    (hex : Spec.Exact ext.solve) (htot : Spec.Total ext.solve) (hpinv' : Spec.PinvContract ext.pinv)
    (hsvd : Spec.SvdContract ext.svdVh) (hrank : Spec.FullColumnRank (centreData a.laplacian d.voltage d.current).1) {sc : SimConf}
    {b : IdArgs} (hb : b.network = a.network ∧ b.threePhased = false ∧ b.laplacian = a.laplacian)
    (hstd : Spec.Redone b.standard [b.standard, b.bayesian])
    {r : (Arr2 ℂ × Arr2 ℂ × Arr2 ℂ) × (Arr2 ℂ × List IterationStatus)}
    (hid : (identify ext ic sc b (simulate w cf a st).store).res = .ok r) : r.1.1 = d.y ∧ r.1.2.1 = d.y := by
  obtain ⟨net, bs, -, -, -, hbs, -⟩ := C78_simulate hn h3 h
  obtain ⟨h0, -, -, -, hr⟩ := shipped_setup hw hbs hp a.laplacian
  obtain ⟨q1, q2, -⟩ := C115 hn h3 hseq h hall hsd hhid hpinv hbs h0 (hp.yBus net bs hbs) (hp.flow net bs hbs) hr hl hinv hex htot hpinv' hsvd
    hrank hb hstd hid
  exact ⟨q1, q2⟩

/-- C141, shipped networks without the option `--laplacian`: on data without noise the lasso estimate differs from the stored
reference, whatever its positive weight, although both least squares estimates are that reference -/
theorem C141_shipped {w : SimWorld} (hw : w.Shipped) {cf : SimConf} {a : SimArgs} {st : Store} {d : NetworkData} (hn : Spec.PlainName a.network)
    (h3 : a.threePhased = false) (hseq : a.sequence = false) (hlap : a.laplacian = false) (h : (simulate w cf a st).res = .ok d)
    (hall : a.loads = a.networkSim ∧ a.networkSim = a.noise) (hsd : cf.vm = 0 ∧ cf.cm = 0 ∧ cf.vp = 0 ∧ cf.cp = 0)
    (hhid : cf.hidden = []) (hpinv : Spec.PinvContract w.pinv) {sn : ℝ} (hp : Spec.Pandapower w a.network sn)
    {ext : NumExt} {ic : IdConf} (hl : 0 < ic.lambdaLasso) (hinv : Spec.InvContract ext.inv)
    (hex : Spec.Exact ext.solve) (htot : Spec.Total ext.solve) (hpinv' : Spec.PinvContract ext.pinv)
    (hsvd : Spec.SvdContract ext.svdVh) (hrank : Spec.FullColumnRank (centreColumns d.voltage)) {sc : SimConf}
    {b : IdArgs} (hb : b.network = a.network ∧ b.laplacian = false ∧ b.threePhased = false)
    (hstd : Spec.Redone b.standard [b.standard, b.bayesian]) (hit : 0 < b.maxIter)
    {r : (Arr2 ℂ × Arr2 ℂ × Arr2 ℂ) × (Arr2 ℂ × List IterationStatus)}
    (hid : (identify ext ic sc b (simulate w cf a st).store).res = .ok r) :
    r.1.1 = d.y ∧ r.1.2.1 = d.y ∧ r.1.2.2 ≠ d.y := by
  obtain ⟨net, bs, -, -, -, hbs, -⟩ := C78_simulate hn h3 h
  obtain ⟨h0, hm0, hsz, hsym, hr⟩ := shipped_setup hw hbs hp a.laplacian
  have hwid := stored_width hn h3 hseq h hall hhid hpinv hbs h0 (hp.yBus net bs hbs) (hp.flow net bs hbs) hr
  obtain ⟨-, -, hsq, heq, -⟩ := C115_data hn h3 hseq h hall hhid hpinv hbs h0 (hp.yBus net bs hbs) (hp.flow net bs hbs) hr
  have hdis := (C152_shipped_partial hw hn h3 hseq h hall hhid hpinv hp.pos hp.yBus).2 hlap
  obtain ⟨q1, q2, q3⟩ := C141_programs hn h3 hseq h hall hsd hhid hpinv hbs h0 (hp.yBus net bs hbs) hsym hsz (hp.flow net bs hbs) hr hl.le hinv
    hex htot hpinv' hsvd (by rw [hlap]; exact hrank) (by rw [hlap]; exact hb) hstd hit hid
  refine ⟨q1, q2, fun he => ?_⟩
  obtain ⟨hvc, -, -, -⟩ := matmul_entry heq
  have hc : (centreData a.laplacian d.voltage d.current).1.c = d.voltage.c := by cases a.laplacian <;> rfl
  rcases q3.equal.1 he with h1 | h1
  · exact hl.ne' h1
  · have hpos := hdis (fun _ => 1) ⟨0, by rw [← hvc, hc, hwid]; exact hm0, one_ne_zero⟩
    have hz : Spec.power d.y.r (fun _ => 1) (Spec.currents d.y (fun _ => 1)) = 0 := by
      unfold Spec.power Spec.currents
      refine Finset.sum_eq_zero fun i hi => ?_
      rw [Finset.sum_eq_zero, map_zero, mul_zero]
      intro j hj
      rw [h1 _ _ (by rw [hvc]; first | exact Finset.mem_range.1 hi | exact Finset.mem_range.1 hj)
        (by rw [hvc]; first | exact Finset.mem_range.1 hj | exact Finset.mem_range.1 hi)]
      ring
    rw [hz] at hpos
    exact lt_irrefl _ hpos

/-- C165, shipped networks, lasso: the error of the third estimate relative to the stored reference -/
theorem C165_shipped_lasso {w : SimWorld} (hw : w.Shipped) {cf : SimConf} {a : SimArgs} {st : Store} {d : NetworkData} (hn : Spec.PlainName a.network)
    (h3 : a.threePhased = false) (hseq : a.sequence = false) (h : (simulate w cf a st).res = .ok d)
    (hall : a.loads = a.networkSim ∧ a.networkSim = a.noise) (hhid : cf.hidden = []) (hpinv : Spec.PinvContract w.pinv) {sn : ℝ}
    (hp : Spec.Pandapower w a.network sn) {ext : NumExt} {ic : IdConf} (hl : 0 ≤ ic.lambdaLasso)
    (hex : Spec.Exact ext.solve) (hpinv' : Spec.PinvContract ext.pinv) {sc : SimConf} {b : IdArgs}
    (hb : b.network = a.network ∧ b.laplacian = a.laplacian ∧ b.threePhased = false)
    (hstd : Spec.Redone b.standard [b.standard, b.bayesian]) (hit : 0 < b.maxIter)
    {r : (Arr2 ℂ × Arr2 ℂ × Arr2 ℂ) × (Arr2 ℂ × List IterationStatus)}
    (hid : (identify ext ic sc b (simulate w cf a st).store).res = .ok r) {ε σ : ℝ} (hε : ε = Spec.noiseSize a.laplacian d)
    (hσ : Spec.AtLeast (centreData a.laplacian d.voltage d.current).1 σ) (hεσ : ε < σ) {e η : ℝ}
    (he : e = Spec.olsError ε σ (Spec.size d.y) d.y.r)
    (hη : η = ε + Spec.regShift d.y.r ε (Spec.size (centreData a.laplacian d.voltage d.current).1) (Spec.size d.y) e
      (ic.lambdaLasso * (2 * (Spec.size d.y + e) ^ 2))) :
    Spec.ErrorBound r.1.2.2 d.y (σ - ε) η := by
  obtain ⟨net, bs, -, -, -, hbs, -⟩ := C78_simulate hn h3 h
  obtain ⟨h0, -, hsz, hsym, hr⟩ := shipped_setup hw hbs hp a.laplacian
  exact C165_lasso hn h3 hseq h hall hhid hpinv hbs h0 (hp.yBus net bs hbs) hsym hsz (hp.flow net bs hbs) hr hl hex hpinv' hb hstd hit hid hε hσ hεσ he hη

/-- C165, shipped networks, Bayesian estimate without weights -/
theorem C165_shipped_bayesian {w : SimWorld} (hw : w.Shipped) {cf : SimConf} {a : SimArgs} {st : Store} {d : NetworkData} (hn : Spec.PlainName a.network)
    (h3 : a.threePhased = false) (hseq : a.sequence = false) (h : (simulate w cf a st).res = .ok d)
    (hall : a.loads = a.networkSim ∧ a.networkSim = a.noise) (hhid : cf.hidden = []) (hpinv : Spec.PinvContract w.pinv) {sn : ℝ}
    (hp : Spec.Pandapower w a.network sn) {ext : NumExt} {ic : IdConf} (hl : 0 ≤ ic.lambdaEiv)
    (hinv : Spec.InvContract ext.inv) (hex : Spec.Exact ext.solve) (htot : Spec.Total ext.solve)
    (hsvd : Spec.SvdContract ext.svdVh) {sc : SimConf} {b : IdArgs}
    (hb : b.network = a.network ∧ b.laplacian = a.laplacian ∧ b.threePhased = false ∧ b.weighted = false)
    (hstd : Spec.Redone b.standard [b.standard, b.bayesian]) (hbay : Spec.Redone b.bayesian [b.standard, b.bayesian])
    (hit : 0 < b.maxIter) (hexact : b.exact = true → b.laplacian = true ∨ 29 ≤ d.y.r)
    (h90 : ¬ (a.laplacian = true ∧ ic.contrastEachRow = true ∧ ic.regularizeDiag = true))
    {r : (Arr2 ℂ × Arr2 ℂ × Arr2 ℂ) × (Arr2 ℂ × List IterationStatus)}
    (hid : (identify ext ic sc b (simulate w cf a st).store).res = .ok r) {ε σ : ℝ} (hε : ε = Spec.noiseSize a.laplacian d)
    (hσ : Spec.AtLeast (centreData a.laplacian d.voltage d.current).1 σ) (hεσ : 2 * ε < σ) {e : ℝ}
    (he : e = Spec.guessError ε σ (Spec.size d.y) d.y.r) :
    ∃ y0 prior, halfSum r.1.2.1 = .ok y0 ∧ Spec.size (Spec.diff y0 d.y) ≤ e ∧
      eivPrior ic d.y.r y0 (if b.exact && !a.laplacian then some d.y else none) a.laplacian = .ok prior ∧
      ∀ η, η = ε + Spec.eivShift d.y.r 1 ε (Spec.size (centreData a.laplacian d.voltage d.current).1) e
          (ic.lambdaEiv * Spec.penalty a.laplacian d.y.r (regConfig ic prior ic.lambdaEiv a.laplacian b.maxIter)
            (Spec.projection a.laplacian d.y.r y0)) →
        Spec.ErrorBound r.2.1 d.y (σ - η) η ∧ ∀ e ∈ r.2.2, Spec.ErrorBound e.params d.y (σ - η) η := by
  obtain ⟨net, bs, -, -, -, hbs, -⟩ := C78_simulate hn h3 h
  obtain ⟨h0, -, hsz, hsym, hr⟩ := shipped_setup hw hbs hp a.laplacian
  exact C165_bayesian hn h3 hseq h hall hhid hpinv hbs h0 (hp.yBus net bs hbs) hsym hsz (hp.flow net bs hbs) hr hl hinv hex htot hsvd hb hstd hbay hit hexact h90 hid hε hσ hεσ he

/-- C165, shipped networks, Bayesian estimate with the weights of synchronised measurements -/
theorem C165_shipped_weighted {w : SimWorld} (hw : w.Shipped) {cf : SimConf} {a : SimArgs} {st : Store} {d : NetworkData} (hn : Spec.PlainName a.network)
    (h3 : a.threePhased = false) (hseq : a.sequence = false) (h : (simulate w cf a st).res = .ok d)
    (hall : a.loads = a.networkSim ∧ a.networkSim = a.noise) (hhid : cf.hidden = []) (hpinv : Spec.PinvContract w.pinv) {sn : ℝ}
    (hp : Spec.Pandapower w a.network sn) {ext : NumExt} {ic : IdConf} (hl : 0 ≤ ic.lambdaEiv)
    (hinv : Spec.InvContract ext.inv) (hex : Spec.Exact ext.solve) (hsvd : Spec.SvdContract ext.svdVh) {sc : SimConf} {b : IdArgs}
    (hb : b.network = a.network ∧ b.laplacian = a.laplacian ∧ b.threePhased = false ∧ b.weighted = true ∧ b.unsynchronized = false)
    (hstd : Spec.Redone b.standard [b.standard, b.bayesian]) (hbay : Spec.Redone b.bayesian [b.standard, b.bayesian])
    (hit : 0 < b.maxIter) (hexact : b.exact = true → b.laplacian = true ∨ 29 ≤ d.y.r)
    (h90 : ¬ (a.laplacian = true ∧ ic.contrastEachRow = true ∧ ic.regularizeDiag = true))
    (hsd : 2 ≤ d.y.r ∧ 0 < sc.vm ∧ 0 < sc.vp)
    {r : (Arr2 ℂ × Arr2 ℂ × Arr2 ℂ) × (Arr2 ℂ × List IterationStatus)}
    (hid : (identify ext ic sc b (simulate w cf a st).store).res = .ok r) {ε σ : ℝ} (hε : ε = Spec.noiseSize a.laplacian d)
    (hσ : Spec.AtLeast (centreData a.laplacian d.voltage d.current).1 σ) (hεσ : 2 * ε < σ) {e : ℝ}
    (he : e = Spec.guessError ε σ (Spec.size d.y) d.y.r) :
    ∃ y0 prior W, halfSum r.1.2.1 = .ok y0 ∧ Spec.size (Spec.diff y0 d.y) ≤ e ∧
      eivPrior ic d.y.r y0 (if b.exact && !a.laplacian then some d.y else none) a.laplacian = .ok prior ∧
      averageTrueNoiseCovariance d.noisyVoltage (.npScalar (averagedSd sc.vm sc.vp d.fparam).m) (averagedSd sc.vm sc.vp d.fparam).p true =
        .ok W ∧
      (∃ c C, 0 < c ∧ c ≤ C ∧ Spec.WeightsBetween c C W) ∧
      ∀ c C, 0 < c → c ≤ C → Spec.WeightsBetween c C W → ∀ η, η = ε + Spec.eivShift d.y.r (Real.sqrt (C / c)) ε
          (Spec.size (centreData a.laplacian d.voltage d.current).1) e
          (ic.lambdaEiv * Spec.penalty a.laplacian d.y.r (regConfig ic prior ic.lambdaEiv a.laplacian b.maxIter)
            (Spec.projection a.laplacian d.y.r y0) / c) →
        Spec.ErrorBound r.2.1 d.y (σ - η) η ∧ ∀ e ∈ r.2.2, Spec.ErrorBound e.params d.y (σ - η) η := by
  obtain ⟨net, bs, -, -, -, hbs, -⟩ := C78_simulate hn h3 h
  obtain ⟨h0, -, hsz, hsym, hr⟩ := shipped_setup hw hbs hp a.laplacian
  exact C165_weighted hn h3 hseq h hall hhid hpinv hbs h0 (hp.yBus net bs hbs) hsym hsz (hp.flow net bs hbs) hr hl hinv hex hsvd hb hstd hbay hit hexact h90 hsd hid hε hσ hεσ he

open Spec in
/-- C175 for the shipped single-phase networks -/
theorem C175_shipped (z' : Nat → ℝ) {w : SimWorld} (hw : w.Shipped) {cf : SimConf} {a : SimArgs} {st : Store} {d : NetworkData} (hn : PlainName a.network)
    (hsf : 0 ≤ cf.safety) (h3 : a.threePhased = false) (hseq : a.sequence = false) (h : (simulate w cf a st).res = .ok d)
    (hall : a.loads = a.networkSim ∧ a.networkSim = a.noise) (hhid : cf.hidden = []) (hpinv : Spec.PinvContract w.pinv) {sn : ℝ}
    (hp : Spec.Pandapower w a.network sn) (hrank : Spec.FullColumnRank (centreData a.laplacian d.voltage d.current).1) :
    ∃ K ν₀, 0 ≤ K ∧ 0 < ν₀ ∧ ∀ {rs : List Rerun} {r : Rerun} {ν : ℝ}, (∀ r ∈ rs, r.Valid) → r.Valid → r.z = z' → r.UpTo ν → ν ≤ ν₀ →
      ∃ d', (simulate (r.world w) (r.conf cf) (noiseOnly a) (sweep w cf a rs (simulate w cf a st).store)).res = .ok d' ∧ d'.y = d.y ∧
      ∀ {ext : NumExt} {ic : IdConf}, 0 ≤ ic.lambdaLasso → Spec.InvContract ext.inv → Spec.Exact ext.solve → Spec.Total ext.solve →
        Spec.PinvContract ext.pinv → Spec.SvdContract ext.svdVh →
        (∀ maxIter, ∃ B T L, standardCompute ext ic d'.noisyVoltage d'.noisyCurrent a.laplacian maxIter = .ok (B, T, L) ∧
          Within (K * ν) B d.y ∧ Within (K * ν) T d.y) ∧
        ∀ {sc : SimConf} {b : IdArgs} {o : (Arr2 ℂ × Arr2 ℂ × Arr2 ℂ) × (Arr2 ℂ × List IterationStatus)},
          (b.network = a.network ∧ b.laplacian = a.laplacian ∧ b.threePhased = false) → Redone b.standard [b.standard, b.bayesian] →
          (identify ext ic sc b (sweep w cf a (rs ++ [r]) (simulate w cf a st).store)).res = .ok o →
          Within (K * ν) o.1.1 d.y ∧ Within (K * ν) o.1.2.1 d.y := by
  obtain ⟨net, bs, -, -, -, hbs, -⟩ := C78_simulate hn h3 h
  obtain ⟨h0, -, -, -, hr⟩ := shipped_setup hw hbs hp a.laplacian
  exact C175 z' hn hsf h3 hseq h hall hhid hpinv hbs h0 (hp.yBus net bs hbs) (hp.flow net bs hbs) hr hrank

/-- C120 for the shipped single-phase networks -/
theorem C120_shipped {w : SimWorld} (hw : w.Shipped) {cf : SimConf} {a : SimArgs} {st : Store} {d : NetworkData} (hn : Spec.PlainName a.network)
    (h3 : a.threePhased = false) (hseq : a.sequence = false) (h : (simulate w cf a st).res = .ok d)
    (hall : a.loads = a.networkSim ∧ a.networkSim = a.noise) (hhid : cf.hidden = []) (hpinv : Spec.PinvContract w.pinv) {sn : ℝ}
    (hp : Spec.Pandapower w a.network sn) {ext : NumExt} {ic : IdConf} (hlasso : 0 ≤ ic.lambdaLasso) (hl : 0 ≤ ic.lambdaEiv)
    (hinv : Spec.InvContract ext.inv) (hex : Spec.Exact ext.solve) (htot : Spec.Total ext.solve)
    (hpinv' : Spec.PinvContract ext.pinv) (hsvd : Spec.SvdContract ext.svdVh) {sc : SimConf} {b : IdArgs}
    (hb : b.network = a.network ∧ b.laplacian = a.laplacian ∧ b.threePhased = false ∧ b.continueId = false ∧ b.uncertainty = false)
    (hph : checkPhases b.phases b.sequence = .ok ()) (hstd : b.standard = b.bayesian) (hit : 0 < b.maxIter)
    (hexact : b.exact = true → b.laplacian = true ∨ 29 ≤ d.noisyVoltage.c)
    (h90 : ¬ (a.laplacian = true ∧ ic.contrastEachRow = true ∧ ic.regularizeDiag = true)) {ε σ : ℝ} (hε : 0 ≤ ε) (hεσ : 2 * ε < σ)
    (hσ : Spec.AtLeast (centreData a.laplacian d.voltage d.current).1 σ)
    (hnoise : ∀ p q, Spec.len
        (((centreData a.laplacian d.noisyVoltage d.noisyCurrent).1.toMat d.voltage.r d.voltage.c -
          (centreData a.laplacian d.voltage d.current).1.toMat d.voltage.r d.voltage.c).mulVec p +
        ((centreData a.laplacian d.noisyVoltage d.noisyCurrent).2.toMat d.voltage.r d.current.c -
          (centreData a.laplacian d.voltage d.current).2.toMat d.voltage.r d.current.c).mulVec q) ≤ ε * Spec.len (Fin.append p q))
    (hcase : (b.weighted = false ∧ Spec.Unrelated (centreData a.laplacian d.noisyVoltage d.noisyCurrent).1
        (centreData a.laplacian d.noisyVoltage d.noisyCurrent).2) ∨
      (0 < ic.lambdaEiv ∧ (a.laplacian = true ∨ (ic.contrastEachRow = true ∧ ic.regularizeDiag = true ∧ ic.lambdaprime ≠ 0)) ∧
        (∀ T, tlsFit ext.svdVh ext.inv (centreData a.laplacian d.noisyVoltage d.noisyCurrent).1
          (centreData a.laplacian d.noisyVoltage d.noisyCurrent).2 = .ok T → Spec.LinesSeen d.noisyVoltage.c T) ∧
        (b.weighted = true → d.noisyVoltage.c ≠ 1 ∧ 0 < sc.vm ∧ 0 < sc.vp ∧
          (b.unsynchronized = true → ∀ t j, t < d.noisyVoltage.r → j < d.noisyVoltage.c → d.noisyVoltage.get t j ≠ 0)))) :
    ∃ r, (identify ext ic sc b (simulate w cf a st).store).res = .ok r ∧ Spec.ErrorBound r.1.1 d.y (σ - ε) ε ∧
      Spec.ErrorBound r.1.2.1 d.y (σ - 2 * ε) (2 * ε) ∧
      (identify ext ic sc b (simulate w cf a st).store).store (resultFile .reference a.network) =
        some (referenceNpz d.y b.phases a.laplacian) := by
  obtain ⟨net, bs, -, -, -, hbs, -⟩ := C78_simulate hn h3 h
  obtain ⟨h0, hm0, hsz, -, hr⟩ := shipped_setup hw hbs hp a.laplacian
  have hwid := stored_width hn h3 hseq h hall hhid hpinv hbs h0 (hp.yBus net bs hbs) (hp.flow net bs hbs) hr
  have hlen := stored_ratings hn h3 hseq h hall hbs (hp.yBus net bs hbs) hsz
  obtain ⟨⟨-, hc⟩, -⟩ := simulate_shape hn h3 hseq h hall
  have hrat : d.ratings ≠ [] := List.ne_nil_of_length_pos (by rw [hlen, hc, hwid]; exact hm0)
  exact C120 hn h3 hseq h hall hhid hpinv hbs h0 (hp.yBus net bs hbs) (hp.flow net bs hbs) hr hlasso hl hinv hex htot hpinv' hsvd hb hph hstd hit
    hexact h90 hε hεσ hσ hnoise (hcase.imp_right fun ⟨c1, c2, c3, c4⟩ => ⟨c1, c2, c3, fun hwt =>
      ⟨(c4 hwt).1, (c4 hwt).2.1, (c4 hwt).2.2.1, hrat, (c4 hwt).2.2.2⟩⟩)

end
end Verif
