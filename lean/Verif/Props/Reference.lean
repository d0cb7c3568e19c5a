/-
C164: the matrix that simulate_network.py stores is one that the identification can represent.
C165: simulate_network.py with noise, then identify_network.py: errors of the lasso and of the Bayesian estimate.
-/
import Verif.Props.Energy
import Verif.Props.NoisyPipeline
import Verif.Props.EivNoisyPlain
import Verif.Props.LassoNoisy

namespace Verif
open Finset
noncomputable section

theorem kron_symm {pinv : Arr2 ℂ → Except PyErr (Arr2 ℂ)} (hpinv : Spec.PinvContract pinv) {y red : Arr2 ℂ} {idx : List ℕ}
    (hsym : Spec.IsSymm y) (h : kronReduction pinv idx y = .ok red) : Spec.IsSymm red := by
  have hidx : ∀ k ∈ idx, k < y.r := by
    have h' := h
    unfold kronReduction at h'
    obtain ⟨a, -, h'⟩ := Prior.bind_ok h'
    obtain ⟨b, -, h'⟩ := Prior.bind_ok h'
    obtain ⟨m, hm, -⟩ := Prior.bind_ok h'
    unfold Arr2.take at hm
    split at hm
    · rename_i hlt
      exact hlt.1
    · cases hm
  obtain ⟨red', h1, h2⟩ := C56_symmetric hpinv hsym.1.symm hidx hsym.2
  obtain rfl : red' = red := Except.ok.inj (h1.symm.trans h)
  exact h2

theorem deleteBoth_symm {y y' : Arr2 ℂ} {idx : List ℕ} (hsym : Spec.IsSymm y) (h : y.deleteBoth idx = .ok y') : Spec.IsSymm y' := by
  unfold Arr2.deleteBoth at h
  split at h
  · rw [← Except.ok.inj h, ← hsym.1]
    refine ⟨rfl, fun i j => ?_⟩
    rw [Arr2.ofFn_get', Arr2.ofFn_get', hsym.2]
    simp only [and_comm]
  · cases h

theorem addShunts_symm {y y' v c : Arr2 ℂ} {idx : List ℕ} (hsym : Spec.IsSymm y) (h : addShunts y v c idx = .ok y') : Spec.IsSymm y' := by
  unfold addShunts at h
  split at h
  · split at h
    · cases h
    · rw [← Except.ok.inj h, ← hsym.1]
      refine ⟨rfl, fun i j => ?_⟩
      rw [Arr2.ofFn_get', Arr2.ofFn_get', hsym.2]
      simp only [and_comm (a := i < y.r)]
      by_cases hij : i = j
      · subst hij; rfl
      · rw [if_neg (fun h : i = j ∧ i ∈ idx => hij h.1), if_neg (fun h : j = i ∧ j ∈ idx => hij h.1.symm)]
  · cases h

/-- C164, reduction: whatever nodes are hidden, and with any currents and voltages, a symmetric matrix is reduced to a symmetric one. -/
theorem C164_reduced {pinv : Arr2 ℂ → Except PyErr (Arr2 ℂ)} (hpinv : Spec.PinvContract pinv) {net : Net} {y voltage current red : Arr2 ℂ}
    {hidden : List Int} {lap : Bool} {todel : List Nat} (hsym : Spec.IsSymm y)
    (h : reduceNetwork pinv net y voltage current hidden lap = .ok (todel, red)) : Spec.IsSymm red := by
  unfold reduceNetwork at h
  obtain ⟨p, -, h⟩ := Prior.bind_ok h
  obtain ⟨pi, -, h⟩ := Prior.bind_ok h
  obtain ⟨hi, -, h⟩ := Prior.bind_ok h
  obtain ⟨ci, -, h⟩ := Prior.bind_ok h
  dsimp only at h
  cases lap with
  | true =>
    obtain ⟨t, ht, h⟩ := Prior.bind_ok h
    cases ht
    obtain ⟨y2, h2, h⟩ := Prior.bind_ok h
    obtain ⟨r, h3, h⟩ := Prior.bind_ok h
    cases h
    exact kron_symm hpinv (addShunts_symm hsym h2) h3
  | false =>
    obtain ⟨y1, h1, h⟩ := Prior.bind_ok h
    obtain ⟨t, ht, h⟩ := Prior.bind_ok h
    cases ht
    obtain ⟨y2, h2, h⟩ := Prior.bind_ok h
    obtain ⟨r, h3, h⟩ := Prior.bind_ok h
    cases h
    exact kron_symm hpinv (addShunts_symm (deleteBoth_symm hsym h1) h2) h3

/-- C164, program: every run of simulate_network.py that ends for a single-phase network stores a symmetric matrix; hidden nodes, noise
and stored results of earlier stages do not matter. -/
theorem C164_symmetric {w : SimWorld} {cf : SimConf} {a : SimArgs} {st : Store} {d : NetworkData} (hn : Spec.PlainName a.network)
    (h3 : a.threePhased = false) (hseq : a.sequence = false) (h : (simulate w cf a st).res = .ok d) (hpinv : Spec.PinvContract w.pinv)
    {net : Net} {bs : List BusData} (hbs : makeNet w a.network = .ok (net, bs)) {y : Arr2 ℂ} (hy : w.yBus net = .ok y)
    (hsym : Spec.IsSymm y) : Spec.IsSymm d.y := by
  obtain ⟨net', bs', l, s, n, hnet, -, -, -, -, -, -, hd, -⟩ := C78_simulate hn h3 h
  rw [hbs] at hnet
  cases hnet
  obtain ⟨todel, hred, -⟩ := networkData_parts h3 hseq hy hd
  exact C164_reduced hpinv hsym hred

/-- the matrix stored in the mode `--laplacian` when nothing is hidden -/
theorem laplacian_grounded {w : SimWorld} {cf : SimConf} {a : SimArgs} {st : Store} {d : NetworkData} (hn : Spec.PlainName a.network)
    (h3 : a.threePhased = false) (hseq : a.sequence = false) (h : (simulate w cf a st).res = .ok d)
    (hall : a.loads = a.networkSim ∧ a.networkSim = a.noise) (hhid : cf.hidden = []) (hpinv : Spec.PinvContract w.pinv)
    {net : Net} {bs : List BusData} (hbs : makeNet w a.network = .ok (net, bs)) (h0 : 0 < bs.length) {y : Arr2 ℂ}
    (hy : w.yBus net = .ok y) (hsz : Spec.IsSquare bs.length y) (hlap : a.laplacian = true)
    (hreg : Spec.BlockNonsingular y (Spec.passive bs 0)) :
    ∃ K, Spec.Lists bs.length (Spec.passive bs 0) K ∧ Spec.Grounded y (fun _ => 0) ∅ (Spec.passive bs 0) K d.y ∧
      (bs.length ≤ 8 → K.Pairwise (· < ·)) := by
  obtain ⟨net', bs', l, s, n, hnet, hl, -, hs, -, hno, -, hd, -⟩ := C78_simulate hn h3 h
  have hRe : Spec.Redone a.loads [a.loads, a.networkSim, a.noise] := by
    obtain ⟨e1, e2⟩ := hall
    cases hb : a.noise
    · right
      intro f hf
      rw [e1, e2, hb] at hf
      simpa using hf
    · left
      rw [e1, e2, hb]
  obtain ⟨⟨lp, -, hlp⟩, -⟩ := hl hRe
  obtain ⟨hs, -⟩ := hs (by rw [← hall.1]; rw [← hall.1] at hRe; exact hRe)
  obtain ⟨hno, -⟩ := hno (by rw [← hall.2, ← hall.1]; rw [← hall.2, ← hall.1] at hRe; exact hRe)
  rw [hbs] at hnet
  cases hnet
  have ht : Spec.Times l.2.2 := by
    unfold computeLoads at hlp
    obtain ⟨⟨p, q⟩, -, hlp⟩ := Prior.bind_ok hlp
    obtain ⟨⟨p', q'⟩, -, hlp⟩ := Prior.bind_ok hlp
    rw [← Except.ok.inj hlp] at hno ⊢
    refine minuteTimes_times (Nat.pos_of_ne_zero fun hd0 => ?_)
    unfold addNoiseAndFilter rawTimes at hno
    simp only [hd0, minuteTimes] at hno
    cases hno
  obtain ⟨-, lo, lo', hnd⟩ := makeNet_data hbs
  obtain ⟨x1, -⟩ := sim_matmul hs hy
  obtain ⟨m1, m2, m3, -⟩ := matmul_entry x1
  have hvb : s.1.c = bs.length := m1.trans hsz.1
  have hvc : s.1.c = s.2.1.c := by rw [m3, hvb, hsz.2]
  obtain ⟨-, R, W, hW, hAv, hAi⟩ := stage_exact hno ht hvc (by rw [hvb]; exact h0)
  have hnv : n.voltage.c = bs.length := by rw [hAv.cols, hvb]
  have hni : n.current.c = bs.length := by rw [hAi.cols, ← hvc, hvb]
  obtain ⟨todel, hred, -⟩ := networkData_parts h3 hseq hy hd
  have hhn : hiddenNodes cf a bs = [] := by
    unfold hiddenNodes
    rw [hhid, h3, hlap]
    simp
  rw [hhn, hlap] at hred
  have hlab : Spec.labelled bs [] = ∅ := labelled_nil bs
  have hsd : (Spec.labelled bs [] ∪ Spec.passive bs 0) \ Spec.connections bs = Spec.passive bs 0 := by
    ext k
    rw [hlab, Finset.empty_union, Finset.mem_sdiff]
    exact ⟨fun h1 => h1.1, fun h1 => ⟨h1, passive_not_connection h1⟩⟩
  obtain ⟨todel', red, K, g1, g2, g3, hG, g4⟩ := C58_laplacian hnd hpinv (current := n.current) hsz.1 hsz.2 hnv hni (hidden := [])
    (by simp) (by rw [hlab]; simp) (d := fun _ => 0) (by
      funext k
      rw [hlab]; simp) (by
      rw [hsd]
      refine blockNonsingular_congr (fun i hi j hj => ?_) hreg
      unfold Spec.withShunts
      rw [Arr2.ofFn_get _ (by rw [hsz.1]; exact passive_lt hi) (by rw [hsz.2]; exact passive_lt hj)]
      simp)
  rw [g1] at hred
  have hred := Except.ok.inj hred
  simp only [Prod.mk.injEq] at hred
  obtain ⟨-, rfl⟩ := hred
  rw [hsd] at g3 hG
  exact ⟨K, g3, hG, fun hs => g4 (.inl hs)⟩

/-- C164: in the mode `--laplacian` the rows of the stored matrix sum to zero, if those of the network do and nothing is hidden: the
stored matrix is one that the parameters of the identification can represent. -/
theorem C164 {w : SimWorld} {cf : SimConf} {a : SimArgs} {st : Store} {d : NetworkData} (hn : Spec.PlainName a.network)
    (h3 : a.threePhased = false) (hseq : a.sequence = false) (h : (simulate w cf a st).res = .ok d)
    (hall : a.loads = a.networkSim ∧ a.networkSim = a.noise) (hhid : cf.hidden = []) (hpinv : Spec.PinvContract w.pinv)
    {net : Net} {bs : List BusData} (hbs : makeNet w a.network = .ok (net, bs)) (h0 : 0 < bs.length) {y : Arr2 ℂ}
    (hy : w.yBus net = .ok y) (hsym : Spec.IsSymm y) (hsz : Spec.IsSquare bs.length y)
    (hr : a.laplacian = true → Spec.BlockNonsingular y (Spec.passive bs 0) ∧ Spec.ZeroColSums y) : Spec.Admissible a.laplacian d.y := by
  have hd1 := C164_symmetric hn h3 hseq h hpinv hbs hy hsym
  refine ⟨hd1, fun hlap => ?_⟩
  obtain ⟨hreg, hzero⟩ := hr hlap
  obtain ⟨K, g3, ⟨grr, grc, hG⟩, -⟩ := laplacian_grounded hn h3 hseq h hall hhid hpinv hbs h0 hy hsz hlap hreg
  have hKlt : ∀ b, b < K.length → K.getD b 0 < bs.length := fun b hb => ((g3.2 _).1 (getD_mem hb)).1
  have hcur : ∀ j, j < bs.length → Spec.currents y (fun _ => 1) j = 0 := by
    intro j hj
    unfold Spec.currents
    simpa using hzero j (by rw [hsz.2]; exact hj)
  intro b hb
  rw [grr] at hb
  have := hG (fun _ => 1) (by simp) (fun s hs => by rw [hcur s (passive_lt hs)]; simp) b hb
  rw [hcur _ (hKlt b hb)] at this
  unfold Spec.currents at this
  rw [grc, ← grr]
  refine Eq.trans (Finset.sum_congr rfl fun a _ => ?_) (by simpa using this)
  exact hd1.2 b a

/-- what a run of simulate_network.py that recomputes everything leaves for identify_network.py -/
theorem stored_data {w : SimWorld} {cf : SimConf} {a : SimArgs} {st : Store} {d : NetworkData} (hn : Spec.PlainName a.network)
    (h3 : a.threePhased = false) (hseq : a.sequence = false) (h : (simulate w cf a st).res = .ok d)
    (hall : a.loads = a.networkSim ∧ a.networkSim = a.noise) (hhid : cf.hidden = []) (hpinv : Spec.PinvContract w.pinv)
    {net : Net} {bs : List BusData} (hbs : makeNet w a.network = .ok (net, bs)) (h0 : 0 < bs.length) {y : Arr2 ℂ}
    (hy : w.yBus net = .ok y) (hf : ∀ c res, w.flow net c = .ok res → Spec.PowerFlow bs y res)
    (hr : Spec.Reducible bs y a.laplacian) {b : IdArgs} (hb : b.network = a.network) :
    networkLoad (simulate w cf a st).store b.network = .ok d ∧ selectPhase b d = .ok d ∧ Spec.IsSquare d.noisyVoltage.c d.y ∧
      (centreData a.laplacian d.voltage d.current).1.matmul d.y = .ok (centreData a.laplacian d.voltage d.current).2 ∧
      (centreData a.laplacian d.voltage d.current).1.r = d.noisyVoltage.r ∧
      (d.noisyCurrent.r = d.noisyVoltage.r ∧ d.noisyCurrent.c = d.noisyVoltage.c) ∧ 0 < d.fparam := by
  obtain ⟨-, hids, hsq, heq, hst⟩ := C115_data hn h3 hseq h hall hhid hpinv hbs h0 hy hf hr
  obtain ⟨k1, k2, k3⟩ := simulate_shape hn h3 hseq h hall
  obtain ⟨s1, s2, s3, s4⟩ := centreData_shape a.laplacian d.voltage d.current
  obtain ⟨e1, e2, e3, -⟩ := matmul_entry heq
  rw [s2] at e1
  rw [s3, s1] at e2
  rw [s4] at e3
  refine ⟨?_, ?_, ⟨by rw [k1.2, e1], by rw [k1.2, e1, hsq]⟩, heq, by rw [s1, k1.1], ⟨by rw [k2.1, k1.1, e2], by rw [k2.2, k1.2, e3, e1, hsq]⟩, k3⟩
  · have := C49_network a.network d (simulate w cf a st).store (h := []) ⟨hn, by simp⟩
    have e : (simulate w cf a st).store.savez (resultFile .network a.network) (networkNpz d) = (simulate w cf a st).store := by
      funext f
      by_cases hfn : f = resultFile .network a.network
      · subst hfn; rw [hst]; simp [Store.savez]
      · simp [Store.savez, hfn]
    rw [e] at this
    rw [hb]; exact this
  · unfold selectPhase
    rw [if_neg]
    · rfl
    · rintro ⟨-, x, hx, hx1⟩
      exact hx1 (hids x hx)

/-- one rating is stored per measured node -/
theorem stored_ratings {w : SimWorld} {cf : SimConf} {a : SimArgs} {st : Store} {d : NetworkData} (hn : Spec.PlainName a.network)
    (h3 : a.threePhased = false) (hseq : a.sequence = false) (h : (simulate w cf a st).res = .ok d)
    (hall : a.loads = a.networkSim ∧ a.networkSim = a.noise)
    {net : Net} {bs : List BusData} (hbs : makeNet w a.network = .ok (net, bs)) {y : Arr2 ℂ}
    (hy : w.yBus net = .ok y) (hsz : Spec.IsSquare bs.length y) : d.ratings.length = d.noisyVoltage.c := by
  obtain ⟨net', bs', l, s, n, hnet, -, -, hs, -, hno, -, hd, -⟩ := C78_simulate hn h3 h
  have hRe : Spec.Redone a.noise [a.loads, a.networkSim, a.noise] := by
    obtain ⟨e1, e2⟩ := hall
    cases hb : a.noise
    · right
      intro f hf
      rw [e1, e2, hb] at hf
      simpa using hf
    · left
      rfl
  obtain ⟨hs, -⟩ := hs (by rw [hall.2] at hRe ⊢; exact hRe)
  obtain ⟨hno, -⟩ := hno hRe
  rw [hbs] at hnet
  cases hnet
  obtain ⟨-, lo, lo', hnd⟩ := makeNet_data hbs
  obtain ⟨x1, -⟩ := sim_matmul hs hy
  obtain ⟨m1, m2, m3, -⟩ := matmul_entry x1
  have hvb : s.1.c = bs.length := m1.trans hsz.1
  have hib : s.2.1.c = bs.length := by rw [m3, hsz.2]
  obtain ⟨w1, -, -⟩ := stage_width hno (hvb.trans hib.symm)
  obtain ⟨hlen, -⟩ := C74_single hnd hvb hib hno
  unfold networkData at hd
  obtain ⟨⟨idx, y'⟩, -, hd⟩ := Prior.bind_ok hd
  obtain ⟨d', hdr, hd⟩ := Prior.bind_ok hd
  rw [hseq] at hd
  cases hd
  unfold dropReduced at hdr
  obtain ⟨nv, g1, hdr⟩ := Prior.bind_ok hdr
  obtain ⟨ni, g2, hdr⟩ := Prior.bind_ok hdr
  obtain ⟨v, g3, hdr⟩ := Prior.bind_ok hdr
  obtain ⟨i, g4, hdr⟩ := Prior.bind_ok hdr
  obtain ⟨r, g5, hdr⟩ := Prior.bind_ok hdr
  obtain ⟨hh, g6, hdr⟩ := Prior.bind_ok hdr
  rw [← Except.ok.inj hdr]
  unfold Arr2.deleteCols at g1
  unfold deleteEntries at g5
  split at g1
  · split at g5
    · rw [← Except.ok.inj g1, ← Except.ok.inj g5]
      show (List.map _ _).length = (Arr2.keepIdx _ _).length
      rw [List.length_map, hlen, w1, hvb]
    · cases g5
  · cases g1

/-- size of the noise in the centred data of a simulated network -/
def Spec.noiseSize (lap : Bool) (d : NetworkData) : ℝ :=
  Real.sqrt (Spec.size (Spec.diff (centreData lap d.noisyVoltage d.noisyCurrent).1 (centreData lap d.voltage d.current).1) ^ 2 +
    Spec.size (Spec.diff (centreData lap d.noisyVoltage d.noisyCurrent).2 (centreData lap d.voltage d.current).2) ^ 2)

theorem noiseSize_sq (lap : Bool) (d : NetworkData) :
    Spec.size (Spec.diff (centreData lap d.noisyVoltage d.noisyCurrent).1 (centreData lap d.voltage d.current).1) ^ 2 +
    Spec.size (Spec.diff (centreData lap d.noisyVoltage d.noisyCurrent).2 (centreData lap d.voltage d.current).2) ^ 2 ≤
      Spec.noiseSize lap d ^ 2 := by
  unfold Spec.noiseSize
  rw [Real.sq_sqrt (by positivity)]

/-- C165, lasso: the error of the third estimate relative to the stored reference -/
theorem C165_lasso {w : SimWorld} {cf : SimConf} {a : SimArgs} {st : Store} {d : NetworkData} (hn : Spec.PlainName a.network)
    (h3 : a.threePhased = false) (hseq : a.sequence = false) (h : (simulate w cf a st).res = .ok d)
    (hall : a.loads = a.networkSim ∧ a.networkSim = a.noise) (hhid : cf.hidden = []) (hpinv : Spec.PinvContract w.pinv)
    {net : Net} {bs : List BusData} (hbs : makeNet w a.network = .ok (net, bs)) (h0 : 0 < bs.length) {y : Arr2 ℂ}
    (hy : w.yBus net = .ok y) (hsym : Spec.IsSymm y) (hsz : Spec.IsSquare bs.length y)
    (hf : ∀ c res, w.flow net c = .ok res → Spec.PowerFlow bs y res)
    (hr : Spec.Reducible bs y a.laplacian) {ext : NumExt} {ic : IdConf} (hl : 0 ≤ ic.lambdaLasso)
    (hex : Spec.Exact ext.solve) (hpinv' : Spec.PinvContract ext.pinv) {sc : SimConf} {b : IdArgs}
    (hb : b.network = a.network ∧ b.laplacian = a.laplacian ∧ b.threePhased = false)
    (hstd : Spec.Redone b.standard [b.standard, b.bayesian]) (hit : 0 < b.maxIter)
    {r : (Arr2 ℂ × Arr2 ℂ × Arr2 ℂ) × (Arr2 ℂ × List IterationStatus)}
    (hid : (identify ext ic sc b (simulate w cf a st).store).res = .ok r) {ε σ : ℝ} (hε : ε = Spec.noiseSize a.laplacian d)
    (hσ : Spec.AtLeast (centreData a.laplacian d.voltage d.current).1 σ) (hεσ : ε < σ) {e η : ℝ}
    (he : e = Spec.olsError ε σ (Spec.size d.y) d.y.r)
    (hη : η = ε + Spec.regShift d.y.r ε (Spec.size (centreData a.laplacian d.voltage d.current).1) (Spec.size d.y) e
      (ic.lambdaLasso * (2 * (Spec.size d.y + e) ^ 2))) :
    Spec.ErrorBound r.1.2.2 d.y (σ - ε) η := by
  obtain ⟨hb1, hb2, hb3⟩ := hb
  obtain ⟨q1, q2, q3, q4, q5, q6, -⟩ := stored_data hn h3 hseq h hall hhid hpinv hbs h0 hy hf hr hb1
  have had := C164 hn h3 hseq h hall hhid hpinv hbs h0 hy hsym hsz (fun hlap => ⟨hr.regular, hr.noShunt hlap⟩)
  rw [q3.1] at he hη
  refine C163_identify (by rw [hb1]; exact hn) hb3 hex hpinv' hl hid hstd hit q1 q2 q3 (by rw [hb2]; exact had) q4 q5 q6
    (by rw [hε]; exact Real.sqrt_nonneg _) (by rw [hb2, hε]; exact noiseSize_sq a.laplacian d) hσ hεσ he hη

/-- C165, Bayesian estimate without weights -/
theorem C165_bayesian {w : SimWorld} {cf : SimConf} {a : SimArgs} {st : Store} {d : NetworkData} (hn : Spec.PlainName a.network)
    (h3 : a.threePhased = false) (hseq : a.sequence = false) (h : (simulate w cf a st).res = .ok d)
    (hall : a.loads = a.networkSim ∧ a.networkSim = a.noise) (hhid : cf.hidden = []) (hpinv : Spec.PinvContract w.pinv)
    {net : Net} {bs : List BusData} (hbs : makeNet w a.network = .ok (net, bs)) (h0 : 0 < bs.length) {y : Arr2 ℂ}
    (hy : w.yBus net = .ok y) (hsym : Spec.IsSymm y) (hsz : Spec.IsSquare bs.length y)
    (hf : ∀ c res, w.flow net c = .ok res → Spec.PowerFlow bs y res)
    (hr : Spec.Reducible bs y a.laplacian) {ext : NumExt} {ic : IdConf} (hl : 0 ≤ ic.lambdaEiv)
    (hinv : Spec.InvContract ext.inv) (hex : Spec.Exact ext.solve) (htot : Spec.Total ext.solve)
    (hsvd : Spec.SvdContract ext.svdVh) {sc : SimConf} {b : IdArgs}
    (hb : b.network = a.network ∧ b.laplacian = a.laplacian ∧ b.threePhased = false ∧ b.weighted = false)
    (hstd : Spec.Redone b.standard [b.standard, b.bayesian]) (hbay : Spec.Redone b.bayesian [b.standard, b.bayesian])
    (hit : 0 < b.maxIter) (hexact : b.exact = true → b.laplacian = true ∨ 29 ≤ d.y.r)
    (h90 : ¬ (a.laplacian = true ∧ ic.contrastEachRow = true ∧ ic.regularizeDiag = true))
    {r : (Arr2 ℂ × Arr2 ℂ × Arr2 ℂ) × (Arr2 ℂ × List IterationStatus)}
    (hid : (identify ext ic sc b (simulate w cf a st).store).res = .ok r) {ε σ : ℝ} (hε : ε = Spec.noiseSize a.laplacian d)
    (hσ : Spec.AtLeast (centreData a.laplacian d.voltage d.current).1 σ) (hεσ : 2 * ε < σ) {e : ℝ}
    (he : e = Spec.guessError ε σ (Spec.size d.y) d.y.r) :
    ∃ y0 prior, halfSum r.1.2.1 = .ok y0 ∧ Spec.size (Spec.diff y0 d.y) ≤ e ∧
      eivPrior ic d.y.r y0 (if b.exact && !a.laplacian then some d.y else none) a.laplacian = .ok prior ∧
      ∀ η, η = ε + Spec.eivShift d.y.r 1 ε (Spec.size (centreData a.laplacian d.voltage d.current).1) e
          (ic.lambdaEiv * Spec.penalty a.laplacian d.y.r (regConfig ic prior ic.lambdaEiv a.laplacian b.maxIter)
            (Spec.projection a.laplacian d.y.r y0)) →
        Spec.ErrorBound r.2.1 d.y (σ - η) η ∧ ∀ e ∈ r.2.2, Spec.ErrorBound e.params d.y (σ - η) η := by
  obtain ⟨hb1, hb2, hb3, hb4⟩ := hb
  obtain ⟨q1, q2, q3, q4, q5, q6, -⟩ := stored_data hn h3 hseq h hall hhid hpinv hbs h0 hy hf hr hb1
  have had := C164 hn h3 hseq h hall hhid hpinv hbs h0 hy hsym hsz (fun hlap => ⟨hr.regular, hr.noShunt hlap⟩)
  subst he
  have := C162_identify (by rw [hb1]; exact hn) hb3 hinv hex htot hsvd hl hid hstd hbay hit hb4 q1 q2
    (fun hx => (hexact hx).imp_right fun g => ⟨by rw [← q3.1]; exact g, q3⟩) (by rw [hb2]; exact h90) q3 (by rw [hb2]; exact had) q4 q5 q6
    (by rw [hε]; exact Real.sqrt_nonneg _) (by rw [hb2, hε]; exact noiseSize_sq a.laplacian d) hσ hεσ
  rw [hb2, ← q3.1] at this
  exact this

/-- C165, Bayesian estimate with the weights of synchronised measurements -/
theorem C165_weighted {w : SimWorld} {cf : SimConf} {a : SimArgs} {st : Store} {d : NetworkData} (hn : Spec.PlainName a.network)
    (h3 : a.threePhased = false) (hseq : a.sequence = false) (h : (simulate w cf a st).res = .ok d)
    (hall : a.loads = a.networkSim ∧ a.networkSim = a.noise) (hhid : cf.hidden = []) (hpinv : Spec.PinvContract w.pinv)
    {net : Net} {bs : List BusData} (hbs : makeNet w a.network = .ok (net, bs)) (h0 : 0 < bs.length) {y : Arr2 ℂ}
    (hy : w.yBus net = .ok y) (hsym : Spec.IsSymm y) (hsz : Spec.IsSquare bs.length y)
    (hf : ∀ c res, w.flow net c = .ok res → Spec.PowerFlow bs y res)
    (hr : Spec.Reducible bs y a.laplacian) {ext : NumExt} {ic : IdConf} (hl : 0 ≤ ic.lambdaEiv)
    (hinv : Spec.InvContract ext.inv) (hex : Spec.Exact ext.solve) (hsvd : Spec.SvdContract ext.svdVh) {sc : SimConf} {b : IdArgs}
    (hb : b.network = a.network ∧ b.laplacian = a.laplacian ∧ b.threePhased = false ∧ b.weighted = true ∧ b.unsynchronized = false)
    (hstd : Spec.Redone b.standard [b.standard, b.bayesian]) (hbay : Spec.Redone b.bayesian [b.standard, b.bayesian])
    (hit : 0 < b.maxIter) (hexact : b.exact = true → b.laplacian = true ∨ 29 ≤ d.y.r)
    (h90 : ¬ (a.laplacian = true ∧ ic.contrastEachRow = true ∧ ic.regularizeDiag = true))
    (hsd : 2 ≤ d.y.r ∧ 0 < sc.vm ∧ 0 < sc.vp)
    {r : (Arr2 ℂ × Arr2 ℂ × Arr2 ℂ) × (Arr2 ℂ × List IterationStatus)}
    (hid : (identify ext ic sc b (simulate w cf a st).store).res = .ok r) {ε σ : ℝ} (hε : ε = Spec.noiseSize a.laplacian d)
    (hσ : Spec.AtLeast (centreData a.laplacian d.voltage d.current).1 σ) (hεσ : 2 * ε < σ) {e : ℝ}
    (he : e = Spec.guessError ε σ (Spec.size d.y) d.y.r) :
    ∃ y0 prior W, halfSum r.1.2.1 = .ok y0 ∧ Spec.size (Spec.diff y0 d.y) ≤ e ∧
      eivPrior ic d.y.r y0 (if b.exact && !a.laplacian then some d.y else none) a.laplacian = .ok prior ∧
      averageTrueNoiseCovariance d.noisyVoltage (.npScalar (averagedSd sc.vm sc.vp d.fparam).m) (averagedSd sc.vm sc.vp d.fparam).p true =
        .ok W ∧
      (∃ c C, 0 < c ∧ c ≤ C ∧ Spec.WeightsBetween c C W) ∧
      ∀ c C, 0 < c → c ≤ C → Spec.WeightsBetween c C W → ∀ η, η = ε + Spec.eivShift d.y.r (Real.sqrt (C / c)) ε
          (Spec.size (centreData a.laplacian d.voltage d.current).1) e
          (ic.lambdaEiv * Spec.penalty a.laplacian d.y.r (regConfig ic prior ic.lambdaEiv a.laplacian b.maxIter)
            (Spec.projection a.laplacian d.y.r y0) / c) →
        Spec.ErrorBound r.2.1 d.y (σ - η) η ∧ ∀ e ∈ r.2.2, Spec.ErrorBound e.params d.y (σ - η) η := by
  obtain ⟨hb1, hb2, hb3, hb4, hb5⟩ := hb
  obtain ⟨q1, q2, q3, q4, q5, q6, q7⟩ := stored_data hn h3 hseq h hall hhid hpinv hbs h0 hy hf hr hb1
  have had := C164 hn h3 hseq h hall hhid hpinv hbs h0 hy hsym hsz (fun hlap => ⟨hr.regular, hr.noShunt hlap⟩)
  have hra := stored_ratings hn h3 hseq h hall hbs hy hsz
  subst he
  have := C161_identify (by rw [hb1]; exact hn) hb3 hinv hex hsvd hl hid hstd hbay hit hb4 hb5 q1 q2
    (by rw [← q3.1]; omega) ⟨hsd.2.1, hsd.2.2, q7, fun e => by rw [e, ← q3.1] at hra; simp at hra; omega⟩
    (fun hx => (hexact hx).imp_right fun g => ⟨by rw [← q3.1]; exact g, q3⟩) (by rw [hb2]; exact h90) q3 (by rw [hb2]; exact had) q4 q5 q6
    (by rw [hε]; exact Real.sqrt_nonneg _) (by rw [hb2, hε]; exact noiseSize_sq a.laplacian d) hσ hεσ
  rw [hb2, ← q3.1] at this
  exact this

/-! ### a case -/

/-- one line with resistance and reactance -/
def demoY165 : Arr2 ℂ := Arr2.ofFn 2 2 (fun i j => if i = j then 1 + Complex.I else -(1 + Complex.I))

def demoWorld165 : SimWorld := { demoWorld115 with yBus := fun _ => .ok demoY165 }

def demoSim165 : SimArgs := { demoArgs115 with laplacian := true }

def demoArgs165 (weighted : Bool) : IdArgs := { demoArgs119 with laplacian := true, weighted := weighted }

theorem demo165_entry (i j : Nat) (hi : i < 2) (hj : j < 2) : demoY165.get i j = if i = j then 1 + Complex.I else -(1 + Complex.I) :=
  Arr2.ofFn_get (r := 2) (c := 2) _ hi hj

theorem demo165_symm : Spec.IsSymm demoY165 := by
  refine ⟨rfl, fun i j => ?_⟩
  unfold demoY165
  rw [Arr2.ofFn_get', Arr2.ofFn_get']
  simp only [and_comm (a := i < 2), eq_comm (a := i)]

theorem demo165_reducible : Spec.Reducible demoBuses115 demoY165 true := by
  refine ⟨fun h => (by cases h), fun h => (by cases h), fun _ => .inl (by decide), ?_, fun _ j hj => ?_⟩
  · rw [demo115_passive]
    intro u hu j hj
    cases hj
  · have hj2 : j < 2 := hj
    show ∑ i ∈ range 2, demoY165.get i j = 0
    rw [Finset.sum_range_succ, Finset.sum_range_one, demo165_entry 0 j (by omega) hj2, demo165_entry 1 j (by omega) hj2]
    interval_cases j <;> simp

theorem demo165_runs (st : Store) : ∃ d, (simulate demoWorld165 demoConf115 demoSim165 st).res = .ok d := by
  obtain ⟨net, ls', h, hm⟩ := demo115_net
  refine C116 (w := demoWorld165) st rfl rfl ⟨rfl, rfl⟩ (by simp [demoSim165, demoArgs115]) rfl exactPinv_contract ⟨le_rfl, le_rfl, le_rfl, le_rfl⟩
    (by simp [demoConf115]) (by simp [demoConf115]) (by simp [demoConf115]) (by simp [demoConf115]) (by
      show 1439 ≤ Spec.rawCount (minuteTimes 1) (1 / 60)
      rw [demo115_count]) hm (by simp [demoBuses115]) ?_ rfl (demo115_runs net)
    (fun c res => demo115_flowY (Y := demoY165) ⟨rfl, rfl⟩ net c res) demo165_reducible
  intro b hb
  simp only [demoBuses115, List.mem_cons, List.not_mem_nil, or_false] at hb
  rcases hb with rfl | rfl
  · exact ⟨Or.inl rfl, fun p q hpq => by cases hpq; norm_num⟩
  · exact ⟨Or.inr rfl, fun p q hpq => by cases hpq; norm_num⟩

theorem demo165_remaining : Spec.remaining demoBuses115 true = [0, 1] := by
  unfold Spec.remaining Spec.removed
  rw [demo115_passive]
  decide

/-- the centred voltages of both nodes are independent -/
theorem demo165_rank {st : Store} {d : NetworkData} (h : (simulate demoWorld165 demoConf115 demoSim165 st).res = .ok d) :
    d.voltage.c = 2 ∧ Spec.FullColumnRank (centreData true d.voltage d.current).1 := by
  obtain ⟨dr, dc, hv⟩ := demo115_voltage (Y := demoY165) ⟨rfl, rfl⟩ true demo165_reducible h demo165_remaining.symm (by simp)
  obtain ⟨v0, v1, v2⟩ := (hv 0 (by simp)).1 rfl
  have u := (hv 1 (by simp)).2 rfl
  replace dc : d.voltage.c = 2 := dc
  refine ⟨dc, ?_⟩
  set μ : ℂ := (∑ s ∈ range d.voltage.r, ∑ k ∈ range d.voltage.c, d.voltage.get s k) / ((d.voltage.r * d.voltage.c : Nat) : ℂ) with hμ
  have hμ1 : μ ≠ 1 := by
    intro h1
    rw [hμ, dr, dc, div_eq_one_iff_eq (by norm_num)] at h1
    have h2 := congrArg Complex.re h1
    rw [Complex.re_sum] at h2
    have h3 : ∀ s ∈ range 1439, (2 : ℝ) ≤ (∑ k ∈ range 2, d.voltage.get s k).re := by
      intro s hs
      have hs := Finset.mem_range.1 hs
      rw [Finset.sum_range_succ, Finset.sum_range_one, u s hs, Complex.add_re, Complex.one_re]
      linarith [v2 s hs]
    have h4 : ∑ s ∈ range 1439, (2 : ℝ) < ∑ s ∈ range 1439, (∑ k ∈ range 2, d.voltage.get s k).re := by
      refine Finset.sum_lt_sum h3 ⟨1438, Finset.mem_range.2 (by norm_num), ?_⟩
      rw [Finset.sum_range_succ, Finset.sum_range_one, u 1438 (by norm_num), v1]
      norm_num
    rw [h2, Finset.sum_const, Finset.card_range] at h4
    norm_num at h4
  have hx : ∀ t j, t < 1439 → j < 2 → (centreData true d.voltage d.current).1.get t j = d.voltage.get t j - μ := by
    intro t j ht hj
    exact Arr2.ofFn_get _ (by rw [dr]; exact ht) (by rw [dc]; exact hj)
  have hsh : (centreData true d.voltage d.current).1.r = 1439 ∧ (centreData true d.voltage d.current).1.c = 2 := ⟨dr, dc⟩
  unfold Spec.FullColumnRank
  rw [hsh.1, hsh.2]
  intro w hw
  have hrow : ∀ t (ht : t < 1439), (d.voltage.get t 0 - μ) * w 0 + (d.voltage.get t 1 - μ) * w 1 = 0 := by
    intro t ht
    have := congrFun hw ⟨t, ht⟩
    rw [Matrix.mulVec, dotProduct, Fin.sum_univ_two] at this
    rw [← hx t 0 ht (by omega), ← hx t 1 ht (by omega)]
    exact this
  have r0 := hrow 0 (by omega)
  have r1 := hrow 1438 (by omega)
  rw [v0, u 0 (by omega)] at r0
  rw [v1, u 1438 (by omega)] at r1
  have w0 : w 0 = 0 := by
    have : (1439 : ℂ) * w 0 = 0 := by linear_combination r1 - r0
    simpa using this
  have w1 : w 1 = 0 := by
    rw [w0, mul_zero, zero_add] at r0
    rcases mul_eq_zero.1 r0 with h1 | h1
    · exact absurd (sub_eq_zero.1 h1).symm hμ1
    · exact h1
  funext k
  fin_cases k
  · exact w0
  · exact w1

/-- the line is stored as it is -/
theorem demo165_stored {st : Store} {d : NetworkData} (h : (simulate demoWorld165 demoConf115 demoSim165 st).res = .ok d) : d.y = demoY165 := by
  obtain ⟨net, ls', hnd, hm⟩ := demo115_net
  obtain ⟨K, g1, ⟨g2, g3, g4⟩, g5⟩ := laplacian_grounded (w := demoWorld165) (templates_plain "ieee_33" (by decide)) rfl rfl h ⟨rfl, rfl⟩ rfl
    exactPinv_contract hm (by simp [demoBuses115]) (y := demoY165) rfl ⟨rfl, rfl⟩ rfl demo165_reducible.regular
  have hK : K = [0, 1] := by
    have h2 := lists_unique g1 (show Spec.Lists 2 (Spec.passive demoBuses115 0) [0, 1] from by
      rw [demo115_passive]
      refine ⟨by decide, fun k => ?_⟩
      simp
      omega) (g5 (by decide)) (by decide)
    exact h2
  subst hK
  refine Arr2.ext' g2 g3 fun i j hi hj => ?_
  have hi : i < 2 := by rw [g2] at hi; exact hi
  have hj : j < 2 := by rw [g3] at hj; exact hj
  have := g4 (fun k => if k = i then 1 else 0) (by simp) (by rw [demo115_passive]; simp) j (by simpa using hj)
  unfold Spec.currents at this
  rw [g2] at this
  change ∑ k ∈ range 2, _ = ∑ k ∈ range 2, _ at this
  rw [Finset.sum_range_succ, Finset.sum_range_one, Finset.sum_range_succ, Finset.sum_range_one] at this
  interval_cases i <;> interval_cases j <;> simpa using this

/-- the runs of both programs -/
theorem demo165_identify (weighted : Bool) (st : Store) {sc : SimConf} (hsc : 0 < sc.vm ∧ 0 < sc.vp) : ∃ d r,
    (simulate demoWorld165 demoConf115 demoSim165 st).res = .ok d ∧
    (identify demoExt115 demoIdConf sc (demoArgs165 weighted) (simulate demoWorld165 demoConf115 demoSim165 st).store).res = .ok r ∧
    d.y = demoY165 ∧ d.noisyVoltage = d.voltage ∧ d.noisyCurrent = d.current ∧
    Spec.FullColumnRank (centreData true d.voltage d.current).1 := by
  have hn := templates_plain "ieee_33" (by decide)
  obtain ⟨net, ls', hnd, hm⟩ := demo115_net
  obtain ⟨d, hd⟩ := demo165_runs st
  obtain ⟨hwid, hrank⟩ := demo165_rank hd
  have hy := demo165_stored hd
  obtain ⟨hclean, hids, hsq, heq, hfile⟩ := C115_data (w := demoWorld165) hn rfl rfl hd ⟨rfl, rfl⟩ rfl exactPinv_contract hm
    (by simp [demoBuses115]) (y := demoY165) rfl (fun c res => demo115_flowY ⟨rfl, rfl⟩ net c res) demo165_reducible
  obtain ⟨n1, n2⟩ := hclean rfl rfl rfl rfl
  rw [show demoSim165.laplacian = true from rfl] at heq
  have hra := stored_ratings (w := demoWorld165) hn rfl rfl hd ⟨rfl, rfl⟩ hm (y := demoY165) rfl ⟨rfl, rfl⟩
  obtain ⟨σ, hσ0, hσ⟩ := atLeast_of_rank hrank
  have hz : ∀ p q, Spec.len
        (((centreData true d.noisyVoltage d.noisyCurrent).1.toMat d.voltage.r d.voltage.c -
          (centreData true d.voltage d.current).1.toMat d.voltage.r d.voltage.c).mulVec p +
        ((centreData true d.noisyVoltage d.noisyCurrent).2.toMat d.voltage.r d.current.c -
          (centreData true d.voltage d.current).2.toMat d.voltage.r d.current.c).mulVec q) ≤ 0 * Spec.len (Fin.append p q) := by
    intro p q
    rw [n1, n2, sub_self, sub_self, Matrix.zero_mulVec, Matrix.zero_mulVec, add_zero, zero_mul]
    simp [Spec.len]
  have hne : d.ratings ≠ [] := by
    intro e
    rw [e, n1, hwid] at hra
    simp at hra
  have hseen : ∀ T, tlsFit exactSvd exactInv (centreData true d.noisyVoltage d.noisyCurrent).1
      (centreData true d.noisyVoltage d.noisyCurrent).2 = .ok T → Spec.LinesSeen d.noisyVoltage.c T := by
    intro T hT
    rw [n1, n2] at hT
    obtain ⟨B, hB, hsz, he⟩ := C117_tls exactSvd_contract exactInv_contract (x := (centreData true d.voltage d.current).1)
      (z := (centreData true d.voltage d.current).2) (Y := d.y) (ε := 0) ⟨heq, ⟨rfl, rfl⟩, ⟨rfl, rfl⟩, fun p q => by
        rw [sub_self, sub_self, Matrix.zero_mulVec, Matrix.zero_mulVec, add_zero, zero_mul]
        simp [Spec.len]⟩ hσ le_rfl (by linarith)
    rw [hB] at hT
    cases hT
    simp only [mul_zero, sub_zero] at he
    rw [hy] at he hsz
    obtain rfl := errorBound_exact (n := 2) hσ0 hsz ⟨rfl, rfl⟩ he
    rw [n1, hwid]
    intro e he im
    rw [mem_offPairs] at he
    have h1 : e.1 = 1 := by omega
    have h2 : e.2 = 0 := by omega
    cases im <;> simp [Spec.symPart, Spec.part, demoY165, h1, h2, Arr2.ofFn_get'] <;> norm_num
  obtain ⟨r, hr, -⟩ := C120 (w := demoWorld165) (a := demoSim165) hn rfl rfl hd ⟨rfl, rfl⟩ rfl exactPinv_contract hm (by simp [demoBuses115]) (y := demoY165) rfl
    (fun c res => demo115_flowY ⟨rfl, rfl⟩ net c res) demo165_reducible (ext := demoExt115) (ic := demoIdConf) (by simp [demoIdConf])
    (by simp [demoIdConf]) exactInv_contract exactSolve_exact exactSolve_total exactPinv_contract exactSvd_contract (sc := sc) (b := demoArgs165 weighted)
    ⟨rfl, rfl, rfl, rfl, rfl⟩ (by show checkPhases "1" false = _; decide) rfl (by show 0 < 50; norm_num) (fun h => by cases h)
    (by simp [demoIdConf]) le_rfl (by linarith) hσ hz (.inr ⟨by simp [demoIdConf], .inl rfl, hseen, fun _ => ⟨by rw [n1, hwid]; norm_num, hsc.1, hsc.2, hne, fun h => by cases h⟩⟩)
  exact ⟨d, r, hd, hr, hy, n1, n2, hrank⟩

theorem demo165_quiet {d : NetworkData} (lap : Bool) (n1 : d.noisyVoltage = d.voltage) (n2 : d.noisyCurrent = d.current) :
    Spec.noiseSize lap d = 0 := by
  unfold Spec.noiseSize
  rw [n1, n2]
  have e : ∀ A : Arr2 ℂ, Spec.size (Spec.diff A A) = 0 := by
    intro A
    unfold Spec.size Spec.diff
    simp [Arr2.ofFn_get']
  rw [e, e]
  simp

/-- the hypotheses of C164 and of C165 with weights -/
example (st : Store) {sc : SimConf} (hsc : 0 < sc.vm ∧ 0 < sc.vp) : ∃ d r,
    (simulate demoWorld165 demoConf115 demoSim165 st).res = .ok d ∧ Spec.Admissible true d.y ∧
    (identify demoExt115 demoIdConf sc (demoArgs165 true) (simulate demoWorld165 demoConf115 demoSim165 st).store).res = .ok r ∧
    ∃ σ, 0 < σ ∧ ∃ W, (∃ c C, 0 < c ∧ c ≤ C ∧ Spec.WeightsBetween c C W) ∧ ∀ c C, 0 < c → c ≤ C → Spec.WeightsBetween c C W →
      ∃ η, Spec.ErrorBound r.2.1 d.y (σ - η) η := by
  have hn := templates_plain "ieee_33" (by decide)
  obtain ⟨net, ls', hnd, hm⟩ := demo115_net
  obtain ⟨d, r, hd, hr, hy, n1, n2, hrank⟩ := demo165_identify true st hsc
  obtain ⟨σ, hσ0, hσ⟩ := atLeast_of_rank hrank
  have hz := demo165_quiet true n1 n2
  refine ⟨d, r, hd, C164 (w := demoWorld165) (a := demoSim165) hn rfl rfl hd ⟨rfl, rfl⟩ rfl exactPinv_contract hm (by simp [demoBuses115])
    (y := demoY165) rfl demo165_symm ⟨rfl, rfl⟩ (fun h => ⟨demo165_reducible.regular, demo165_reducible.noShunt h⟩), hr, σ, hσ0, ?_⟩
  obtain ⟨y0, prior, W, -, -, -, -, hW, hb⟩ := C165_weighted (w := demoWorld165) (a := demoSim165) hn rfl rfl hd ⟨rfl, rfl⟩ rfl exactPinv_contract hm
    (by simp [demoBuses115]) (y := demoY165) rfl demo165_symm ⟨rfl, rfl⟩
    (fun c res => demo115_flowY ⟨rfl, rfl⟩ net c res) demo165_reducible (ext := demoExt115) (ic := demoIdConf)
    (by simp [demoIdConf]) exactInv_contract exactSolve_exact exactSvd_contract (sc := sc) (b := demoArgs165 true)
    ⟨rfl, rfl, rfl, rfl, rfl⟩ (.inr (by simp [demoArgs165, demoArgs119])) (.inr (by simp [demoArgs165, demoArgs119])) (by show 0 < 50; norm_num)
    (fun h => by cases h) (by simp [demoIdConf]) ⟨by rw [hy]; exact le_rfl, hsc⟩ hr rfl hσ (by rw [show demoSim165.laplacian = true from rfl, hz]; linarith) rfl
  exact ⟨W, hW, fun c C h1 h2 h3 => ⟨_, (hb c C h1 h2 h3 _ rfl).1⟩⟩

/-- the hypotheses of C165 for the lasso and without weights -/
example (st : Store) {sc : SimConf} (hsc : 0 < sc.vm ∧ 0 < sc.vp) : ∃ d r,
    (simulate demoWorld165 demoConf115 demoSim165 st).res = .ok d ∧
    (identify demoExt115 demoIdConf sc (demoArgs165 false) (simulate demoWorld165 demoConf115 demoSim165 st).store).res = .ok r ∧
    ∃ σ, 0 < σ ∧ (∃ η, Spec.ErrorBound r.1.2.2 d.y (σ - 0) η) ∧ ∃ η, Spec.ErrorBound r.2.1 d.y (σ - η) η := by
  have hn := templates_plain "ieee_33" (by decide)
  obtain ⟨net, ls', hnd, hm⟩ := demo115_net
  obtain ⟨d, r, hd, hr, hy, n1, n2, hrank⟩ := demo165_identify false st hsc
  obtain ⟨σ, hσ0, hσ⟩ := atLeast_of_rank hrank
  have hz := demo165_quiet true n1 n2
  have h1 := C165_lasso (w := demoWorld165) (a := demoSim165) hn rfl rfl hd ⟨rfl, rfl⟩ rfl exactPinv_contract hm
    (by simp [demoBuses115]) (y := demoY165) rfl demo165_symm ⟨rfl, rfl⟩
    (fun c res => demo115_flowY ⟨rfl, rfl⟩ net c res) demo165_reducible (ext := demoExt115) (ic := demoIdConf)
    (by simp [demoIdConf]) exactSolve_exact exactPinv_contract (sc := sc) (b := demoArgs165 false)
    ⟨rfl, rfl, rfl⟩ (.inr (by simp [demoArgs165, demoArgs119])) (by show 0 < 50; norm_num)
    hr (ε := 0) hz.symm hσ hσ0 rfl rfl
  obtain ⟨y0, prior, -, -, -, hb⟩ := C165_bayesian (w := demoWorld165) (a := demoSim165) hn rfl rfl hd ⟨rfl, rfl⟩ rfl exactPinv_contract hm
    (by simp [demoBuses115]) (y := demoY165) rfl demo165_symm ⟨rfl, rfl⟩
    (fun c res => demo115_flowY ⟨rfl, rfl⟩ net c res) demo165_reducible (ext := demoExt115) (ic := demoIdConf)
    (by simp [demoIdConf]) exactInv_contract exactSolve_exact exactSolve_total exactSvd_contract (sc := sc) (b := demoArgs165 false)
    ⟨rfl, rfl, rfl, rfl⟩ (.inr (by simp [demoArgs165, demoArgs119])) (.inr (by simp [demoArgs165, demoArgs119])) (by show 0 < 50; norm_num)
    (fun h => by cases h) (by simp [demoIdConf]) hr (ε := 0) hz.symm hσ (by linarith) rfl
  exact ⟨d, r, hd, hr, σ, hσ0, ⟨_, h1⟩, _, (hb _ rfl).1⟩

end
end Verif
