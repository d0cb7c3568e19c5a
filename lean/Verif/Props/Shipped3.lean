/-
C122 and C167 for the shipped three-phase networks: positive and negative sequence of the stored matrix agree, so that the exchange of
the two in the identification does not matter for them.
-/
import Verif.Props.LineTypes
import Verif.Props.Reference3
import Verif.Props.NoisyPipeline3
import Verif.Props.NoiseLimit3

namespace Verif
open Finset Spec
noncomputable section

/-- two networks that agree besides the nodes `C` have the same reduced matrix when these are at zero voltage -/
theorem grounded_agree {y z red red' : Arr2 ℂ} {n : ℕ} (hy : Spec.IsSquare n y) (hz : Spec.IsSquare n z) {C S : Finset ℕ} (hC : ∀ c ∈ C, c < n)
    (hS : ∀ s ∈ S, s < n) (hCS : Disjoint C S) (hns : Spec.BlockNonsingular y S) {K : List ℕ} (hK : Spec.Lists n (C ∪ S) K)
    (he : ∀ i < n, ∀ j < n, i ∉ C → j ∉ C → y.get i j = z.get i j)
    (hr : Spec.Grounded y (fun _ => 0) C S K red) (hr' : Spec.Grounded z (fun _ => 0) C S K red') : red = red' := by
  have hcur : ∀ v : ℕ → ℂ, (∀ c ∈ C, v c = 0) → ∀ j < n, j ∉ C → Spec.currents y v j = Spec.currents z v j := by
    intro v hv j hj hjC
    unfold Spec.currents
    rw [hy.1, hz.1]
    refine Finset.sum_congr rfl fun i hi => ?_
    by_cases hiC : i ∈ C
    · rw [hv i hiC, zero_mul, zero_mul]
    · rw [he i (Finset.mem_range.1 hi) j hj hiC hjC]
  have key : ∀ u : ℕ → ℂ, ∀ b < K.length, Spec.currents red u b = Spec.currents red' u b := by
    intro u b hb
    obtain ⟨v, a1, a2, a3, -⟩ := grounded_power hy (d := fun _ => 0) hC hS hCS (by rw [withShunts_zero]; exact hns) hK hr u
    have hKb : K.getD b 0 < n ∧ K.getD b 0 ∉ C ∪ S := (hK.2 _).1 (by
      rw [List.getD_eq_getElem _ _ hb]
      exact List.getElem_mem hb)
    have e1 := hr.2.2 v a2 a3 b hb
    have e2 := hr'.2.2 v a2 (fun s hs => by
      rw [← hcur v a2 s (hS s hs) (Finset.disjoint_right.1 hCS hs)]
      exact a3 s hs) b hb
    have ext : ∀ {m : Arr2 ℂ}, m.r = K.length → Spec.currents m (fun a => v (K.getD a 0)) b = Spec.currents m u b := by
      intro m hm
      unfold Spec.currents
      refine Finset.sum_congr rfl fun a ha => ?_
      show v (K.getD a 0) * _ = _
      rw [a1 a (by rw [← hm]; exact Finset.mem_range.1 ha)]
    rw [ext hr.1] at e1
    rw [ext hr'.1] at e2
    rw [e1, e2]
    exact hcur v a2 _ hKb.1 fun h => hKb.2 (Finset.mem_union_left _ h)
  refine Arr2.ext' (hr.1.trans hr'.1.symm) (hr.2.1.trans hr'.2.1.symm) fun i j hi hj => ?_
  rw [hr.1] at hi
  rw [hr.2.1] at hj
  have := key (fun k => if k = i then 1 else 0) j hj
  simpa [Spec.currents, hr.1, hr'.1, hi] using this

/-- a matrix that agrees besides the connection with that of lines has a symmetric reduced matrix -/
theorem grounded_besides_symm {sn : ℝ} {bs : List BusData} {ls : List LineData} {y red : Arr2 ℂ} (h : Spec.GridBesides sn bs ls y)
    {C S : Finset ℕ} (hc : C = Spec.connections bs) (hC : ∀ c ∈ C, c < bs.length) (hS : ∀ s ∈ S, s < bs.length) (hCS : Disjoint C S)
    (hns : Spec.BlockNonsingular y S) {K : List ℕ} (hK : Spec.Lists bs.length (C ∪ S) K) (hr : Spec.Grounded y (fun _ => 0) C S K red) :
    Spec.IsSymm red := by
  obtain ⟨hsq, g, hg, he⟩ := h
  subst hc
  have hns' : Spec.BlockNonsingular g S := by
    intro u hu
    refine hns u fun j hj => ?_
    rw [← hu j hj]
    exact Finset.sum_congr rfl fun i hi => by
      rw [he i (hS i hi) j (hS j hj) (Finset.disjoint_right.1 hCS hi) (Finset.disjoint_right.1 hCS hj)]
  have hcur : ∀ v : ℕ → ℂ, (∀ c ∈ Spec.connections bs, v c = 0) → ∀ j < bs.length, j ∉ Spec.connections bs →
      Spec.currents g v j = Spec.currents y v j := by
    intro v hv j hj hjC
    unfold Spec.currents
    rw [hsq.1, hg.square.1]
    refine Finset.sum_congr rfl fun i hi => ?_
    by_cases hiC : i ∈ Spec.connections bs
    · rw [hv i hiC, zero_mul, zero_mul]
    · rw [he i (Finset.mem_range.1 hi) j hj hiC hjC]
  have hrg : Spec.Grounded g (fun _ => 0) (Spec.connections bs) S K red := by
    refine ⟨hr.1, hr.2.1, fun v hv hs b hb => ?_⟩
    have hKb : K.getD b 0 < bs.length ∧ K.getD b 0 ∉ Spec.connections bs ∪ S := (hK.2 _).1 (by
      rw [List.getD_eq_getElem _ _ hb]
      exact List.getElem_mem hb)
    rw [hcur v hv _ hKb.1 fun h => hKb.2 (Finset.mem_union_left _ h)]
    refine hr.2.2 v hv (fun s hs' => ?_) b hb
    rw [← hcur v hv s (hS s hs') (Finset.disjoint_right.1 hCS hs')]
    exact hs s hs'
  exact grounded_symm hg.square ⟨hg.square.1.trans hg.square.2.symm, gridMatrix_symm hg⟩ hC hS hCS (by rw [withShunts_zero]; exact hns') hK hrg

theorem gridMatrix_unique {sn : ℝ} {bs : List BusData} {ls : List LineData} {y z : Arr2 ℂ} (hy : Spec.IsGridMatrix sn bs ls y)
    (hz : Spec.IsGridMatrix sn bs ls z) : y = z := by
  obtain ⟨⟨y1, y2⟩, y3, y4⟩ := hy
  obtain ⟨⟨z1, z2⟩, z3, z4⟩ := hz
  have off : ∀ i j, i < bs.length → j < bs.length → i ≠ j → y.get i j = z.get i j := fun i j hi hj hij => by
    rw [y3 i j hi hj hij, z3 i j hi hj hij]
  refine Arr2.ext' (y1.trans z1.symm) (y2.trans z2.symm) fun i j hi hj => ?_
  rw [y1] at hi
  rw [y2] at hj
  by_cases hij : i = j
  · subst hij
    have a := y4 i hi
    have b := z4 i hi
    rw [← Finset.add_sum_erase _ _ (Finset.mem_range.2 hi)] at a b
    rw [Finset.sum_congr rfl fun j hj => off i j hi (Finset.mem_range.1 (Finset.mem_of_mem_erase hj)) (Finset.ne_of_mem_erase hj).symm] at a
    exact add_right_cancel (a.trans b.symm)
  · exact off i j hi hj hij

/-- C167, shipped three-phase networks: the three blocks of the stored matrix are symmetric, and those of the positive and the negative
sequence are the same, whatever pandapower puts into the entries of the grid connection -/
theorem C167_shipped {w : SimWorld} (hw : w.Shipped) {cf : SimConf} {a : SimArgs} {st : Store} {d : NetworkData} (hn : Spec.PlainName a.network)
    (h3 : a.threePhased = true) (hseq : a.sequence = true) (h : (simulate w cf a st).res = .ok d)
    (hall : a.loads = a.networkSim ∧ a.networkSim = a.noise) (hhid : cf.hidden = []) (hpinv : Spec.PinvContract w.pinv)
    {net : Net} {bs : List BusData} (hbs : makeNet3 w a.network = .ok (net, bs)) {ls : List LineData} (hls : shippedLines3 a.network = some ls)
    {y0 y1 y2 y : Arr2 ℂ} {sn : ℝ} (hsn : 0 < sn)
    (g0 : Spec.GridBesides sn bs (Spec.sequenceLines Spec.zero ls) y0) (g1 : Spec.GridBesides sn bs (Spec.sequenceLines Spec.positive ls) y1)
    (g2 : Spec.GridBesides sn bs (Spec.sequenceLines Spec.positive ls) y2) (hyy : makeYBus3 y0 y1 y2 = .ok y) (hy : w.yBus3 net = .ok y)
    (hf : ∀ c res, w.flow3 net c = .ok res → Spec.PowerFlow3 bs y res) {m : ℕ}
    (hm : m = bs.length - (Spec.passive3 bs ∪ Spec.connections bs).card) :
    Assembled (Spec.sequenceIds m) (fun _ => m) Spec.sequencePos (fun l => blockAt d.y m (Spec.sequencePos l)) d.y ∧
      (∀ l, Spec.Admissible false (blockAt d.y m (Spec.sequencePos l))) ∧
      blockAt d.y m (Spec.sequencePos 1) = blockAt d.y m (Spec.sequencePos 2) := by
  obtain ⟨ls', e1, -⟩ := C133_three hbs
  rw [hw.buses3] at e1
  obtain ⟨hd, hr⟩ := C136_three_matrices e1 hls hsn g0 g1 g2
  obtain ⟨m', rs, -, hids, -, -, hm', hsq, -, hass, -, -, -, K, hK, hKm, hG⟩ :=
    C122_data hn h3 hseq h hall hhid hpinv hbs g0.1 g1.1 g2.1 hyy hy hf hr
  obtain rfl : m = m' := hm.trans hm'.symm
  have hblk : ∀ l, blockAt d.y m (Spec.sequencePos l) = rs l := by
    intro l
    refine Arr2.ext' (hsq l).1.symm (hsq l).2.symm fun i j (hi : i < m) (hj : j < m) => ?_
    unfold blockAt
    rw [Arr2.ofFn_get _ hi hj, hass.block l i j hi hj]
  rw [Finset.union_comm] at hK
  have hC : ∀ k ∈ Spec.connections bs, k < bs.length := fun k hk => connections_lt hk
  have hS : ∀ k ∈ Spec.passive3 bs, k < bs.length := fun k hk => passive_lt (Finset.mem_inter.1 hk).1
  have hCS : Disjoint (Spec.connections bs) (Spec.passive3 bs) :=
    Finset.disjoint_left.2 fun k hc hk => passive_not_connection (Finset.mem_inter.1 hk).1 hc
  rw [hids] at hass
  refine ⟨?_, fun l => ⟨?_, fun h => by cases h⟩, ?_⟩
  · rw [show (fun l => blockAt d.y m (Spec.sequencePos l)) = rs from funext hblk]
    exact hass
  · rw [hblk]
    have hGl := hG l
    fin_cases l
    · exact grounded_besides_symm g0 rfl hC hS hCS (hr.regular _ (.inl rfl)) hK hGl
    · exact grounded_besides_symm g1 rfl hC hS hCS (hr.regular _ (.inr (.inl rfl))) hK hGl
    · exact grounded_besides_symm g2 rfl hC hS hCS (hr.regular _ (.inr (.inr rfl))) hK hGl
  · rw [hblk, hblk]
    refine grounded_agree g1.1 g2.1 hC hS hCS (hr.regular _ (.inr (.inl rfl))) hK ?_ (hG 1) (hG 2)
    obtain ⟨-, g, hg, he⟩ := g1
    obtain ⟨-, g', hg', he'⟩ := g2
    intro i hi j hj hiC hjC
    rw [he i hi j hj hiC hjC, he' i hi j hj hiC hjC, gridMatrix_unique hg hg']

/-- C122, shipped three-phase networks: without noise, with linearly independent centred voltages of each sequence, the ordinary and the
total least squares estimates are the stored reference -/
theorem C122_shipped {w : SimWorld} (hw : w.Shipped) {cf : SimConf} {a : SimArgs} {st : Store} {d : NetworkData} (hn : Spec.PlainName a.network)
    (h3 : a.threePhased = true) (hseq : a.sequence = true) (h : (simulate w cf a st).res = .ok d)
    (hall : a.loads = a.networkSim ∧ a.networkSim = a.noise) (hsd : cf.vm = 0 ∧ cf.cm = 0 ∧ cf.vp = 0 ∧ cf.cp = 0)
    (hhid : cf.hidden = []) (hpinv : Spec.PinvContract w.pinv)
    {net : Net} {bs : List BusData} (hbs : makeNet3 w a.network = .ok (net, bs)) {ls : List LineData} (hls : shippedLines3 a.network = some ls)
    {y0 y1 y2 y : Arr2 ℂ} {sn : ℝ} (hsn : 0 < sn)
    (g0 : Spec.GridBesides sn bs (Spec.sequenceLines Spec.zero ls) y0) (g1 : Spec.GridBesides sn bs (Spec.sequenceLines Spec.positive ls) y1)
    (g2 : Spec.GridBesides sn bs (Spec.sequenceLines Spec.positive ls) y2) (hyy : makeYBus3 y0 y1 y2 = .ok y) (hy : w.yBus3 net = .ok y)
    (hf : ∀ c res, w.flow3 net c = .ok res → Spec.PowerFlow3 bs y res)
    {ext : NumExt} {ic : IdConf} (hl : 0 ≤ ic.lambdaLasso) (hinv : Spec.InvContract ext.inv)
    (hex : Spec.Exact ext.solve) (htot : Spec.Total ext.solve) (hpinv' : Spec.PinvContract ext.pinv)
    (hsvd : Spec.SvdContract ext.svdVh) (hsh : Spec.Shapes ext)
    (hrank : ∀ l, Spec.FullColumnRank (centreColumns (columnsAt d.voltage (d.voltage.c / 3) (Spec.sequencePos l)))) {sc : SimConf}
    {b : IdArgs} (hb : b.network = a.network ∧ b.threePhased = true ∧ b.laplacian = false ∧ b.phases = "012")
    (hstd : Spec.Redone b.standard [b.standard, b.bayesian])
    {r : (Arr2 ℂ × Arr2 ℂ × Arr2 ℂ) × (Arr2 ℂ × List IterationStatus)}
    (hid : (identify ext ic sc b (simulate w cf a st).store).res = .ok r) :
    r.1.1 = d.y ∧ r.1.2.1 = d.y := by
  obtain ⟨ls', e1, -⟩ := C133_three hbs
  rw [hw.buses3] at e1
  obtain ⟨-, hr⟩ := C136_three_matrices e1 hls hsn g0 g1 g2
  obtain ⟨-, -, heq⟩ := C167_shipped hw hn h3 hseq h hall hhid hpinv hbs hls hsn g0 g1 g2 hyy hy hf rfl
  obtain ⟨m0, -, -, hids, -, -, hm', -⟩ := C122_data hn h3 hseq h hall hhid hpinv hbs g0.1 g1.1 g2.1 hyy hy hf hr
  obtain ⟨m, hids', -, -, -, i1, i2, -⟩ := C122 hn h3 hseq h hall hsd hhid hpinv hbs g0.1 g1.1 g2.1 hyy hy hf hr hl hinv hex htot hpinv' hsvd hsh hrank
    hb hstd hid
  have hmm := congrArg List.length (hids.symm.trans hids')
  simp only [Spec.sequenceIds, List.length_map, List.length_range] at hmm
  obtain rfl : m = bs.length - (Spec.passive3 bs ∪ Spec.connections bs).card := by omega
  exact ⟨i1.2 heq, i2.2 heq⟩

/-- C128, shipped three-phase networks: with small noise the ordinary and the total least squares estimates of every sequence are near the
block of the stored reference for the same sequence -/
theorem C128_shipped {w : SimWorld} (hw : w.Shipped) {cf : SimConf} {a : SimArgs} {st : Store} {d : NetworkData} (hn : Spec.PlainName a.network)
    (h3 : a.threePhased = true) (hseq : a.sequence = true) (h : (simulate w cf a st).res = .ok d)
    (hall : a.loads = a.networkSim ∧ a.networkSim = a.noise) (hhid : cf.hidden = []) (hpinv : Spec.PinvContract w.pinv)
    {net : Net} {bs : List BusData} (hbs : makeNet3 w a.network = .ok (net, bs)) {ls : List LineData} (hls : shippedLines3 a.network = some ls)
    {y0 y1 y2 y : Arr2 ℂ} {sn : ℝ} (hsn : 0 < sn)
    (g0 : Spec.GridBesides sn bs (Spec.sequenceLines Spec.zero ls) y0) (g1 : Spec.GridBesides sn bs (Spec.sequenceLines Spec.positive ls) y1)
    (g2 : Spec.GridBesides sn bs (Spec.sequenceLines Spec.positive ls) y2)
    (hyy : makeYBus3 y0 y1 y2 = .ok y) (hy : w.yBus3 net = .ok y)
    (hf : ∀ c res, w.flow3 net c = .ok res → Spec.PowerFlow3 bs y res) {m : ℕ}
    (hm : m = bs.length - (Spec.passive3 bs ∪ Spec.connections bs).card) (hm0 : 0 < m)
    {ext : NumExt} {ic : IdConf} (hlasso : 0 ≤ ic.lambdaLasso) (hl : 0 ≤ ic.lambdaEiv) (hinv : Spec.InvContract ext.inv)
    (hex : Spec.Exact ext.solve) (htot : Spec.Total ext.solve) (hpinv' : Spec.PinvContract ext.pinv)
    (hsvd : Spec.SvdContract ext.svdVh) (hsh : Spec.Shapes ext) {sc : SimConf} {b : IdArgs}
    (hb : b.network = a.network ∧ b.threePhased = true ∧ b.laplacian = false ∧ b.sequence = true ∧ b.phases = "012" ∧
      b.continueId = false ∧ b.uncertainty = false ∧ b.standard = b.bayesian ∧ 0 < b.maxIter ∧ (b.exact = true → 29 ≤ m))
    {v c nv nc : Fin 3 → Arr2 ℂ} (hv : v = fun l => centreColumns (columnsAt d.voltage m (Spec.sequencePos l)))
    (hc : c = fun l => centreColumns (columnsAt d.current m (Spec.sequencePos l)))
    (hnv : nv = fun l => centreColumns (columnsAt d.noisyVoltage m (Spec.sequencePos l)))
    (hnc : nc = fun l => centreColumns (columnsAt d.noisyCurrent m (Spec.sequencePos l))) {ε σ : Fin 3 → ℝ}
    (hε : ∀ l, 0 ≤ ε l ∧ 2 * ε l < σ l) (hσ : ∀ l, Spec.AtLeast (v l) (σ l))
    (hnoise : ∀ l p q, Spec.len (((nv l).toMat (v l).r (v l).c - (v l).toMat (v l).r (v l).c).mulVec p +
        ((nc l).toMat (v l).r (c l).c - (c l).toMat (v l).r (c l).c).mulVec q) ≤ ε l * Spec.len (Fin.append p q))
    (hcase : ∀ l, (b.weighted = false ∧ Spec.Unrelated (nv l) (nc l)) ∨
      (0 < ic.lambdaEiv ∧ (ic.contrastEachRow = true ∧ ic.regularizeDiag = true ∧ ic.lambdaprime ≠ 0) ∧
        (∀ T, tlsFit ext.svdVh ext.inv (nv l) (nc l) = .ok T → Spec.LinesSeen m T) ∧
        (b.weighted = true → m ≠ 1 ∧ 0 < sc.vm ∧ 0 < sc.vp ∧
          (b.unsynchronized = true → ∀ t j, t < d.noisyVoltage.r → j < m * 3 → d.noisyVoltage.get t j ≠ 0)))) :
    ∃ r, ∃ B T : Fin 3 → Arr2 ℂ, (identify ext ic sc b (simulate w cf a st).store).res = .ok r ∧
      Assembled (Spec.sequenceIds m) (fun _ => m) Spec.sequencePos (fun l => blockAt d.y m (Spec.sequencePos l)) d.y ∧
      Assembled (Spec.sequenceIds m) (fun _ => m) Spec.sequencePos B r.1.1 ∧
      Assembled (Spec.sequenceIds m) (fun _ => m) Spec.sequencePos T r.1.2.1 ∧
      ∀ l, Spec.ErrorBound (B l) (blockAt d.y m (Spec.sequencePos l)) (σ l - ε l) (ε l) ∧
        Spec.ErrorBound (T l) (blockAt d.y m (Spec.sequencePos l)) (σ l - 2 * ε l) (2 * ε l) := by
  obtain ⟨ls', e1, -⟩ := C133_three hbs
  rw [hw.buses3] at e1
  obtain ⟨-, hr⟩ := C136_three_matrices e1 hls hsn g0 g1 g2
  obtain ⟨-, -, heq⟩ := C167_shipped hw hn h3 hseq h hall hhid hpinv hbs hls hsn g0 g1 g2 hyy hy hf hm
  obtain ⟨r, B, T, q1, q2, q3, q4, q5, -⟩ := C128 hn h3 hseq h hall hhid hpinv hbs g0.1 g1.1 g2.1 hyy hy hf hr hm hm0 hlasso hl hinv hex htot hpinv' hsvd
    hsh (sc := sc) hb hv hc hnv hnc hε hσ hnoise hcase
  refine ⟨r, B, T, q1, q2, q3, q4, fun l => ?_⟩
  have := q5 l
  fin_cases l
  · exact this
  · dsimp at this ⊢
    rw [heq]
    exact this
  · dsimp at this ⊢
    rw [← heq]
    exact this

/-- C175, shipped three-phase networks: below some noise level the standard estimates of every sequence are within a constant times the
noise level of the block of the stored reference for the same sequence -/
theorem C175_three_shipped (z' : Nat → ℝ) {w : SimWorld} (hw : w.Shipped) {cf : SimConf} {a : SimArgs} {st : Store} {d : NetworkData} (hn : PlainName a.network)
    (hsf : 0 ≤ cf.safety) (h3 : a.threePhased = true) (hseq : a.sequence = true) (h : (simulate w cf a st).res = .ok d)
    (hall : a.loads = a.networkSim ∧ a.networkSim = a.noise) (hhid : cf.hidden = []) (hpinv : Spec.PinvContract w.pinv)
    {net : Net} {bs : List BusData} (hbs : makeNet3 w a.network = .ok (net, bs)) {ls : List LineData} (hls : shippedLines3 a.network = some ls)
    {y0 y1 y2 y : Arr2 ℂ} {sn : ℝ} (hsn : 0 < sn)
    (g0 : Spec.GridBesides sn bs (Spec.sequenceLines Spec.zero ls) y0) (g1 : Spec.GridBesides sn bs (Spec.sequenceLines Spec.positive ls) y1)
    (g2 : Spec.GridBesides sn bs (Spec.sequenceLines Spec.positive ls) y2)
    (hyy : makeYBus3 y0 y1 y2 = .ok y) (hy : w.yBus3 net = .ok y)
    (hf : ∀ c res, w.flow3 net c = .ok res → Spec.PowerFlow3 bs y res) {m : ℕ}
    (hm : m = bs.length - (Spec.passive3 bs ∪ Spec.connections bs).card)
    (hrank : ∀ l, Spec.FullColumnRank (centreColumns (columnsAt d.voltage m (Spec.sequencePos l)))) :
    ∃ K ν₀, 0 ≤ K ∧ 0 < ν₀ ∧ ∀ {rs : List Rerun} {r : Rerun} {ν : ℝ}, (∀ r ∈ rs, r.Valid) → r.Valid → r.z = z' → r.UpTo ν → ν ≤ ν₀ →
      ∃ d', (simulate (r.world w) (r.conf cf) (noiseOnly a) (sweep w cf a rs (simulate w cf a st).store)).res = .ok d' ∧ d'.y = d.y ∧
      ∀ {ext : NumExt} {ic : IdConf}, 0 ≤ ic.lambdaLasso → Spec.InvContract ext.inv → Spec.Exact ext.solve → Spec.Total ext.solve →
        Spec.PinvContract ext.pinv → Spec.SvdContract ext.svdVh → Spec.Shapes ext →
        (∀ name maxIter st', ∃ o, (standardMethods3 ext ic name (some d'.noisyVoltage) (some d'.noisyCurrent) (some d'.ids) false maxIter
            st').res = .ok o ∧ (∃ B, Assembled (Spec.sequenceIds m) (fun _ => m) Spec.sequencePos B o.1) ∧
            (∃ T, Assembled (Spec.sequenceIds m) (fun _ => m) Spec.sequencePos T o.2.1) ∧
          ∀ l, Within (K * ν) (blockAt o.1 m (Spec.sequencePos l)) (blockAt d.y m (Spec.sequencePos l)) ∧
            Within (K * ν) (blockAt o.2.1 m (Spec.sequencePos l)) (blockAt d.y m (Spec.sequencePos l))) ∧
        ∀ {sc : SimConf} {b : IdArgs} {o : (Arr2 ℂ × Arr2 ℂ × Arr2 ℂ) × (Arr2 ℂ × List IterationStatus)},
          (b.network = a.network ∧ b.laplacian = false ∧ b.threePhased = true ∧ b.phases = "012") →
          Redone b.standard [b.standard, b.bayesian] →
          (identify ext ic sc b (sweep w cf a (rs ++ [r]) (simulate w cf a st).store)).res = .ok o →
          ∀ l, Within (K * ν) (blockAt o.1.1 m (Spec.sequencePos l)) (blockAt d.y m (Spec.sequencePos l)) ∧
            Within (K * ν) (blockAt o.1.2.1 m (Spec.sequencePos l)) (blockAt d.y m (Spec.sequencePos l)) := by
  obtain ⟨ls', e1, -⟩ := C133_three hbs
  rw [hw.buses3] at e1
  obtain ⟨-, hr⟩ := C136_three_matrices e1 hls hsn g0 g1 g2
  obtain ⟨-, -, heq⟩ := C167_shipped hw hn h3 hseq h hall hhid hpinv hbs hls hsn g0 g1 g2 hyy hy hf hm
  have hx : ∀ l, blockAt d.y m (Spec.sequencePos (Spec.exchanged l)) = blockAt d.y m (Spec.sequencePos l) := by
    intro l
    fin_cases l
    · rfl
    · exact heq.symm
    · exact heq
  have := C175_three z' hn hsf h3 hseq h hall hhid hpinv hbs g0.1 g1.1 g2.1 hyy hy hf hr hm hrank
  simp only [hx] at this
  exact this

/-- the shipped networks can be reduced, their stored blocks are admissible and unchanged when positive and negative sequence are exchanged -/
theorem shipped3_blocks {w : SimWorld} (hw : w.Shipped) {cf : SimConf} {a : SimArgs} {st : Store} {d : NetworkData} (hn : Spec.PlainName a.network)
    (h3 : a.threePhased = true) (hseq : a.sequence = true) (h : (simulate w cf a st).res = .ok d)
    (hall : a.loads = a.networkSim ∧ a.networkSim = a.noise) (hhid : cf.hidden = []) (hpinv : Spec.PinvContract w.pinv)
    {net : Net} {bs : List BusData} (hbs : makeNet3 w a.network = .ok (net, bs)) {ls : List LineData} (hls : shippedLines3 a.network = some ls)
    {y0 y1 y2 y : Arr2 ℂ} {sn : ℝ} (hsn : 0 < sn)
    (g0 : Spec.GridBesides sn bs (Spec.sequenceLines Spec.zero ls) y0) (g1 : Spec.GridBesides sn bs (Spec.sequenceLines Spec.positive ls) y1)
    (g2 : Spec.GridBesides sn bs (Spec.sequenceLines Spec.positive ls) y2) (hyy : makeYBus3 y0 y1 y2 = .ok y) (hy : w.yBus3 net = .ok y)
    (hf : ∀ c res, w.flow3 net c = .ok res → Spec.PowerFlow3 bs y res) {m : ℕ}
    (hm : m = bs.length - (Spec.passive3 bs ∪ Spec.connections bs).card) :
    Spec.Reducible3 bs y0 y1 y2 ∧ (∀ l, Spec.Admissible false (blockAt d.y m (Spec.sequencePos l))) ∧
      ∀ l, blockAt d.y m (Spec.sequencePos (Spec.exchanged l)) = blockAt d.y m (Spec.sequencePos l) := by
  obtain ⟨ls', e1, -⟩ := C133_three hbs
  rw [hw.buses3] at e1
  obtain ⟨-, hr⟩ := C136_three_matrices e1 hls hsn g0 g1 g2
  obtain ⟨-, hadm, heq⟩ := C167_shipped hw hn h3 hseq h hall hhid hpinv hbs hls hsn g0 g1 g2 hyy hy hf hm
  refine ⟨hr, hadm, fun l => ?_⟩
  fin_cases l
  · rfl
  · exact heq.symm
  · exact heq


/-- C167, lasso, shipped networks: the errors of the blocks of the third estimate relative to the stored blocks of the same sequence -/
theorem C167_shipped_lasso {w : SimWorld} (hw : w.Shipped) {cf : SimConf} {a : SimArgs} {st : Store} {d : NetworkData} (hn : Spec.PlainName a.network)
    (h3 : a.threePhased = true) (hseq : a.sequence = true) (h : (simulate w cf a st).res = .ok d)
    (hall : a.loads = a.networkSim ∧ a.networkSim = a.noise) (hhid : cf.hidden = []) (hpinv : Spec.PinvContract w.pinv)
    {net : Net} {bs : List BusData} (hbs : makeNet3 w a.network = .ok (net, bs)) {ls : List LineData} (hls : shippedLines3 a.network = some ls)
    {y0 y1 y2 y : Arr2 ℂ} {sn : ℝ} (hsn : 0 < sn)
    (g0 : Spec.GridBesides sn bs (Spec.sequenceLines Spec.zero ls) y0) (g1 : Spec.GridBesides sn bs (Spec.sequenceLines Spec.positive ls) y1)
    (g2 : Spec.GridBesides sn bs (Spec.sequenceLines Spec.positive ls) y2)
    (hyy : makeYBus3 y0 y1 y2 = .ok y) (hy : w.yBus3 net = .ok y)
    (hf : ∀ c res, w.flow3 net c = .ok res → Spec.PowerFlow3 bs y res) {m : ℕ}
    (hm : m = bs.length - (Spec.passive3 bs ∪ Spec.connections bs).card)
    {ext : NumExt} {ic : IdConf} (hl : 0 ≤ ic.lambdaLasso) (hex : Spec.Exact ext.solve) (hpinv' : Spec.PinvContract ext.pinv)
    (hsh : Spec.Shapes ext) {sc : SimConf} {b : IdArgs}
    (hb : b.network = a.network ∧ b.laplacian = false ∧ b.phases = "012")
    (hstd : Spec.Redone b.standard [b.standard, b.bayesian]) (hit : 0 < b.maxIter)
    {r : (Arr2 ℂ × Arr2 ℂ × Arr2 ℂ) × (Arr2 ℂ × List IterationStatus)}
    (hid : (identify ext ic sc b (simulate w cf a st).store).res = .ok r) {x Y : Fin 3 → Arr2 ℂ}
    (hx : x = fun l => centreColumns (columnsAt d.voltage m (Spec.sequencePos l)))
    (hY : Y = fun l => blockAt d.y m (Spec.sequencePos l)) {ε σ : Fin 3 → ℝ}
    (hε : ∀ l, ε l = Spec.sequenceNoise m d l) (hσ : ∀ l, Spec.AtLeast (x l) (σ l)) (hεσ : ∀ l, ε l < σ l) {e η : Fin 3 → ℝ}
    (he : ∀ l, e l = Spec.olsError (ε l) (σ l) (Spec.size (Y l)) m)
    (hη : ∀ l, η l = ε l + Spec.regShift m (ε l) (Spec.size (x l)) (Spec.size (Y l)) (e l) (ic.lambdaLasso * (2 * (Spec.size (Y l) + e l) ^ 2))) :
    ∃ L : Fin 3 → Arr2 ℂ, Assembled (Spec.sequenceIds m) (fun _ => m) Spec.sequencePos L r.1.2.2 ∧
      ∀ l, Spec.ErrorBound (L l) (Y l) (σ l - ε l) (η l) := by
  obtain ⟨hr, hadm, hxc⟩ := shipped3_blocks hw hn h3 hseq h hall hhid hpinv hbs hls hsn g0 g1 g2 hyy hy hf hm
  obtain ⟨hb1, hb2, hb3⟩ := hb
  obtain ⟨q1, q2, q3, q4, q5, -, -, q8, -⟩ := stored_data3 hn h3 hseq h hall hhid hpinv hbs g0.1 g1.1 g2.1 hyy hy hf hr hm hb1
  have h3p : b.threePhased = true := by unfold IdArgs.threePhased; rw [hb3]; decide
  rw [← q3]
  refine C166_lasso (by rw [hb1]; exact hn) h3p hb3 hex hpinv' hsh hl hid hstd hit q1 ⟨q2.v, q2.c⟩ q4
    (fun l => by rw [q3]; exact labelPos_sequence m l) rfl rfl (x0 := x)
    (z0 := fun l => centreColumns (columnsAt d.current m (Spec.sequencePos l))) (Y := Y) (fun l => ?_) (fun l => ?_) (fun l => ?_)
    (fun l => ⟨by rw [hε]; exact Real.sqrt_nonneg _, hεσ l⟩) (fun l => ?_) hσ he hη
  · rw [hb2, hY]
    exact ⟨⟨rfl, rfl⟩, hadm l⟩
  · rw [hx, hY]; dsimp only; rw [← hxc l]; exact q8 l
  · rw [hx]; exact q5
  · rw [hb2, hε, hx, Spec.sequenceNoise, Real.sq_sqrt (by positivity)]
    exact le_rfl

/-- C167, Bayesian estimate without weights, shipped networks -/
theorem C167_shipped_bayesian {w : SimWorld} (hw : w.Shipped) {cf : SimConf} {a : SimArgs} {st : Store} {d : NetworkData} (hn : Spec.PlainName a.network)
    (h3 : a.threePhased = true) (hseq : a.sequence = true) (h : (simulate w cf a st).res = .ok d)
    (hall : a.loads = a.networkSim ∧ a.networkSim = a.noise) (hhid : cf.hidden = []) (hpinv : Spec.PinvContract w.pinv)
    {net : Net} {bs : List BusData} (hbs : makeNet3 w a.network = .ok (net, bs)) {ls : List LineData} (hls : shippedLines3 a.network = some ls)
    {y0 y1 y2 y : Arr2 ℂ} {sn : ℝ} (hsn : 0 < sn)
    (g0 : Spec.GridBesides sn bs (Spec.sequenceLines Spec.zero ls) y0) (g1 : Spec.GridBesides sn bs (Spec.sequenceLines Spec.positive ls) y1)
    (g2 : Spec.GridBesides sn bs (Spec.sequenceLines Spec.positive ls) y2)
    (hyy : makeYBus3 y0 y1 y2 = .ok y) (hy : w.yBus3 net = .ok y)
    (hf : ∀ c res, w.flow3 net c = .ok res → Spec.PowerFlow3 bs y res) {m : ℕ}
    (hm : m = bs.length - (Spec.passive3 bs ∪ Spec.connections bs).card) (hm0 : 0 < m)
    {ext : NumExt} {ic : IdConf} (hl : 0 ≤ ic.lambdaEiv) (hinv : Spec.InvContract ext.inv) (hex : Spec.Exact ext.solve)
    (htot : Spec.Total ext.solve) (hsvd : Spec.SvdContract ext.svdVh) (hsh : Spec.Shapes ext) {sc : SimConf} {b : IdArgs}
    (hb : b.network = a.network ∧ b.laplacian = false ∧ b.phases = "012" ∧ b.weighted = false)
    (hstd : Spec.Redone b.standard [b.standard, b.bayesian]) (hbay : Spec.Redone b.bayesian [b.standard, b.bayesian])
    (hit : 0 < b.maxIter) (hexact : b.exact = true → 29 ≤ m)
    {r : (Arr2 ℂ × Arr2 ℂ × Arr2 ℂ) × (Arr2 ℂ × List IterationStatus)}
    (hid : (identify ext ic sc b (simulate w cf a st).store).res = .ok r) {x Y : Fin 3 → Arr2 ℂ}
    (hx : x = fun l => centreColumns (columnsAt d.voltage m (Spec.sequencePos l)))
    (hY : Y = fun l => blockAt d.y m (Spec.sequencePos l)) {ε σ : Fin 3 → ℝ}
    (hε : ∀ l, ε l = Spec.sequenceNoise m d l) (hσ : ∀ l, Spec.AtLeast (x l) (σ l)) (hεσ : ∀ l, 2 * ε l < σ l) {e : Fin 3 → ℝ}
    (he : ∀ l, e l = Spec.guessError (ε l) (σ l) (Spec.size (Y l)) m) :
    ∃ (yt : Arr2 ℂ) (g : Fin 3 → Arr2 ℂ) (prior : Fin 3 → Prior), halfSum r.1.2.1 = .ok yt ∧
      (∀ l, g l = blockAt yt m (Spec.sequencePos l) ∧ Spec.size (Spec.diff (g l) (Y l)) ≤ e l ∧
        eivPrior ic m (g l) (if b.exact then some (blockAt d.y m (Spec.sequencePos l)) else none) false = .ok (prior l)) ∧
      ∀ η : Fin 3 → ℝ, (∀ l, η l = ε l + Spec.eivShift m 1 (ε l) (Spec.size (x l)) (e l)
          (ic.lambdaEiv * Spec.penalty false m (regConfig ic (prior l) ic.lambdaEiv false b.maxIter) (Spec.projection false m (g l)))) →
        ∀ y, (y = r.2.1 ∨ ∃ e ∈ r.2.2, y = e.params) →
          ∃ E : Fin 3 → Arr2 ℂ, Assembled (Spec.sequenceIds m) (fun _ => m) Spec.sequencePos E y ∧
            ∀ l, Spec.ErrorBound (E l) (Y l) (σ l - η l) (η l) := by
  obtain ⟨hr, hadm, hxc⟩ := shipped3_blocks hw hn h3 hseq h hall hhid hpinv hbs hls hsn g0 g1 g2 hyy hy hf hm
  obtain ⟨hb1, hb2, hb3, hb4⟩ := hb
  obtain ⟨q1, q2, q3, q4, q5, -, -, q8, -⟩ := stored_data3 hn h3 hseq h hall hhid hpinv hbs g0.1 g1.1 g2.1 hyy hy hf hr hm hb1
  have h3p : b.threePhased = true := by unfold IdArgs.threePhased; rw [hb3]; decide
  have := C166_bayesian (by rw [hb1]; exact hn) h3p hb3 hinv hex htot hsvd hsh hl hid hstd hbay hit hb4 q1 q2
    (by rw [q3]; exact List.mem_map.2 ⟨0, List.mem_range.2 (by omega), rfl⟩) q4
    (fun l => by rw [q3]; exact labelPos_sequence m l) (fun h => .inr fun _ => hexact h) (by rw [hb2]; simp) rfl rfl (x0 := x)
    (z0 := fun l => centreColumns (columnsAt d.current m (Spec.sequencePos l))) (Y := Y) (fun l => by
      rw [hb2, hY]
      exact ⟨⟨rfl, rfl⟩, hadm l⟩) (fun l => by rw [hx, hY]; dsimp only; rw [← hxc l]; exact q8 l) (fun l => by rw [hx]; exact q5)
    (fun l => ⟨by rw [hε]; exact Real.sqrt_nonneg _, hεσ l⟩) (fun l => by
      rw [hb2, hε, hx, Spec.sequenceNoise, Real.sq_sqrt (by positivity)]
      exact le_rfl) hσ he
  rw [hb2] at this
  simp only [Bool.not_false, Bool.and_true] at this
  rw [← q3]
  exact this

/-- C167, Bayesian estimate with the weights of synchronised measurements, shipped networks -/
theorem C167_shipped_weighted {w : SimWorld} (hw : w.Shipped) {cf : SimConf} {a : SimArgs} {st : Store} {d : NetworkData} (hn : Spec.PlainName a.network)
    (h3 : a.threePhased = true) (hseq : a.sequence = true) (h : (simulate w cf a st).res = .ok d)
    (hall : a.loads = a.networkSim ∧ a.networkSim = a.noise) (hhid : cf.hidden = []) (hpinv : Spec.PinvContract w.pinv)
    {net : Net} {bs : List BusData} (hbs : makeNet3 w a.network = .ok (net, bs)) {ls : List LineData} (hls : shippedLines3 a.network = some ls)
    {y0 y1 y2 y : Arr2 ℂ} {sn : ℝ} (hsn : 0 < sn)
    (g0 : Spec.GridBesides sn bs (Spec.sequenceLines Spec.zero ls) y0) (g1 : Spec.GridBesides sn bs (Spec.sequenceLines Spec.positive ls) y1)
    (g2 : Spec.GridBesides sn bs (Spec.sequenceLines Spec.positive ls) y2)
    (hyy : makeYBus3 y0 y1 y2 = .ok y) (hy : w.yBus3 net = .ok y)
    (hf : ∀ c res, w.flow3 net c = .ok res → Spec.PowerFlow3 bs y res) {m : ℕ}
    (hm : m = bs.length - (Spec.passive3 bs ∪ Spec.connections bs).card) (hm2 : 2 ≤ m)
    {ext : NumExt} {ic : IdConf} (hl : 0 ≤ ic.lambdaEiv) (hinv : Spec.InvContract ext.inv) (hex : Spec.Exact ext.solve)
    (hsvd : Spec.SvdContract ext.svdVh) (hsh : Spec.Shapes ext) {sc : SimConf} (hsc : 0 < sc.vm ∧ 0 < sc.vp) {b : IdArgs}
    (hb : b.network = a.network ∧ b.laplacian = false ∧ b.phases = "012" ∧ b.weighted = true ∧ b.unsynchronized = false)
    (hstd : Spec.Redone b.standard [b.standard, b.bayesian]) (hbay : Spec.Redone b.bayesian [b.standard, b.bayesian])
    (hit : 0 < b.maxIter) (hexact : b.exact = true → 29 ≤ m)
    {r : (Arr2 ℂ × Arr2 ℂ × Arr2 ℂ) × (Arr2 ℂ × List IterationStatus)}
    (hid : (identify ext ic sc b (simulate w cf a st).store).res = .ok r) {x Y : Fin 3 → Arr2 ℂ}
    (hx : x = fun l => centreColumns (columnsAt d.voltage m (Spec.sequencePos l)))
    (hY : Y = fun l => blockAt d.y m (Spec.sequencePos l)) {ε σ : Fin 3 → ℝ}
    (hε : ∀ l, ε l = Spec.sequenceNoise m d l) (hσ : ∀ l, Spec.AtLeast (x l) (σ l)) (hεσ : ∀ l, 2 * ε l < σ l) {e : Fin 3 → ℝ}
    (he : ∀ l, e l = Spec.guessError (ε l) (σ l) (Spec.size (Y l)) m) :
    ∃ (yt : Arr2 ℂ) (g : Fin 3 → Arr2 ℂ) (prior : Fin 3 → Prior) (W : Fin 3 → Arr2 ℝ), halfSum r.1.2.1 = .ok yt ∧
      (∀ l, g l = blockAt yt m (Spec.sequencePos l) ∧ Spec.size (Spec.diff (g l) (Y l)) ≤ e l ∧
        eivPrior ic m (g l) (if b.exact then some (blockAt d.y m (Spec.sequencePos l)) else none) false = .ok (prior l) ∧
        averageTrueNoiseCovariance (columnsAt d.noisyVoltage m (Spec.sequencePos l)) (.npScalar (averagedSd sc.vm sc.vp d.fparam).m)
          (averagedSd sc.vm sc.vp d.fparam).p true = .ok (W l) ∧
        ∃ q Q, 0 < q ∧ q ≤ Q ∧ Spec.WeightsBetween q Q (W l)) ∧
      ∀ q Q : Fin 3 → ℝ, (∀ l, 0 < q l ∧ q l ≤ Q l ∧ Spec.WeightsBetween (q l) (Q l) (W l)) →
      ∀ η : Fin 3 → ℝ, (∀ l, η l = ε l + Spec.eivShift m (Real.sqrt (Q l / q l)) (ε l) (Spec.size (x l)) (e l)
          (ic.lambdaEiv * Spec.penalty false m (regConfig ic (prior l) ic.lambdaEiv false b.maxIter) (Spec.projection false m (g l)) / q l)) →
        ∀ y, (y = r.2.1 ∨ ∃ e ∈ r.2.2, y = e.params) →
          ∃ E : Fin 3 → Arr2 ℂ, Assembled (Spec.sequenceIds m) (fun _ => m) Spec.sequencePos E y ∧
            ∀ l, Spec.ErrorBound (E l) (Y l) (σ l - η l) (η l) := by
  obtain ⟨hr, hadm, hxc⟩ := shipped3_blocks hw hn h3 hseq h hall hhid hpinv hbs hls hsn g0 g1 g2 hyy hy hf hm
  obtain ⟨hb1, hb2, hb3, hb4, hb5⟩ := hb
  obtain ⟨q1, q2, q3, q4, q5, q6, -, q8, -⟩ := stored_data3 hn h3 hseq h hall hhid hpinv hbs g0.1 g1.1 g2.1 hyy hy hf hr hm hb1
  have h3p : b.threePhased = true := by unfold IdArgs.threePhased; rw [hb3]; decide
  have := C166_weighted (by rw [hb1]; exact hn) h3p hb3 hinv hex hsvd hsh hl hid hstd hbay hit hb4 hb5 q1 q2
    (by rw [q3]; exact List.mem_map.2 ⟨0, List.mem_range.2 (by omega), rfl⟩) q4
    (fun l => by rw [q3]; exact labelPos_sequence m l) (fun _ => hm2) ⟨hsc.1, hsc.2, q6⟩ (fun h => .inr fun _ => hexact h)
    (by rw [hb2]; simp) rfl rfl (x0 := x)
    (z0 := fun l => centreColumns (columnsAt d.current m (Spec.sequencePos l))) (Y := Y) (fun l => by
      rw [hb2, hY]
      exact ⟨⟨rfl, rfl⟩, hadm l⟩) (fun l => by rw [hx, hY]; dsimp only; rw [← hxc l]; exact q8 l) (fun l => by rw [hx]; exact q5)
    (fun l => ⟨by rw [hε]; exact Real.sqrt_nonneg _, hεσ l⟩) (fun l => by
      rw [hb2, hε, hx, Spec.sequenceNoise, Real.sq_sqrt (by positivity)]
      exact le_rfl) hσ he
  rw [hb2] at this
  simp only [Bool.not_false, Bool.and_true] at this
  rw [← q3]
  exact this

/-! ### the hypotheses can be met -/

/-- C167_shipped: a run for the largest network that meets the hypotheses -/
theorem shipped3_hypotheses (env : Cli.Env) (st : Store) : ∃ (w : SimWorld) (cf : SimConf) (a : SimArgs) (d : NetworkData) (net : Net)
    (bs : List BusData) (ls : List LineData) (y0 y1 y2 y : Arr2 ℂ),
    w.Shipped ∧ Spec.PlainName a.network ∧ a.threePhased = true ∧ a.sequence = true ∧ (simulate w cf a st).res = .ok d ∧
    (a.loads = a.networkSim ∧ a.networkSim = a.noise) ∧ cf.hidden = [] ∧ Spec.PinvContract w.pinv ∧
    makeNet3 w a.network = .ok (net, bs) ∧ shippedLines3 a.network = some ls ∧ bs.length = 56 ∧
    Spec.GridBesides 1 bs (Spec.sequenceLines Spec.zero ls) y0 ∧ Spec.GridBesides 1 bs (Spec.sequenceLines Spec.positive ls) y1 ∧
    Spec.GridBesides 1 bs (Spec.sequenceLines Spec.positive ls) y2 ∧ makeYBus3 y0 y1 y2 = .ok y ∧ w.yBus3 net = .ok y ∧
    ∀ c res, w.flow3 net c = .ok res → Spec.PowerFlow3 bs y res := by
  have hlen : ieee123CenterBus.length = 56 := ieee123Center_feeder.length
  obtain ⟨y0, y1, y2, y, g0, g1, g2, hyy⟩ := sequence_matrices (name := "ieee123center") (bs := ieee123CenterBus) (ls := ieee123CenterNet) rfl rfl (sn := 1)
  obtain ⟨-, hr⟩ := C136_three_matrices (name := "ieee123center") (bs := ieee123CenterBus) (ls := ieee123CenterNet) rfl rfl one_pos g0 g1 g2
  let flow : Net → Controls3 → Except PyErr SimResult3 := fun _ c => .ok ⟨fun _ => Arr2.zeros c.p.r 56, fun _ => Arr2.zeros c.p.r 56⟩
  let w : SimWorld := { shippedWorld3 with flow3 := flow, yBus3 := fun _ => .ok y }
  have hw : w.Shipped := ⟨rfl, rfl, rfl, rfl, rfl⟩
  let a : SimArgs := Cli.Spec.fullRun env
  obtain ⟨net, ls, root, hl, hm, -, -⟩ := C136_three hw (name := "ieee123center") (bs := ieee123CenterBus) rfl
  have hz : ∀ r c i j, Arr2.get (Arr2.zeros (α := ℝ) r c) i j = 0 := fun r c i j => by unfold Arr2.zeros Arr2.ofFn; simp
  have hf : ∀ c res, w.flow3 net c = .ok res → Spec.PowerFlow3 ieee123CenterBus y res := by
    intro c res h
    cases h
    refine ⟨⟨c.p.r, fun p => ⟨⟨rfl, hlen.symm⟩, rfl, hlen.symm⟩⟩, fun k _ p t _ => ⟨by rw [hz, hz], by rw [hz, hz]⟩, ?_⟩
    intro k _ p _ t _
    unfold Spec.currents
    refine Finset.sum_eq_zero fun i _ => ?_
    simp [hz, Spec.phasor]
  have hrun := C123 (w := w) (cf := { demoConf115 with weeks := [0] }) (a := a) st rfl rfl ⟨rfl, rfl⟩ le_rfl (weeks := [0]) rfl
    ⟨by simp, by simp, fun f _ => ⟨_, rfl, by simp [demoConf115, flatFile], by simp [flatFile], fun t ht => flatFile_ne ht⟩⟩
    rfl exactPinv_contract ⟨le_rfl, le_rfl, le_rfl, le_rfl⟩
    (by simp [demoConf115]) (by simp [demoConf115]) (by simp [demoConf115]) (by simp [demoConf115]) (by
      show 1439 ≤ Spec.rawCount (minuteTimes 1) (1 / 60)
      rw [demo115_count]) hm ieee123Center_nonneg g0.1 g1.1 g2.1 hyy rfl (fun c hp _ _ _ _ => ⟨_, rfl, fun _ => hp⟩) hf hr
  obtain ⟨d, hd⟩ := hrun
  exact ⟨w, _, a, d, net, _, _, y0, y1, y2, y, hw, templates_plain "ieee123center" (by decide), rfl, rfl, hd, ⟨rfl, rfl⟩, rfl,
    exactPinv_contract, hm, rfl, hlen, g0, g1, g2, hyy, rfl, hf⟩

end
end Verif
