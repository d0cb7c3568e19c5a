/-
C167: the stored matrix of a three-phase network in sequence values has symmetric blocks, and the errors of the lasso and the Bayesian
estimates made from the stored data are bounded relative to these blocks, with positive and negative sequence exchanged.
-/
import Verif.Props.EivNoisy3
import Verif.Props.NoisyPipeline3
import Verif.Props.Reference

namespace Verif
open Finset
open Spec (LabelPos Assembled columnsAt blockAt)
noncomputable section

/-- what is left of a reciprocal network after elimination of nodes is reciprocal -/
theorem grounded_symm {y red : Arr2 ℂ} {n : ℕ} (hy : Spec.IsSquare n y) (hsym : Spec.IsSymm y) {d : ℕ → ℂ} {C S : Finset ℕ}
    (hC : ∀ c ∈ C, c < n) (hS : ∀ s ∈ S, s < n) (hCS : Disjoint C S) (hns : Spec.BlockNonsingular (Spec.withShunts y d) S) {K : List ℕ}
    (hK : Spec.Lists n (C ∪ S) K) (hr : Spec.Grounded y d C S K red) : Spec.IsSymm red := by
  have hsub : ∀ s ∈ C ∪ S, s < n := fun s hs => (Finset.mem_union.1 hs).elim (hC s) (hS s)
  have key : ∀ u u' : ℕ → ℂ, ∑ i ∈ range K.length, u' i * Spec.currents red u i = ∑ i ∈ range K.length, u i * Spec.currents red u' i := by
    intro u u'
    obtain ⟨v, a1, a2, a3, -⟩ := grounded_power hy hC hS hCS hns hK hr u
    obtain ⟨v', b1, b2, b3, -⟩ := grounded_power hy hC hS hCS hns hK hr u'
    have side : ∀ {u u' v v' : ℕ → ℂ}, (∀ a < K.length, v (K.getD a 0) = u a) → (∀ c ∈ C, v c = 0) →
        (∀ s ∈ S, Spec.currents y v s = - (d s * v s)) → (∀ a < K.length, v' (K.getD a 0) = u' a) → (∀ c ∈ C, v' c = 0) →
        ∑ k ∈ range n, v' k * Spec.currents y v k = ∑ i ∈ range K.length, u' i * Spec.currents red u i + ∑ s ∈ S, v' s * -(d s * v s) := by
      intro u u' v v' a1 a2 a3 b1 b2
      rw [sum_kept hsub hK, Finset.sum_union hCS, Finset.sum_eq_zero (s := C) (fun c hc => by rw [b2 c hc, zero_mul]), zero_add]
      congr 1
      · refine Finset.sum_congr rfl fun i hi => ?_
        have hi := Finset.mem_range.1 hi
        rw [b1 i hi, ← hr.2.2 v a2 a3 i hi]
        congr 1
        unfold Spec.currents
        refine Finset.sum_congr rfl fun k hk => ?_
        show v (K.getD k 0) * _ = _
        rw [a1 k (by rw [← hr.1]; exact Finset.mem_range.1 hk)]
      · exact Finset.sum_congr rfl fun s hs => by rw [a3 s hs]
    have e : ∑ k ∈ range n, v' k * Spec.currents y v k = ∑ k ∈ range n, v k * Spec.currents y v' k := by
      unfold Spec.currents
      simp only [Finset.mul_sum]
      rw [hy.1, Finset.sum_comm]
      refine Finset.sum_congr rfl fun i _ => Finset.sum_congr rfl fun k _ => ?_
      rw [hsym.2 i k]
      ring
    rw [side a1 a2 a3 b1 b2, side b1 b2 b3 a1 a2] at e
    have e2 : ∑ s ∈ S, v' s * -(d s * v s) = ∑ s ∈ S, v s * -(d s * v' s) := Finset.sum_congr rfl fun s _ => by ring
    rw [e2] at e
    exact add_right_cancel e
  refine ⟨hr.1.trans hr.2.1.symm, fun i j => ?_⟩
  by_cases hij : i < K.length ∧ j < K.length
  · have := key (fun k => if k = i then 1 else 0) (fun k => if k = j then 1 else 0)
    simpa [Spec.currents, hr.1, hij.1, hij.2] using this
  · rw [red.oob i j (by rw [hr.1, hr.2.1]; omega), red.oob j i (by rw [hr.1, hr.2.1]; omega)]

/-- what a run of simulate_network.py for three phases in sequence values leaves for identify_network.py -/
theorem stored_data3 {w : SimWorld} {cf : SimConf} {a : SimArgs} {st : Store} {d : NetworkData} (hn : Spec.PlainName a.network)
    (h3 : a.threePhased = true) (hseq : a.sequence = true) (h : (simulate w cf a st).res = .ok d)
    (hall : a.loads = a.networkSim ∧ a.networkSim = a.noise) (hhid : cf.hidden = []) (hpinv : Spec.PinvContract w.pinv)
    {net : Net} {bs : List BusData} (hbs : makeNet3 w a.network = .ok (net, bs)) {y0 y1 y2 y : Arr2 ℂ}
    (h0 : Spec.IsSquare bs.length y0) (h1 : Spec.IsSquare bs.length y1) (h2 : Spec.IsSquare bs.length y2)
    (hyy : makeYBus3 y0 y1 y2 = .ok y) (hy : w.yBus3 net = .ok y)
    (hf : ∀ c res, w.flow3 net c = .ok res → Spec.PowerFlow3 bs y res) (hr : Spec.Reducible3 bs y0 y1 y2)
    {m : ℕ}
    (hm : m = bs.length - (Spec.passive3 bs ∪ Spec.connections bs).card) {b : IdArgs} (hb : b.network = a.network) :
    networkLoad (simulate w cf a st).store b.network = .ok d ∧
      Spec.PhaseData d.ids d.noisyVoltage d.noisyCurrent d.ratings d.y none ∧ d.ids = Spec.sequenceIds m ∧
      d.noisyCurrent.r = d.noisyVoltage.r ∧ d.voltage.r = d.noisyVoltage.r ∧ 0 < d.fparam ∧
      Assembled d.ids (fun _ => m) Spec.sequencePos (fun l => blockAt d.y m (Spec.sequencePos l)) d.y ∧
      (∀ l, (centreColumns (columnsAt d.voltage m (Spec.sequencePos l))).matmul (blockAt d.y m (Spec.sequencePos (Spec.exchanged l))) =
        .ok (centreColumns (columnsAt d.current m (Spec.sequencePos l)))) ∧
      (Spec.IsSymm y0 ∧ Spec.IsSymm y1 ∧ Spec.IsSymm y2 → ∀ l, Spec.IsSymm (blockAt d.y m (Spec.sequencePos l))) := by
  obtain ⟨m', rs, -, hids, hvc, hic, hm', hsq, -, hass, heq, hst, ⟨k1, k2, k3, k4, k5, k6⟩, K, hK, hKm, hG⟩ :=
    C122_data hn h3 hseq h hall hhid hpinv hbs h0 h1 h2 hyy hy hf hr
  obtain rfl : m = m' := hm.trans hm'.symm
  have hload : networkLoad (simulate w cf a st).store b.network = .ok d := by
    have := C49_network a.network d (simulate w cf a st).store (h := []) ⟨hn, by simp⟩
    have e : (simulate w cf a st).store.savez (resultFile .network a.network) (networkNpz d) = (simulate w cf a st).store := by
      funext f
      by_cases hfn : f = resultFile .network a.network
      · subst hfn; rw [hst]; simp [Store.savez]
      · simp [Store.savez, hfn]
    rw [e] at this
    rw [hb]; exact this
  have hlen : d.ids.length = m * 3 := by rw [hids]; simp [Spec.sequenceIds]
  have hblk : ∀ l, blockAt d.y m (Spec.sequencePos l) = rs l := by
    intro l
    refine Arr2.ext' (hsq l).1.symm (hsq l).2.symm fun i j (hi : i < m) (hj : j < m) => ?_
    unfold blockAt
    rw [Arr2.ofFn_get _ hi hj, hass.block l i j hi hj]
  have hrow : d.current.r = d.voltage.r := by
    have := (matmul_entry (heq 0)).2.1
    exact this
  refine ⟨hload, ⟨by rw [hlen, k2], by rw [hlen, k4], by rw [hlen, k5], hass.square, fun y hy => nomatch hy⟩, hids,
    by rw [k3, k1, hrow], k1.symm, k6, ?_, ?_, ?_⟩
  · rw [show (fun l => blockAt d.y m (Spec.sequencePos l)) = rs from funext hblk]
    exact hass
  · intro l
    rw [hblk]
    exact heq l
  · rintro ⟨s0, s1, s2⟩ l
    rw [hblk]
    rw [Finset.union_comm] at hK
    have hC : ∀ k ∈ Spec.connections bs, k < bs.length := fun k hk => Finset.mem_range.1 (Finset.mem_filter.1 hk).1
    have hS : ∀ k ∈ Spec.passive3 bs, k < bs.length := fun k hk => passive_lt (Finset.mem_inter.1 hk).1
    have hCS : Disjoint (Spec.connections bs) (Spec.passive3 bs) :=
      Finset.disjoint_left.2 fun k hc hk => passive_not_connection (Finset.mem_inter.1 hk).1 hc
    have hGl := hG l
    fin_cases l
    · exact grounded_symm h0 s0 hC hS hCS (by rw [withShunts_zero]; exact hr.regular _ (.inl rfl)) hK hGl
    · exact grounded_symm h1 s1 hC hS hCS (by rw [withShunts_zero]; exact hr.regular _ (.inr (.inl rfl))) hK hGl
    · exact grounded_symm h2 s2 hC hS hCS (by rw [withShunts_zero]; exact hr.regular _ (.inr (.inr rfl))) hK hGl

/-- C167: in the stored matrix of a three-phase network in sequence values the three blocks are symmetric and the sequences are not
coupled, if the sequence networks are reciprocal: the stored matrix is one that the parameters of the identification can represent -/
theorem C167 {w : SimWorld} {cf : SimConf} {a : SimArgs} {st : Store} {d : NetworkData} (hn : Spec.PlainName a.network)
    (h3 : a.threePhased = true) (hseq : a.sequence = true) (h : (simulate w cf a st).res = .ok d)
    (hall : a.loads = a.networkSim ∧ a.networkSim = a.noise) (hhid : cf.hidden = []) (hpinv : Spec.PinvContract w.pinv)
    {net : Net} {bs : List BusData} (hbs : makeNet3 w a.network = .ok (net, bs)) {y0 y1 y2 y : Arr2 ℂ}
    (h0 : Spec.IsSquare bs.length y0) (h1 : Spec.IsSquare bs.length y1) (h2 : Spec.IsSquare bs.length y2)
    (hyy : makeYBus3 y0 y1 y2 = .ok y) (hy : w.yBus3 net = .ok y)
    (hf : ∀ c res, w.flow3 net c = .ok res → Spec.PowerFlow3 bs y res) (hr : Spec.Reducible3 bs y0 y1 y2)
    (hsym : Spec.IsSymm y0 ∧ Spec.IsSymm y1 ∧ Spec.IsSymm y2) {m : ℕ}
    (hm : m = bs.length - (Spec.passive3 bs ∪ Spec.connections bs).card) :
    Assembled (Spec.sequenceIds m) (fun _ => m) Spec.sequencePos (fun l => blockAt d.y m (Spec.sequencePos l)) d.y ∧
      ∀ l, Spec.Admissible false (blockAt d.y m (Spec.sequencePos l)) := by
  obtain ⟨-, -, hids, -, -, -, hA, -, hS⟩ := stored_data3 hn h3 hseq h hall hhid hpinv hbs h0 h1 h2 hyy hy hf hr hm (b := ⟨a.network, 0, false, false, false, "012", true, false, false, false, false, false⟩) rfl
  rw [hids] at hA
  exact ⟨hA, fun l => ⟨hS hsym l, fun h => by cases h⟩⟩

/-- size of the noise in the centred data of a sequence of a simulated network -/
def Spec.sequenceNoise (m : ℕ) (d : NetworkData) (l : Fin 3) : ℝ :=
  Real.sqrt (Spec.size (Spec.diff (centreColumns (columnsAt d.noisyVoltage m (Spec.sequencePos l)))
      (centreColumns (columnsAt d.voltage m (Spec.sequencePos l)))) ^ 2 +
    Spec.size (Spec.diff (centreColumns (columnsAt d.noisyCurrent m (Spec.sequencePos l)))
      (centreColumns (columnsAt d.current m (Spec.sequencePos l)))) ^ 2)

/-- C167, lasso: the errors of the blocks of the third estimate relative to the stored blocks, with positive and negative sequence
exchanged -/
theorem C167_lasso {w : SimWorld} {cf : SimConf} {a : SimArgs} {st : Store} {d : NetworkData} (hn : Spec.PlainName a.network)
    (h3 : a.threePhased = true) (hseq : a.sequence = true) (h : (simulate w cf a st).res = .ok d)
    (hall : a.loads = a.networkSim ∧ a.networkSim = a.noise) (hhid : cf.hidden = []) (hpinv : Spec.PinvContract w.pinv)
    {net : Net} {bs : List BusData} (hbs : makeNet3 w a.network = .ok (net, bs)) {y0 y1 y2 y : Arr2 ℂ}
    (h0 : Spec.IsSquare bs.length y0) (h1 : Spec.IsSquare bs.length y1) (h2 : Spec.IsSquare bs.length y2)
    (hyy : makeYBus3 y0 y1 y2 = .ok y) (hy : w.yBus3 net = .ok y)
    (hf : ∀ c res, w.flow3 net c = .ok res → Spec.PowerFlow3 bs y res) (hr : Spec.Reducible3 bs y0 y1 y2)
    (hsym : Spec.IsSymm y0 ∧ Spec.IsSymm y1 ∧ Spec.IsSymm y2) {m : ℕ}
    (hm : m = bs.length - (Spec.passive3 bs ∪ Spec.connections bs).card)
    {ext : NumExt} {ic : IdConf} (hl : 0 ≤ ic.lambdaLasso) (hex : Spec.Exact ext.solve) (hpinv' : Spec.PinvContract ext.pinv)
    (hsh : Spec.Shapes ext) {sc : SimConf} {b : IdArgs}
    (hb : b.network = a.network ∧ b.laplacian = false ∧ b.phases = "012")
    (hstd : Spec.Redone b.standard [b.standard, b.bayesian]) (hit : 0 < b.maxIter)
    {r : (Arr2 ℂ × Arr2 ℂ × Arr2 ℂ) × (Arr2 ℂ × List IterationStatus)}
    (hid : (identify ext ic sc b (simulate w cf a st).store).res = .ok r) {x Y : Fin 3 → Arr2 ℂ}
    (hx : x = fun l => centreColumns (columnsAt d.voltage m (Spec.sequencePos l)))
    (hY : Y = fun l => blockAt d.y m (Spec.sequencePos (Spec.exchanged l))) {ε σ : Fin 3 → ℝ}
    (hε : ∀ l, ε l = Spec.sequenceNoise m d l) (hσ : ∀ l, Spec.AtLeast (x l) (σ l)) (hεσ : ∀ l, ε l < σ l) {e η : Fin 3 → ℝ}
    (he : ∀ l, e l = Spec.olsError (ε l) (σ l) (Spec.size (Y l)) m)
    (hη : ∀ l, η l = ε l + Spec.regShift m (ε l) (Spec.size (x l)) (Spec.size (Y l)) (e l) (ic.lambdaLasso * (2 * (Spec.size (Y l) + e l) ^ 2))) :
    ∃ L : Fin 3 → Arr2 ℂ, Assembled (Spec.sequenceIds m) (fun _ => m) Spec.sequencePos L r.1.2.2 ∧
      ∀ l, Spec.ErrorBound (L l) (Y l) (σ l - ε l) (η l) := by
  obtain ⟨hb1, hb2, hb3⟩ := hb
  obtain ⟨q1, q2, q3, q4, q5, -, -, q8, q9⟩ := stored_data3 hn h3 hseq h hall hhid hpinv hbs h0 h1 h2 hyy hy hf hr hm hb1
  have h3p : b.threePhased = true := by unfold IdArgs.threePhased; rw [hb3]; decide
  rw [← q3]
  refine C166_lasso (by rw [hb1]; exact hn) h3p hb3 hex hpinv' hsh hl hid hstd hit q1 ⟨q2.v, q2.c⟩ q4
    (fun l => by rw [q3]; exact labelPos_sequence m l) rfl rfl (x0 := x)
    (z0 := fun l => centreColumns (columnsAt d.current m (Spec.sequencePos l))) (Y := Y) (fun l => ?_) (fun l => ?_) (fun l => ?_)
    (fun l => ⟨by rw [hε]; exact Real.sqrt_nonneg _, hεσ l⟩) (fun l => ?_) hσ he hη
  · rw [hb2, hY]
    exact ⟨⟨rfl, rfl⟩, q9 hsym _, fun h => by cases h⟩
  · rw [hx, hY]; exact q8 l
  · rw [hx]; exact q5
  · rw [hb2, hε, hx, Spec.sequenceNoise, Real.sq_sqrt (by positivity)]
    exact le_rfl

/-- C167, Bayesian estimate without weights -/
theorem C167_bayesian {w : SimWorld} {cf : SimConf} {a : SimArgs} {st : Store} {d : NetworkData} (hn : Spec.PlainName a.network)
    (h3 : a.threePhased = true) (hseq : a.sequence = true) (h : (simulate w cf a st).res = .ok d)
    (hall : a.loads = a.networkSim ∧ a.networkSim = a.noise) (hhid : cf.hidden = []) (hpinv : Spec.PinvContract w.pinv)
    {net : Net} {bs : List BusData} (hbs : makeNet3 w a.network = .ok (net, bs)) {y0 y1 y2 y : Arr2 ℂ}
    (h0 : Spec.IsSquare bs.length y0) (h1 : Spec.IsSquare bs.length y1) (h2 : Spec.IsSquare bs.length y2)
    (hyy : makeYBus3 y0 y1 y2 = .ok y) (hy : w.yBus3 net = .ok y)
    (hf : ∀ c res, w.flow3 net c = .ok res → Spec.PowerFlow3 bs y res) (hr : Spec.Reducible3 bs y0 y1 y2)
    (hsym : Spec.IsSymm y0 ∧ Spec.IsSymm y1 ∧ Spec.IsSymm y2) {m : ℕ}
    (hm : m = bs.length - (Spec.passive3 bs ∪ Spec.connections bs).card) (hm0 : 0 < m)
    {ext : NumExt} {ic : IdConf} (hl : 0 ≤ ic.lambdaEiv) (hinv : Spec.InvContract ext.inv) (hex : Spec.Exact ext.solve)
    (htot : Spec.Total ext.solve) (hsvd : Spec.SvdContract ext.svdVh) (hsh : Spec.Shapes ext) {sc : SimConf} {b : IdArgs}
    (hb : b.network = a.network ∧ b.laplacian = false ∧ b.phases = "012" ∧ b.weighted = false)
    (hstd : Spec.Redone b.standard [b.standard, b.bayesian]) (hbay : Spec.Redone b.bayesian [b.standard, b.bayesian])
    (hit : 0 < b.maxIter) (hexact : b.exact = true → 29 ≤ m)
    {r : (Arr2 ℂ × Arr2 ℂ × Arr2 ℂ) × (Arr2 ℂ × List IterationStatus)}
    (hid : (identify ext ic sc b (simulate w cf a st).store).res = .ok r) {x Y : Fin 3 → Arr2 ℂ}
    (hx : x = fun l => centreColumns (columnsAt d.voltage m (Spec.sequencePos l)))
    (hY : Y = fun l => blockAt d.y m (Spec.sequencePos (Spec.exchanged l))) {ε σ : Fin 3 → ℝ}
    (hε : ∀ l, ε l = Spec.sequenceNoise m d l) (hσ : ∀ l, Spec.AtLeast (x l) (σ l)) (hεσ : ∀ l, 2 * ε l < σ l) {e : Fin 3 → ℝ}
    (he : ∀ l, e l = Spec.guessError (ε l) (σ l) (Spec.size (Y l)) m) :
    ∃ (yt : Arr2 ℂ) (g : Fin 3 → Arr2 ℂ) (prior : Fin 3 → Prior), halfSum r.1.2.1 = .ok yt ∧
      (∀ l, g l = blockAt yt m (Spec.sequencePos l) ∧ Spec.size (Spec.diff (g l) (Y l)) ≤ e l ∧
        eivPrior ic m (g l) (if b.exact then some (blockAt d.y m (Spec.sequencePos l)) else none) false = .ok (prior l)) ∧
      ∀ η : Fin 3 → ℝ, (∀ l, η l = ε l + Spec.eivShift m 1 (ε l) (Spec.size (x l)) (e l)
          (ic.lambdaEiv * Spec.penalty false m (regConfig ic (prior l) ic.lambdaEiv false b.maxIter) (Spec.projection false m (g l)))) →
        ∀ y, (y = r.2.1 ∨ ∃ e ∈ r.2.2, y = e.params) →
          ∃ E : Fin 3 → Arr2 ℂ, Assembled (Spec.sequenceIds m) (fun _ => m) Spec.sequencePos E y ∧
            ∀ l, Spec.ErrorBound (E l) (Y l) (σ l - η l) (η l) := by
  obtain ⟨hb1, hb2, hb3, hb4⟩ := hb
  obtain ⟨q1, q2, q3, q4, q5, -, -, q8, q9⟩ := stored_data3 hn h3 hseq h hall hhid hpinv hbs h0 h1 h2 hyy hy hf hr hm hb1
  have h3p : b.threePhased = true := by unfold IdArgs.threePhased; rw [hb3]; decide
  have := C166_bayesian (by rw [hb1]; exact hn) h3p hb3 hinv hex htot hsvd hsh hl hid hstd hbay hit hb4 q1 q2
    (by rw [q3]; exact List.mem_map.2 ⟨0, List.mem_range.2 (by omega), rfl⟩) q4
    (fun l => by rw [q3]; exact labelPos_sequence m l) (fun h => .inr fun _ => hexact h) (by rw [hb2]; simp) rfl rfl (x0 := x)
    (z0 := fun l => centreColumns (columnsAt d.current m (Spec.sequencePos l))) (Y := Y) (fun l => by
      rw [hb2, hY]
      exact ⟨⟨rfl, rfl⟩, q9 hsym _, fun h => by cases h⟩) (fun l => by rw [hx, hY]; exact q8 l) (fun l => by rw [hx]; exact q5)
    (fun l => ⟨by rw [hε]; exact Real.sqrt_nonneg _, hεσ l⟩) (fun l => by
      rw [hb2, hε, hx, Spec.sequenceNoise, Real.sq_sqrt (by positivity)]
      exact le_rfl) hσ he
  rw [hb2] at this
  simp only [Bool.not_false, Bool.and_true] at this
  rw [← q3]
  exact this

/-- C167, Bayesian estimate with the weights of synchronised measurements -/
theorem C167_weighted {w : SimWorld} {cf : SimConf} {a : SimArgs} {st : Store} {d : NetworkData} (hn : Spec.PlainName a.network)
    (h3 : a.threePhased = true) (hseq : a.sequence = true) (h : (simulate w cf a st).res = .ok d)
    (hall : a.loads = a.networkSim ∧ a.networkSim = a.noise) (hhid : cf.hidden = []) (hpinv : Spec.PinvContract w.pinv)
    {net : Net} {bs : List BusData} (hbs : makeNet3 w a.network = .ok (net, bs)) {y0 y1 y2 y : Arr2 ℂ}
    (h0 : Spec.IsSquare bs.length y0) (h1 : Spec.IsSquare bs.length y1) (h2 : Spec.IsSquare bs.length y2)
    (hyy : makeYBus3 y0 y1 y2 = .ok y) (hy : w.yBus3 net = .ok y)
    (hf : ∀ c res, w.flow3 net c = .ok res → Spec.PowerFlow3 bs y res) (hr : Spec.Reducible3 bs y0 y1 y2)
    (hsym : Spec.IsSymm y0 ∧ Spec.IsSymm y1 ∧ Spec.IsSymm y2) {m : ℕ}
    (hm : m = bs.length - (Spec.passive3 bs ∪ Spec.connections bs).card) (hm2 : 2 ≤ m)
    {ext : NumExt} {ic : IdConf} (hl : 0 ≤ ic.lambdaEiv) (hinv : Spec.InvContract ext.inv) (hex : Spec.Exact ext.solve)
    (hsvd : Spec.SvdContract ext.svdVh) (hsh : Spec.Shapes ext) {sc : SimConf} (hsc : 0 < sc.vm ∧ 0 < sc.vp) {b : IdArgs}
    (hb : b.network = a.network ∧ b.laplacian = false ∧ b.phases = "012" ∧ b.weighted = true ∧ b.unsynchronized = false)
    (hstd : Spec.Redone b.standard [b.standard, b.bayesian]) (hbay : Spec.Redone b.bayesian [b.standard, b.bayesian])
    (hit : 0 < b.maxIter) (hexact : b.exact = true → 29 ≤ m)
    {r : (Arr2 ℂ × Arr2 ℂ × Arr2 ℂ) × (Arr2 ℂ × List IterationStatus)}
    (hid : (identify ext ic sc b (simulate w cf a st).store).res = .ok r) {x Y : Fin 3 → Arr2 ℂ}
    (hx : x = fun l => centreColumns (columnsAt d.voltage m (Spec.sequencePos l)))
    (hY : Y = fun l => blockAt d.y m (Spec.sequencePos (Spec.exchanged l))) {ε σ : Fin 3 → ℝ}
    (hε : ∀ l, ε l = Spec.sequenceNoise m d l) (hσ : ∀ l, Spec.AtLeast (x l) (σ l)) (hεσ : ∀ l, 2 * ε l < σ l) {e : Fin 3 → ℝ}
    (he : ∀ l, e l = Spec.guessError (ε l) (σ l) (Spec.size (Y l)) m) :
    ∃ (yt : Arr2 ℂ) (g : Fin 3 → Arr2 ℂ) (prior : Fin 3 → Prior) (W : Fin 3 → Arr2 ℝ), halfSum r.1.2.1 = .ok yt ∧
      (∀ l, g l = blockAt yt m (Spec.sequencePos l) ∧ Spec.size (Spec.diff (g l) (Y l)) ≤ e l ∧
        eivPrior ic m (g l) (if b.exact then some (blockAt d.y m (Spec.sequencePos l)) else none) false = .ok (prior l) ∧
        averageTrueNoiseCovariance (columnsAt d.noisyVoltage m (Spec.sequencePos l)) (.npScalar (averagedSd sc.vm sc.vp d.fparam).m)
          (averagedSd sc.vm sc.vp d.fparam).p true = .ok (W l) ∧
        ∃ q Q, 0 < q ∧ q ≤ Q ∧ Spec.WeightsBetween q Q (W l)) ∧
      ∀ q Q : Fin 3 → ℝ, (∀ l, 0 < q l ∧ q l ≤ Q l ∧ Spec.WeightsBetween (q l) (Q l) (W l)) →
      ∀ η : Fin 3 → ℝ, (∀ l, η l = ε l + Spec.eivShift m (Real.sqrt (Q l / q l)) (ε l) (Spec.size (x l)) (e l)
          (ic.lambdaEiv * Spec.penalty false m (regConfig ic (prior l) ic.lambdaEiv false b.maxIter) (Spec.projection false m (g l)) / q l)) →
        ∀ y, (y = r.2.1 ∨ ∃ e ∈ r.2.2, y = e.params) →
          ∃ E : Fin 3 → Arr2 ℂ, Assembled (Spec.sequenceIds m) (fun _ => m) Spec.sequencePos E y ∧
            ∀ l, Spec.ErrorBound (E l) (Y l) (σ l - η l) (η l) := by
  obtain ⟨hb1, hb2, hb3, hb4, hb5⟩ := hb
  obtain ⟨q1, q2, q3, q4, q5, q6, -, q8, q9⟩ := stored_data3 hn h3 hseq h hall hhid hpinv hbs h0 h1 h2 hyy hy hf hr hm hb1
  have h3p : b.threePhased = true := by unfold IdArgs.threePhased; rw [hb3]; decide
  have := C166_weighted (by rw [hb1]; exact hn) h3p hb3 hinv hex hsvd hsh hl hid hstd hbay hit hb4 hb5 q1 q2
    (by rw [q3]; exact List.mem_map.2 ⟨0, List.mem_range.2 (by omega), rfl⟩) q4
    (fun l => by rw [q3]; exact labelPos_sequence m l) (fun _ => hm2) ⟨hsc.1, hsc.2, q6⟩ (fun h => .inr fun _ => hexact h)
    (by rw [hb2]; simp) rfl rfl (x0 := x)
    (z0 := fun l => centreColumns (columnsAt d.current m (Spec.sequencePos l))) (Y := Y) (fun l => by
      rw [hb2, hY]
      exact ⟨⟨rfl, rfl⟩, q9 hsym _, fun h => by cases h⟩) (fun l => by rw [hx, hY]; exact q8 l) (fun l => by rw [hx]; exact q5)
    (fun l => ⟨by rw [hε]; exact Real.sqrt_nonneg _, hεσ l⟩) (fun l => by
      rw [hb2, hε, hx, Spec.sequenceNoise, Real.sq_sqrt (by positivity)]
      exact le_rfl) hσ he
  rw [hb2] at this
  simp only [Bool.not_false, Bool.and_true] at this
  rw [← q3]
  exact this

end
end Verif
