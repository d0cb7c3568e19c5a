/-
C183: what the least squares estimates are when the data do not determine the network.
-/
import Verif.Props.ShippedPrograms
import Verif.Props.TlsOptimal

namespace Verif
open Finset Matrix
noncomputable section

namespace Spec

/-- the matrix explains the data: it gives the measured currents at the measured voltages -/
def Explains (x z Y : Arr2 ℂ) : Prop := (Y.r = x.c ∧ Y.c = z.c) ∧ ∀ t < x.r, ∀ j < z.c, ∑ k ∈ range x.c, x.get t k * Y.get k j = z.get t j

/-- the voltages show everything that the matrix does: combinations of nodes whose voltages vanish in all samples, i.e. directions without
excitation, are orthogonal to the columns of the matrix -/
def Visible (x Y : Arr2 ℂ) : Prop := ∀ v : Fin x.c → ℂ, (x.toMat x.r x.c).mulVec v = 0 → (Y.toMat x.c Y.c)ᴴ.mulVec v = 0

/-- no voltages without currents -/
def Regular (y : Arr2 ℂ) : Prop := ∀ v : ℕ → ℂ, (∀ j < y.c, currents y v j = 0) → ∀ k < y.r, v k = 0

end Spec

theorem explains_iff {x z Y : Arr2 ℂ} (hz : z.r = x.r) : Spec.Explains x z Y ↔ x.matmul Y = .ok z ∧ Y.c = z.c := by
  constructor
  · rintro ⟨⟨h1, h2⟩, h⟩
    refine ⟨?_, h2⟩
    unfold Arr2.matmul
    rw [if_pos h1.symm]
    refine congrArg Except.ok (Arr2.ext' hz.symm h2 (fun t j ht hj => ?_))
    have ht' : t < x.r := ht
    have hj' : j < Y.c := hj
    rw [Arr2.ofFn_get _ ht' hj']
    exact h t ht' j (h2 ▸ hj')
  · rintro ⟨h, h2⟩
    obtain ⟨g1, -, -, g4⟩ := matmul_entry h
    unfold Arr2.matmul at h
    rw [if_pos g1] at h
    have e := Except.ok.inj h
    refine ⟨⟨g1.symm, h2⟩, fun t ht j hj => ?_⟩
    rw [← e, Arr2.ofFn_get _ ht (by rw [h2]; exact hj)]
    rfl

/-- C183, ordinary least squares: on data without noise the estimate explains the data, whatever their rank; each of its columns is the
shortest one with which data can be explained; and it is the true matrix exactly if the voltages show everything that this does -/
theorem C183_ols {pinv : Arr2 ℂ → Except PyErr (Arr2 ℂ)} (hpinv : Spec.PinvContract pinv) {x z Y : Arr2 ℂ} (hz : z.r = x.r)
    (h : Spec.Explains x z Y) :
    ∃ O, complexRegressionFit pinv x z = .ok O ∧ Spec.Explains x z O ∧ (O = Y ↔ Spec.Visible x Y) ∧
      ∀ Y', Spec.Explains x z Y' → ∀ j : Fin z.c, Spec.len (fun i => O.toMat x.c z.c i j) ≤ Spec.len (fun i => Y'.toMat x.c z.c i j) := by
  obtain ⟨p, hp, hpi⟩ := hpinv x
  obtain ⟨O, hO, hOr, hOc, hOm⟩ := Arr2.matmul_mat (A := p) (B := z) (m := x.c) (k := x.r) (n := z.c) ⟨hpi.rows, hpi.cols⟩ ⟨hz, rfl⟩
  have hY := (explains_iff hz).1 h
  obtain ⟨hxY, -, -, hzm⟩ := Arr2.matmul_inv hY.1
  set X := x.toMat x.r x.c with hX
  set P := p.toMat x.c x.r with hP
  have hQ1 : (P * X)ᴴ = P * X := hpi.herm_px
  have hQ2 : P * X * (P * X) = P * X := by
    rw [← Matrix.mul_assoc, Matrix.mul_assoc P X P, ← Matrix.mul_assoc, hpi.pxp]
  have hof : ∀ Y', Spec.Explains x z Y' → O.toMat x.c z.c = P * X * Y'.toMat x.c z.c := by
    intro Y' h'
    obtain ⟨-, -, -, hm⟩ := Arr2.matmul_inv ((explains_iff hz).1 h').1
    rw [hOm, hm, Matrix.mul_assoc]
  refine ⟨O, ?_, ?_, ?_, ?_⟩
  · simp only [complexRegressionFit, hp, bind, Except.bind]
    exact hO
  · rw [explains_iff hz]
    refine ⟨?_, hOc⟩
    obtain ⟨z', g1, g2, g3, g4⟩ := Arr2.matmul_mat (A := x) (B := O) (m := x.r) (k := x.c) (n := z.c) ⟨rfl, rfl⟩ ⟨hOr, hOc⟩
    rw [g1]
    refine congrArg Except.ok (Arr2.toMat_inj (r := x.r) (c := z.c) ⟨g2, g3⟩ ⟨hz, rfl⟩ ?_)
    rw [g4, hof Y h, hzm, ← Matrix.mul_assoc, ← Matrix.mul_assoc, hpi.xpx]
  · have hcond : Spec.Visible x Y ↔ ∀ v : Fin x.c → ℂ, X.mulVec v = 0 → (Y.toMat x.c z.c)ᴴ.mulVec v = 0 := by
      have e : Y.c = z.c := hY.2
      unfold Spec.Visible
      rw [e]
    rw [hcond]
    constructor
    · intro e v hv
      have e1 : Y.toMat x.c z.c = P * X * Y.toMat x.c z.c := by rw [← hof Y h, e]
      rw [e1, conjTranspose_mul, hQ1, ← mulVec_mulVec, ← mulVec_mulVec, hv, mulVec_zero, mulVec_zero]
    · intro hs
      refine Arr2.toMat_inj (r := x.c) (c := z.c) ⟨hOr, hOc⟩ ⟨hxY.symm, hY.2⟩ ?_
      rw [hof Y h]
      have h0 : (Y.toMat x.c z.c)ᴴ * (1 - P * X) = 0 := by
        ext i j
        have hv : X.mulVec ((1 - P * X).mulVec (Pi.single j 1)) = 0 := by
          rw [mulVec_mulVec, Matrix.mul_sub, Matrix.mul_one, ← Matrix.mul_assoc, hpi.xpx, sub_self, zero_mulVec]
        have := congrFun (hs _ hv) i
        rw [mulVec_mulVec, mulVec_single_one] at this
        exact this
      have h1 : (1 - P * X) * Y.toMat x.c z.c = 0 := by
        have := congrArg conjTranspose h0
        rw [conjTranspose_mul, conjTranspose_conjTranspose, conjTranspose_sub, hQ1, conjTranspose_one, conjTranspose_zero] at this
        exact this
      rw [Matrix.sub_mul, Matrix.one_mul, sub_eq_zero] at h1
      exact h1.symm
  · intro Y' h' j
    have e : (fun i => O.toMat x.c z.c i j) = (P * X).mulVec (fun i => Y'.toMat x.c z.c i j) := by
      funext i
      rw [hof Y' h', mul_apply]
      rfl
    rw [e]
    exact len_projection _ hQ1 hQ2 _

/-- C183, total least squares: on data without noise the estimate explains the data whenever the method returns -/
theorem C183_tls {svdVh inv : Arr2 ℂ → Except PyErr (Arr2 ℂ)} (hsvd : Spec.SvdContract svdVh) (hinv : Spec.InvSound inv) {x z Y T : Arr2 ℂ}
    (h : Spec.Explains x z Y) (hT : tlsFit svdVh inv x z = .ok T) : Spec.Explains x z T := by
  obtain ⟨hs, dx, dz, hc, hmin⟩ := C142 hsvd hinv hT
  have h0 : Spec.Corrects x z (Arr2.zeros 0 0) (Arr2.zeros 0 0) Y := by
    intro t ht j hj
    have e : ∀ a b, (Arr2.zeros 0 0 : Arr2 ℂ).get a b = 0 := fun a b => Arr2.oob _ a b (by simp [Arr2.zeros])
    simp only [e, add_zero]
    exact h.2 t ht j hj
  have hle := hmin _ _ _ h0
  have hz : Spec.correctionSize x z (Arr2.zeros 0 0) (Arr2.zeros 0 0) = 0 := by
    have e : ∀ a b, (Arr2.zeros 0 0 : Arr2 ℂ).get a b = 0 := fun a b => Arr2.oob _ a b (by simp [Arr2.zeros])
    unfold Spec.correctionSize
    simp [e]
  rw [hz] at hle
  have hrow : ∀ t ∈ range x.r, 0 ≤ ∑ k ∈ range x.c, Complex.normSq (dx.get t k) + ∑ j ∈ range z.c, Complex.normSq (dz.get t j) :=
    fun t _ => add_nonneg (Finset.sum_nonneg fun _ _ => Complex.normSq_nonneg _) (Finset.sum_nonneg fun _ _ => Complex.normSq_nonneg _)
  have hall := (Finset.sum_eq_zero_iff_of_nonneg hrow).1 (le_antisymm hle (Finset.sum_nonneg hrow))
  refine ⟨hs, fun t ht j hj => ?_⟩
  have ht' := (add_eq_zero_iff_of_nonneg (Finset.sum_nonneg fun _ _ => Complex.normSq_nonneg _)
    (Finset.sum_nonneg fun _ _ => Complex.normSq_nonneg _)).1 (hall t (Finset.mem_range.2 ht))
  have e1 : ∀ k < x.c, dx.get t k = 0 := fun k hk => Complex.normSq_eq_zero.1
    ((Finset.sum_eq_zero_iff_of_nonneg (fun _ _ => Complex.normSq_nonneg _)).1 ht'.1 k (Finset.mem_range.2 hk))
  have e2 : dz.get t j = 0 := Complex.normSq_eq_zero.1
    ((Finset.sum_eq_zero_iff_of_nonneg (fun _ _ => Complex.normSq_nonneg _)).1 ht'.2 j (Finset.mem_range.2 hj))
  have := hc t ht j hj
  rw [e2, add_zero] at this
  rw [← this]
  exact Finset.sum_congr rfl (fun k hk => by rw [e1 k (Finset.mem_range.1 hk), add_zero])

/-- a network that consumes power at all voltages has no voltages without currents -/
theorem regular_of_dissipative {y : Arr2 ℂ} (hsq : y.r = y.c) (h : Spec.Dissipative y) : Spec.Regular y := by
  intro v hv k hk
  by_contra hne
  have hpos := h v ⟨k, hk, hne⟩
  have : Spec.power y.r v (Spec.currents y v) = 0 := by
    unfold Spec.power
    refine Finset.sum_eq_zero (fun j hj => ?_)
    rw [hv j (hsq ▸ Finset.mem_range.1 hj), map_zero, mul_zero]
  rw [this] at hpos
  exact lt_irrefl _ hpos

/-- for a regular matrix the voltages show everything exactly if they are linearly independent -/
theorem shown_regular {x y : Arr2 ℂ} (hx : x.c = y.r) (hsq : y.r = y.c) (h : Spec.Regular y) : Spec.Visible x y ↔ Spec.FullColumnRank x := by
  constructor
  · intro hs v hv
    have h0 := hs v hv
    have key := h (fun i => if hi : i < x.c then (starRingEnd ℂ) (v ⟨i, hi⟩) else 0) (fun j hj => ?_)
    · funext k
      have := key k (hx ▸ k.2)
      rw [dif_pos k.2] at this
      exact (map_eq_zero _).1 this
    · have e := congrFun h0 ⟨j, hj⟩
      have e' := congrArg (starRingEnd ℂ) e
      simp only [mulVec, dotProduct, conjTranspose_apply, Pi.zero_apply, map_zero, map_sum, map_mul] at e'
      unfold Spec.currents
      rw [← hx, ← Fin.sum_univ_eq_sum_range (fun i => (if hi : i < x.c then (starRingEnd ℂ) (v ⟨i, hi⟩) else 0) * y.get i j) x.c, ← e']
      refine Finset.sum_congr rfl (fun i _ => ?_)
      rw [dif_pos i.2, mul_comm]
      congr 1
      exact (Complex.conj_conj _).symm
  · intro hr v hv
    rw [hr v hv, mulVec_zero]

/-- data that are centred column by column are linearly independent only if there are more samples than nodes -/
theorem centred_rank {v : Arr2 ℂ} (hc : 0 < v.c) (h : Spec.FullColumnRank (centreColumns v)) : v.c < v.r := by
  by_contra hle
  have hle : v.r ≤ v.c := by omega
  rcases Nat.eq_zero_or_pos v.r with h0 | hpos
  · have := h (fun _ => 1) (by funext t; exact absurd t.2 (by show ¬ (t : ℕ) < v.r; omega))
    exact one_ne_zero (congrFun this ⟨0, hc⟩)
  · have hsum : ∀ j < v.c, ∑ t ∈ range v.r, (centreColumns v).get t j = 0 := by
      intro j hj
      have e : ∀ t ∈ range v.r, (centreColumns v).get t j = v.get t j - (∑ s ∈ range v.r, v.get s j) / v.r :=
        fun t ht => Arr2.ofFn_get _ (Finset.mem_range.1 ht) hj
      rw [Finset.sum_congr rfl e, Finset.sum_sub_distrib, Finset.sum_const, Finset.card_range, nsmul_eq_mul]
      have : ((v.r : ℕ) : ℂ) ≠ 0 := by exact_mod_cast hpos.ne'
      field_simp
      ring
    obtain ⟨m, hm⟩ : ∃ m, v.r = m + 1 := ⟨v.r - 1, by omega⟩
    let N : Matrix (Fin m) (Fin v.c) ℂ := (centreColumns v).toMat m v.c
    have hker : LinearMap.ker N.mulVecLin ≠ ⊥ := LinearMap.ker_ne_bot_of_finrank_lt (by simp; omega)
    obtain ⟨c, hc', hc0⟩ := Submodule.exists_mem_ne_zero_of_ne_bot hker
    rw [LinearMap.mem_ker, mulVecLin_apply] at hc'
    refine hc0 (h c ?_)
    have hrow : ∀ t < m, ∑ j : Fin v.c, (centreColumns v).get t j * c j = 0 := fun t ht => congrFun hc' ⟨t, ht⟩
    have hlast : ∑ j : Fin v.c, (centreColumns v).get m j * c j = 0 := by
      have e : ∑ t ∈ range v.r, ∑ j : Fin v.c, (centreColumns v).get t j * c j = 0 := by
        rw [Finset.sum_comm]
        refine Finset.sum_eq_zero (fun j _ => ?_)
        rw [← Finset.sum_mul, hsum j j.2, zero_mul]
      rw [hm, Finset.sum_range_succ, Finset.sum_eq_zero (fun t ht => hrow t (Finset.mem_range.1 ht)), zero_add] at e
      exact e
    funext t
    have ht : (t : ℕ) < v.r := t.2
    rcases Nat.lt_or_ge t m with hlt | hge
    · exact hrow t hlt
    · have : (t : ℕ) = m := by omega
      show ∑ j : Fin v.c, (centreColumns v).get t j * c j = 0
      rw [this]
      exact hlast

theorem standard_ols {ext : NumExt} {cf : IdConf} {v i : Arr2 ℂ} {lap : Bool} {K : ℕ} {r : Arr2 ℂ × Arr2 ℂ × Arr2 ℂ}
    (h : standardCompute ext cf v i lap K = .ok r) :
    complexRegressionFit ext.pinv (centreData lap v i).1 (centreData lap v i).2 = .ok r.1 ∧
      tlsFit ext.svdVh ext.inv (centreData lap v i).1 (centreData lap v i).2 = .ok r.2.1 := by
  unfold standardCompute at h
  dsimp only at h
  obtain ⟨B, hB, h⟩ := Prior.bind_ok h
  obtain ⟨T, hT, h⟩ := Prior.bind_ok h
  obtain ⟨p, -, h⟩ := Prior.bind_ok h
  split at h
  · obtain ⟨q, -, h⟩ := Prior.bind_ok h
    obtain ⟨q', -, h⟩ := Prior.bind_ok h
    rw [← Except.ok.inj h]
    exact ⟨hB, hT⟩
  · rw [← Except.ok.inj h]
    exact ⟨hB, hT⟩

/-- C183, programs: after a simulation without noise of a single-phase network both least squares estimates explain the stored measurements,
and the ordinary one is the stored reference exactly if the voltages show everything that this does -/
theorem C183_programs {w : SimWorld} {cf : SimConf} {a : SimArgs} {st : Store} {d : NetworkData} (hn : Spec.PlainName a.network)
    (h3 : a.threePhased = false) (hseq : a.sequence = false) (h : (simulate w cf a st).res = .ok d)
    (hall : a.loads = a.networkSim ∧ a.networkSim = a.noise) (hsd : cf.vm = 0 ∧ cf.cm = 0 ∧ cf.vp = 0 ∧ cf.cp = 0)
    (hhid : cf.hidden = []) (hpinv : Spec.PinvContract w.pinv) {net : Net} {bs : List BusData}
    (hbs : makeNet w a.network = .ok (net, bs)) (h0 : 0 < bs.length) {y : Arr2 ℂ} (hy : w.yBus net = .ok y)
    (hf : ∀ c res, w.flow net c = .ok res → Spec.PowerFlow bs y res) (hr : Spec.Reducible bs y a.laplacian)
    {ext : NumExt} {ic : IdConf} (hinv : Spec.InvSound ext.inv) (hpinv' : Spec.PinvContract ext.pinv) (hsvd : Spec.SvdContract ext.svdVh)
    {sc : SimConf} {b : IdArgs} (hb : b.network = a.network ∧ b.threePhased = false ∧ b.laplacian = a.laplacian)
    (hstd : Spec.Redone b.standard [b.standard, b.bayesian])
    {r : (Arr2 ℂ × Arr2 ℂ × Arr2 ℂ) × (Arr2 ℂ × List IterationStatus)}
    (hid : (identify ext ic sc b (simulate w cf a st).store).res = .ok r) :
    Spec.Explains (centreData a.laplacian d.voltage d.current).1 (centreData a.laplacian d.voltage d.current).2 r.1.1 ∧
      Spec.Explains (centreData a.laplacian d.voltage d.current).1 (centreData a.laplacian d.voltage d.current).2 r.1.2.1 ∧
      (r.1.1 = d.y ↔ Spec.Visible (centreData a.laplacian d.voltage d.current).1 d.y) := by
  obtain ⟨hclean, hids, hsq, heq, hst⟩ := C115_data hn h3 hseq h hall hhid hpinv hbs h0 hy hf hr
  obtain ⟨n1, n2⟩ := hclean hsd.1 hsd.2.1 hsd.2.2.1 hsd.2.2.2
  obtain ⟨d', y0, ⟨all, hload, hsel⟩, -, hs1, -, -, -, -⟩ := C78_identify (by rw [hb.1]; exact hn) hb.2.1 hid
  have hall' : all = d := by
    have := C49_network b.network d (simulate w cf a st).store (h := []) ⟨by rw [hb.1]; exact hn, by simp⟩
    rw [hb.1] at this hload
    have e : (simulate w cf a st).store.savez (resultFile .network a.network) (networkNpz d) = (simulate w cf a st).store := by
      funext f
      by_cases hfn : f = resultFile .network a.network
      · subst hfn; rw [hst]; simp [Store.savez]
      · simp [Store.savez, hfn]
    rw [e] at this
    exact Except.ok.inj (hload.symm.trans this)
  subst hall'
  have hd' : d' = all := by
    unfold selectPhase at hsel
    rw [if_neg] at hsel
    · exact (Except.ok.inj hsel).symm
    · rintro ⟨-, x, hx, hx1⟩
      exact hx1 (hids x hx)
  subst hd'
  obtain ⟨hcomp, -⟩ := hs1 hstd
  rw [hb.2.2, n1, n2] at hcomp
  obtain ⟨hO, hT⟩ := standard_ols hcomp
  obtain ⟨-, hrows, hcols, -⟩ := matmul_entry heq
  have hE := (explains_iff hrows).2 ⟨heq, hcols.symm⟩
  obtain ⟨O, k1, k2, k3, -⟩ := C183_ols hpinv' hrows hE
  rw [hO] at k1
  cases k1
  exact ⟨k2, C183_tls hsvd hinv hE hT, k3⟩

/-- C183, shipped networks without `--laplacian`: the ordinary least squares estimate is the reference exactly if the centred voltages are
linearly independent, hence only if more samples than nodes are stored -/
theorem C183_shipped {w : SimWorld} (hw : w.Shipped) {cf : SimConf} {a : SimArgs} {st : Store} {d : NetworkData} (hn : Spec.PlainName a.network)
    (h3 : a.threePhased = false) (hseq : a.sequence = false) (hlap : a.laplacian = false) (h : (simulate w cf a st).res = .ok d)
    (hall : a.loads = a.networkSim ∧ a.networkSim = a.noise) (hsd : cf.vm = 0 ∧ cf.cm = 0 ∧ cf.vp = 0 ∧ cf.cp = 0)
    (hhid : cf.hidden = []) (hpinv : Spec.PinvContract w.pinv) {sn : ℝ} (hp : Spec.Pandapower w a.network sn)
    {ext : NumExt} {ic : IdConf} (hinv : Spec.InvSound ext.inv) (hpinv' : Spec.PinvContract ext.pinv) (hsvd : Spec.SvdContract ext.svdVh)
    {sc : SimConf} {b : IdArgs} (hb : b.network = a.network ∧ b.threePhased = false ∧ b.laplacian = false)
    (hstd : Spec.Redone b.standard [b.standard, b.bayesian])
    {r : (Arr2 ℂ × Arr2 ℂ × Arr2 ℂ) × (Arr2 ℂ × List IterationStatus)}
    (hid : (identify ext ic sc b (simulate w cf a st).store).res = .ok r) :
    (r.1.1 = d.y ↔ Spec.FullColumnRank (centreColumns d.voltage)) ∧ (d.voltage.r ≤ d.voltage.c → r.1.1 ≠ d.y) := by
  obtain ⟨net, bs, -, -, -, hbs, -⟩ := C78_simulate hn h3 h
  obtain ⟨h0, hrem, -, -, hr⟩ := shipped_setup hw hbs hp a.laplacian
  obtain ⟨-, -, hvis⟩ := C183_programs hn h3 hseq h hall hsd hhid hpinv hbs h0 (hp.yBus net bs hbs) (hp.flow net bs hbs) hr hinv hpinv' hsvd
    ⟨hb.1, hb.2.1, hb.2.2.trans hlap.symm⟩ hstd hid
  obtain ⟨-, -, hsq, heq, -⟩ := C115_data hn h3 hseq h hall hhid hpinv hbs h0 (hp.yBus net bs hbs) (hp.flow net bs hbs) hr
  have hdis := (C152_shipped_partial hw hn h3 hseq h hall hhid hpinv hp.pos hp.yBus).2 hlap
  have hc : 0 < d.voltage.c := by
    rw [stored_width hn h3 hseq h hall hhid hpinv hbs h0 (hp.yBus net bs hbs) (hp.flow net bs hbs) hr]
    exact hrem
  rw [shown_regular (matmul_entry heq).1 hsq (regular_of_dissipative hsq hdis)] at hvis
  have e : (centreData a.laplacian d.voltage d.current).1 = centreColumns d.voltage := by rw [hlap]; rfl
  rw [e] at hvis
  exact ⟨hvis, fun hle he => absurd (centred_rank hc (hvis.1 he)) (by omega)⟩

/-- two nodes that always have the same voltage, each with a unit admittance to ground: the data are explained by another matrix -/
theorem demo_C183 : ∃ O, complexRegressionFit exactPinv (Arr2.ofFn 3 2 (fun t _ => (t : ℂ))) (Arr2.ofFn 3 2 (fun t _ => (t : ℂ))) = .ok O ∧
    Spec.Explains (Arr2.ofFn 3 2 (fun t _ => (t : ℂ))) (Arr2.ofFn 3 2 (fun t _ => (t : ℂ))) O ∧ O ≠ Arr2.eye 2 := by
  have hE : Spec.Explains (Arr2.ofFn 3 2 (fun t _ => (t : ℂ))) (Arr2.ofFn 3 2 (fun t _ => (t : ℂ))) (Arr2.eye 2) := by
    refine ⟨⟨rfl, rfl⟩, fun t ht j hj => ?_⟩
    have ht' : t < 3 := ht
    have hj' : j < 2 := hj
    show ∑ k ∈ range 2, _ = _
    rw [Finset.sum_range_succ, Finset.sum_range_one]
    interval_cases j <;> simp [Arr2.ofFn, Arr2.eye, ht']
  obtain ⟨O, h1, h2, h3, -⟩ := C183_ols exactPinv_contract rfl hE
  refine ⟨O, h1, h2, fun he => ?_⟩
  have hv := h3.1 he ![1, -1] (by
    funext t
    simp only [mulVec, dotProduct, Pi.zero_apply]
    change ∑ k : Fin 2, _ = (0 : ℂ)
    rw [Fin.sum_univ_two]
    have ht' : (t : ℕ) < 3 := t.2
    simp [Arr2.toMat, Arr2.ofFn, ht'])
  have := congrFun hv (0 : Fin 2)
  simp only [mulVec, dotProduct, Pi.zero_apply] at this
  change ∑ k : Fin 2, _ = (0 : ℂ) at this
  rw [Fin.sum_univ_two] at this
  simp [Arr2.toMat, Arr2.ofFn, Arr2.eye] at this

end
end Verif
