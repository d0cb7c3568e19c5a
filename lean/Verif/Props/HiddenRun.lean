/-
Simulations with hidden nodes: when they complete and which nodes are stored (C139).
-/
import Verif.Props.Shipped

namespace Verif
open Finset Net
noncomputable section

/-! ### the reduction completes -/

theorem kron_completes {pinv : Arr2 ℂ → Except PyErr (Arr2 ℂ)} (hpinv : Spec.PinvContract pinv) {idx : List ℕ} {y : Arr2 ℂ}
    (hsq : y.c = y.r) (hidx : ∀ k ∈ idx, k < y.r) : ∃ red, kronReduction pinv idx y = .ok red := by
  have hk : ∀ k ∈ PySet.complement y.r idx, k < y.r := by
    intro k hk
    have := (PySet.complement_perm y.r idx).mem_iff.1 hk
    exact (((lists_kept y.r idx).2 k).1 this).1
  have hk' : ∀ k ∈ PySet.complement y.r idx, k < y.c := by rw [hsq]; exact hk
  have hidx' : ∀ k ∈ idx, k < y.c := by rw [hsq]; exact hidx
  obtain ⟨p, hp, hps⟩ := hpinv (Arr2.ofFn idx.length idx.length (fun i j => y.get (idx.getD i 0) (idx.getD j 0)))
  have h1 : p.r = idx.length := hps.rows
  have h2 : p.c = idx.length := hps.cols
  obtain ⟨bp, hbp, hr, hc⟩ : ∃ bp, (Arr2.ofFn (PySet.complement y.r idx).length idx.length
      (fun i j => y.get ((PySet.complement y.r idx).getD i 0) (idx.getD j 0))).matmul p = .ok bp ∧
      bp.r = (PySet.complement y.r idx).length ∧ bp.c = idx.length := ⟨_, if_pos h1.symm, rfl, h2⟩
  obtain ⟨bpc, hbpc, hr', hc'⟩ : ∃ bpc, bp.matmul (Arr2.ofFn idx.length (PySet.complement y.r idx).length
      (fun i j => y.get (idx.getD i 0) ((PySet.complement y.r idx).getD j 0))) = .ok bpc ∧
      bpc.r = (PySet.complement y.r idx).length ∧ bpc.c = (PySet.complement y.r idx).length := ⟨_, if_pos hc, hr, rfl⟩
  unfold kronReduction Arr2.take
  simp only [if_pos (And.intro hk hk'), if_pos (And.intro hk hidx'), if_pos (And.intro hidx hidx'), if_pos (And.intro hidx hk'), bind,
    Except.bind, hp, hbp, hbpc]
  exact ⟨_, if_pos ⟨hr'.symm, hc'.symm⟩⟩

open Classical in
/-- the columns deleted by a successful reduction -/
theorem reduce_deleted {bs : List BusData} {ls : Option (List LineData)} {net : Net} {ls' : List LineData}
    (h : netData (some bs) ls = .ok (net, ls')) {pinv : Arr2 ℂ → Except PyErr (Arr2 ℂ)} {y voltage current red : Arr2 ℂ}
    {hidden : List Int} {lap : Bool} {todel : List ℕ} (hr : reduceNetwork pinv net y voltage current hidden lap = .ok (todel, red)) :
    ∀ k, k ∈ todel ↔ k ∈ Spec.labelled bs hidden ∪ Spec.passive bs 0 := by
  obtain ⟨hn, hb, -, -, hext⟩ := netData_tables h
  obtain ⟨P, hP, -, hPm⟩ := positions_eq hn hb ((bs.filter (fun b => Spec.Passive b 0)).map BusData.id) (by
    intro b hb
    obtain ⟨c, hc, rfl⟩ := List.mem_map.1 hb
    exact List.mem_map_of_mem (List.mem_filter.1 hc).1)
  unfold reduceNetwork at hr
  rw [C64_single h] at hr
  obtain ⟨p, hp, hr⟩ := Prior.bind_ok hr
  cases hp
  obtain ⟨P', hP', hr⟩ := Prior.bind_ok hr
  rw [hP] at hP'
  cases hP'
  obtain ⟨H, hH, hr⟩ := Prior.bind_ok hr
  have hid : ∀ b ∈ hidden, b ∈ bs.map BusData.id := by
    intro b hb'
    have := positions_known hH b hb'
    rw [hb] at this
    simpa [busRow] using this
  obtain ⟨H', hH', -, hHm⟩ := positions_eq hn hb hidden hid
  rw [hH] at hH'
  cases hH'
  obtain ⟨C, hC, hr⟩ := Prior.bind_ok hr
  have ht : todel = PySet.toList (PySet.union (PySet.ofList H) P) := by
    dsimp only at hr
    split at hr
    · obtain ⟨⟨_, _, _⟩, -, hr⟩ := Prior.bind_ok hr
      obtain ⟨y', -, hr⟩ := Prior.bind_ok hr
      obtain ⟨red', -, hr⟩ := Prior.bind_ok hr
      cases hr
      rfl
    · obtain ⟨y1, -, hr⟩ := Prior.bind_ok hr
      obtain ⟨⟨_, _, _⟩, -, hr⟩ := Prior.bind_ok hr
      obtain ⟨y', -, hr⟩ := Prior.bind_ok hr
      obtain ⟨red', -, hr⟩ := Prior.bind_ok hr
      cases hr
      rfl
  subst ht
  intro k
  rw [(PySet.union_mem H P).2.2, hHm, hPm, labelled_passive hn, Finset.mem_union]

open Classical in
/-- with at most one grid connection the reduction completes: nonzero mean voltages are needed only if there are hidden nodes -/
theorem reduce_completes {bs : List BusData} {ls : Option (List LineData)} {net : Net} {ls' : List LineData}
    (h : netData (some bs) ls = .ok (net, ls')) {pinv : Arr2 ℂ → Except PyErr (Arr2 ℂ)} (hpinv : Spec.PinvContract pinv)
    {y voltage current : Arr2 ℂ} (hy : Spec.IsSquare bs.length y) (hvc : voltage.c = bs.length)
    (hic : current.c = bs.length) {hidden : List Int} (hid : ∀ b ∈ hidden, b ∈ bs.map BusData.id)
    (hone : (Spec.connections bs).card ≤ 1)
    (hmean : Spec.labelled bs hidden ⊆ Spec.connections bs ∨ ∀ k < bs.length, colMean voltage k ≠ 0) (lap : Bool) :
    ∃ todel red, reduceNetwork pinv net y voltage current hidden lap = .ok (todel, red) := by
  obtain ⟨hn, hb, -, -, hext⟩ := netData_tables h
  obtain ⟨P, hP, -, hPm⟩ := positions_eq hn hb ((bs.filter (fun b => Spec.Passive b 0)).map BusData.id) (by
    intro b hb
    obtain ⟨c, hc, rfl⟩ := List.mem_map.1 hb
    exact List.mem_map_of_mem (List.mem_filter.1 hc).1)
  obtain ⟨H, hH, -, hHm⟩ := positions_eq hn hb hidden hid
  obtain ⟨C, hC, hCn, hCm⟩ := positions_ext hn hb hext
  have hPm' : ∀ k, k ∈ P ↔ k ∈ Spec.passive bs 0 := fun k => (hPm k).trans (labelled_passive hn 0 k)
  have hPlt : ∀ k ∈ P, k < bs.length := fun k hk => passive_lt ((hPm' k).1 hk)
  have hHlt : ∀ k ∈ H, k < bs.length := fun k hk => labelled_lt ((hHm k).1 hk)
  have hClen : C.length ≤ 1 := by
    rw [← List.toFinset_card_of_nodup hCn]
    refine le_trans (Finset.card_le_card fun k hk => ?_) hone
    exact (hCm k).1 (List.mem_toFinset.1 hk)
  -- the second half
  have key : ∀ (y' : Arr2 ℂ) (H' P' : List ℕ), y'.c = y'.r → y'.r ≤ bs.length → (∀ k ∈ H', k < y'.r) → (∀ k ∈ P', k < y'.r) →
      (∀ k ∈ H', Spec.labelled bs hidden ⊆ Spec.connections bs → False) →
      ∃ red, (do
        let y ← addShunts y' voltage current H'
        kronReduction pinv (PySet.minusList (PySet.union (PySet.ofList H') P') C) y) = .ok red := by
    intro y' H' P' hsq hle h1 h2 h4
    have hadd : ∃ y2, addShunts y' voltage current H' = .ok y2 ∧ y2.r = y'.r ∧ y2.c = y'.c := by
      refine ⟨Arr2.ofFn y'.r y'.c (fun i j => y'.get i j + if i = j ∧ i ∈ H' then shuntAt voltage current i else 0), ?_, rfl, rfl⟩
      unfold addShunts
      rw [if_pos (fun k hk => ⟨h1 k hk, by rw [hic]; exact (h1 k hk).trans_le hle, by rw [hvc]; exact (h1 k hk).trans_le hle⟩), if_neg]
      · rintro ⟨k, hk, h0⟩
        rcases hmean with hm | hm
        · exact h4 k hk hm
        · exact hm k ((h1 k hk).trans_le hle) h0
    obtain ⟨y2, e1, e2, e3⟩ := hadd
    obtain ⟨red, hred⟩ := kron_completes hpinv (y := y2) (idx := PySet.minusList (PySet.union (PySet.ofList H') P') C)
      (by rw [e2, e3, hsq]) (by
        intro k hk
        rw [e2]
        rcases ((PySet.minusList_mem H' P' C).2 k).1 hk |>.1 with h | h
        · exact h1 k h
        · exact h2 k h)
    exact ⟨red, by simp only [e1, bind, Except.bind, hred]⟩
  have hHC : ∀ k ∈ H.filter (fun k => k ∉ C), Spec.labelled bs hidden ⊆ Spec.connections bs → False := by
    intro k hk hs
    rw [List.mem_filter] at hk
    exact (by simpa using hk.2 : k ∉ C) ((hCm k).2 (hs ((hHm k).1 hk.1)))
  cases lap with
  | true =>
    obtain ⟨red, hred⟩ := key y (H.filter (fun k => k ∉ C)) P (by rw [hy.1, hy.2]) hy.1.le
      (fun k hk => by rw [hy.1]; exact hHlt k (List.mem_filter.1 hk).1) (fun k hk => by rw [hy.1]; exact hPlt k hk) hHC
    obtain ⟨y2, e1, e2⟩ := Prior.bind_ok hred
    refine ⟨PySet.toList (PySet.union (PySet.ofList H) P), red, ?_⟩
    unfold reduceNetwork
    simp only [C64_single h, hP, hH, hC, bind, Except.bind, pure, Except.pure, if_true, e1, e2]
  | false =>
    have hdel : ∃ y1, y.deleteBoth C = .ok y1 ∧ y1.r + C.length = bs.length ∧ y1.c = y1.r := by
      have hlt : ∀ k ∈ C, k < bs.length := fun k hk => connections_lt ((hCm k).1 hk)
      refine ⟨_, if_pos ⟨by rw [hy.2]; exact hlt, by rw [hy.1]; exact hlt⟩, ?_, ?_⟩
      · show (Arr2.keepIdx y.r C).length + C.length = _
        rw [hy.1]
        exact keepIdx_length _ _ hCn hlt
      · show (Arr2.keepIdx y.c C).length = (Arr2.keepIdx y.r C).length
        rw [hy.1, hy.2]
    obtain ⟨y1, d1, d2, d3⟩ := hdel
    have hshift : ∀ l : List ℕ, (∀ k ∈ l, k < bs.length ∧ k ∉ C) → ∀ k ∈ C.foldl shiftDown l, k < y1.r := by
      intro l hl k hk
      rcases show C = [] ∨ ∃ c, C = [c] by
        rcases C with _ | ⟨c, _ | ⟨c', C⟩⟩
        · exact Or.inl rfl
        · exact Or.inr ⟨c, rfl⟩
        · simp at hClen with rfl | ⟨c, rfl⟩
      · have := (hl k hk).1
        simp only [List.length_nil] at d2
        omega
      · obtain ⟨m, hm, rfl⟩ := List.mem_map.1 (show k ∈ l.map (fun k => if k > c then k - 1 else k) from hk)
        obtain ⟨h1, h2⟩ := hl m hm
        have h2' : m ≠ c := by simpa using h2
        have hc : c < bs.length := connections_lt ((hCm c).1 (List.mem_singleton.2 rfl))
        simp only [List.length_singleton] at d2
        split
        · omega
        · omega
    obtain ⟨red, hred⟩ := key y1 (C.foldl shiftDown (H.filter (fun k => k ∉ C))) (C.foldl shiftDown P) d3 (by omega)
      (hshift _ fun k hk => ⟨hHlt k (List.mem_filter.1 hk).1, by simpa using (List.mem_filter.1 hk).2⟩)
      (hshift _ fun k hk => ⟨hPlt k hk, fun hc => passive_not_connection ((hPm' k).1 hk) ((hCm k).1 hc)⟩)
      (fun k hk => by
        rw [foldl_shiftDown] at hk
        obtain ⟨m, hm, -⟩ := List.mem_map.1 hk
        exact hHC m hm)
    obtain ⟨y2, e1, e2⟩ := Prior.bind_ok hred
    refine ⟨PySet.toList (PySet.union (PySet.ofList H) P), red, ?_⟩
    unfold reduceNetwork
    simp only [C64_single h, hP, hH, hC, bind, Except.bind, pure, Except.pure, Bool.false_eq_true, if_false, d1, e1, e2]

/-! ### averages of voltages -/

theorem Averages.re_pos {R T : Nat} {W : Nat → Nat → ℂ} {a b : Arr2 ℂ} (h : Averages R T W a b)
    (hW : ∀ t < R, ∑ k ∈ range T, W t k = 1) (hpos : ∀ t k, ∃ x : ℝ, 0 ≤ x ∧ W t k = (x : ℂ)) {j : Nat} (hj : j < a.c)
    (ha : ∀ t < T, 0 < (a.get t j).re) : ∀ t < R, 0 < (b.get t j).re := by
  intro t ht
  choose x hx0 hx using hpos
  rw [h.get t j ht hj, Complex.re_sum]
  have hre : ∀ k, (W t k * a.get k j).re = x t k * (a.get k j).re := by
    intro k
    rw [hx t k, Complex.re_ofReal_mul]
  refine Finset.sum_pos' (fun k hk => ?_) ?_
  · rw [hre]
    exact mul_nonneg (hx0 t k) (ha k (Finset.mem_range.1 hk)).le
  · by_contra hc
    push Not at hc
    have h0 : ∀ k ∈ range T, W t k = 0 := by
      intro k hk
      have := hc k hk
      rw [hre] at this
      have hz : x t k = 0 := by
        by_contra hne
        exact absurd this (not_le.2 (mul_pos (lt_of_le_of_ne (hx0 t k) (Ne.symm hne)) (ha k (Finset.mem_range.1 hk))))
      rw [hx t k, hz, Complex.ofReal_zero]
    have := hW t ht
    rw [Finset.sum_eq_zero h0] at this
    exact zero_ne_one this

theorem colMean_ne_zero {a : Arr2 ℂ} (hr : 0 < a.r) {k : ℕ} (h : ∀ t < a.r, 0 < (a.get t k).re) : colMean a k ≠ 0 := by
  unfold colMean
  refine div_ne_zero (fun h0 => ?_) (Nat.cast_ne_zero.2 hr.ne')
  have : 0 < (∑ t ∈ range a.r, a.get t k).re := by
    rw [Complex.re_sum]
    exact Finset.sum_pos (fun t ht => h t (Finset.mem_range.1 ht)) ⟨0, Finset.mem_range.2 hr⟩
  rw [h0, Complex.zero_re] at this
  exact lt_irrefl _ this

namespace Spec

/-- the voltages computed by the power flow have positive real parts: magnitudes are positive and angles less than a right angle -/
def Upright (res : SimResult) : Prop :=
  ∀ t < res.vm.r, ∀ k < res.vm.c, 0 < res.vm.get t k ∧ -90 < res.va.get t k ∧ res.va.get t k < 90

/-- the positions of the nodes of `bs` that a run with the hidden nodes `hidden` stores, in order -/
def storedNodes (bs : List BusData) (hidden : List Int) (laplacian : Bool) (n : ℕ) : List ℕ :=
  (List.range n).filter (fun k => k ∉ labelled bs hidden ∧ k ∉ removed bs laplacian)

/-- the columns of the nodes that are stored -/
def storedColumns (bs : List BusData) (hidden : List Int) (laplacian : Bool) (a : Arr2 ℂ) : Arr2 ℂ :=
  columnsAt a (storedNodes bs hidden laplacian a.c).length (fun j => (storedNodes bs hidden laplacian a.c).getD j 0)

end Spec

theorem phasor_re_pos {m deg : ℝ} (hm : 0 < m) (h1 : -90 < deg) (h2 : deg < 90) : 0 < (Spec.phasor m deg).re := by
  rw [← polar_phasor]
  have : 0 < Real.cos (deg * Real.pi / 180) := by
    refine Real.cos_pos_of_mem_Ioo ⟨?_, ?_⟩ <;> nlinarith [Real.pi_pos]
  rw [Complex.re_ofReal_mul, Complex.add_re, Complex.mul_re, Complex.I_re, Complex.I_im, Complex.ofReal_im, Complex.ofReal_re]
  simpa using mul_pos hm this

/-! ### stored nodes -/

theorem labelled_hiddenNodes {bs : List BusData} (hn : (bs.map BusData.id).Nodup) {cf : SimConf} {a : SimArgs} (h3 : a.threePhased = false)
    (k : ℕ) : k ∈ Spec.labelled bs (hiddenNodes cf a bs) ∪ Spec.passive bs 0 ↔
      k ∈ Spec.labelled bs cf.hidden ∨ k ∈ Spec.removed bs a.laplacian := by
  have happ : ∀ (l m : List Int), k ∈ Spec.labelled bs (l ++ m) ↔ k ∈ Spec.labelled bs l ∨ k ∈ Spec.labelled bs m := by
    intro l m
    unfold Spec.labelled
    simp only [Finset.mem_filter, List.mem_append]
    constructor
    · rintro ⟨h1, b, hb, h2 | h2⟩
      · exact Or.inl ⟨h1, b, hb, h2⟩
      · exact Or.inr ⟨h1, b, hb, h2⟩
    · rintro (⟨h1, b, hb, h2⟩ | ⟨h1, b, hb, h2⟩)
      · exact ⟨h1, b, hb, Or.inl h2⟩
      · exact ⟨h1, b, hb, Or.inr h2⟩
  rw [Finset.mem_union]
  unfold hiddenNodes Spec.removed
  rw [h3]
  cases a.laplacian
  · simp only [Bool.not_false, Bool.and_self, if_true, Bool.false_eq_true, if_false, Finset.mem_union]
    rw [happ, labelled_pcc hn]
    tauto
  · simp

theorem makeNet_data {w : SimWorld} {name : String} {net : Net} {bs : List BusData} (h : makeNet w name = .ok (net, bs)) :
    w.buses name = some bs ∧ ∃ ls ls', netData (some bs) ls = .ok (net, ls') := by
  obtain ⟨ls, e1, -⟩ := C133_single h
  unfold makeNet at h
  obtain ⟨b, hb, h⟩ := Prior.bind_ok h
  obtain ⟨l, -, h⟩ := Prior.bind_ok h
  obtain ⟨⟨net', ls'⟩, hnd, h⟩ := Prior.bind_ok h
  cases h
  exact ⟨e1, _, _, hnd⟩

theorem deleteCols_stored {bs : List BusData} {hidden : List Int} {lap : Bool} {todel : List ℕ}
    (h : ∀ k, k ∈ todel ↔ k ∈ Spec.labelled bs hidden ∨ k ∈ Spec.removed bs lap) {m m' : Arr2 ℂ} (hm : m.deleteCols todel = .ok m') :
    m' = Spec.storedColumns bs hidden lap m := by
  have hk : Arr2.keepIdx m.c todel = Spec.storedNodes bs hidden lap m.c := by
    unfold Arr2.keepIdx Spec.storedNodes
    refine List.filter_congr fun k _ => ?_
    simp only [h, not_or]
  unfold Arr2.deleteCols at hm
  split at hm
  · rw [hk] at hm
    exact (Except.ok.inj hm).symm
  · cases hm

/-- C139: a successful run for a single-phase network stores, of the filtered arrays in its file, the columns of the nodes that are not
hidden by the settings, have some load and are not the grid connection (which is kept in Laplacian mode), in order -/
theorem C139_stored {w : SimWorld} {cf : SimConf} {a : SimArgs} {st : Store} {d : NetworkData} (hn : Spec.PlainName a.network)
    (h3 : a.threePhased = false) (hseq : a.sequence = false) (h : (simulate w cf a st).res = .ok d) :
    ∃ bs nv ni v i, w.buses a.network = some bs ∧ filteredLoad (simulate w cf a st).store a.network = .ok (nv, ni, v, i) ∧
      d.noisyVoltage = Spec.storedColumns bs cf.hidden a.laplacian nv ∧ d.noisyCurrent = Spec.storedColumns bs cf.hidden a.laplacian ni ∧
      d.voltage = Spec.storedColumns bs cf.hidden a.laplacian v ∧ d.current = Spec.storedColumns bs cf.hidden a.laplacian i := by
  obtain ⟨net, bs, l, s, n, hnet, -, -, -, -, hno, hno', hd, -⟩ := C78_simulate hn h3 h
  obtain ⟨hbs, ls, ls', hnd⟩ := makeNet_data hnet
  obtain ⟨hnn, -⟩ := netData_tables hnd
  have hfl : filteredLoad (simulate w cf a st).store a.network = .ok (n.noisyVoltage, n.noisyCurrent, n.voltage, n.current) := by
    by_cases hR : Spec.Redone a.noise [a.loads, a.networkSim, a.noise]
    · unfold filteredLoad
      simp [Store.load, (hno hR).2, filteredNpz, npz, Npz.mat, List.lookup, bind, Except.bind, pure, Except.pure]
    · obtain ⟨h1, h2⟩ := hno' hR
      rw [← h1]
      unfold filteredLoad Store.load
      rw [h2]
  unfold networkData at hd
  obtain ⟨⟨todel, y⟩, hr, hd⟩ := Prior.bind_ok hd
  obtain ⟨d', hdr, hd⟩ := Prior.bind_ok hd
  rw [hseq] at hd
  cases hd
  unfold reduction at hr
  rw [h3] at hr
  obtain ⟨yb, -, hr⟩ := Prior.bind_ok hr
  have hmem : ∀ k, k ∈ todel ↔ k ∈ Spec.labelled bs cf.hidden ∨ k ∈ Spec.removed bs a.laplacian := fun k =>
    (reduce_deleted hnd hr k).trans (labelled_hiddenNodes hnn h3 k)
  unfold dropReduced at hdr
  obtain ⟨nv, e1, hdr⟩ := Prior.bind_ok hdr
  obtain ⟨ni, e2, hdr⟩ := Prior.bind_ok hdr
  obtain ⟨v, e3, hdr⟩ := Prior.bind_ok hdr
  obtain ⟨i, e4, hdr⟩ := Prior.bind_ok hdr
  obtain ⟨r, -, hdr⟩ := Prior.bind_ok hdr
  obtain ⟨h, -, hdr⟩ := Prior.bind_ok hdr
  cases hdr
  exact ⟨bs, _, _, _, _, hbs, hfl, deleteCols_stored hmem e1, deleteCols_stored hmem e2, deleteCols_stored hmem e3,
    deleteCols_stored hmem e4⟩

/-! ### completion -/

/-- the last stage completes once the reduction does -/
theorem network_completes {w : SimWorld} {cf : SimConf} {a : SimArgs} (h3 : a.threePhased = false) (hseq : a.sequence = false)
    {net : Net} {bs : List BusData} {ls : Option (List LineData)}
    {ls' : List LineData} (hnd : netData (some bs) ls = .ok (net, ls')) {y : Arr2 ℂ} (hy : w.yBus net = .ok y) {n : NoiseResult}
    (hw : n.voltage.c = bs.length ∧ n.current.c = bs.length ∧ n.noisyVoltage.c = bs.length ∧ n.noisyCurrent.c = bs.length ∧
      bs.length ≤ n.ratings.length) {hidden : List Int} {todel : List ℕ} {red : Arr2 ℂ}
    (hr : reduceNetwork w.pinv net y n.voltage n.current hidden a.laplacian = .ok (todel, red)) :
    ∃ d, networkData w a net hidden n = .ok d := by
  obtain ⟨w1, w2, w3, w4, w5⟩ := hw
  have hlt : ∀ k ∈ todel, k < bs.length := by
    intro k hk
    rcases Finset.mem_union.1 ((reduce_deleted hnd hr k).1 hk) with h | h
    · exact labelled_lt h
    · exact passive_lt h
  obtain ⟨-, hbus, -⟩ := netData_tables hnd
  have hred : reduction w a net hidden n = .ok (todel, red) := by
    unfold reduction
    rw [h3, hy]
    simp only [Bool.false_eq_true, if_false, bind, Except.bind]
    exact hr
  obtain ⟨nv, hnv⟩ : ∃ nv, n.noisyVoltage.deleteCols todel = .ok nv := ⟨_, if_pos (fun k hk => by rw [w3]; exact hlt k hk)⟩
  obtain ⟨ni, hni⟩ : ∃ ni, n.noisyCurrent.deleteCols todel = .ok ni := ⟨_, if_pos (fun k hk => by rw [w4]; exact hlt k hk)⟩
  obtain ⟨v, hv⟩ : ∃ v, n.voltage.deleteCols todel = .ok v := ⟨_, if_pos (fun k hk => by rw [w1]; exact hlt k hk)⟩
  obtain ⟨i, hi⟩ : ∃ i, n.current.deleteCols todel = .ok i := ⟨_, if_pos (fun k hk => by rw [w2]; exact hlt k hk)⟩
  obtain ⟨ra, hra⟩ : ∃ ra, deleteEntries n.ratings todel 0 = .ok ra := ⟨_, if_pos (fun k hk => lt_of_lt_of_le (hlt k hk) w5)⟩
  have hid := show deleteEntries (tileList [1] net.bus.length) todel 0 = _ from
    if_pos (fun k hk => by unfold tileList; rw [hbus]; simpa using hlt k hk)
  refine ⟨⟨nv, ni, v, i, red, ra, n.fparam, (Arr2.keepIdx (tileList [1] net.bus.length).length todel).map
    (fun k => (tileList [1] net.bus.length).getD k 0)⟩, ?_⟩
  unfold networkData dropReduced
  rw [hred, hseq, h3]
  simp only [bind, Except.bind, Bool.false_eq_true, if_false, hnv, hni, hv, hi, hra, hid, pure, Except.pure]

/-- C139: a run of simulate_network.py that recomputes everything for a single-phase network with random loads completes with any
hidden nodes that are buses of the network, if there is at most one connection to the grid, every node has a load or is the
connection, nominal powers, noise levels, safety factor and measuring frequency are not negative, there are at least as many
samples as steps, and the power flow converges, with voltages in the right half plane if some node is hidden -/
theorem C139_completes {w : SimWorld} {cf : SimConf} {a : SimArgs} (st : Store) (h3 : a.threePhased = false) (hseq : a.sequence = false)
    (hall : a.loads = a.networkSim ∧ a.networkSim = a.noise) (hg : 0 < a.gaussian)
    (hpinv : Spec.PinvContract w.pinv) (hsd : 0 ≤ cf.vm ∧ 0 ≤ cf.cm ∧ 0 ≤ cf.vp ∧ 0 ≤ cf.cp) (hsf : 0 ≤ cf.safety)
    (hdays : 0 < cf.days) (hfm : 0 ≤ cf.fmeas) (hsteps : 0 < cf.steps)
    (hN : cf.steps ≤ Spec.rawCount (minuteTimes cf.days) cf.fmeas)
    {net : Net} {bs : List BusData} (hbs : makeNet w a.network = .ok (net, bs)) (h0 : 0 < bs.length)
    (hloads : ∀ b ∈ bs, Spec.LoadOrConnection b ∧ Spec.DemandNonneg b) (hone : (Spec.connections bs).card ≤ 1)
    (hid : ∀ k ∈ cf.hidden, k ∈ bs.map BusData.id) {y : Arr2 ℂ} (hy : w.yBus net = .ok y) (hys : Spec.IsSquare bs.length y)
    (hruns : Spec.FlowRuns w.flow net (cf.days * 1440) bs.length)
    (hup : cf.hidden = [] ∨ ∀ c res, w.flow net c = .ok res → Spec.Upright res) :
    ∃ d, (simulate w cf a st).res = .ok d := by
  obtain ⟨-, ls, ls', hnd⟩ := makeNet_data hbs
  obtain ⟨k1, k2, k3⟩ := redo_all hall
  have h2 : loadParams w cf a bs = .ok (some (.gaussian a.gaussian cf.days (constantNodes cf a bs))) := if_pos ⟨k1, hg⟩
  -- loads
  have hpos : ∀ l ∈ net.load, 0 ≤ l.p * a.gaussian ∧ 0 ≤ l.q * a.gaussian := by
    intro l hl
    obtain ⟨-, -, hl', -⟩ := netData_tables hnd
    rw [hl'] at hl
    obtain ⟨b, hb, hl⟩ := List.mem_flatMap.1 hl
    obtain ⟨p, q, hd⟩ := netData_sym hnd b hb
    obtain ⟨hp, hq⟩ := (hloads b hb).2 p q hd
    unfold loadRows at hl
    rw [hd] at hl
    split at hl
    · simp only [List.mem_singleton] at hl
      subst hl
      exact ⟨mul_nonneg hp hg.le, mul_nonneg hq hg.le⟩
    · split at hl
      · simp only [List.mem_singleton] at hl
        subst hl
        simp
      · cases hl
  obtain ⟨⟨p0, q0⟩, h4⟩ := rawLoads_gaussian_exists w.rng w.z w.files net cf.days (constantNodes cf a bs) hpos
  obtain ⟨g1, g2⟩ := rawLoads_gaussian h4
  obtain ⟨-, pr, pc, -⟩ := gaussianLoad_ok g1
  obtain ⟨-, qr, qc, -⟩ := gaussianLoad_ok g2
  have pc' : p0.c = net.load.length := by rw [pc]; simp [nominalP]
  have qc' : q0.c = net.load.length := by rw [qc]; simp [nominalQ]
  obtain ⟨⟨p, q⟩, h5⟩ := blendLoads_exists cf.constantness (constantNodes cf a bs) (net := net) (p := p0) (q := q0) pc'.ge qc'.ge
  obtain ⟨bp, bq⟩ := blendLoads_ok h5
  have h6 : computeLoads w.rng w.z w.files cf.constantness net (.gaussian a.gaussian cf.days (constantNodes cf a bs)) =
      .ok (p, q, minuteTimes cf.days) := by
    unfold computeLoads
    rw [h4]
    show (blendLoads cf.constantness (constantNodes cf a bs) net p0 q0 >>= _) = _
    rw [h5]
    rfl
  have hpr : p.r = cf.days * 1440 := by rw [bp.1, pr]; ring
  have hqr : q.r = cf.days * 1440 := by rw [bq.1, qr]; ring
  have hpc : p.c = net.load.length := by rw [bp.2.1, pc']
  have hqc : q.c = net.load.length := by rw [bq.2.1, qc']
  obtain ⟨hle, hge⟩ := load_length hnd
  have hlen : net.load.length = bs.length := le_antisymm hle (hge.2 fun b hb => (hloads b hb).1)
  -- power flow
  obtain ⟨res, hres, ⟨m1, m2⟩, m3, m4⟩ := hruns ⟨p, q⟩ hpr hqr hpc hqc
  have e1 : simRun w.flow net p q = .ok res := by
    unfold simRun frame
    rw [if_pos hpc, if_pos hqc]
    exact hres
  obtain ⟨v, hv, vr, vc, vg⟩ : ∃ v, polarVoltage res.vm res.va = .ok v ∧ v.r = cf.days * 1440 ∧ v.c = bs.length ∧
      ∀ t j, t < v.r → j < v.c → v.get t j = Spec.phasor (res.vm.get t j) (res.va.get t j) :=
    ⟨_, if_pos ⟨by rw [m1, m3], by rw [m2, m4]⟩, m1, m2, fun t j ht hj => (Arr2.ofFn_get _ ht hj).trans (polar_phasor _ _)⟩
  obtain ⟨i, hi⟩ : ∃ i, v.matmul y = .ok i := ⟨_, if_pos (by rw [vc, hys.1])⟩
  obtain ⟨-, ir, ic, -⟩ := matmul_entry hi
  have hs : simCompute w.flow w.yBus net p q = .ok (v, i, y) := by
    unfold simCompute getCurrentAndVoltage
    simp only [hy, e1, hv, hi, bind, Except.bind, pure, Except.pure]
  have icc : i.c = bs.length := by rw [ic, hys.2]
  -- noise
  have htimes := minuteTimes_times hdays
  have htl : (minuteTimes cf.days).length = cf.days * 1440 := by rw [minuteTimes_length]; ring
  obtain ⟨n, hn⟩ := stage_completes w.z (net := net) (voltage := v) (current := i) htimes hfm hsteps hN hsf (vr.trans htl.symm)
    ((ir.trans vr).trans htl.symm) (by rw [vc, icc]) (by rw [vc, hlen]) (p := noiseParams cf a) hsd.1 hsd.2.1 hsd.2.2.1 hsd.2.2.2
  obtain ⟨w1, w2, w3⟩ := stage_width hn (by rw [vc, icc])
  obtain ⟨-, R, W, hW, hWp, hAv, hAi⟩ := stage_weights hn htimes (by rw [vc, icc]) (by rw [vc]; exact h0)
  obtain ⟨-, -, -, hst, -⟩ := C86_single hn
  have hmean : Spec.labelled bs (hiddenNodes cf a bs) ⊆ Spec.connections bs ∨ ∀ k < bs.length, colMean n.voltage k ≠ 0 := by
    rcases hup with hup | hup
    · left
      unfold hiddenNodes
      rw [hup, h3]
      split
      · rw [List.nil_append, labelled_pcc (netData_tables hnd).1]
      · rw [labelled_nil]
        exact Finset.empty_subset _
    · right
      intro k hk
      refine colMean_ne_zero (by omega) ?_
      rw [hAv.rows]
      refine hAv.re_pos hW hWp (by rw [vc]; exact hk) ?_
      intro t ht
      have ht' : t < v.r := by rw [hAv.orig]; exact ht
      obtain ⟨u1, u2, u3⟩ := hup _ _ hres t (by rw [m1, ← vr]; exact ht') k (by rw [m2]; exact hk)
      rw [vg t k ht' (by rw [vc]; exact hk)]
      exact phasor_re_pos u1 u2 u3
  obtain ⟨todel, red, hr⟩ := reduce_completes hnd hpinv hys (voltage := n.voltage) (current := n.current) (by rw [hAv.cols, vc])
    (by rw [hAi.cols, icc]) (hidden := hiddenNodes cf a bs) (by
      intro k hk
      unfold hiddenNodes at hk
      split at hk
      · rcases List.mem_append.1 hk with hk | hk
        · exact hid k hk
        · obtain ⟨c, hc, rfl⟩ := List.mem_map.1 hk
          exact List.mem_map_of_mem (List.mem_filter.1 hc).1
      · exact hid k hk) hone hmean a.laplacian
  obtain ⟨d, hd⟩ := network_completes (cf := cf) h3 hseq hnd hy (n := n) ⟨by rw [hAv.cols, vc], by rw [hAi.cols, icc], by rw [w1, vc], by rw [w2, vc],
    by rw [← vc]; exact w3⟩ hr
  exact ⟨d, simulate_run h3 k1 k2 k3 hbs h2 h6 hs hn hd⟩

/-- C139: every shipped single-phase network can be simulated with any of its nodes hidden, whenever the power flow converges to
voltages in the right half plane -/
theorem C139_shipped {w : SimWorld} (hw : w.Shipped) {cf : SimConf} {a : SimArgs} (st : Store) (h3 : a.threePhased = false)
    (hseq : a.sequence = false) (hall : a.loads = a.networkSim ∧ a.networkSim = a.noise) (hg : 0 < a.gaussian)
    (hpinv : Spec.PinvContract w.pinv) (hsd : 0 ≤ cf.vm ∧ 0 ≤ cf.cm ∧ 0 ≤ cf.vp ∧ 0 ≤ cf.cp) (hsf : 0 ≤ cf.safety)
    (hdays : 0 < cf.days) (hfm : 0 ≤ cf.fmeas) (hsteps : 0 < cf.steps)
    (hN : cf.steps ≤ Spec.rawCount (minuteTimes cf.days) cf.fmeas) {bs : List BusData} (hname : shippedBuses a.network = some bs)
    (hid : ∀ k ∈ cf.hidden, k ∈ bs.map BusData.id) {sn : ℝ} (hsn : 0 < sn)
    (hy : ∀ net, makeNet w a.network = .ok (net, bs) → w.yBus net = .ok (net.makeYBus sn))
    (hruns : ∀ net, makeNet w a.network = .ok (net, bs) → Spec.FlowRuns w.flow net (cf.days * 1440) bs.length)
    (hup : ∀ net, makeNet w a.network = .ok (net, bs) → ∀ c res, w.flow net c = .ok res → Spec.Upright res) :
    ∃ d, (simulate w cf a st).res = .ok d := by
  obtain ⟨ls, n, kv, root, passive, hl, hs⟩ := shipped_cases hname
  obtain ⟨net, ls', root', hl', hm, hroot, -, hgm⟩ := C136_network hw hname
  have hlen := hs.feeder.length
  have hin := hs.feeder.inside
  refine C139_completes st h3 hseq hall hg hpinv hsd hsf hdays hfm hsteps hN hm (by omega) ?_ (by rw [hroot, Finset.card_singleton]) hid
    (hy net hm) (hgm sn hsn).1.square (hruns net hm) (Or.inr (hup net hm))
  intro b hb
  refine ⟨?_, hs.nonneg b hb⟩
  obtain ⟨k, hk, rfl⟩ := List.getElem_of_mem hb
  have := hs.feeder.types k hk
  unfold Spec.LoadOrConnection
  split at this
  · exact Or.inr this
  · exact Or.inl this

/-- C137 partial: with the shipped hidden nodes the simulation of the network bolognani56 completes whenever the power flow converges
to voltages in the right half plane -/
theorem C137_runs_partial {w : SimWorld} (hw : w.Shipped) {cf : SimConf} (hcf : cf.hidden = shippedHidden) {a : SimArgs} (st : Store)
    (hname : a.network = "bolognani56") (h3 : a.threePhased = false)
    (hseq : a.sequence = false) (hall : a.loads = a.networkSim ∧ a.networkSim = a.noise) (hg : 0 < a.gaussian)
    (hpinv : Spec.PinvContract w.pinv) (hsd : 0 ≤ cf.vm ∧ 0 ≤ cf.cm ∧ 0 ≤ cf.vp ∧ 0 ≤ cf.cp) (hsf : 0 ≤ cf.safety)
    (hdays : 0 < cf.days) (hfm : 0 ≤ cf.fmeas) (hsteps : 0 < cf.steps)
    (hN : cf.steps ≤ Spec.rawCount (minuteTimes cf.days) cf.fmeas) {sn : ℝ} (hsn : 0 < sn)
    (hy : ∀ net, makeNet w a.network = .ok (net, bolognani56Bus) → w.yBus net = .ok (net.makeYBus sn))
    (hruns : ∀ net, makeNet w a.network = .ok (net, bolognani56Bus) → Spec.FlowRuns w.flow net (cf.days * 1440) 56)
    (hup : ∀ net, makeNet w a.network = .ok (net, bolognani56Bus) → ∀ c res, w.flow net c = .ok res → Spec.Upright res) :
    ∃ d, (simulate w cf a st).res = .ok d :=
  C139_shipped hw st h3 hseq hall hg hpinv hsd hsf hdays hfm hsteps hN (bs := bolognani56Bus)
    (by rw [hname]; unfold shippedBuses; rw [if_pos rfl]) (by rw [hcf]; exact C137_buses_partial.1) hsn hy
    (fun net h => by rw [bolognani56_feeder.length]; exact hruns net h) hup

theorem bolognani56_at {k : ℕ} (hk : k < 56) : ∃ b, bolognani56Bus[k]? = some b ∧ b.id = (k : Int) + 1 := by
  have hl := bolognani56_feeder.length
  refine ⟨bolognani56Bus[k]'(by omega), List.getElem?_eq_getElem _, ?_⟩
  have h1 : (bolognani56Bus.map BusData.id)[k]'(by simp; omega) = (k : Int) + 1 := by
    simp only [bolognani56_ids]
    simp
  simpa using h1

/-- C138 violated, runs: every successful run for bolognani56 with the shipped hidden nodes leaves out the measurements of node 28, which
is listed as observed, and stores those of node 27, which is not -/
theorem C138_run_violated {w : SimWorld} (hw : w.Shipped) {cf : SimConf} (hcf : cf.hidden = shippedHidden) {a : SimArgs}
    (hname : a.network = "bolognani56") (h3 : a.threePhased = false) (hseq : a.sequence = false) {st : Store} {d : NetworkData}
    (h : (simulate w cf a st).res = .ok d) :
    ∃ nv ni v i, filteredLoad (simulate w cf a st).store a.network = .ok (nv, ni, v, i) ∧
      d.noisyVoltage = Spec.storedColumns bolognani56Bus cf.hidden a.laplacian nv ∧ 28 ∈ observedNodes ∧ 27 ∉ observedNodes ∧
      bolognani56Bus[27]?.map BusData.id = some 28 ∧ bolognani56Bus[26]?.map BusData.id = some 27 ∧
      27 ∉ Spec.storedNodes bolognani56Bus cf.hidden a.laplacian nv.c ∧
      (26 < nv.c → 26 ∈ Spec.storedNodes bolognani56Bus cf.hidden a.laplacian nv.c) := by
  obtain ⟨bs, nv, ni, v, i, hbs, hfl, h1, -⟩ := C139_stored (templates_plain _ (by rw [hname]; decide)) h3 hseq h
  have hb : bs = bolognani56Bus := by
    rw [hw.buses, hname] at hbs
    unfold shippedBuses at hbs
    rw [if_pos rfl] at hbs
    exact (Option.some.inj hbs).symm
  subst hb
  obtain ⟨b27, e27, i27⟩ := bolognani56_at (k := 27) (by decide)
  obtain ⟨b26, e26, i26⟩ := bolognani56_at (k := 26) (by decide)
  have hid : ∀ {k : ℕ} {b : BusData}, bolognani56Bus[k]? = some b → (k ∈ Spec.labelled bolognani56Bus cf.hidden ↔ b.id ∈ shippedHidden) := by
    intro k b hb
    unfold Spec.labelled
    rw [hcf, Finset.mem_filter, Finset.mem_range]
    constructor
    · rintro ⟨-, c, hc, hm⟩
      rw [hb] at hc
      cases hc
      exact hm
    · intro hm
      obtain ⟨hk, -⟩ := List.getElem?_eq_some_iff.1 hb
      exact ⟨hk, b, hb, hm⟩
  refine ⟨nv, ni, v, i, hfl, h1, by decide, by decide, by rw [e27]; simp [i27], by rw [e26]; simp [i26], ?_, ?_⟩
  · unfold Spec.storedNodes
    rw [List.mem_filter]
    rintro ⟨-, hc⟩
    have : 27 ∉ Spec.labelled bolognani56Bus cf.hidden := (of_decide_eq_true hc).1
    exact this ((hid e27).2 (by rw [i27]; decide +kernel))
  · intro hlt
    unfold Spec.storedNodes
    refine List.mem_filter.2 ⟨List.mem_range.2 hlt, decide_eq_true ⟨fun hc => ?_, fun hc => ?_⟩⟩
    · have := (hid e26).1 hc
      rw [i26] at this
      revert this
      decide +kernel
    · unfold Spec.removed at hc
      rcases Finset.mem_union.1 hc with hc | hc
      · have hc' : 26 ∈ Spec.connections bolognani56Bus := by
          revert hc
          cases a.laplacian
          · exact id
          · intro hc; simp at hc
        rw [bolognani56_feeder.connections, Finset.mem_singleton] at hc'
        omega
      · classical
        have hp := hc
        unfold Spec.passive at hp
        rw [Finset.mem_filter] at hp
        obtain ⟨-, b, hb, hpb⟩ := hp
        rw [e26] at hb
        cases hb
        have := bolognani56_passive _ (List.mem_of_getElem? e26) hpb
        rw [i26] at this
        revert this
        decide

/-! ### the hypotheses can be met -/

theorem flat_upright (net : Net) (c : Controls) (res : SimResult) (h : flatFlow net c = .ok res) : Spec.Upright res := by
  cases h
  intro t ht k hk
  have h1 : Arr2.get (Arr2.ofFn c.p.r net.bus.length (fun _ _ => (1 : ℝ))) t k = 1 := Arr2.ofFn_get _ ht hk
  have h2 : Arr2.get (Arr2.zeros (α := ℝ) c.p.r net.bus.length) t k = 0 := by unfold Arr2.zeros Arr2.ofFn; simp
  dsimp only
  rw [h1, h2]
  norm_num

/-- C139: all shipped networks, with any nodes hidden -/
theorem demo_C139 {name : String} {bs : List BusData} (h : shippedBuses name = some bs) (lap : Bool) (st : Store) (hidden : List Int)
    (hid : ∀ k ∈ hidden, k ∈ bs.map BusData.id) :
    ∃ d, (simulate shippedWorld { demoConf115 with hidden := hidden } { demoArgs115 with network := name, laplacian := lap } st).res = .ok d := by
  have hb : ∀ net, makeNet shippedWorld name = .ok (net, bs) → net.bus.length = bs.length := by
    intro net hm
    obtain ⟨ls, -, -, -, hbus, -⟩ := C133_single hm
    simpa using congrArg List.length hbus.bus
  refine C139_shipped shippedWorld_shipped st rfl rfl ⟨rfl, rfl⟩ (by simp [demoArgs115]) exactPinv_contract ⟨le_rfl, le_rfl, le_rfl, le_rfl⟩
    (by simp [demoConf115]) (by simp [demoConf115]) (by simp [demoConf115]) (by simp [demoConf115]) (by
      show 1439 ≤ Spec.rawCount (minuteTimes 1) (1 / 60)
      rw [demo115_count]) h hid (sn := 1) one_pos (fun _ _ => rfl) ?_ ?_
  · intro net hm c hp _ _ _
    exact ⟨_, rfl, ⟨hp, hb net hm⟩, hp, hb net hm⟩
  · intro net hm c res hres
    exact flat_upright net c res hres

/-- C138_run_violated: there are such runs -/
example : ∃ d, (simulate shippedWorld { demoConf115 with hidden := shippedHidden } { demoArgs115 with network := "bolognani56" }
    (fun _ => none)).res = .ok d :=
  demo_C139 (bs := bolognani56Bus) (by unfold shippedBuses; rw [if_pos rfl]) demoArgs115.laplacian _ _ C137_buses_partial.1

end
end Verif
