/-
C58 Position of the grid connection; C59 Hidden constant-impedance loads; C60 Sub-Kron reduction with centred data.
-/
import Verif.Lemmas.Reduce
import Mathlib.Tactic.FieldSimp

namespace Verif
open Finset Net
noncomputable section

open Classical in
/-- positions of the nodes without power -/
def Spec.passive (bs : List BusData) (ph : Fin 3) : Finset ℕ :=
  (range bs.length).filter (fun k => ∃ b, bs[k]? = some b ∧ Spec.Passive b ph)

/-- admittance that the code adds at position `k` of the original network: the one computed at the position after removal -/
def usedShunt (bs : List BusData) (voltage current : Arr2 ℂ) (hidden : List Int) (k : ℕ) : ℂ :=
  if k ∈ Spec.labelled bs hidden ∧ k ∉ Spec.connections bs then shuntAt voltage current (Spec.rank (Spec.connections bs) k) else 0

theorem labelled_lt {bs : List BusData} {l : List Int} {k : ℕ} (h : k ∈ Spec.labelled bs l) : k < bs.length :=
  Finset.mem_range.1 (Finset.mem_filter.1 h).1

theorem connections_lt {bs : List BusData} {k : ℕ} (h : k ∈ Spec.connections bs) : k < bs.length :=
  Finset.mem_range.1 (Finset.mem_filter.1 h).1

open Classical in
theorem passive_lt {bs : List BusData} {ph : Fin 3} {k : ℕ} (h : k ∈ Spec.passive bs ph) : k < bs.length :=
  Finset.mem_range.1 (Finset.mem_filter.1 h).1

open Classical in
theorem passive_not_connection {bs : List BusData} {ph : Fin 3} {k : ℕ} (h : k ∈ Spec.passive bs ph) : k ∉ Spec.connections bs := by
  intro hc
  obtain ⟨-, b, hb, hp⟩ := Finset.mem_filter.1 h
  obtain ⟨-, b', hb', ht⟩ := Finset.mem_filter.1 hc
  rw [hb] at hb'
  cases hb'
  exact hp.1 ht

open Classical in
theorem labelled_passive {bs : List BusData} (hn : (bs.map BusData.id).Nodup) (ph : Fin 3) (k : ℕ) :
    k ∈ Spec.labelled bs ((bs.filter (fun b => Spec.Passive b ph)).map BusData.id) ↔ k ∈ Spec.passive bs ph := by
  unfold Spec.labelled Spec.passive
  rw [Finset.mem_filter, Finset.mem_filter]
  constructor
  · rintro ⟨hk, b, hb, hl⟩
    obtain ⟨c, hc, e⟩ := List.mem_map.1 hl
    rw [List.mem_filter] at hc
    have : c = b := List.inj_on_of_nodup_map hn hc.1 (List.mem_of_getElem? hb) e
    subst this
    exact ⟨hk, c, hb, by simpa using hc.2⟩
  · rintro ⟨hk, b, hb, hp⟩
    exact ⟨hk, b, hb, List.mem_map.2 ⟨b, List.mem_filter.2 ⟨List.mem_of_getElem? hb, by simpa using hp⟩, rfl⟩⟩

theorem keep_increasing {n : ℕ} {C : List ℕ} {a b : ℕ} (hb : b < (Arr2.keepIdx n C).length) (hab : a < b) :
    (Arr2.keepIdx n C).getD a 0 < (Arr2.keepIdx n C).getD b 0 := by
  rw [List.getD_eq_getElem _ _ (by omega), List.getD_eq_getElem _ _ hb]
  exact List.pairwise_iff_getElem.1 (PySet.kept_sorted n C) a b (by unfold Arr2.keepIdx at *; unfold PySet.kept; omega)
    (by unfold Arr2.keepIdx at *; unfold PySet.kept; omega) hab

open Classical in
/-- C58 partial: when no hidden or passive node follows a grid connection too closely (with one connection: not immediately), exactly
the hidden nodes, the passive nodes and the connections are eliminated. The matrix returned gives the currents of the other nodes
from their voltages when the connections are grounded and the hidden nodes are loaded with the admittances that the code adds. For
small networks, or when at least three fifths of the nodes remain, they are in increasing order. Missing: the other positions of
the connections, where the claim fails. -/
theorem C58_partial {bs : List BusData} {ls : Option (List LineData)} {net : Net} {ls' : List LineData}
    (h : netData (some bs) ls = .ok (net, ls')) {pinv : Arr2 ℂ → Except PyErr (Arr2 ℂ)} (hpinv : Spec.PinvContract pinv)
    {y voltage current : Arr2 ℂ} (hyr : y.r = bs.length) (hyc : y.c = bs.length) (hvc : voltage.c = bs.length)
    (hic : current.c = bs.length) {hidden : List Int} (hid : ∀ b ∈ hidden, b ∈ bs.map BusData.id)
    (hfar : ∀ k ∈ Spec.labelled bs hidden ∪ Spec.passive bs 0, ∀ c ∈ Spec.connections bs, c < k →
      c + (Spec.connections bs).card < k ∨ k ∈ Spec.connections bs)
    (hmean : ∀ k ∈ Spec.labelled bs hidden \ Spec.connections bs, colMean voltage (Spec.rank (Spec.connections bs) k) ≠ 0)
    (hns : Spec.BlockNonsingular (Spec.withShunts y (usedShunt bs voltage current hidden))
      ((Spec.labelled bs hidden ∪ Spec.passive bs 0) \ Spec.connections bs)) :
    ∃ todel red K, reduceNetwork pinv net y voltage current hidden false = .ok (todel, red) ∧
      (∀ k, k ∈ todel ↔ k ∈ Spec.labelled bs hidden ∪ Spec.passive bs 0) ∧
      Spec.Lists bs.length (Spec.labelled bs hidden ∪ Spec.passive bs 0 ∪ Spec.connections bs) K ∧
      Spec.Grounded y (usedShunt bs voltage current hidden) (Spec.connections bs)
        ((Spec.labelled bs hidden ∪ Spec.passive bs 0) \ Spec.connections bs) K red ∧
      (bs.length - (Spec.connections bs).card ≤ 8 ∨ 3 * (bs.length - (Spec.connections bs).card) ≤ 5 * K.length →
        K.Pairwise (· < ·)) := by
  obtain ⟨hn, hb, -, -, hext⟩ := netData_tables h
  obtain ⟨P, hP, -, hPm⟩ := positions_eq hn hb ((bs.filter (fun b => Spec.Passive b 0)).map BusData.id) (by
    intro b hb
    obtain ⟨c, hc, rfl⟩ := List.mem_map.1 hb
    exact List.mem_map_of_mem (List.mem_filter.1 hc).1)
  obtain ⟨H, hH, -, hHm⟩ := positions_eq hn hb hidden hid
  obtain ⟨C, hC, hCn, hCm⟩ := positions_ext hn hb hext
  have hCf : C.toFinset = Spec.connections bs := by ext k; rw [List.mem_toFinset, hCm]
  have hcard : (Spec.connections bs).card = C.length := by rw [← hCf, List.toFinset_card_of_nodup hCn]
  have hPm' : ∀ k, k ∈ P ↔ k ∈ Spec.passive bs 0 := fun k => (hPm k).trans (labelled_passive hn 0 k)
  have hClt : ∀ k ∈ C, k < bs.length := fun k hk => connections_lt ((hCm k).1 hk)
  -- shifted indices
  have hsh : ∀ k, (k ∈ Spec.labelled bs hidden ∪ Spec.passive bs 0) → k ∉ C → C.foldl shiftStep k = Spec.rank C.toFinset k := by
    intro k hk hkC
    rw [rank_toFinset hCn]
    refine shift_far C k (fun c hc e => hkC (e ▸ hc)) (fun c hc hck => ?_)
    rcases hfar k hk c ((hCm c).1 hc) hck with h1 | h1
    · omega
    · exact absurd ((hCm k).2 h1) hkC
  have hrC : ∀ k, (k ∈ Spec.labelled bs hidden ∪ Spec.passive bs 0) → k ∉ C → Spec.rank C.toFinset k ∉ C := by
    intro k hk hkC hr
    have hle : (C.filter (fun c => decide (c < k))).length ≤ C.length := List.length_filter_le _ _
    rw [rank_toFinset hCn] at hr
    by_cases h0 : (C.filter (fun c => decide (c < k))).length = 0
    · rw [h0] at hr; exact hkC hr
    · have hpos : 0 < k := by
        by_contra hk0
        have : (C.filter (fun c => decide (c < k))) = [] := by
          rw [List.filter_eq_nil_iff]; intro c _; simp; omega
        rw [this] at h0
        exact h0 rfl
      rcases hfar k hk _ ((hCm _).1 hr) (by omega) with h1 | h1
      · omega
      · exact hkC ((hCm k).2 h1)
  set keep := Arr2.keepIdx bs.length C with hkeep
  set H' := C.foldl shiftDown (H.filter (fun k => k ∉ C)) with hH'
  set P' := C.foldl shiftDown P with hP'
  have hH'm : ∀ a, a ∈ H' ↔ ∃ k, k ∈ Spec.labelled bs hidden ∧ k ∉ C ∧ Spec.rank C.toFinset k = a := by
    intro a
    rw [hH', foldl_shiftDown, List.mem_map]
    constructor
    · rintro ⟨k, hk, rfl⟩
      rw [List.mem_filter, hHm] at hk
      have hkC : k ∉ C := by simpa using hk.2
      exact ⟨k, hk.1, hkC, (hsh k (Finset.mem_union_left _ hk.1) hkC).symm⟩
    · rintro ⟨k, hk, hkC, rfl⟩
      exact ⟨k, List.mem_filter.2 ⟨(hHm k).2 hk, by simpa using hkC⟩, hsh k (Finset.mem_union_left _ hk) hkC⟩
  have hP'm : ∀ a, a ∈ P' ↔ ∃ k, k ∈ Spec.passive bs 0 ∧ k ∉ C ∧ Spec.rank C.toFinset k = a := by
    intro a
    rw [hP', foldl_shiftDown, List.mem_map]
    constructor
    · rintro ⟨k, hk, rfl⟩
      rw [hPm'] at hk
      have hkC : k ∉ C := fun hc => passive_not_connection hk ((hCm k).1 hc)
      exact ⟨k, hk, hkC, (hsh k (Finset.mem_union_right _ hk) hkC).symm⟩
    · rintro ⟨k, hk, hkC, rfl⟩
      exact ⟨k, (hPm' k).2 hk, hsh k (Finset.mem_union_right _ hk) hkC⟩
  have hkl : keep.length ≤ bs.length := by
    have : keep.length ≤ (List.range bs.length).length := List.length_filter_le _ _
    simpa using this
  have hH'lt : ∀ a ∈ H', a < keep.length := by
    intro a ha
    obtain ⟨k, hk, hkC, rfl⟩ := (hH'm a).1 ha
    exact (keep_rank hCn (labelled_lt hk) hkC).1
  -- the matrix without the connections
  have hdel : y.deleteBoth C = .ok (Arr2.ofFn keep.length keep.length (fun i j => y.get (keep.getD i 0) (keep.getD j 0))) := by
    unfold Arr2.deleteBoth
    rw [if_pos ⟨by rw [hyc]; exact hClt, by rw [hyr]; exact hClt⟩, hyr, hyc]
  have hadd : addShunts (Arr2.ofFn keep.length keep.length (fun i j => y.get (keep.getD i 0) (keep.getD j 0))) voltage current H' =
      .ok (Arr2.ofFn keep.length keep.length (fun i j =>
        (Arr2.ofFn keep.length keep.length (fun i j => y.get (keep.getD i 0) (keep.getD j 0))).get i j +
          if i = j ∧ i ∈ H' then shuntAt voltage current i else 0)) := by
    unfold addShunts
    rw [if_pos (fun a ha => ⟨hH'lt a ha, by rw [hic]; exact (hH'lt a ha).trans_le hkl, by rw [hvc]; exact (hH'lt a ha).trans_le hkl⟩),
      if_neg]
    · rfl
    · rintro ⟨a, ha, h0⟩
      obtain ⟨k, hk, hkC, rfl⟩ := (hH'm a).1 ha
      rw [hCf] at h0
      exact hmean k (Finset.mem_sdiff.2 ⟨hk, fun hc => hkC ((hCm k).2 hc)⟩) h0
  have hdk : ∀ a, a < keep.length → usedShunt bs voltage current hidden (keep.getD a 0) =
      if a ∈ H' then shuntAt voltage current a else 0 := by
    intro a ha
    obtain ⟨h1, h2⟩ := keep_mem (C := C) ha
    unfold usedShunt
    rw [← hCf]
    have : (a ∈ H') ↔ keep.getD a 0 ∈ Spec.labelled bs hidden ∧ keep.getD a 0 ∉ C.toFinset := by
      rw [hH'm]
      constructor
      · rintro ⟨k, hk, hkC, rfl⟩
        rw [(keep_rank hCn (labelled_lt hk) hkC).2]
        exact ⟨hk, by rw [List.mem_toFinset]; exact hkC⟩
      · rintro ⟨h3, h4⟩
        exact ⟨_, h3, by rw [List.mem_toFinset] at h4; exact h4, rank_keep hCn ha⟩
    by_cases hin : a ∈ H'
    · rw [if_pos hin, if_pos (this.1 hin), rank_keep hCn ha]
    · rw [if_neg hin, if_neg (fun hc => hin (this.2 hc))]
  set y2 := Arr2.ofFn keep.length keep.length (fun i j =>
        (Arr2.ofFn keep.length keep.length (fun i j => y.get (keep.getD i 0) (keep.getD j 0))).get i j +
          if i = j ∧ i ∈ H' then shuntAt voltage current i else 0) with hy2
  set idx := PySet.minusList (PySet.union (PySet.ofList H') P') C with hidxd
  obtain ⟨-, hidxm⟩ := PySet.minusList_mem H' P' C
  have hidx : ∀ k, k ∈ idx ↔ ∃ s ∈ (Spec.labelled bs hidden ∪ Spec.passive bs 0) \ Spec.connections bs,
      Spec.rank C.toFinset s = k := by
    intro k
    rw [hidxd, hidxm, hH'm, hP'm]
    constructor
    · rintro ⟨⟨s, hs, hsC, rfl⟩ | ⟨s, hs, hsC, rfl⟩, -⟩
      · exact ⟨s, Finset.mem_sdiff.2 ⟨Finset.mem_union_left _ hs, fun hc => hsC ((hCm s).2 hc)⟩, rfl⟩
      · exact ⟨s, Finset.mem_sdiff.2 ⟨Finset.mem_union_right _ hs, fun hc => hsC ((hCm s).2 hc)⟩, rfl⟩
    · rintro ⟨s, hs, rfl⟩
      rw [Finset.mem_sdiff] at hs
      have hsC : s ∉ C := fun hc => hs.2 ((hCm s).1 hc)
      refine ⟨?_, hrC s hs.1 hsC⟩
      rcases Finset.mem_union.1 hs.1 with h1 | h1
      · exact Or.inl ⟨s, h1, hsC, rfl⟩
      · exact Or.inr ⟨s, h1, hsC, rfl⟩
  obtain ⟨red, hred, hL, hG⟩ := grounded_of_kron hpinv hyr hCn hClt (S := (Spec.labelled bs hidden ∪ Spec.passive bs 0) \ Spec.connections bs)
    (by
      intro s hs
      rw [Finset.mem_sdiff, Finset.mem_union] at hs
      refine ⟨?_, fun hc => hs.2 ((hCm s).1 hc)⟩
      rcases hs.1 with h1 | h1
      · exact labelled_lt h1
      · exact passive_lt h1)
    (d := usedShunt bs voltage current hidden) (y2 := y2) rfl rfl
    (by
      intro a b ha hb
      have ha' : a < keep.length := ha
      have hb' : b < keep.length := hb
      rw [hy2, Arr2.ofFn_get _ ha' hb', Arr2.ofFn_get _ ha' hb', ← hkeep]
      congr 1
      rw [hdk a ha']
      by_cases hab : a = b
      · by_cases haH : a ∈ H'
        · rw [if_pos ⟨hab, haH⟩, if_pos hab, if_pos haH]
        · rw [if_neg (fun h => haH h.2), if_pos hab, if_neg haH]
      · rw [if_neg (fun h => hab h.1), if_neg hab])
    hidx
    (by
      intro k hk hkC hkS
      unfold usedShunt
      rw [if_neg]
      rintro ⟨h1, h2⟩
      exact hkS (Finset.mem_sdiff.2 ⟨Finset.mem_union_left _ h1, h2⟩)) hns hyc
  have hL' : Spec.Lists bs.length (Spec.labelled bs hidden ∪ Spec.passive bs 0 ∪ Spec.connections bs)
      ((PySet.complement y2.r idx).map (fun a => keep.getD a 0)) := by
    refine ⟨hL.1, fun k => ?_⟩
    rw [hL.2, hCf]
    simp only [Finset.mem_union, Finset.mem_sdiff]
    tauto
  rw [hCf] at hG
  refine ⟨PySet.toList (PySet.union (PySet.ofList H) P), red, (PySet.complement y2.r idx).map (fun a => keep.getD a 0), ?_, ?_, hL', hG, ?_⟩
  · unfold reduceNetwork
    simp only [C64_single h, hP, hH, hC, bind, Except.bind, pure, Except.pure, hdel]
    simp only [Bool.false_eq_true, if_false]
    rw [← hH', ← hP', hadd]
    simp only
    rw [← hidxd, hred]
  · intro k
    rw [(PySet.union_mem H P).2.2, hHm, hPm', Finset.mem_union]
  · intro hsz
    have hkeeplen : keep.length = bs.length - C.length := by
      have := keepIdx_length bs.length C hCn hClt
      rw [hkeep]; omega
    rw [List.length_map, hcard, ← hkeeplen] at hsz
    have hs : PySet.complement y2.r idx = PySet.kept y2.r idx := by
      refine PySet.complement_sorted _ _ ?_
      rw [← (PySet.complement_perm y2.r idx).length_eq]
      exact hsz
    rw [hs, List.pairwise_map]
    refine (PySet.kept_sorted y2.r idx).imp_of_mem ?_
    intro a b _ hb' hab
    have : b < keep.length := ((lists_kept y2.r idx).2 b).1 hb' |>.1
    exact keep_increasing this hab

/-! ### C58: a connection followed by an eliminated node -/

theorem kron_rows {pinv : Arr2 ℂ → Except PyErr (Arr2 ℂ)} {idx : List ℕ} {y red : Arr2 ℂ} (h : kronReduction pinv idx y = .ok red) :
    red.r = (PySet.complement y.r idx).length ∧ ∀ k ∈ idx, k < y.r := by
  unfold kronReduction at h
  obtain ⟨a, ha, h⟩ := Prior.bind_ok h
  obtain ⟨b, hb, h⟩ := Prior.bind_ok h
  obtain ⟨m, hm, h⟩ := Prior.bind_ok h
  obtain ⟨p, hp, h⟩ := Prior.bind_ok h
  obtain ⟨bp, hbp, h⟩ := Prior.bind_ok h
  obtain ⟨c, hc, h⟩ := Prior.bind_ok h
  obtain ⟨bpc, hbpc, h⟩ := Prior.bind_ok h
  unfold Arr2.take at ha hm
  split at ha
  · cases ha
    split at hm
    · rename_i hh
      unfold Arr2.zipWith at h
      split at h
      · cases h
        exact ⟨rfl, hh.1⟩
      · cases h
    · cases hm
  · cases ha

theorem lists_length {n : ℕ} {S : Finset ℕ} (hS : ∀ s ∈ S, s < n) {K : List ℕ} (h : Spec.Lists n S K) : K.length + S.card = n := by
  have h1 : K.toFinset = range n \ S := by
    ext k
    rw [List.mem_toFinset, h.2, Finset.mem_sdiff, Finset.mem_range]
  have h2 : (range n \ S).card + S.card = (range n).card :=
    Finset.card_sdiff_add_card_eq_card (fun s hs => Finset.mem_range.2 (hS s hs))
  rw [← h1, List.toFinset_card_of_nodup h.1, Finset.card_range] at h2
  exact h2

open Classical in
/-- C58 violated: when a hidden or passive node comes right after the only grid connection, it is not eliminated. Every matrix
returned then has one row more than there are nodes left. -/
theorem C58_violated {bs : List BusData} {ls : Option (List LineData)} {net : Net} {ls' : List LineData}
    (h : netData (some bs) ls = .ok (net, ls')) {pinv : Arr2 ℂ → Except PyErr (Arr2 ℂ)} {y voltage current : Arr2 ℂ}
    (hyr : y.r = bs.length) (hyc : y.c = bs.length) {hidden : List Int} (hid : ∀ b ∈ hidden, b ∈ bs.map BusData.id) {p : ℕ}
    (hp : Spec.connections bs = {p}) (hnext : p + 1 ∈ Spec.labelled bs hidden ∪ Spec.passive bs 0) {todel : List ℕ} {red : Arr2 ℂ}
    (hred : reduceNetwork pinv net y voltage current hidden false = .ok (todel, red)) {K : List ℕ}
    (hK : Spec.Lists bs.length (Spec.labelled bs hidden ∪ Spec.passive bs 0 ∪ Spec.connections bs) K) :
    red.r = K.length + 1 := by
  obtain ⟨hn, hb, -, -, hext⟩ := netData_tables h
  obtain ⟨P, hP, -, hPm⟩ := positions_eq hn hb ((bs.filter (fun b => Spec.Passive b 0)).map BusData.id) (by
    intro b hb
    obtain ⟨c, hc, rfl⟩ := List.mem_map.1 hb
    exact List.mem_map_of_mem (List.mem_filter.1 hc).1)
  obtain ⟨H, hH, -, hHm⟩ := positions_eq hn hb hidden hid
  obtain ⟨C, hC, hCn, hCm⟩ := positions_ext hn hb hext
  have hPm' : ∀ k, k ∈ P ↔ k ∈ Spec.passive bs 0 := fun k => (hPm k).trans (labelled_passive hn 0 k)
  have hCp : C = [p] := by
    have h1 : C.toFinset = {p} := by ext k; rw [List.mem_toFinset, hCm, hp]
    have h2 : C.length = 1 := by rw [← List.toFinset_card_of_nodup hCn, h1, Finset.card_singleton]
    obtain ⟨x, rfl⟩ := List.length_eq_one_iff.1 h2
    have : x ∈ ({p} : Finset ℕ) := by rw [← h1]; simp
    rw [Finset.mem_singleton] at this
    rw [this]
  subst hCp
  have hpn : p < bs.length := connections_lt (by rw [hp]; simp)
  unfold reduceNetwork at hred
  simp only [C64_single h, hP, hH, hC, bind, Except.bind, pure, Except.pure, Bool.false_eq_true, if_false] at hred
  split at hred
  · cases hred
  rename_i y1 hy1
  split at hred
  · cases hred
  rename_i y2 hy2
  split at hred
  · cases hred
  rename_i r hr
  cases hred
  obtain ⟨hrr, hlt⟩ := kron_rows hr
  have hy1r : y1.r + 1 = bs.length := by
    unfold Arr2.deleteBoth at hy1
    split at hy1
    · cases hy1
      show (Arr2.keepIdx y.r [p]).length + 1 = _
      rw [← hyr]
      have := keepIdx_length y.r [p] (by simp) (by intro k hk; rw [List.mem_singleton.1 hk, hyr]; exact hpn)
      simpa using this
    · cases hy1
  have hy2r : y2.r = y1.r := by
    unfold addShunts at hy2
    split at hy2
    · split at hy2
      · cases hy2
      · cases hy2; rfl
    · cases hy2
  rw [hrr, hy2r]
  rw [hy2r] at hlt
  -- the eliminated indices
  set S := (Spec.labelled bs hidden ∪ Spec.passive bs 0) \ {p} with hS
  obtain ⟨-, hmem⟩ := PySet.minusList_mem ([p].foldl shiftDown (H.filter (fun k => k ∉ [p]))) ([p].foldl shiftDown P) [p]
  set idx := PySet.minusList (PySet.union (PySet.ofList ([p].foldl shiftDown (H.filter (fun k => k ∉ [p])))) ([p].foldl shiftDown P)) [p]
    with hidx
  have himg : idx.toFinset = (S.image (fun k => shiftStep k p)).erase p := by
    ext a
    rw [List.mem_toFinset, hmem, Finset.mem_erase, Finset.mem_image]
    rw [foldl_shiftDown, foldl_shiftDown, List.mem_map, List.mem_map]
    simp only [List.foldl_cons, List.foldl_nil, List.mem_filter, hHm, hPm', List.mem_singleton, decide_not, Bool.not_eq_true',
      decide_eq_false_iff_not, hS, Finset.mem_sdiff, Finset.mem_union, Finset.mem_singleton]
    constructor
    · rintro ⟨⟨k, ⟨hk, hkp⟩, rfl⟩ | ⟨k, hk, rfl⟩, hne⟩
      · exact ⟨hne, k, ⟨Or.inl hk, hkp⟩, rfl⟩
      · refine ⟨hne, k, ⟨Or.inr hk, ?_⟩, rfl⟩
        rintro rfl
        exact passive_not_connection hk (by rw [hp]; simp)
    · rintro ⟨hne, k, ⟨hk | hk, hkp⟩, rfl⟩
      · exact ⟨Or.inl ⟨k, ⟨hk, hkp⟩, rfl⟩, hne⟩
      · exact ⟨Or.inr ⟨k, hk, rfl⟩, hne⟩
  have hinj : ∀ k ∈ S, ∀ l ∈ S, shiftStep k p = shiftStep l p → k = l := by
    intro k hk l hl he
    rw [hS, Finset.mem_sdiff, Finset.mem_singleton] at hk hl
    unfold shiftStep at he
    split at he <;> split at he <;> omega
  have hpS : p + 1 ∈ S := by
    rw [hS, Finset.mem_sdiff, Finset.mem_singleton]
    exact ⟨hnext, by omega⟩
  have hcard : idx.toFinset.card + 1 = S.card := by
    rw [himg, Finset.card_erase_of_mem, Finset.card_image_of_injOn (fun k hk l hl he => hinj k hk l hl he)]
    · have : 0 < S.card := Finset.card_pos.2 ⟨_, hpS⟩
      omega
    · rw [Finset.mem_image]
      exact ⟨p + 1, hpS, by simp [shiftStep]⟩
  have h1 := lists_length (n := y1.r) (S := idx.toFinset) (fun s hs => hlt s (List.mem_toFinset.1 hs)) (lists_complement y1.r idx)
  have h2 := lists_length (n := bs.length) (by
    intro s hs
    rw [Finset.mem_union, Finset.mem_union] at hs
    rcases hs with (h1 | h1) | h1
    · exact labelled_lt h1
    · exact passive_lt h1
    · exact connections_lt h1) hK
  have h3 : (Spec.labelled bs hidden ∪ Spec.passive bs 0 ∪ Spec.connections bs).card = S.card + 1 := by
    have : Spec.labelled bs hidden ∪ Spec.passive bs 0 ∪ Spec.connections bs = insert p S := by
      ext k
      rw [hp, hS, Finset.mem_insert, Finset.mem_sdiff, Finset.mem_union (s := Spec.labelled bs hidden ∪ Spec.passive bs 0),
        Finset.mem_singleton]
      tauto
    rw [this, Finset.card_insert_of_notMem (by rw [hS, Finset.mem_sdiff, Finset.mem_singleton]; simp)]
  omega

/-! ### C59 -/

/-- before all connections, the position does not change -/
theorem rank_before {C : Finset ℕ} {k : ℕ} (h : ∀ c ∈ C, ¬ c < k) : Spec.rank C k = k := by
  unfold Spec.rank
  rw [Finset.filter_eq_empty_iff.2 (fun c hc => h c hc)]
  simp

/-- after the only connection, the position decreases by one: the admittance of a hidden node is computed from the data of the
column before -/
theorem C59_column_violated {bs : List BusData} {hidden : List Int} (voltage current : Arr2 ℂ) {p k : ℕ}
    (hp : Spec.connections bs = {p}) (hk : k ∈ Spec.labelled bs hidden) (hpk : p < k) :
    usedShunt bs voltage current hidden k = colMean current (k - 1) / colMean voltage (k - 1) := by
  unfold usedShunt
  rw [if_pos ⟨hk, by rw [hp, Finset.mem_singleton]; omega⟩, hp]
  unfold Spec.rank
  rw [Finset.filter_singleton, if_pos hpk, Finset.card_singleton]
  rfl

/-- three nodes: a load, a hidden load and the grid connection -/
def buses59 : List BusData := [⟨1, 1, .sym 1 0, 20, 0, 0⟩, ⟨2, 1, .sym 1 0, 20, 0, 0⟩, ⟨3, 3, .sym 0 0, 20, 0, 0⟩]

/-- lines of admittance `a` between the first two and `b` between the last two -/
def chain59 (a b : ℂ) : Arr2 ℂ := Arr2.ofFn 3 3 (fun i j =>
  if i = 0 ∧ j = 0 then a else if i = 1 ∧ j = 1 then a + b else if i = 2 ∧ j = 2 then b
  else if i + j = 1 then -a else if i + j = 3 then -b else 0)

theorem sets59 : Spec.labelled buses59 [2, 3] = {1, 2} ∧ Spec.passive buses59 0 = ∅ ∧ Spec.connections buses59 = {2} := by
  have hlt : ∀ k, k < buses59.length ↔ k < 3 := fun k => Iff.rfl
  refine ⟨?_, ?_, ?_⟩
  · ext k
    simp only [Spec.labelled, Finset.mem_filter, Finset.mem_range, Finset.mem_insert, Finset.mem_singleton]
    rw [hlt]
    constructor
    · rintro ⟨hk, b, hb, hl⟩
      interval_cases k
      · cases hb; simp at hl
      · simp
      · simp
    · rintro (rfl | rfl)
      · exact ⟨by omega, _, rfl, by simp⟩
      · exact ⟨by omega, _, rfl, by simp⟩
  · classical
    ext k
    simp only [Spec.passive, Finset.mem_filter, Finset.mem_range, Finset.notMem_empty, iff_false]
    rw [hlt]
    rintro ⟨hk, b, hb, h1, h2⟩
    interval_cases k
    · cases hb; simp [Spec.demandOn] at h2
    · cases hb; simp [Spec.demandOn] at h2
    · cases hb; simp at h1
  · ext k
    simp only [Spec.connections, Finset.mem_filter, Finset.mem_range, Finset.mem_singleton]
    rw [hlt]
    constructor
    · rintro ⟨hk, b, hb, ht⟩
      interval_cases k
      · cases hb; simp at ht
      · cases hb; simp at ht
      · rfl
    · rintro rfl
      exact ⟨by omega, _, rfl, rfl⟩

theorem currents59 (a b : ℂ) (v : ℕ → ℂ) :
    Spec.currents (chain59 a b) v 0 = a * v 0 - a * v 1 ∧ Spec.currents (chain59 a b) v 1 = (a + b) * v 1 - a * v 0 - b * v 2 := by
  unfold Spec.currents
  have hr : (chain59 a b).r = 3 := rfl
  rw [hr]
  simp only [Finset.sum_range_succ, Finset.sum_range_zero, chain59]
  constructor
  · rw [Arr2.ofFn_get _ (by omega) (by omega), Arr2.ofFn_get _ (by omega) (by omega), Arr2.ofFn_get _ (by omega) (by omega)]
    simp
    ring
  · rw [Arr2.ofFn_get _ (by omega) (by omega), Arr2.ofFn_get _ (by omega) (by omega), Arr2.ofFn_get _ (by omega) (by omega)]
    simp
    ring

/-- the reduced matrix of the chain -/
theorem reduce59 {pinv : Arr2 ℂ → Except PyErr (Arr2 ℂ)} (hpinv : Spec.PinvContract pinv) {a b c : ℂ} (hd : a + b + c ≠ 0)
    {voltage current : Arr2 ℂ} (hvc : voltage.c = 3) (hic : current.c = 3) (hv : colMean voltage 1 ≠ 0)
    (hi : colMean current 1 = c * colMean voltage 1) :
    ∃ net ls' todel red, netData (some buses59) (some []) = .ok (net, ls') ∧
      reduceNetwork pinv net (chain59 a b) voltage current [2, 3] false = .ok (todel, red) ∧
      Spec.Grounded (chain59 a b) (fun k => if k = 1 then c else 0) {2} {1} [0] red := by
  obtain ⟨net, ls', h, -⟩ := C65_single buses59 [] (by simp [buses59]) (by
    intro b hb
    simp only [buses59, List.mem_cons, List.not_mem_nil, or_false] at hb
    rcases hb with rfl | rfl | rfl <;> exact ⟨_, _, rfl⟩) (by simp)
  obtain ⟨s1, s2, s3⟩ := sets59
  have hrank : Spec.rank {2} 1 = 1 := rank_before (by simp)
  have hus : usedShunt buses59 voltage current [2, 3] = fun k => if k = 1 then c else 0 := by
    funext k
    unfold usedShunt
    rw [s1, s3]
    by_cases hk : k = 1
    · subst hk
      rw [if_pos (by simp), if_pos rfl, hrank]
      unfold shuntAt
      rw [hi, mul_div_assoc, div_self hv, mul_one]
    · rw [if_neg (by simp; tauto), if_neg hk]
  have hset : ({1, 2} ∪ ∅ : Finset ℕ) \ {2} = {1} := by decide
  obtain ⟨todel, red, K, h1, -, h3, h4, -⟩ := C58_partial h hpinv (y := chain59 a b) (voltage := voltage) (current := current) rfl rfl hvc hic
    (hidden := [2, 3]) (by simp [buses59])
    (by
      rw [s1, s2, s3]
      intro k hk c hc hlt
      simp at hk hc
      omega)
    (by
      rw [s1, s3]
      intro k hk
      have : k = 1 := by simp at hk; omega
      subst this
      rw [hrank]; exact hv)
    (by
      rw [s1, s2, s3, hus, hset]
      intro u hu i hi
      have := hu 1 (by simp)
      rw [Finset.sum_singleton] at this
      unfold Spec.withShunts at this
      rw [Arr2.ofFn_get _ (show 1 < (chain59 a b).r from (by decide : 1 < 3)) (show 1 < (chain59 a b).c from (by decide : 1 < 3))] at this
      unfold chain59 at this
      rw [Arr2.ofFn_get _ (by omega) (by omega)] at this
      simp at this
      rcases this with h0 | h0
      · rw [Finset.mem_singleton.1 hi]; exact h0
      · exact absurd h0 hd)
  rw [s1, s2, s3, hset, hus] at h4
  rw [s1, s2, s3] at h3
  have hK : K = [0] := by
    have hl : K.length = 1 := by
      have := lists_length (n := 3) (by intro s hs; simp at hs; omega) h3
      have hc : (({1, 2} ∪ ∅ : Finset ℕ) ∪ {2}).card = 2 := by decide
      rw [hc] at this
      omega
    obtain ⟨x, rfl⟩ := List.length_eq_one_iff.1 hl
    have := (h3.2 x).1 (by simp)
    have h5 : x < 3 := this.1
    have h6 := this.2
    simp at h6
    congr 1
    omega
  rw [hK] at h4
  exact ⟨net, ls', todel, red, h, h1, h4⟩

/-- C59 violated: the current of the hidden node is `c` times its voltage in all the data, but the matrix returned is not the one seen
from the remaining node (it is the one for the load `-c`) -/
theorem C59_violated {pinv : Arr2 ℂ → Except PyErr (Arr2 ℂ)} (hpinv : Spec.PinvContract pinv) {a b c : ℂ} (ha : a ≠ 0) (hc : c ≠ 0)
    (hd : a + b + c ≠ 0) {voltage current : Arr2 ℂ} (hvc : voltage.c = 3) (hic : current.c = 3) (hv : colMean voltage 1 ≠ 0)
    (hr : voltage.r = current.r) (hload : ∀ t, t < current.r → current.get t 1 = c * voltage.get t 1) :
    ∃ net ls' todel red, netData (some buses59) (some []) = .ok (net, ls') ∧
      reduceNetwork pinv net (chain59 a b) voltage current [2, 3] false = .ok (todel, red) ∧
      ¬ Spec.Grounded (chain59 a b) (fun k => if k = 1 then -c else 0) {2} {1} [0] red := by
  have hi : colMean current 1 = c * colMean voltage 1 := by
    unfold colMean
    rw [hr, ← mul_div_assoc, Finset.mul_sum]
    congr 1
    exact Finset.sum_congr rfl (fun t ht => hload t (Finset.mem_range.1 ht))
  obtain ⟨net, ls', todel, red, h1, h2, h3⟩ := reduce59 hpinv hd hvc hic hv hi
  refine ⟨net, ls', todel, red, h1, h2, ?_⟩
  intro h4
  have hrr : red.r = 1 := h3.1
  -- code: load -c
  have e1 := h3.2.2 (fun k => if k = 0 then a + b + c else if k = 1 then a else 0) (by simp) (by
    intro s hs
    rw [Finset.mem_singleton.1 hs, (currents59 a b _).2]
    simp
    ring) 0 (by simp)
  have e2 := h4.2.2 (fun k => if k = 0 then a + b - c else if k = 1 then a else 0) (by simp) (by
    intro s hs
    rw [Finset.mem_singleton.1 hs, (currents59 a b _).2]
    simp
    ring) 0 (by simp)
  simp only [List.getD_cons_zero] at e1 e2
  rw [(currents59 a b _).1] at e1 e2
  unfold Spec.currents at e1 e2
  rw [hrr] at e1 e2
  simp at e1 e2
  have : 2 * c * a * a = 0 := by
    linear_combination (a + b + c) * e2 - (a + b - c) * e1
  simp [hc, ha] at this

open Classical in
/-- C59 partial: hidden nodes without mean current are reduced exactly (any network, positions as for C58). Missing: other loads, for
which the sign of the admittance is wrong. -/
theorem C59_partial {bs : List BusData} {ls : Option (List LineData)} {net : Net} {ls' : List LineData}
    (h : netData (some bs) ls = .ok (net, ls')) {pinv : Arr2 ℂ → Except PyErr (Arr2 ℂ)} (hpinv : Spec.PinvContract pinv)
    {y voltage current : Arr2 ℂ} (hyr : y.r = bs.length) (hyc : y.c = bs.length) (hvc : voltage.c = bs.length)
    (hic : current.c = bs.length) {hidden : List Int} (hid : ∀ b ∈ hidden, b ∈ bs.map BusData.id)
    (hfar : ∀ k ∈ Spec.labelled bs hidden ∪ Spec.passive bs 0, ∀ c ∈ Spec.connections bs, ¬ c < k)
    (hmean : ∀ k ∈ Spec.labelled bs hidden \ Spec.connections bs, colMean voltage k ≠ 0)
    (hzero : ∀ k ∈ Spec.labelled bs hidden \ Spec.connections bs, colMean current k = 0)
    (hns : Spec.BlockNonsingular y ((Spec.labelled bs hidden ∪ Spec.passive bs 0) \ Spec.connections bs)) :
    ∃ todel red K, reduceNetwork pinv net y voltage current hidden false = .ok (todel, red) ∧
      Spec.Lists bs.length (Spec.labelled bs hidden ∪ Spec.passive bs 0 ∪ Spec.connections bs) K ∧
      Spec.Grounded y (fun _ => 0) (Spec.connections bs)
        ((Spec.labelled bs hidden ∪ Spec.passive bs 0) \ Spec.connections bs) K red := by
  have hrank : ∀ k ∈ Spec.labelled bs hidden \ Spec.connections bs, Spec.rank (Spec.connections bs) k = k := by
    intro k hk
    rw [Finset.mem_sdiff] at hk
    exact rank_before (hfar k (Finset.mem_union_left _ hk.1))
  have hus : usedShunt bs voltage current hidden = fun _ => 0 := by
    funext k
    unfold usedShunt
    split
    · rename_i hk
      have hk' : k ∈ Spec.labelled bs hidden \ Spec.connections bs := Finset.mem_sdiff.2 hk
      rw [hrank k hk', shuntAt, hzero k hk', zero_div]
    · rfl
  obtain ⟨todel, red, K, h1, -, h3, h4, -⟩ := C58_partial h hpinv hyr hyc hvc hic hid
    (fun k hk c hc hck => absurd hck (hfar k hk c hc)) (fun k hk => by rw [hrank k hk]; exact hmean k hk)
    (by
      rw [hus]
      have : Spec.withShunts y (fun _ => 0) = y := by
        exact Arr2.ofFn_eq rfl rfl (fun i j _ _ => by simp)
      rw [this]
      exact hns)
  rw [hus] at h4
  exact ⟨todel, red, K, h1, h3, h4⟩

/-! ### C60 -/

theorem centre_get (m : Arr2 ℂ) {t j : ℕ} (ht : t < m.r) (hj : j < m.c) :
    (centreColumns m).get t j = m.get t j - (∑ s ∈ range m.r, m.get s j) / m.r := Arr2.ofFn_get _ ht hj

/-- centring removes what does not depend on time -/
theorem centre_affine {v i y : Arr2 ℂ} (hvc : v.c = y.r) (hir : i.r = v.r) (hic : i.c = y.c) (f : ℕ → ℂ)
    (h : ∀ t j, t < v.r → j < y.c → i.get t j = ∑ a ∈ range y.r, v.get t a * y.get a j + f j) :
    (centreColumns v).matmul y = .ok (centreColumns i) := by
  unfold Arr2.matmul
  refine (if_pos (show (centreColumns v).c = y.r from hvc)).trans (congrArg Except.ok ?_)
  refine Arr2.ofFn_eq hir hic ?_
  intro t j ht hj
  have ht' : t < v.r := ht
  have hT : (v.r : ℂ) ≠ 0 := Nat.cast_ne_zero.2 (by omega)
  rw [centre_get i (by omega) (by omega), hir, h t j ht' hj]
  rw [Finset.sum_congr rfl (fun s hs => h s j (Finset.mem_range.1 hs) hj)]
  rw [Finset.sum_add_distrib, Finset.sum_const, Finset.card_range, nsmul_eq_mul, add_div, mul_div_cancel_left₀ _ hT, Finset.sum_comm]
  show ∑ k ∈ range v.c, (centreColumns v).get t k * y.get k j = _
  rw [hvc, Finset.sum_congr rfl (fun k hk => by
    rw [centre_get v ht' (by rw [hvc]; exact Finset.mem_range.1 hk), sub_mul]), Finset.sum_sub_distrib]
  have : ∑ k ∈ range y.r, (∑ s ∈ range v.r, v.get s k) / (v.r : ℂ) * y.get k j =
      (∑ k ∈ range y.r, ∑ s ∈ range v.r, v.get s k * y.get k j) / (v.r : ℂ) := by
    rw [Finset.sum_div]
    refine Finset.sum_congr rfl (fun k _ => ?_)
    rw [← Finset.sum_mul, div_mul_eq_mul_div]
  rw [this]
  ring

/-- C60: when the columns `C` of the voltage are constant in time and `current = voltage · y`, the data without these columns satisfy
the equation of the matrix without these rows and columns after centring -/
theorem C60_removed {y voltage current : Arr2 ℂ} (h : voltage.matmul y = .ok current) (hy : y.c = y.r) {C : List ℕ}
    (hC : ∀ k ∈ C, k < y.r) (hconst : ∀ c ∈ C, ∀ t, t < voltage.r → voltage.get t c = voltage.get 0 c) :
    ∃ v i y', voltage.deleteCols C = .ok v ∧ current.deleteCols C = .ok i ∧ y.deleteBoth C = .ok y' ∧
      (centreColumns v).matmul y' = .ok (centreColumns i) := by
  have hsh : voltage.c = y.r ∧ current.r = voltage.r ∧ current.c = y.c ∧
      ∀ t j, t < voltage.r → j < y.c → current.get t j = ∑ k ∈ range y.r, voltage.get t k * y.get k j := by
    unfold Arr2.matmul at h
    split at h
    · rename_i hc
      cases h
      refine ⟨hc, rfl, rfl, fun t j ht hj => ?_⟩
      rw [Arr2.ofFn_get _ ht hj]
      show ∑ k ∈ range voltage.c, voltage.get t k * y.get k j = _
      rw [hc]
    · cases h
  obtain ⟨hvc, hcr, hcc, hcur⟩ := hsh
  set keep := Arr2.keepIdx y.r C with hkeep
  refine ⟨Arr2.ofFn voltage.r keep.length (fun t j => voltage.get t (keep.getD j 0)),
    Arr2.ofFn voltage.r keep.length (fun t j => current.get t (keep.getD j 0)),
    Arr2.ofFn keep.length keep.length (fun i j => y.get (keep.getD i 0) (keep.getD j 0)), ?_, ?_, ?_, ?_⟩
  · unfold Arr2.deleteCols
    rw [if_pos (by rw [hvc]; exact hC), hvc]
  · unfold Arr2.deleteCols
    rw [if_pos (by rw [hcc, hy]; exact hC), hcc, hy, hcr]
  · unfold Arr2.deleteBoth
    rw [if_pos ⟨by rw [hy]; exact hC, hC⟩, hy]
  · refine centre_affine rfl rfl rfl (fun j => ∑ c ∈ C.toFinset, voltage.get 0 c * y.get c (keep.getD j 0)) ?_
    intro t j ht hj
    have hkj := keep_mem (C := C) hj
    have ht' : t < voltage.r := ht
    have hj' : j < keep.length := hj
    rw [Arr2.ofFn_get _ ht' hj', hcur t _ ht' (by rw [hy]; exact hkj.1),
      sum_lists (fun c hc => hC c (List.mem_toFinset.1 hc)) (lists_keep y.r C)]
    congr 1
    · refine Finset.sum_congr rfl (fun a ha => ?_)
      have ha' : a < keep.length := Finset.mem_range.1 ha
      rw [Arr2.ofFn_get _ ht' ha', Arr2.ofFn_get _ ha' hj']
    · exact Finset.sum_congr rfl (fun c hc => by rw [hconst c (List.mem_toFinset.1 hc) t ht'])

/-- two increasing lists of the same nodes -/
theorem lists_unique {n : ℕ} {S : Finset ℕ} {K L : List ℕ} (hK : Spec.Lists n S K) (hL : Spec.Lists n S L)
    (h1 : K.Pairwise (· < ·)) (h2 : L.Pairwise (· < ·)) : K = L := by
  refine List.Perm.eq_of_pairwise (fun a b _ _ h h' => absurd h (by omega)) h1 h2 ?_
  rw [List.perm_ext_iff_of_nodup hK.1 hL.1]
  intro k
  rw [hK.2, hL.2]

/-- the centred data of one time step -/
theorem centre_currents {y voltage current : Arr2 ℂ} (h : voltage.matmul y = .ok current) {t k : ℕ} (ht : t < voltage.r) (hk : k < y.c) :
    Spec.currents y (fun i => (centreColumns voltage).get t i) k = (centreColumns current).get t k := by
  obtain ⟨hvc, hcur⟩ : voltage.c = y.r ∧ current = Arr2.ofFn voltage.r y.c (voltage.mulGet y) := by
    unfold Arr2.matmul at h
    split at h
    · rename_i hc
      cases h
      exact ⟨hc, rfl⟩
    · cases h
  have := centre_affine (v := voltage) (i := current) (y := y) hvc (by rw [hcur]; rfl) (by rw [hcur]; rfl) (fun _ => 0) (by
    intro t j ht hj
    rw [hcur, Arr2.ofFn_get _ ht hj, add_zero]
    show ∑ k ∈ range voltage.c, _ = _
    rw [hvc])
  unfold Arr2.matmul at this
  rw [if_pos (show (centreColumns voltage).c = y.r from hvc)] at this
  have e := Except.ok.inj this
  rw [← e]
  have ht' : t < (centreColumns voltage).r := ht
  rw [Arr2.ofFn_get _ ht' hk]
  show _ = ∑ k ∈ range voltage.c, _
  rw [hvc]
  rfl

open Classical in
/-- C60, whole stage: data with constant voltages at the grid connections, no current at the passive nodes and the currents assumed
by the code at the hidden nodes satisfy, after deletion of the reduced columns and centring, the equation of the reduced matrix
(connections among the hidden nodes as in simulate_network.py, nodes in order as for C57). -/
theorem C60_reduced {bs : List BusData} {ls : Option (List LineData)} {net : Net} {ls' : List LineData}
    (h : netData (some bs) ls = .ok (net, ls')) {pinv : Arr2 ℂ → Except PyErr (Arr2 ℂ)} (hpinv : Spec.PinvContract pinv)
    {y voltage current : Arr2 ℂ} (hyr : y.r = bs.length) (hyc : y.c = bs.length) (heq : voltage.matmul y = .ok current)
    {hidden : List Int} (hid : ∀ b ∈ hidden, b ∈ bs.map BusData.id) (hch : Spec.connections bs ⊆ Spec.labelled bs hidden)
    (hfar : ∀ k ∈ Spec.labelled bs hidden ∪ Spec.passive bs 0, ∀ c ∈ Spec.connections bs, c < k →
      c + (Spec.connections bs).card < k ∨ k ∈ Spec.connections bs)
    (hmean : ∀ k ∈ Spec.labelled bs hidden \ Spec.connections bs, colMean voltage (Spec.rank (Spec.connections bs) k) ≠ 0)
    (hns : Spec.BlockNonsingular (Spec.withShunts y (usedShunt bs voltage current hidden))
      ((Spec.labelled bs hidden ∪ Spec.passive bs 0) \ Spec.connections bs))
    (hsize : bs.length - (Spec.connections bs).card ≤ 8 ∨
      3 * (bs.length - (Spec.connections bs).card) ≤ 5 * (bs.length - (Spec.labelled bs hidden ∪ Spec.passive bs 0).card))
    (hconst : ∀ c ∈ Spec.connections bs, ∀ t, t < voltage.r → voltage.get t c = voltage.get 0 c)
    (hload : ∀ k ∈ (Spec.labelled bs hidden ∪ Spec.passive bs 0) \ Spec.connections bs, ∀ t, t < voltage.r →
      current.get t k = - (usedShunt bs voltage current hidden k * voltage.get t k)) :
    ∃ todel red v i, reduceNetwork pinv net y voltage current hidden false = .ok (todel, red) ∧
      voltage.deleteCols todel = .ok v ∧ current.deleteCols todel = .ok i ∧
      (centreColumns v).matmul red = .ok (centreColumns i) ∧
      ∀ k, k ∈ todel ↔ k ∈ Spec.labelled bs hidden ∪ Spec.passive bs 0 := by
  obtain ⟨hvc, hcr, hcc⟩ : voltage.c = y.r ∧ current.r = voltage.r ∧ current.c = y.c := by
    unfold Arr2.matmul at heq
    split at heq
    · rename_i hc
      cases heq
      exact ⟨hc, rfl, rfl⟩
    · cases heq
  obtain ⟨todel, red, K, h1, h2, h3, h4, h5⟩ := C58_partial h hpinv (current := current) hyr hyc (by rw [hvc, hyr]) (by rw [hcc, hyc]) hid hfar hmean hns
  have hun : Spec.labelled bs hidden ∪ Spec.passive bs 0 ∪ Spec.connections bs = Spec.labelled bs hidden ∪ Spec.passive bs 0 :=
    Finset.union_eq_left.2 (hch.trans Finset.subset_union_left)
  rw [hun] at h3
  have hlt : ∀ k ∈ Spec.labelled bs hidden ∪ Spec.passive bs 0, k < bs.length := by
    intro k hk
    rcases Finset.mem_union.1 hk with h | h
    · exact labelled_lt h
    · exact passive_lt h
  have hlen := lists_length hlt h3
  have hsort := h5 (by
    rcases hsize with hs | hs
    · exact Or.inl hs
    · right
      rw [show K.length = bs.length - (Spec.labelled bs hidden ∪ Spec.passive bs 0).card by omega]
      exact hs)
  have htf : todel.toFinset = Spec.labelled bs hidden ∪ Spec.passive bs 0 := by
    ext k; rw [List.mem_toFinset, h2]
  have hK : Arr2.keepIdx bs.length todel = K := by
    have hk := lists_keep bs.length todel
    rw [htf] at hk
    refine lists_unique hk h3 ?_ hsort
    exact PySet.kept_sorted bs.length todel
  obtain ⟨hrr, hrc, hG⟩ := h4
  have hdl : ∀ k ∈ todel, k < bs.length := fun k hk => hlt k ((h2 k).1 hk)
  refine ⟨todel, red, Arr2.ofFn voltage.r K.length (fun t j => voltage.get t (K.getD j 0)),
    Arr2.ofFn current.r K.length (fun t j => current.get t (K.getD j 0)), h1, ?_, ?_, ?_, h2⟩
  · unfold Arr2.deleteCols
    rw [hvc, hyr, if_pos hdl, hK]
  · unfold Arr2.deleteCols
    rw [hcc, hyc, if_pos hdl, hK]
  · have hKlt : ∀ b, b < K.length → K.getD b 0 < bs.length := fun b hb => ((h3.2 _).1 (getD_mem hb)).1
    have hcent : ∀ (m : Arr2 ℂ), m.c = bs.length → ∀ t b, t < m.r → b < K.length →
        (centreColumns (Arr2.ofFn m.r K.length (fun t j => m.get t (K.getD j 0)))).get t b = (centreColumns m).get t (K.getD b 0) := by
      intro m hm t b ht hb
      rw [centre_get (Arr2.ofFn m.r K.length (fun t j => m.get t (K.getD j 0))) ht hb,
        centre_get m ht (by rw [hm]; exact hKlt b hb), Arr2.ofFn_get _ ht hb]
      congr 2
      exact Finset.sum_congr rfl (fun s hs => Arr2.ofFn_get _ (Finset.mem_range.1 hs) hb)
    unfold Arr2.matmul
    rw [if_pos (show (centreColumns (Arr2.ofFn voltage.r K.length (fun t j => voltage.get t (K.getD j 0)))).c = red.r from hrr.symm)]
    refine congrArg Except.ok ?_
    refine Arr2.ofFn_eq (show current.r = voltage.r from hcr) (show K.length = red.c from hrc.symm) ?_
    intro t b ht hb
    have ht' : t < voltage.r := ht
    rw [hrc] at hb
    have hg := hG (fun k => (centreColumns voltage).get t k) ?_ ?_ b hb
    · rw [hcent current (by rw [hcc, hyc]) t b (by omega) hb, ← centre_currents heq ht' (by rw [hyc]; exact hKlt b hb), ← hg]
      unfold Spec.currents
      rw [hrr]
      show ∑ a ∈ range K.length, _ = _
      refine Finset.sum_congr rfl (fun a ha => ?_)
      beta_reduce
      rw [hcent voltage (by rw [hvc, hyr]) t a ht' (Finset.mem_range.1 ha)]
    · intro c hc
      have hcl := connections_lt hc
      have hT : (voltage.r : ℂ) ≠ 0 := Nat.cast_ne_zero.2 (by omega)
      show (centreColumns voltage).get t c = 0
      rw [centre_get voltage ht' (by rw [hvc, hyr]; exact hcl),
        Finset.sum_congr rfl (fun s hs => hconst c hc s (Finset.mem_range.1 hs)), Finset.sum_const, Finset.card_range, nsmul_eq_mul,
        mul_div_cancel_left₀ _ hT, hconst c hc t ht', sub_self]
    · intro s hs
      have hsl := hlt s (Finset.mem_sdiff.1 hs).1
      rw [centre_currents heq ht' (by rw [hyc]; exact hsl), centre_get current (by omega) (by rw [hcc, hyc]; exact hsl), hcr,
        Finset.sum_congr rfl (fun r hr => hload s hs r (Finset.mem_range.1 hr)), hload s hs t ht']
      beta_reduce
      rw [centre_get voltage ht' (by rw [hvc, hyr]; exact hsl), Finset.sum_neg_distrib, ← Finset.mul_sum]
      ring

/-- C58 with `laplacian=True`: the connections stay, the other hidden and passive nodes are eliminated from the whole matrix. The
columns to delete still contain the connections when they are listed as hidden. The order is increasing as for C57. -/
theorem C58_laplacian {bs : List BusData} {ls : Option (List LineData)} {net : Net} {ls' : List LineData}
    (h : netData (some bs) ls = .ok (net, ls')) {pinv : Arr2 ℂ → Except PyErr (Arr2 ℂ)} (hpinv : Spec.PinvContract pinv)
    {y voltage current : Arr2 ℂ} (hyr : y.r = bs.length) (hyc : y.c = bs.length) (hvc : voltage.c = bs.length)
    (hic : current.c = bs.length) {hidden : List Int} (hid : ∀ b ∈ hidden, b ∈ bs.map BusData.id)
    (hmean : ∀ k ∈ Spec.labelled bs hidden \ Spec.connections bs, colMean voltage k ≠ 0) {d : ℕ → ℂ}
    (hd : d = fun k => if k ∈ Spec.labelled bs hidden \ Spec.connections bs then colMean current k / colMean voltage k else 0)
    (hns : Spec.BlockNonsingular (Spec.withShunts y d) ((Spec.labelled bs hidden ∪ Spec.passive bs 0) \ Spec.connections bs)) :
    ∃ todel red K, reduceNetwork pinv net y voltage current hidden true = .ok (todel, red) ∧
      (∀ k, k ∈ todel ↔ k ∈ Spec.labelled bs hidden ∪ Spec.passive bs 0) ∧
      Spec.Lists bs.length ((Spec.labelled bs hidden ∪ Spec.passive bs 0) \ Spec.connections bs) K ∧
      Spec.Grounded y d ∅ ((Spec.labelled bs hidden ∪ Spec.passive bs 0) \ Spec.connections bs) K red ∧
      (bs.length ≤ 8 ∨ 3 * bs.length ≤ 5 * K.length → K.Pairwise (· < ·)) := by
  classical
  obtain ⟨hn, hb, -, -, hext⟩ := netData_tables h
  obtain ⟨P, hP, -, hPm⟩ := positions_eq hn hb ((bs.filter (fun b => Spec.Passive b 0)).map BusData.id) (by
    intro b hb
    obtain ⟨c, hc, rfl⟩ := List.mem_map.1 hb
    exact List.mem_map_of_mem (List.mem_filter.1 hc).1)
  obtain ⟨H, hH, -, hHm⟩ := positions_eq hn hb hidden hid
  obtain ⟨C, hC, hCn, hCm⟩ := positions_ext hn hb hext
  have hPm' : ∀ k, k ∈ P ↔ k ∈ Spec.passive bs 0 := fun k => (hPm k).trans (labelled_passive hn 0 k)
  set H' := H.filter (fun k => k ∉ C) with hH'
  have hH'm : ∀ k, k ∈ H' ↔ k ∈ Spec.labelled bs hidden \ Spec.connections bs := by
    intro k
    rw [hH', List.mem_filter, hHm, Finset.mem_sdiff, ← hCm]
    simp
  have hkeep0 : Arr2.keepIdx bs.length [] = List.range bs.length := by
    unfold Arr2.keepIdx
    exact List.filter_eq_self.2 (by simp)
  have hlen0 : (Arr2.keepIdx bs.length []).length = bs.length := by rw [hkeep0, List.length_range]
  have hgd : ∀ a, a < bs.length → (Arr2.keepIdx bs.length []).getD a 0 = a := by
    intro a ha
    rw [hkeep0, List.getD_eq_getElem _ _ (by simpa using ha), List.getElem_range]
  have hadd : addShunts y voltage current H' = .ok (Arr2.ofFn y.r y.c (fun i j => y.get i j +
      if i = j ∧ i ∈ H' then shuntAt voltage current i else 0)) := by
    unfold addShunts
    rw [if_pos, if_neg]
    · rintro ⟨k, hk, h0⟩
      exact hmean k ((hH'm k).1 hk) h0
    · intro k hk
      have := labelled_lt (Finset.mem_sdiff.1 ((hH'm k).1 hk)).1
      rw [hyr, hic, hvc]
      exact ⟨this, this, this⟩
  obtain ⟨-, hmem⟩ := PySet.minusList_mem H' P C
  obtain ⟨red, hred, hL, hG⟩ := grounded_of_kron hpinv hyr (C := []) (by simp) (by simp)
    (S := (Spec.labelled bs hidden ∪ Spec.passive bs 0) \ Spec.connections bs)
    (by
      intro s hs
      rw [Finset.mem_sdiff, Finset.mem_union] at hs
      refine ⟨?_, by simp⟩
      rcases hs.1 with h1 | h1
      · exact labelled_lt h1
      · exact passive_lt h1)
    (d := d) (y2 := Arr2.ofFn y.r y.c (fun i j => y.get i j + if i = j ∧ i ∈ H' then shuntAt voltage current i else 0))
    (by rw [hlen0]; exact hyr) (by rw [hlen0]; exact hyc)
    (by
      intro a b ha hb
      have ha' : a < y.r := ha
      have hb' : b < y.r := hb
      rw [Arr2.ofFn_get _ ha' (by rw [hyc, ← hyr]; exact hb'), hgd a (by omega), hgd b (by omega), hd]
      beta_reduce
      congr 1
      by_cases hab : a = b
      · by_cases hm : a ∈ H'
        · rw [if_pos ⟨hab, hm⟩, if_pos hab, if_pos ((hH'm a).1 hm)]; rfl
        · rw [if_neg (fun h => hm h.2), if_pos hab, if_neg (fun h => hm ((hH'm a).2 h))]
      · rw [if_neg (fun h => hab h.1), if_neg hab])
    (idx := PySet.minusList (PySet.union (PySet.ofList H') P) C)
    (by
      intro k
      rw [hmem, hH'm, hPm', hCm]
      have hrk : ∀ s, Spec.rank (List.toFinset []) s = s := fun s => by simp [Spec.rank]
      simp only [hrk, exists_eq_right, Finset.mem_sdiff, Finset.mem_union]
      tauto)
    (by
      intro k _ _ hkS
      rw [hd]
      beta_reduce
      rw [if_neg]
      intro hk
      rw [Finset.mem_sdiff] at hk
      exact hkS (Finset.mem_sdiff.2 ⟨Finset.mem_union_left _ hk.1, hk.2⟩)) hns hyc
  refine ⟨PySet.toList (PySet.union (PySet.ofList H) P), red, _, ?_, ?_, ?_, hG, ?_⟩
  · unfold reduceNetwork
    simp only [C64_single h, hP, hH, hC, bind, Except.bind, pure, Except.pure, if_true]
    rw [← hH', hadd]
    simp only [hred]
  · intro k
    rw [(PySet.union_mem H P).2.2, hHm, hPm', Finset.mem_union]
  · simpa using hL
  · intro hsz
    rw [List.length_map] at hsz
    have hs : PySet.complement y.r (PySet.minusList (PySet.union (PySet.ofList H') P) C) =
        PySet.kept y.r (PySet.minusList (PySet.union (PySet.ofList H') P) C) := by
      refine PySet.complement_sorted _ _ ?_
      rw [← (PySet.complement_perm y.r _).length_eq, hyr]
      rw [← hyr] at hsz ⊢
      exact hsz
    show (List.map _ (PySet.complement y.r _)).Pairwise _
    rw [hs, List.pairwise_map]
    refine (PySet.kept_sorted y.r _).imp_of_mem ?_
    intro a b _ hb' hab
    have : b < y.r := ((lists_kept y.r _).2 b).1 hb' |>.1
    exact keep_increasing (by rw [hlen0]; omega) hab

/-! ### concrete cases -/

theorem net59 : ∃ net ls', netData (some buses59) (some []) = .ok (net, ls') := by
  obtain ⟨net, ls', h, -⟩ := C65_single buses59 [] (by simp [buses59]) (by
    intro b hb
    simp only [buses59, List.mem_cons, List.not_mem_nil, or_false] at hb
    rcases hb with rfl | rfl | rfl <;> exact ⟨_, _, rfl⟩) (by simp)
  exact ⟨net, ls', h⟩

/-- C59: consistent data (`current = voltage · y`) for which the reduced matrix is wrong -/
example : ∃ voltage current net ls' todel red, voltage.matmul (chain59 1 1) = .ok current ∧ voltage.r = 1 ∧
    netData (some buses59) (some []) = .ok (net, ls') ∧
    reduceNetwork exactPinv net (chain59 1 1) voltage current [2, 3] false = .ok (todel, red) ∧
    ¬ Spec.Grounded (chain59 1 1) (fun k => if k = 1 then -(3 / 2) else 0) {2} {1} [0] red := by
  let voltage : Arr2 ℂ := Arr2.ofFn 1 3 (fun _ j => if j = 0 then 1 else if j = 1 then 2 else 0)
  have hv : ∀ j, j < 3 → voltage.get 0 j = if j = 0 then 1 else if j = 1 then 2 else 0 := fun j hj =>
    Arr2.ofFn_get _ (by omega) hj
  have hm : voltage.matmul (chain59 1 1) = .ok (Arr2.ofFn 1 3 (voltage.mulGet (chain59 1 1))) := if_pos rfl
  have hi1 : (Arr2.ofFn 1 3 (voltage.mulGet (chain59 1 1))).get 0 1 = 3 := by
    rw [Arr2.ofFn_get _ (by omega) (by omega)]
    have := (currents59 1 1 (fun k => voltage.get 0 k)).2
    unfold Spec.currents at this
    rw [show voltage.mulGet (chain59 1 1) 0 1 = _ from this, hv 0 (by omega), hv 1 (by omega), hv 2 (by omega)]
    norm_num
  obtain ⟨net, ls', todel, red, h1, h2, h3⟩ := C59_violated exactPinv_contract (a := 1) (b := 1) (c := 3 / 2) (by norm_num)
    (by norm_num) (by norm_num) (voltage := voltage) (current := Arr2.ofFn 1 3 (voltage.mulGet (chain59 1 1))) rfl rfl
    (by
      unfold colMean
      rw [show voltage.r = 1 from rfl, Finset.sum_range_one, hv 1 (by omega)]
      norm_num) rfl (by
      intro t ht
      have : t = 0 := by have h1 : t < 1 := ht; omega
      subst this
      rw [hi1, hv 1 (by omega)]
      norm_num)
  exact ⟨_, _, net, ls', todel, red, hm, rfl, h1, h2, h3⟩

/-- the voltages of the next case -/
def volt60 : Arr2 ℂ := Arr2.ofFn 2 3 (fun t j => if t = 0 then 1 else if j = 0 then 3 else if j = 1 then 2 else 1)

theorem volt60_get {t j : ℕ} (ht : t < 2) (hj : j < 3) :
    volt60.get t j = if t = 0 then 1 else if j = 0 then 3 else if j = 1 then 2 else 1 := Arr2.ofFn_get _ ht hj

/-- C60: two time steps, a hidden node without current, constant voltage at the connection -/
example : ∃ net ls' current todel red v i, netData (some buses59) (some []) = .ok (net, ls') ∧
    volt60.matmul (chain59 1 1) = .ok current ∧
    reduceNetwork exactPinv net (chain59 1 1) volt60 current [2, 3] false = .ok (todel, red) ∧
    volt60.deleteCols todel = .ok v ∧ current.deleteCols todel = .ok i ∧ (centreColumns v).matmul red = .ok (centreColumns i) := by
  obtain ⟨net, ls', h⟩ := net59
  obtain ⟨s1, s2, s3⟩ := sets59
  have hm : volt60.matmul (chain59 1 1) = .ok (Arr2.ofFn 2 3 (volt60.mulGet (chain59 1 1))) := if_pos rfl
  set current := Arr2.ofFn 2 3 (volt60.mulGet (chain59 1 1)) with hcur
  have hz : ∀ t, t < 2 → current.get t 1 = 0 := by
    intro t ht
    rw [hcur, Arr2.ofFn_get _ ht (by omega)]
    have := (currents59 1 1 (fun k => volt60.get t k)).2
    unfold Spec.currents at this
    rw [show volt60.mulGet (chain59 1 1) t 1 = _ from this, volt60_get ht (by omega), volt60_get ht (by omega), volt60_get ht (by omega)]
    interval_cases t <;> norm_num
  have hrank : Spec.rank {2} 1 = 1 := rank_before (by simp)
  have hmz : colMean current 1 = 0 := by
    unfold colMean
    rw [show current.r = 2 from rfl, Finset.sum_eq_zero (fun t ht => hz t (Finset.mem_range.1 ht)), zero_div]
  have hmv : colMean volt60 1 ≠ 0 := by
    unfold colMean
    rw [show volt60.r = 2 from rfl, Finset.sum_range_succ, Finset.sum_range_one, volt60_get (by omega) (by omega),
      volt60_get (by omega) (by omega)]
    norm_num
  have hus : usedShunt buses59 volt60 current [2, 3] = fun _ => 0 := by
    funext k
    unfold usedShunt
    rw [s1, s3]
    split
    · rename_i hk
      have : k = 1 := by have := hk.1; have := hk.2; simp at *; omega
      subst this
      rw [hrank, shuntAt, hmz, zero_div]
    · rfl
  have hset : ({1, 2} ∪ ∅ : Finset ℕ) \ {2} = {1} := by decide
  obtain ⟨todel, red, v, i, h1, h2, h3, h4, -⟩ := C60_reduced h exactPinv_contract (y := chain59 1 1) rfl rfl hm (hidden := [2, 3])
    (by simp [buses59]) (by rw [s1, s3]; simp)
    (by
      rw [s1, s2, s3]
      intro k hk c hc hlt
      simp at hk hc
      omega)
    (by
      rw [s1, s3]
      intro k hk
      have : k = 1 := by simp at hk; omega
      subst this
      rw [hrank]; exact hmv)
    (by
      rw [s1, s2, s3, hus, hset]
      intro u hu i hi
      have := hu 1 (by simp)
      rw [Finset.sum_singleton] at this
      unfold Spec.withShunts at this
      rw [Arr2.ofFn_get _ (show 1 < (chain59 1 1).r from (by decide : 1 < 3)) (show 1 < (chain59 1 1).c from (by decide : 1 < 3))] at this
      unfold chain59 at this
      rw [Arr2.ofFn_get _ (by omega) (by omega)] at this
      rw [Finset.mem_singleton.1 hi]
      norm_num at this
      exact this)
    (Or.inl (by rw [s3]; decide))
    (by
      rw [s3]
      intro c hc t ht
      rw [Finset.mem_singleton.1 hc]
      have ht' : t < 2 := ht
      rw [volt60_get ht' (by omega), volt60_get (by omega) (by omega)]
      interval_cases t <;> simp)
    (by
      rw [s1, s2, s3, hus, hset]
      intro k hk t ht
      rw [Finset.mem_singleton.1 hk, hz t ht]
      simp)
  exact ⟨net, ls', _, todel, red, v, i, h, hm, h1, h2, h3, h4⟩

/-- the connection first, as in the template of net_templates.py:286 -/
def busesFirst : List BusData := [⟨1, 3, .sym 0 0, 20, 0, 0⟩, ⟨2, 1, .sym 1 0, 20, 0, 0⟩, ⟨3, 1, .sym 1 0, 20, 0, 0⟩]

/-- C58 violated: a network with the connection first and the next node hidden; the matrix has two rows though one node is left -/
example : ∃ net ls' voltage current todel red, netData (some busesFirst) (some []) = .ok (net, ls') ∧
    reduceNetwork exactPinv net (chain59 1 1) voltage current [1, 2] false = .ok (todel, red) ∧
    red.r = 2 ∧ Spec.Lists 3 (Spec.labelled busesFirst [1, 2] ∪ Spec.passive busesFirst 0 ∪ Spec.connections busesFirst) [2] := by
  classical
  obtain ⟨net, ls', h, -⟩ := C65_single busesFirst [] (by simp [busesFirst]) (by
    intro b hb
    simp only [busesFirst, List.mem_cons, List.not_mem_nil, or_false] at hb
    rcases hb with rfl | rfl | rfl <;> exact ⟨_, _, rfl⟩) (by simp)
  have hlt : ∀ k, k < busesFirst.length ↔ k < 3 := fun k => Iff.rfl
  have s1 : Spec.labelled busesFirst [1, 2] = {0, 1} := by
    ext k
    simp only [Spec.labelled, Finset.mem_filter, Finset.mem_range, Finset.mem_insert, Finset.mem_singleton]
    rw [hlt]
    constructor
    · rintro ⟨hk, b, hb, hl⟩
      interval_cases k
      · simp
      · simp
      · cases hb; simp at hl
    · rintro (rfl | rfl)
      · exact ⟨by omega, _, rfl, by simp⟩
      · exact ⟨by omega, _, rfl, by simp⟩
  have s2 : Spec.passive busesFirst 0 = ∅ := by
    ext k
    simp only [Spec.passive, Finset.mem_filter, Finset.mem_range, Finset.notMem_empty, iff_false]
    rw [hlt]
    rintro ⟨hk, b, hb, h1, h2⟩
    interval_cases k
    · cases hb; simp at h1
    · cases hb; simp [Spec.demandOn] at h2
    · cases hb; simp [Spec.demandOn] at h2
  have s3 : Spec.connections busesFirst = {0} := by
    ext k
    simp only [Spec.connections, Finset.mem_filter, Finset.mem_range, Finset.mem_singleton]
    rw [hlt]
    constructor
    · rintro ⟨hk, b, hb, ht⟩
      interval_cases k
      · rfl
      · cases hb; simp at ht
      · cases hb; simp at ht
    · rintro rfl
      exact ⟨by omega, _, rfl, rfl⟩
  have hL : Spec.Lists 3 (Spec.labelled busesFirst [1, 2] ∪ Spec.passive busesFirst 0 ∪ Spec.connections busesFirst) [2] := by
    rw [s1, s2, s3]
    refine ⟨by simp, fun k => ?_⟩
    simp
    omega
  let voltage : Arr2 ℂ := Arr2.ofFn 1 3 (fun _ _ => 1)
  -- the model's run
  obtain ⟨hn, hb, -, -, hext⟩ := netData_tables h
  obtain ⟨P, hP, -, hPm⟩ := positions_eq hn hb ((busesFirst.filter (fun b => Spec.Passive b 0)).map BusData.id) (by
    intro b hb
    obtain ⟨c, hc, rfl⟩ := List.mem_map.1 hb
    exact List.mem_map_of_mem (List.mem_filter.1 hc).1)
  have hPe : P = [] := List.eq_nil_iff_forall_not_mem.2 (fun k hk => by
    have := (hPm k).1 hk
    rw [labelled_passive hn 0 k, s2] at this
    simp at this)
  subst hPe
  obtain ⟨H, hH, hHe, -⟩ := positions_eq hn hb ([1, 2] : List Int) (by simp [busesFirst])
  have hHe' : H = [0, 1] := by
    rw [hHe]
    simp only [List.map_cons, List.map_nil]
    rw [show net.posOf 1 = 0 from posOf_eq hn hb (i := 0) (by decide), show net.posOf 2 = 1 from posOf_eq hn hb (i := 1) (by decide)]
  subst hHe'
  obtain ⟨C, hC, hCn, hCm⟩ := positions_ext hn hb hext
  have hCe : C = [0] := by
    have h1 : C.toFinset = {0} := by ext k; rw [List.mem_toFinset, hCm, s3]
    have h2 : C.length = 1 := by rw [← List.toFinset_card_of_nodup hCn, h1, Finset.card_singleton]
    obtain ⟨x, rfl⟩ := List.length_eq_one_iff.1 h2
    have : x ∈ ({0} : Finset ℕ) := by rw [← h1]; simp
    rw [Finset.mem_singleton] at this
    rw [this]
  subst hCe
  have hrun : ∃ todel red, reduceNetwork exactPinv net (chain59 1 1) voltage voltage [1, 2] false = .ok (todel, red) := by
    unfold reduceNetwork
    simp only [C64_single h, hP, hH, hC, bind, Except.bind, pure, Except.pure, Bool.false_eq_true, if_false]
    have hf : List.foldl shiftDown (List.filter (fun k => decide (k ∉ [0])) [0, 1]) [0] = [0] := by decide
    have hidx : PySet.minusList (PySet.union (PySet.ofList [0]) (List.foldl shiftDown [] [0])) [0] = [] := by decide
    have hdel : (chain59 1 1).deleteBoth [0] = .ok (Arr2.ofFn 2 2 (fun i j =>
        (chain59 1 1).get ((Arr2.keepIdx 3 [0]).getD i 0) ((Arr2.keepIdx 3 [0]).getD j 0))) := by
      unfold Arr2.deleteBoth
      rw [if_pos ⟨fun k hk => by rw [List.mem_singleton.1 hk]; exact (by decide : 0 < 3), fun k hk => by
        rw [List.mem_singleton.1 hk]; exact (by decide : 0 < 3)⟩]
      rfl
    rw [hdel]
    simp only [hf, hidx]
    have hmv : colMean voltage 0 ≠ 0 := by
      unfold colMean
      rw [show voltage.r = 1 from rfl, Finset.sum_range_one, show voltage.get 0 0 = 1 from Arr2.ofFn_get _ (by omega) (by omega)]
      norm_num
    unfold addShunts
    rw [if_pos (fun k hk => by rw [List.mem_singleton.1 hk]; exact ⟨(by decide : 0 < 2), (by decide : 0 < 3), (by decide : 0 < 3)⟩),
      if_neg (by rintro ⟨k, hk, h0⟩; rw [List.mem_singleton.1 hk] at h0; exact hmv h0)]
    obtain ⟨red, hred, -⟩ := kronReduction_ok exactPinv_contract (y := Arr2.ofFn 2 2 (fun i j => (Arr2.ofFn 2 2 (fun i j =>
        (chain59 1 1).get ((Arr2.keepIdx 3 [0]).getD i 0) ((Arr2.keepIdx 3 [0]).getD j 0))).get i j +
          if i = j ∧ i ∈ [0] then shuntAt voltage voltage i else 0)) rfl (idx := []) (by simp)
    refine ⟨PySet.toList (PySet.union (PySet.ofList [0, 1]) []), red, ?_⟩
    simp only [Arr2.ofFn_r, Arr2.ofFn_c, hred]
  obtain ⟨todel, red, hrun⟩ := hrun
  refine ⟨net, ls', voltage, voltage, todel, red, h, hrun, ?_, hL⟩
  exact C58_violated h rfl rfl (by simp [busesFirst]) s3 (by rw [s1]; simp) hrun hL

/-- C60: the constant last column of `volt60` is removed -/
example : ∃ current v i y', volt60.matmul (chain59 1 1) = .ok current ∧ volt60.deleteCols [2] = .ok v ∧ current.deleteCols [2] = .ok i ∧
    (chain59 1 1).deleteBoth [2] = .ok y' ∧ (centreColumns v).matmul y' = .ok (centreColumns i) := by
  have hm : volt60.matmul (chain59 1 1) = .ok (Arr2.ofFn 2 3 (volt60.mulGet (chain59 1 1))) := if_pos rfl
  obtain ⟨v, i, y', h⟩ := C60_removed hm rfl (C := [2]) (by simp [chain59]) (by
    intro c hc t ht
    rw [List.mem_singleton.1 hc]
    have ht' : t < 2 := ht
    rw [volt60_get ht' (by omega), volt60_get (by omega) (by omega)]
    interval_cases t <;> simp)
  exact ⟨_, v, i, y', hm, h⟩

/-- C58 with `laplacian=True` on the chain, the middle node and the connection listed as hidden -/
example : ∃ net ls' todel red K, netData (some buses59) (some []) = .ok (net, ls') ∧
    reduceNetwork exactPinv net (chain59 1 1) volt60 volt60 [2, 3] true = .ok (todel, red) ∧ Spec.Lists 3 {1} K ∧
    Spec.Grounded (chain59 1 1) (fun k => if k = 1 then 1 else 0) ∅ {1} K red := by
  obtain ⟨net, ls', h⟩ := net59
  obtain ⟨s1, s2, s3⟩ := sets59
  have hset : ({1, 2} ∪ ∅ : Finset ℕ) \ {2} = {1} := by decide
  have hset' : ({1, 2} : Finset ℕ) \ {2} = {1} := by decide
  have hmv : colMean volt60 1 ≠ 0 := by
    unfold colMean
    rw [show volt60.r = 2 from rfl, Finset.sum_range_succ, Finset.sum_range_one, volt60_get (by omega) (by omega),
      volt60_get (by omega) (by omega)]
    norm_num
  obtain ⟨todel, red, K, h1, -, h3, h4, -⟩ := C58_laplacian h exactPinv_contract (y := chain59 1 1) (voltage := volt60) (current := volt60)
    rfl rfl rfl rfl (hidden := [2, 3]) (by simp [buses59])
    (by
      rw [s1, s3, hset']
      intro k hk
      rw [Finset.mem_singleton.1 hk]; exact hmv)
    (d := fun k => if k = 1 then 1 else 0)
    (by
      rw [s1, s3, hset']
      funext k
      by_cases hk : k = 1
      · subst hk
        rw [if_pos rfl, if_pos (by simp), div_self hmv]
      · rw [if_neg hk, if_neg (by simpa using hk)])
    (by
      rw [s1, s2, s3, hset]
      intro u hu i hi
      have := hu 1 (by simp)
      rw [Finset.sum_singleton] at this
      unfold Spec.withShunts at this
      rw [Arr2.ofFn_get _ (show 1 < (chain59 1 1).r from (by decide : 1 < 3)) (show 1 < (chain59 1 1).c from (by decide : 1 < 3))] at this
      unfold chain59 at this
      rw [Arr2.ofFn_get _ (by omega) (by omega)] at this
      rw [Finset.mem_singleton.1 hi]
      norm_num at this
      exact this)
  rw [s1, s2, s3, hset] at h3 h4
  exact ⟨net, ls', todel, red, K, h, h1, h3, h4⟩

/-! ### C57 for the shipped configuration -/

/-- lists of observed nodes, conf/simulation.py:5-10 -/
def confObserved : List (List ℕ) := [[3, 16, 18, 28, 40, 47, 52], [8, 9, 22, 36, 49, 46, 51], [6, 12, 55, 26, 44, 50],
  [1, 4, 10, 15, 17, 37], [19, 24, 32, 39, 43, 53], [5, 14, 15, 20, 25, 29, 31, 34, 38, 41, 45, 54]]

/-- positions eliminated from `bolognani56` (connection last, nodes 7, 21 and 33 without load, net_templates.py:18-74) when the nodes
of the first `n` lists are observed: node `k + 1` is hidden when `k + 1` is not an observed node minus one, conf/simulation.py:13 -/
def confEliminated (n : ℕ) : List ℕ := (List.range 55).filter (fun k => k + 2 ∉ (confObserved.take n).flatten ∨ k ∈ [6, 20, 32])

/-- C57, shipped configuration (lists 1 to 5): the order is the one of the measurements -/
theorem C57_shipped {idx : List ℕ} (h : ∀ k, k ∈ idx ↔ k ∈ confEliminated 5) : PySet.complement 55 idx = Arr2.keepIdx 55 idx := by
  rw [complement_congr 55 h]
  have h1 : Arr2.keepIdx 55 idx = Arr2.keepIdx 55 (confEliminated 5) := by unfold Arr2.keepIdx; simp only [h]
  rw [h1]
  decide +kernel

/-- C57 violated in the configurations with the first one, two or three lists: another order than the measurements -/
theorem C57_lists_violated {n : ℕ} (hn : n = 1 ∨ n = 2 ∨ n = 3) {idx : List ℕ} (h : ∀ k, k ∈ idx ↔ k ∈ confEliminated n) :
    PySet.complement 55 idx ≠ Arr2.keepIdx 55 idx := by
  rw [complement_congr 55 h]
  have h1 : Arr2.keepIdx 55 idx = Arr2.keepIdx 55 (confEliminated n) := by unfold Arr2.keepIdx; simp only [h]
  rw [h1]
  rcases hn with rfl | rfl | rfl <;> decide +kernel

end
end Verif
