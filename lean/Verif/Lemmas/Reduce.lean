/-
Lemmas on `reduce_network`: sets, positions, removal of the grid connections.
-/
import Verif.Model.Reduce
import Verif.Spec.Reduce
import Verif.Props.Kron
import Verif.Props.Network
import Verif.Lemmas.Undelete

namespace Verif

namespace PySet

theorem nodup_add {t : Table} (h : Loaded t) (hn : (toList t).Nodup) (key : Nat) :
    Loaded (add t key) ∧ (toList (add t key)).Nodup ∧ ∀ k, k ∈ toList (add t key) ↔ k = key ∨ k ∈ toList t := by
  by_cases hk : key ∈ toList t
  · have : add t key = t := by unfold add; rw [if_pos (mem_toList.1 hk)]
    rw [this]
    refine ⟨h, hn, fun k => ⟨Or.inr, ?_⟩⟩
    rintro (rfl | h)
    · exact hk
    · exact h
  · obtain ⟨h1, h2⟩ := add_spec h hk
    refine ⟨h2, h1.nodup_iff.2 (List.nodup_cons.2 ⟨hk, hn⟩), fun k => ?_⟩
    rw [h1.mem_iff, List.mem_cons]

theorem foldl_add_mem (l : List Nat) {t : Table} (h : Loaded t) (hn : (toList t).Nodup) :
    Loaded (l.foldl add t) ∧ (toList (l.foldl add t)).Nodup ∧ ∀ k, k ∈ toList (l.foldl add t) ↔ k ∈ l ∨ k ∈ toList t := by
  induction l generalizing t with
  | nil => exact ⟨h, hn, fun k => by simp⟩
  | cons a l ih =>
    obtain ⟨h1, h2, h3⟩ := nodup_add h hn a
    obtain ⟨h4, h5, h6⟩ := ih h1 h2
    refine ⟨h4, h5, fun k => ?_⟩
    rw [List.foldl_cons, h6, h3, List.mem_cons]
    tauto

theorem copy_spec {t : Table} (h : Loaded t) : Loaded (copy t) ∧ (toList (copy t)).Perm (toList t) := by
  have hput : ∀ size, used t * 5 < (size - 1) * 3 → 8 ≤ size →
      Loaded ((toList t).foldl place (List.replicate size none)) ∧
      (toList ((toList t).foldl place (List.replicate size none))).Perm (toList t) := by
    intro size h1 h2
    have hc : used (List.replicate size none) + (toList t).length ≤ (List.replicate size (none : Option Nat)).length := by
      have : (toList t).length = used t := rfl
      simp only [used, toList_replicate, List.length_nil, List.length_replicate]
      omega
    obtain ⟨h3, h4⟩ := foldl_place hc
    rw [toList_replicate, List.append_nil] at h3
    rw [List.length_replicate] at h4
    refine ⟨⟨?_, by rw [h4]; exact h2⟩, h3⟩
    rw [h4]
    have : used ((toList t).foldl place (List.replicate size none)) = used t := h3.length_eq
    rw [this]
    exact h1
  unfold copy
  simp only
  split
  · rename_i hb
    have h1 := newSize_gt (used t * 2) (used t * 2 + 1) 8 (by omega) (by omega)
    have h2 := newSize_ge (used t * 2) (used t * 2 + 1) 8
    exact hput _ (by omega) h2
  · split
    · exact ⟨h, List.Perm.refl _⟩
    · rename_i hb _
      exact hput 8 (by omega) (le_refl _)

theorem ofList_mem (l : List Nat) : Loaded (ofList l) ∧ (toList (ofList l)).Nodup ∧ ∀ k, k ∈ toList (ofList l) ↔ k ∈ l := by
  obtain ⟨h1, h2, h3⟩ := foldl_add_mem l loaded_empty (by rw [toList_empty]; simp)
  refine ⟨h1, h2, fun k => ?_⟩
  unfold ofList
  rw [h3, toList_empty]
  simp

theorem union_mem (a b : List Nat) : Loaded (union (ofList a) b) ∧ (toList (union (ofList a) b)).Nodup ∧
    ∀ k, k ∈ toList (union (ofList a) b) ↔ k ∈ a ∨ k ∈ b := by
  obtain ⟨h1, h2, h3⟩ := ofList_mem a
  obtain ⟨h4, h5⟩ := copy_spec h1
  obtain ⟨h6, h7, h8⟩ := foldl_add_mem b h4 (h5.nodup_iff.2 h2)
  refine ⟨h6, h7, fun k => ?_⟩
  unfold union
  rw [h8, h5.mem_iff, h3]
  tauto

theorem minusList_mem (a b c : List Nat) : (minusList (union (ofList a) b) c).Nodup ∧
    ∀ k, k ∈ minusList (union (ofList a) b) c ↔ (k ∈ a ∨ k ∈ b) ∧ k ∉ c := by
  obtain ⟨h1, h2, h3⟩ := union_mem a b
  obtain ⟨h4, h5⟩ := copy_spec h1
  unfold minusList
  refine ⟨(h5.nodup_iff.2 h2).filter _, fun k => ?_⟩
  rw [List.mem_filter, h5.mem_iff, h3]
  simp

end PySet

open Finset Net
noncomputable section

/-! ### shifting -/

/-- one shift of one index -/
def shiftStep (k i : Nat) : Nat := if k > i then k - 1 else k

theorem foldl_shiftDown (C l : List Nat) : C.foldl shiftDown l = l.map (fun k => C.foldl shiftStep k) := by
  induction C generalizing l with
  | nil => simp
  | cons c C ih =>
    rw [List.foldl_cons, ih, shiftDown, List.map_map]
    rfl

theorem shift_far (C : List Nat) (j : Nat) (h : ∀ c ∈ C, c ≠ j) (hfar : ∀ c ∈ C, c < j → c + C.length < j) :
    C.foldl shiftStep j = j - (C.filter (fun c => decide (c < j))).length := by
  have key : ∀ (L : List Nat) (d : Nat), (∀ c ∈ L, c ≠ j) → (∀ c ∈ L, c < j → c + d + L.length < j) → d ≤ j →
      L.foldl shiftStep (j - d) = j - d - (L.filter (fun c => decide (c < j))).length := by
    intro L
    induction L with
    | nil => intro d _ _ _; simp
    | cons c L ih =>
      intro d h1 h2 hd
      rw [List.foldl_cons]
      have hc := h1 c (by simp)
      by_cases hlt : c < j
      · have hcd := h2 c (by simp) hlt
        simp only [List.length_cons] at hcd
        have e : shiftStep (j - d) c = j - (d + 1) := by unfold shiftStep; rw [if_pos (by omega)]; omega
        rw [e, ih (d + 1) (fun x hx => h1 x (by simp [hx])) (fun x hx hxj => by
          have := h2 x (by simp [hx]) hxj
          simp only [List.length_cons] at this
          omega) (by omega), List.filter_cons_of_pos (by simpa using hlt), List.length_cons]
        omega
      · have e : shiftStep (j - d) c = j - d := by unfold shiftStep; rw [if_neg (by omega)]
        rw [e, ih d (fun x hx => h1 x (by simp [hx])) (fun x hx hxj => by
          have := h2 x (by simp [hx]) hxj
          simp only [List.length_cons] at this
          omega) hd, List.filter_cons_of_neg (by simpa using hlt)]
  have := key C 0 h (fun c hc hcj => by have := hfar c hc hcj; omega) (by omega)
  simpa using this

theorem rank_toFinset {C : List Nat} (hC : C.Nodup) (j : Nat) :
    Spec.rank C.toFinset j = j - (C.filter (fun c => decide (c < j))).length := by
  unfold Spec.rank
  congr 1
  rw [← List.toFinset_card_of_nodup (hC.filter _)]
  congr 1
  ext k
  simp

/-- the node at a rank -/
theorem keep_rank {C : List Nat} (hC : C.Nodup) {n k : Nat} (hk : k < n) (hkC : k ∉ C) :
    Spec.rank C.toFinset k < (Arr2.keepIdx n C).length ∧ (Arr2.keepIdx n C).getD (Spec.rank C.toFinset k) 0 = k := by
  have := keepIdx_at n C hC k hk hkC
  rw [← rank_toFinset hC] at this
  refine ⟨(List.getElem?_eq_some_iff.1 this).1, ?_⟩
  rw [List.getD_eq_getElem?_getD, this]
  rfl

theorem keep_mem {C : List Nat} {n a : Nat} (ha : a < (Arr2.keepIdx n C).length) :
    (Arr2.keepIdx n C).getD a 0 < n ∧ (Arr2.keepIdx n C).getD a 0 ∉ C := by
  have : (Arr2.keepIdx n C).getD a 0 ∈ Arr2.keepIdx n C := getD_mem ha
  unfold Arr2.keepIdx at this ⊢
  rw [List.mem_filter] at this
  simpa using this

theorem keep_nodup (n : Nat) (C : List Nat) : (Arr2.keepIdx n C).Nodup := List.nodup_range.filter _

theorem rank_keep {C : List Nat} (hC : C.Nodup) {n a : Nat} (ha : a < (Arr2.keepIdx n C).length) :
    Spec.rank C.toFinset ((Arr2.keepIdx n C).getD a 0) = a := by
  obtain ⟨h1, h2⟩ := keep_mem ha
  obtain ⟨h3, h4⟩ := keep_rank hC h1 h2
  exact getD_inj (keep_nodup n C) h3 ha h4

theorem rank_inj {C : List Nat} (hC : C.Nodup) {n j k : Nat} (hj : j < n) (hjC : j ∉ C) (hk : k < n) (hkC : k ∉ C)
    (h : Spec.rank C.toFinset j = Spec.rank C.toFinset k) : j = k := by
  rw [← (keep_rank hC hj hjC).2, h, (keep_rank hC hk hkC).2]

theorem lists_keep (n : Nat) (C : List Nat) : Spec.Lists n C.toFinset (Arr2.keepIdx n C) := by
  refine ⟨keep_nodup n C, fun k => ?_⟩
  simp [Arr2.keepIdx]

/-! ### the reduction of a network whose grid connections are removed -/

theorem grounded_of_kron {pinv : Arr2 ℂ → Except PyErr (Arr2 ℂ)} (hpinv : Spec.PinvContract pinv) {n : ℕ} {y : Arr2 ℂ}
    (hr : y.r = n) {C : List ℕ} (hC : C.Nodup) (hCn : ∀ k ∈ C, k < n) {S : Finset ℕ} (hS : ∀ s ∈ S, s < n ∧ s ∉ C) {d : ℕ → ℂ}
    {y2 : Arr2 ℂ} (h2r : y2.r = (Arr2.keepIdx n C).length) (h2c : y2.c = (Arr2.keepIdx n C).length)
    (h2 : ∀ a b, a < y2.r → b < y2.r → y2.get a b =
      y.get ((Arr2.keepIdx n C).getD a 0) ((Arr2.keepIdx n C).getD b 0) + if a = b then d ((Arr2.keepIdx n C).getD a 0) else 0)
    {idx : List ℕ} (hidx : ∀ k, k ∈ idx ↔ ∃ s ∈ S, Spec.rank C.toFinset s = k)
    (hd : ∀ k, k < n → k ∉ C → k ∉ S → d k = 0)
    (hns : Spec.BlockNonsingular (Spec.withShunts y d) S) (hc : y.c = n) :
    ∃ red, kronReduction pinv idx y2 = .ok red ∧
      Spec.Lists n (S ∪ C.toFinset) ((PySet.complement y2.r idx).map (fun a => (Arr2.keepIdx n C).getD a 0)) ∧
      Spec.Grounded y d C.toFinset S ((PySet.complement y2.r idx).map (fun a => (Arr2.keepIdx n C).getD a 0)) red := by
  set keep := Arr2.keepIdx n C with hkeep
  have hbd : ∀ k ∈ idx, k < y2.r := by
    intro k hk
    obtain ⟨s, hs, rfl⟩ := (hidx k).1 hk
    rw [h2r]
    exact (keep_rank hC (hS s hs).1 (hS s hs).2).1
  -- entries of the shunted matrix between nodes of S
  have hsh : ∀ i j, i < n → j < n → (Spec.withShunts y d).get i j = y.get i j + if i = j then d i else 0 := by
    intro i j hi hj
    unfold Spec.withShunts
    rw [Arr2.ofFn_get _ (by rw [hr]; exact hi) (by rw [hc]; exact hj)]
  -- sums over idx and S
  have himg : idx.toFinset = S.image (Spec.rank C.toFinset) := by
    ext k
    rw [List.mem_toFinset, hidx, Finset.mem_image]
  have hinjS : ∀ s ∈ S, ∀ t ∈ S, Spec.rank C.toFinset s = Spec.rank C.toFinset t → s = t :=
    fun s hs t ht h => rank_inj hC (hS s hs).1 (hS s hs).2 (hS t ht).1 (hS t ht).2 h
  have hrs : ∀ s ∈ S, Spec.rank C.toFinset s < y2.r ∧ keep.getD (Spec.rank C.toFinset s) 0 = s := by
    intro s hs
    rw [h2r]
    exact keep_rank hC (hS s hs).1 (hS s hs).2
  have hent : ∀ s ∈ S, ∀ t ∈ S, y2.get (Spec.rank C.toFinset s) (Spec.rank C.toFinset t) = (Spec.withShunts y d).get s t := by
    intro s hs t ht
    rw [h2 _ _ (hrs s hs).1 (hrs t ht).1, (hrs s hs).2, (hrs t ht).2, hsh s t (hS s hs).1 (hS t ht).1]
    congr 1
    by_cases hst : s = t
    · rw [if_pos hst, if_pos (by rw [hst])]
    · rw [if_neg hst, if_neg (fun h => hst (hinjS s hs t ht h))]
  have hns2 : Spec.BlockNonsingular y2 idx.toFinset := by
    intro u hu i hi
    rw [himg] at hi hu
    obtain ⟨s, hs, rfl⟩ := Finset.mem_image.1 hi
    refine hns (fun s => u (Spec.rank C.toFinset s)) ?_ s hs
    intro t ht
    have := hu (Spec.rank C.toFinset t) (Finset.mem_image_of_mem _ ht)
    rw [Finset.sum_image (fun s hs t ht h => hinjS s hs t ht h)] at this
    rw [← this]
    exact Finset.sum_congr rfl (fun s hs => by rw [hent s hs t ht])
  obtain ⟨red, hred, he1, he2, he3⟩ := kron_equiv hpinv (y := y2) (h2c.trans h2r.symm) hbd hns2
  have hL := lists_complement y2.r idx
  set K := PySet.complement y2.r idx with hK
  have hKlt : ∀ a ∈ K, a < keep.length := fun a ha => by rw [← h2r]; exact ((hL.2 a).1 ha).1
  have hgetK : ∀ b, b < K.length → (K.map (fun a => keep.getD a 0)).getD b 0 = keep.getD (K.getD b 0) 0 := by
    intro b hb
    rw [List.getD_eq_getElem _ _ (by simpa using hb), List.getElem_map, List.getD_eq_getElem _ _ hb]
  refine ⟨red, hred, ⟨?_, ?_⟩, by simpa using he1, by simpa using he2, ?_⟩
  · refine List.Nodup.map_on ?_ hL.1
    intro a ha b hb hab
    exact getD_inj (keep_nodup n C) (hKlt a ha) (hKlt b hb) hab
  · intro k
    rw [List.mem_map]
    constructor
    · rintro ⟨a, ha, rfl⟩
      obtain ⟨h1, h3⟩ := keep_mem (hKlt a ha)
      refine ⟨h1, ?_⟩
      rw [Finset.mem_union, List.mem_toFinset]
      rintro (h | h)
      · refine ((hL.2 a).1 ha).2 ?_
        rw [List.mem_toFinset, hidx]
        exact ⟨_, h, rank_keep hC (hKlt a ha)⟩
      · exact h3 h
    · rintro ⟨hk, hkn⟩
      rw [Finset.mem_union, List.mem_toFinset, not_or] at hkn
      obtain ⟨h1, h3⟩ := keep_rank hC hk hkn.2
      refine ⟨Spec.rank C.toFinset k, (hL.2 _).2 ⟨by rw [h2r]; exact h1, ?_⟩, h3⟩
      rw [List.mem_toFinset, hidx]
      rintro ⟨s, hs, hsk⟩
      have := rank_inj hC (hS s hs).1 (hS s hs).2 hk hkn.2 hsk
      exact hkn.1 (this ▸ hs)
  · intro v hv0 hvS b hb
    rw [List.length_map] at hb
    rw [hgetK b hb]
    -- currents of the smaller network
    have hcur : ∀ a, a < y2.r → Spec.currents y2 (fun a => v (keep.getD a 0)) a =
        Spec.currents y v (keep.getD a 0) + d (keep.getD a 0) * v (keep.getD a 0) := by
      intro a ha
      unfold Spec.currents
      rw [hr, sum_lists (fun s hs => hCn s (List.mem_toFinset.1 hs)) (lists_keep n C)]
      rw [Finset.sum_eq_zero (s := C.toFinset) (fun c hc => by rw [hv0 c hc, zero_mul]), add_zero, ← hkeep, ← h2r]
      rw [Finset.sum_congr rfl (fun i hi => by rw [h2 i a (Finset.mem_range.1 hi) ha, mul_add])]
      rw [Finset.sum_add_distrib]
      congr 1
      rw [Finset.sum_eq_single a]
      · rw [if_pos rfl, mul_comm]
      · intro i _ hia
        rw [if_neg hia, mul_zero]
      · intro h; exact absurd (Finset.mem_range.2 ha) h
    have hz : ∀ s ∈ idx.toFinset, Spec.currents y2 (fun a => v (keep.getD a 0)) s = 0 := by
      intro s hs
      rw [himg] at hs
      obtain ⟨t, ht, rfl⟩ := Finset.mem_image.1 hs
      rw [hcur _ (hrs t ht).1, (hrs t ht).2, hvS t ht]
      ring
    have hKb : K.getD b 0 ∈ K := getD_mem hb
    have hKb2 := (hL.2 _).1 hKb
    have h3 := he3 (fun a => v (keep.getD a 0)) hz b hb
    rw [hcur _ hKb2.1] at h3
    obtain ⟨k1, k2⟩ := keep_mem (hKlt _ hKb)
    rw [hd _ k1 k2, zero_mul, add_zero] at h3
    · rw [← h3]
      unfold Spec.currents
      apply Finset.sum_congr rfl
      intro a ha
      beta_reduce
      rw [hgetK a (by rw [← he1]; exact Finset.mem_range.1 ha)]
    · intro hin
      refine hKb2.2 ?_
      rw [List.mem_toFinset, hidx]
      exact ⟨_, hin, rank_keep hC (hKlt _ hKb)⟩

/-! ### positions -/

theorem positions_eq {bs : List BusData} {net : Net} (hn : (bs.map BusData.id).Nodup) (hb : net.bus = bs.map busRow) (l : List Int)
    (hl : ∀ b ∈ l, b ∈ bs.map BusData.id) : ∃ p, net.positions l = .ok p ∧ p = l.map net.posOf ∧
      ∀ k, k ∈ p ↔ k ∈ Spec.labelled bs l := by
  have hidx : net.bus.map BusRow.index = bs.map BusData.id := by rw [hb, List.map_map]; rfl
  have key : ∀ (l : List Int) (acc : List Nat), (∀ b ∈ l, b ∈ bs.map BusData.id) →
      forIn' l acc (fun acc b => do
        let k ← net.busPos b
        pure (acc ++ [k])) = .ok (acc ++ l.map net.posOf) := by
    intro l
    induction l with
    | nil => intro acc _; simp [forIn', pure, Except.pure]
    | cons b l ih =>
      intro acc h
      rw [forIn'_cons]
      have : net.busPos b = .ok (net.posOf b) := by unfold busPos; rw [if_pos (by rw [hidx]; exact h b (by simp))]
      simp only [this, bind, Except.bind, pure, Except.pure]
      have := ih (acc ++ [net.posOf b]) (fun b' hb' => h b' (by simp [hb']))
      simp only [bind, Except.bind, pure, Except.pure] at this
      rw [this]
      simp
  refine ⟨l.map net.posOf, by unfold Net.positions; rw [key l [] hl]; simp, rfl, fun k => ?_⟩
  rw [List.mem_map]
  unfold Spec.labelled
  rw [Finset.mem_filter, Finset.mem_range]
  constructor
  · rintro ⟨b, hbl, rfl⟩
    obtain ⟨c, hc, rfl⟩ := List.mem_map.1 (hl b hbl)
    obtain ⟨i, hi, rfl⟩ := List.getElem_of_mem hc
    rw [posOf_eq hn hb hi]
    exact ⟨hi, _, List.getElem?_eq_getElem hi, hbl⟩
  · rintro ⟨hk, b, hkb, hbl⟩
    refine ⟨b.id, hbl, ?_⟩
    obtain ⟨_, rfl⟩ := List.getElem?_eq_some_iff.1 hkb
    exact posOf_eq hn hb hk

/-- positions of the grid connections: increasing -/
theorem positions_ext {bs : List BusData} {net : Net} (hn : (bs.map BusData.id).Nodup) (hb : net.bus = bs.map busRow)
    (he : net.extGrid = bs.flatMap extRows) : ∃ p, net.positions net.extGrid = .ok p ∧ p.Nodup ∧
      ∀ k, k ∈ p ↔ k ∈ Spec.connections bs := by
  have hsub : ∀ b ∈ net.extGrid, b ∈ bs.map BusData.id := by
    intro b h
    rw [he] at h
    obtain ⟨c, hc, hbc⟩ := List.mem_flatMap.1 h
    unfold extRows at hbc
    split at hbc
    · rw [List.mem_singleton.1 hbc]; exact List.mem_map_of_mem hc
    · simp at hbc
  obtain ⟨p, h1, h2, h3⟩ := positions_eq hn hb net.extGrid hsub
  refine ⟨p, h1, ?_, fun k => ?_⟩
  · rw [h2]
    refine List.Nodup.map_on ?_ ?_
    · intro a ha b hb' hab
      obtain ⟨c, hc, rfl⟩ := List.mem_map.1 (hsub a ha)
      obtain ⟨d, hd, rfl⟩ := List.mem_map.1 (hsub b hb')
      obtain ⟨i, hi, rfl⟩ := List.getElem_of_mem hc
      obtain ⟨j, hj, rfl⟩ := List.getElem_of_mem hd
      rw [posOf_eq hn hb hi, posOf_eq hn hb hj] at hab
      subst hab
      rfl
    · rw [he]
      clear he hb h1 h2 h3 hsub
      induction bs with
      | nil => simp
      | cons b bs ih =>
        rw [List.map_cons, List.nodup_cons] at hn
        rw [List.flatMap_cons]
        have hrow : (extRows b).Nodup := by unfold extRows; split <;> simp
        refine List.Nodup.append hrow (ih hn.2) ?_
        intro x hx hx'
        have e1 := extRows_id b x hx
        obtain ⟨c, hc, hxc⟩ := List.mem_flatMap.1 hx'
        have e2 := extRows_id c x hxc
        have e1 : x = b.id := e1
        have e2 : x = c.id := e2
        exact hn.1 (by rw [← e1, e2]; exact List.mem_map_of_mem hc)
  · rw [h3]
    unfold Spec.labelled Spec.connections
    rw [Finset.mem_filter, Finset.mem_filter]
    constructor
    · rintro ⟨hk, b, hkb, hbl⟩
      refine ⟨hk, b, hkb, ?_⟩
      rw [he] at hbl
      obtain ⟨c, hc, hxc⟩ := List.mem_flatMap.1 hbl
      have e : b.id = c.id := extRows_id c _ hxc
      have : b = c := List.inj_on_of_nodup_map hn (List.mem_of_getElem? hkb) hc e
      rw [this]
      unfold extRows at hxc
      split at hxc
      · assumption
      · simp at hxc
    · rintro ⟨hk, b, hkb, hbt⟩
      refine ⟨hk, b, hkb, ?_⟩
      rw [he]
      refine List.mem_flatMap.2 ⟨b, List.mem_of_getElem? hkb, ?_⟩
      unfold extRows typePcc
      rw [if_pos hbt]
      simp

end
end Verif
