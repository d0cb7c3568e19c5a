/-
Elements and iteration order of the modelled CPython sets.
-/
import Verif.Model.PySet
import Mathlib.Data.List.Pairwise
import Mathlib.Data.List.Perm.Basic
import Mathlib.Data.List.GetD
import Mathlib.Tactic.Ring
import Mathlib.Tactic.Linarith

namespace Verif.PySet
open List

theorem mem_toList {t : Table} {v : Nat} : v ∈ toList t ↔ some v ∈ t := by
  unfold toList
  rw [List.mem_filterMap]
  constructor
  · rintro ⟨a, ha, rfl⟩; exact ha
  · intro h; exact ⟨_, h, rfl⟩

theorem used_le (t : Table) : used t ≤ t.length := List.length_filterMap_le _ _

theorem toList_set {t : Table} {s k : Nat} (h : t[s]? = some none) : toList (t.set s (some k)) ~ k :: toList t := by
  induction t generalizing s with
  | nil => simp at h
  | cons a l ih =>
    cases s with
    | zero =>
      simp at h
      subst h
      simp [toList]
    | succ s =>
      have h' : l[s]? = some none := by simpa using h
      have := ih h'
      rw [List.set_cons_succ]
      unfold toList at *
      cases a with
      | none => simpa using this
      | some a =>
        simp only [List.filterMap_cons, id]
        exact (this.cons a).trans (List.Perm.swap k a _)

/-- fewer elements than slots: there is a free one -/
theorem exists_free {t : Table} (h : used t < t.length) : ∃ s, s < t.length ∧ t[s]? = some none := by
  by_contra hc
  push Not at hc
  have : ∀ a ∈ t, ∃ v, a = some v := by
    intro a ha
    obtain ⟨s, hs, rfl⟩ := List.getElem_of_mem ha
    cases hv : t[s] with
    | none => exact absurd (by rw [List.getElem?_eq_getElem hs, hv]) (hc s hs)
    | some v => exact ⟨v, rfl⟩
  have hl : used t = t.length := by
    unfold used toList
    clear hc h
    induction t with
    | nil => rfl
    | cons a l ih =>
      obtain ⟨v, rfl⟩ := this a (by simp)
      have := ih (fun a ha => this a (by simp [ha]))
      simpa using this
  omega

theorem free_iff {t : Table} {s : Nat} : t.getD s (some 0) = none ↔ t[s]? = some none := by
  rw [List.getD_eq_getElem?_getD]
  cases h : t[s]? with
  | none => simp
  | some a => simp

theorem slotFor_free {t : Table} (h : used t < t.length) (key : Nat) : t[slotFor t key]? = some none := by
  obtain ⟨s, hs, hf⟩ := exists_free h
  unfold slotFor
  cases hfind : (probes t.length t.length (key % t.length) key ++ List.range t.length).find?
    (fun s => decide (t.getD s (some 0) = none)) with
  | none =>
    rw [List.find?_eq_none] at hfind
    have := hfind s (by simp [hs])
    exact absurd (decide_eq_true (free_iff.2 hf)) this
  | some v =>
    have := List.find?_some hfind
    simp only [decide_eq_true_eq] at this
    exact free_iff.1 this

theorem length_place (t : Table) (key : Nat) : (place t key).length = t.length := by simp [place]

theorem place_perm {t : Table} (h : used t < t.length) (key : Nat) : toList (place t key) ~ key :: toList t :=
  toList_set (slotFor_free h key)

theorem foldl_place {l : List Nat} {t : Table} (h : used t + l.length ≤ t.length) :
    toList (l.foldl place t) ~ l ++ toList t ∧ (l.foldl place t).length = t.length := by
  induction l generalizing t with
  | nil => exact ⟨List.Perm.refl _, rfl⟩
  | cons a l ih =>
    have hlt : used t < t.length := by simp at h; omega
    have hp := place_perm hlt a
    have hu : used (place t a) = used t + 1 := by
      have := hp.length_eq
      simpa [used] using this
    obtain ⟨h1, h2⟩ := ih (t := place t a) (by rw [hu, length_place]; simp at h; omega)
    refine ⟨?_, by rw [List.foldl_cons, h2, length_place]⟩
    rw [List.foldl_cons]
    refine h1.trans ?_
    refine (List.Perm.append_left l hp).trans ?_
    rw [List.cons_append]
    exact List.perm_middle

theorem newSize_gt (m fuel size : Nat) (hs : 1 ≤ size) (h : m < size + fuel) : m < newSize m fuel size := by
  induction fuel generalizing size with
  | zero => simpa [newSize] using h
  | succ fuel ih =>
    unfold newSize
    split
    · exact ih _ (by omega) (by omega)
    · omega

theorem newSize_ge (m fuel size : Nat) : size ≤ newSize m fuel size := by
  induction fuel generalizing size with
  | zero => exact le_refl _
  | succ fuel ih =>
    unfold newSize
    split
    · exact (by omega : size ≤ 2 * size).trans (ih _)
    · exact le_refl _

theorem toList_replicate (n : Nat) : toList (List.replicate n none) = [] := by
  unfold toList
  rw [List.filterMap_replicate]
  rfl

theorem resize_spec (t : Table) (m : Nat) (hm : used t ≤ m) :
    toList (resize t m) ~ toList t ∧ m < (resize t m).length ∧ 8 ≤ (resize t m).length := by
  have h8 := newSize_ge m (m + 1) 8
  have hgt := newSize_gt m (m + 1) 8 (by omega) (by omega)
  have hu : (toList t).length = used t := rfl
  obtain ⟨h1, h2⟩ := foldl_place (l := toList t) (t := List.replicate (newSize m (m + 1) 8) none)
    (by simp [used, toList_replicate]; omega)
  rw [toList_replicate, List.append_nil] at h1
  rw [List.length_replicate] at h2
  unfold resize
  rw [h2]
  exact ⟨h1, hgt, h8⟩

/-- load factor kept by `add` -/
def Loaded (t : Table) : Prop := used t * 5 < (t.length - 1) * 3 ∧ 8 ≤ t.length

theorem loaded_empty : Loaded empty := by
  unfold Loaded empty used
  rw [toList_replicate]
  simp

theorem add_spec {t : Table} (h : Loaded t) {key : Nat} (hk : key ∉ toList t) :
    toList (add t key) ~ key :: toList t ∧ Loaded (add t key) := by
  obtain ⟨h1, h2⟩ := h
  have hlt : used t < t.length := by omega
  have hp := place_perm hlt key
  have hu : used (place t key) = used t + 1 := by
    have := hp.length_eq
    simpa [used] using this
  unfold add
  rw [if_neg (fun hc => hk (mem_toList.2 hc))]
  simp only
  split
  · rename_i hc
    exact ⟨hp, hc, by rw [length_place]; exact h2⟩
  · obtain ⟨r1, r2, r3⟩ := resize_spec (place t key) (used (place t key) * 4) (by omega)
    refine ⟨r1.trans hp, ?_, r3⟩
    have : used (resize (place t key) (used (place t key) * 4)) = used (place t key) := r1.length_eq
    rw [this]
    omega

theorem foldl_add {l : List Nat} {t : Table} (h : Loaded t) (hn : l.Nodup) (hd : ∀ k ∈ l, k ∉ toList t) :
    toList (l.foldl add t) ~ l ++ toList t ∧ Loaded (l.foldl add t) := by
  induction l generalizing t with
  | nil => exact ⟨List.Perm.refl _, h⟩
  | cons a l ih =>
    rw [List.nodup_cons] at hn
    obtain ⟨h1, h2⟩ := add_spec h (hd a (by simp))
    obtain ⟨h3, h4⟩ := ih h2 hn.2 (by
      intro k hk hm
      rw [h1.mem_iff] at hm
      rcases List.mem_cons.1 hm with rfl | hm
      · exact hn.1 hk
      · exact hd k (by simp [hk]) hm)
    refine ⟨?_, h4⟩
    rw [List.foldl_cons]
    refine h3.trans ((List.Perm.append_left l h1).trans ?_)
    exact List.perm_middle

/-! ### order -/

/-- each element in its own slot -/
def Direct (t : Table) : Prop := ∀ s v : Nat, t[s]? = some (some v) → v = s

theorem direct_replicate (n : Nat) : Direct (List.replicate n none) := by
  intro s v h
  rw [List.getElem?_replicate] at h
  split at h <;> simp at h

theorem slotFor_own {t : Table} (hd : Direct t) {key : Nat} (hk : key < t.length) (hn : key ∉ toList t) :
    slotFor t key = key := by
  have hf : t.getD key (some 0) = none := by
    rw [free_iff, List.getElem?_eq_getElem hk]
    cases hv : t[key] with
    | none => rfl
    | some v =>
      have := hd key v (by rw [List.getElem?_eq_getElem hk, hv])
      subst this
      exact absurd (mem_toList.2 (by rw [← hv]; exact List.getElem_mem hk)) hn
  have hhead : ∃ rest, probes t.length t.length (key % t.length) key ++ List.range t.length = key :: rest := by
    rw [Nat.mod_eq_of_lt hk]
    obtain ⟨m, hm⟩ : ∃ m, t.length = m + 1 := ⟨t.length - 1, by omega⟩
    rw [hm]
    unfold probes linear
    split
    · rw [show (10 : Nat) = 9 + 1 by rfl, List.range_succ_eq_map, List.map_cons]
      exact ⟨_, rfl⟩
    · exact ⟨_, rfl⟩
  obtain ⟨rest, hr⟩ := hhead
  unfold slotFor
  rw [hr, List.find?_cons, decide_eq_true hf]
  rfl

theorem direct_place {t : Table} (hd : Direct t) {key : Nat} (hk : key < t.length) (hn : key ∉ toList t) :
    Direct (place t key) := by
  unfold place
  rw [slotFor_own hd hk hn]
  intro s v h
  rw [List.getElem?_set] at h
  split at h
  · rename_i e
    simp only [hk, Option.some.injEq] at h
    omega
  · exact hd s v h

theorem direct_sorted (t : Table) (hd : Direct t) : (toList t).Pairwise (· < ·) := by
  have key : ∀ (t : Table) (off : Nat), (∀ s v : Nat, t[s]? = some (some v) → v = s + off) →
      (toList t).Pairwise (· < ·) ∧ ∀ v ∈ toList t, off ≤ v := by
    intro t
    induction t with
    | nil => intro off _; simp [toList]
    | cons a l ih =>
      intro off h
      obtain ⟨i1, i2⟩ := ih (off + 1) (fun s v hs => by
        have := h (s + 1) v (by simpa using hs)
        omega)
      cases a with
      | none =>
        simp only [toList, List.filterMap_cons, id] at *
        exact ⟨i1, fun v hv => by have := i2 v hv; omega⟩
      | some a =>
        have ha : a = off := by have := h 0 a (by simp); omega
        subst ha
        simp only [toList, List.filterMap_cons, id] at *
        refine ⟨List.pairwise_cons.2 ⟨fun v hv => by have := i2 v hv; omega, i1⟩, ?_⟩
        intro v hv
        rcases List.mem_cons.1 hv with rfl | hv
        · exact le_refl _
        · have := i2 v hv; omega
  exact (key t 0 (fun s v h => by simpa using hd s v h)).1

theorem direct_foldl_place {l : List Nat} {t : Table} (hd : Direct t) (h : used t + l.length ≤ t.length) (hn : l.Nodup)
    (hdis : ∀ k ∈ l, k ∉ toList t) (hlt : ∀ k ∈ l, k < t.length) : Direct (l.foldl place t) := by
  induction l generalizing t with
  | nil => exact hd
  | cons a l ih =>
    rw [List.nodup_cons] at hn
    have hut : used t < t.length := by simp at h; omega
    have hp := place_perm hut a
    have hu : used (place t a) = used t + 1 := by
      have := hp.length_eq
      simpa [used] using this
    rw [List.foldl_cons]
    refine ih (direct_place hd (hlt a (by simp)) (hdis a (by simp))) (by rw [hu, length_place]; simp at h; omega) hn.2 ?_ ?_
    · intro k hk hm
      rw [hp.mem_iff] at hm
      rcases List.mem_cons.1 hm with rfl | hm
      · exact hn.1 hk
      · exact hdis k (by simp [hk]) hm
    · intro k hk
      rw [length_place]; exact hlt k (by simp [hk])

/-- if all elements are below the table size, they are in their own slots -/
def Ordered (t : Table) : Prop := (∀ k ∈ toList t, k < t.length) → Direct t

theorem ordered_resize (t : Table) (m : Nat) (hm : used t ≤ m) (hn : (toList t).Nodup) : Ordered (resize t m) := by
  intro hall
  obtain ⟨r1, r2, r3⟩ := resize_spec t m hm
  have hlen : (resize t m).length = newSize m (m + 1) 8 := by
    unfold resize
    have hgt := newSize_gt m (m + 1) 8 (by omega) (by omega)
    have := (foldl_place (l := toList t) (t := List.replicate (newSize m (m + 1) 8) none) (by
      have : (toList t).length = used t := rfl
      simp [used, toList_replicate]; omega)).2
    rw [this, List.length_replicate]
  have hu : (toList t).length = used t := rfl
  unfold resize
  refine direct_foldl_place (direct_replicate _) ?_ hn ?_ ?_
  · rw [List.length_replicate, ← hlen]
    simp [used, toList_replicate]; omega
  · intro k _; rw [toList_replicate]; simp
  · intro k hk
    rw [List.length_replicate, ← hlen]
    exact hall k (r1.mem_iff.2 hk)

theorem ordered_add {t : Table} (h : Loaded t) (ho : Ordered t) (hn : (toList t).Nodup) {key : Nat} (hk : key ∉ toList t) :
    Ordered (add t key) := by
  obtain ⟨h1, h2⟩ := h
  have hlt : used t < t.length := by omega
  have hp := place_perm hlt key
  unfold add
  rw [if_neg (fun hc => hk (mem_toList.2 hc))]
  simp only
  split
  · intro hall
    rw [length_place] at hall
    refine direct_place (ho ?_) (hall key (hp.mem_iff.2 (by simp))) hk
    intro k hk'
    exact hall k (hp.mem_iff.2 (by simp [hk']))
  · exact ordered_resize _ _ (by omega) (hp.nodup_iff.2 (List.nodup_cons.2 ⟨hk, hn⟩))

theorem ordered_foldl {l : List Nat} {t : Table} (h : Loaded t) (ho : Ordered t) (hnt : (toList t).Nodup) (hn : l.Nodup)
    (hd : ∀ k ∈ l, k ∉ toList t) : Ordered (l.foldl add t) := by
  induction l generalizing t with
  | nil => exact ho
  | cons a l ih =>
    rw [List.nodup_cons] at hn
    obtain ⟨h1, h2⟩ := add_spec h (hd a (by simp))
    rw [List.foldl_cons]
    refine ih h2 (ordered_add h ho hnt (hd a (by simp))) (h1.nodup_iff.2 (List.nodup_cons.2 ⟨hd a (by simp), hnt⟩)) hn.2 ?_
    intro k hk hm
    rw [h1.mem_iff] at hm
    rcases List.mem_cons.1 hm with rfl | hm
    · exact hn.1 hk
    · exact hd k (by simp [hk]) hm

theorem toList_empty : toList empty = [] := toList_replicate 8

/-- building a set from distinct elements: the elements, and increasing order when all are below the table size -/
theorem build_spec {l : List Nat} (hn : l.Nodup) : toList (l.foldl add empty) ~ l ∧ Loaded (l.foldl add empty) ∧
    ((∀ k ∈ l, k < (l.foldl add empty).length) → (toList (l.foldl add empty)).Pairwise (· < ·)) := by
  obtain ⟨h1, h2⟩ := foldl_add (l := l) loaded_empty hn (by rw [toList_empty]; simp)
  rw [toList_empty, List.append_nil] at h1
  refine ⟨h1, h2, ?_⟩
  intro hall
  apply direct_sorted
  refine ordered_foldl loaded_empty (fun _ => direct_replicate 8) (by rw [toList_empty]; simp) hn (by rw [toList_empty]; simp) ?_
  intro k hk
  exact hall k (h1.mem_iff.1 hk)

theorem eq_of_perm_sorted {l m : List Nat} (hp : l ~ m) (hl : l.Pairwise (· < ·)) (hm : m.Pairwise (· < ·)) : l = m :=
  hp.eq_of_pairwise (fun _ _ _ _ h1 h2 => absurd h1 (by omega)) hl hm

theorem range_sorted (n : Nat) : (List.range n).Pairwise (· < ·) := List.pairwise_lt_range

theorem ofList_range (n : Nat) : toList (ofList (List.range n)) = List.range n := by
  obtain ⟨h1, ⟨h2, h2'⟩, h3⟩ := build_spec (l := List.range n) List.nodup_range
  refine eq_of_perm_sorted h1 (h3 ?_) (range_sorted n)
  intro k hk
  have hu : used ((List.range n).foldl add empty) = n := by
    have := h1.length_eq
    simpa [used] using this
  rw [hu] at h2
  have := List.mem_range.1 hk
  omega

theorem used_ofList_range (n : Nat) : used (ofList (List.range n)) = n := by
  unfold used; rw [ofList_range]; simp

theorem copy_range (n : Nat) : toList (copy (ofList (List.range n))) = List.range n := by
  have hput : ∀ size, n ≤ size → toList ((List.range n).foldl place (List.replicate size none)) = List.range n := by
    intro size hs
    have hc : used (List.replicate size none) + (List.range n).length ≤ (List.replicate size (none : Option Nat)).length := by
      simp [used, toList_replicate]; omega
    obtain ⟨h1, -⟩ := foldl_place hc
    rw [toList_replicate, List.append_nil] at h1
    refine eq_of_perm_sorted h1 (direct_sorted _ ?_) (range_sorted n)
    refine direct_foldl_place (direct_replicate _) hc List.nodup_range (by rw [toList_replicate]; simp) ?_
    intro k hk
    have := List.mem_range.1 hk
    rw [List.length_replicate]; omega
  unfold copy
  simp only [used_ofList_range, ofList_range]
  split
  · exact hput _ (by have := newSize_gt (n * 2) (n * 2 + 1) 8 (by omega) (by omega); omega)
  · split
    · exact ofList_range n
    · rename_i h _
      exact hput 8 (by omega)

/-- the kept indices in increasing order -/
def kept (n : Nat) (idx : List Nat) : List Nat := (List.range n).filter (fun k => k ∉ idx)

theorem kept_sorted (n : Nat) (idx : List Nat) : (kept n idx).Pairwise (· < ·) := (range_sorted n).filter _

theorem kept_dedup (n : Nat) (idx : List Nat) :
    (List.range n).filter (fun k => k ∉ idx.dedup) = kept n idx := by
  unfold kept
  apply List.filter_congr
  intro k _
  simp [List.mem_dedup]

/-- the elements of the complement -/
theorem complement_perm (n : Nat) (idx : List Nat) : complement n idx ~ kept n idx := by
  unfold complement difference
  split
  · rw [copy_range, kept_dedup]
  · rw [ofList_range, kept_dedup]
    exact (build_spec ((kept_sorted n idx).imp (fun h => by omega))).1

/-- sufficient conditions for increasing order -/
theorem complement_sorted (n : Nat) (idx : List Nat) (h : n ≤ 8 ∨ 3 * n ≤ 5 * (kept n idx).length) :
    complement n idx = kept n idx := by
  unfold complement difference
  split
  · rw [copy_range, kept_dedup]
  · rw [ofList_range, kept_dedup]
    obtain ⟨h1, ⟨h2, h2'⟩, h3⟩ := build_spec (l := kept n idx) ((kept_sorted n idx).imp (fun h => by omega))
    refine eq_of_perm_sorted h1 (h3 ?_) (kept_sorted n idx)
    intro k hk
    have hk : k < n := by
      unfold kept at hk
      exact List.mem_range.1 (List.mem_filter.1 hk).1
    have hu : used ((kept n idx).foldl add empty) = (kept n idx).length := h1.length_eq
    rw [hu] at h2
    omega

/-- keeping only nodes 1 and 8 of at least nine lists them in the wrong order -/
theorem complement_unsorted (n : Nat) (hn : 9 ≤ n) (idx : List Nat) (h : kept n idx = [1, 8]) :
    complement n idx = [8, 1] := by
  have hl : ¬ idx.dedup.length < used (ofList (List.range n)) / 4 := by
    rw [used_ofList_range]
    have hsub : ∀ k ∈ (List.range n).filter (fun k => k ∈ idx), k ∈ idx.dedup := by
      intro k hk
      simpa using (List.mem_filter.1 hk).2
    have hnd : ((List.range n).filter (fun k => k ∈ idx)).Nodup := List.nodup_range.filter _
    have h1 := (List.subperm_of_subset hnd hsub).length_le
    have h2 := List.length_eq_length_filter_add (l := List.range n) (fun k => decide (k ∈ idx))
    have h3 : (List.range n).filter (fun k => !decide (k ∈ idx)) = kept n idx := by
      unfold kept
      apply List.filter_congr
      intro k _
      simp
    rw [h3, h, List.length_range] at h2
    simp at h2
    omega
  unfold complement difference
  rw [if_neg hl, ofList_range, kept_dedup, h]
  rfl

end Verif.PySet
