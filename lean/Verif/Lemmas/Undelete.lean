import Verif.Model.MatrixOps
import Verif.Lemmas.ListIdx
import Mathlib.Data.List.Perm.Basic
import Mathlib.Data.List.Nodup

namespace Verif
variable {α : Type}

theorem insertZeroRow_nat [Zero α] (m : Arr2 α) (k : Nat) (hk : k ≤ m.r) :
    insertZeroRow m (k : Int) = Arr2.ofFn (m.r + 1) m.c
      (fun p q => if p < k then m.get p q else if p = k then 0 else m.get (p - 1) q) := by
  unfold insertZeroRow
  rw [pySlice_nat, min_eq_right hk]

/-- closed form of inserting zero rows at strictly increasing positions -/
theorem foldl_insert_closed [Zero α] (m : Arr2 α) (ks : List Nat)
    (hs : ks.Pairwise (· < ·)) (hb : ∀ k ∈ ks, k < m.r + ks.length) :
    let R := (ks.map (fun k : Nat => (k : Int))).foldl insertZeroRow m
    R.r = m.r + ks.length ∧ R.c = m.c ∧
      ∀ p q, p < m.r + ks.length → R.get p q =
        if p ∈ ks then 0 else m.get (p - (ks.filter (fun k => decide (k < p))).length) q := by
  induction ks using List.reverseRecOn with
  | nil => simp
  | append_singleton ks k ih =>
    rw [List.pairwise_append] at hs
    obtain ⟨hs1, _, hs2⟩ := hs
    have hlt : ∀ x ∈ ks, x < k := fun x hx => hs2 x hx k (by simp)
    have hk : k < m.r + (ks.length + 1) := by simpa using hb k (by simp)
    have ih := ih hs1 (fun x hx => by have := hlt x hx; omega)
    simp only at ih ⊢
    obtain ⟨hr, hc, hg⟩ := ih
    rw [List.map_append, List.foldl_append]
    simp only [List.map_cons, List.map_nil, List.foldl_cons, List.foldl_nil]
    rw [insertZeroRow_nat _ k (by omega)]
    refine ⟨by simp [hr]; omega, hc, ?_⟩
    intro p q hp
    rw [List.length_append, List.length_singleton] at hp
    by_cases hq : q < m.c
    swap
    · rw [Arr2.oob _ _ _ (by simp [hc]; omega), m.oob _ _ (by omega)]; simp
    rw [Arr2.ofFn_get _ (by omega) (by omega)]
    rcases lt_trichotomy p k with h | h | h
    · rw [if_pos h, hg p q (by omega)]
      have e1 : (p ∈ ks ++ [k]) = (p ∈ ks) := by
        apply propext; simp; omega
      rw [List.filter_append]
      simp only [e1]
      have : List.filter (fun k => decide (k < p)) [k] = [] := by simp; omega
      rw [this, List.append_nil]
    · subst h
      simp
    · rw [if_neg (by omega), if_neg (by omega), hg (p - 1) q (by omega)]
      have e1 : p - 1 ∉ ks := fun hx => by have := hlt _ hx; omega
      have e2 : p ∉ ks ++ [k] := by
        intro hx
        rcases List.mem_append.1 hx with hx | hx
        · have := hlt _ hx; omega
        · simp at hx; omega
      rw [if_neg e1, if_neg e2]
      have f1 : List.filter (fun k => decide (k < p - 1)) ks = ks :=
        List.filter_eq_self.2 (fun x hx => by have := hlt x hx; simp; omega)
      have f2 : List.filter (fun k => decide (k < p)) (ks ++ [k]) = ks ++ [k] :=
        List.filter_eq_self.2 (fun x hx => by
          rcases List.mem_append.1 hx with hx | hx
          · have := hlt x hx; simp; omega
          · simp at hx; simp; omega)
      rw [f1, f2]
      congr 1
      simp; omega

theorem count_split (idx : List Nat) (hn : idx.Nodup) (p : Nat) :
    ((List.range p).filter (fun k => decide (k ∉ idx))).length
      + (idx.filter (fun k => decide (k < p))).length = p := by
  have h1 : (List.range p).length =
      ((List.range p).filter (fun k => decide (k ∈ idx))).length +
      ((List.range p).filter (fun k => decide (k ∉ idx))).length := by
    rw [List.length_eq_length_filter_add (fun k => decide (k ∈ idx))]
    congr 2
    apply List.filter_congr
    intro x _; simp
  have h2 : ((List.range p).filter (fun k => decide (k ∈ idx))).Perm (idx.filter (fun k => decide (k < p))) := by
    rw [List.perm_ext_iff_of_nodup (List.nodup_range.filter _) (hn.filter _)]
    intro a; simp [and_comm]
  rw [← h2.length_eq]
  rw [List.length_range] at h1
  omega

theorem keep_at (N : Nat) (P : Nat → Bool) (p : Nat) (hp : p < N) (hP : P p = true) :
    ((List.range N).filter P)[((List.range p).filter P).length]? = some p := by
  have : N = p + ((N - p - 1) + 1) := by omega
  conv_lhs => rw [this]
  rw [List.range_add, List.filter_append, List.range_succ_eq_map]
  simp only [List.map_cons, Nat.add_zero]
  rw [List.filter_cons, if_pos hP, List.getElem?_append_right (le_refl _)]
  simp

theorem keepIdx_at (N : Nat) (idx : List Nat) (hn : idx.Nodup) (p : Nat) (hp : p < N) (hP : p ∉ idx) :
    (Arr2.keepIdx N idx)[p - (idx.filter (fun k => decide (k < p))).length]? = some p := by
  have h := keep_at N (fun k => decide (k ∉ idx)) p hp (by simpa using hP)
  have hc := count_split idx hn p
  have : p - (idx.filter (fun k => decide (k < p))).length =
      ((List.range p).filter (fun k => decide (k ∉ idx))).length := by omega
  rw [this]; exact h

theorem keepIdx_length (N : Nat) (idx : List Nat) (hn : idx.Nodup) (hb : ∀ k ∈ idx, k < N) :
    (Arr2.keepIdx N idx).length + idx.length = N := by
  have := count_split idx hn N
  have e : idx.filter (fun k => decide (k < N)) = idx :=
    List.filter_eq_self.2 (fun x hx => by simpa using hb x hx)
  rwa [e] at this

theorem keepIdx_rank (N : Nat) (idx : List Nat) (hn : idx.Nodup) (i : Nat)
    (hi : i < (Arr2.keepIdx N idx).length) :
    let p := (Arr2.keepIdx N idx).getD i 0
    p < N ∧ p ∉ idx ∧ p - (idx.filter (fun k => decide (k < p))).length = i := by
  intro p
  have hp : (Arr2.keepIdx N idx)[i]? = some p := by
    simp [p, List.getD_eq_getElem?_getD, hi]
  have hmem : p ∈ Arr2.keepIdx N idx := List.mem_of_getElem? hp
  unfold Arr2.keepIdx at hmem
  rw [List.mem_filter, List.mem_range] at hmem
  have hnot : p ∉ idx := by simpa using hmem.2
  refine ⟨hmem.1, hnot, ?_⟩
  have h2 := keepIdx_at N idx hn p hmem.1 hnot
  have hnd : (Arr2.keepIdx N idx).Nodup := List.nodup_range.filter _
  have hj := (List.getElem?_eq_some_iff.1 h2)
  have hi' := (List.getElem?_eq_some_iff.1 hp)
  obtain ⟨hj1, hj2⟩ := hj
  obtain ⟨hi1, hi2⟩ := hi'
  exact (hnd.getElem_inj_iff).1 (hj2.trans hi2.symm)

/-- the sorted index list used by the code, as naturals -/
def sortedNat (idx : List Nat) : List Nat :=
  ((idx.map (fun k : Nat => (k : Int))).mergeSort (fun a b => decide (a ≤ b))).map Int.toNat

theorem sorted_cast (idx : List Nat) :
    (idx.map (fun k : Nat => (k : Int))).mergeSort (fun a b => decide (a ≤ b)) =
      (sortedNat idx).map (fun k : Nat => (k : Int)) := by
  unfold sortedNat
  rw [List.map_map]
  conv_lhs => rw [← List.map_id (((idx.map (fun k : Nat => (k : Int))).mergeSort (fun a b => decide (a ≤ b))))]
  apply List.map_congr_left
  intro x hx
  rw [List.mem_mergeSort, List.mem_map] at hx
  obtain ⟨k, _, rfl⟩ := hx
  simp

theorem sortedNat_perm (idx : List Nat) : (sortedNat idx).Perm idx := by
  unfold sortedNat
  have h := (List.mergeSort_perm (idx.map (fun k : Nat => (k : Int))) (fun a b => decide (a ≤ b))).map Int.toNat
  rw [List.map_map] at h
  have e : List.map (Int.toNat ∘ fun k : Nat => (k : Int)) idx = idx := by
    conv_rhs => rw [← List.map_id idx]
    apply List.map_congr_left; intro x _; simp
  rwa [e] at h

theorem sortedNat_sorted (idx : List Nat) (hn : idx.Nodup) : (sortedNat idx).Pairwise (· < ·) := by
  have h1 : (sortedNat idx).Pairwise (· ≤ ·) := by
    unfold sortedNat
    rw [List.pairwise_map]
    have := List.pairwise_mergeSort (le := fun a b : Int => decide (a ≤ b))
      (by intro a b c; simp; omega) (by intro a b; simp; omega) (idx.map (fun k : Nat => (k : Int)))
    refine this.imp ?_
    intro a b h
    simp at h; omega
  have h2 : (sortedNat idx).Nodup := (sortedNat_perm idx).nodup_iff.2 hn
  exact (h1.and h2).imp (fun ⟨a, b⟩ => lt_of_le_of_ne a b)

/-- closed form of `undelete` along the rows -/
theorem undelete_closed [Zero α] (m : Arr2 α) (idx : List Nat) (hn : idx.Nodup)
    (hb : ∀ k ∈ idx, k < m.r + idx.length) :
    let R := undelete m (idx.map (fun k : Nat => (k : Int))) 0
    R.r = m.r + idx.length ∧ R.c = m.c ∧
      ∀ p q, p < m.r + idx.length → R.get p q =
        if p ∈ idx then 0 else m.get (p - (idx.filter (fun k => decide (k < p))).length) q := by
  have hp := sortedNat_perm idx
  have h := foldl_insert_closed m (sortedNat idx) (sortedNat_sorted idx hn)
    (by intro k hk; rw [hp.length_eq]; exact hb k (hp.mem_iff.1 hk))
  simp only at h ⊢
  unfold undelete
  simp only [if_true]
  rw [sorted_cast]
  rw [hp.length_eq] at h
  refine ⟨h.1, h.2.1, fun p q hpq => ?_⟩
  rw [h.2.2 p q hpq]
  simp only [hp.mem_iff, (hp.filter (fun k => decide (k < p))).length_eq]

end Verif
