import Verif.Lemmas.PriorLog

namespace Verif
open Finset
noncomputable section
namespace Spec
/-- the weight (or order) of the `t`-th index: `None` means 1, a scalar is used for all, an array entry by entry -/
def weightAt (w : Weights) (t : Nat) : ℝ :=
  match w with
  | .none => 1
  | .scalar w => w
  | .array ws => ws.getD t 0
end Spec
namespace Prior

theorem at'_ok {β : Type} {xs : List β} {i : Nat} {x : β} (h : at' xs i = .ok x) (d : β) :
    xs.getD i d = x ∧ i < xs.length := by
  unfold at' at h
  split at h
  · rename_i y hy
    cases h
    refine ⟨by rw [List.getD_eq_getElem?_getD, hy]; rfl, ?_⟩
    exact (List.getElem?_eq_some_iff.1 hy).1
  · cases h

theorem at'_of {β : Type} {xs : List β} {i : Nat} (h : i < xs.length) : at' xs i = .ok xs[i] := by
  unfold at'; rw [List.getElem?_eq_getElem h]

theorem stdWeights_getD {w : Weights} {m t : Nat} (ht : t < m) :
    (stdWeights w m).getD t 0 = Spec.weightAt w t := by
  cases w <;> simp [stdWeights, Spec.weightAt, List.getD_eq_getElem?_getD, ht]

theorem dot_zero (n : Nat) (x : List ℝ) : Spec.dot n (List.replicate n 0) x = 0 := by
  unfold Spec.dot
  apply Finset.sum_eq_zero
  intro k hk
  rw [List.getD_eq_getElem?_getD, List.getElem?_replicate, if_pos (Finset.mem_range.1 hk)]; simp

theorem set_getD (row : List ℝ) (k : Nat) (v : ℝ) (j : Nat) (hj : j < row.length) :
    (row.set k v).getD j 0 = if k = j then v else row.getD j 0 := by
  rw [List.getD_eq_getElem?_getD, List.getElem?_set, List.getD_eq_getElem?_getD]
  split
  · rename_i h; subst h; simp [hj]
  · rfl

theorem dot_set (n : Nat) (row x : List ℝ) (hr : row.length = n) (k : Nat) (hk : k < n) (v : ℝ) :
    Spec.dot n (row.set k v) x = Spec.dot n row x + (v - row.getD k 0) * x.getD k 0 := by
  unfold Spec.dot
  rw [← Finset.sum_erase_add _ _ (Finset.mem_range.2 hk)]
  rw [← Finset.sum_erase_add (f := fun k => row.getD k 0 * x.getD k 0) (range n) (Finset.mem_range.2 hk)]
  rw [set_getD _ _ _ _ (by omega), if_pos rfl]
  rw [Finset.sum_congr rfl (g := fun k => row.getD k 0 * x.getD k 0)]
  · ring
  · intro j hj
    have := Finset.mem_erase.1 hj
    rw [set_getD _ _ _ _ (by rw [hr]; exact Finset.mem_range.1 this.2), if_neg (fun h => this.1 h.symm)]

theorem setRow_inv {row r : List ℝ} {idx : Int} {v : ℝ} (h : setRow row idx v = .ok r) :
    ∃ k, pyIndex row.length idx = .ok k ∧ r = row.set k v := by
  unfold setRow at h
  obtain ⟨k, hk, h⟩ := bind_ok h
  cases h
  exact ⟨k, hk, rfl⟩

theorem dot_single {n : Nat} {r : List ℝ} {idx : Int} {v : ℝ}
    (h : setRow (List.replicate n 0) idx v = .ok r) :
    ∃ k, pyIndex n idx = .ok k ∧ ∀ x, Spec.dot n r x = v * x.getD k 0 := by
  obtain ⟨k, hk, rfl⟩ := setRow_inv h
  rw [List.length_replicate] at hk
  refine ⟨k, hk, fun x => ?_⟩
  have hlt := pyIndex_lt hk
  rw [dot_set n _ _ (by simp) k hlt, dot_zero, List.getD_eq_getElem?_getD (l := List.replicate n 0),
    List.getElem?_replicate, if_pos hlt]
  simp

/-- rows of the contrast prior: `c` exactly on the listed columns -/
theorem dot_fold {n : Nat} {c : ℝ} : ∀ (idxs : List Int) (r : List ℝ),
    idxs.foldlM (fun row idx => setRow row idx c) (List.replicate n 0) = .ok r →
    ∃ ks : List Nat, List.Forall₂ (fun i k => pyIndex n i = .ok k) idxs ks ∧
      ∀ x, Spec.dot n r x = c * ∑ k ∈ ks.toFinset, x.getD k 0 := by
  have gen : ∀ (idxs : List Int) (row r : List ℝ), row.length = n →
      idxs.foldlM (fun row idx => setRow row idx c) row = .ok r →
      ∃ ks : List Nat, List.Forall₂ (fun i k => pyIndex n i = .ok k) idxs ks ∧ r.length = n ∧
        ∀ j, j < n → r.getD j 0 = if j ∈ ks then c else row.getD j 0 := by
    intro idxs
    induction idxs with
    | nil => intro row r hr h; cases h; exact ⟨[], .nil, hr, fun j _ => by simp⟩
    | cons a l ih =>
      intro row r hr h
      rw [List.foldlM_cons] at h
      obtain ⟨r1, h1, h⟩ := bind_ok h
      obtain ⟨k, hk, rfl⟩ := setRow_inv h1
      obtain ⟨ks, hks, hl, hg⟩ := ih (row.set k c) r (by simpa using hr) h
      rw [hr] at hk
      refine ⟨k :: ks, .cons hk hks, hl, fun j hj => ?_⟩
      rw [hg j hj, set_getD _ _ _ _ (by omega)]
      by_cases h1 : j ∈ ks <;> by_cases h2 : k = j <;> simp [h1, h2, eq_comm]
  intro idxs r h
  obtain ⟨ks, hks, hl, hg⟩ := gen idxs _ r (by simp) h
  refine ⟨ks, hks, fun x => ?_⟩
  have hsub : ks.toFinset ⊆ range n := by
    intro k hk
    rw [List.mem_toFinset] at hk
    obtain ⟨i, hi, rfl⟩ := List.getElem_of_mem hk
    have := (List.forall₂_iff_get.1 hks).2 i (by rw [hks.length_eq]; exact hi) hi
    exact Finset.mem_range.2 (pyIndex_lt this)
  unfold Spec.dot
  rw [Finset.mul_sum, ← Finset.sum_subset hsub]
  · apply Finset.sum_congr rfl
    intro k hk
    rw [hg k (Finset.mem_range.1 (hsub hk)), if_pos (List.mem_toFinset.1 hk)]
  · intro k hk hnot
    rw [hg k (Finset.mem_range.1 hk), if_neg (fun h => hnot (List.mem_toFinset.2 h)), List.getD_eq_getElem?_getD,
      List.getElem?_replicate, if_pos (Finset.mem_range.1 hk)]
    simp

/-- the `t`-th term added by a successful call -/
theorem newTerm_at {p p' : Prior} {c : Call} {o : Weights} (hp : Spec.Consistent p)
    (hw : Spec.OneValuePerIndex c o) (h : p.call c o = (.ok (), p')) {t : Nat} (ht : t < numRows c) :
    ∃ nm row, newMu (delegate c) = .ok nm ∧ rowBody (delegate c) (List.replicate p.n 0) t = .ok row ∧
      (Spec.terms p')[p.rows.length + t]? =
        some ⟨row, nm.getD t 0, (stdWeights o (ordersLen c)).getD t 0⟩ := by
  obtain ⟨hc', _, _, _, hlen, hterms⟩ := call_step hp hw h
  obtain ⟨nm, rs, hm, hr, hl, hs, rfl⟩ := call_ok h
  obtain ⟨hr1, hr2, hr3⟩ := newRows_inv hr
  rw [numRows_delegate] at hr1 hr2
  refine ⟨nm, rs.getD t [], hm, hr2 t ht, ?_⟩
  have hml := newMu_length hw hm
  have hol := orders_length hw
  rw [hterms, List.getElem?_append_right (by rw [terms_length hp]; omega), terms_length hp]
  simp only [newTerms, hm, hr, Nat.add_sub_cancel_left]
  rw [List.getElem?_map]
  have e : (rs.zip (nm.zip (stdWeights o (ordersLen c))))[t]? =
      some (rs[t]'(by omega), (nm[t]'(by omega), (stdWeights o (ordersLen c))[t]'(by omega))) := by
    rw [List.getElem?_zip_eq_some, List.getElem?_zip_eq_some]
    exact ⟨List.getElem?_eq_getElem (by omega), List.getElem?_eq_getElem (by omega),
      List.getElem?_eq_getElem (by omega)⟩
  rw [e]
  simp only [Option.map_some, List.getD_eq_getElem?_getD]
  rw [List.getElem?_eq_getElem (l := rs) (by omega), List.getElem?_eq_getElem (l := nm) (by omega),
    List.getElem?_eq_getElem (l := stdWeights o (ordersLen c)) (by omega)]
  rfl

end Prior
end
end Verif
