import Verif.Lemmas.Elimination

namespace Verif
open Finset
variable {α : Type}

theorem mapM_ok {β γ : Type} (f : β → Except PyErr γ) (g : β → γ) (l : List β)
    (h : ∀ x ∈ l, f x = .ok (g x)) : l.mapM f = .ok (l.map g) := by
  induction l with
  | nil => rfl
  | cons x xs ih =>
    rw [List.mapM_cons, h x (by simp), ih (fun y hy => h y (by simp [hy]))]
    rfl

/-- the index computed by the code for the `i`-th diagonal entry, counted from the end -/
theorem diag_index (n i : Nat) (hi : i < n) :
    ((n * (n + 1) / 2 : Nat) : Int) - ((i + 1) * (i + 2) / 2 : Nat) = (triStart n (n - 1 - i) : Nat) := by
  have h1 : 2 * ((n * (n + 1) / 2 : Nat) : Int) = n * (n + 1) := by exact_mod_cast two_mul_half n
  have h2 : 2 * (((i + 1) * (i + 2) / 2 : Nat) : Int) = (i + 1) * (i + 2) := by
    have := two_mul_half (i + 1)
    exact_mod_cast this
  have h3 := two_triStart n (n - 1 - i) (by omega)
  have h4 : ((n - 1 - i : Nat) : Int) = n - 1 - i := by omega
  rw [h4] at h3
  nlinarith

theorem keep_aux (n m : Nat) (hm : m ≤ n) (idx : List Nat)
    (hidx : ∀ k, k ∈ idx ↔ ∃ j, j < n ∧ k = triStart n j) :
    (List.range (triStart n m)).filter (fun k => decide (k ∉ idx)) =
      (List.range m).flatMap (fun j => (List.range (n - 1 - j)).map (fun t => triStart n j + 1 + t)) := by
  induction m with
  | zero => rfl
  | succ m ih =>
    rw [triStart_succ, List.range_add, List.filter_append, ih (by omega), List.range_succ,
      List.flatMap_append]
    congr 1
    have hnm : n - m = (n - 1 - m) + 1 := by omega
    rw [hnm, List.range_succ_eq_map]
    simp only [List.map_cons, Nat.add_zero, List.map_map, List.flatMap_cons, List.flatMap_nil,
      List.append_nil]
    rw [List.filter_cons, if_neg (by simp only [decide_eq_true_eq, not_not]; exact (hidx _).2 ⟨m, by omega, rfl⟩)]
    rw [List.filter_eq_self.2]
    · apply List.map_congr_left
      intro t _
      simp only [Function.comp]; omega
    · intro x hx
      rw [List.mem_map] at hx
      obtain ⟨t, ht, rfl⟩ := hx
      rw [List.mem_range] at ht
      simp only [Function.comp, decide_eq_true_eq, hidx]
      rintro ⟨j, hj, hj'⟩
      rcases lt_trichotomy j m with h | h | h
      · have := triStart_mono n h.le; omega
      · subst h; omega
      · have h1 := triStart_mono n (show m + 1 ≤ j from h)
        rw [triStart_succ] at h1; omega

/-- closed form of the result of `elimination_lap_matrix` -/
theorem eliminationLap_closed [Ring α] (n : Nat) :
    ∃ E : Arr2 α, eliminationLapMatrix α n = .ok E ∧ (E.r = n * (n - 1) / 2 ∧ E.c = n * (n + 1) / 2) ∧
      ∀ a b u, b < a → a < n → u < n * (n + 1) / 2 →
        E.get (offPos n a b) u = if u = symPos n a b then -1 else 0 := by
  let N := n * (n + 1) / 2
  let idx : List Nat := (List.range n).map (fun i => triStart n (n - 1 - i))
  have hidx : ∀ k, k ∈ idx ↔ ∃ j, j < n ∧ k = triStart n j := by
    intro k
    simp only [idx, List.mem_map, List.mem_range]
    constructor
    · rintro ⟨i, hi, rfl⟩; exact ⟨n - 1 - i, by omega, rfl⟩
    · rintro ⟨j, hj, rfl⟩; exact ⟨n - 1 - j, by omega, by congr 1; omega⟩
  have hlt : ∀ k ∈ idx, k < N := by
    intro k hk
    obtain ⟨j, hj, rfl⟩ := (hidx k).1 hk
    have := tri_lt n j j le_rfl hj
    simpa [N] using this
  have hmap : ((List.range n).map (fun i => ((n * (n + 1) / 2 : Nat) : Int) - ((i + 1) * (i + 2) / 2 : Nat))).mapM
      (pyIndex (n * (n + 1) / 2)) = .ok idx := by
    rw [mapM_ok (pyIndex (n * (n + 1) / 2)) Int.toNat]
    · congr 1
      simp only [idx, List.map_map]
      apply List.map_congr_left
      intro i hi
      rw [List.mem_range] at hi
      simp only [Function.comp, diag_index n i hi, Int.toNat_natCast]
    · intro x hx
      rw [List.mem_map] at hx
      obtain ⟨i, hi, rfl⟩ := hx
      rw [List.mem_range] at hi
      rw [diag_index n i hi, Int.toNat_natCast]
      apply pyIndex_nat
      have := tri_lt n (n - 1 - i) (n - 1 - i) le_rfl (by omega)
      omega
  have hkeep : Arr2.keepIdx N idx =
      (List.range n).flatMap (fun j => (List.range (n - 1 - j)).map (fun t => triStart n j + 1 + t)) := by
    unfold Arr2.keepIdx
    have : N = triStart n n := (triStart_self n).symm
    rw [this]
    exact keep_aux n n le_rfl idx hidx
  have hklen : (Arr2.keepIdx N idx).length = n * (n - 1) / 2 := by
    rw [hkeep, length_flatMap_range n (fun j => n - 1 - j) (fun j t => triStart n j + 1 + t)]
    exact velStart_self n
  have hkget : ∀ a b, b < a → a < n → (Arr2.keepIdx N idx).getD (offPos n a b) 0 = symPos n a b := by
    intro a b hb ha
    rw [hkeep, symPos_of_le hb.le]
    unfold offPos
    rw [min_eq_right hb.le, max_eq_left hb.le]
    unfold velStart
    rw [getD_flatMap_range n (fun j => n - 1 - j) (fun j t => triStart n j + 1 + t) b (a - b - 1)
      (by omega) (by omega)]
    omega
  let E0 : Arr2 α := Arr2.ofFn (Arr2.keepIdx N idx).length N
    (fun i j => (Arr2.eye N : Arr2 α).get ((Arr2.keepIdx N idx).getD i 0) j)
  have hdel : (Arr2.eye N : Arr2 α).deleteRows idx = .ok E0 := by
    unfold Arr2.deleteRows
    rw [if_pos (by simpa [Arr2.eye] using hlt)]
    rfl
  refine ⟨E0.map (fun x => -x), ?_, ⟨?_, ?_⟩, ?_⟩
  · unfold eliminationLapMatrix
    simp only [bind, Except.bind]
    rw [hmap]
    simp only
    rw [hdel]
    rfl
  · exact hklen
  · rfl
  · intro a b u hb ha hu
    have ho : offPos n a b < (Arr2.keepIdx N idx).length := by
      rw [hklen]; exact offPos_lt ha (by omega) (by omega)
    have hE0 : E0.get (offPos n a b) u = (Arr2.eye N : Arr2 α).get (symPos n a b) u := by
      rw [← hkget a b hb ha]; exact Arr2.ofFn_get _ ho hu
    have hneg : (E0.map (fun x => -x)).get (offPos n a b) u = - E0.get (offPos n a b) u :=
      Arr2.ofFn_get _ ho hu
    rw [hneg, hE0]
    unfold Arr2.eye
    rw [Arr2.ofFn_get _ (symPos_lt ha (by omega)) hu]
    by_cases h : u = symPos n a b
    · rw [if_pos h, if_pos h.symm]
    · rw [if_neg h, if_neg (fun h' => h h'.symm), neg_zero]

theorem elimLap_mulVec [Ring α] (n : Nat) (E : Arr2 α)
    (hr : E.r = n * (n - 1) / 2) (hc : E.c = n * (n + 1) / 2)
    (hg : ∀ a b u, b < a → a < n → u < n * (n + 1) / 2 →
        E.get (offPos n a b) u = if u = symPos n a b then -1 else 0)
    (v : List α) (hv : v.length = n * (n + 1) / 2) :
    ∃ w, E.mulVec v = .ok w ∧ w.length = n * (n - 1) / 2 ∧
      ∀ a b, b < a → a < n → w.getD (offPos n a b) 0 = - v.getD (symPos n a b) 0 := by
  obtain ⟨w, hw, hl, hwg⟩ := E.mulVec_ok v (by omega)
  refine ⟨w, hw, by omega, fun a b hb ha => ?_⟩
  rw [hwg _ (by rw [hr]; exact offPos_lt ha (by omega) (by omega)), hc]
  have e : ∀ k ∈ range (n * (n + 1) / 2), E.get (offPos n a b) k * v.getD k 0 =
      (if k = symPos n a b then -1 else 0) * v.getD k 0 := by
    intro k hk
    rw [hg a b k hb ha (Finset.mem_range.1 hk)]
  rw [Finset.sum_congr rfl e, sum_ite_eq_mul _ (symPos_lt ha (by omega)), neg_one_mul]

end Verif
