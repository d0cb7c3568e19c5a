import Verif.Lemmas.IdPriors
import Verif.Lemmas.Elimination

namespace Verif
open Finset Prior
noncomputable section

/-- position in the matrix of each complex parameter -/
def idEntries (lap : Bool) (n : Nat) : List (Nat × Nat) :=
  if lap then Spec.offPairs n else (List.range n).flatMap (fun j => (List.range (n - j)).map (fun t => (j + t, j)))

/-- position and part of each real parameter -/
def realEntries (lap : Bool) (n : Nat) : List ((Nat × Nat) × Bool) :=
  (idEntries lap n).map (fun e => (e, false)) ++ (idEntries lap n).map (fun e => (e, true))

/-- complex parameters -/
def cparams (lap : Bool) (n : Nat) (Y : Arr2 ℂ) : List ℂ :=
  if lap then (Spec.vel n Y).map (fun t => -t) else Spec.vech n Y

theorem cparams_entries (lap : Bool) (n : Nat) (Y : Arr2 ℂ) :
    cparams lap n Y = (idEntries lap n).map (fun e => (Spec.sgn lap : ℂ) * Y.get e.1 e.2) := by
  cases lap with
  | false =>
    simp only [cparams, idEntries, Spec.sgn, Bool.false_eq_true, if_false, Spec.vech, List.map_flatMap, List.map_map]
    simp [Function.comp_def]
  | true =>
    simp only [cparams, idEntries, Spec.sgn, if_true, Spec.vel, Spec.offPairs, List.map_flatMap, List.map_map]
    simp [Function.comp_def]

theorem makeReal_map (l : List (Nat × Nat)) (f : Nat × Nat → ℂ) :
    makeRealVector (l.map f) =
      (l.map (fun e => (e, false)) ++ l.map (fun e => (e, true))).map (fun e => Spec.part e.2 (f e.1)) := by
  simp [makeRealVector, Spec.part, Function.comp_def]

theorem params_entries (lap : Bool) (n : Nat) (Y : Arr2 ℂ) :
    Spec.params lap n Y = (realEntries lap n).map (fun e => Spec.sgn lap * Spec.part e.2 (Y.get e.1.1 e.1.2)) := by
  have : Spec.params lap n Y = makeRealVector (cparams lap n Y) := rfl
  rw [this, cparams_entries, makeReal_map]
  apply List.map_congr_left
  intro e _
  cases e.2 <;> simp [Spec.part]

theorem e_vec (lap : Bool) (n : Nat) : ∃ A : Arr2 ℂ, eMatrix ℂ lap n = .ok A ∧
    ∀ M, Spec.IsSquare n M → A.mulVec (vectorizeMatrix M) =
      .ok ((idEntries lap n).map (fun e => (Spec.sgn lap : ℂ) * ((M.get e.1 e.2 + M.get e.2 e.1) / 2))) := by
  obtain ⟨E, hE, hEr, hEc, hEv⟩ := e_closed (α := ℂ) lap n
  refine ⟨E, hE, fun M hM => ?_⟩
  obtain ⟨p, hp, hpl, hp1, hp2⟩ := hEv (vectorizeMatrix M) (by rw [vec_length, hM.1, hM.2, pow_two])
  have hvec : ∀ i j, i < n → j < n → (vectorizeMatrix M).getD (j * n + i) 0 = M.get i j := by
    intro i j hi hj
    have := vec_getD M (i := i) (j := j) (by rw [hM.1]; exact hi) (by rw [hM.2]; exact hj)
    rwa [hM.1] at this
  rw [hp]
  congr 1
  have key : p = cparams lap n (Spec.symPart n M) := by
    cases lap with
    | false =>
      refine vech_ext (n := n) (by simpa [nParams] using hpl) (vech_length n _) ?_
      intro a b hba ha
      show _ = (Spec.vech n _).getD _ 0
      rw [vech_getD n _ hba ha, hp1 rfl a b ha (by omega), hvec b a (by omega) ha, hvec a b ha (by omega)]
      unfold Spec.symPart
      rw [Arr2.ofFn_get _ ha (by omega), add_comm]
    | true =>
      refine vel_ext (n := n) (by simpa [nParams] using hpl) (by simp [cparams, vel_length]) ?_
      intro a b hba ha
      have e3 : ((Spec.vel n (Spec.symPart n M)).map (fun t => -t)).getD (offPos n a b) 0 =
          - (Spec.vel n (Spec.symPart n M)).getD (offPos n a b) 0 := by
        simp only [List.getD_eq_getElem?_getD, List.getElem?_map]
        cases (Spec.vel n (Spec.symPart n M))[offPos n a b]? <;> simp
      show _ = ((Spec.vel n _).map (fun t => -t)).getD _ 0
      rw [e3, vel_getD n _ hba ha, hp2 rfl a b ha (by omega) (by omega), hvec b a (by omega) ha, hvec a b ha (by omega)]
      unfold Spec.symPart
      rw [Arr2.ofFn_get _ ha (by omega), add_comm]
  rw [key, cparams_entries]
  apply List.map_congr_left
  intro e he
  have : e.1 < n ∧ e.2 < n := by
    unfold idEntries Spec.offPairs at he
    split at he <;>
    · simp only [List.mem_flatMap, List.mem_map, List.mem_range] at he
      obtain ⟨j, hj, t, ht, rfl⟩ := he
      constructor <;> simp <;> omega
  unfold Spec.symPart
  rw [Arr2.ofFn_get _ this.1 this.2]

theorem mem_offPairs (n : Nat) (e : Nat × Nat) : e ∈ Spec.offPairs n ↔ e.2 < e.1 ∧ e.1 < n := by
  unfold Spec.offPairs
  simp only [List.mem_flatMap, List.mem_map, List.mem_range]
  constructor
  · rintro ⟨j, hj, t, ht, rfl⟩
    constructor <;> simp <;> omega
  · rintro ⟨h1, h2⟩
    refine ⟨e.2, by omega, e.1 - e.2 - 1, by omega, ?_⟩
    apply Prod.ext <;> simp
    omega

theorem mem_idEntries (lap : Bool) (n : Nat) (e : Nat × Nat) :
    e ∈ idEntries lap n ↔ (e.2 < e.1 ∨ (lap = false ∧ e.1 = e.2)) ∧ e.1 < n := by
  cases lap with
  | true => unfold idEntries; simp [mem_offPairs]
  | false =>
    unfold idEntries
    simp only [Bool.false_eq_true, if_false, List.mem_flatMap, List.mem_map, List.mem_range]
    constructor
    · rintro ⟨j, hj, t, ht, rfl⟩
      constructor
      · rcases Nat.eq_zero_or_pos t with h | h
        · right; simp [h]
        · left; simp; omega
      · simp; omega
    · rintro ⟨h1, h2⟩
      refine ⟨e.2, by omega, e.1 - e.2, by omega, ?_⟩
      apply Prod.ext <;> simp
      omega

theorem nodup_offPairs (n : Nat) : (Spec.offPairs n).Nodup := by
  unfold Spec.offPairs
  rw [List.nodup_flatMap]
  constructor
  · intro j _
    refine List.Nodup.map ?_ List.nodup_range
    intro a b h
    simp at h
    exact h
  · refine List.Pairwise.imp ?_ (List.nodup_range (n := n))
    intro a b hab x hx hy
    simp only [List.mem_map, List.mem_range] at hx hy
    obtain ⟨t, _, rfl⟩ := hx
    obtain ⟨s, _, h⟩ := hy
    simp at h
    exact hab h.2.symm

/-- dropping the diagonal entries leaves the strictly lower triangle, in order -/
theorem filter_entries (lap : Bool) (n : Nat) :
    (idEntries lap n).filter (fun e => decide (e.1 ≠ e.2)) = Spec.offPairs n := by
  cases lap with
  | true =>
    unfold idEntries
    rw [if_pos rfl, List.filter_eq_self]
    intro e he
    have := (mem_offPairs n e).1 he
    simp; omega
  | false =>
    unfold idEntries Spec.offPairs
    rw [if_neg (by simp), List.filter_flatMap]
    apply List.flatMap_congr
    intro j hj
    have hj := List.mem_range.1 hj
    obtain ⟨m, hm⟩ : ∃ m, n - j = m + 1 := ⟨n - j - 1, by omega⟩
    rw [hm, List.range_succ_eq_map, show n - 1 - j = m by omega]
    simp only [List.map_cons, List.map_map, List.filter_cons]
    simp only [Nat.add_zero, ne_eq, not_true_eq_false, decide_false, Bool.false_eq_true, if_false]
    rw [List.filter_eq_self.2]
    · apply List.map_congr_left
      intro t _
      simp [Nat.succ_eq_add_one]
      omega
    · intro e he
      simp only [List.mem_map, List.mem_range, Function.comp] at he
      obtain ⟨t, _, rfl⟩ := he
      simp

/-! ### `np.where` -/

theorem wherePos_entries {β : Type} (l : List β) (f : β → ℝ) (d : β) :
    (wherePos (l.map f)).map (fun k => l.getD k d) = l.filter (fun b => decide (0 < f b)) := by
  unfold wherePos
  have e : (List.range (l.map f).length).filter (fun k => decide (0 < (l.map f).getD k 0)) =
      (List.range l.length).filter ((fun b => decide (0 < f b)) ∘ (fun k => l.getD k d)) := by
    rw [List.length_map]
    apply List.filter_congr
    intro k hk
    have hk := List.mem_range.1 hk
    simp [List.getD_eq_getElem?_getD, hk]
  rw [e, ← List.filter_map]
  have := map_range_getElem l d id
  simp only [id] at this
  rw [this]
  exact congrArg _ (List.map_id l)

theorem mem_wherePos {v : List ℝ} {k : Nat} (h : k ∈ wherePos v) : k < v.length := by
  unfold wherePos at h
  exact List.mem_range.1 (List.mem_filter.1 h).1

theorem nodup_wherePos (v : List ℝ) : (wherePos v).Nodup := List.Nodup.filter _ List.nodup_range

theorem getD_map {β : Type} (l : List β) (f : β → ℝ) (d : β) {k : Nat} (hk : k < l.length) :
    (l.map f).getD k 0 = f (l.getD k d) := by
  simp [List.getD_eq_getElem?_getD, hk]

/-- reading one array at the positions found in another -/
theorem wherePos_map {β γ : Type} (l : List β) (f : β → ℝ) (d : β) (F : Nat → γ) (g : β → γ)
    (h : ∀ k, k < l.length → F k = g (l.getD k d)) :
    (wherePos (l.map f)).map F = (l.filter (fun b => decide (0 < f b))).map g := by
  rw [← wherePos_entries l f d, List.map_map]
  apply List.map_congr_left
  intro k hk
  exact h k (by simpa using mem_wherePos hk)

theorem takeIdx_ok (v : List ℝ) (idx : List Nat) (h : ∀ k ∈ idx, k < v.length) :
    takeIdx v idx = .ok (idx.map (fun k => v.getD k 0)) := by
  apply mapM_ok_of
  intro k hk
  rw [at'_of (h k hk)]
  simp [List.getD_eq_getElem?_getD, h k hk]

/-- sum over the lines at node `i` -/
theorem sum_star (n i : Nat) (hi : i < n) (F : Nat → Nat → ℝ) (hF : ∀ a b, F a b = F b a) :
    (((Spec.offPairs n).filter (fun e => decide (e.1 = i ∨ e.2 = i))).map (fun e => F e.1 e.2)).sum =
      ∑ j ∈ (range n).erase i, F i j := by
  rw [← List.sum_toFinset _ ((nodup_offPairs n).filter _)]
  symm
  apply Finset.sum_nbij (fun j => (max i j, min i j))
  · intro j hj
    rw [Finset.mem_erase, Finset.mem_range] at hj
    rw [List.mem_toFinset, List.mem_filter, mem_offPairs]
    rcases le_total i j with h | h
    · simp only [max_eq_right h, min_eq_left h]
      refine ⟨⟨by omega, hj.2⟩, by simp⟩
    · simp only [max_eq_left h, min_eq_right h]
      refine ⟨⟨by omega, hi⟩, by simp⟩
  · intro a ha b hb h
    have ha := Finset.mem_erase.1 (Finset.mem_coe.1 ha)
    have hb := Finset.mem_erase.1 (Finset.mem_coe.1 hb)
    simp only [Prod.mk.injEq] at h
    omega
  · intro e he
    have he := Finset.mem_coe.1 he
    rw [List.mem_toFinset, List.mem_filter, mem_offPairs] at he
    obtain ⟨⟨h1, h2⟩, h3⟩ := he
    have h3 := of_decide_eq_true h3
    rw [Set.mem_image]
    rcases h3 with h3 | h3
    · refine ⟨e.2, ?_, ?_⟩
      · simp only [Finset.coe_erase, Finset.coe_range, Set.mem_diff, Set.mem_Iio, Set.mem_singleton_iff]; omega
      · apply Prod.ext <;> simp <;> omega
    · refine ⟨e.1, ?_, ?_⟩
      · simp only [Finset.coe_erase, Finset.coe_range, Set.mem_diff, Set.mem_Iio, Set.mem_singleton_iff]; omega
      · apply Prod.ext <;> simp <;> omega
  · intro j _
    rcases le_total i j with h | h
    · simp only [max_eq_right h, min_eq_left h]; exact hF i j
    · simp only [max_eq_left h, min_eq_right h]

end
end Verif
