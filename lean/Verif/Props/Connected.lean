/-
C135: the nodes without load of a network with resistive lines can be eliminated if and only if each of them is connected to
another node.
-/
import Verif.Props.Template

namespace Verif
open Finset Net
noncomputable section

/-- a line in service joins the buses at positions `i` and `j` -/
def Spec.Joined (bs : List BusData) (ls : List LineData) (i j : ℕ) : Prop :=
  ∃ (hi : i < bs.length) (hj : j < bs.length), ∃ l ∈ ls, 0 < l.status ∧
    ((l.startBus = bs[i].id ∧ l.endBus = bs[j].id) ∨ (l.startBus = bs[j].id ∧ l.endBus = bs[i].id))

/-- lines in service lead from the bus at position `i` to the one at `j` -/
def Spec.Connected (bs : List BusData) (ls : List LineData) : ℕ → ℕ → Prop := Relation.ReflTransGen (Spec.Joined bs ls)

/-- all lines in service have a resistance, and their buses a nominal voltage -/
def Spec.Resistive (bs : List BusData) (ls : List LineData) : Prop :=
  ∀ l ∈ ls, 0 < l.status → 0 < l.R ∧ Spec.kvLabel bs (min l.startBus l.endBus) ≠ 0

theorem energy {n : ℕ} {y : ℕ → ℕ → ℂ} (hs : ∀ i j, y i j = y j i) (hr : ∀ i < n, ∑ j ∈ range n, y i j = 0) (w : ℕ → ℂ) :
    ∑ i ∈ range n, ∑ j ∈ range n, y i j * (Complex.normSq (w i - w j) : ℂ) =
      -2 * ∑ i ∈ range n, ∑ j ∈ range n, w i * y i j * (starRingEnd ℂ) (w j) := by
  have hexp : ∀ i j, y i j * (Complex.normSq (w i - w j) : ℂ) = y i j * (w i * (starRingEnd ℂ) (w i)) + y i j * (w j * (starRingEnd ℂ) (w j)) -
      w i * y i j * (starRingEnd ℂ) (w j) - w j * y i j * (starRingEnd ℂ) (w i) := by
    intro i j
    rw [← Complex.mul_conj, map_sub]
    ring
  have e1 : ∑ i ∈ range n, ∑ j ∈ range n, y i j * (w i * (starRingEnd ℂ) (w i)) = 0 := by
    refine Finset.sum_eq_zero fun i hi => ?_
    rw [← Finset.sum_mul, hr i (Finset.mem_range.1 hi), zero_mul]
  have e2 : ∑ i ∈ range n, ∑ j ∈ range n, y i j * (w j * (starRingEnd ℂ) (w j)) = 0 := by
    rw [Finset.sum_comm]
    refine Finset.sum_eq_zero fun j hj => ?_
    rw [← Finset.sum_mul, Finset.sum_congr rfl (fun i _ => hs i j), hr j (Finset.mem_range.1 hj), zero_mul]
  have e3 : ∑ i ∈ range n, ∑ j ∈ range n, w j * y i j * (starRingEnd ℂ) (w i) =
      ∑ i ∈ range n, ∑ j ∈ range n, w i * y i j * (starRingEnd ℂ) (w j) := by
    rw [Finset.sum_comm]
    exact Finset.sum_congr rfl fun i _ => Finset.sum_congr rfl fun j _ => by rw [hs j i]
  rw [Finset.sum_congr rfl (fun i _ => Finset.sum_congr rfl (fun j _ => hexp i j))]
  simp only [Finset.sum_sub_distrib, Finset.sum_add_distrib]
  rw [e1, e2, e3]
  ring

/-- on the kernel of a block, values agree along the edges -/
theorem kernel_edge {n : ℕ} {y : ℕ → ℕ → ℂ} (hs : ∀ i j, y i j = y j i) (hr : ∀ i < n, ∑ j ∈ range n, y i j = 0)
    (hneg : ∀ i j, i < n → j < n → i ≠ j → (y i j).re ≤ 0) {S : Finset ℕ} (hS : S ⊆ range n) {u : ℕ → ℂ}
    (hu : ∀ j ∈ S, ∑ i ∈ S, u i * y i j = 0) {i j : ℕ} (hi : i < n) (hj : j < n) (hij : (y i j).re < 0) (hne : i ≠ j) :
    (if i ∈ S then u i else 0) = if j ∈ S then u j else 0 := by
  set w : ℕ → ℂ := fun i => if i ∈ S then u i else 0 with hw
  have hzero : ∑ i ∈ range n, ∑ j ∈ range n, w i * y i j * (starRingEnd ℂ) (w j) = 0 := by
    rw [Finset.sum_comm]
    refine Finset.sum_eq_zero fun j _ => ?_
    rw [← Finset.sum_mul]
    by_cases hjS : j ∈ S
    · have : ∑ i ∈ range n, w i * y i j = ∑ i ∈ S, u i * y i j := by
        rw [← Finset.sum_subset hS]
        · exact Finset.sum_congr rfl fun i hi => by simp only [hw, if_pos hi]
        · intro i _ hi
          simp only [hw, if_neg hi, zero_mul]
      rw [this, hu j hjS, zero_mul]
    · simp only [hw, if_neg hjS, map_zero, mul_zero]
  have hen := energy hs hr w
  rw [hzero, mul_zero] at hen
  have hre : ∑ i ∈ range n, ∑ j ∈ range n, -(y i j).re * Complex.normSq (w i - w j) = 0 := by
    have := congrArg Complex.re hen
    rw [Complex.re_sum, Complex.zero_re] at this
    rw [← neg_eq_zero, ← this, ← Finset.sum_neg_distrib]
    refine Finset.sum_congr rfl fun i _ => ?_
    rw [Complex.re_sum, ← Finset.sum_neg_distrib]
    refine Finset.sum_congr rfl fun j _ => ?_
    rw [Complex.re_mul_ofReal]
    ring
  have hterm : ∀ i ∈ range n, ∀ j ∈ range n, 0 ≤ -(y i j).re * Complex.normSq (w i - w j) := by
    intro i hi j hj
    by_cases h : i = j
    · rw [h, sub_self, map_zero, mul_zero]
    · exact mul_nonneg (by linarith [hneg i j (Finset.mem_range.1 hi) (Finset.mem_range.1 hj) h]) (Complex.normSq_nonneg _)
  have h1 := (Finset.sum_eq_zero_iff_of_nonneg fun i hi => Finset.sum_nonneg (hterm i hi)).1 hre i (Finset.mem_range.2 hi)
  have h2 := (Finset.sum_eq_zero_iff_of_nonneg (hterm i (Finset.mem_range.2 hi))).1 h1 j (Finset.mem_range.2 hj)
  rcases mul_eq_zero.1 h2 with h | h
  · linarith
  · exact sub_eq_zero.1 (Complex.normSq_eq_zero.1 h)

theorem branch_re_pos {sn : ℝ} (hsn : 0 < sn) {bs : List BusData} {l : LineData} (hR : 0 < l.R)
    (hkv : Spec.kvLabel bs (min l.startBus l.endBus) ≠ 0) : 0 < (Spec.branch sn bs l).re := by
  unfold Spec.branch
  have h : (Spec.kvLabel bs (min l.startBus l.endBus) : ℂ) ^ 2 / (sn : ℂ) / ⟨l.R, l.X⟩ =
      ((Spec.kvLabel bs (min l.startBus l.endBus) ^ 2 / sn : ℝ) : ℂ) * (⟨l.R, l.X⟩ : ℂ)⁻¹ := by
    push_cast
    rw [div_eq_mul_inv]
  rw [h, Complex.re_ofReal_mul, Complex.inv_re]
  have hn : 0 < Complex.normSq (⟨l.R, l.X⟩ : ℂ) := by
    rw [Complex.normSq_mk]
    nlinarith [mul_pos hR hR, mul_self_nonneg l.X]
  have hk : 0 < Spec.kvLabel bs (min l.startBus l.endBus) ^ 2 := by positivity
  positivity

theorem sum_re_pos (L : List ℂ) (h : ∀ z ∈ L, 0 < z.re) (hne : L ≠ []) : 0 < L.sum.re := by
  induction L with
  | nil => exact absurd rfl hne
  | cons z L ih =>
    rw [List.sum_cons, Complex.add_re]
    have hz := h z (by simp)
    by_cases hL : L = []
    · subst hL; simpa using hz
    · have := ih (fun z hz => h z (by simp [hz])) hL
      linarith

/-- an entry between two buses has negative real part if a line joins them, and is zero otherwise -/
theorem gridMatrix_entry {sn : ℝ} (hsn : 0 < sn) {bs : List BusData} {ls : List LineData} {y : Arr2 ℂ} (hg : Spec.IsGridMatrix sn bs ls y)
    (hR : Spec.Resistive bs ls) {i j : ℕ} (hi : i < bs.length) (hj : j < bs.length) (hij : i ≠ j) :
    (Spec.Joined bs ls i j → (y.get i j).re < 0) ∧ (¬ Spec.Joined bs ls i j → y.get i j = 0) := by
  rw [hg.off i j hi hj hij]
  constructor
  · rintro ⟨_, _, l, hl, hs, he⟩
    rw [Complex.neg_re, neg_lt_zero]
    refine sum_re_pos _ ?_ ?_
    · intro z hz
      obtain ⟨l', hl', rfl⟩ := List.mem_map.1 hz
      obtain ⟨hm, hp⟩ := List.mem_filter.1 hl'
      have hp := of_decide_eq_true hp
      obtain ⟨h1, h2⟩ := hR l' hm hp.1
      exact branch_re_pos hsn h1 h2
    · refine List.ne_nil_of_mem (List.mem_map.2 ⟨l, List.mem_filter.2 ⟨hl, decide_eq_true ⟨hs, he⟩⟩, rfl⟩)
  · intro h
    rw [neg_eq_zero, List.filter_eq_nil_iff.2]
    · rfl
    · intro l hl hp
      obtain ⟨hs, he⟩ := of_decide_eq_true hp
      exact h ⟨hi, hj, l, hl, hs, he⟩

theorem joined_symm {bs : List BusData} {ls : List LineData} {i j : ℕ} (h : Spec.Joined bs ls i j) : Spec.Joined bs ls j i := by
  obtain ⟨hi, hj, l, hl, hs, he⟩ := h
  exact ⟨hj, hi, l, hl, hs, he.symm⟩

/-- C135: a set of nodes of a network with resistive lines can be eliminated if and only if each of them is connected to a node that
is kept -/
theorem C135_iff {sn : ℝ} (hsn : 0 < sn) {bs : List BusData} {ls : List LineData} {y : Arr2 ℂ} (hg : Spec.IsGridMatrix sn bs ls y)
    (hR : Spec.Resistive bs ls) {S : Finset ℕ} (hS : S ⊆ range bs.length) :
    Spec.BlockNonsingular y S ↔ ∀ i ∈ S, ∃ j, j < bs.length ∧ j ∉ S ∧ Spec.Connected bs ls i j := by
  have hneg : ∀ i j, i < bs.length → j < bs.length → i ≠ j → (y.get i j).re ≤ 0 := by
    intro i j hi hj hij
    obtain ⟨h1, h2⟩ := gridMatrix_entry hsn hg hR hi hj hij
    by_cases h : Spec.Joined bs ls i j
    · exact (h1 h).le
    · rw [h2 h, Complex.zero_re]
  constructor
  · intro hns i hi
    by_contra hno
    push Not at hno
    classical
    -- the component of `i`
    set A := (range bs.length).filter (fun j => Spec.Connected bs ls i j) with hA
    have hAS : A ⊆ S := by
      intro j hj
      obtain ⟨h1, h2⟩ := Finset.mem_filter.1 hj
      by_contra hjS
      exact hno j (Finset.mem_range.1 h1) hjS h2
    have hiA : i ∈ A := Finset.mem_filter.2 ⟨hS hi, Relation.ReflTransGen.refl⟩
    have hcross : ∀ a ∈ A, ∀ b, b < bs.length → b ∉ A → y.get a b = 0 := by
      intro a ha b hb hbA
      obtain ⟨h1, h2⟩ := Finset.mem_filter.1 ha
      refine (gridMatrix_entry hsn hg hR (Finset.mem_range.1 h1) hb (fun h => hbA (h ▸ ha))).2 fun hj => ?_
      exact hbA (Finset.mem_filter.2 ⟨Finset.mem_range.2 hb, h2.tail hj⟩)
    have hk := hns (fun k => if k ∈ A then 1 else 0) (fun j hj => by
      have hj' := Finset.mem_range.1 (hS hj)
      have h1 : ∑ k ∈ S, (if k ∈ A then (1 : ℂ) else 0) * y.get k j = ∑ k ∈ A, y.get k j := by
        rw [← Finset.sum_subset hAS]
        · exact Finset.sum_congr rfl fun k hk => by rw [if_pos hk, one_mul]
        · intro k _ hk
          rw [if_neg hk, zero_mul]
      rw [h1]
      by_cases hjA : j ∈ A
      · have h2 : ∑ k ∈ A, y.get k j = ∑ k ∈ range bs.length, y.get j k := by
          rw [← Finset.sum_subset (Finset.filter_subset _ _ : A ⊆ range bs.length)]
          · exact Finset.sum_congr rfl fun k _ => gridMatrix_symm hg k j
          · intro k hk hkA
            exact hcross j hjA k (Finset.mem_range.1 hk) hkA
        rw [h2, hg.rows j hj']
      · exact Finset.sum_eq_zero fun k hk => hcross k hk j hj' hjA) i hi
    rw [if_pos hiA] at hk
    exact one_ne_zero hk
  · intro hc u hu i hi
    obtain ⟨j, hj, hjS, hij⟩ := hc i hi
    have hstep : ∀ a b, Spec.Joined bs ls a b → (if a ∈ S then u a else 0) = if b ∈ S then u b else 0 := by
      intro a b hab
      obtain ⟨ha, hb, -⟩ := id hab
      by_cases he : a = b
      · rw [he]
      · exact kernel_edge (y := y.get) (gridMatrix_symm hg) hg.rows hneg hS hu ha hb ((gridMatrix_entry hsn hg hR ha hb he).1 hab) he
    have hall : (if i ∈ S then u i else 0) = if j ∈ S then u j else 0 := by
      clear hj hjS
      induction hij with
      | refl => rfl
      | tail _ h ih => exact ih.trans (hstep _ _ h)
    rwa [if_pos hi, if_neg hjS] at hall

/-! ### examples -/

theorem demo133_resistive : Spec.Resistive demoBuses115 demoLines133 := by
  intro l hl hs
  simp only [demoLines133, List.mem_cons, List.not_mem_nil, or_false] at hl
  rcases hl with rfl | rfl
  · exact ⟨one_pos, by simp [Spec.kvLabel, demoBuses115]⟩
  · exact ⟨one_pos, by simp [Spec.kvLabel, demoBuses115]⟩

/-- the load of the two-node network can be eliminated; both nodes together cannot -/
theorem demo_C135 {y : Arr2 ℂ} (hg : Spec.IsGridMatrix 400 demoBuses115 demoLines133 y) :
    Spec.BlockNonsingular y {0} ∧ ¬ Spec.BlockNonsingular y {0, 1} := by
  constructor
  · refine (C135_iff (by norm_num) hg demo133_resistive (by simp [demoBuses115])).2 fun i hi => ⟨1, by decide, by decide, ?_⟩
    rw [Finset.mem_singleton.1 hi]
    exact Relation.ReflTransGen.single ⟨by decide, by decide, ⟨2, 1, 1, 1, 0, 1, none⟩, by simp [demoLines133], by decide, by decide⟩
  · intro h
    obtain ⟨j, hj, hjS, -⟩ := (C135_iff (by norm_num) hg demo133_resistive
      (S := {0, 1}) (by intro k hk; simp at hk; rcases hk with rfl | rfl <;> simp [demoBuses115])).1 h 0 (by simp)
    have hj : j < 2 := hj
    have : j ≠ 0 ∧ j ≠ 1 := by simpa using hjS
    omega

end
end Verif
