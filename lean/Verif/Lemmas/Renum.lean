/-
Another numbering of the nodes: matrices, data, corrections, priors.
-/
import Verif.Lemmas.Transport
import Verif.Props.EivUnit
import Verif.Props.EivOrder

namespace Verif
open Finset
noncomputable section

namespace Spec

/-- a permutation of the first `n` numbers -/
def Numbering (n : Nat) (σ : Equiv.Perm ℕ) : Prop := ∀ i, σ i < n ↔ i < n

/-- rows and columns of a square matrix in another order -/
def renum (n : Nat) (σ : Equiv.Perm ℕ) (Y : Arr2 ℂ) : Arr2 ℂ := Arr2.ofFn n n (fun i j => Y.get (σ i) (σ j))

/-- columns in another order -/
def recol (σ : Equiv.Perm ℕ) (x : Arr2 ℂ) : Arr2 ℂ := Arr2.ofFn x.r x.c (fun t j => x.get t (σ j))

end Spec

variable {n : Nat} {σ : Equiv.Perm ℕ}

theorem Numbering.symm (hσ : Spec.Numbering n σ) : Spec.Numbering n σ.symm := by
  intro i
  have := hσ (σ.symm i)
  rw [Equiv.apply_symm_apply] at this
  exact this.symm

theorem renum_sum {M : Type} [AddCommMonoid M] (hσ : Spec.Numbering n σ) (f : ℕ → M) :
    ∑ i ∈ range n, f (σ i) = ∑ i ∈ range n, f i :=
  Finset.sum_equiv σ (fun i => by rw [mem_range, mem_range]; exact (hσ i).symm) (fun _ _ => rfl)

theorem renum_get (σ : Equiv.Perm ℕ) (Y : Arr2 ℂ) {i j : Nat} (hi : i < n) (hj : j < n) :
    (Spec.renum n σ Y).get i j = Y.get (σ i) (σ j) := Arr2.ofFn_get _ hi hj

theorem renum_square (σ : Equiv.Perm ℕ) (Y : Arr2 ℂ) : Spec.IsSquare n (Spec.renum n σ Y) := ⟨rfl, rfl⟩

theorem renum_symm {Y : Arr2 ℂ} (h : Spec.IsSymm Y) : Spec.IsSymm (Spec.renum n σ Y) := by
  refine ⟨rfl, fun i j => ?_⟩
  unfold Spec.renum
  rw [Arr2.ofFn_get', Arr2.ofFn_get', h.2 (σ i) (σ j)]
  by_cases hi : i < n <;> by_cases hj : j < n <;> simp [hi, hj]

theorem renum_admissible (hσ : Spec.Numbering n σ) {lap : Bool} {Y : Arr2 ℂ} (hY : Spec.IsSquare n Y) (h : Spec.Admissible lap Y) :
    Spec.Admissible lap (Spec.renum n σ Y) := by
  refine ⟨renum_symm h.1, fun hl i hi => ?_⟩
  have hi : i < n := hi
  show ∑ j ∈ range n, _ = _
  rw [Finset.sum_congr rfl (fun j hj => renum_get σ Y hi (mem_range.1 hj)), renum_sum hσ (fun j => Y.get (σ i) j)]
  have := h.2 hl (σ i) (by rw [hY.1]; exact (hσ i).2 hi)
  rw [hY.2] at this
  exact this

theorem renum_back (hσ : Spec.Numbering n σ) {V : Arr2 ℂ} (hV : Spec.IsSquare n V) :
    Spec.renum n σ (Spec.renum n σ.symm V) = V := by
  refine Arr2.ext' hV.1.symm hV.2.symm (fun i j hi hj => ?_)
  have hi : i < n := hi
  have hj : j < n := hj
  rw [renum_get σ _ hi hj, renum_get _ _ ((hσ i).2 hi) ((hσ j).2 hj), Equiv.symm_apply_apply, Equiv.symm_apply_apply]

theorem renum_erase {M : Type} [AddCommGroup M] (hσ : Spec.Numbering n σ) (f : ℕ → M) {i : Nat} (hi : i < n) :
    ∑ j ∈ (range n).erase i, f (σ j) = ∑ j ∈ (range n).erase (σ i), f j := by
  have h1 := Finset.add_sum_erase (range n) (fun j => f (σ j)) (mem_range.2 hi)
  have h2 := Finset.add_sum_erase (range n) f (mem_range.2 ((hσ i).2 hi))
  rw [renum_sum hσ f, ← h2] at h1
  exact add_left_cancel h1

theorem renum_projection (hσ : Spec.Numbering n σ) (lap : Bool) (Y : Arr2 ℂ) :
    Spec.renum n σ (Spec.projection lap n Y) = Spec.projection lap n (Spec.renum n σ Y) := by
  refine Arr2.ext' rfl rfl (fun i j hi hj => ?_)
  have hi : i < n := hi
  have hj : j < n := hj
  rw [renum_get σ _ hi hj]
  unfold Spec.projection
  rw [Arr2.ofFn_get _ ((hσ i).2 hi) ((hσ j).2 hj), Arr2.ofFn_get _ hi hj, renum_get σ _ hi hj, renum_get σ _ hj hi]
  have he : σ i = σ j ↔ i = j := σ.injective.eq_iff
  have hs : ∑ x ∈ (range n).erase i, ((Spec.renum n σ Y).get i x + (Spec.renum n σ Y).get x i) / 2 =
      ∑ x ∈ (range n).erase (σ i), (Y.get (σ i) x + Y.get x (σ i)) / 2 := by
    rw [← renum_erase hσ (fun x => (Y.get (σ i) x + Y.get x (σ i)) / 2) hi]
    refine Finset.sum_congr rfl (fun x hx => ?_)
    have hx := mem_range.1 (Finset.mem_of_mem_erase hx)
    rw [renum_get σ _ hi hx, renum_get σ _ hx hi]
  simp only [he, hs]

theorem renum_symPart (hσ : Spec.Numbering n σ) (Y : Arr2 ℂ) :
    Spec.symPart n (Spec.renum n σ Y) = Spec.renum n σ (Spec.symPart n Y) := by
  refine Arr2.ext' rfl rfl (fun i j hi hj => ?_)
  have hi : i < n := hi
  have hj : j < n := hj
  rw [renum_get σ _ hi hj]
  unfold Spec.symPart
  rw [Arr2.ofFn_get _ ((hσ i).2 hi) ((hσ j).2 hj), Arr2.ofFn_get _ hi hj, renum_get σ _ hi hj, renum_get σ _ hj hi]

theorem symPart_symm (n : Nat) (Y : Arr2 ℂ) : Spec.IsSymm (Spec.symPart n Y) := by
  refine ⟨rfl, fun i j => ?_⟩
  unfold Spec.symPart
  rw [Arr2.ofFn_get', Arr2.ofFn_get', add_comm (Y.get i j)]
  by_cases hi : i < n <;> by_cases hj : j < n <;> simp [hi, hj]

theorem renum_rowSum (hσ : Spec.Numbering n σ) (Y : Arr2 ℂ) {i : Nat} (hi : i < n) :
    Spec.rowSum n (Spec.renum n σ Y) i = Spec.rowSum n Y (σ i) := by
  unfold Spec.rowSum
  rw [← renum_erase hσ (fun j => Y.get (σ i) j) hi]
  exact Finset.sum_congr rfl (fun x hx => renum_get σ _ hi (mem_range.1 (Finset.mem_of_mem_erase hx)))

theorem renum_centre (hσ : Spec.Numbering n σ) (tls : Bool) (y : Arr2 ℂ) {i : Nat} (hi : i < n) :
    Spec.centre n tls (Spec.renum n σ y) i = Spec.centre n tls y (σ i) := by
  unfold Spec.centre
  rw [renum_get σ _ hi hi, renum_symPart hσ, renum_rowSum hσ _ hi]

/-! ### columns -/

theorem recol_get (σ : Equiv.Perm ℕ) (x : Arr2 ℂ) {t j : Nat} (ht : t < x.r) (hj : j < x.c) :
    (Spec.recol σ x).get t j = x.get t (σ j) := Arr2.ofFn_get _ ht hj

theorem recol_get' (hσ : Spec.Numbering n σ) {x : Arr2 ℂ} (hx : x.c = n) (t : Nat) {j : Nat} (hj : j < n) :
    (Spec.recol σ x).get t j = x.get t (σ j) := by
  by_cases ht : t < x.r
  · exact recol_get σ x ht (by rw [hx]; exact hj)
  · exact ((Spec.recol σ x).oob t j (fun h => ht h.1)).trans (x.oob t (σ j) (fun h => ht h.1)).symm

theorem recol_back (hσ : Spec.Numbering n σ) {x : Arr2 ℂ} (hx : x.c = n) : Spec.recol σ (Spec.recol σ.symm x) = x := by
  refine Arr2.ext' rfl rfl (fun t j ht hj => ?_)
  have ht : t < x.r := ht
  have hj : j < n := by rw [← hx]; exact hj
  rw [recol_get' hσ (x := Spec.recol σ.symm x) hx t hj, recol_get' (Numbering.symm hσ) hx t ((hσ j).2 hj), Equiv.symm_apply_apply]

theorem residual_recol (hσ : Spec.Numbering n σ) {x z Y D : Arr2 ℂ} (hx : x.c = n) (hz : z.c = n) (hD : D.c = n) :
    Spec.residual (Spec.recol σ x) (Spec.recol σ z) (Spec.renum n σ Y) (Spec.recol σ D) = Spec.recol σ (Spec.residual x z Y D) := by
  refine Arr2.ext' rfl rfl (fun t j ht hj => ?_)
  have ht : t < z.r := ht
  have hj : j < z.c := hj
  have hjn : j < n := by rw [← hz]; exact hj
  rw [recol_get' hσ (x := Spec.residual x z Y D) hz t hjn]
  unfold Spec.residual
  rw [Arr2.ofFn_get _ (show t < (Spec.recol σ z).r from ht) (show j < (Spec.recol σ z).c from hj),
    Arr2.ofFn_get _ ht (by rw [hz]; exact (hσ j).2 hjn), recol_get σ z ht hj]
  show _ - ∑ k ∈ range x.c, _ = _
  congr 1
  rw [hx, ← renum_sum hσ (fun k => (x.get t k - D.get t k) * Y.get k (σ j))]
  refine Finset.sum_congr rfl (fun k hk => ?_)
  have hk := mem_range.1 hk
  rw [recol_get' hσ hx t hk, recol_get' hσ hD t hk, renum_get σ Y hk hjn]

theorem misfit_recol (hσ : Spec.Numbering n σ) {x z Y : Arr2 ℂ} (hx : x.c = n) (hz : z.c = n) :
    Spec.misfit (Spec.recol σ x) (Spec.recol σ z) (Spec.renum n σ Y) = Spec.misfit x z Y := by
  unfold Spec.misfit
  show ∑ j ∈ range z.c, ∑ t ∈ range z.r, Complex.normSq ((Spec.recol σ z).get t j - ∑ k ∈ range x.c, _) = _
  rw [hz, hx, ← renum_sum hσ (fun j => ∑ t ∈ range z.r, Complex.normSq (z.get t j - ∑ k ∈ range n, x.get t k * Y.get k j))]
  refine Finset.sum_congr rfl (fun j hj => Finset.sum_congr rfl (fun t ht => ?_))
  have hj := mem_range.1 hj
  rw [recol_get' hσ hz t hj, ← renum_sum hσ (fun k => x.get t k * Y.get k (σ j))]
  congr 2
  refine Finset.sum_congr rfl (fun k hk => ?_)
  rw [recol_get' hσ hx t (mem_range.1 hk), renum_get σ Y (mem_range.1 hk) hj]

theorem sumSq_recol (hσ : Spec.Numbering n σ) {x : Arr2 ℂ} (hx : x.c = n) : Spec.sumSq (Spec.recol σ x) = Spec.sumSq x := by
  unfold Spec.sumSq
  show ∑ j ∈ range x.c, ∑ t ∈ range x.r, _ = _
  rw [hx, ← renum_sum hσ (fun j => ∑ t ∈ range x.r, x.get t j * x.get t j)]
  refine Finset.sum_congr rfl (fun j hj => Finset.sum_congr rfl (fun t ht => ?_))
  rw [recol_get' hσ hx t (mem_range.1 hj)]

/-- weights of data with reordered columns -/
def Spec.RecolWeight (T n : Nat) (σ : Equiv.Perm ℕ) (W W' : Arr2 ℝ) : Prop :=
  ∀ D : Arr2 ℂ, D.r = T → D.c = n → Spec.wquad W' (Spec.stackReal (Spec.recol σ D)) = Spec.wquad W (Spec.stackReal D)

theorem cost_recol (hσ : Spec.Numbering n σ) {x z Y D : Arr2 ℂ} (hx : x.c = n) (hz : z.r = x.r ∧ z.c = n) (hD : D.r = x.r ∧ D.c = n)
    {xW xW' zW zW' : Arr2 ℝ} (h1 : Spec.RecolWeight x.r n σ xW xW') (h2 : Spec.RecolWeight x.r n σ zW zW') :
    Spec.eivCost xW' zW' (Spec.recol σ x) (Spec.recol σ z) (Spec.renum n σ Y) (Spec.recol σ D) = Spec.eivCost xW zW x z Y D := by
  unfold Spec.eivCost
  rw [residual_recol hσ hx hz.2 hD.2, h1 D hD.1 hD.2, h2 (Spec.residual x z Y D) hz.1 hz.2]

theorem unit_recol (hσ : Spec.Numbering n σ) (T : Nat) :
    Spec.RecolWeight T n σ (Spec.unitWeights (2 * (n * T))) (Spec.unitWeights (2 * (n * T))) := by
  intro D h1 h2
  rw [wquad_unit (T := T) (n := n) (Spec.recol σ D) h1 h2, wquad_unit D h1 h2,
    ← renum_sum hσ (fun j => ∑ i ∈ range T, Complex.normSq (D.get i j))]
  refine Finset.sum_congr rfl (fun j hj => Finset.sum_congr rfl (fun t ht => ?_))
  rw [recol_get' hσ h2 t (mem_range.1 hj)]

theorem block_recol (hσ : Spec.Numbering n σ) {T : Nat} {a b c a' b' c' : List ℝ}
    (h : ∀ t j, t < T → j < n → a'.getD (Spec.pos T t j) 0 = a.getD (Spec.pos T t (σ j)) 0 ∧
      b'.getD (Spec.pos T t j) 0 = b.getD (Spec.pos T t (σ j)) 0 ∧ c'.getD (Spec.pos T t j) 0 = c.getD (Spec.pos T t (σ j)) 0) :
    Spec.RecolWeight T n σ (Arr2.ofFn (n * T + n * T) (n * T + n * T) (blockEntry (n * T) a b c))
      (Arr2.ofFn (n * T + n * T) (n * T + n * T) (blockEntry (n * T) a' b' c')) := by
  intro D h1 h2
  rw [block_quad, block_quad, sum_range_mul', sum_range_mul',
    ← renum_sum hσ (fun j => ∑ t ∈ range T, (a.getD (j * T + t) 0 * (Spec.stackReal D).getD (j * T + t) 0 ^ 2 +
      2 * c.getD (j * T + t) 0 * (Spec.stackReal D).getD (j * T + t) 0 * (Spec.stackReal D).getD (n * T + (j * T + t)) 0 +
      b.getD (j * T + t) 0 * (Spec.stackReal D).getD (n * T + (j * T + t)) 0 ^ 2))]
  refine Finset.sum_congr rfl fun j hj => Finset.sum_congr rfl fun t ht => ?_
  have hj := mem_range.1 hj
  have ht := mem_range.1 ht
  obtain ⟨e1, e2, e3⟩ := h t j ht hj
  unfold Spec.pos at e1 e2 e3
  obtain ⟨s1, s2⟩ := stack_pos (D := Spec.recol σ D) (T := T) (n := n) ⟨h1, h2⟩ ht hj
  obtain ⟨s3, s4⟩ := stack_pos ⟨h1, h2⟩ ht ((hσ j).2 hj)
  rw [e1, e2, e3, s1, s2, s3, s4, recol_get' hσ h2 t hj]

/-! ### priors -/

/-- sums over all lines do not depend on the numbering -/
theorem pair_sum (n : Nat) (f : ℕ → ℕ → ℝ) (hf : ∀ a b, f a b = f b a) :
    2 * ((Spec.offPairs n).map (fun e => f e.1 e.2)).sum + ∑ i ∈ range n, f i i = ∑ i ∈ range n, ∑ j ∈ range n, f i j := by
  have h1 : ((Spec.offPairs n).map (fun e => f e.1 e.2)).sum = ∑ i ∈ range n, ∑ j ∈ range n, if j < i then f i j else 0 := by
    rw [← List.sum_toFinset _ (nodup_offPairs n), ← Finset.sum_product', ← Finset.sum_filter]
    refine Finset.sum_congr (Finset.ext fun e => ?_) (fun _ _ => rfl)
    rw [List.mem_toFinset, mem_offPairs, Finset.mem_filter, Finset.mem_product, mem_range, mem_range]
    omega
  have h2 : ((Spec.offPairs n).map (fun e => f e.1 e.2)).sum = ∑ i ∈ range n, ∑ j ∈ range n, if i < j then f i j else 0 := by
    rw [h1, Finset.sum_comm]
    refine Finset.sum_congr rfl fun i _ => Finset.sum_congr rfl fun j _ => ?_
    rw [hf j i]
  have h3 : ∑ i ∈ range n, f i i = ∑ i ∈ range n, ∑ j ∈ range n, if i = j then f i j else 0 := by
    refine Finset.sum_congr rfl fun i hi => ?_
    rw [Finset.sum_ite_eq, if_pos hi]
  rw [two_mul]
  nth_rw 1 [h1]
  rw [h2, h3, ← Finset.sum_add_distrib, ← Finset.sum_add_distrib]
  refine Finset.sum_congr rfl fun i _ => ?_
  rw [← Finset.sum_add_distrib, ← Finset.sum_add_distrib]
  refine Finset.sum_congr rfl fun j _ => ?_
  rcases lt_trichotomy i j with h | h | h
  · simp [h, h.not_gt, h.ne]
  · simp [h]
  · simp [h, h.not_gt, h.ne']

theorem pair_renum (hσ : Spec.Numbering n σ) {f f' : ℕ → ℕ → ℝ} (hf : ∀ a b, f a b = f b a) (hf' : ∀ a b, f' a b = f' b a)
    (h : ∀ a b, a < n → b < n → f' a b = f (σ a) (σ b)) :
    ((Spec.offPairs n).map (fun e => f' e.1 e.2)).sum = ((Spec.offPairs n).map (fun e => f e.1 e.2)).sum := by
  have h1 := pair_sum n f hf
  have h2 := pair_sum n f' hf'
  have h3 : ∑ i ∈ range n, f' i i = ∑ i ∈ range n, f i i := by
    rw [← renum_sum hσ (fun i => f i i)]
    exact Finset.sum_congr rfl fun i hi => h i i (mem_range.1 hi) (mem_range.1 hi)
  have h4 : ∑ i ∈ range n, ∑ j ∈ range n, f' i j = ∑ i ∈ range n, ∑ j ∈ range n, f i j := by
    rw [← renum_sum hσ (fun i => ∑ j ∈ range n, f i j)]
    refine Finset.sum_congr rfl fun i hi => ?_
    rw [← renum_sum hσ (fun j => f (σ i) j)]
    exact Finset.sum_congr rfl fun j hj => h i j (mem_range.1 hi) (mem_range.1 hj)
  linarith

theorem node_renum (hσ : Spec.Numbering n σ) {f f' : ℕ → ℝ} (h : ∀ i, i < n → f' i = f (σ i)) :
    ((List.range n).map f').sum = ((List.range n).map f).sum := by
  rw [list_sum_range, list_sum_range, ← renum_sum hσ f]
  exact Finset.sum_congr rfl fun i hi => h i (mem_range.1 hi)

theorem nodup_idEntries (lap : Bool) (n : Nat) : (idEntries lap n).Nodup := by
  unfold idEntries
  split
  · exact nodup_offPairs n
  · rw [List.nodup_flatMap]
    constructor
    · intro j _
      refine List.Nodup.map ?_ List.nodup_range
      intro a b h
      simp at h
      exact h
    · refine List.Pairwise.imp ?_ (List.nodup_range (n := n))
      intro a b hab x hx hy
      simp only [List.mem_map, List.mem_range] at hx hy
      obtain ⟨t, _, rfl⟩ := hx
      obtain ⟨s, _, h⟩ := hy
      simp at h
      exact hab h.2.symm

theorem entries_sum (lap : Bool) (n : Nat) (f : ℕ → ℕ → ℝ) :
    ((idEntries lap n).map (fun e => f e.1 e.2)).sum =
      ((Spec.offPairs n).map (fun e => f e.1 e.2)).sum + if lap then 0 else ((List.range n).map (fun i => f i i)).sum := by
  rw [← List.sum_toFinset _ (nodup_idEntries lap n), ← List.sum_toFinset _ (nodup_offPairs n)]
  cases lap with
  | true =>
    rw [if_pos rfl, add_zero]
    rfl
  | false =>
    rw [if_neg (by simp), list_sum_range]
    have : (idEntries false n).toFinset = (Spec.offPairs n).toFinset ∪ (range n).image (fun i => (i, i)) := by
      ext e
      rw [Finset.mem_union, List.mem_toFinset, List.mem_toFinset, mem_idEntries, mem_offPairs, Finset.mem_image]
      constructor
      · rintro ⟨h | h, h2⟩
        · exact .inl ⟨h, h2⟩
        · exact .inr ⟨e.1, mem_range.2 h2, Prod.ext rfl h.2⟩
      · rintro (h | ⟨i, hi, rfl⟩)
        · exact ⟨.inl h.1, h.2⟩
        · exact ⟨.inr ⟨rfl, rfl⟩, mem_range.1 hi⟩
    rw [this, Finset.sum_union, Finset.sum_image]
    · intro a _ b _ h
      exact (Prod.mk.inj h).1
    · rw [Finset.disjoint_left]
      intro e he h2
      rw [List.mem_toFinset, mem_offPairs] at he
      obtain ⟨i, _, rfl⟩ := Finset.mem_image.1 h2
      exact lt_irrefl _ he.1

theorem entries_renum (hσ : Spec.Numbering n σ) (lap : Bool) {f f' : ℕ → ℕ → ℝ} (hf : ∀ a b, f a b = f b a)
    (hf' : ∀ a b, f' a b = f' b a) (h : ∀ a b, a < n → b < n → f' a b = f (σ a) (σ b)) :
    ((idEntries lap n).map (fun e => f' e.1 e.2)).sum = ((idEntries lap n).map (fun e => f e.1 e.2)).sum := by
  rw [entries_sum, entries_sum, pair_renum hσ hf hf' h, node_renum hσ (f := fun i => f i i) (f' := fun i => f' i i) (fun i hi => h i i hi hi)]

/-- two l1 priors whose residuals correspond -/
def SameSums (rs rs' : Arr2 ℂ → List ℝ) (V W V' W' : Arr2 ℂ) : Prop :=
  ∀ G : ℝ → ℝ → ℝ, (List.zipWith G (rs' V') (rs' W')).sum = (List.zipWith G (rs V) (rs W)).sum

theorem zip_block {ι : Type} (L : List ι) (r s : ι → ℝ) (G : ℝ → ℝ → ℝ) :
    List.zipWith G (L.map r) (L.map s) = L.map (fun e => G (r e) (s e)) := by
  rw [List.zipWith_map, List.zipWith_self]

theorem SameSums.append {rs rs' ss ss' : Arr2 ℂ → List ℝ} {V W V' W' : Arr2 ℂ} (h1 : SameSums rs rs' V W V' W')
    (h2 : SameSums ss ss' V W V' W') (l : (rs V).length = (rs W).length) (l' : (rs' V').length = (rs' W').length) :
    SameSums (fun Y => rs Y ++ ss Y) (fun Y => rs' Y ++ ss' Y) V W V' W' := by
  intro G
  rw [List.zipWith_append l', List.zipWith_append l, List.sum_append, List.sum_append, h1 G, h2 G]

theorem lines_same (hσ : Spec.Numbering n σ) (lap : Bool) {S V W : Arr2 ℂ} (hS : Spec.IsSymm S) (hV : Spec.IsSymm V)
    (hW : Spec.IsSymm W) (im : Bool) :
    SameSums (fun Y => Spec.lineTerms lap n S Y im) (fun Y => Spec.lineTerms lap n (Spec.renum n σ S) Y im) V W
      (Spec.renum n σ V) (Spec.renum n σ W) := by
  intro G
  unfold Spec.lineTerms
  rw [zip_block, zip_block]
  refine pair_renum hσ (f := fun a b => G (Spec.sgn lap * Spec.part im (V.get a b) / |Spec.part im (S.get a b)|)
    (Spec.sgn lap * Spec.part im (W.get a b) / |Spec.part im (S.get a b)|))
    (f' := fun a b => G (Spec.sgn lap * Spec.part im ((Spec.renum n σ V).get a b) / |Spec.part im ((Spec.renum n σ S).get a b)|)
    (Spec.sgn lap * Spec.part im ((Spec.renum n σ W).get a b) / |Spec.part im ((Spec.renum n σ S).get a b)|))
    (fun a b => ?_) (fun a b => ?_) (fun a b ha hb => ?_)
  · rw [hS.2 a b, hV.2 a b, hW.2 a b]
  · rw [(renum_symm hS).2 a b, (renum_symm hV).2 a b, (renum_symm hW).2 a b]
  · rw [renum_get σ _ ha hb, renum_get σ _ ha hb, renum_get σ _ ha hb]

theorem nodes_same (hσ : Spec.Numbering n σ) (w : ℝ) (tls : Bool) (y V W : Arr2 ℂ) (im : Bool) :
    SameSums (fun Y => Spec.nodeTerms n w (Spec.centre n tls y) Y im)
      (fun Y => Spec.nodeTerms n w (Spec.centre n tls (Spec.renum n σ y)) Y im) V W (Spec.renum n σ V) (Spec.renum n σ W) := by
  intro G
  unfold Spec.nodeTerms
  rw [zip_block, zip_block]
  refine node_renum hσ (f := fun i => G (w * (Spec.part im (Spec.rowSum n V i) / Spec.part im (Spec.centre n tls y i) - 1))
    (w * (Spec.part im (Spec.rowSum n W i) / Spec.part im (Spec.centre n tls y i) - 1))) (fun i hi => ?_)
  rw [renum_rowSum hσ _ hi, renum_rowSum hσ _ hi, renum_centre hσ _ _ hi]

theorem diag_same (hσ : Spec.Numbering n σ) (w : ℝ) (y V W : Arr2 ℂ) (im : Bool) :
    SameSums (fun Y => Spec.diagTerms n w y Y im) (fun Y => Spec.diagTerms n w (Spec.renum n σ y) Y im) V W
      (Spec.renum n σ V) (Spec.renum n σ W) := by
  intro G
  unfold Spec.diagTerms
  rw [zip_block, zip_block]
  refine node_renum hσ (f := fun i => G (w * (Spec.part im (V.get i i) - Spec.part im (y.get i i)))
    (w * (Spec.part im (W.get i i) - Spec.part im (y.get i i)))) (fun i hi => ?_)
  rw [renum_get σ _ hi hi, renum_get σ _ hi hi, renum_get σ _ hi hi]

theorem total_same (hσ : Spec.Numbering n σ) {V : Arr2 ℂ} (hV : Spec.IsSymm V) (im : Bool) :
    Spec.total n (Spec.renum n σ V) im = Spec.total n V im := by
  unfold Spec.total
  refine pair_renum hσ (f := fun a b => Spec.part im (V.get a b)) (f' := fun a b => Spec.part im ((Spec.renum n σ V).get a b))
    (fun a b => ?_) (fun a b => ?_) (fun a b ha hb => ?_)
  · rw [hV.2 a b]
  · rw [(renum_symm hV).2 a b]
  · rw [renum_get σ _ ha hb]

theorem centreSum_same (hσ : Spec.Numbering n σ) (tls : Bool) (y : Arr2 ℂ) (im : Bool) :
    Spec.centreSum n tls (Spec.renum n σ y) im = Spec.centreSum n tls y im := by
  unfold Spec.centreSum
  rw [← renum_sum hσ (fun i => Spec.part im (Spec.centre n tls y i))]
  exact Finset.sum_congr rfl fun i hi => by rw [renum_centre hσ _ _ (mem_range.1 hi)]

/-- priors of l1 terms with corresponding residuals -/
theorem carries_l1 (hσ : Spec.Numbering n σ) {lap : Bool} {cfg cfg' : RegConfig} {rs rs' : Arr2 ℂ → List ℝ}
    (hp : cfg.prior.n = nReal lap n) (hp' : cfg'.prior.n = nReal lap n) (ho : ∀ t ∈ Spec.terms cfg.prior, t.order = 1)
    (ho' : ∀ t ∈ Spec.terms cfg'.prior, t.order = 1)
    (hr : ∀ Y, Spec.IsSquare n Y → Spec.IsSymm Y → (Spec.terms cfg.prior).map (fun t => t.resid cfg.prior.n (Spec.params lap n Y)) = rs Y)
    (hr' : ∀ Y, Spec.IsSquare n Y → Spec.IsSymm Y →
      (Spec.terms cfg'.prior).map (fun t => t.resid cfg'.prior.n (Spec.params lap n Y)) = rs' Y)
    (hα : cfg'.prior.alpha = cfg.prior.alpha)
    (hs : ∀ V W, Spec.IsSymm V → Spec.IsSymm W → SameSums rs rs' V W (Spec.renum n σ V) (Spec.renum n σ W))
    (lam : cfg'.lam = cfg.lam) (absTol : cfg'.absTol = cfg.absTol) (relTol : cfg'.relTol = cfg.relTol)
    (maxIter : cfg'.maxIter = cfg.maxIter) : Carries lap n cfg cfg' (Spec.renum n σ) := by
  have mod : ∀ {p : Prior} {r : Arr2 ℂ → List ℝ}, p.n = nReal lap n → (∀ t ∈ Spec.terms p, t.order = 1) →
      (∀ Y, Spec.IsSquare n Y → Spec.IsSymm Y → (Spec.terms p).map (fun t => t.resid p.n (Spec.params lap n Y)) = r Y) →
      ∀ V W, Spec.IsSquare n V → Spec.IsSymm V → Spec.IsSquare n W → Spec.IsSymm W →
      Spec.model p (nReal lap n) (Spec.params lap n V) (Spec.params lap n W) =
        (List.zipWith (fun a b => b ^ 2 / (|a| ^ ((2 : ℝ) - 1) + p.alpha)) (r V) (r W)).sum ∧
      Spec.penaltyOf lap n p V = (List.zipWith (fun a _ => |a| ^ ((2 : ℝ) - 1) + p.alpha) (r V) (r V)).sum := by
    intro p r h1 h2 h3 V W v1 v2 w1 w2
    rw [← h3 V v1 v2, ← h3 W w1 w2, zip_block, zip_block]
    unfold Spec.model Spec.penaltyOf
    constructor
    · congr 1
      refine List.map_congr_left fun t ht => ?_
      unfold Spec.Term.scale
      rw [h2 t ht, h1]
    · congr 1
      refine List.map_congr_left fun t ht => ?_
      unfold Spec.Term.scale
      rw [h2 t ht, h1]
  refine ⟨fun Y _ h => ⟨renum_square σ Y, renum_symm h⟩, fun Y h1 h2 => renum_admissible hσ h1 h2, fun V h1 h2 =>
    ⟨Spec.renum n σ.symm V, renum_square _ _, renum_admissible (Numbering.symm hσ) h1 h2, renum_back hσ h1⟩, fun Y _ =>
    renum_projection hσ lap Y, fun V W v1 v2 w1 w2 => ?_, fun V v1 v2 => ?_, lam, absTol, relTol, maxIter⟩
  · rw [(mod hp ho hr V W v1 v2.1 w1 w2.1).1, (mod hp' ho' hr' _ _ (renum_square σ V) (renum_symm v2.1) (renum_square σ W)
      (renum_symm w2.1)).1, hα]
    exact hs V W v2.1 w2.1 _
  · rw [(mod hp ho hr V V v1 v2.1 v1 v2.1).2, (mod hp' ho' hr' _ _ (renum_square σ V) (renum_symm v2.1) (renum_square σ V)
      (renum_symm v2.1)).2, hα]
    exact hs V V v2.1 v2.1 _

/-- the prior of `bayesian_eiv` for the renumbered initial estimate -/
theorem complex_carries (hσ : Spec.Numbering n σ) (cf : IdConf) {y : Arr2 ℂ} (hy : Spec.IsSquare n y) (lap : Bool) (K : Nat)
    (h90 : ¬ (lap = true ∧ cf.contrastEachRow = true ∧ cf.regularizeDiag = true)) {p p' : Prior}
    (hp : eivPrior cf n y none lap = .ok p) (hp' : eivPrior cf n (Spec.renum n σ y) none lap = .ok p') :
    Carries lap n (regConfig cf p cf.lambdaEiv lap K) (regConfig cf p' cf.lambdaEiv lap K) (Spec.renum n σ) := by
  have hy' := renum_square (n := n) σ y
  obtain ⟨_, g1, _, gu, _, go⟩ := eiv_prior cf n y hy none lap (fun _ h => (nomatch h)) h90
  obtain rfl := Except.ok.inj (g1.symm.trans hp)
  obtain ⟨_, g1', _, gu', _, go'⟩ := eiv_prior cf n _ hy' none lap (fun _ h => (nomatch h)) h90
  obtain rfl := Except.ok.inj (g1'.symm.trans hp')
  have hb : ∀ y q, eivPrior cf n y none lap = .ok q →
      buildComplexPrior n cf.lambdaprime y lap cf.useTlsDiag cf.contrastEachRow cf.regularizeDiag = .ok q := by
    intro y q h
    unfold eivPrior at h
    obtain ⟨q', h1, h2⟩ := Prior.bind_ok h
    rw [h1]
    exact h2
  have hb1 := hb _ _ hp
  have hb2 := hb _ _ hp'
  have hS : Spec.IsSymm (Spec.symPart n y) := symPart_symm n y
  have lines : ∀ im, ∀ V W, Spec.IsSymm V → Spec.IsSymm W →
      SameSums (fun Y => Spec.lineTerms lap n (Spec.symPart n y) Y im)
        (fun Y => Spec.lineTerms lap n (Spec.symPart n (Spec.renum n σ y)) Y im) V W (Spec.renum n σ V) (Spec.renum n σ W) := by
    intro im V W hV hW
    rw [renum_symPart hσ]
    exact lines_same hσ lap hS hV hW im
  have len : ∀ S V W im, (Spec.lineTerms lap n S V im).length = (Spec.lineTerms lap n S W im).length := by
    intro S V W im; unfold Spec.lineTerms; rw [List.length_map, List.length_map]
  have lenN : ∀ w c V W im, (Spec.nodeTerms n w c V im).length = (Spec.nodeTerms n w c W im).length := by
    intro w c V W im; unfold Spec.nodeTerms; rw [List.length_map, List.length_map]
  have lenD : ∀ w y V W im, (Spec.diagTerms n w y V im).length = (Spec.diagTerms n w y W im).length := by
    intro w c V W im; unfold Spec.diagTerms; rw [List.length_map, List.length_map]
  have both := fun V W hV hW => SameSums.append (lines false V W hV hW) (lines true V W hV hW) (len _ _ _ _) (len _ _ _ _)
  cases hc : cf.contrastEachRow with
  | false =>
    rw [hc] at hb1 hb2
    obtain ⟨_, q1, qa, _, _, _, q4⟩ := complex_total n cf.lambdaprime y hy lap cf.useTlsDiag cf.regularizeDiag
    obtain rfl := Except.ok.inj (q1.symm.trans hb1)
    obtain ⟨_, q1', qa', _, _, _, q4'⟩ := complex_total n cf.lambdaprime _ hy' lap cf.useTlsDiag cf.regularizeDiag
    obtain rfl := Except.ok.inj (q1'.symm.trans hb2)
    refine carries_l1 hσ gu.size gu'.size go go' q4 q4' (qa'.trans qa.symm) (fun V W hV hW => ?_) rfl rfl rfl rfl
    refine SameSums.append (both V W hV hW) (fun G => ?_) (by simp only [List.length_append, len _ V W]) (by
      simp only [List.length_append, len _ (Spec.renum n σ V) (Spec.renum n σ W)])
    simp only [total_same hσ hV, total_same hσ hW, centreSum_same hσ]
  | true =>
    rw [hc] at hb1 hb2
    have nodes := fun w w' V W => SameSums.append (nodes_same hσ w cf.useTlsDiag y V W false) (nodes_same hσ w' cf.useTlsDiag y V W true)
      (lenN _ _ _ _ _) (lenN _ _ _ _ _)
    have four := fun V W hV hW => SameSums.append (both V W hV hW) (nodes (-cf.lambdaprime) cf.lambdaprime V W)
      (by simp only [List.length_append, len _ V W]) (by simp only [List.length_append, len _ (Spec.renum n σ V) (Spec.renum n σ W)])
    cases hd : cf.regularizeDiag with
    | false =>
      rw [hd] at hb1 hb2
      obtain ⟨_, q1, qa, _, _, _, q4⟩ := C44_complex_prior n cf.lambdaprime y hy lap cf.useTlsDiag
      obtain rfl := Except.ok.inj (q1.symm.trans hb1)
      obtain ⟨_, q1', qa', _, _, _, q4'⟩ := C44_complex_prior n cf.lambdaprime _ hy' lap cf.useTlsDiag
      obtain rfl := Except.ok.inj (q1'.symm.trans hb2)
      exact carries_l1 hσ gu.size gu'.size go go' q4 q4' (qa'.trans qa.symm) four rfl rfl rfl rfl
    | true =>
      rw [hd] at hb1 hb2
      have hlap : lap = false := by
        cases lap with
        | false => rfl
        | true => exact absurd ⟨rfl, hc, hd⟩ h90
      subst hlap
      obtain ⟨_, q1, qa, _, _, _, q4⟩ := C44_diag n cf.lambdaprime y hy cf.useTlsDiag
      obtain rfl := Except.ok.inj (q1.symm.trans hb1)
      obtain ⟨_, q1', qa', _, _, _, q4'⟩ := C44_diag n cf.lambdaprime _ hy' cf.useTlsDiag
      obtain rfl := Except.ok.inj (q1'.symm.trans hb2)
      refine carries_l1 hσ gu.size gu'.size go go' q4 q4' (qa'.trans qa.symm) (fun V W hV hW => ?_) rfl rfl rfl rfl
      refine SameSums.append (four V W hV hW) (SameSums.append (diag_same hσ _ y V W false) (diag_same hσ _ y V W true)
        (lenD _ _ _ _ _) (lenD _ _ _ _ _)) (by simp only [List.length_append, len _ V W, lenN _ _ V W]) (by
        simp only [List.length_append, len _ (Spec.renum n σ V) (Spec.renum n σ W), lenN _ _ (Spec.renum n σ V) (Spec.renum n σ W)])

/-- the prior of the lasso for the renumbered first estimate -/
theorem lasso_carries (hσ : Spec.Numbering n σ) (cf : IdConf) {y : Arr2 ℂ} (hy : Spec.IsSquare n y) (lap : Bool) (K : Nat) {p p' : Prior}
    (hp : buildLassoPrior n y lap = .ok p) (hp' : buildLassoPrior n (Spec.renum n σ y) lap = .ok p') :
    Carries lap n (regConfig cf p cf.lambdaLasso lap K) (regConfig cf p' cf.lambdaLasso lap K) (Spec.renum n σ) := by
  have hy' := renum_square (n := n) σ y
  obtain ⟨_, q1, _, qa, qn, qo, qr⟩ := C43_computes n y hy lap
  obtain rfl := Except.ok.inj (q1.symm.trans hp)
  obtain ⟨_, q1', _, qa', qn', qo', qr'⟩ := C43_computes n _ hy' lap
  obtain rfl := Except.ok.inj (q1'.symm.trans hp')
  have plen : ∀ Y, (Spec.params lap n Y).length = nReal lap n := params_length_nReal lap n
  have hres : ∀ S Y : Arr2 ℂ, (List.range (Spec.params lap n S).length).map
      (fun k => |(Spec.params lap n S).getD k 0| * (Spec.params lap n Y).getD k 0) =
      (realEntries lap n).map (fun e => |Spec.sgn lap * Spec.part e.2 (S.get e.1.1 e.1.2)| *
        (Spec.sgn lap * Spec.part e.2 (Y.get e.1.1 e.1.2))) := by
    intro S Y
    rw [params_entries, params_entries, List.length_map]
    refine List.ext_getElem (by simp) (fun k h1 h2 => ?_)
    have hk : k < (realEntries lap n).length := by simpa using h1
    simp [List.getD_eq_getElem?_getD, hk]
  refine carries_l1 hσ (qn.trans (plen _)) (qn'.trans (plen _)) qo qo' (fun Y _ _ => qr _) (fun Y _ _ => qr' _) (qa'.trans qa.symm)
    (fun V W hV hW G => ?_) rfl rfl rfl rfl
  rw [renum_symPart hσ]
  simp only [hres]
  have hS : Spec.IsSymm (Spec.symPart n y) := symPart_symm n y
  rw [zip_block, zip_block]
  unfold realEntries
  simp only [List.map_append, List.map_map, List.sum_append]
  congr 1
  all_goals
    refine entries_renum hσ lap (f := fun a b => G (|_ * Spec.part _ ((Spec.symPart n y).get a b)| * (_ * Spec.part _ (V.get a b)))
      (|_ * Spec.part _ ((Spec.symPart n y).get a b)| * (_ * Spec.part _ (W.get a b))))
      (f' := fun a b => G (|_ * Spec.part _ ((Spec.renum n σ (Spec.symPart n y)).get a b)| * (_ * Spec.part _ ((Spec.renum n σ V).get a b)))
      (|_ * Spec.part _ ((Spec.renum n σ (Spec.symPart n y)).get a b)| * (_ * Spec.part _ ((Spec.renum n σ W).get a b))))
      (fun a b => ?_) (fun a b => ?_) (fun a b ha hb => ?_)
    · rw [hS.2 a b, hV.2 a b, hW.2 a b]
    · rw [(renum_symm hS).2 a b, (renum_symm hV).2 a b, (renum_symm hW).2 a b]
    · rw [renum_get σ _ ha hb, renum_get σ _ ha hb, renum_get σ _ ha hb]

end
end Verif
