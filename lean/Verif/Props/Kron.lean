/-
C55 Kron reduction is exact; C56 it preserves structure; C57 order of the reduced nodes; C94 applicability to connected
networks.
-/
import Verif.Lemmas.Kron
import Mathlib.Logic.Relation
import Mathlib.Tactic.IntervalCases
import Mathlib.Tactic.NormNum

namespace Verif
open Matrix Finset
noncomputable section

/-! ### C55 -/

/-- the reduced matrix is exact for the nodes in the order in which the code lists them -/
theorem kron_equiv {pinv : Arr2 ℂ → Except PyErr (Arr2 ℂ)} (hpinv : Spec.PinvContract pinv) {y : Arr2 ℂ}
    (hy : y.c = y.r) {idx : List ℕ} (hidx : ∀ k ∈ idx, k < y.r) (hns : Spec.BlockNonsingular y idx.toFinset) :
    ∃ red, kronReduction pinv idx y = .ok red ∧
      Spec.Equivalent y idx.toFinset (PySet.complement y.r idx) red := by
  obtain ⟨red, hred, hr, hc, m, p, hm, hpi, hp, hmr, hmc, hmm, hent⟩ := kronReduction_ok hpinv hy hidx
  refine ⟨red, hred, hr, hc, ?_⟩
  intro v hv b hb
  have hL := lists_complement y.r idx
  set K := PySet.complement y.r idx with hK
  have hS : ∀ s ∈ idx.toFinset, s < y.r := fun s hs => hidx s (List.mem_toFinset.1 hs)
  have heS : ∀ i : Fin idx.length, idx.getD i 0 ∈ idx.toFinset := by
    intro i
    rw [List.getD_eq_getElem _ _ i.2, List.mem_toFinset]
    exact List.getElem_mem i.2
  have hSe : ∀ s ∈ idx.toFinset, ∃ i : Fin idx.length, idx.getD i 0 = s := by
    intro s hs
    obtain ⟨i, hi, rfl⟩ := List.getElem_of_mem (List.mem_toFinset.1 hs)
    exact ⟨⟨i, hi⟩, List.getD_eq_getElem _ _ hi⟩
  have hP : (Matrix.of fun i j : Fin idx.length => y.get (idx.getD i 0) (idx.getD j 0)) * p.toMat idx.length idx.length *
      (Matrix.of fun i j : Fin idx.length => y.get (idx.getD i 0) (idx.getD j 0)) =
      (Matrix.of fun i j : Fin idx.length => y.get (idx.getD i 0) (idx.getD j 0)) := by
    have := hpi.xpx
    rw [hmr, hmc, hmm] at this
    exact this
  obtain ⟨x, hx⟩ := exists_weights (fun i : Fin idx.length => idx.getD i 0) heS hSe v
  have hcore := kron_core (fun i : Fin idx.length => idx.getD i 0) heS hSe hns hP x (fun s => y.get s (K.getD b 0))
  beta_reduce at hcore
  rw [hx (fun s => y.get s (K.getD b 0))] at hcore
  -- currents of the kept nodes into the eliminated ones
  have hinto : ∀ s ∈ idx.toFinset, ∑ a ∈ range K.length, v (K.getD a 0) * y.get (K.getD a 0) s =
      - ∑ i ∈ idx.toFinset, v i * y.get i s := by
    intro s hs
    have := hv s hs
    unfold Spec.currents at this
    rw [sum_lists hS hL] at this
    exact eq_neg_of_add_eq_zero_left this
  unfold Spec.currents
  rw [sum_lists hS hL, ← hcore, hr]
  rw [Finset.sum_congr rfl (fun a ha => by
    rw [hent a b (by rw [hr]; exact Finset.mem_range.1 ha) (by rw [hr]; exact hb), mul_sub])]
  rw [Finset.sum_sub_distrib, sub_eq_add_neg]
  congr 1
  have hrow : ∀ j : Fin idx.length, ∑ a ∈ range K.length, v (K.getD a 0) *
      ((fun i : Fin idx.length => y.get (K.getD a 0) (idx.getD i 0)) ᵥ* p.toMat idx.length idx.length) j =
      - ((x ᵥ* (Matrix.of fun i j : Fin idx.length => y.get (idx.getD i 0) (idx.getD j 0))) ᵥ*
        p.toMat idx.length idx.length) j := by
    intro j
    simp only [Matrix.vecMul, dotProduct, Finset.mul_sum, ← Finset.sum_neg_distrib]
    rw [Finset.sum_comm]
    apply Finset.sum_congr rfl
    intro i _
    have h1 := hinto _ (heS i)
    have h2 := hx (fun s => y.get s (idx.getD i 0))
    rw [← h2] at h1
    simp only [Matrix.of_apply]
    rw [← neg_mul, ← h1, Finset.sum_mul]
    apply Finset.sum_congr rfl
    intro a _
    ring
  simp only [Finset.mul_sum]
  rw [Finset.sum_comm, ← Finset.sum_neg_distrib]
  apply Finset.sum_congr rfl
  intro j _
  rw [← neg_inj, neg_neg, ← neg_mul, ← hrow j, Finset.sum_mul]
  apply Finset.sum_congr rfl
  intro a _
  ring

/-- C55: for every square admittance matrix and every list of nodes with an invertible block, the reduction succeeds and
gives the admittance matrix seen from the remaining nodes, listed once each in some order. -/
theorem C55_exact {pinv : Arr2 ℂ → Except PyErr (Arr2 ℂ)} (hpinv : Spec.PinvContract pinv) {y : Arr2 ℂ}
    (hy : y.c = y.r) {idx : List ℕ} (hidx : ∀ k ∈ idx, k < y.r) (hns : Spec.BlockNonsingular y idx.toFinset) :
    ∃ red K, kronReduction pinv idx y = .ok red ∧ Spec.Lists y.r idx.toFinset K ∧ Spec.Equivalent y idx.toFinset K red := by
  obtain ⟨red, h1, h2⟩ := kron_equiv hpinv hy hidx hns
  exact ⟨red, _, h1, lists_complement y.r idx, h2⟩

/-- an index outside the matrix is refused -/
theorem C55_refused {pinv : Arr2 ℂ → Except PyErr (Arr2 ℂ)} (hpinv : Spec.PinvContract pinv) {y : Arr2 ℂ}
    (hy : y.c = y.r) {idx : List ℕ} (hidx : ¬ ∀ k ∈ idx, k < y.r) : kronReduction pinv idx y = .error .indexError := by
  have hK : ∀ k ∈ PySet.complement y.r idx, k < y.r := fun k hk => (((lists_complement y.r idx).2 k).1 hk).1
  have h1 : y.take (PySet.complement y.r idx) (PySet.complement y.r idx) = .ok (Arr2.ofFn _ _ _) :=
    if_pos ⟨hK, by rw [hy]; exact hK⟩
  have h2 : y.take (PySet.complement y.r idx) idx = .error .indexError := if_neg (fun h => hidx (by rw [← hy]; exact h.2))
  simp only [kronReduction, h1, h2, bind, Except.bind]

/-! ### uniqueness of the equivalent matrix -/

/-- voltages with prescribed values on the kept nodes and no current at the eliminated ones -/
theorem exists_voltages {y : Arr2 ℂ} {S : Finset ℕ} (hS : ∀ s ∈ S, s < y.r) (hns : Spec.BlockNonsingular y S) (w : ℕ → ℂ) :
    ∃ v : ℕ → ℂ, (∀ k, k ∉ S → v k = w k) ∧ ∀ s ∈ S, Spec.currents y v s = 0 := by
  classical
  obtain ⟨u, hu⟩ := block_solve hns (fun j => - ∑ i ∈ range y.r \ S, w i * y.get i j)
  refine ⟨fun k => if k ∈ S then u k else w k, fun k hk => if_neg hk, fun s hs => ?_⟩
  unfold Spec.currents
  have hsub : S ⊆ range y.r := fun k hk => Finset.mem_range.2 (hS k hk)
  rw [← Finset.sum_sdiff hsub]
  beta_reduce
  rw [Finset.sum_congr rfl (fun i hi => by rw [if_neg (Finset.mem_sdiff.1 hi).2])]
  rw [Finset.sum_congr (s₁ := S) rfl (fun i hi => by rw [if_pos hi]), hu s hs, add_neg_cancel]

theorem getD_inj {K : List ℕ} (h : K.Nodup) {a b : ℕ} (ha : a < K.length) (hb : b < K.length)
    (he : K.getD a 0 = K.getD b 0) : a = b := by
  rw [List.getD_eq_getElem _ _ ha, List.getD_eq_getElem _ _ hb] at he
  exact (List.Nodup.getElem_inj_iff h).1 he

theorem getD_mem {K : List ℕ} {a : ℕ} (ha : a < K.length) : K.getD a 0 ∈ K := by
  rw [List.getD_eq_getElem _ _ ha]; exact List.getElem_mem ha

/-- exact reduced matrices agree on the same pair of nodes -/
theorem equivalent_unique {y : Arr2 ℂ} {S : Finset ℕ} (hS : ∀ s ∈ S, s < y.r) (hns : Spec.BlockNonsingular y S)
    {K K' : List ℕ} (hK : Spec.Lists y.r S K) (hK' : Spec.Lists y.r S K') {red red' : Arr2 ℂ}
    (h : Spec.Equivalent y S K red) (h' : Spec.Equivalent y S K' red') {a b a' b' : ℕ} (ha : a < K.length)
    (hb : b < K.length) (ha' : a' < K'.length) (hb' : b' < K'.length) (haa : K.getD a 0 = K'.getD a' 0)
    (hbb : K.getD b 0 = K'.getD b' 0) : red.get a b = red'.get a' b' := by
  obtain ⟨v, hv1, hv2⟩ := exists_voltages hS hns (fun k => if k = K.getD a 0 then 1 else 0)
  have key : ∀ {K : List ℕ} {red : Arr2 ℂ}, Spec.Lists y.r S K → Spec.Equivalent y S K red → ∀ {a b : ℕ}, a < K.length →
      b < K.length → (∀ k, k ∉ S → v k = if k = K.getD a 0 then 1 else 0) →
      red.get a b = Spec.currents y v (K.getD b 0) := by
    intro K red hK h a b ha hb hv1
    rw [← h.2.2 v hv2 b hb]
    unfold Spec.currents
    rw [h.1, Finset.sum_eq_single a]
    · beta_reduce
      rw [hv1 _ ((hK.2 _).1 (getD_mem ha)).2, if_pos rfl, one_mul]
    · intro c hc hne
      have hc := Finset.mem_range.1 hc
      beta_reduce
      rw [hv1 _ ((hK.2 _).1 (getD_mem hc)).2, if_neg (fun he => hne (getD_inj hK.1 hc ha he)), zero_mul]
    · intro hn
      exact absurd (Finset.mem_range.2 ha) hn
  rw [key hK h ha hb hv1, key hK' h' ha' hb' (by rw [← haa]; exact hv1), hbb]

theorem conjTranspose_transpose' {m n : Type} (A : Matrix m n ℂ) : (Aᵀ)ᴴ = (Aᴴ)ᵀ := rfl

/-! ### C56 -/

/-- C56: the reduced matrix of a symmetric matrix is symmetric, whether or not the block is invertible -/
theorem C56_symmetric {pinv : Arr2 ℂ → Except PyErr (Arr2 ℂ)} (hpinv : Spec.PinvContract pinv) {y : Arr2 ℂ}
    (hy : y.c = y.r) {idx : List ℕ} (hidx : ∀ k ∈ idx, k < y.r) (hsym : ∀ i j, y.get i j = y.get j i) :
    ∃ red, kronReduction pinv idx y = .ok red ∧ red.r = red.c ∧ ∀ i j, red.get i j = red.get j i := by
  obtain ⟨red, hred, hr, hc, m, p, hm, hpi, hp, hmr, hmc, hmm, hent⟩ := kronReduction_ok hpinv hy hidx
  refine ⟨red, hred, by rw [hr, hc], ?_⟩
  set M := m.toMat idx.length idx.length with hMdef
  set P := p.toMat idx.length idx.length with hPdef
  have hMs : Mᵀ = M := by
    rw [hmm]; ext i j
    exact hsym _ _
  have q1 : M * P * M = M := by have := hpi.xpx; rwa [hmr, hmc] at this
  have q2 : P * M * P = P := by have := hpi.pxp; rwa [hmr, hmc] at this
  have q3 : (M * P)ᴴ = M * P := by have := hpi.herm_xp; rwa [hmr, hmc] at this
  have q4 : (P * M)ᴴ = P * M := by have := hpi.herm_px; rwa [hmr, hmc] at this
  have hPs : Pᵀ = P := by
    apply mp_unique (M := M) _ _ _ _ q1 q2 q3 q4
    · have := congrArg transpose q1
      rwa [transpose_mul, transpose_mul, hMs, ← Matrix.mul_assoc] at this
    · have := congrArg transpose q2
      rwa [transpose_mul, transpose_mul, hMs, ← Matrix.mul_assoc] at this
    · have e : M * Pᵀ = (P * M)ᵀ := by rw [transpose_mul, hMs]
      rw [e, conjTranspose_transpose', q4]
    · have e : Pᵀ * M = (M * P)ᵀ := by rw [transpose_mul, hMs]
      rw [e, conjTranspose_transpose', q3]
  intro i j
  by_cases hij : i < red.r ∧ j < red.r
  · rw [hent i j hij.1 hij.2, hent j i hij.2 hij.1, hsym]
    congr 1
    set K := PySet.complement y.r idx
    have : ∀ (f g : Fin idx.length → ℂ), ∑ t, (f ᵥ* P) t * g t = ∑ t, (g ᵥ* P) t * f t := by
      intro f g
      have h1 : ∑ t, (f ᵥ* P) t * g t = (f ᵥ* P) ⬝ᵥ g := rfl
      have h2 : ∑ t, (g ᵥ* P) t * f t = (g ᵥ* P) ⬝ᵥ f := rfl
      rw [h1, h2, ← Matrix.dotProduct_mulVec, dotProduct_comm, ← Matrix.vecMul_transpose, hPs]
    rw [Finset.sum_congr rfl (fun t _ => by rw [hsym (idx.getD t 0) (K.getD j 0)])]
    rw [this]
    apply Finset.sum_congr rfl
    intro t _
    rw [hsym (K.getD i 0)]
  · rw [red.oob i j (fun h => hij ⟨h.1, by have := h.2; rw [hc, ← hr] at this; exact this⟩),
      red.oob j i (fun h => hij ⟨by have := h.2; rw [hc, ← hr] at this; exact this, h.1⟩)]

/-- C56: zero row sums are kept -/
theorem C56_rowSums {pinv : Arr2 ℂ → Except PyErr (Arr2 ℂ)} (hpinv : Spec.PinvContract pinv) {y : Arr2 ℂ}
    (hy : y.c = y.r) {idx : List ℕ} (hidx : ∀ k ∈ idx, k < y.r) (hns : Spec.BlockNonsingular y idx.toFinset)
    (hz : ∀ i, i < y.r → ∑ j ∈ range y.c, y.get i j = 0) :
    ∃ red, kronReduction pinv idx y = .ok red ∧ ∀ a, a < red.r → ∑ b ∈ range red.c, red.get a b = 0 := by
  obtain ⟨red, hred, he⟩ := kron_equiv hpinv hy hidx hns
  refine ⟨red, hred, ?_⟩
  intro a ha
  have hL := lists_complement y.r idx
  set K := PySet.complement y.r idx with hK
  have hS : ∀ s ∈ idx.toFinset, s < y.r := fun s hs => hidx s (List.mem_toFinset.1 hs)
  rw [he.1] at ha
  obtain ⟨v, hv1, hv2⟩ := exists_voltages hS hns (fun k => if k = K.getD a 0 then 1 else 0)
  have hrow : ∀ b, b < K.length → red.get a b = Spec.currents y v (K.getD b 0) := by
    intro b hb
    rw [← he.2.2 v hv2 b hb]
    unfold Spec.currents
    rw [he.1, Finset.sum_eq_single a]
    · beta_reduce
      rw [hv1 _ ((hL.2 _).1 (getD_mem ha)).2, if_pos rfl, one_mul]
    · intro c hc hne
      have hc := Finset.mem_range.1 hc
      beta_reduce
      rw [hv1 _ ((hL.2 _).1 (getD_mem hc)).2, if_neg (fun he => hne (getD_inj hL.1 hc ha he)), zero_mul]
    · intro hn
      exact absurd (Finset.mem_range.2 ha) hn
  rw [he.2.1, Finset.sum_congr rfl (fun b hb => hrow b (Finset.mem_range.1 hb))]
  have hall : ∑ j ∈ range y.r, Spec.currents y v j = 0 := by
    unfold Spec.currents
    rw [Finset.sum_comm]
    apply Finset.sum_eq_zero
    intro i hi
    rw [← Finset.mul_sum]
    have := hz i (Finset.mem_range.1 hi)
    rw [hy] at this
    rw [this, mul_zero]
  rw [sum_lists hS hL, Finset.sum_eq_zero hv2, add_zero] at hall
  exact hall

/-- the order of the remaining nodes depends only on which nodes are eliminated -/
theorem complement_congr (n : ℕ) {idx idx' : List ℕ} (h : ∀ k, k ∈ idx ↔ k ∈ idx') :
    PySet.complement n idx = PySet.complement n idx' := by
  have hp : idx.dedup.Perm idx'.dedup := by
    rw [List.perm_ext_iff_of_nodup (List.nodup_dedup _) (List.nodup_dedup _)]
    intro k
    rw [List.mem_dedup, List.mem_dedup]; exact h k
  have hf : (fun k => decide (k ∉ idx.dedup)) = fun k => decide (k ∉ idx'.dedup) := by
    funext k
    rw [decide_eq_decide]
    rw [hp.mem_iff]
  unfold PySet.complement PySet.difference
  rw [hp.length_eq, hf]

/-- C56: only the set of eliminated nodes matters: neither repetitions nor the order in which they are listed -/
theorem C56_duplicates {pinv : Arr2 ℂ → Except PyErr (Arr2 ℂ)} (hpinv : Spec.PinvContract pinv) {y : Arr2 ℂ}
    (hy : y.c = y.r) {idx idx' : List ℕ} (hidx : ∀ k ∈ idx, k < y.r) (hns : Spec.BlockNonsingular y idx.toFinset)
    (hsame : ∀ k, k ∈ idx ↔ k ∈ idx') :
    ∃ red, kronReduction pinv idx y = .ok red ∧ kronReduction pinv idx' y = .ok red := by
  have hS : ∀ s ∈ idx.toFinset, s < y.r := fun s hs => hidx s (List.mem_toFinset.1 hs)
  have hset : idx'.toFinset = idx.toFinset := by ext k; simp [hsame]
  obtain ⟨red, h1, h2⟩ := kron_equiv hpinv hy hidx hns
  obtain ⟨red', h1', h2'⟩ := kron_equiv hpinv hy (idx := idx') (fun k hk => hidx k ((hsame k).2 hk)) (by rw [hset]; exact hns)
  rw [hset, ← complement_congr y.r hsame] at h2'
  have hL := lists_complement y.r idx
  refine ⟨red, h1, ?_⟩
  rw [h1']
  congr 1
  refine Arr2.ext' (A := red') (B := red) (by rw [h2'.1, h2.1]) (by rw [h2'.2.1, h2.2.1]) ?_
  intro a b ha hb
  rw [h2'.1] at ha
  rw [h2'.2.1] at hb
  exact equivalent_unique hS hns hL hL h2' h2 ha hb ha hb rfl rfl

/-- the second block is invertible when the whole one is -/
theorem second_block {y red : Arr2 ℂ} {S1 S2 : Finset ℕ} (hS1 : ∀ s ∈ S1, s < y.r) {K : List ℕ} (hK : Spec.Lists y.r S1 K)
    (hns1 : Spec.BlockNonsingular y S1) (he : Spec.Equivalent y S1 K red) (hS2 : ∀ s ∈ S2, s < K.length)
    (hns : Spec.BlockNonsingular y (S1 ∪ S2.image (K.getD · 0))) : Spec.BlockNonsingular red S2 := by
  classical
  intro u hu i hi
  have hinj : ∀ s ∈ S2, ∀ t ∈ S2, K.getD s 0 = K.getD t 0 → s = t :=
    fun s hs t ht h => getD_inj hK.1 (hS2 s hs) (hS2 t ht) h
  -- u on the second set, 0 on the other kept nodes
  obtain ⟨v, hv1, hv2⟩ := exists_voltages hS1 hns1
    (fun k => ∑ s ∈ S2, if K.getD s 0 = k then u s else 0)
  have hvK : ∀ a, a < K.length → v (K.getD a 0) = if a ∈ S2 then u a else 0 := by
    intro a ha
    rw [hv1 _ ((hK.2 _).1 (getD_mem ha)).2]
    split
    · rename_i h
      rw [Finset.sum_eq_single a]
      · rw [if_pos rfl]
      · intro t ht hne
        exact if_neg (fun e => hne (getD_inj hK.1 (hS2 t ht) ha e))
      · intro hn; exact absurd h hn
    · rename_i h
      apply Finset.sum_eq_zero
      intro t ht
      exact if_neg (fun e => h (by rw [← getD_inj hK.1 (hS2 t ht) ha e]; exact ht))
  have hsupp : ∀ k, k < y.r → k ∉ S1 ∪ S2.image (K.getD · 0) → v k = 0 := by
    intro k hk hn
    rw [Finset.mem_union, not_or] at hn
    rw [hv1 k hn.1]
    apply Finset.sum_eq_zero
    intro t ht
    exact if_neg (fun e => hn.2 (Finset.mem_image.2 ⟨t, ht, e⟩))
  have hsub : S1 ∪ S2.image (K.getD · 0) ⊆ range y.r := by
    intro k hk
    rw [Finset.mem_range]
    rcases Finset.mem_union.1 hk with h | h
    · exact hS1 k h
    · obtain ⟨t, ht, rfl⟩ := Finset.mem_image.1 h
      exact ((hK.2 _).1 (getD_mem (hS2 t ht))).1
  have hcur : ∀ j, Spec.currents y v j = ∑ i ∈ S1 ∪ S2.image (K.getD · 0), v i * y.get i j := by
    intro j
    unfold Spec.currents
    rw [← Finset.sum_subset hsub]
    intro k hk hn
    rw [hsupp k (Finset.mem_range.1 hk) hn, zero_mul]
  have hzero := hns v (by
    intro j hj
    rw [← hcur]
    rcases Finset.mem_union.1 hj with h | h
    · exact hv2 j h
    · obtain ⟨t, ht, rfl⟩ := Finset.mem_image.1 h
      rw [← he.2.2 v hv2 t (hS2 t ht)]
      unfold Spec.currents
      rw [← hu t ht, he.1]
      have hsub2 : S2 ⊆ range K.length := fun s hs => Finset.mem_range.2 (hS2 s hs)
      rw [← Finset.sum_subset hsub2]
      · apply Finset.sum_congr rfl
        intro s hs
        beta_reduce
        rw [hvK s (hS2 s hs), if_pos hs]
      · intro a ha hn
        beta_reduce
        rw [hvK a (Finset.mem_range.1 ha), if_neg hn, zero_mul])
  have := hzero (K.getD i 0) (Finset.mem_union_right _ (Finset.mem_image.2 ⟨i, hi, rfl⟩))
  rw [hvK i (hS2 i hi), if_pos hi] at this
  exact this

/-- C56: eliminating in two steps (the second list numbers the nodes of the reduced matrix) gives the same admittances
between the same nodes as eliminating everything at once -/
theorem C56_two_steps {pinv : Arr2 ℂ → Except PyErr (Arr2 ℂ)} (hpinv : Spec.PinvContract pinv) {y : Arr2 ℂ}
    (hy : y.c = y.r) {idx1 idx2 : List ℕ} (hidx1 : ∀ k ∈ idx1, k < y.r)
    (hidx2 : ∀ k ∈ idx2, k < (PySet.complement y.r idx1).length)
    (hns1 : Spec.BlockNonsingular y idx1.toFinset)
    (hns : Spec.BlockNonsingular y (idx1 ++ idx2.map ((PySet.complement y.r idx1).getD · 0)).toFinset) :
    ∃ red1 red2 red, kronReduction pinv idx1 y = .ok red1 ∧ kronReduction pinv idx2 red1 = .ok red2 ∧
      kronReduction pinv (idx1 ++ idx2.map ((PySet.complement y.r idx1).getD · 0)) y = .ok red ∧
      ∃ N2 N, Spec.Lists y.r (idx1 ++ idx2.map ((PySet.complement y.r idx1).getD · 0)).toFinset N2 ∧
        Spec.Lists y.r (idx1 ++ idx2.map ((PySet.complement y.r idx1).getD · 0)).toFinset N ∧
        red2.r = N2.length ∧ red2.c = N2.length ∧ red.r = N.length ∧ red.c = N.length ∧
        ∀ a b a' b', a < N2.length → b < N2.length → a' < N.length → b' < N.length →
          N2.getD a 0 = N.getD a' 0 → N2.getD b 0 = N.getD b' 0 → red2.get a b = red.get a' b' := by
  classical
  set K1 := PySet.complement y.r idx1 with hK1
  have hL1 : Spec.Lists y.r idx1.toFinset K1 := lists_complement y.r idx1
  have hset : (idx1 ++ idx2.map (K1.getD · 0)).toFinset = idx1.toFinset ∪ idx2.toFinset.image (K1.getD · 0) := by
    ext k
    simp [List.mem_toFinset]
  have hS1 : ∀ s ∈ idx1.toFinset, s < y.r := fun s hs => hidx1 s (List.mem_toFinset.1 hs)
  have hS2 : ∀ s ∈ idx2.toFinset, s < K1.length := fun s hs => hidx2 s (List.mem_toFinset.1 hs)
  obtain ⟨red1, h1, e1⟩ := kron_equiv hpinv hy hidx1 hns1
  have hns2 : Spec.BlockNonsingular red1 idx2.toFinset :=
    second_block hS1 hL1 hns1 e1 hS2 (by rw [← hset]; exact hns)
  obtain ⟨red2, h2, e2⟩ := kron_equiv hpinv (y := red1) (by rw [e1.1, e1.2.1]) (idx := idx2)
    (fun k hk => by rw [e1.1]; exact hidx2 k hk) hns2
  have hall : ∀ k ∈ idx1 ++ idx2.map (K1.getD · 0), k < y.r := by
    intro k hk
    rcases List.mem_append.1 hk with h | h
    · exact hidx1 k h
    · obtain ⟨t, ht, rfl⟩ := List.mem_map.1 h
      exact ((hL1.2 _).1 (getD_mem (hidx2 t ht))).1
  obtain ⟨red, h3, e3⟩ := kron_equiv hpinv hy hall hns
  set K2 := PySet.complement red1.r idx2 with hK2
  have hL2 : Spec.Lists red1.r idx2.toFinset K2 := lists_complement red1.r idx2
  rw [e1.1] at hL2
  have hlt2 : ∀ a, a < K2.length → K2.getD a 0 < K1.length := fun a ha => ((hL2.2 _).1 (getD_mem ha)).1
  have hgetN2 : ∀ a, a < K2.length → (K2.map (K1.getD · 0)).getD a 0 = K1.getD (K2.getD a 0) 0 := by
    intro a ha
    rw [List.getD_eq_getElem _ _ (by simpa using ha), List.getElem_map, List.getD_eq_getElem K2 _ ha]
  have hLN2 : Spec.Lists y.r (idx1 ++ idx2.map (K1.getD · 0)).toFinset (K2.map (K1.getD · 0)) := by
    refine ⟨?_, ?_⟩
    · refine List.Nodup.map_on ?_ hL2.1
      intro a ha b hb hab
      exact getD_inj hL1.1 ((hL2.2 a).1 ha).1 ((hL2.2 b).1 hb).1 hab
    · intro k
      rw [hset, Finset.mem_union, not_or, List.mem_map]
      constructor
      · rintro ⟨a, ha, rfl⟩
        have ha' := (hL2.2 a).1 ha
        have hm := (hL1.2 _).1 (getD_mem ha'.1)
        refine ⟨hm.1, hm.2, ?_⟩
        intro hc
        obtain ⟨t, ht, hte⟩ := Finset.mem_image.1 hc
        have := getD_inj hL1.1 (hS2 t ht) ha'.1 hte
        exact ha'.2 (this ▸ ht)
      · rintro ⟨hk, hk1, hk2⟩
        have hkK := (hL1.2 k).2 ⟨hk, hk1⟩
        obtain ⟨a, ha, hae⟩ := List.getElem_of_mem hkK
        have hae' : K1.getD a 0 = k := by rw [List.getD_eq_getElem _ _ ha, hae]
        exact ⟨a, (hL2.2 a).2 ⟨ha, fun h => hk2 (Finset.mem_image.2 ⟨a, h, hae'⟩)⟩, hae'⟩
  -- the two-step result is exact for the whole set
  have eN2 : Spec.Equivalent y (idx1 ++ idx2.map (K1.getD · 0)).toFinset (K2.map (K1.getD · 0)) red2 := by
    refine ⟨by rw [e2.1, List.length_map], by rw [e2.2.1, List.length_map], ?_⟩
    intro v hv b hb
    rw [List.length_map] at hb
    rw [hset] at hv
    have hv1 : ∀ s ∈ idx1.toFinset, Spec.currents y v s = 0 := fun s hs => hv s (Finset.mem_union_left _ hs)
    have hv2 : ∀ s ∈ idx2.toFinset, Spec.currents red1 (fun a => v (K1.getD a 0)) s = 0 := by
      intro s hs
      rw [e1.2.2 v hv1 s (hS2 s hs)]
      exact hv _ (Finset.mem_union_right _ (Finset.mem_image.2 ⟨s, hs, rfl⟩))
    have := e2.2.2 _ hv2 b hb
    rw [e1.2.2 v hv1 _ (hlt2 b hb), ← hgetN2 b hb] at this
    rw [← this]
    unfold Spec.currents
    apply Finset.sum_congr rfl
    intro a ha
    rw [e2.1, Finset.mem_range] at ha
    beta_reduce
    rw [hgetN2 a ha]
  have hS : ∀ s ∈ (idx1 ++ idx2.map (K1.getD · 0)).toFinset, s < y.r := fun s hs => hall s (List.mem_toFinset.1 hs)
  have hLN := lists_complement y.r (idx1 ++ idx2.map (K1.getD · 0))
  refine ⟨red1, red2, red, h1, h2, h3, _, _, hLN2, hLN, eN2.1, eN2.2.1, e3.1, e3.2.1, ?_⟩
  intro a b a' b' ha hb ha' hb' haa hbb
  exact equivalent_unique hS hns hLN2 hLN eN2 e3 ha hb ha' hb' haa hbb

/-! ### C57 -/

/-- C57 partial: with at most eight nodes, or at least three fifths of the nodes kept, the reduced matrix is in the order in
which `np.delete` keeps the columns of the measurements. Missing: the other cases, in which the order follows the hash
table of the set (see `C57_violated`). -/
theorem C57_partial {pinv : Arr2 ℂ → Except PyErr (Arr2 ℂ)} (hpinv : Spec.PinvContract pinv) {y : Arr2 ℂ}
    (hy : y.c = y.r) {idx : List ℕ} (hidx : ∀ k ∈ idx, k < y.r) (hns : Spec.BlockNonsingular y idx.toFinset)
    (h : y.r ≤ 8 ∨ 3 * y.r ≤ 5 * (Arr2.keepIdx y.r idx).length) :
    ∃ red, kronReduction pinv idx y = .ok red ∧ Spec.Equivalent y idx.toFinset (Arr2.keepIdx y.r idx) red := by
  obtain ⟨red, h1, h2⟩ := kron_equiv hpinv hy hidx hns
  rw [PySet.complement_sorted y.r idx h] at h2
  exact ⟨red, h1, h2⟩

/-- `diag(1, …, n)` -/
def countingDiag (n : ℕ) : Arr2 ℂ := Arr2.ofFn n n (fun i j => if i = j then (i : ℂ) + 1 else 0)

theorem countingDiag_nonsingular (n : ℕ) {S : Finset ℕ} (hS : ∀ s ∈ S, s < n) :
    Spec.BlockNonsingular (countingDiag n) S := by
  intro u hu i hi
  have h := hu i hi
  rw [Finset.sum_eq_single i] at h
  · unfold countingDiag at h
    rw [Arr2.ofFn_get _ (hS i hi) (hS i hi), if_pos rfl] at h
    rcases mul_eq_zero.1 h with h | h
    · exact h
    · exact absurd h (by exact_mod_cast Nat.succ_ne_zero i)
  · intro j hj hne
    unfold countingDiag
    rw [Arr2.ofFn_get _ (hS j hj) (hS i hi), if_neg hne, mul_zero]
  · intro hn; exact absurd hi hn

theorem keepIdx_keepIdx (n : ℕ) (hn : 9 ≤ n) : PySet.kept n (Arr2.keepIdx n [1, 8]) = [1, 8] := by
  refine PySet.eq_of_perm_sorted ?_ (PySet.kept_sorted _ _) (by simp)
  rw [List.perm_ext_iff_of_nodup ((PySet.kept_sorted _ _).imp (fun h => by omega)) (by simp)]
  intro k
  simp only [PySet.kept, Arr2.keepIdx, List.mem_filter, List.mem_range, decide_eq_true_eq, List.mem_cons, List.not_mem_nil,
    or_false]
  omega

/-- C57 violated: in every network of at least nine nodes there are nodes to eliminate (all but two) such that the reduced
matrix is not in the order of the remaining measurements: reading it in that order gives wrong currents. -/
theorem C57_violated (n : ℕ) (hn : 9 ≤ n) {pinv : Arr2 ℂ → Except PyErr (Arr2 ℂ)} (hpinv : Spec.PinvContract pinv) :
    ∃ (y : Arr2 ℂ) (idx : List ℕ) (red : Arr2 ℂ), y.r = n ∧ y.c = n ∧ (∀ i j, y.get i j = y.get j i) ∧
      (∀ k ∈ idx, k < n) ∧ Spec.BlockNonsingular y idx.toFinset ∧ kronReduction pinv idx y = .ok red ∧
      ¬ Spec.Equivalent y idx.toFinset (Arr2.keepIdx n idx) red := by
  have hidx : ∀ k ∈ Arr2.keepIdx n [1, 8], k < n := by
    intro k hk
    simp only [Arr2.keepIdx, List.mem_filter, List.mem_range] at hk
    exact hk.1
  have hns := countingDiag_nonsingular n (S := (Arr2.keepIdx n [1, 8]).toFinset) (fun s hs => hidx s (List.mem_toFinset.1 hs))
  obtain ⟨red, h1, h2⟩ := kron_equiv hpinv (y := countingDiag n) rfl hidx hns
  have hK : PySet.complement (countingDiag n).r (Arr2.keepIdx n [1, 8]) = [8, 1] :=
    PySet.complement_unsorted n hn _ (keepIdx_keepIdx n hn)
  rw [hK] at h2
  refine ⟨countingDiag n, Arr2.keepIdx n [1, 8], red, rfl, rfl, ?_, hidx, hns, h1, ?_⟩
  · intro i j
    unfold countingDiag
    rw [Arr2.ofFn_get', Arr2.ofFn_get']
    by_cases hij : i = j
    · subst hij; rfl
    · have hji : ¬ j = i := fun h => hij h.symm
      simp only [hij, hji, if_false, ite_self]
  · intro h
    have hkeep : Arr2.keepIdx n (Arr2.keepIdx n [1, 8]) = [1, 8] := keepIdx_keepIdx n hn
    rw [hkeep] at h
    -- unit voltage at the two kept nodes
    have hcur : ∀ j, j < n → Spec.currents (countingDiag n) (fun k => if k = 1 ∨ k = 8 then 1 else 0) j =
        if j = 1 ∨ j = 8 then (j : ℂ) + 1 else 0 := by
      intro j hj
      unfold Spec.currents
      rw [Finset.sum_eq_single j]
      · unfold countingDiag
        rw [Arr2.ofFn_get _ hj hj, if_pos rfl]
        beta_reduce
        split
        · rw [one_mul]
        · rw [zero_mul]
      · intro k hk hkj
        unfold countingDiag
        have hk' : k < n := Finset.mem_range.1 hk
        rw [Arr2.ofFn_get _ hk' hj, if_neg hkj, mul_zero]
      · intro hn'; exact absurd (Finset.mem_range.2 hj) hn'
    have hzero : ∀ s ∈ (Arr2.keepIdx n [1, 8]).toFinset,
        Spec.currents (countingDiag n) (fun k => if k = 1 ∨ k = 8 then 1 else 0) s = 0 := by
      intro s hs
      rw [hcur s (hidx s (List.mem_toFinset.1 hs)), if_neg]
      intro hc
      rw [List.mem_toFinset] at hs
      simp only [Arr2.keepIdx, List.mem_filter, decide_eq_true_eq, List.mem_cons, List.not_mem_nil, or_false] at hs
      exact hs.2 hc
    have a1 : Spec.currents red _ 0 = Spec.currents _ _ 8 := h2.2.2 _ hzero 0 (by simp)
    have a2 : Spec.currents red _ 0 = Spec.currents _ _ 1 := h.2.2 _ hzero 0 (by simp)
    have hr : red.r = 2 := h.1
    rw [hcur 8 (by omega)] at a1
    rw [hcur 1 (by omega)] at a2
    simp only [Spec.currents, hr, Finset.sum_range_succ, Finset.sum_range_zero] at a1 a2
    simp at a1 a2
    rw [a2] at a1
    norm_num at a1

/-! ### the invertibility hypothesis is needed for C56 -/

/-- a symmetric matrix whose block on nodes 0 and 1 is singular -/
def singularDemo : Arr2 ℂ := Arr2.ofFn 3 3 (fun i j => if i + j ≤ 2 ∧ (i, j) ≠ (2, 2) then 1 else 0)

theorem ones_pinv {n : ℕ} (hn : n ≠ 0) {m p : Arr2 ℂ} (hm : m.r = n ∧ m.c = n)
    (h1 : ∀ i j, i < n → j < n → m.get i j = 1) (hp : Spec.PseudoInverse m p) :
    ∀ i j : Fin n, p.toMat n n i j = 1 / (n : ℂ) ^ 2 := by
  have hn' : (n : ℂ) ≠ 0 := by exact_mod_cast hn
  have hM : m.toMat n n = Matrix.of (fun _ _ => (1 : ℂ)) := by
    ext i j; exact h1 i j i.2 j.2
  have q1 : m.toMat n n * p.toMat n n * m.toMat n n = m.toMat n n := by have := hp.xpx; rwa [hm.1, hm.2] at this
  have q2 : p.toMat n n * m.toMat n n * p.toMat n n = p.toMat n n := by have := hp.pxp; rwa [hm.1, hm.2] at this
  have q3 : (m.toMat n n * p.toMat n n)ᴴ = m.toMat n n * p.toMat n n := by have := hp.herm_xp; rwa [hm.1, hm.2] at this
  have q4 : (p.toMat n n * m.toMat n n)ᴴ = p.toMat n n * m.toMat n n := by have := hp.herm_px; rwa [hm.1, hm.2] at this
  have hmul : ∀ a b : ℂ, (Matrix.of (fun _ _ : Fin n => a)) * (Matrix.of (fun _ _ : Fin n => b)) =
      Matrix.of (fun _ _ => (n : ℂ) * (a * b)) := by
    intro a b
    ext i j
    simp [Matrix.mul_apply]
  have : p.toMat n n = Matrix.of (fun _ _ => 1 / (n : ℂ) ^ 2) := by
    refine mp_unique (M := m.toMat n n) q1 q2 q3 q4 ?_ ?_ ?_ ?_
    · rw [hM, hmul, hmul]; ext i j; simp only [Matrix.of_apply]; field_simp
    · rw [hM, hmul, hmul]; ext i j; simp only [Matrix.of_apply]; field_simp
    · rw [hM, hmul]; ext i j; simp [Matrix.conjTranspose_apply]
    · rw [hM, hmul]; ext i j; simp [Matrix.conjTranspose_apply]
  intro i j
  rw [this]; rfl

/-- with a singular block, listing a node twice can change the result: `C56_duplicates` needs its hypothesis -/
theorem C56_duplicates_singular {pinv : Arr2 ℂ → Except PyErr (Arr2 ℂ)} (hpinv : Spec.PinvContract pinv) :
    ∃ red red', kronReduction pinv [0, 1] singularDemo = .ok red ∧ kronReduction pinv [0, 1, 0] singularDemo = .ok red' ∧
      red.get 0 0 = -1 / 4 ∧ red'.get 0 0 = -4 / 9 := by
  have hg : ∀ i j, i < 3 → j < 3 → singularDemo.get i j = if i + j ≤ 2 ∧ (i, j) ≠ (2, 2) then 1 else 0 :=
    fun i j hi hj => Arr2.ofFn_get _ hi hj
  have hc1 : PySet.complement 3 [0, 1] = [2] := by decide
  have hc2 : PySet.complement 3 [0, 1, 0] = [2] := by decide
  obtain ⟨red, h1, hr, -, m, p, hm, hpi, -, hmr, hmc, hmm, hent⟩ :=
    kronReduction_ok hpinv (y := singularDemo) rfl (idx := [0, 1]) (by simp [singularDemo])
  obtain ⟨red', h1', hr', -, m', p', hm', hpi', -, hmr', hmc', hmm', hent'⟩ :=
    kronReduction_ok hpinv (y := singularDemo) rfl (idx := [0, 1, 0]) (by simp [singularDemo])
  have hs : singularDemo.r = 3 := rfl
  rw [hs, hc1] at hr hent
  rw [hs, hc2] at hr' hent'
  refine ⟨red, red', h1, h1', ?_, ?_⟩
  · have hP := ones_pinv (n := 2) (by omega) ⟨hmr, hmc⟩ (by
      intro i j hi hj
      have : m.get i j = _ := congrFun (congrFun hmm ⟨i, hi⟩) ⟨j, hj⟩
      rw [this]
      simp only [Matrix.of_apply]
      interval_cases i <;> interval_cases j <;> simp [hg]) hpi
    rw [hent 0 0 (by rw [hr]; simp) (by rw [hr]; simp)]
    simp only [Matrix.vecMul, dotProduct, List.length_cons, List.length_nil, Nat.reduceAdd, zero_add] at *
    simp only [hP]
    simp [Fin.sum_univ_succ, hg]
    norm_num
  · have hP := ones_pinv (n := 3) (by omega) ⟨hmr', hmc'⟩ (by
      intro i j hi hj
      have : m'.get i j = _ := congrFun (congrFun hmm' ⟨i, hi⟩) ⟨j, hj⟩
      rw [this]
      simp only [Matrix.of_apply]
      interval_cases i <;> interval_cases j <;> simp [hg]) hpi'
    rw [hent' 0 0 (by rw [hr']; simp) (by rw [hr']; simp)]
    simp only [Matrix.vecMul, dotProduct, List.length_cons, List.length_nil, Nat.reduceAdd, zero_add] at *
    simp only [hP]
    simp [Fin.sum_univ_succ, hg]
    norm_num

/-! ### C94 -/

/-- two nodes joined by a line -/
def Spec.Adjacent (y : Arr2 ℂ) (i j : ℕ) : Prop := i < y.r ∧ j < y.r ∧ i ≠ j ∧ y.get i j ≠ 0

/-- C94: in a network of lines with positive conductance, any set of nodes each of which is connected to a node outside the
set has an invertible block, so that it can be Kron-reduced. -/
theorem C94_nonsingular {y : Arr2 ℂ} (hy : y.c = y.r) (hsym : ∀ i j, y.get i j = y.get j i)
    (hz : ∀ i, i < y.r → ∑ j ∈ range y.c, y.get i j = 0) (hg : ∀ i j, Spec.Adjacent y i j → (y.get i j).re < 0)
    {S : Finset ℕ} (hS : ∀ s ∈ S, s < y.r) (hconn : ∀ s ∈ S, ∃ k, k ∉ S ∧ Relation.ReflTransGen (Spec.Adjacent y) s k) :
    Spec.BlockNonsingular y S := by
  classical
  intro u hu s hs
  rw [hy] at hz
  set n := y.r with hn
  let w : ℕ → ℂ := fun k => if k ∈ S then u k else 0
  have hwS : ∀ k ∈ S, w k = u k := fun k hk => if_pos hk
  have hw0 : ∀ k, k ∉ S → w k = 0 := fun k hk => if_neg hk
  have hsub : S ⊆ range n := fun k hk => Finset.mem_range.2 (hS k hk)
  have hcur : ∀ j ∈ S, ∑ i ∈ range n, w i * y.get i j = 0 := by
    intro j hj
    rw [← hu j hj, ← Finset.sum_subset hsub]
    · apply Finset.sum_congr rfl
      intro i hi
      rw [hwS i hi]
    · intro k _ hk
      rw [hw0 k hk, zero_mul]
  have hQ : ∑ j ∈ range n, ∑ i ∈ range n, y.get i j * (w i * star (w j)) = 0 := by
    apply Finset.sum_eq_zero
    intro j _
    by_cases hj : j ∈ S
    · have : ∑ i ∈ range n, y.get i j * (w i * star (w j)) = (∑ i ∈ range n, w i * y.get i j) * star (w j) := by
        rw [Finset.sum_mul]
        apply Finset.sum_congr rfl
        intro i _
        ring
      rw [this, hcur j hj, zero_mul]
    · simp [hw0 j hj]
  have hQ' : ∑ j ∈ range n, ∑ i ∈ range n, y.get i j * (w j * star (w i)) = 0 := by
    rw [Finset.sum_comm]
    rw [← hQ]
    apply Finset.sum_congr rfl
    intro i _
    apply Finset.sum_congr rfl
    intro j _
    rw [hsym]
  have hD : ∑ j ∈ range n, ∑ i ∈ range n, y.get i j * (w j * star (w j)) = 0 := by
    apply Finset.sum_eq_zero
    intro j hj
    rw [← Finset.sum_mul, Finset.sum_congr rfl (fun i _ => hsym i j), hz j (Finset.mem_range.1 hj), zero_mul]
  have hD' : ∑ j ∈ range n, ∑ i ∈ range n, y.get i j * (w i * star (w i)) = 0 := by
    rw [Finset.sum_comm]
    apply Finset.sum_eq_zero
    intro i hi
    rw [← Finset.sum_mul, hz i (Finset.mem_range.1 hi), zero_mul]
  have htot : ∑ j ∈ range n, ∑ i ∈ range n, y.get i j * ((w i - w j) * star (w i - w j)) = 0 := by
    have : ∀ i j, y.get i j * ((w i - w j) * star (w i - w j)) =
        y.get i j * (w i * star (w i)) + y.get i j * (w j * star (w j)) - y.get i j * (w i * star (w j)) -
          y.get i j * (w j * star (w i)) := by
      intro i j
      rw [star_sub]; ring
    simp only [this, Finset.sum_sub_distrib, Finset.sum_add_distrib]
    rw [hQ, hQ', hD, hD']
    ring
  have hre : ∑ j ∈ range n, ∑ i ∈ range n, -(y.get i j).re * Complex.normSq (w i - w j) = 0 := by
    have := congrArg Complex.re htot
    rw [Complex.re_sum] at this
    rw [← neg_eq_zero, ← Finset.sum_neg_distrib]
    rw [Complex.zero_re] at this
    rw [← this]
    apply Finset.sum_congr rfl
    intro j _
    rw [Complex.re_sum, ← Finset.sum_neg_distrib]
    apply Finset.sum_congr rfl
    intro i _
    have h1 : (w i - w j) * star (w i - w j) = ((Complex.normSq (w i - w j) : ℝ) : ℂ) := Complex.mul_conj _
    rw [h1, Complex.re_mul_ofReal]
    ring
  have hnn : ∀ i j, i < n → j < n → 0 ≤ -(y.get i j).re * Complex.normSq (w i - w j) := by
    intro i j hi hj
    by_cases hij : i = j
    · subst hij; simp
    · by_cases h0 : y.get i j = 0
      · simp [h0]
      · have := hg i j ⟨hi, hj, hij, h0⟩
        exact mul_nonneg (by linarith) (Complex.normSq_nonneg _)
  have hadj : ∀ i j, Spec.Adjacent y i j → w i = w j := by
    intro i j h
    have h1 := (Finset.sum_eq_zero_iff_of_nonneg (fun j hj => Finset.sum_nonneg (fun i hi =>
      hnn i j (Finset.mem_range.1 hi) (Finset.mem_range.1 hj)))).1 hre j (Finset.mem_range.2 h.2.1)
    have h2 := (Finset.sum_eq_zero_iff_of_nonneg (fun i hi =>
      hnn i j (Finset.mem_range.1 hi) h.2.1)).1 h1 i (Finset.mem_range.2 h.1)
    have h3 := hg i j h
    rcases mul_eq_zero.1 h2 with h4 | h4
    · linarith
    · exact sub_eq_zero.1 (Complex.normSq_eq_zero.1 h4)
  obtain ⟨k, hk, hpath⟩ := hconn s hs
  have : w s = w k := by
    clear hk
    induction hpath with
    | refl => rfl
    | tail _ h ih => exact ih.trans (hadj _ _ h)
  rw [← hwS s hs, this, hw0 k hk]

/-- C94: such networks are reduced exactly -/
theorem C94_reducible {pinv : Arr2 ℂ → Except PyErr (Arr2 ℂ)} (hpinv : Spec.PinvContract pinv) {y : Arr2 ℂ} (hy : y.c = y.r)
    (hsym : ∀ i j, y.get i j = y.get j i) (hz : ∀ i, i < y.r → ∑ j ∈ range y.c, y.get i j = 0)
    (hg : ∀ i j, Spec.Adjacent y i j → (y.get i j).re < 0) {idx : List ℕ} (hidx : ∀ k ∈ idx, k < y.r)
    (hconn : ∀ s ∈ idx, ∃ k, k ∉ idx ∧ Relation.ReflTransGen (Spec.Adjacent y) s k) :
    ∃ red K, kronReduction pinv idx y = .ok red ∧ Spec.Lists y.r idx.toFinset K ∧ Spec.Equivalent y idx.toFinset K red ∧
      (∀ i j, red.get i j = red.get j i) ∧ ∀ a, a < red.r → ∑ b ∈ range red.c, red.get a b = 0 := by
  have hns : Spec.BlockNonsingular y idx.toFinset := C94_nonsingular hy hsym hz hg
    (fun s hs => hidx s (List.mem_toFinset.1 hs)) (fun s hs => by
      obtain ⟨k, hk, hp⟩ := hconn s (List.mem_toFinset.1 hs)
      exact ⟨k, by rwa [List.mem_toFinset], hp⟩)
  obtain ⟨red, K, h1, h2, h3⟩ := C55_exact hpinv hy hidx hns
  obtain ⟨red', h1', -, h4⟩ := C56_symmetric hpinv hy hidx hsym
  obtain ⟨red'', h1'', h5⟩ := C56_rowSums hpinv hy hidx hns hz
  rw [h1] at h1' h1''
  cases h1'; cases h1''
  exact ⟨red, K, h1, h2, h3, h4, h5⟩

/-! ### a concrete case -/

/-- three nodes in a row, joined by lines of unit admittance -/
def pathNet : Arr2 ℂ := Arr2.ofFn 3 3 (fun i j =>
  if i = j then (if i = 1 then 2 else 1) else if i + 1 = j ∨ j + 1 = i then -1 else 0)

/-- the hypotheses of C94 (hence of C55, C56) hold for the three-node path with the middle node eliminated, and the result is
the series connection of the two lines -/
theorem demo_kron {pinv : Arr2 ℂ → Except PyErr (Arr2 ℂ)} (hpinv : Spec.PinvContract pinv) :
    ∃ red, kronReduction pinv [1] pathNet = .ok red ∧ red.get 0 0 = 1 / 2 ∧ red.get 0 1 = -1 / 2 := by
  have hg : ∀ i j, i < 3 → j < 3 → pathNet.get i j = if i = j then (if i = 1 then 2 else 1) else
      if i + 1 = j ∨ j + 1 = i then -1 else 0 := fun i j hi hj => Arr2.ofFn_get _ hi hj
  have hsym : ∀ i j, pathNet.get i j = pathNet.get j i := by
    intro i j
    by_cases h : i < 3 ∧ j < 3
    · rw [hg i j h.1 h.2, hg j i h.2 h.1]
      obtain ⟨h1, h2⟩ := h
      interval_cases i <;> interval_cases j <;> simp
    · rw [pathNet.oob i j h, pathNet.oob j i (fun h' => h ⟨h'.2, h'.1⟩)]
  obtain ⟨red, K, h1, h2, h3, -, -⟩ := C94_reducible hpinv (y := pathNet) rfl hsym (by
      intro i hi
      have hi : i < 3 := hi
      have hc : pathNet.c = 3 := rfl
      rw [hc]
      interval_cases i <;> simp [Finset.sum_range_succ, hg] <;> norm_num)
    (by
      rintro i j ⟨hi, hj, hij, h0⟩
      have hi : i < 3 := hi
      have hj : j < 3 := hj
      rw [hg i j hi hj] at h0 ⊢
      interval_cases i <;> interval_cases j <;> simp_all)
    (idx := [1]) (by simp [pathNet]) (by
      intro s hs
      have hs : s = 1 := by simpa using hs
      subst hs
      refine ⟨0, by simp, Relation.ReflTransGen.single ⟨by simp [pathNet], by simp [pathNet], by omega, ?_⟩⟩
      rw [hg 1 0 (by omega) (by omega)]
      norm_num)
  obtain ⟨red', h1', hE⟩ := C57_partial hpinv (y := pathNet) rfl (idx := [1]) (by simp [pathNet]) (by
      intro u hu i hi
      have hi : i = 1 := by simpa using hi
      subst hi
      have := hu 1 (by simp)
      simpa [hg] using this) (Or.inl (by simp [pathNet]))
  have hK : Arr2.keepIdx pathNet.r [1] = [0, 2] := by decide
  rw [hK] at hE
  rw [h1] at h1'
  cases h1'
  refine ⟨red, h1, ?_, ?_⟩
  · have := hE.2.2 (fun k => if k = 0 then 1 else if k = 1 then 1 / 2 else 0) (by
      intro s hs
      have hs : s = 1 := by simpa using hs
      subst hs
      have hr : pathNet.r = 3 := rfl
      simp [Spec.currents, hr, Finset.sum_range_succ, hg]) 0 (by simp)
    have hr : red.r = 2 := hE.1
    have hr' : pathNet.r = 3 := rfl
    simp [Spec.currents, hr, hr', Finset.sum_range_succ, hg] at this
    rw [this]; norm_num
  · have := hE.2.2 (fun k => if k = 0 then 1 else if k = 1 then 1 / 2 else 0) (by
      intro s hs
      have hs : s = 1 := by simpa using hs
      subst hs
      have hr : pathNet.r = 3 := rfl
      simp [Spec.currents, hr, Finset.sum_range_succ, hg]) 1 (by simp)
    have hr : red.r = 2 := hE.1
    have hr' : pathNet.r = 3 := rfl
    simp [Spec.currents, hr, hr', Finset.sum_range_succ, hg] at this
    rw [this]; norm_num

end
end Verif
