/-
C142, C144, C146 and C157 need a gap after the first `n` singular values of the measurements: noise below half the excitation leaves one.
-/
import Verif.Props.Stability
import Verif.Props.TlsOptimal

namespace Verif
open Matrix Finset
noncomputable section

theorem entrySq_part {N : Nat} (v : Fin N → ℂ) (T : Nat) : ∑ i ∈ range T, entrySq v i ≤ Spec.len v ^ 2 := by
  rw [← entrySq_sum]
  rcases Nat.le_total T N with hT | hT
  · exact Finset.sum_le_sum_of_subset_of_nonneg (Finset.range_mono hT) (fun i _ _ => entrySq_nonneg _ _)
  · refine le_of_eq (Finset.sum_subset (Finset.range_mono hT) ?_).symm
    intro i _ hi
    unfold entrySq
    rw [dif_neg (fun h => hi (Finset.mem_range.2 h))]

/-- the first singular values are at least the excitation of the first columns -/
theorem leading_ge {T n m : Nat} {M S : Matrix (Fin T) (Fin (n + m)) ℂ} {U : Matrix (Fin T) (Fin T) ℂ}
    {Vh : Matrix (Fin (n + m)) (Fin (n + m)) ℂ} (hU : Uᴴ * U = 1) (hV : Vh * Vhᴴ = 1) {s : ℕ → ℝ} (hs : ∀ k, 0 ≤ s k) (ha : Antitone s)
    (hS : ∀ i j, S i j = if (i : ℕ) = j then (s i : ℂ) else 0) (h : M = U * S * Vh) {c : ℝ}
    (hc : ∀ a : Fin n → ℂ, c * Spec.len a ≤ Spec.len (M.mulVec (Fin.append a 0))) {i : Nat} (hi : i < n) :
    c ≤ if i < T then s i else 0 := by
  let N : Matrix (Fin i) (Fin n) ℂ := Vh.submatrix (Fin.castLE (by omega)) (Fin.castAdd m)
  have hker : LinearMap.ker N.mulVecLin ≠ ⊥ := LinearMap.ker_ne_bot_of_finrank_lt (by simpa using hi)
  obtain ⟨a, hk, ha0⟩ := Submodule.exists_mem_ne_zero_of_ne_bot hker
  rw [LinearMap.mem_ker, mulVecLin_apply] at hk
  set q := Vh.mulVec (Fin.append a 0) with hq
  have hz : ∀ k, k < i → entrySq q k = 0 := by
    intro k hk'
    unfold entrySq
    rw [dif_pos (by omega)]
    have h1 := congrFun hk ⟨k, hk'⟩
    have h2 : q ⟨k, by omega⟩ = N.mulVec a ⟨k, hk'⟩ := by
      show ∑ j, Vh _ j * Fin.append a (0 : Fin m → ℂ) j = ∑ j, Vh _ _ * a j
      rw [Fin.sum_univ_add]
      simp only [Fin.append_left, Fin.append_right, Pi.zero_apply, mul_zero, Finset.sum_const_zero, add_zero]
      rfl
    rw [h2, h1]
    simp
  have hlq : Spec.len q = Spec.len a := by
    rw [hq, len_isometry Vh (mul_eq_one_comm.1 hV), len_append_zero]
  have hM : M.mulVec (Fin.append a 0) = U.mulVec (S.mulVec q) := by
    rw [h, hq, mulVec_mulVec, mulVec_mulVec]
  have h0 : 0 ≤ if i < T then s i else 0 := by
    split
    · exact hs i
    · exact le_rfl
  have hb : Spec.len (S.mulVec q) ≤ (if i < T then s i else 0) * Spec.len q := by
    refine (pow_le_pow_iff_left₀ (len_nonneg _) (mul_nonneg h0 (len_nonneg _)) two_ne_zero).1 ?_
    rw [diag_len s S hS, mul_pow]
    refine le_trans ?_ (mul_le_mul_of_nonneg_left (entrySq_part q T) (sq_nonneg _))
    rw [Finset.mul_sum]
    refine Finset.sum_le_sum fun k hk => ?_
    have hkT := Finset.mem_range.1 hk
    by_cases hki : k < i
    · rw [hz k hki, mul_zero, mul_zero]
    · rw [if_pos (by omega)]
      exact mul_le_mul_of_nonneg_right (pow_le_pow_left₀ (hs k) (ha (by omega)) 2) (entrySq_nonneg _ _)
  have h3 := hc a
  rw [hM, len_isometry U hU] at h3
  have h4 := h3.trans hb
  rw [hlq] at h4
  exact le_of_mul_le_mul_right h4 (len_pos ha0)

/-- Noise below half the excitation leaves a gap after the singular values of the voltages: total least squares has one solution. -/
theorem noisy_gap {x z x0 z0 Y xz : Arr2 ℂ} {ε σ : ℝ} (h : Spec.Noisy x z x0 z0 Y ε) (hσ : Spec.AtLeast x0 σ) (hε : 0 ≤ ε)
    (hεσ : 2 * ε < σ) (hsq : Y.r = Y.c) (hxz : hstack x z = .ok xz) : Spec.SingularGap xz x.c := by
  have hexc := noisy_excited h hσ
  obtain ⟨hz, ⟨e1, e2⟩, ⟨e3, e4⟩, hE⟩ := h
  obtain ⟨hxY, hzr, hzc, hzm⟩ := Arr2.matmul_inv hz
  obtain ⟨xz', hxz', hr, hc, hl, hrt⟩ := hstack_ok (x := x) (z := z) (by rw [e1, e3, hzr])
  obtain rfl := Except.ok.inj (hxz.symm.trans hxz')
  have hzm' := hzm x0.r z0.c
  have hmn : z0.c = x0.c := by rw [hzc, ← hsq, hxY]
  unfold Spec.SingularGap
  rw [hr, hc, e1, e2, e4]
  rw [e1, e2] at hl
  rw [e1, e2, e4] at hrt
  clear hz hzm hxY hzc hr hc hzr hxz hxz' hsq
  generalize hT : x0.r = T at *
  generalize hn : x0.c = n at *
  generalize hm : z0.c = m at *
  obtain ⟨u, Vh, s, huu, hun, hs0, hanti, heq⟩ := svd_exists (xz.toMat T (n + m))
  refine ⟨u, Vh, s, huu, hun, hs0, hanti, heq, fun i hi => ?_⟩
  set X := x.toMat T n with hX
  set X0 := x0.toMat T n with hX0
  set Z := z.toMat T m with hZ
  set Q := Y.toMat n m with hQ
  set M := xz.toMat T (n + m) with hM
  let G : Matrix (Fin n) (Fin (n + m)) ℂ := fun i => Fin.append (fun k => if i = k then 1 else 0) (fun k => Q i k)
  have hG : ∀ a b, G.mulVec (Fin.append a b) = a + Q.mulVec b := by
    intro a b
    funext i
    show ∑ k, G i k * Fin.append a b k = _
    rw [Fin.sum_univ_add]
    simp only [G, Fin.append_left, Fin.append_right, ite_mul, one_mul, zero_mul, Finset.sum_ite_eq, Finset.mem_univ, if_true]
    rfl
  have hMa : ∀ a b, M.mulVec (Fin.append a b) = X.mulVec a + Z.mulVec b := by
    intro a b
    funext i
    show ∑ k, M i k * Fin.append a b k = _
    rw [Fin.sum_univ_add]
    simp only [Fin.append_left, Fin.append_right]
    rw [Pi.add_apply]
    congr 1
    · exact Finset.sum_congr rfl fun k _ => congrArg (· * a k) (hl i k i.2 k.2)
    · exact Finset.sum_congr rfl fun k _ => congrArg (· * b k) (hrt i k i.2 k.2)
  have hsplit : ∀ v : Fin (n + m) → ℂ, v = Fin.append (fun a => v (Fin.castAdd m a)) (fun a => v (Fin.natAdd n a)) := by
    intro v
    funext i
    refine Fin.addCases (fun a => ?_) (fun a => ?_) i <;> simp
  have hEE : ∀ v, Spec.len ((M - X0 * G).mulVec v) ≤ ε * Spec.len v := by
    intro v
    rw [hsplit v, sub_mulVec, ← mulVec_mulVec, hG, hMa]
    have := hE (fun a => v (Fin.castAdd m a)) (fun a => v (Fin.natAdd n a))
    refine le_trans (le_of_eq ?_) this
    congr 1
    rw [hzm', sub_mulVec, sub_mulVec, ← mulVec_mulVec, mulVec_add]
    abel
  have hlow := leading_ge huu hun hs0 hanti (fun i j => rfl) heq (c := σ - ε) (fun a => by
    rw [hMa, mulVec_zero, add_zero]; exact hexc a) hi
  refine lt_of_le_of_lt ?_ (lt_of_lt_of_le (by linarith : ε < σ - ε) hlow)
  split
  · rename_i hnT
    have hle := trailing_le X0 G (M - X0 * G) hε hEE Vh hun u huu s hs0 hanti _ (fun i j => rfl) (by abel) heq
      (Pi.single ⟨0, by omega⟩ 1)
    have h1 : Spec.len (Pi.single (M := fun _ => ℂ) (⟨0, by omega⟩ : Fin m) 1) = 1 := by
      unfold Spec.len
      rw [Finset.sum_eq_single ⟨0, by omega⟩]
      · simp
      · intro b _ hb
        rw [Pi.single_eq_of_ne hb]; simp
      · intro h'; exact absurd (Finset.mem_univ _) h'
    rw [h1, mul_one, mulVec_mulVec, heq, Matrix.mul_assoc, hun, Matrix.mul_one, ← mulVec_mulVec, len_isometry u huu] at hle
    refine le_trans ?_ hle
    refine (pow_le_pow_iff_left₀ (hs0 n) (len_nonneg _) two_ne_zero).1 ?_
    rw [diag_len s (Matrix.of fun i j => if (i : ℕ) = j then (s i : ℂ) else 0) (fun i j => rfl)]
    refine le_trans ?_ (Finset.single_le_sum (fun k _ => mul_nonneg (sq_nonneg (s k)) (entrySq_nonneg _ k)) (Finset.mem_range.2 hnT))
    unfold entrySq
    rw [dif_pos (by omega)]
    have : (⟨n, by omega⟩ : Fin (n + m)) = Fin.natAdd n ⟨0, by omega⟩ := Fin.ext (by simp)
    rw [this, Fin.append_right, Pi.single_eq_same]
    simp
  · exact hε

/-- C142 for noisy data: below half the excitation, total least squares is defined and returns the only solution of its problem. -/
theorem C142_noisy {svdVh inv : Arr2 ℂ → Except PyErr (Arr2 ℂ)} (hsvd : Spec.SvdContract svdVh) (hinv : Spec.InvContract inv)
    (hsound : Spec.InvSound inv) {x z x0 z0 Y : Arr2 ℂ} {ε σ : ℝ} (h : Spec.Noisy x z x0 z0 Y ε) (hσ : Spec.AtLeast x0 σ) (hε : 0 ≤ ε)
    (hεσ : 2 * ε < σ) (hsq : Y.r = Y.c) :
    ∃ B, tlsFit svdVh inv x z = .ok B ∧ Spec.SolvesTls x z B ∧
      ∀ B', (B'.r = x.c ∧ B'.c = z.c) → Spec.SolvesTls x z B' → B' = B := by
  obtain ⟨B, hB, -⟩ := C117_tls hsvd hinv h hσ hε hεσ
  obtain ⟨xz, hxz, -⟩ := hstack_ok (x := x) (z := z) (by
    obtain ⟨hz, ⟨e1, -⟩, ⟨e3, -⟩, -⟩ := h
    rw [e1, e3, (Arr2.matmul_inv hz).2.1])
  exact ⟨B, hB, (C142 hsvd hsound hB).2, fun B' hs hB' => C142_unique hsvd hsound hB hxz (noisy_gap h hσ hε hεσ hsq hxz) hs hB'⟩

/-- the data of `demo_C117` meet the hypotheses -/
theorem demo_C142_noisy : ∃ x z x0 z0 Y : Arr2 ℂ, Spec.Noisy x z x0 z0 Y 1 ∧ Spec.AtLeast x0 3 ∧ (2 * 1 : ℝ) < 3 ∧ Y.r = Y.c :=
  ⟨_, _, _, _, _, demo_C117.1, demo_C117.2.1, demo_C117.2.2, rfl⟩

end
end Verif
