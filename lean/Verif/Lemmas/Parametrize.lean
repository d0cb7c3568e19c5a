import Verif.Model.Parametrize
import Verif.Lemmas.ElimLap

namespace Verif
open Finset
variable {α : Type}

namespace Arr2

/-- `(A @ B) @ v = A @ (B @ v)` -/
theorem matmul_mulVec [Semiring α] (A B : Arr2 α) (v w : List α) (hAB : A.c = B.r)
    (hBv : B.mulVec v = .ok w) : ∃ C, A.matmul B = .ok C ∧ C.r = A.r ∧ C.c = B.c ∧ C.mulVec v = A.mulVec w := by
  refine ⟨ofFn A.r B.c (mulGet A B), matmul_ok A B hAB, rfl, rfl, ?_⟩
  unfold mulVec at hBv
  split at hBv
  · rename_i hc
    have hw := (Except.ok.inj hBv).symm
    have hwl : w.length = B.r := by rw [hw]; simp
    unfold mulVec
    rw [if_pos (show (ofFn A.r B.c (A.mulGet B)).c = v.length from hc), if_pos (by omega)]
    congr 1
    apply List.map_congr_left
    intro i hi
    have hi' : i < A.r := List.mem_range.1 hi
    have e1 : ∀ k ∈ range B.c, (ofFn A.r B.c (A.mulGet B)).get i k * v.getD k 0 =
        ∑ l ∈ range A.c, A.get i l * B.get l k * v.getD k 0 := by
      intro k hk
      rw [ofFn_get _ hi' (Finset.mem_range.1 hk), mulGet, Finset.sum_mul]
    have e2 : ∀ l ∈ range A.c, A.get i l * w.getD l 0 =
        ∑ k ∈ range B.c, A.get i l * B.get l k * v.getD k 0 := by
      intro l hl
      rw [hw, getD_map_range _ _ _ (by rw [← hAB]; exact Finset.mem_range.1 hl), Finset.mul_sum]
      apply Finset.sum_congr rfl
      intro k _; rw [mul_assoc]
    have hcc : (ofFn A.r B.c (A.mulGet B)).c = B.c := rfl
    rw [hcc, Finset.sum_congr rfl e1, Finset.sum_congr rfl e2, Finset.sum_comm]
  · cases hBv

end Arr2

/-- number of parameters -/
def nParams (lap : Bool) (n : Nat) : Nat := if lap then n * (n - 1) / 2 else n * (n + 1) / 2

/-- action of `DT` on parameters; the parameters of the off-diagonal entries carry a minus sign in Laplacian mode -/
theorem dt_closed [CommRing α] (lap : Bool) (n : Nat) :
    ∃ A : Arr2 α, dtMatrix α lap n = .ok A ∧ A.r = n ^ 2 ∧ A.c = nParams lap n ∧
      ∀ v : List α, v.length = nParams lap n → ∃ w, A.mulVec v = .ok w ∧ w.length = n ^ 2 ∧
        (lap = false → ∀ a b, a < n → b < n → w.getD (a * n + b) 0 = v.getD (symPos n a b) 0) ∧
        (lap = true → (∀ a b, a < n → b < n → a ≠ b → w.getD (a * n + b) 0 = - v.getD (offPos n a b) 0) ∧
          (∀ a, a < n → w.getD (a * n + a) 0 = ∑ x ∈ (range n).erase a, v.getD (offPos n a x) 0)) := by
  obtain ⟨D, hD, ⟨hr, hc⟩, hg⟩ := duplication_closed (α := α) n
  cases lap with
  | false =>
    refine ⟨D, by simp [dtMatrix, hD], hr, by simp [nParams, hc], fun v hv => ?_⟩
    obtain ⟨w, hw, hl, hwg⟩ := dup_mulVec n D hc hr hg v (by simpa [nParams] using hv)
    exact ⟨w, hw, hl, fun _ => hwg, by simp⟩
  | true =>
    obtain ⟨A, hA, ⟨hAr, hAc⟩, hAg⟩ := transformation_closed (α := α) n
    refine ⟨Arr2.ofFn D.r A.c (D.mulGet A), ?_, ?_, ?_, ?_⟩
    · simp only [dtMatrix, hD, hA, bind, Except.bind, if_true]
      exact Arr2.matmul_ok _ _ (by omega)
    · exact hr
    · simpa [nParams] using hAc
    · intro v hv
      have hv' : v.length = n * (n - 1) / 2 := by simpa [nParams] using hv
      obtain ⟨u, hu, hul, hoff, hdiag⟩ := trans_mulVec n A hAr hAc hAg v hv'
      obtain ⟨w, hw, hl, hwg⟩ := dup_mulVec n D hc hr hg u hul
      obtain ⟨C, hC, _, _, hCv⟩ := Arr2.matmul_mulVec D A v u (by omega) hu
      rw [Arr2.matmul_ok _ _ (by omega)] at hC
      cases hC
      refine ⟨w, hCv.trans hw, hl, by simp, fun _ => ⟨?_, ?_⟩⟩
      · intro a b ha hb hab
        rw [hwg a b ha hb, hoff a b ha hb hab]
      · intro a ha
        rw [hwg a a ha ha, hdiag a ha]

/-- action of `E` on a vectorised matrix -/
theorem e_closed [Field α] [CharZero α] (lap : Bool) (n : Nat) :
    ∃ A : Arr2 α, eMatrix α lap n = .ok A ∧ A.r = nParams lap n ∧ A.c = n ^ 2 ∧
      ∀ v : List α, v.length = n ^ 2 → ∃ w, A.mulVec v = .ok w ∧ w.length = nParams lap n ∧
        (lap = false → ∀ a b, a < n → b < n →
          w.getD (symPos n a b) 0 = (v.getD (a * n + b) 0 + v.getD (b * n + a) 0) / 2) ∧
        (lap = true → ∀ a b, a < n → b < n → a ≠ b →
          w.getD (offPos n a b) 0 = - ((v.getD (a * n + b) 0 + v.getD (b * n + a) 0) / 2)) := by
  obtain ⟨S, hS, ⟨hr, hc⟩, hg⟩ := eliminationSym_closed (α := α) n
  cases lap with
  | false =>
    refine ⟨S, by simp [eMatrix, hS], by simp [nParams, hr], hc, fun v hv => ?_⟩
    obtain ⟨w, hw, hl, hwg⟩ := elimSym_mulVec n S hr hc hg v hv
    exact ⟨w, hw, by simp [nParams, hl], fun _ => hwg, by simp⟩
  | true =>
    obtain ⟨A, hA, ⟨hAr, hAc⟩, hAg⟩ := eliminationLap_closed (α := α) n
    refine ⟨Arr2.ofFn A.r S.c (A.mulGet S), ?_, ?_, ?_, ?_⟩
    · simp only [eMatrix, hS, hA, bind, Except.bind, if_true]
      exact Arr2.matmul_ok _ _ (by omega)
    · simpa [nParams] using hAr
    · exact hc
    · intro v hv
      obtain ⟨u, hu, hul, hug⟩ := elimSym_mulVec n S hr hc hg v hv
      obtain ⟨w, hw, hl, hwg⟩ := elimLap_mulVec n A hAr hAc hAg u hul
      obtain ⟨C, hC, _, _, hCv⟩ := Arr2.matmul_mulVec A S v u (by omega) hu
      rw [Arr2.matmul_ok _ _ (by omega)] at hC
      cases hC
      refine ⟨w, hCv.trans hw, by simp [nParams, hl], by simp, fun _ a b ha hb hab => ?_⟩
      rcases lt_or_gt_of_ne hab with h | h
      · rw [offPos_comm, hwg b a h hb, hug b a hb ha, add_comm]
      · rw [hwg a b h ha, hug a b ha hb]

theorem unvec_ok [Zero α] (v : List α) (n : Nat) (h : v.length = n ^ 2) :
    ∃ m, unvectorizeMatrix v (n, n) = .ok m ∧ m.r = n ∧ m.c = n ∧
      ∀ i j, i < n → j < n → m.get i j = v.getD (j * n + i) 0 := by
  refine ⟨Arr2.ofFn n n (fun i j => v.getD (j * n + i) 0), ?_, rfl, rfl, ?_⟩
  · simp only [unvectorizeMatrix]; rw [if_pos (by rw [h, pow_two])]
  · intro i j hi hj; exact Arr2.ofFn_get _ hi hj

/-- closed form of the symmetrisation -/
theorem symmetrize_closed [Field α] [CharZero α] (lap : Bool) (n : Nat) (y : Arr2 α) (hsq : Spec.IsSquare n y) :
    ∃ m, symmetrize lap n y = .ok m ∧ m.r = n ∧ m.c = n ∧
      (∀ i j, i < n → j < n → (lap = false ∨ i ≠ j) → m.get i j = (y.get i j + y.get j i) / 2) ∧
      (lap = true → ∀ i, i < n → m.get i i = - ∑ x ∈ (range n).erase i, (y.get i x + y.get x i) / 2) := by
  obtain ⟨h1, h2⟩ := hsq
  obtain ⟨DT, hDT, hDr, hDc, hDv⟩ := dt_closed (α := α) lap n
  obtain ⟨E, hE, hEr, hEc, hEv⟩ := e_closed (α := α) lap n
  obtain ⟨p, hp, hpl, hp1, hp2⟩ := hEv (vectorizeMatrix y) (by rw [vec_length, h1, h2, pow_two])
  obtain ⟨w, hw, hwl, hw1, hw2⟩ := hDv p hpl
  obtain ⟨C, hC, _, _, hCv⟩ := Arr2.matmul_mulVec DT E (vectorizeMatrix y) p (by omega) hp
  obtain ⟨m, hm, hmr, hmc, hmg⟩ := unvec_ok w n hwl
  have hvec : ∀ i j, i < n → j < n → (vectorizeMatrix y).getD (j * n + i) 0 = y.get i j := by
    intro i j hi hj
    have := vec_getD y (i := i) (j := j) (by omega) (by omega)
    rwa [h1] at this
  refine ⟨m, ?_, hmr, hmc, ?_, ?_⟩
  · simp only [symmetrize, hDT, hE, hC, bind, Except.bind, hCv, hw, hm]
  · intro i j hi hj hcase
    rw [hmg i j hi hj]
    cases lap with
    | false =>
      rw [hw1 rfl j i hj hi, hp1 rfl j i hj hi, hvec i j hi hj, hvec j i hj hi]
    | true =>
      have hij : i ≠ j := by simpa using hcase
      rw [(hw2 rfl).1 j i hj hi hij.symm, hp2 rfl j i hj hi hij.symm, hvec i j hi hj, hvec j i hj hi, neg_neg]
  · intro hl i hi
    rw [hmg i i hi hi, (hw2 hl).2 i hi, ← Finset.sum_neg_distrib]
    apply Finset.sum_congr rfl
    intro x hx
    rw [Finset.mem_erase, Finset.mem_range] at hx
    rw [hp2 hl i x hi hx.2 hx.1.symm, hvec x i hx.2 hi, hvec i x hi hx.2, add_comm]

end Verif
