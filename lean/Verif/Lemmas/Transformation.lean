import Verif.Lemmas.Duplication

namespace Verif
open Finset
variable {α : Type}

/-- position of the off-diagonal entry `(a, b)` (either triangle) in the stacked strictly lower triangle -/
def offPos (n a b : Nat) : Nat := velStart n (min a b) + (max a b - min a b - 1)

theorem offPos_comm (n a b : Nat) : offPos n a b = offPos n b a := by
  unfold offPos; rw [min_comm, max_comm]

theorem offPos_lt {n a b : Nat} (ha : a < n) (hb : b < n) (hab : a ≠ b) : offPos n a b < n * (n - 1) / 2 :=
  vel_lt n (max a b) (min a b) (by omega) (by omega)

theorem offPos_inj {n a b a' b' : Nat} (ha : a < n) (hb : b < n) (hab : a ≠ b)
    (ha' : a' < n) (hb' : b' < n) (hab' : a' ≠ b') :
    offPos n a b = offPos n a' b' ↔ (a = a' ∧ b = b') ∨ (a = b' ∧ b = a') := by
  constructor
  · intro h
    have := vel_inj n (max a b) (min a b) (max a' b') (min a' b') (by omega) (by omega) (by omega) (by omega) h
    omega
  · rintro (⟨rfl, rfl⟩ | ⟨rfl, rfl⟩)
    · rfl
    · exact offPos_comm _ _ _

/-- entry of the transformation matrix in the row of the lower-triangular position `(a, b)` -/
def transEntry (α : Type) [Ring α] (n a b q : Nat) : α :=
  if a = b then (if ∃ x, x < n ∧ x ≠ a ∧ q = offPos n a x then 1 else 0)
  else (if q = offPos n a b then -1 else 0)

theorem sum_code_index (n i k : Nat) (hk : k < i) (hi : i < n) :
    ((i : Int) - 1 + ∑ x ∈ range k, ((n : Int) - 2 - x)) = (offPos n i k : Nat) := by
  have h : ∀ k, k < i → (∑ x ∈ range k, ((n : Int) - 2 - x)) = (velStart n k : Int) - k := by
    intro k
    induction k with
    | zero => intro _; simp [velStart_zero]
    | succ k ih =>
      intro hk
      rw [Finset.sum_range_succ, ih (by omega), velStart_succ]
      push_cast [Nat.cast_sub (show k ≤ n - 1 by omega), Nat.cast_sub (show 1 ≤ n by omega)]
      ring
  rw [h k hk]
  unfold offPos
  rw [min_eq_right (by omega), max_eq_left (by omega)]
  push_cast [Nat.cast_sub (show 1 ≤ i - k by omega), Nat.cast_sub (show k ≤ i by omega)]
  ring

/-- closed form of the result of `transformation_matrix` -/
theorem transformation_closed [Ring α] (n : Nat) :
    ∃ A : Arr2 α, transformationMatrix α n = .ok A ∧ (A.r = n * (n + 1) / 2 ∧ A.c = n * (n - 1) / 2) ∧
      ∀ a b q, b ≤ a → a < n → A.get (triStart n b + (a - b)) q = transEntry α n a b q := by
  let P : Nat → Nat → Arr2 α × Nat → Prop := fun i j s =>
    s.2 = triStart n i + j ∧ (s.1.r = n * (n + 1) / 2 ∧ s.1.c = n * (n - 1) / 2) ∧
    ∀ a b q, b ≤ a → a < n → s.1.get (triStart n b + (a - b)) q =
      if b < i ∨ (b = i ∧ a - b < j) then transEntry α n a b q else 0
  have main := forRange_inv (fun i => P i 0) n
    ((Arr2.zeros (n * (n + 1) / 2) (n * (n - 1) / 2) : Arr2 α), (0 : Nat))
    (fun s i => forRange (n - i) s fun s j => do
      let res := s.1
      let row := s.2
      let res ←
        if j = 0 then do
          let res ← res.setRowSlice row ((row : Int) - i) ((row : Int) - i + n - i - 1) 1
          forRange i res fun res k =>
            res.set row ((i : Int) - 1 + ∑ x ∈ range k, ((n : Int) - 2 - x)) 1
        else
          res.set row ((row : Int) - i - 1) (-1)
      pure (res, row + 1))
    ⟨rfl, ⟨rfl, rfl⟩, fun a b u _ _ => by
      rw [if_neg (by omega)]; simp [Arr2.zeros, Arr2.ofFn_get']⟩
    (by
      intro i hi s hs
      have inner := forRange_inv (fun j => P i j) (n - i) s
        (fun s j => do
          let res := s.1
          let row := s.2
          let res ←
            if j = 0 then do
              let res ← res.setRowSlice row ((row : Int) - i) ((row : Int) - i + n - i - 1) 1
              forRange i res fun res k =>
                res.set row ((i : Int) - 1 + ∑ x ∈ range k, ((n : Int) - 2 - x)) 1
            else
              res.set row ((row : Int) - i - 1) (-1)
          pure (res, row + 1)) hs
        (by
          rintro j hj ⟨res, row⟩ ⟨hrow, ⟨hr, hc⟩, hg⟩
          simp only at hrow hr hc hg
          have hts := velStart_add n i hi.le
          have hrowlt : row < n * (n + 1) / 2 := by
            have := tri_lt n (i + j) i (by omega) (by omega)
            omega
          have hvs : velStart n i + (n - 1 - i) ≤ n * (n - 1) / 2 := by
            rw [← velStart_succ, ← velStart_self]; exact velStart_mono n hi
          -- which triangle position is the current row
          have hrowpos : ∀ a b, b ≤ a → a < n → (triStart n b + (a - b) = row ↔ (a = i + j ∧ b = i)) := by
            intro a b hba ha
            constructor
            · intro h
              exact tri_inj n a b (i + j) i hba ha (by omega) (by omega) (by omega)
            · rintro ⟨rfl, rfl⟩; omega
          by_cases hj0 : j = 0
          · subst hj0
            obtain ⟨B, hB, hBr, hBc, hBg⟩ := res.setRowSlice_ok (i := row) (lo := velStart n i)
              (hi := velStart n i + (n - 1 - i)) (zi := (row : Int)) (zlo := (row : Int) - i)
              (zhi := (row : Int) - i + n - i - 1) (1 : α) (by omega) (by omega) (by omega) rfl
              (by omega) (by omega)
            have kl := forRange_inv
              (fun k (C : Arr2 α) => (C.r = n * (n + 1) / 2 ∧ C.c = n * (n - 1) / 2) ∧
                ∀ p q, C.get p q = if p = row ∧ ∃ x, x < k ∧ q = offPos n i x then 1 else B.get p q)
              i B (fun res k => res.set row ((i : Int) - 1 + ∑ x ∈ range k, ((n : Int) - 2 - x)) 1)
              ⟨⟨by omega, by omega⟩, fun p q => by
                rw [if_neg]; rintro ⟨_, x, hx, _⟩; omega⟩
              (by
                rintro k hk C ⟨⟨hCr, hCc⟩, hCg⟩
                obtain ⟨E, hE, hEr, hEc, hEg⟩ := C.set_ok (i := row) (j := offPos n i k)
                  (zi := (row : Int)) (1 : α) (by omega)
                  (by rw [hCc]; exact offPos_lt hi (by omega) (by omega)) rfl (sum_code_index n i k hk hi)
                refine ⟨E, hE, ⟨by omega, by omega⟩, fun p q => ?_⟩
                rw [hEg, hCg]
                by_cases hp : p = row
                · by_cases hq : q = offPos n i k
                  · rw [if_pos ⟨hp, hq⟩, if_pos ⟨hp, k, by omega, hq⟩]
                  · rw [if_neg (by tauto)]
                    congr 1
                    apply propext
                    constructor
                    · rintro ⟨h, x, hx, hx'⟩; exact ⟨h, x, by omega, hx'⟩
                    · rintro ⟨h, x, hx, hx'⟩
                      refine ⟨h, x, ?_, hx'⟩
                      have : x ≠ k := by rintro rfl; exact hq hx'
                      omega
                · rw [if_neg (by tauto), if_neg (by tauto), if_neg (by tauto)])
            obtain ⟨C, hC, ⟨hCr, hCc⟩, hCg⟩ := kl
            refine ⟨(C, row + 1), ?_, by simp only; omega, ⟨hCr, hCc⟩, ?_⟩
            · simp only [if_pos, hB, bind, Except.bind, hC, pure, Except.pure]
            · intro a b q hba ha
              simp only
              rw [hCg, hBg, hg a b q hba ha]
              simp only [hrowpos a b hba ha]
              by_cases hcur : a = i + 0 ∧ b = i
              · obtain ⟨rfl, rfl⟩ := hcur
                simp only [Nat.add_zero, true_and] at *
                have hmem : ((∃ x, x < b ∧ q = offPos n b x) ∨
                    (velStart n b ≤ q ∧ q < velStart n b + (n - 1 - b))) ↔
                    ∃ x, x < n ∧ x ≠ b ∧ q = offPos n b x := by
                  constructor
                  · rintro (⟨x, hx, hq⟩ | ⟨h1, h2⟩)
                    · exact ⟨x, by omega, by omega, hq⟩
                    · refine ⟨b + 1 + (q - velStart n b), by omega, by omega, ?_⟩
                      unfold offPos
                      rw [min_eq_left (by omega), max_eq_right (by omega)]
                      omega
                  · rintro ⟨x, hx, hxb, hq⟩
                    rcases lt_or_gt_of_ne hxb with h | h
                    · exact Or.inl ⟨x, h, hq⟩
                    · right
                      unfold offPos at hq
                      rw [min_eq_left (by omega), max_eq_right (by omega)] at hq
                      omega
                rw [if_pos (show b < b ∨ b - b < 0 + 1 by omega)]
                unfold transEntry
                rw [if_pos rfl]
                by_cases hx : ∃ x, x < n ∧ x ≠ b ∧ q = offPos n b x
                · rw [if_pos hx]
                  rcases hmem.2 hx with h | h
                  · rw [if_pos h]
                  · by_cases h' : ∃ x, x < b ∧ q = offPos n b x
                    · rw [if_pos h']
                    · rw [if_neg (by tauto), if_pos h]
                · rw [if_neg hx]
                  rw [if_neg (fun h => hx (hmem.1 (Or.inl h))), if_neg (fun h => hx (hmem.1 (Or.inr h))),
                    if_neg (by omega)]
              · rw [if_neg (by tauto), if_neg (by tauto)]
                congr 1
                apply propext
                constructor
                · intro h; omega
                · intro h; omega
          · obtain ⟨B, hB, hBr, hBc, hBg⟩ := res.set_ok (i := row) (j := offPos n (i + j) i)
              (zi := (row : Int)) (zj := (row : Int) - i - 1) (-1 : α) (by omega)
              (by rw [hc]; exact offPos_lt (by omega) hi (by omega)) rfl
              (by unfold offPos; rw [min_eq_right (by omega), max_eq_left (by omega)]; omega)
            refine ⟨(B, row + 1), ?_, by simp only; omega, ⟨by simp only; omega, by simp only; omega⟩, ?_⟩
            · simp only [if_neg hj0, hB, bind, Except.bind, pure, Except.pure]
            · intro a b q hba ha
              simp only
              rw [hBg, hg a b q hba ha]
              simp only [hrowpos a b hba ha]
              by_cases hcur : a = i + j ∧ b = i
              · obtain ⟨rfl, rfl⟩ := hcur
                rw [if_pos (show b < b ∨ b = b ∧ b + j - b < j + 1 by omega)]
                unfold transEntry
                rw [if_neg (show b + j ≠ b by omega)]
                by_cases hq : q = offPos n (b + j) b
                · rw [if_pos ⟨⟨rfl, rfl⟩, hq⟩, if_pos hq]
                · rw [if_neg (by tauto), if_neg hq, if_neg (by omega)]
              · rw [if_neg (by tauto)]
                congr 1
                apply propext
                constructor
                · intro h; omega
                · intro h; omega)
      obtain ⟨s', hs', hrow, hrc, hg⟩ := inner
      refine ⟨s', hs', ?_, hrc, fun a b u hba ha => ?_⟩
      · rw [hrow, triStart_succ]; rfl
      · rw [hg a b u hba ha]
        congr 1
        apply propext
        constructor
        · intro h; omega
        · intro h; omega)
  obtain ⟨⟨A, row⟩, hA, _, hrc, hg⟩ := main
  refine ⟨A, ?_, hrc, fun a b u hba ha => ?_⟩
  · unfold transformationMatrix
    simp only [bind, Except.bind] at hA ⊢
    rw [hA]; rfl
  · rw [hg a b u hba ha, if_pos (by omega)]

end Verif
