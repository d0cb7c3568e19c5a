/-
C61, C62: conversions between phase and sequence quantities.
-/
import Verif.Model.Lines
import Verif.Lemmas.ToMat
import Verif.Spec.Matrix
import Mathlib.Data.Complex.BigOperators
import Mathlib.Tactic.IntervalCases
import Mathlib.LinearAlgebra.Matrix.NonsingularInverse

namespace Verif
open Finset Matrix
noncomputable section

/-! ### the rotations -/

theorem rot_zero : rot 0 = 1 := by simp [rot, deg2rad]

theorem rot_add (a b : ℝ) : rot (a + b) = rot a * rot b := by
  unfold rot
  rw [← Complex.exp_add]
  congr 1
  unfold deg2rad
  push_cast
  ring

theorem rot_360 : rot 360 = 1 := by
  unfold rot deg2rad
  rw [← Complex.exp_two_pi_mul_I]
  congr 1
  push_cast
  ring

theorem rot_mul_neg : rot 120 * rot (-120) = 1 := by
  rw [← rot_add, show (120 : ℝ) + -120 = 0 by norm_num, rot_zero]

theorem rot_sq : rot 120 * rot 120 = rot (-120) := by
  have h : rot 120 * rot 120 = rot 240 := by rw [← rot_add]; norm_num
  have h2 : rot (-120) = rot 240 := by
    have := rot_add (-120) 360
    rw [rot_360, mul_one] at this
    rw [← this]; norm_num
  rw [h, h2]

theorem rot_neg_sq : rot (-120) * rot (-120) = rot 120 := by
  have h := rot_mul_neg
  calc rot (-120) * rot (-120) = rot (-120) * (rot 120 * rot 120) := by rw [rot_sq]
    _ = (rot 120 * rot (-120)) * rot 120 := by ring
    _ = rot 120 := by rw [h, one_mul]

theorem rot_ne : rot 120 ≠ 1 := by
  intro h
  have h1 := congrArg Complex.re h
  have : Complex.I * ((deg2rad 120 : ℝ) : ℂ) = ((2 * Real.pi / 3 : ℝ) : ℂ) * Complex.I := by
    unfold deg2rad; push_cast; ring
  rw [rot, this, Complex.exp_ofReal_mul_I_re] at h1
  have h2 : Real.cos (2 * Real.pi / 3) = -(1 / 2) := by
    have : 2 * Real.pi / 3 = Real.pi - Real.pi / 3 := by ring
    rw [this, Real.cos_pi_sub, Real.cos_pi_div_three]
  rw [h2] at h1
  norm_num at h1

theorem rot_sum : 1 + rot 120 + rot (-120) = 0 := by
  have h : (rot 120 - 1) * (1 + rot 120 + rot (-120)) = 0 := by
    have a := rot_sq
    have b := rot_mul_neg
    linear_combination a + b
  exact (mul_eq_zero.1 h).resolve_left (sub_ne_zero.2 rot_ne)

/-! ### block diagonal matrices -/

/-- block diagonal matrix with `k` blocks `b` -/
def blockMat (k : Nat) (b : Nat → Nat → ℂ) : Matrix (Fin (k * 3)) (Fin (k * 3)) ℂ :=
  fun i j => if (i : ℕ) / 3 = (j : ℕ) / 3 then b ((i : ℕ) % 3) ((j : ℕ) % 3) else 0

theorem tMatrix_mat (k : Nat) (b : Arr2 ℂ) (hb : b.r = 3 ∧ b.c = 3) :
    (tMatrix (k * 3) b).r = k * 3 ∧ (tMatrix (k * 3) b).c = k * 3 ∧
      (tMatrix (k * 3) b).toMat (k * 3) (k * 3) = blockMat k b.get := by
  have hk : k * 3 / 3 = k := by omega
  refine ⟨?_, ?_, ?_⟩
  · show (k * 3 / 3) * b.r = _
    rw [hb.1, hk]
  · show (k * 3 / 3) * b.c = _
    rw [hb.2, hk]
  · ext i j
    have hi := i.2
    have hj := j.2
    show (tMatrix (k * 3) b).get i j = _
    unfold tMatrix Arr2.kron blockMat
    rw [Arr2.ofFn_get _ (by rw [hb.1]; show (i : ℕ) < k * 3 / 3 * 3; omega) (by rw [hb.2]; show (j : ℕ) < k * 3 / 3 * 3; omega),
      hb.1, hb.2]
    unfold Arr2.eye
    rw [Arr2.ofFn_get _ (by omega) (by omega)]
    split <;> simp

/-- product with a block diagonal matrix on the right -/
theorem mul_blockMat {ι : Type} (k : Nat) (X : Matrix ι (Fin (k * 3)) ℂ) (b : Nat → Nat → ℂ) (i : ι) (j : Fin (k * 3)) :
    (X * blockMat k b) i j = ∑ r : Fin 3, X i ⟨(j : ℕ) / 3 * 3 + r, by have := j.2; omega⟩ * b r ((j : ℕ) % 3) := by
  rw [mul_apply]
  let g : ℕ → ℂ := fun m => if h : m < k * 3 then X i ⟨m, h⟩ * blockMat k b ⟨m, h⟩ j else 0
  have h1 : ∑ m : Fin (k * 3), X i m * blockMat k b m j = ∑ m ∈ range (k * 3), g m := by
    rw [← Fin.sum_univ_eq_sum_range g]
    apply Finset.sum_congr rfl
    intro m _
    simp [g]
  rw [h1, sum_range_mul', Finset.sum_eq_single ((j : ℕ) / 3)]
  · rw [← Fin.sum_univ_eq_sum_range (fun r => g ((j : ℕ) / 3 * 3 + r))]
    apply Finset.sum_congr rfl
    intro r _
    have hr := r.2
    have hj := j.2
    have h2 : (j : ℕ) / 3 * 3 + r < k * 3 := by omega
    simp only [g, dif_pos h2, blockMat]
    rw [mul_add_div hr, mul_add_mod' hr, if_pos rfl]
  · intro a ha hne
    apply Finset.sum_eq_zero
    intro r hr
    have hr := Finset.mem_range.1 hr
    have h2 : a * 3 + r < k * 3 := mul_add_lt (Finset.mem_range.1 ha) hr
    simp only [g, dif_pos h2, blockMat]
    rw [mul_add_div hr, if_neg hne, mul_zero]
  · intro hn
    exact absurd (Finset.mem_range.2 (by have := j.2; omega)) hn

theorem blockMat_mul (k : Nat) (b c : Nat → Nat → ℂ) :
    blockMat k b * blockMat k c = blockMat k (fun p q => ∑ r : Fin 3, b p r * c r q) := by
  ext i j
  rw [mul_blockMat]
  unfold blockMat
  split
  · rename_i h
    apply Finset.sum_congr rfl
    intro r _
    have hr := r.2
    simp only [mul_add_div hr, mul_add_mod' hr, if_pos h]
  · rename_i h
    apply Finset.sum_eq_zero
    intro r _
    have hr := r.2
    simp only [mul_add_div hr, if_neg h, zero_mul]

theorem blockMat_congr (k : Nat) {b c : Nat → Nat → ℂ} (h : ∀ p q, p < 3 → q < 3 → b p q = c p q) :
    blockMat k b = blockMat k c := by
  ext i j
  unfold blockMat
  split
  · exact h _ _ (by omega) (by omega)
  · rfl

theorem blockMat_one (k : Nat) : blockMat k (fun p q => if p = q then 1 else 0) = 1 := by
  ext i j
  unfold blockMat
  rw [Matrix.one_apply]
  by_cases h : i = j
  · subst h; simp
  · have : ¬ ((i : ℕ) / 3 = (j : ℕ) / 3 ∧ (i : ℕ) % 3 = (j : ℕ) % 3) := by
      intro h'
      apply h
      apply Fin.ext
      omega
    rw [if_neg h]
    by_cases h2 : (i : ℕ) / 3 = (j : ℕ) / 3
    · rw [if_pos h2]
      exact if_neg (fun h3 => this ⟨h2, h3⟩)
    · rw [if_neg h2]

theorem abc_seq (k : Nat) : blockMat k abcBlock.get * blockMat k seqBlock.get = 1 := by
  rw [blockMat_mul, ← blockMat_one k]
  apply blockMat_congr
  intro p q hp hq
  have h0 := rot_sum
  have h1 := rot_mul_neg
  have h2 := rot_sq
  have h3 := rot_neg_sq
  rw [Fin.sum_univ_three]
  unfold abcBlock seqBlock
  interval_cases p <;> interval_cases q <;> simp [Arr2.ofFn_get'] <;> grind

theorem seq_abc (k : Nat) : blockMat k seqBlock.get * blockMat k abcBlock.get = 1 :=
  mul_eq_one_comm.1 (abc_seq k)

/-- exchange of the last two phases -/
def swapBlock (p q : Nat) : ℂ := if p = (3 - q) % 3 then 1 else 0

theorem seq_sq (k : Nat) : blockMat k seqBlock.get * blockMat k seqBlock.get = (1 / 3 : ℂ) • blockMat k swapBlock := by
  rw [blockMat_mul]
  ext i j
  simp only [Matrix.smul_apply, smul_eq_mul]
  unfold blockMat
  split
  · have hp : (i : ℕ) % 3 < 3 := by omega
    have hq : (j : ℕ) % 3 < 3 := by omega
    generalize (i : ℕ) % 3 = p at *
    generalize (j : ℕ) % 3 = q at *
    have h0 := rot_sum
    have h1 := rot_mul_neg
    have h2 := rot_sq
    have h3 := rot_neg_sq
    beta_reduce
    rw [Fin.sum_univ_three]
    unfold seqBlock swapBlock
    interval_cases p <;> interval_cases q <;> simp [Arr2.ofFn_get'] <;> grind
  · simp


/-! ### C61 mutual inverses -/

theorem block_shapes : (abcBlock.r = 3 ∧ abcBlock.c = 3) ∧ seqBlock.r = 3 ∧ seqBlock.c = 3 := ⟨⟨rfl, rfl⟩, rfl, rfl⟩

/-- the conversions of a `3k`-by-`3k` matrix -/
theorem admittance_mat (k : Nat) (y : Arr2 ℂ) (hy : Spec.IsSquare (k * 3) y) :
    (∃ p, admittanceSequenceToPhase y = .ok p ∧ Spec.IsSquare (k * 3) p ∧ p.toMat (k * 3) (k * 3) =
      blockMat k abcBlock.get * y.toMat (k * 3) (k * 3) * blockMat k seqBlock.get) ∧
    ∃ p, admittancePhaseToSequence y = .ok p ∧ Spec.IsSquare (k * 3) p ∧ p.toMat (k * 3) (k * 3) =
      blockMat k seqBlock.get * y.toMat (k * 3) (k * 3) * blockMat k abcBlock.get := by
  obtain ⟨a1, a2, a3⟩ := tMatrix_mat k abcBlock block_shapes.1
  obtain ⟨s1, s2, s3⟩ := tMatrix_mat k seqBlock block_shapes.2
  constructor
  · obtain ⟨m, hm, mr, mc, mm⟩ := Arr2.matmul_mat (A := tMatrix (k * 3) abcBlock) (B := y) ⟨a1, a2⟩ hy
    obtain ⟨p, hp, pr, pc, pm⟩ := Arr2.matmul_mat (A := m) (B := tMatrix (k * 3) seqBlock) ⟨mr, mc⟩ ⟨s1, s2⟩
    refine ⟨p, ?_, ⟨pr, pc⟩, ?_⟩
    · simp only [admittanceSequenceToPhase, hy.2, hm, bind, Except.bind]; exact hp
    · rw [pm, mm, a3, s3]
  · obtain ⟨m, hm, mr, mc, mm⟩ := Arr2.matmul_mat (A := tMatrix (k * 3) seqBlock) (B := y) ⟨s1, s2⟩ hy
    obtain ⟨p, hp, pr, pc, pm⟩ := Arr2.matmul_mat (A := m) (B := tMatrix (k * 3) abcBlock) ⟨mr, mc⟩ ⟨a1, a2⟩
    refine ⟨p, ?_, ⟨pr, pc⟩, ?_⟩
    · simp only [admittancePhaseToSequence, hy.2, hm, bind, Except.bind]; exact hp
    · rw [pm, mm, a3, s3]

theorem measurement_mat (k : Nat) (m : Arr2 ℂ) (hm : m.c = k * 3) :
    (∃ p, measurementSequenceToPhase m = .ok p ∧ p.r = m.r ∧ p.c = k * 3 ∧ p.toMat m.r (k * 3) =
      m.toMat m.r (k * 3) * blockMat k abcBlock.get) ∧
    ∃ p, measurementPhaseToSequence m = .ok p ∧ p.r = m.r ∧ p.c = k * 3 ∧ p.toMat m.r (k * 3) =
      m.toMat m.r (k * 3) * blockMat k seqBlock.get := by
  obtain ⟨a1, a2, a3⟩ := tMatrix_mat k abcBlock block_shapes.1
  obtain ⟨s1, s2, s3⟩ := tMatrix_mat k seqBlock block_shapes.2
  constructor
  · obtain ⟨p, hp, pr, pc, pm⟩ := Arr2.matmul_mat (A := m) (B := tMatrix (k * 3) abcBlock) ⟨rfl, hm⟩ ⟨a1, a2⟩
    exact ⟨p, by rw [measurementSequenceToPhase, hm]; exact hp, pr, pc, by rw [pm, a3]⟩
  · obtain ⟨p, hp, pr, pc, pm⟩ := Arr2.matmul_mat (A := m) (B := tMatrix (k * 3) seqBlock) ⟨rfl, hm⟩ ⟨s1, s2⟩
    exact ⟨p, by rw [measurementPhaseToSequence, hm]; exact hp, pr, pc, by rw [pm, s3]⟩

/-- C61, admittances: both orders of conversion give back the matrix. -/
theorem C61_admittance (k : Nat) (y : Arr2 ℂ) (hy : Spec.IsSquare (k * 3) y) :
    (∃ p, admittanceSequenceToPhase y = .ok p ∧ Spec.IsSquare (k * 3) p ∧ admittancePhaseToSequence p = .ok y) ∧
    ∃ s, admittancePhaseToSequence y = .ok s ∧ Spec.IsSquare (k * 3) s ∧ admittanceSequenceToPhase s = .ok y := by
  obtain ⟨⟨p, hp, psq, pm⟩, s, hs, ssq, sm⟩ := admittance_mat k y hy
  obtain ⟨-, p', hp', psq', pm'⟩ := admittance_mat k p psq
  obtain ⟨⟨s', hs', ssq', sm'⟩, -⟩ := admittance_mat k s ssq
  refine ⟨⟨p, hp, psq, ?_⟩, s, hs, ssq, ?_⟩
  · rw [hp', Arr2.toMat_inj psq' hy]
    rw [pm', pm]
    calc _ = (blockMat k seqBlock.get * blockMat k abcBlock.get) * y.toMat (k * 3) (k * 3) *
        (blockMat k seqBlock.get * blockMat k abcBlock.get) := by simp only [Matrix.mul_assoc]
      _ = _ := by rw [seq_abc, Matrix.one_mul, Matrix.mul_one]
  · rw [hs', Arr2.toMat_inj ssq' hy]
    rw [sm', sm]
    calc _ = (blockMat k abcBlock.get * blockMat k seqBlock.get) * y.toMat (k * 3) (k * 3) *
        (blockMat k abcBlock.get * blockMat k seqBlock.get) := by simp only [Matrix.mul_assoc]
      _ = _ := by rw [abc_seq, Matrix.one_mul, Matrix.mul_one]

/-- C61, measurements. -/
theorem C61_measurement (k : Nat) (m : Arr2 ℂ) (hm : m.c = k * 3) :
    (∃ p, measurementSequenceToPhase m = .ok p ∧ p.c = k * 3 ∧ measurementPhaseToSequence p = .ok m) ∧
    ∃ s, measurementPhaseToSequence m = .ok s ∧ s.c = k * 3 ∧ measurementSequenceToPhase s = .ok m := by
  obtain ⟨⟨p, hp, pr, pc, pm⟩, s, hs, sr, sc, sm⟩ := measurement_mat k m hm
  obtain ⟨-, p', hp', pr', pc', pm'⟩ := measurement_mat k p pc
  obtain ⟨⟨s', hs', sr', sc', sm'⟩, -⟩ := measurement_mat k s sc
  rw [pr] at pm' pr'
  rw [sr] at sm' sr'
  refine ⟨⟨p, hp, pc, ?_⟩, s, hs, sc, ?_⟩
  · rw [hp', Arr2.toMat_inj ⟨pr', pc'⟩ ⟨rfl, hm⟩]
    rw [pm', pm, Matrix.mul_assoc, abc_seq, Matrix.mul_one]
  · rw [hs', Arr2.toMat_inj ⟨sr', sc'⟩ ⟨rfl, hm⟩]
    rw [sm', sm, Matrix.mul_assoc, seq_abc, Matrix.mul_one]

/-- C61: the conversions reject arrays whose width is not a multiple of three. -/
theorem C61_width (m : Arr2 ℂ) (h : m.c % 3 ≠ 0) :
    measurementPhaseToSequence m = .error .valueError ∧ measurementSequenceToPhase m = .error .valueError := by
  have hr : ∀ b : Arr2 ℂ, b.r = 3 → ¬ m.c = (tMatrix m.c b).r := by
    intro b hb h'
    have : (tMatrix m.c b).r = m.c / 3 * 3 := by show m.c / 3 * b.r = _; rw [hb]
    omega
  constructor
  · unfold measurementPhaseToSequence Arr2.matmul; rw [if_neg (hr _ rfl)]
  · unfold measurementSequenceToPhase Arr2.matmul; rw [if_neg (hr _ rfl)]

/-! ### C62 the network equation in sequence coordinates -/

namespace Spec

/-- position of a phase after exchanging phases b and c -/
def swapPhase (i : Nat) : Nat := i / 3 * 3 + (3 - i % 3) % 3

/-- exchanging phases b and c of all nodes leaves the matrix unchanged -/
def PhaseSymmetric (k : Nat) (Y : Arr2 ℂ) : Prop :=
  ∀ i j, i < k * 3 → j < k * 3 → Y.get (swapPhase i) (swapPhase j) = Y.get i j

/-- the converted quantities satisfy the network equation for all voltages -/
def SequenceEquation (k : Nat) (Y : Arr2 ℂ) : Prop :=
  ∀ v i, v.c = k * 3 → v.matmul Y = .ok i → ∃ vs is Ys, measurementPhaseToSequence v = .ok vs ∧
    measurementPhaseToSequence i = .ok is ∧ admittancePhaseToSequence Y = .ok Ys ∧ vs.matmul Ys = .ok is

end Spec

theorem swapPhase_lt {k i : Nat} (h : i < k * 3) : Spec.swapPhase i < k * 3 := by unfold Spec.swapPhase; omega

theorem swapPhase_swap (i : Nat) : Spec.swapPhase (Spec.swapPhase i) = i := by unfold Spec.swapPhase; omega

theorem mul_swap {ι : Type} (k : Nat) (X : Matrix ι (Fin (k * 3)) ℂ) (i : ι) (j : Fin (k * 3)) :
    (X * blockMat k swapBlock) i j = X i ⟨Spec.swapPhase j, swapPhase_lt j.2⟩ := by
  rw [mul_blockMat, Finset.sum_eq_single (⟨(3 - (j : ℕ) % 3) % 3, by omega⟩ : Fin 3)]
  · simp [swapBlock, Spec.swapPhase]
  · intro r _ hr
    have : ¬ (r : ℕ) = (3 - (j : ℕ) % 3) % 3 := fun h => hr (Fin.ext h)
    rw [swapBlock, if_neg this, mul_zero]
  · intro h; exact absurd (Finset.mem_univ _) h

theorem swap_transpose (k : Nat) : (blockMat k swapBlock).transpose = blockMat k swapBlock := by
  ext i j
  rw [Matrix.transpose_apply]
  unfold blockMat swapBlock
  by_cases h : (i : ℕ) / 3 = (j : ℕ) / 3
  · rw [if_pos h, if_pos h.symm]
    have : ((j : ℕ) % 3 = (3 - (i : ℕ) % 3) % 3) ↔ ((i : ℕ) % 3 = (3 - (j : ℕ) % 3) % 3) := by omega
    rw [if_congr this rfl rfl]
  · rw [if_neg h, if_neg (fun h' => h h'.symm)]

theorem swap_mul {ι : Type} (k : Nat) (X : Matrix (Fin (k * 3)) ι ℂ) (i : Fin (k * 3)) (j : ι) :
    (blockMat k swapBlock * X) i j = X ⟨Spec.swapPhase i, swapPhase_lt i.2⟩ j := by
  have := mul_swap k X.transpose j i
  rw [← Matrix.transpose_apply (M := X.transpose * blockMat k swapBlock), Matrix.transpose_mul, swap_transpose,
    Matrix.transpose_transpose] at this
  rw [this, Matrix.transpose_apply]

theorem commute_iff (k : Nat) (Y : Arr2 ℂ) :
    blockMat k swapBlock * Y.toMat (k * 3) (k * 3) = Y.toMat (k * 3) (k * 3) * blockMat k swapBlock ↔
      Spec.PhaseSymmetric k Y := by
  constructor
  · intro h i j hi hj
    have := congrFun (congrFun h ⟨i, hi⟩) ⟨Spec.swapPhase j, swapPhase_lt hj⟩
    rw [swap_mul, mul_swap] at this
    simpa [Arr2.toMat, swapPhase_swap] using this
  · intro h
    ext i j
    rw [swap_mul, mul_swap]
    have := h i (Spec.swapPhase j) i.2 (swapPhase_lt j.2)
    rw [swapPhase_swap] at this
    exact this

theorem seq_equation_iff (k : Nat) (Y : Matrix (Fin (k * 3)) (Fin (k * 3)) ℂ) :
    blockMat k seqBlock.get * (blockMat k seqBlock.get * Y * blockMat k abcBlock.get) = Y * blockMat k seqBlock.get ↔
      blockMat k swapBlock * Y = Y * blockMat k swapBlock := by
  have hsq := seq_sq k
  constructor
  · intro h
    have h1 := congrArg (fun M => (3 : ℂ) • (M * blockMat k seqBlock.get)) h
    beta_reduce at h1
    have h2 : blockMat k seqBlock.get * (blockMat k seqBlock.get * Y * blockMat k abcBlock.get) * blockMat k seqBlock.get =
        (blockMat k seqBlock.get * blockMat k seqBlock.get) * Y * (blockMat k abcBlock.get * blockMat k seqBlock.get) := by
      simp only [Matrix.mul_assoc]
    rw [h2, abc_seq, Matrix.mul_one, Matrix.mul_assoc Y, hsq, Matrix.smul_mul, Matrix.mul_smul, smul_smul, smul_smul] at h1
    simpa using h1
  · intro h
    have h2 : blockMat k seqBlock.get * (blockMat k seqBlock.get * Y * blockMat k abcBlock.get) =
        (blockMat k seqBlock.get * blockMat k seqBlock.get) * Y * blockMat k abcBlock.get := by
      simp only [Matrix.mul_assoc]
    rw [h2, hsq, Matrix.smul_mul, h, ← Matrix.mul_smul, ← hsq, Matrix.mul_assoc, Matrix.mul_assoc, seq_abc, Matrix.mul_one]

/-- C62 where it holds, exactly: the converted quantities satisfy the network equation for all voltages if and only if
exchanging phases b and c leaves the admittance matrix unchanged. -/
theorem C62_partial (k : Nat) (Y : Arr2 ℂ) (hY : Spec.IsSquare (k * 3) Y) :
    Spec.SequenceEquation k Y ↔ Spec.PhaseSymmetric k Y := by
  obtain ⟨-, Ys, hYs, Ysq, Ysm⟩ := admittance_mat k Y hY
  rw [← commute_iff, ← seq_equation_iff]
  constructor
  · intro h
    obtain ⟨i, hi, ir, ic, im⟩ := Arr2.matmul_mat (A := Arr2.eye (k * 3)) (B := Y) (m := k * 3) (k := k * 3) (n := k * 3)
      ⟨rfl, rfl⟩ hY
    obtain ⟨vs, is, Ys', h1, h2, h3, h4⟩ := h (Arr2.eye (k * 3)) i rfl hi
    rw [hYs] at h3; cases h3
    obtain ⟨-, vs', h1', vr, vc, vm⟩ := measurement_mat k (Arr2.eye (k * 3)) rfl
    rw [h1] at h1'; cases h1'
    obtain ⟨-, is', h2', isr, isc, ism⟩ := measurement_mat k i ic
    rw [h2] at h2'; cases h2'
    obtain ⟨_, _, _, h5⟩ := Arr2.matmul_inv h4
    have h6 := h5 (k * 3) (k * 3)
    rw [ir] at ism
    have vm : vs.toMat (k * 3) (k * 3) = (Arr2.eye (k * 3)).toMat (k * 3) (k * 3) * blockMat k seqBlock.get := vm
    rw [vc, ism, im, vm, Arr2.toMat_eye, Matrix.one_mul, Matrix.one_mul, Ysm] at h6
    exact h6.symm
  · intro h v i hv hvi
    obtain ⟨_, ir, ic, im⟩ := Arr2.matmul_inv hvi
    rw [hY.2] at ic
    obtain ⟨-, vs, h1, vr, vc, vm⟩ := measurement_mat k v hv
    obtain ⟨-, is, h2, isr, isc, ism⟩ := measurement_mat k i ic
    refine ⟨vs, is, Ys, h1, h2, hYs, ?_⟩
    obtain ⟨o, ho, or', oc, om⟩ := Arr2.matmul_mat (A := vs) (B := Ys) ⟨vr, vc⟩ Ysq
    rw [ho, Arr2.toMat_inj (r := v.r) (c := k * 3) ⟨or', oc⟩ ⟨by rw [isr, ir], isc⟩]
    have im := im v.r (k * 3)
    rw [hv] at im
    rw [ir] at ism
    rw [om, vm, Ysm, ism, im, Matrix.mul_assoc (v.toMat v.r (k * 3)), h, Matrix.mul_assoc]

/-! ### the networks built by `NetData3P` -/

theorem sequenceBus_ok (k : Nat) {y0 y1 y2 : Arr2 ℂ} (h0 : Spec.IsSquare k y0) (h1 : Spec.IsSquare k y1)
    (h2 : Spec.IsSquare k y2) : ∃ s, sequenceBus y0 y1 y2 = .ok s ∧ Spec.IsSquare (k * 3) s ∧
      ∀ a b p q, a < k → b < k → p < 3 → q < 3 → s.get (a * 3 + p) (b * 3 + q) =
        if p = q then (if p = 0 then y0 else if p = 1 then y1 else y2).get a b else 0 := by
  have hk : ∀ (y : Arr2 ℂ) (l : List ℂ), Spec.IsSquare k y → l.length = 3 →
      Spec.IsSquare (k * 3) (y.kron (Arr2.diag l)) ∧ ∀ a b p q, a < k → b < k → p < 3 → q < 3 →
        (y.kron (Arr2.diag l)).get (a * 3 + p) (b * 3 + q) = y.get a b * (if p = q then l.getD p 0 else 0) := by
    intro y l hy hl
    have e1 : (Arr2.diag l).r = 3 := hl
    have e2 : (Arr2.diag l).c = 3 := hl
    refine ⟨⟨?_, ?_⟩, ?_⟩
    · show y.r * (Arr2.diag l).r = _; rw [hy.1, e1]
    · show y.c * (Arr2.diag l).c = _; rw [hy.2, e2]
    · intro a b p q ha hb hp hq
      have := Arr2.kron_get y (Arr2.diag l) (i := a) (j := b) (i' := p) (j' := q) (by rw [hy.1]; exact ha)
        (by rw [hy.2]; exact hb) (by rw [e1]; exact hp) (by rw [e2]; exact hq)
      rw [e1, e2] at this
      rw [this, Arr2.diag, Arr2.ofFn_get _ (by omega) (by omega)]
  obtain ⟨s0, g0⟩ := hk y0 [1, 0, 0] h0 rfl
  obtain ⟨s1, g1⟩ := hk y1 [0, 1, 0] h1 rfl
  obtain ⟨s2, g2⟩ := hk y2 [0, 0, 1] h2 rfl
  refine ⟨Arr2.ofFn (k * 3) (k * 3) fun i j =>
      (Arr2.ofFn (k * 3) (k * 3) fun i j =>
        (y0.kron (Arr2.diag [1, 0, 0])).get i j + (y1.kron (Arr2.diag [0, 1, 0])).get i j).get i j +
          (y2.kron (Arr2.diag [0, 0, 1])).get i j, by
    simp only [sequenceBus, bind, Except.bind, Arr2.zipWith, s0.1, s0.2, s1.1, s1.2, s2.1, s2.2, Arr2.ofFn_r, Arr2.ofFn_c,
      and_self, if_true], ⟨rfl, rfl⟩, ?_⟩
  intro a b p q ha hb hp hq
  have i1 : a * 3 + p < k * 3 := mul_add_lt ha hp
  have i2 : b * 3 + q < k * 3 := mul_add_lt hb hq
  rw [Arr2.ofFn_get _ i1 i2, Arr2.ofFn_get _ i1 i2, g0 a b p q ha hb hp hq, g1 a b p q ha hb hp hq, g2 a b p q ha hb hp hq]
  interval_cases p <;> interval_cases q <;> simp

theorem phaseSymmetric_sequenceBus (k : Nat) {y0 y1 y2 s : Arr2 ℂ} (h0 : Spec.IsSquare k y0) (h1 : Spec.IsSquare k y1)
    (h2 : Spec.IsSquare k y2) (hs : sequenceBus y0 y1 y2 = .ok s) : Spec.PhaseSymmetric k s ↔ y1 = y2 := by
  obtain ⟨s', hs', ssq, sg⟩ := sequenceBus_ok k h0 h1 h2
  rw [hs] at hs'; cases hs'
  constructor
  · intro h
    refine Arr2.ext' (A := y1) (B := y2) (by rw [h1.1, h2.1]) (by rw [h1.2, h2.2]) ?_
    intro a b ha hb
    rw [h1.1] at ha; rw [h1.2] at hb
    have := h (a * 3 + 1) (b * 3 + 1) (by omega) (by omega)
    rw [show Spec.swapPhase (a * 3 + 1) = a * 3 + 2 by unfold Spec.swapPhase; omega,
      show Spec.swapPhase (b * 3 + 1) = b * 3 + 2 by unfold Spec.swapPhase; omega,
      sg a b 2 2 ha hb (by omega) (by omega), sg a b 1 1 ha hb (by omega) (by omega)] at this
    simpa using this.symm
  · rintro rfl i j hi hj
    have e : ∀ i, i < k * 3 → ∃ a p, a < k ∧ p < 3 ∧ i = a * 3 + p := fun i hi => ⟨i / 3, i % 3, by omega, by omega, by omega⟩
    obtain ⟨a, p, ha, hp, rfl⟩ := e i hi
    obtain ⟨b, q, hb, hq, rfl⟩ := e j hj
    have w : ∀ a p, p < 3 → Spec.swapPhase (a * 3 + p) = a * 3 + (3 - p) % 3 := by
      intro a p hp; unfold Spec.swapPhase; omega
    rw [w a p hp, w b q hq, sg a b _ _ ha hb (by omega) (by omega), sg a b p q ha hb hp hq]
    interval_cases p <;> interval_cases q <;> simp

theorem swap_sq (k : Nat) : blockMat k swapBlock * blockMat k seqBlock.get = blockMat k seqBlock.get * blockMat k swapBlock := by
  have h := seq_sq k
  have h3 : blockMat k swapBlock = (3 : ℂ) • (blockMat k seqBlock.get * blockMat k seqBlock.get) := by
    rw [h, smul_smul]; simp
  rw [h3, Matrix.smul_mul, Matrix.mul_smul, Matrix.mul_assoc]

/-- conversion to phase coordinates keeps the symmetry -/
theorem phaseSymmetric_convert (k : Nat) {s Y : Arr2 ℂ} (hs : Spec.IsSquare (k * 3) s)
    (hY : admittanceSequenceToPhase s = .ok Y) : Spec.PhaseSymmetric k Y ↔ Spec.PhaseSymmetric k s := by
  obtain ⟨⟨p, hp, psq, pm⟩, -⟩ := admittance_mat k s hs
  rw [hY] at hp; cases hp
  rw [← commute_iff, ← commute_iff, pm]
  have hPS := swap_sq k
  have hTS := abc_seq k
  have hST := seq_abc k
  have hPT : blockMat k swapBlock * blockMat k abcBlock.get = blockMat k abcBlock.get * blockMat k swapBlock := by
    calc blockMat k swapBlock * blockMat k abcBlock.get
        = blockMat k abcBlock.get * (blockMat k seqBlock.get * blockMat k swapBlock) * blockMat k abcBlock.get := by
          rw [← Matrix.mul_assoc, hTS, Matrix.one_mul]
      _ = blockMat k abcBlock.get * blockMat k swapBlock := by
          rw [← hPS, Matrix.mul_assoc, Matrix.mul_assoc, hST, Matrix.mul_one]
  generalize s.toMat (k * 3) (k * 3) = M
  constructor
  · intro h
    have := congrArg (fun X => blockMat k seqBlock.get * X * blockMat k abcBlock.get) h
    beta_reduce at this
    calc blockMat k swapBlock * M
        = (blockMat k seqBlock.get * blockMat k abcBlock.get) * (blockMat k swapBlock * M) *
          (blockMat k seqBlock.get * blockMat k abcBlock.get) := by rw [hST, Matrix.one_mul, Matrix.mul_one]
      _ = blockMat k seqBlock.get * (blockMat k swapBlock * (blockMat k abcBlock.get * M * blockMat k seqBlock.get)) *
          blockMat k abcBlock.get := by
          rw [← Matrix.mul_assoc (blockMat k swapBlock) _ (blockMat k seqBlock.get),
            ← Matrix.mul_assoc (blockMat k swapBlock) (blockMat k abcBlock.get) M, hPT]
          simp only [Matrix.mul_assoc]
      _ = _ := this
      _ = (blockMat k seqBlock.get * blockMat k abcBlock.get) * (M * blockMat k swapBlock) *
          (blockMat k seqBlock.get * blockMat k abcBlock.get) := by
          rw [Matrix.mul_assoc (blockMat k abcBlock.get * M), ← hPS]
          simp only [Matrix.mul_assoc]
      _ = _ := by rw [hST, Matrix.one_mul, Matrix.mul_one]
  · intro h
    calc blockMat k swapBlock * (blockMat k abcBlock.get * M * blockMat k seqBlock.get)
        = blockMat k abcBlock.get * (blockMat k swapBlock * M) * blockMat k seqBlock.get := by
          rw [← Matrix.mul_assoc, ← Matrix.mul_assoc, hPT, Matrix.mul_assoc (blockMat k abcBlock.get)]
      _ = _ := by rw [h, Matrix.mul_assoc, Matrix.mul_assoc M, hPS]; simp only [Matrix.mul_assoc]

/-- C62 for the networks the code builds: the sequence equation holds exactly when the positive and negative sequence
matrices agree. -/
theorem C62_networks (k : Nat) {y0 y1 y2 : Arr2 ℂ} (h0 : Spec.IsSquare k y0) (h1 : Spec.IsSquare k y1)
    (h2 : Spec.IsSquare k y2) :
    ∃ Y, makeYBus3 y0 y1 y2 = .ok Y ∧ Spec.IsSquare (k * 3) Y ∧ (Spec.SequenceEquation k Y ↔ y1 = y2) := by
  obtain ⟨s, hs, ssq, -⟩ := sequenceBus_ok k h0 h1 h2
  obtain ⟨⟨Y, hY, Ysq, -⟩, -⟩ := admittance_mat k s ssq
  refine ⟨Y, ?_, Ysq, ?_⟩
  · simp only [makeYBus3, hs, bind, Except.bind]; exact hY
  · rw [C62_partial k Y Ysq, phaseSymmetric_convert k ssq hY, phaseSymmetric_sequenceBus k h0 h1 h2 hs]

/-- C62 fails: for every number of nodes there is a network built by `make_y_bus` whose converted data do not satisfy the
converted equation. -/
theorem C62_violated (k : Nat) (hk : 0 < k) : ∃ y0 y1 y2 Y, Spec.IsSquare k y0 ∧ Spec.IsSquare k y1 ∧ Spec.IsSquare k y2 ∧
    makeYBus3 y0 y1 y2 = .ok Y ∧ ¬ Spec.SequenceEquation k Y := by
  have h0 : Spec.IsSquare k (Arr2.zeros k k : Arr2 ℂ) := ⟨rfl, rfl⟩
  have h1 : Spec.IsSquare k (Arr2.eye k : Arr2 ℂ) := ⟨rfl, rfl⟩
  obtain ⟨Y, hY, -, hiff⟩ := C62_networks k h0 h0 h1
  refine ⟨_, _, _, Y, h0, h0, h1, hY, fun h => ?_⟩
  have := congrArg (fun A : Arr2 ℂ => A.get 0 0) (hiff.1 h)
  simp [Arr2.zeros, Arr2.eye, Arr2.ofFn_get', hk] at this

/-- C62 holds for a two-node network with equal positive and negative sequences. -/
example : ∃ Y, makeYBus3 (Arr2.eye 2) (Arr2.eye 2) (Arr2.eye 2) = .ok Y ∧ Spec.SequenceEquation 2 Y := by
  obtain ⟨Y, h, -, h'⟩ := C62_networks 2 (y0 := Arr2.eye 2) (y1 := Arr2.eye 2) (y2 := Arr2.eye 2) ⟨rfl, rfl⟩ ⟨rfl, rfl⟩ ⟨rfl, rfl⟩
  exact ⟨Y, h, h'.2 rfl⟩

/-- hypotheses of C61 -/
example : Spec.IsSquare (2 * 3) (Arr2.ofFn 6 6 (fun i j => (i : ℂ) - 2 * j)) ∧
    (Arr2.ofFn 5 6 (fun i j => (i : ℂ) - 2 * j)).c = 2 * 3 ∧ (Arr2.ofFn 5 7 (fun i j => (i : ℂ) - 2 * j)).c % 3 ≠ 0 := by
  refine ⟨⟨rfl, rfl⟩, rfl, ?_⟩
  show 7 % 3 ≠ 0
  norm_num

end
end Verif
