/-
Facts about the conversions between phases and sequences used for the report: they keep the Frobenius norm.
-/
import Verif.Model.PlotResults
import Verif.Props.Lines
import Verif.Props.Metrics
import Mathlib.LinearAlgebra.Matrix.Trace

namespace Verif
open Finset Matrix
noncomputable section

/-- the conversion matrices are adjoint up to the factor three -/
theorem abc_conjTranspose (k : Nat) : (blockMat k abcBlock.get)ᴴ = (3 : ℂ) • blockMat k seqBlock.get := by
  ext i j
  rw [conjTranspose_apply, Matrix.smul_apply]
  unfold blockMat
  by_cases h : (i : ℕ) / 3 = (j : ℕ) / 3
  · rw [if_pos h, if_pos h.symm]
    have hp : (i : ℕ) % 3 < 3 := by omega
    have hq : (j : ℕ) % 3 < 3 := by omega
    generalize (i : ℕ) % 3 = p at *
    generalize (j : ℕ) % 3 = q at *
    unfold abcBlock seqBlock
    have hc : ∀ d : ℝ, (starRingEnd ℂ) (rot d) = rot (-d) := by
      intro d
      unfold rot
      rw [← Complex.exp_conj]
      congr 1
      have : (starRingEnd ℂ) (Complex.I * ((deg2rad d : ℝ) : ℂ)) = -Complex.I * ((deg2rad d : ℝ) : ℂ) := by
        rw [map_mul, Complex.conj_I, Complex.conj_ofReal]
      rw [this]
      unfold deg2rad
      push_cast
      ring
    have hc1 := hc 120
    have hc2 := hc (-120)
    rw [neg_neg] at hc2
    interval_cases p <;> interval_cases q <;> simp [Arr2.ofFn_get'] <;> grind
  · rw [if_neg h, if_neg (fun h' => h h'.symm)]
    simp

/-- sum of the squared moduli -/
def froSq {n : Nat} (M : Matrix (Fin n) (Fin n) ℂ) : ℝ := ∑ i, ∑ j, ‖M i j‖ ^ 2

theorem froSq_trace {n : Nat} (M : Matrix (Fin n) (Fin n) ℂ) : ((froSq M : ℝ) : ℂ) = (Mᴴ * M).trace := by
  unfold froSq Matrix.trace
  simp only [diag_apply, mul_apply, conjTranspose_apply]
  rw [Finset.sum_comm]
  push_cast
  refine Finset.sum_congr rfl fun i _ => Finset.sum_congr rfl fun j _ => ?_
  rw [← Complex.conj_mul']
  rfl

theorem froSq_conv {n : Nat} (A S M : Matrix (Fin n) (Fin n) ℂ) (hAS : A * S = 1) {c : ℂ} (hc : c ≠ 0) (h : Aᴴ = c • S)
    (h' : Sᴴ = c⁻¹ • A) : froSq (A * M * S) = froSq M ∧ froSq (S * M * A) = froSq M := by
  have hSA := mul_eq_one_comm.1 hAS
  have key : ∀ (B T : Matrix (Fin n) (Fin n) ℂ) (b : ℂ), b ≠ 0 → T * B = 1 → Bᴴ = b • T → Tᴴ = b⁻¹ • B →
      froSq (B * M * T) = froSq M := by
    intro B T b hb hTB h1 h2
    have hBT := mul_eq_one_comm.1 hTB
    have : ((froSq (B * M * T) : ℝ) : ℂ) = ((froSq M : ℝ) : ℂ) := by
      rw [froSq_trace, froSq_trace]
      rw [conjTranspose_mul, conjTranspose_mul, h1, h2]
      calc (b⁻¹ • B * (Mᴴ * b • T) * (B * M * T)).trace
          = (b⁻¹ * b) • (B * (Mᴴ * ((T * B) * M) * T)).trace := by
            rw [← Matrix.trace_smul]
            congr 1
            simp only [Matrix.smul_mul, Matrix.mul_smul, smul_smul, Matrix.mul_assoc, mul_comm b]
        _ = (Mᴴ * M * (T * B)).trace := by
            rw [inv_mul_cancel₀ hb, one_smul, hTB, Matrix.one_mul, Matrix.trace_mul_comm, Matrix.mul_assoc, hTB]
        _ = _ := by rw [hTB, Matrix.mul_one]
    exact_mod_cast this
  exact ⟨key A S c hc hSA h h', key S A c⁻¹ (inv_ne_zero hc) hAS h' (by rw [inv_inv]; exact h)⟩

theorem seq_conjTranspose (k : Nat) : (blockMat k seqBlock.get)ᴴ = (3 : ℂ)⁻¹ • blockMat k abcBlock.get := by
  have h := congrArg conjTranspose (abc_conjTranspose k)
  rw [conjTranspose_conjTranspose, conjTranspose_smul] at h
  rw [h, smul_smul]
  simp

theorem normFro_froSq {n : Nat} {a : Arr2 ℂ} (h : Spec.IsSquare n a) : normFro a = Real.sqrt (froSq (a.toMat n n)) := by
  obtain ⟨rfl, h2⟩ := h
  unfold normFro froSq
  congr 1
  rw [Finset.sum_range]
  refine Finset.sum_congr rfl fun i _ => ?_
  rw [h2, Finset.sum_range]
  rfl

/-- the conversions only accept square matrices with three entries per node -/
theorem seqToPhase_square {y p : Arr2 ℂ} (h : admittanceSequenceToPhase y = .ok p) : ∃ k, Spec.IsSquare (k * 3) y := by
  unfold admittanceSequenceToPhase at h
  obtain ⟨m, hm, h2⟩ := Prior.bind_ok h
  have a := (Arr2.matmul_inv hm).1
  have b := (Arr2.matmul_inv h2).1
  have c := (Arr2.matmul_inv hm).2.2.1
  have e1 : (tMatrix y.c abcBlock).c = y.c / 3 * 3 := rfl
  have e2 : (tMatrix y.c seqBlock).r = y.c / 3 * 3 := rfl
  exact ⟨y.c / 3, by rw [← e1, a], by omega⟩

theorem phaseToSeq_square {y p : Arr2 ℂ} (h : admittancePhaseToSequence y = .ok p) : ∃ k, Spec.IsSquare (k * 3) y := by
  unfold admittancePhaseToSequence at h
  obtain ⟨m, hm, h2⟩ := Prior.bind_ok h
  have a := (Arr2.matmul_inv hm).1
  have b := (Arr2.matmul_inv h2).1
  have c := (Arr2.matmul_inv hm).2.2.1
  have e1 : (tMatrix y.c seqBlock).c = y.c / 3 * 3 := rfl
  have e2 : (tMatrix y.c abcBlock).r = y.c / 3 * 3 := rfl
  exact ⟨y.c / 3, by rw [← e1, a], by omega⟩

/-- a conversion that is linear and keeps the norm -/
structure KeepsNorm (f : Arr2 ℂ → Except PyErr (Arr2 ℂ)) : Prop where
  shape : ∀ {y p}, f y = .ok p → p.r = y.r ∧ p.c = y.c
  norm : ∀ {y p}, f y = .ok p → normFro p = normFro y
  dist : ∀ {y p z q}, f y = .ok p → f z = .ok q → y.r = z.r → y.c = z.c → normFro (diff p q) = normFro (diff y z)

theorem diff_mat {n : Nat} {a b : Arr2 ℂ} (ha : Spec.IsSquare n a) :
    (diff a b).toMat n n = a.toMat n n - b.toMat n n := by
  ext i j
  exact Arr2.ofFn_get _ (by rw [ha.1]; exact i.2) (by rw [ha.2]; exact j.2)

theorem keepsNorm_of {f : Arr2 ℂ → Except PyErr (Arr2 ℂ)} (hs : ∀ {y p}, f y = .ok p → ∃ k, Spec.IsSquare (k * 3) y)
    (B T : ∀ k, Matrix (Fin (k * 3)) (Fin (k * 3)) ℂ)
    (hm : ∀ {y p} k, f y = .ok p → Spec.IsSquare (k * 3) y → Spec.IsSquare (k * 3) p ∧
      p.toMat (k * 3) (k * 3) = B k * y.toMat (k * 3) (k * 3) * T k)
    (hn : ∀ k M, froSq (B k * M * T k) = froSq M) : KeepsNorm f where
  shape h := by
    obtain ⟨k, hy⟩ := hs h
    have := (hm k h hy).1
    exact ⟨this.1.trans hy.1.symm, this.2.trans hy.2.symm⟩
  norm h := by
    obtain ⟨k, hy⟩ := hs h
    have e := hm k h hy
    rw [normFro_froSq hy, normFro_froSq e.1, e.2, hn]
  dist h h' hr hc := by
    obtain ⟨k, hy⟩ := hs h
    have hz : Spec.IsSquare (k * 3) _ := ⟨hr.symm.trans hy.1, hc.symm.trans hy.2⟩
    have e := hm k h hy
    have e' := hm k h' hz
    rw [normFro_froSq (n := k * 3) (show Spec.IsSquare _ (diff _ _) from e.1),
      normFro_froSq (n := k * 3) (show Spec.IsSquare _ (diff _ _) from hy), diff_mat e.1, diff_mat hy, e.2, e'.2,
      ← Matrix.sub_mul, ← Matrix.mul_sub, hn]

theorem froSq_block (k : Nat) (M : Matrix (Fin (k * 3)) (Fin (k * 3)) ℂ) :
    froSq (blockMat k abcBlock.get * M * blockMat k seqBlock.get) = froSq M ∧
      froSq (blockMat k seqBlock.get * M * blockMat k abcBlock.get) = froSq M :=
  froSq_conv _ _ M (abc_seq k) (by norm_num) (abc_conjTranspose k) (seq_conjTranspose k)

theorem keepsNorm_seqToPhase : KeepsNorm admittanceSequenceToPhase :=
  keepsNorm_of seqToPhase_square (fun k => blockMat k abcBlock.get) (fun k => blockMat k seqBlock.get)
    (fun k h hy => by
      obtain ⟨p, hp, h1, h2⟩ := (admittance_mat k _ hy).1
      rw [hp] at h
      cases h
      exact ⟨h1, h2⟩)
    (fun k M => (froSq_block k M).1)

theorem keepsNorm_phaseToSeq : KeepsNorm admittancePhaseToSequence :=
  keepsNorm_of phaseToSeq_square (fun k => blockMat k seqBlock.get) (fun k => blockMat k abcBlock.get)
    (fun k h hy => by
      obtain ⟨p, hp, h1, h2⟩ := (admittance_mat k _ hy).2
      rw [hp] at h
      cases h
      exact ⟨h1, h2⟩)
    (fun k M => (froSq_block k M).2)

theorem keepsNorm_id : KeepsNorm (fun y => .ok y) where
  shape h := by cases h; exact ⟨rfl, rfl⟩
  norm h := by cases h; rfl
  dist h h' _ _ := by cases h; cases h'; rfl

theorem keepsNorm_correct (phases : String) (sequence : Bool) : KeepsNorm (correctComponent phases sequence) := by
  unfold correctComponent
  split
  · exact keepsNorm_id
  · split
    · exact keepsNorm_seqToPhase
    · split
      · exact keepsNorm_phaseToSeq
      · exact keepsNorm_id

end
end Verif
