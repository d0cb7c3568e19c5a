/-
C103: law of the noise in Cartesian coordinates.
-/
import Verif.Props.NoiseLaw
import Verif.Spec.Cartesian

namespace Verif
open Finset MeasureTheory ProbabilityTheory
open scoped NNReal
noncomputable section

theorem cartesianSd_getD (re : Bool) (x : Arr2 ℂ) (acc : ℝ) {j : Nat} (hj : j < x.c) :
    (cartesianSd (Spec.realPart re) x acc).getD j 0 = Spec.meanAbs re x j * acc / 3 := by
  rw [cartesianSd, getD_map_range _ _ _ hj, Spec.meanAbs, ← List.sum_toFinset _ List.nodup_range, List.toFinset_range]

theorem meanAbs_nonneg (re : Bool) (x : Arr2 ℂ) (j : Nat) : 0 ≤ Spec.meanAbs re x j :=
  div_nonneg (Finset.sum_nonneg (fun _ _ => abs_nonneg _)) (Nat.cast_nonneg _)

theorem cartesianSd_length (part : ℂ → ℝ) (x : Arr2 ℂ) (acc : ℝ) : (cartesianSd part x acc).length = x.c := by
  simp [cartesianSd]

theorem normalCols_cartesian (z : Nat → ℝ) (p : Nat) (re : Bool) (x : Arr2 ℂ) {acc : ℝ} (h : 0 ≤ acc) :
    ∃ m : Arr2 ℝ, normalCols z p (cartesianSd (Spec.realPart re) x acc) x.r = .ok m ∧ ∀ t < x.r, ∀ j < x.c,
      m.get t j = Spec.meanAbs re x j * acc / 3 * z (p + (t * x.c + j)) := by
  have hn : ¬ ∃ s ∈ cartesianSd (Spec.realPart re) x acc, s < 0 := by
    rintro ⟨s, hs, hlt⟩
    obtain ⟨j, hj, rfl⟩ := List.mem_iff_getElem.1 hs
    rw [cartesianSd_length] at hj
    have e := cartesianSd_getD re x acc hj
    rw [List.getD_eq_getElem _ _ (by rwa [cartesianSd_length])] at e
    rw [e] at hlt
    have := meanAbs_nonneg re x j
    have : 0 ≤ Spec.meanAbs re x j * acc / 3 := by positivity
    linarith
  refine ⟨_, by rw [normalCols, if_neg hn], ?_⟩
  intro t ht j hj
  rw [Arr2.ofFn_get _ ht (by rwa [cartesianSd_length]), cartesianSd_getD re x acc hj, cartesianSd_length]

/-- the noisy array and the returned standard deviations -/
theorem addCartesianNoise_ok (z : Nat → ℝ) (p : Nat) (x : Arr2 ℂ) {ar ai : ℝ} (hr : 0 ≤ ar) (hi : 0 ≤ ai) :
    ∃ (y : Arr2 ℂ) (s t : List ℝ), addCartesianNoise z p x ar ai = .ok (y, s, t) ∧ y.r = x.r ∧ y.c = x.c ∧
      s.length = x.c ∧ t.length = x.c ∧
      (∀ j < x.c, s.getD j 0 = Spec.meanAbs true x j * ar / 3 ∧ t.getD j 0 = Spec.meanAbs false x j * ai / 3) ∧
      ∀ k < x.r, ∀ j < x.c,
        (y.get k j).re = (x.get k j).re + Spec.meanAbs true x j * ar / 3 * z (p + (k * x.c + j)) ∧
        (y.get k j).im = (x.get k j).im + Spec.meanAbs false x j * ai / 3 * z (p + x.r * x.c + (k * x.c + j)) := by
  obtain ⟨m, hm, gm⟩ := normalCols_cartesian z p true x hr
  obtain ⟨n, hn, gn⟩ := normalCols_cartesian z (p + x.r * x.c) false x hi
  change normalCols z p (cartesianSd Complex.re x ar) x.r = .ok m at hm
  change normalCols z _ (cartesianSd Complex.im x ai) x.r = .ok n at hn
  refine ⟨Arr2.ofFn x.r x.c (fun i j => x.get i j + (m.get i j : ℂ) + Complex.I * (n.get i j : ℂ)),
    cartesianSd Complex.re x ar, cartesianSd Complex.im x ai,
    by simp only [addCartesianNoise, hm, hn, bind, Except.bind], rfl, rfl, cartesianSd_length _ _ _, cartesianSd_length _ _ _, ?_, ?_⟩
  · intro j hj
    exact ⟨cartesianSd_getD true x ar hj, cartesianSd_getD false x ai hj⟩
  · intro k hk j hj
    rw [Arr2.ofFn_get _ hk hj, gm k hk j hj, gn k hk j hj]
    simp

/-- position of the sample of a part of an entry -/
def partPos (x : Arr2 ℂ) (p : Nat) (e : Spec.Parts x) : Nat := p + ((if e.1 then 0 else x.r * x.c) + (e.2.1 * x.c + e.2.2))

theorem partPos_lt (x : Arr2 ℂ) (p : Nat) (e : Spec.Parts x) : p ≤ partPos x p e ∧ partPos x p e < p + 2 * (x.r * x.c) := by
  obtain ⟨b, t, i⟩ := e
  have h : ((t : Nat) + 1) * x.c ≤ x.r * x.c := Nat.mul_le_mul_right _ t.2
  have h2 := i.2
  have h : (t : Nat) * x.c + x.c ≤ x.r * x.c := by linarith [h]
  unfold partPos
  dsimp only
  split <;> constructor <;> omega

theorem partPos_inj (x : Arr2 ℂ) (p : Nat) : Function.Injective (partPos x p) := by
  rintro ⟨b, t, i⟩ ⟨b', t', i'⟩ he
  have key : ∀ (t : Fin x.r) (i : Fin x.c), (t : Nat) * x.c + i < x.r * x.c := by
    intro t i
    have h : ((t : Nat) + 1) * x.c ≤ x.r * x.c := Nat.mul_le_mul_right _ t.2
    have h2 := i.2
    have h : (t : Nat) * x.c + x.c ≤ x.r * x.c := by linarith [h]
    omega
  have hti : (t : Nat) * x.c + i = t' * x.c + i' → t = t' ∧ i = i' := by
    intro he
    have h0 : 0 < x.c := lt_of_le_of_lt (Nat.zero_le _) i.2
    have hi : (i : Nat) = i' := by
      have := congrArg (· % x.c) he
      simpa [Nat.mod_eq_of_lt i.2, Nat.mod_eq_of_lt i'.2, Nat.add_mod] using this
    have ht : (t : Nat) = t' := by
      rw [hi] at he
      exact Nat.eq_of_mul_eq_mul_right h0 (Nat.add_right_cancel he)
    exact ⟨Fin.ext ht, Fin.ext hi⟩
  have h1 := key t i
  have h2 := key t' i'
  unfold partPos at he
  dsimp only at he
  cases b <;> cases b' <;> simp only [if_true, if_false, Bool.false_eq_true] at he
  · obtain ⟨rfl, rfl⟩ := hti (by omega)
    rfl
  · omega
  · omega
  · obtain ⟨rfl, rfl⟩ := hti (by omega)
    rfl

/-- C103: for non-negative accuracies both arrays are returned with their shapes; the errors of the real and imaginary parts of all
entries of both arrays are independent and normal with mean zero, and three standard deviations are the given fraction of the mean
absolute value of that part in that column. -/
theorem C103 {Ω : Type} [MeasurableSpace Ω] {P : Measure Ω} (z : Nat → Ω → ℝ) (hz : ∀ k, HasLaw (z k) (gaussianReal 0 1) P)
    (hi : iIndepFun z P) (current voltage : Arr2 ℂ) {accC accV : ℝ} (hC : 0 ≤ accC) (hV : 0 ≤ accV) :
    ∃ v i : Ω → Arr2 ℂ, (∀ ω, addNoiseCartesianBoth (fun k => z k ω) current voltage accC accV = .ok (v ω, i ω)) ∧
      (∀ ω, (v ω).r = voltage.r ∧ (v ω).c = voltage.c ∧ (i ω).r = current.r ∧ (i ω).c = current.c) ∧
      (∀ e, ∃ sd, 3 * sd = accV * Spec.meanAbs e.1 voltage e.2.2 ∧
        HasLaw (fun ω => Spec.errorOf voltage (v ω) e) (gaussianReal 0 (NNReal.mk (sd ^ 2) (sq_nonneg _))) P) ∧
      (∀ e, ∃ sd, 3 * sd = accC * Spec.meanAbs e.1 current e.2.2 ∧
        HasLaw (fun ω => Spec.errorOf current (i ω) e) (gaussianReal 0 (NNReal.mk (sd ^ 2) (sq_nonneg _))) P) ∧
      iIndepFun (fun (e : Spec.Parts voltage ⊕ Spec.Parts current) ω =>
        e.elim (Spec.errorOf voltage (v ω)) (Spec.errorOf current (i ω))) P := by
  have h1 := fun ω => addCartesianNoise_ok (fun k => z k ω) 0 voltage hV hV
  have h2 := fun ω => addCartesianNoise_ok (fun k => z k ω) (2 * (voltage.r * voltage.c)) current hC hC
  choose v s1 t1 e1 r1 c1 _ _ _ g1 using h1
  choose i s2 t2 e2 r2 c2 _ _ _ g2 using h2
  have k1 : ∀ e ω, Spec.errorOf voltage (v ω) e = Spec.meanAbs e.1 voltage e.2.2 * accV / 3 * z (partPos voltage 0 e) ω := by
    rintro ⟨b, t, j⟩ ω
    obtain ⟨ha, hb⟩ := g1 ω t t.2 j j.2
    cases b
    · simp only [Spec.errorOf, Spec.realPart, partPos, Bool.false_eq_true, if_false, hb, zero_add]
      ring
    · simp only [Spec.errorOf, Spec.realPart, partPos, if_true, ha, zero_add]
      ring
  have k2 : ∀ e ω, Spec.errorOf current (i ω) e =
      Spec.meanAbs e.1 current e.2.2 * accC / 3 * z (partPos current (2 * (voltage.r * voltage.c)) e) ω := by
    rintro ⟨b, t, j⟩ ω
    obtain ⟨ha, hb⟩ := g2 ω t t.2 j j.2
    cases b
    · simp only [Spec.errorOf, Spec.realPart, partPos, Bool.false_eq_true, if_false, hb, add_assoc]
      ring
    · simp only [Spec.errorOf, Spec.realPart, partPos, if_true, ha, zero_add]
      ring
  refine ⟨v, i, ?_, fun ω => ⟨r1 ω, c1 ω, r2 ω, c2 ω⟩, ?_, ?_, ?_⟩
  · intro ω
    simp only [addNoiseCartesianBoth, e1 ω, e2 ω, bind, Except.bind]
  · intro e
    refine ⟨Spec.meanAbs e.1 voltage e.2.2 * accV / 3, by ring, ?_⟩
    simp only [k1]
    exact gaussian_scale (hz _) _
  · intro e
    refine ⟨Spec.meanAbs e.1 current e.2.2 * accC / 3, by ring, ?_⟩
    simp only [k2]
    exact gaussian_scale (hz _) _
  · let pos : Spec.Parts voltage ⊕ Spec.Parts current → Nat := fun e =>
      e.elim (partPos voltage 0) (partPos current (2 * (voltage.r * voltage.c)))
    let c : Spec.Parts voltage ⊕ Spec.Parts current → ℝ := fun e =>
      e.elim (fun e => Spec.meanAbs e.1 voltage e.2.2 * accV / 3) (fun e => Spec.meanAbs e.1 current e.2.2 * accC / 3)
    have hinj : Function.Injective pos := by
      rintro (a | a) (b | b) he
      · exact congrArg Sum.inl (partPos_inj _ _ he)
      · have := partPos_lt voltage 0 a
        have := partPos_lt current (2 * (voltage.r * voltage.c)) b
        have he : partPos voltage 0 a = partPos current (2 * (voltage.r * voltage.c)) b := he
        omega
      · have := partPos_lt voltage 0 b
        have := partPos_lt current (2 * (voltage.r * voltage.c)) a
        have he : partPos current (2 * (voltage.r * voltage.c)) a = partPos voltage 0 b := he
        omega
      · exact congrArg Sum.inr (partPos_inj _ _ he)
    have e : (fun (e : Spec.Parts voltage ⊕ Spec.Parts current) ω =>
        e.elim (Spec.errorOf voltage (v ω)) (Spec.errorOf current (i ω))) = fun e => (fun x => c e * x) ∘ z (pos e) := by
      funext e ω
      rcases e with e | e
      · exact k1 e ω
      · exact k2 e ω
    rw [e]
    exact (hi.precomp hinj).comp (fun e x => c e * x) (fun e => by fun_prop)

/-- C103: a negative accuracy is rejected when some column has a nonzero real part. -/
theorem C103_rejected (z : Nat → ℝ) (p : Nat) (x : Arr2 ℂ) {ar : ℝ} (ai : ℝ) (hr : ar < 0) {t j : Nat} (ht : t < x.r) (hj : j < x.c)
    (h0 : (x.get t j).re ≠ 0) : addCartesianNoise z p x ar ai = .error .valueError := by
  have hx : (0 : ℝ) < x.r := by exact_mod_cast lt_of_le_of_lt (Nat.zero_le t) ht
  have hpos : 0 < Spec.meanAbs true x j := by
    refine div_pos ?_ hx
    refine Finset.sum_pos' (fun _ _ => abs_nonneg _) ⟨t, Finset.mem_range.2 ht, ?_⟩
    exact abs_pos.2 h0
  have hs : ∃ s ∈ cartesianSd Complex.re x ar, s < 0 := by
    refine ⟨(cartesianSd Complex.re x ar).getD j 0, ?_, ?_⟩
    · rw [List.getD_eq_getElem _ _ (by rwa [cartesianSd_length])]
      exact List.getElem_mem _
    · have e := cartesianSd_getD true x ar hj
      change (cartesianSd Complex.re x ar).getD j 0 = _ at e
      rw [e]
      have := mul_neg_of_pos_of_neg hpos hr
      linarith
  have hn : normalCols z p (cartesianSd Complex.re x ar) x.r = .error .valueError := by
    rw [normalCols, if_pos hs]
  simp only [addCartesianNoise, hn, bind, Except.bind]

/-- C103, returned values: the standard deviations returned beside the noisy array are those of the noise, `accuracy / 3` times the mean
absolute values. -/
theorem C103_returned (z : Nat → ℝ) (p : Nat) (x : Arr2 ℂ) {ar ai : ℝ} (hr : 0 ≤ ar) (hi : 0 ≤ ai) :
    ∃ (y : Arr2 ℂ) (s t : List ℝ), addCartesianNoise z p x ar ai = .ok (y, s, t) ∧ s.length = x.c ∧ t.length = x.c ∧
      ∀ j < x.c, 3 * s.getD j 0 = ar * Spec.meanAbs true x j ∧ 3 * t.getD j 0 = ai * Spec.meanAbs false x j := by
  obtain ⟨y, s, t, h, _, _, hs, ht, g, _⟩ := addCartesianNoise_ok z p x hr hi
  refine ⟨y, s, t, h, hs, ht, fun j hj => ?_⟩
  rw [(g j hj).1, (g j hj).2]
  constructor <;> ring

/-- hypotheses of C103 -/
example : ∃ (Ω : Type) (_ : MeasurableSpace Ω) (P : Measure Ω) (z : Nat → Ω → ℝ),
    (∀ k, HasLaw (z k) (gaussianReal 0 1) P) ∧ iIndepFun z P ∧ (0 : ℝ) ≤ 3 ∧
      Spec.meanAbs true (Arr2.ofFn 2 1 (fun t _ => if t = 0 then 1 else -3)) 0 = 2 := by
  obtain ⟨Ω, m, P, _, z, h1, h2⟩ := exists_standard_normals
  refine ⟨Ω, m, P, z, h1, h2, by norm_num, ?_⟩
  norm_num [Spec.meanAbs, Finset.sum_range_succ, Arr2.ofFn, Spec.realPart]

end
end Verif
