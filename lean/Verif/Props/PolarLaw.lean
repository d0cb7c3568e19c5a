/-
C114: law of the noise in polar coordinates, both arrays.
-/
import Verif.Props.Cartesian

namespace Verif
open Finset MeasureTheory ProbabilityTheory
open scoped NNReal
noncomputable section

namespace Spec

/-- standard deviation that applies to column `j` of `c`: one value for all columns, one value per column, or else the first one -/
def colSd (c : Nat) (j : Nat) : SdArg → ℝ
  | .pyFloat s => s
  | .pyInt s => s
  | .npScalar s => s
  | .array ss => if ss.length = c then ss.getD j 0 else ss.getD 0 0

/-- accepted arguments: not a python int, not empty, not negative -/
def SdOk : SdArg → Prop
  | .pyFloat s => 0 ≤ s
  | .pyInt _ => False
  | .npScalar s => 0 ≤ s
  | .array ss => ss ≠ [] ∧ ∀ s ∈ ss, 0 ≤ s

/-- value with relative errors of magnitude and phase -/
def withRelative (x : ℂ) (em ep : ℝ) : ℂ := (‖x‖ * (1 + em) : ℝ) * Complex.exp (((x.arg * (1 + ep) : ℝ) : ℂ) * Complex.I)

end Spec

/-- position of the sample of an entry, relative to the first -/
def noisePos (sd : SdArg) (r c i j : Nat) : Nat :=
  match sd with
  | .array ss => if ss.length = 1 then i * c + j else if ss.length = c then j * r + i else i * c + j
  | _ => i * c + j

theorem noisePos_lt (sd : SdArg) {r c i j : Nat} (hi : i < r) (hj : j < c) : noisePos sd r c i j < r * c := by
  have h1 : i * c + j < r * c := mul_add_lt hi hj
  have h2 : j * r + i < r * c := by rw [mul_comm r c]; exact mul_add_lt hj hi
  unfold noisePos
  split
  · split
    · exact h1
    · split
      · exact h2
      · exact h1
  · exact h1

theorem mulAdd_inj {c i j i' j' : Nat} (hj : j < c) (hj' : j' < c) (h : i * c + j = i' * c + j') : i = i' ∧ j = j' := by
  have h0 : 0 < c := lt_of_le_of_lt (Nat.zero_le _) hj
  have hjj : j = j' := by
    have := congrArg (· % c) h
    simpa [Nat.mod_eq_of_lt hj, Nat.mod_eq_of_lt hj', Nat.add_mod] using this
  subst hjj
  exact ⟨Nat.eq_of_mul_eq_mul_right h0 (Nat.add_right_cancel h), rfl⟩

theorem noisePos_inj (sd : SdArg) {r c i j i' j' : Nat} (hi : i < r) (hj : j < c) (hi' : i' < r) (hj' : j' < c)
    (h : noisePos sd r c i j = noisePos sd r c i' j') : i = i' ∧ j = j' := by
  unfold noisePos at h
  split at h
  · split at h
    · exact mulAdd_inj hj hj' h
    · split at h
      · exact (mulAdd_inj hi hi' h).symm
      · exact mulAdd_inj hj hj' h
  · exact mulAdd_inj hj hj' h

theorem noiseMatrix_ok (z : Nat → ℝ) (p : Nat) (sd : SdArg) (r c : Nat) (h : Spec.SdOk sd) :
    ∃ m, noiseMatrix z p sd r c = .ok m ∧ ∀ i j, i < r → j < c →
      m.get i j = Spec.colSd c j sd * z (p + noisePos sd r c i j) := by
  have hw : ∀ s : ℝ, 0 ≤ s → ∃ m : Arr2 ℝ, (do
      let v ← normal1 z p s (r * c)
      (.ok (Arr2.ofFn r c (fun i j => v.getD (i * c + j) 0)) : Except PyErr (Arr2 ℝ))) = .ok m ∧
        ∀ i j, i < r → j < c → m.get i j = s * z (p + (i * c + j)) := by
    intro s hs
    refine ⟨_, by simp only [normal1, if_neg (not_lt.2 hs), bind, Except.bind]; rfl, ?_⟩
    intro i j hi hj
    rw [Arr2.ofFn_get _ hi hj, getD_map_range _ _ _ (mul_add_lt hi hj)]
  match sd, h with
  | .pyFloat s, h => exact hw s h
  | .npScalar s, h => exact hw s h
  | .array ss, ⟨h1, h2⟩ =>
    unfold noiseMatrix noisePos Spec.colSd
    simp only
    have hz : ∀ j, 0 ≤ ss.getD j 0 := by
      intro j
      by_cases hj : j < ss.length
      · rw [List.getD_eq_getElem _ _ hj]; exact h2 _ (List.getElem_mem hj)
      · simp [List.getD_eq_getElem?_getD, List.getElem?_eq_none (not_lt.1 hj)]
    by_cases e1 : ss.length = 1
    · rw [if_pos e1]
      obtain ⟨m, hm, hg⟩ := hw _ (hz 0)
      refine ⟨m, hm, fun i j hi hj => ?_⟩
      rw [hg i j hi hj, if_pos e1]
      by_cases e2 : ss.length = c
      · rw [if_pos e2]
        have : j = 0 := by omega
        subst this; rfl
      · rw [if_neg e2]
    · rw [if_neg e1]
      by_cases e2 : ss.length = c
      · rw [if_pos e2]
        obtain ⟨m, hm, hp⟩ := forRange_inv (fun k (a : Arr2 ℝ) => ∀ i j, i < r → j < k →
            a.get i j = ss.getD j 0 * z (p + (j * r + i))) ss.length
          (Arr2.zeros r c) (fun a j => do
            let v ← normal1 z (p + j * r) (ss.getD j 0) r
            (.ok (Arr2.ofFn r c (fun i j' => if j' = j then v.getD i 0 else a.get i j')) : Except PyErr (Arr2 ℝ)))
          (fun i j hi hj => absurd hj (Nat.not_lt_zero _)) (by
            intro k hk s hs
            refine ⟨Arr2.ofFn r c (fun i j' => if j' = k then
                ((List.range r).map (fun t => ss.getD k 0 * z (p + k * r + t))).getD i 0 else s.get i j'),
              by simp only [normal1, if_neg (not_lt.2 (hz k)), bind, Except.bind], ?_⟩
            intro i j hi hj
            rw [Arr2.ofFn_get _ hi (by omega)]
            split
            · rename_i e
              rw [getD_map_range _ _ _ hi, e, add_assoc]
            · exact hs i j hi (by omega))
        refine ⟨m, hm, fun i j hi hj => ?_⟩
        rw [if_pos e2, if_neg e1, if_pos e2]
        exact hp i j hi (by omega)
      · rw [if_neg e2]
        match ss, h1, h2 with
        | s :: l, _, h2 =>
          obtain ⟨m, hm, hg⟩ := hw s (h2 s (by simp))
          refine ⟨m, hm, fun i j hi hj => ?_⟩
          rw [hg i j hi hj, if_neg e2, if_neg e1, if_neg e2]
          rfl

/-- position of the sample of the relative error of magnitude (`true`) or phase of an entry -/
def polarPos (sdm sdp : SdArg) (x : Arr2 ℂ) (p : Nat) (e : Spec.Parts x) : Nat :=
  if e.1 then p + noisePos sdm x.r x.c e.2.1 e.2.2 else p + x.r * x.c + noisePos sdp x.r x.c e.2.1 e.2.2

theorem polarPos_lt (sdm sdp : SdArg) (x : Arr2 ℂ) (p : Nat) (e : Spec.Parts x) :
    p ≤ polarPos sdm sdp x p e ∧ polarPos sdm sdp x p e < p + 2 * (x.r * x.c) := by
  have h1 := noisePos_lt sdm e.2.1.2 e.2.2.2
  have h2 := noisePos_lt sdp e.2.1.2 e.2.2.2
  unfold polarPos
  split <;> constructor <;> omega

theorem polarPos_inj (sdm sdp : SdArg) (x : Arr2 ℂ) (p : Nat) : Function.Injective (polarPos sdm sdp x p) := by
  rintro ⟨b, t, i⟩ ⟨b', t', i'⟩ he
  have h1 := noisePos_lt sdm t.2 i.2
  have h2 := noisePos_lt sdm t'.2 i'.2
  unfold polarPos at he
  dsimp only at he
  cases b <;> cases b' <;> simp only [if_true, if_false, Bool.false_eq_true] at he
  · obtain ⟨ha, hb⟩ := noisePos_inj sdp t.2 i.2 t'.2 i'.2 (by omega)
    rw [Fin.ext ha, Fin.ext hb]
  · omega
  · omega
  · obtain ⟨ha, hb⟩ := noisePos_inj sdm t.2 i.2 t'.2 i'.2 (by omega)
    rw [Fin.ext ha, Fin.ext hb]

theorem polarNoisy_eq (x : ℂ) (a b : ℝ) : polarNoisy x a b = Spec.withRelative x a b := by
  unfold polarNoisy Spec.withRelative
  rw [show ‖x‖ + a * ‖x‖ = ‖x‖ * (1 + a) by ring, show x.arg + b * x.arg = x.arg * (1 + b) by ring, mul_comm Complex.I]

theorem addPolarNoise_ok (z : Nat → ℝ) (p : Nat) (x : Arr2 ℂ) {sdm sdp : SdArg} (hm : Spec.SdOk sdm) (hp : Spec.SdOk sdp) :
    ∃ y, addPolarNoise z p x sdm sdp = .ok y ∧ y.r = x.r ∧ y.c = x.c ∧ ∀ (t : Fin x.r) (j : Fin x.c),
      y.get t j = Spec.withRelative (x.get t j) (Spec.colSd x.c j sdm * z (polarPos sdm sdp x p (true, t, j)))
        (Spec.colSd x.c j sdp * z (polarPos sdm sdp x p (false, t, j))) := by
  obtain ⟨m, h1, h2⟩ := noiseMatrix_ok z p sdm x.r x.c hm
  obtain ⟨q, h3, h4⟩ := noiseMatrix_ok z (p + x.r * x.c) sdp x.r x.c hp
  refine ⟨Arr2.ofFn x.r x.c (fun i j => polarNoisy (x.get i j) (m.get i j) (q.get i j)),
    by simp only [addPolarNoise, h1, h3, bind, Except.bind], rfl, rfl, fun t j => ?_⟩
  rw [Arr2.ofFn_get _ t.2 j.2, h2 t j t.2 j.2, h4 t j t.2 j.2, polarNoisy_eq]
  rfl

/-- standard deviation of a relative error -/
def sdOfPart (sdm sdp : SdArg) (x : Arr2 ℂ) (e : Spec.Parts x) : ℝ := Spec.colSd x.c e.2.2 (if e.1 then sdm else sdp)

/-- C114: for accepted standard deviations both arrays are returned with their shapes; every entry is the true value with a relative
error of its magnitude and a relative error of its phase; the relative errors of all entries of both arrays, of magnitude and of
phase, are independent and normal with mean zero and the standard deviation configured for that column. -/
theorem C114 {Ω : Type} [MeasurableSpace Ω] {P : Measure Ω} (z : Nat → Ω → ℝ) (hz : ∀ k, HasLaw (z k) (gaussianReal 0 1) P)
    (hi : iIndepFun z P) (current voltage : Arr2 ℂ) {sdm sdp : SdArg} (hm : Spec.SdOk sdm) (hp : Spec.SdOk sdp) :
    ∃ (v i : Ω → Arr2 ℂ) (ev : Spec.Parts voltage → Ω → ℝ) (ei : Spec.Parts current → Ω → ℝ),
      (∀ ω, addNoisePolarBoth (fun k => z k ω) current voltage sdm sdp = .ok (v ω, i ω)) ∧
      (∀ ω, (v ω).r = voltage.r ∧ (v ω).c = voltage.c ∧ (i ω).r = current.r ∧ (i ω).c = current.c) ∧
      (∀ ω (t : Fin voltage.r) (j : Fin voltage.c), (v ω).get t j = Spec.withRelative (voltage.get t j) (ev (true, t, j) ω) (ev (false, t, j) ω)) ∧
      (∀ ω (t : Fin current.r) (j : Fin current.c), (i ω).get t j = Spec.withRelative (current.get t j) (ei (true, t, j) ω) (ei (false, t, j) ω)) ∧
      (∀ e, HasLaw (ev e) (gaussianReal 0 (NNReal.mk (Spec.colSd voltage.c e.2.2 (if e.1 then sdm else sdp) ^ 2)
        (sq_nonneg _))) P) ∧
      (∀ e, HasLaw (ei e) (gaussianReal 0 (NNReal.mk (Spec.colSd current.c e.2.2 (if e.1 then sdm else sdp) ^ 2)
        (sq_nonneg _))) P) ∧
      iIndepFun (fun (e : Spec.Parts voltage ⊕ Spec.Parts current) ω => e.elim (fun e => ev e ω) (fun e => ei e ω)) P := by
  have h1 := fun ω => addPolarNoise_ok (fun k => z k ω) 0 voltage hm hp
  have h2 := fun ω => addPolarNoise_ok (fun k => z k ω) (2 * (voltage.r * voltage.c)) current hm hp
  choose v e1 r1 c1 g1 using h1
  choose i e2 r2 c2 g2 using h2
  refine ⟨v, i, fun e ω => sdOfPart sdm sdp voltage e * z (polarPos sdm sdp voltage 0 e) ω,
    fun e ω => sdOfPart sdm sdp current e * z (polarPos sdm sdp current (2 * (voltage.r * voltage.c)) e) ω, ?_,
    fun ω => ⟨r1 ω, c1 ω, r2 ω, c2 ω⟩, fun ω t j => g1 ω t j, fun ω t j => g2 ω t j, ?_, ?_, ?_⟩
  · intro ω
    simp only [addNoisePolarBoth, e1 ω, e2 ω, bind, Except.bind]
  · intro e
    exact gaussian_scale (hz _) _
  · intro e
    exact gaussian_scale (hz _) _
  · let pos : Spec.Parts voltage ⊕ Spec.Parts current → Nat := fun e =>
      e.elim (polarPos sdm sdp voltage 0) (polarPos sdm sdp current (2 * (voltage.r * voltage.c)))
    let c : Spec.Parts voltage ⊕ Spec.Parts current → ℝ := fun e =>
      e.elim (sdOfPart sdm sdp voltage) (sdOfPart sdm sdp current)
    have hinj : Function.Injective pos := by
      rintro (a | a) (b | b) he
      · exact congrArg Sum.inl (polarPos_inj _ _ _ _ he)
      · have := polarPos_lt sdm sdp voltage 0 a
        have := polarPos_lt sdm sdp current (2 * (voltage.r * voltage.c)) b
        have he : polarPos sdm sdp voltage 0 a = polarPos sdm sdp current (2 * (voltage.r * voltage.c)) b := he
        omega
      · have := polarPos_lt sdm sdp voltage 0 b
        have := polarPos_lt sdm sdp current (2 * (voltage.r * voltage.c)) a
        have he : polarPos sdm sdp current (2 * (voltage.r * voltage.c)) a = polarPos sdm sdp voltage 0 b := he
        omega
      · exact congrArg Sum.inr (polarPos_inj _ _ _ _ he)
    have e : (fun (e : Spec.Parts voltage ⊕ Spec.Parts current) ω => e.elim
        (fun e => sdOfPart sdm sdp voltage e * z (polarPos sdm sdp voltage 0 e) ω)
        (fun e => sdOfPart sdm sdp current e * z (polarPos sdm sdp current (2 * (voltage.r * voltage.c)) e) ω)) =
        fun e => (fun x => c e * x) ∘ z (pos e) := by
      funext e ω
      rcases e with e | e <;> rfl
    rw [e]
    exact (hi.precomp hinj).comp (fun e x => c e * x) (fun e => by fun_prop)

/-- C114: python integers (any), empty arrays and negative values are refused -/
theorem C114_rejected (z : Nat → ℝ) (p : Nat) (x : Arr2 ℂ) (sdp : SdArg) :
    (∀ s, addPolarNoise z p x (.pyInt s) sdp = .error .attributeError) ∧
    (x.c ≠ 0 → addPolarNoise z p x (.array []) sdp = .error .indexError) ∧
    (∀ s < 0, addPolarNoise z p x (.pyFloat s) sdp = .error .valueError) := by
  refine ⟨fun s => rfl, fun hc => ?_, fun s hs => ?_⟩
  · unfold addPolarNoise noiseMatrix
    simp only [List.length_nil]
    rw [if_neg (by norm_num), if_neg (fun h => hc h.symm)]
    rfl
  · unfold addPolarNoise noiseMatrix
    simp only [normal1, if_pos hs, bind, Except.bind]

/-- hypotheses of C114: one deviation per column, one for all -/
example : Spec.SdOk (.array [0.01, 0.02]) ∧ Spec.SdOk (.pyFloat 0.001) ∧ Spec.colSd 2 1 (.array [0.01, 0.02]) = 0.02 := by
  refine ⟨⟨by simp, ?_⟩, ?_, ?_⟩
  · intro s hs
    simp only [List.mem_cons, List.not_mem_nil, or_false] at hs
    rcases hs with rfl | rfl <;> norm_num
  · show (0 : ℝ) ≤ 0.001
    norm_num
  · simp [Spec.colSd]

end
end Verif
