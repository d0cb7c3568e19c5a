/-
C20, exact form: what a rejected call leaves behind.
-/
import Verif.Props.Prior

namespace Verif
open Prior
noncomputable section

/-- the calls that, if they are rejected, have not touched the centres: weights and values of shapes that do not fit, no values at all,
or an index matrix with fewer than two columns -/
def Spec.Traceless : Call → Prop
  | .exact _ vs w => vs = [] ∨ w = .array [] ∨ ∃ ws, w = .array ws ∧ ws.length ≠ vs.length ∧ ws.length ≠ 1 ∧ vs.length ≠ 1
  | .exactAdaptive _ vs w => vs = [] ∨ w = .array [] ∨ ∃ ws, w = .array ws ∧ ws.length ≠ vs.length ∧ ws.length ≠ 1 ∧ vs.length ≠ 1
  | .sparsity _ _ => False
  | .adaptiveSparsity _ _ => False
  | .contrast _ vs w => w = .array [] ∨ (vs = [] ∧ ∀ ws, w ≠ .array ws)
  | .ratios nc _ _ _ => nc < 2

theorem broadcast1_cases {β γ δ : Type} (f : β → γ → δ) (a : List β) (b : List γ) :
    (a = [] ∨ b = [] ∨ (a.length ≠ b.length ∧ a.length ≠ 1 ∧ b.length ≠ 1)) ∧
        (broadcast1 f a b = .error .valueError ∨ broadcast1 f a b = .ok []) ∨
      ¬ (a = [] ∨ b = [] ∨ (a.length ≠ b.length ∧ a.length ≠ 1 ∧ b.length ≠ 1)) ∧ ∃ l, l ≠ [] ∧ broadcast1 f a b = .ok l := by
  match a, b with
  | [], [] => exact .inl ⟨.inl rfl, .inr rfl⟩
  | [], [y] => exact .inl ⟨.inl rfl, .inr rfl⟩
  | [], y :: y' :: b => exact .inl ⟨.inl rfl, .inl rfl⟩
  | [x], [] => exact .inl ⟨.inr (.inl rfl), .inr rfl⟩
  | x :: x' :: a, [] => exact .inl ⟨.inr (.inl rfl), .inl rfl⟩
  | [x], [y] => exact .inr ⟨by simp, _, by simp, rfl⟩
  | [x], y :: y' :: b => exact .inr ⟨by simp, _, by simp, rfl⟩
  | x :: x' :: a, [y] => exact .inr ⟨by simp, (x :: x' :: a).map (fun x => f x y), by simp, rfl⟩
  | x :: x' :: a, y :: y' :: b =>
    by_cases h : a.length = b.length
    · exact .inr ⟨by simp [h], List.zipWith f (x :: x' :: a) (y :: y' :: b), by simp, by unfold broadcast1; rw [if_pos (by simp [h])]⟩
    · exact .inl ⟨by simp [h], .inl (broadcast1_error f _ _ (by simp [h]) (by simp) (by simp))⟩

theorem newMu_exact (is : List Int) (vs : List ℝ) (w : Weights) :
    Spec.Traceless (.exact is vs w) ∧ ((∃ e, newMu (.exact is vs w) = .error e) ∨ newMu (.exact is vs w) = .ok []) ∨
      ¬ Spec.Traceless (.exact is vs w) ∧ ∃ l, l ≠ [] ∧ newMu (.exact is vs w) = .ok l := by
  have hiff : Spec.Traceless (.exact is vs w) ↔ (stdWeights w vs.length = [] ∨ vs = [] ∨
      ((stdWeights w vs.length).length ≠ vs.length ∧ (stdWeights w vs.length).length ≠ 1 ∧ vs.length ≠ 1)) := by
    cases w with
    | none => simp [Spec.Traceless, stdWeights]
    | scalar c => simp [Spec.Traceless, stdWeights]
    | array ws =>
      simp only [Spec.Traceless, stdWeights, Weights.array.injEq]
      constructor
      · rintro (h | h | ⟨_, rfl, h⟩)
        · exact .inr (.inl h)
        · exact .inl h
        · exact .inr (.inr h)
      · rintro (h | h | h)
        · exact .inr (.inl h)
        · exact .inl h
        · exact .inr (.inr ⟨_, rfl, h⟩)
  rw [hiff]
  rcases broadcast1_cases (fun a b : ℝ => a * b) (stdWeights w vs.length) vs with ⟨h1, h2⟩ | h
  · exact .inl ⟨h1, h2.elim (fun h => .inl ⟨_, h⟩) .inr⟩
  · exact .inr h

/-- the centres of a call: none exactly for `Spec.Traceless`, if it can be rejected at all -/
theorem newMu_cases (c : Call) (hrows : numRows c ≠ 0) :
    Spec.Traceless c ∧ ((∃ e, newMu (delegate c) = .error e) ∨ newMu (delegate c) = .ok []) ∨
      ¬ Spec.Traceless c ∧ ∃ l, l ≠ [] ∧ newMu (delegate c) = .ok l := by
  cases c with
  | exact is vs w => exact newMu_exact is vs w
  | exactAdaptive is vs w => exact newMu_exact is vs w
  | sparsity is w =>
    exact .inr ⟨fun h => h, _, fun h => hrows (List.length_eq_zero_iff.mpr (by simpa using h)), rfl⟩
  | adaptiveSparsity is vs =>
    exact .inr ⟨fun h => h, _, fun h => hrows (List.length_eq_zero_iff.mpr (by simpa using h)), rfl⟩
  | contrast is vs w =>
    cases w with
    | none =>
      by_cases h : vs = []
      · exact .inl ⟨.inr ⟨h, by simp⟩, .inr (by simp [delegate, newMu, stdWeights, h])⟩
      · exact .inr ⟨by simp [Spec.Traceless, h], _, by simpa [stdWeights] using h, rfl⟩
    | scalar c =>
      by_cases h : vs = []
      · exact .inl ⟨.inr ⟨h, by simp⟩, .inr (by simp [delegate, newMu, stdWeights, h])⟩
      · exact .inr ⟨by simp [Spec.Traceless, h], _, by simpa [stdWeights] using h, rfl⟩
    | array ws =>
      by_cases h : ws = []
      · exact .inl ⟨.inl (by rw [h]), .inr (by simp [delegate, newMu, stdWeights, h])⟩
      · exact .inr ⟨by simp [Spec.Traceless, h], ws, h, rfl⟩
  | ratios nc is vs w =>
    by_cases h : nc < 2
    · exact .inl ⟨h, .inl ⟨.assertionError, by simp [delegate, newMu, h]⟩⟩
    · exact .inr ⟨h, List.replicate is.length 0, fun h' => hrows (List.length_eq_zero_iff.mpr (by simpa using h')),
        by simp [delegate, newMu, h]⟩

/-- a rejected call of a dense prior with consistent widths: the state is kept exactly for `Spec.Traceless`; otherwise only the centres
grew -/
theorem smoothCall_rejected {p p' : Prior} (hw : p.lcols = p.n) {c : Call} {o : Weights} {e : PyErr}
    (h : p.smoothCall c o = (.error e, p')) :
    Spec.Traceless c ∧ p' = p ∨ ¬ Spec.Traceless c ∧ ∃ l, l ≠ [] ∧ p' = { p with mu := p.mu ++ l } := by
  have hrows : numRows c ≠ 0 ∨ ∃ e, newMu (delegate c) = .error e := by
    by_contra hcon
    simp only [not_or, not_not] at hcon
    obtain ⟨h0, hm⟩ := hcon
    obtain ⟨l, hl⟩ : ∃ l, newMu (delegate c) = .ok l := by
      cases hc : newMu (delegate c) with
      | ok l => exact ⟨l, rfl⟩
      | error e => exact absurd ⟨e, hc⟩ hm
    have hr : newRows p.n (delegate c) = .ok [] := by
      have : numRows (delegate c) = 0 := by cases c <;> exact h0
      unfold newRows buildRows
      rw [this]; rfl
    unfold smoothCall at h
    rw [baseCall_eq, hl] at h
    simp only [hr, append, if_pos hw] at h
    cases h
  by_cases h0 : numRows c = 0
  · obtain ⟨e', he⟩ := hrows.resolve_left (fun h => h h0)
    have hp : p' = p := by
      unfold smoothCall at h
      rw [baseCall_eq, he] at h
      cases h; rfl
    refine .inl ⟨?_, hp⟩
    cases c with
    | exact is vs w =>
      rcases newMu_exact is vs w with ⟨ht, _⟩ | ⟨_, l, _, hl⟩
      · exact ht
      · exact absurd (hl.symm.trans he) (by simp)
    | exactAdaptive is vs w =>
      rcases newMu_exact is vs w with ⟨ht, _⟩ | ⟨_, l, _, hl⟩
      · exact ht
      · exact absurd (hl.symm.trans he) (by simp)
    | sparsity is w => cases he
    | adaptiveSparsity is vs => cases he
    | contrast is vs w => cases he
    | ratios nc is vs w =>
      by_contra hnc
      have : ¬ nc < 2 := hnc
      simp [delegate, newMu, this] at he
  · rcases newMu_cases c h0 with ⟨ht, hm⟩ | ⟨ht, l, hl, hm⟩
    · refine .inl ⟨ht, ?_⟩
      rcases hm with ⟨e', he⟩ | he
      · unfold smoothCall at h
        rw [baseCall_eq, he] at h
        cases h; rfl
      · unfold smoothCall at h
        rw [baseCall_eq, he] at h
        cases hr : newRows p.n (delegate c) with
        | error e'' =>
          simp only [hr, append, List.append_nil] at h
          cases h; rfl
        | ok rs =>
          simp only [hr, append, if_pos hw] at h
          cases h
    · refine .inr ⟨ht, l, hl, ?_⟩
      unfold smoothCall at h
      rw [baseCall_eq, hm] at h
      cases hr : newRows p.n (delegate c) with
      | error e'' =>
        simp only [hr, append] at h
        cases h; rfl
      | ok rs =>
        simp only [hr, append, if_pos hw] at h
        cases h

/-- C20, exact: a rejected call of the dense class leaves the prior as it was exactly if it is one of `Spec.Traceless`; after every other
rejected call no evaluation returns. In the sparse class every later call raises `AttributeError`, and the evaluation survives exactly
for `Spec.Traceless`. -/
theorem C20_exact_partial {p p' : Prior} (hp : Spec.Consistent p) {c : Call} {o : Weights} {e : PyErr} (h : p.call c o = (.error e, p')) :
    (p.sparseClass = false → (p' = p ↔ Spec.Traceless c)) ∧
    (p.sparseClass = true → ∀ c' o', p'.call c' o' = (.error .attributeError, p')) ∧
    (Spec.Traceless c → ∀ x, p'.logDistribution x = p.logDistribution x) ∧
    (¬ Spec.Traceless c → ∀ x A b s, p'.logDistribution x ≠ .ok (A, b, s)) := by
  have hne : ∀ q : Prior, q.mu = p.mu → q.rows = p.rows → ∀ (l : List ℝ), l ≠ [] → ∀ x A b s,
      ({ q with mu := q.mu ++ l } : Prior).logDistribution x ≠ .ok (A, b, s) := by
    intro q hm hr l hl x A b s hq
    have := (logDistribution_ok_len hq).1
    simp only [hm, hr, List.length_append, hp.mu_len] at this
    exact hl (List.length_eq_zero_iff.mp (by omega))
  by_cases hs : p.sparseClass = true
  · unfold call at h
    rw [if_pos hs, if_pos (hp.storage.trans hs)] at h
    obtain ⟨q, hq⟩ : ∃ q, ({ p with sparseNow := false } : Prior).smoothCall c o = q := ⟨_, rfl⟩
    rw [hq] at h
    match q, hq, h with
    | (.ok (), q), hq, h => cases h
    | (.error e', q), hq, h =>
      cases h
      refine ⟨fun h => absurd (hs.symm.trans h) (by simp), fun _ c' o' => ?_, ?_⟩
      · have hcl : p'.sparseClass = true ∧ p'.sparseNow = false := by
          rcases smoothCall_rejected (p := { p with sparseNow := false }) hp.width hq with ⟨_, rfl⟩ | ⟨_, l, _, rfl⟩
          · exact ⟨hs, rfl⟩
          · exact ⟨hs, rfl⟩
        unfold call
        rw [if_pos hcl.1, if_neg (by simp [hcl.2])]
      · rcases smoothCall_rejected (p := { p with sparseNow := false }) hp.width hq with ⟨ht, rfl⟩ | ⟨ht, l, hl, rfl⟩
        · exact ⟨fun _ x => rfl, fun h => absurd ht h⟩
        · exact ⟨fun h => absurd h ht, fun _ => hne { p with sparseNow := false } rfl rfl l hl⟩
  · unfold call at h
    rw [if_neg hs] at h
    refine ⟨fun _ => ?_, fun h => absurd h hs, ?_⟩
    · rcases smoothCall_rejected hp.width h with ⟨ht, rfl⟩ | ⟨ht, l, hl, rfl⟩
      · exact ⟨fun _ => ht, fun _ => rfl⟩
      · refine ⟨fun h => absurd (congrArg Prior.mu h) (by simpa using hl), fun h => absurd h ht⟩
    · rcases smoothCall_rejected hp.width h with ⟨ht, rfl⟩ | ⟨ht, l, hl, rfl⟩
      · exact ⟨fun _ x => rfl, fun h => absurd ht h⟩
      · exact ⟨fun h => absurd h ht, fun _ => hne p rfl rfl l hl⟩

/-- two rejected calls of a fresh dense prior for two parameters: unfit weights leave it alone, an index out of range breaks it -/
example : ¬ Spec.Traceless (.sparsity [2] .none) ∧ Spec.Traceless (.exact [0, 1] [1, 2, 3] (.array [1, 2])) ∧
    (∃ p', (Prior.new false 1 2).call (.exact [0, 1] [1, 2, 3] (.array [1, 2])) .none = (.error .valueError, p') ∧ p' = Prior.new false 1 2) ∧
    ∃ p', (Prior.new false 1 2).call (.sparsity [2] .none) .none = (.error .indexError, p') ∧ p' ≠ Prior.new false 1 2 := by
  have h1 : Spec.Traceless (.exact [0, 1] [1, 2, 3] (.array [1, 2])) := .inr (.inr ⟨[1, 2], rfl, by simp, by simp, by simp⟩)
  have h2 : ¬ Spec.Traceless (.sparsity [2] .none) := fun h => h
  have hr : (Prior.new false 1 2).call (.exact [0, 1] [1, 2, 3] (.array [1, 2])) .none = (.error .valueError, Prior.new false 1 2) :=
    (C20_early_rejection_partial (Prior.new false 1 2) rfl .none).1 _ _ _ (by simp) (by simp) (by simp)
  obtain ⟨q, hq, -⟩ := C20_rejected_violated (Prior.new false 1 2) (new_consistent false 1 2) [] 2 .none .none
    (by simp [Prior.new, pyIndex]) (.inl rfl)
  exact ⟨h2, h1, ⟨_, hr, rfl⟩, q, hq, fun h => h2 (((C20_exact_partial (new_consistent false 1 2) hq).1 rfl).mp h)⟩

end
end Verif
