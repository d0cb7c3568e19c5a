/-
C35, exact form: a further fit runs through the same iterates as the fit on a fresh object; only the moment of stopping differs, and it
is the right one exactly if the targets of the fresh fit also satisfy the stopping rule against the old log.
-/
import Verif.Props.Refit

namespace Verif
noncomputable section

/-- the target has settled: it did not increase, and decreased by less than one of the tolerances -/
def Spec.Settled (cfg : RegConfig) (cur prev : ℝ) : Prop :=
  cur ≤ prev ∧ (prev - cur < cfg.absTol ∨ prev ≠ 0 ∧ prev - cur < cfg.relTol * |prev|)

theorem settled_iff (cfg : RegConfig) (cur prev : ℝ) : isStationary cfg cur prev ↔ Spec.Settled cfg cur prev := by
  unfold isStationary Spec.Settled
  constructor
  · rintro ⟨h, hle⟩
    refine ⟨hle, ?_⟩
    rw [abs_sub_comm, abs_of_nonneg (by linarith)] at h
    rcases h with h | ⟨h0, h⟩
    · exact .inl h
    · exact .inr ⟨h0, (div_lt_iff₀ (abs_pos.mpr h0)).mp h⟩
  · rintro ⟨hle, h⟩
    refine ⟨?_, hle⟩
    rw [abs_sub_comm, abs_of_nonneg (by linarith)]
    rcases h with h | ⟨h0, h⟩
    · exact .inl h
    · exact .inr ⟨h0, (div_lt_iff₀ (abs_pos.mpr h0)).mpr h⟩

/-- `own` is a run that, with the entries of `old` put in front of the log, ends at the first iteration (after the first one) whose target
has settled against the entry of the whole log one before its own number, or at the iteration limit -/
def Spec.FirstStop (cfg : RegConfig) (old own : List IterationStatus) : Prop :=
  (∀ (j : ℕ) a b, 0 < j → j + 1 < own.length → own[j]? = some a → (old ++ own)[j - 1]? = some b → ¬ Spec.Settled cfg a.target b.target) ∧
  own.length ≤ cfg.maxIter ∧
  (own.length < cfg.maxIter → ∃ (j : ℕ) (a b : IterationStatus), 0 < j ∧ j + 1 = own.length ∧ own[j]? = some a ∧
    (old ++ own)[j - 1]? = some b ∧ Spec.Settled cfg a.target b.target)

theorem fitLoop_stop {cfg : RegConfig} {step : FitState → Except PyErr (FitState × ℝ)} : ∀ (k it : ℕ) (s s' : FitState)
    (old own log : List IterationStatus), own.length = it → fitLoop cfg step k it s (old ++ own) = (.ok s', log) →
    ∃ own' : List IterationStatus, log = old ++ own' ∧ own <+: own' ∧ own'.length ≤ it + k ∧
      (∀ (j : ℕ) a b, it ≤ j → 0 < j → j + 1 < own'.length → own'[j]? = some a → (old ++ own')[j - 1]? = some b →
        ¬ Spec.Settled cfg a.target b.target) ∧
      (own'.length < it + k → ∃ (j : ℕ) (a b : IterationStatus), 0 < j ∧ j + 1 = own'.length ∧ own'[j]? = some a ∧
        (old ++ own')[j - 1]? = some b ∧ Spec.Settled cfg a.target b.target) := by
  intro k
  induction k with
  | zero =>
    intro it s s' old own log hl h
    cases h
    exact ⟨own, rfl, List.prefix_refl _, by omega, by omega, by omega⟩
  | succ k ih =>
    intro it s s' old own log hl h
    unfold fitLoop at h
    cases hs : step s with
    | error e => simp only [hs] at h; cases h
    | ok q =>
      obtain ⟨s1, t⟩ := q
      simp only [hs] at h
      obtain ⟨e, he⟩ : ∃ e : IterationStatus, e = ⟨it, s1.yMat, t⟩ := ⟨_, rfl⟩
      have het : e.target = t := by rw [he]
      rw [← he, List.append_assoc] at h
      have hl1 : (own ++ [e]).length = it + 1 := by simp [hl]
      have hlast : (own ++ [e])[it]? = some e := by simp [← hl]
      have step2 : fitLoop cfg step k (it + 1) s1 (old ++ (own ++ [e])) = (.ok s', log) →
          (∀ b, 0 < it → (old ++ (own ++ [e]))[it - 1]? = some b → ¬ Spec.Settled cfg t b.target) →
          ∃ own' : List IterationStatus, log = old ++ own' ∧ own <+: own' ∧ own'.length ≤ it + (k + 1) ∧
      (∀ (j : ℕ) a b, it ≤ j → 0 < j → j + 1 < own'.length → own'[j]? = some a → (old ++ own')[j - 1]? = some b →
        ¬ Spec.Settled cfg a.target b.target) ∧
      (own'.length < it + (k + 1) → ∃ (j : ℕ) (a b : IterationStatus), 0 < j ∧ j + 1 = own'.length ∧ own'[j]? = some a ∧
        (old ++ own')[j - 1]? = some b ∧ Spec.Settled cfg a.target b.target) := by
        intro h hno
        obtain ⟨own', hlog, ⟨r, hr⟩, hlen, h1, h2⟩ := ih (it + 1) s1 s' old (own ++ [e]) log hl1 h
        refine ⟨own', hlog, ⟨[e] ++ r, by rw [← hr]; simp⟩, by omega, ?_, fun hlt => h2 (by omega)⟩
        intro j a b hj h0 hjl ha hb
        by_cases hji : j = it
        · subst hji
          have hae : a = e := by
            rw [← hr, List.getElem?_append_left (by omega), hlast] at ha
            exact (Option.some.inj ha).symm
          have hb' : (old ++ (own ++ [e]))[j - 1]? = some b := by
            rw [← hr, ← List.append_assoc, List.getElem?_append_left (by simp; omega)] at hb
            exact hb
          rw [hae, het]
          exact hno b h0 hb'
        · exact h1 j a b (by omega) h0 hjl ha hb
      by_cases h0 : it > 0
      · rw [if_pos h0] at h
        cases hp : (old ++ (own ++ [e]))[it - 1]? with
        | none => simp only [hp] at h; cases h
        | some prev =>
          simp only [hp] at h
          by_cases hst : isStationary cfg t prev.target
          · rw [if_pos hst] at h
            cases h
            refine ⟨own ++ [e], rfl, List.prefix_append _ _, by omega, ?_, fun _ => ?_⟩
            · intro j a b hj _ hjl
              omega
            · exact ⟨it, e, prev, h0, by omega, hlast, hp, by rw [het]; exact (settled_iff _ _ _).mp hst⟩
          · rw [if_neg hst] at h
            refine step2 h fun b _ hb hset => hst ?_
            rw [hp] at hb
            rw [Option.some.inj hb]
            exact (settled_iff _ _ _).mpr hset
      · rw [if_neg h0] at h
        exact step2 h fun b hb => absurd hb h0

/-- two runs of the same loop with different old logs: one is the beginning of the other, and runs of equal length end in the same state -/
theorem fitLoop_compare {cfg : RegConfig} {step : FitState → Except PyErr (FitState × ℝ)} : ∀ (k it : ℕ) (s s₁ s₂ : FitState)
    (old₁ old₂ own log₁ log₂ : List IterationStatus), fitLoop cfg step k it s (old₁ ++ own) = (.ok s₁, log₁) →
    fitLoop cfg step k it s (old₂ ++ own) = (.ok s₂, log₂) →
    ∃ own₁ own₂ : List IterationStatus, log₁ = old₁ ++ own₁ ∧ log₂ = old₂ ++ own₂ ∧ own <+: own₁ ∧ own <+: own₂ ∧
      (own₁ <+: own₂ ∨ own₂ <+: own₁) ∧ (own₁ = own₂ → s₁ = s₂) := by
  intro k
  induction k with
  | zero =>
    intro it s s₁ s₂ old₁ old₂ own log₁ log₂ h1 h2
    cases h1; cases h2
    exact ⟨own, own, rfl, rfl, List.prefix_refl _, List.prefix_refl _, .inl (List.prefix_refl _), fun _ => rfl⟩
  | succ k ih =>
    intro it s s₁ s₂ old₁ old₂ own log₁ log₂ h1 h2
    -- one step: the run ends here, or goes on from the next state
    have one : ∀ {old log s'}, fitLoop cfg step (k + 1) it s (old ++ own) = (.ok s', log) →
        ∃ s1 t, step s = .ok (s1, t) ∧ ((s' = s1 ∧ log = old ++ (own ++ [⟨it, s1.yMat, t⟩])) ∨
          fitLoop cfg step k (it + 1) s1 (old ++ (own ++ [⟨it, s1.yMat, t⟩])) = (.ok s', log)) := by
      intro old log s' h
      unfold fitLoop at h
      cases hs : step s with
      | error e => simp only [hs] at h; cases h
      | ok q =>
        obtain ⟨s1, t⟩ := q
        refine ⟨s1, t, rfl, ?_⟩
        simp only [hs, List.append_assoc] at h
        by_cases h0 : it > 0
        · rw [if_pos h0] at h
          split at h
          · cases h
          · split at h
            · cases h
              exact .inl ⟨rfl, rfl⟩
            · exact .inr h
        · rw [if_neg h0] at h
          exact .inr h
    have grows : ∀ {old log s' s1 e}, fitLoop cfg step k (it + 1) s1 (old ++ (own ++ [e])) = (.ok s', log) →
        ∃ own', log = old ++ own' ∧ own ++ [e] <+: own' := by
      intro old log s' s1 e h
      obtain ⟨o, _, ho, _, hp, _, _, _⟩ := ih (it + 1) s1 s' s' old old (own ++ [e]) log log h h
      exact ⟨o, ho, hp⟩
    have grows' : ∀ {old log s' s1 e}, fitLoop cfg step k (it + 1) s1 (old ++ (own ++ [e])) = (.ok s', log) →
        log = old ++ (own ++ [e]) → k = 0 ∧ s' = s1 := by
      intro old log s' s1 e h hlog
      cases k with
      | zero => cases h; exact ⟨rfl, rfl⟩
      | succ k =>
        exfalso
        have hlen : ∀ (k it : ℕ) (s s' : FitState) (l log : List IterationStatus), fitLoop cfg step k it s l = (.ok s', log) →
            0 < k → l.length < log.length := by
          intro k
          induction k with
          | zero => intro _ _ _ _ _ _ h; exact absurd h (lt_irrefl _)
          | succ k ihk =>
            intro it s s' l log h _
            unfold fitLoop at h
            cases hs : step s with
            | error e => simp only [hs] at h; cases h
            | ok q =>
              obtain ⟨s1, t⟩ := q
              simp only [hs] at h
              have hrec : fitLoop cfg step k (it + 1) s1 (l ++ [⟨it, s1.yMat, t⟩]) = (.ok s', log) → l.length < log.length := by
                intro h
                cases k with
                | zero => cases h; simp
                | succ k => have := ihk _ _ _ _ _ h (by omega); simp at this; omega
              by_cases h0 : it > 0
              · rw [if_pos h0] at h
                split at h
                · cases h
                · split at h
                  · cases h; simp
                  · exact hrec h
              · rw [if_neg h0] at h
                exact hrec h
        have := hlen _ _ _ _ _ _ h (by omega)
        rw [hlog] at this
        omega
    obtain ⟨s1, t, hs, c1⟩ := one h1
    obtain ⟨s1', t', hs', c2⟩ := one h2
    rw [hs] at hs'
    cases hs'
    rcases c1 with ⟨rfl, rfl⟩ | c1 <;> rcases c2 with ⟨rfl, rfl⟩ | c2
    · exact ⟨_, _, rfl, rfl, List.prefix_append _ _, List.prefix_append _ _, .inl (List.prefix_refl _), fun _ => rfl⟩
    · obtain ⟨o, ho, hp⟩ := grows c2
      refine ⟨_, o, rfl, ho, List.prefix_append _ _, (List.prefix_append _ _).trans hp, .inl hp, fun heq => ?_⟩
      exact (grows' c2 (by rw [ho, heq])).2.symm
    · obtain ⟨o, ho, hp⟩ := grows c1
      refine ⟨o, _, ho, rfl, (List.prefix_append _ _).trans hp, List.prefix_append _ _, .inr hp, fun heq => ?_⟩
      exact (grows' c1 (by rw [ho, heq])).2
    · obtain ⟨o₁, o₂, e1, e2, p1, p2, hc, hs⟩ := ih (it + 1) s1 s₁ s₂ old₁ old₂ _ log₁ log₂ c1 c2
      exact ⟨o₁, o₂, e1, e2, (List.prefix_append _ _).trans p1, (List.prefix_append _ _).trans p2, hc, hs⟩

/-- two comparable runs that both stop first against the same old log are equal -/
theorem firstStop_unique {cfg : RegConfig} {old r₁ r₂ : List IterationStatus} (h1 : Spec.FirstStop cfg old r₁)
    (h2 : Spec.FirstStop cfg old r₂) (hp : r₁ <+: r₂) : r₁ = r₂ := by
  obtain ⟨r, hr⟩ := hp
  by_cases hnil : r = []
  · rw [← hr, hnil, List.append_nil]
  · exfalso
    have hpos : 0 < r.length := List.length_pos_iff.mpr hnil
    have hlen : r₂.length = r₁.length + r.length := by rw [← hr, List.length_append]
    obtain ⟨j, a, b, hj, hjl, ha, hb, hset⟩ := h1.2.2 (by have := h2.2.1; omega)
    refine h2.1 j a b hj (by omega) ?_ ?_ hset
    · rw [← hr, List.getElem?_append_left (by omega)]; exact ha
    · rw [← hr, ← List.append_assoc, List.getElem?_append_left (by simp; omega)]; exact hb

/-- what a completed fit on any object returns: iterates that do not depend on the object, cut off by the stopping rule with the log of
the object in front; it agrees with the fit on a fresh object exactly if the log of the latter also obeys this rule -/
theorem refit_exact {cfg : RegConfig} {n : Nat} {yInit : Arr2 ℂ} {fit : RegObj → Except PyErr Unit × RegObj}
    (hfit : IsFit cfg n yInit fit) (obj : RegObj) (h1 : (fit obj).1 = .ok ()) (h2 : (fit RegObj.fresh).1 = .ok ()) :
    ∃ own, (fit obj).2.iterations = obj.iterations ++ own ∧ Spec.FirstStop cfg obj.iterations own ∧
      Spec.FirstStop cfg [] (fit RegObj.fresh).2.iterations ∧
      (own <+: (fit RegObj.fresh).2.iterations ∨ (fit RegObj.fresh).2.iterations <+: own) ∧
      (own = (fit RegObj.fresh).2.iterations ↔ Spec.FirstStop cfg obj.iterations (fit RegObj.fresh).2.iterations) ∧
      (own = (fit RegObj.fresh).2.iterations → (fit obj).2.admittance = (fit RegObj.fresh).2.admittance) := by
  rcases hfit with ⟨e, he⟩ | ⟨step, s, dt, _, _, _, hf⟩
  · rw [he] at h1; cases h1
  · have e1 := hf obj
    have e2 := hf RegObj.fresh
    obtain ⟨r₁, hr₁⟩ : ∃ r, r = fitLoop cfg step cfg.maxIter 0 s obj.iterations := ⟨_, rfl⟩
    obtain ⟨r₂, hr₂⟩ : ∃ r, r = fitLoop cfg step cfg.maxIter 0 s RegObj.fresh.iterations := ⟨_, rfl⟩
    rw [← hr₁] at e1
    rw [← hr₂] at e2
    match r₁, r₂ with
    | (.error e, l), _ => rw [e1] at h1; cases h1
    | (.ok s₁, l), (.error e, l') => rw [e2] at h2; cases h2
    | (.ok s₁, l₁), (.ok s₂, l₂) =>
      have f1 : fitLoop cfg step cfg.maxIter 0 s (obj.iterations ++ []) = (.ok s₁, l₁) := by rw [List.append_nil]; exact hr₁.symm
      have f2 : fitLoop cfg step cfg.maxIter 0 s ([] ++ []) = (.ok s₂, l₂) := hr₂.symm
      obtain ⟨o₁, o₂, hl1, hl2, _, _, hc, hs⟩ := fitLoop_compare _ _ _ _ _ _ _ _ _ _ f1 f2
      obtain ⟨p₁, hp1, _, a1, a2, a3⟩ := fitLoop_stop _ 0 _ _ _ [] _ rfl f1
      obtain ⟨p₂, hp2, _, b1, b2, b3⟩ := fitLoop_stop _ 0 _ _ [] [] _ rfl f2
      have ep1 : p₁ = o₁ := List.append_cancel_left (hp1.symm.trans hl1)
      have ep2 : p₂ = o₂ := List.append_cancel_left (hp2.symm.trans hl2)
      subst ep1; subst ep2
      have s1 : Spec.FirstStop cfg obj.iterations p₁ :=
        ⟨fun j a b h0 => a2 j a b (Nat.zero_le _) h0, by omega, fun h => a3 (by omega)⟩
      have s2 : Spec.FirstStop cfg [] p₂ := ⟨fun j a b h0 => b2 j a b (Nat.zero_le _) h0, by omega, fun h => b3 (by omega)⟩
      have i1 : (fit obj).2 = ⟨l₁, some s₁.yMat⟩ := by rw [e1]; rfl
      have i2 : (fit RegObj.fresh).2 = ⟨l₂, some s₂.yMat⟩ := by rw [e2]; rfl
      rw [i1, i2]
      rw [List.nil_append] at hl2
      subst hl2
      refine ⟨p₁, hl1, s1, s2, hc, ⟨fun h => h ▸ s1, fun h => ?_⟩, fun h => ?_⟩
      · rcases hc with hc | hc
        · exact firstStop_unique s1 h hc
        · exact (firstStop_unique h s1 hc).symm
      · rw [hs h]

/-- C35 exact, regression -/
theorem C35_regression_exact (solve : Solver) (cfg : RegConfig) (x z yInit : Arr2 ℂ) (obj : RegObj)
    (h1 : (bayesianFit solve cfg obj x z yInit).1 = .ok ()) (h2 : (bayesianFit solve cfg RegObj.fresh x z yInit).1 = .ok ()) :
    ∃ own, (bayesianFit solve cfg obj x z yInit).2.iterations = obj.iterations ++ own ∧ Spec.FirstStop cfg obj.iterations own ∧
      Spec.FirstStop cfg [] (bayesianFit solve cfg RegObj.fresh x z yInit).2.iterations ∧
      (own <+: (bayesianFit solve cfg RegObj.fresh x z yInit).2.iterations ∨
        (bayesianFit solve cfg RegObj.fresh x z yInit).2.iterations <+: own) ∧
      (own = (bayesianFit solve cfg RegObj.fresh x z yInit).2.iterations ↔
        Spec.FirstStop cfg obj.iterations (bayesianFit solve cfg RegObj.fresh x z yInit).2.iterations) ∧
      (own = (bayesianFit solve cfg RegObj.fresh x z yInit).2.iterations →
        (bayesianFit solve cfg obj x z yInit).2.admittance = (bayesianFit solve cfg RegObj.fresh x z yInit).2.admittance) :=
  refit_exact (bayesianFit_isFit solve cfg x z yInit) obj h1 h2

/-- C35 exact, errors in variables -/
theorem C35_eiv_exact (solve : Solver) (inv : Arr2 ℂ → Except PyErr (Arr2 ℂ)) (cfg : RegConfig) (x z : Arr2 ℂ)
    (xW zW : Option (Arr2 ℝ)) (yInit : Arr2 ℂ) (obj : RegObj) (h1 : (eivFit solve inv cfg obj x z xW zW yInit).1 = .ok ())
    (h2 : (eivFit solve inv cfg RegObj.fresh x z xW zW yInit).1 = .ok ()) :
    ∃ own, (eivFit solve inv cfg obj x z xW zW yInit).2.iterations = obj.iterations ++ own ∧ Spec.FirstStop cfg obj.iterations own ∧
      Spec.FirstStop cfg [] (eivFit solve inv cfg RegObj.fresh x z xW zW yInit).2.iterations ∧
      (own <+: (eivFit solve inv cfg RegObj.fresh x z xW zW yInit).2.iterations ∨
        (eivFit solve inv cfg RegObj.fresh x z xW zW yInit).2.iterations <+: own) ∧
      (own = (eivFit solve inv cfg RegObj.fresh x z xW zW yInit).2.iterations ↔
        Spec.FirstStop cfg obj.iterations (eivFit solve inv cfg RegObj.fresh x z xW zW yInit).2.iterations) ∧
      (own = (eivFit solve inv cfg RegObj.fresh x z xW zW yInit).2.iterations →
        (eivFit solve inv cfg obj x z xW zW yInit).2.admittance = (eivFit solve inv cfg RegObj.fresh x z xW zW yInit).2.admittance) :=
  refit_exact (eivFit_isFit solve inv cfg x z xW zW yInit) obj h1 h2

/-- the fits of C35_refit_violated complete, so that the rule of the exact theorem fails for them -/
example {solve : Solver} (hex : Spec.Exact solve) (htot : Spec.Total solve) :
    ∃ cfg x z yInit obj, (bayesianFit solve cfg obj x z yInit).1 = .ok () ∧ (bayesianFit solve cfg RegObj.fresh x z yInit).1 = .ok () ∧
      ¬ Spec.FirstStop cfg obj.iterations (bayesianFit solve cfg RegObj.fresh x z yInit).2.iterations := by
  obtain ⟨cfg, x, z₁, z₂, yInit, o₁, o₂, o₃, Y₂, Y₃, _, h2, hY2, h3, hY3, hne⟩ := C35_refit_violated hex htot
  have k1 : (bayesianFit solve cfg o₁ x z₂ yInit).1 = .ok () := by rw [h2]
  have k2 : (bayesianFit solve cfg RegObj.fresh x z₂ yInit).1 = .ok () := by rw [h3]
  refine ⟨cfg, x, z₂, yInit, o₁, k1, k2, fun hs => hne ?_⟩
  obtain ⟨own, _, _, _, _, hiff, ha⟩ := C35_regression_exact solve cfg x z₂ yInit o₁ k1 k2
  have := ha (hiff.mpr hs)
  rw [h2, h3] at this
  exact Option.some.inj (hY2.symm.trans (this.trans hY3))

end
end Verif
