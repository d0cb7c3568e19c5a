/-
Both `fit` methods as one loop after a set-up.
-/
import Verif.Lemmas.Regression
import Verif.Lemmas.FitLoop

namespace Verif
open Finset
noncomputable section

/-- a fit is either a failed set-up that leaves the object alone, or a loop from the initial guess whose body only returns
matrices built by `toMatrix` -/
def IsFit (cfg : RegConfig) (n : Nat) (yInit : Arr2 ℂ) (fit : RegObj → Except PyErr Unit × RegObj) : Prop :=
  (∃ e, ∀ obj, fit obj = (.error e, obj)) ∨
  ∃ step s dt, cfg.dt n = .ok dt ∧ s.yMat = yInit ∧
    (∀ s0 s1 t, step s0 = .ok (s1, t) → ∃ y, toMatrix n dt y = .ok s1.yMat) ∧
    ∀ obj, fit obj = finishFit obj (fitLoop cfg step cfg.maxIter 0 s obj.iterations)

theorem regStep_toMatrix {solve : Solver} {cfg : RegConfig} {n : Nat} {dt : Arr2 ℂ} {A : Arr2 ℝ} {b : List ℝ}
    {s s' : FitState} {t : ℝ} (h : regStep solve cfg n dt A b s = .ok (s', t)) :
    ∃ y, toMatrix n dt y = .ok s'.yMat := by
  unfold regStep at h
  obtain ⟨_, _, h⟩ := Prior.bind_ok h
  obtain ⟨_, _, h⟩ := Prior.bind_ok h
  obtain ⟨_, _, h⟩ := Prior.bind_ok h
  obtain ⟨_, _, h⟩ := Prior.bind_ok h
  obtain ⟨y, _, h⟩ := Prior.bind_ok h
  obtain ⟨ym, hym, h⟩ := Prior.bind_ok h
  obtain ⟨_, _, h⟩ := Prior.bind_ok h
  obtain ⟨_, _, h⟩ := Prior.bind_ok h
  obtain ⟨_, _, h⟩ := Prior.bind_ok h
  cases h
  exact ⟨y, hym⟩

theorem eivWeightedStep_toMatrix {solve : Solver} {cfg : RegConfig} {x dt : Arr2 ℂ} {A : Arr2 ℝ} {a b : List ℝ}
    {xW zW : Arr2 ℝ} {s s' : FitState} {t : ℝ} (h : eivWeightedStep solve cfg x dt A a b xW zW s = .ok (s', t)) :
    ∃ y, toMatrix x.c dt y = .ok s'.yMat := by
  unfold eivWeightedStep at h
  obtain ⟨_, _, h⟩ := Prior.bind_ok h
  obtain ⟨_, _, h⟩ := Prior.bind_ok h
  obtain ⟨_, _, h⟩ := Prior.bind_ok h
  obtain ⟨_, _, h⟩ := Prior.bind_ok h
  obtain ⟨_, _, h⟩ := Prior.bind_ok h
  obtain ⟨_, _, h⟩ := Prior.bind_ok h
  obtain ⟨_, _, h⟩ := Prior.bind_ok h
  obtain ⟨_, _, h⟩ := Prior.bind_ok h
  obtain ⟨_, _, h⟩ := Prior.bind_ok h
  obtain ⟨_, _, h⟩ := Prior.bind_ok h
  obtain ⟨y, _, h⟩ := Prior.bind_ok h
  obtain ⟨ym, hym, h⟩ := Prior.bind_ok h
  obtain ⟨_, _, h⟩ := Prior.bind_ok h
  obtain ⟨_, _, h⟩ := Prior.bind_ok h
  obtain ⟨_, _, h⟩ := Prior.bind_ok h
  obtain ⟨_, _, h⟩ := Prior.bind_ok h
  obtain ⟨_, _, h⟩ := Prior.bind_ok h
  obtain ⟨_, _, h⟩ := Prior.bind_ok h
  obtain ⟨_, _, h⟩ := Prior.bind_ok h
  cases h
  exact ⟨y, hym⟩

theorem eivUnweightedStep_toMatrix {solve : Solver} {inv : Arr2 ℂ → Except PyErr (Arr2 ℂ)} {cfg : RegConfig}
    {x z dt : Arr2 ℂ} {b : List ℝ} {s s' : FitState} {t : ℝ}
    (h : eivUnweightedStep solve inv cfg x z dt b s = .ok (s', t)) : ∃ y, toMatrix x.c dt y = .ok s'.yMat := by
  unfold eivUnweightedStep at h
  obtain ⟨_, _, h⟩ := Prior.bind_ok h
  obtain ⟨_, _, h⟩ := Prior.bind_ok h
  obtain ⟨_, _, h⟩ := Prior.bind_ok h
  obtain ⟨_, _, h⟩ := Prior.bind_ok h
  obtain ⟨_, _, h⟩ := Prior.bind_ok h
  obtain ⟨_, _, h⟩ := Prior.bind_ok h
  obtain ⟨y, _, h⟩ := Prior.bind_ok h
  obtain ⟨ym, hym, h⟩ := Prior.bind_ok h
  obtain ⟨_, _, h⟩ := Prior.bind_ok h
  obtain ⟨_, _, h⟩ := Prior.bind_ok h
  obtain ⟨_, _, h⟩ := Prior.bind_ok h
  cases h
  exact ⟨y, hym⟩

theorem bayesianFit_isFit (solve : Solver) (cfg : RegConfig) (x z yInit : Arr2 ℂ) :
    IsFit cfg x.c yInit (fun obj => bayesianFit solve cfg obj x z yInit) := by
  unfold IsFit bayesianFit
  dsimp only
  generalize hs : (do
    let dt ← cfg.dt x.c
    let e ← cfg.e x.c
    let A ← regressionMatrix x.c x dt
    let y ← toParams e yInit
    let (M, mu, _) ← cfg.prior.logDistribution y
    pure (dt, A, makeRealVector (vectorizeMatrix z), (⟨yInit, M, mu⟩ : FitState)) :
      Except PyErr (Arr2 ℂ × Arr2 ℝ × List ℝ × FitState)) = setup
  cases setup with
  | error e => exact Or.inl ⟨e, fun _ => rfl⟩
  | ok q =>
    obtain ⟨dt, hdt, hs⟩ := Prior.bind_ok hs
    obtain ⟨e, _, hs⟩ := Prior.bind_ok hs
    obtain ⟨A, _, hs⟩ := Prior.bind_ok hs
    obtain ⟨y, _, hs⟩ := Prior.bind_ok hs
    obtain ⟨⟨M, mu, pn⟩, _, hs⟩ := Prior.bind_ok hs
    cases hs
    exact Or.inr ⟨_, ⟨yInit, M, mu⟩, dt, hdt, rfl, fun _ _ _ h => regStep_toMatrix h, fun _ => rfl⟩

theorem eivBody_isFit (solve : Solver) (inv : Arr2 ℂ → Except PyErr (Arr2 ℂ)) (cfg : RegConfig) (x z : Arr2 ℂ)
    (xW zW : Option (Arr2 ℝ)) (yInit : Arr2 ℂ) :
    IsFit cfg x.c yInit (fun obj => eivBody solve inv cfg obj x z xW zW yInit) := by
  unfold IsFit eivBody
  dsimp only
  generalize hs : (do
    let dt ← cfg.dt x.c
    let e ← cfg.e x.c
    let A ← regressionMatrix x.c x dt
    let y ← toParams e yInit
    let (M, mu, _) ← cfg.prior.logDistribution y
    pure (dt, A, makeRealVector (vectorizeMatrix x), makeRealVector (vectorizeMatrix z), (⟨yInit, M, mu⟩ : FitState)) :
      Except PyErr (Arr2 ℂ × Arr2 ℝ × List ℝ × List ℝ × FitState)) = setup
  cases setup with
  | error e => exact Or.inl ⟨e, fun _ => rfl⟩
  | ok q =>
    obtain ⟨dt, hdt, hs⟩ := Prior.bind_ok hs
    obtain ⟨e, _, hs⟩ := Prior.bind_ok hs
    obtain ⟨A, _, hs⟩ := Prior.bind_ok hs
    obtain ⟨y, _, hs⟩ := Prior.bind_ok hs
    obtain ⟨⟨M, mu, pn⟩, _, hs⟩ := Prior.bind_ok hs
    cases hs
    refine Or.inr ⟨_, ⟨yInit, M, mu⟩, dt, hdt, rfl, ?_, fun _ => rfl⟩
    intro s0 s1 t h
    cases zW with
    | none => exact eivUnweightedStep_toMatrix h
    | some w =>
      cases xW with
      | none => exact eivUnweightedStep_toMatrix h
      | some w' => exact eivWeightedStep_toMatrix h

theorem eivFit_isFit (solve : Solver) (inv : Arr2 ℂ → Except PyErr (Arr2 ℂ)) (cfg : RegConfig) (x z : Arr2 ℂ)
    (xW zW : Option (Arr2 ℝ)) (yInit : Arr2 ℂ) :
    IsFit cfg x.c yInit (fun obj => eivFit solve inv cfg obj x z xW zW yInit) :=
  eivBody_isFit solve inv cfg x z xW _ yInit

theorem isRun_forall {step : FitState → Except PyErr (FitState × ℝ)} {P : FitState → Prop}
    (hstep : ∀ s0 s1 t, step s0 = .ok (s1, t) → P s1) (s : FitState) (run : List (FitState × ℝ))
    (h : Spec.IsRun step s run) : ∀ e ∈ run, P e.1 := by
  induction run generalizing s with
  | nil => simp
  | cons e l ih =>
    intro e' he'
    rcases List.mem_cons.1 he' with rfl | h'
    · exact hstep s e'.1 e'.2 h.1
    · exact ih e.1 h.2 e' h'

/-- the data of a fit on a fresh object -/
theorem IsFit.fresh {cfg : RegConfig} {n : Nat} {yInit : Arr2 ℂ} {fit : RegObj → Except PyErr Unit × RegObj}
    (h : IsFit cfg n yInit fit) :
    (∃ e, fit RegObj.fresh = (.error e, RegObj.fresh)) ∨
    ∃ step s dt run res, cfg.dt n = .ok dt ∧ s.yMat = yInit ∧
      (∀ s0 s1 t, step s0 = .ok (s1, t) → ∃ y, toMatrix n dt y = .ok s1.yMat) ∧
      Spec.IsRun step s run ∧ run.length ≤ cfg.maxIter ∧
      (∀ j, 0 < j → j + 1 < run.length → ¬ Spec.Stops cfg.absTol cfg.relTol (Spec.entries 0 run) j) ∧
      Spec.Ended cfg step cfg.maxIter 0 s (Spec.entries 0 run) run res ∧
      fit RegObj.fresh = finishFit RegObj.fresh (res, Spec.entries 0 run) := by
  rcases h with ⟨e, he⟩ | ⟨step, s, dt, hdt, hs, hstep, hfit⟩
  · exact Or.inl ⟨e, he _⟩
  · right
    generalize hr : fitLoop cfg step cfg.maxIter 0 s RegObj.fresh.iterations = r at hfit
    obtain ⟨res, log'⟩ := r
    obtain ⟨run, h1, h2, h3, h4, h5⟩ := fitLoop_spec cfg step cfg.maxIter 0 s [] log' res rfl hr
    rw [List.nil_append] at h3
    subst h3
    refine ⟨step, s, dt, run, res, hdt, hs, hstep, h1, h2, fun j h0 hj => h4 j (Nat.zero_le _) h0 (by omega), h5, ?_⟩
    rw [hfit, hr]

/-- a log without early stop: a refit logs the same entries after the old ones -/
theorem fitLoop_no_stop (cfg : RegConfig) (ha : cfg.absTol ≤ 0) (hr : cfg.relTol ≤ 0)
    (step : FitState → Except PyErr (FitState × ℝ)) (k it : Nat) (s : FitState) (old cur : List IterationStatus)
    (hcur : cur.length = it) :
    fitLoop cfg step k it s (old ++ cur) =
      ((fitLoop cfg step k it s cur).1, old ++ (fitLoop cfg step k it s cur).2) := by
  have hno : ∀ c p, ¬ isStationary cfg c p := by
    intro c p h
    rw [isStationary_iff] at h
    rcases h.2 with h1 | ⟨h0, h1⟩
    · have := abs_nonneg (c - p); linarith
    · have := abs_nonneg (c - p)
      have := mul_nonpos_of_nonpos_of_nonneg hr (abs_nonneg p); linarith
  induction k generalizing it s cur with
  | zero => rfl
  | succ k ih =>
    unfold fitLoop
    cases step s with
    | error e => rfl
    | ok q =>
      obtain ⟨s', t⟩ := q
      have hassoc : old ++ cur ++ [(⟨it, s'.yMat, t⟩ : IterationStatus)] = old ++ (cur ++ [⟨it, s'.yMat, t⟩]) :=
        List.append_assoc _ _ _
      have ih' := ih (it + 1) s' (cur ++ [⟨it, s'.yMat, t⟩]) (by simp [hcur])
      dsimp only
      rw [hassoc]
      by_cases hit : it > 0
      · rw [if_pos hit, if_pos hit]
        have h1 : it - 1 < (old ++ (cur ++ [(⟨it, s'.yMat, t⟩ : IterationStatus)])).length := by simp; omega
        have h2 : it - 1 < (cur ++ [(⟨it, s'.yMat, t⟩ : IterationStatus)]).length := by simp; omega
        rw [List.getElem?_eq_getElem h1, List.getElem?_eq_getElem h2]
        dsimp only
        rw [if_neg (hno _ _), if_neg (hno _ _)]
        exact ih'
      · rw [if_neg hit, if_neg hit]
        exact ih'

end
end Verif
