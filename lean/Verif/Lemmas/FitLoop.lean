/-
The loop of the two `fit` methods, for an arbitrary body.
-/
import Verif.Model.Regression

namespace Verif
noncomputable section

/-- consecutive results of a loop body started at `s` -/
def Spec.IsRun (step : FitState → Except PyErr (FitState × ℝ)) : FitState → List (FitState × ℝ) → Prop
  | _, [] => True
  | s, e :: l => step s = .ok e ∧ Spec.IsRun step e.1 l

/-- last state of a run -/
def Spec.lastState (s : FitState) : List (FitState × ℝ) → FitState
  | [] => s
  | e :: l => Spec.lastState e.1 l

/-- the entries logged for a run, numbered from `it` -/
def Spec.entries : Nat → List (FitState × ℝ) → List IterationStatus
  | _, [] => []
  | it, e :: l => ⟨it, e.1.yMat, e.2⟩ :: Spec.entries (it + 1) l

/-- target value of entry `j` -/
def Spec.targetAt (log : List IterationStatus) (j : Nat) : ℝ := (log[j]?.map (·.target)).getD 0

/-- the tolerance test on two consecutive target values, without increase -/
def Spec.Stops (absTol relTol : ℝ) (log : List IterationStatus) (j : Nat) : Prop :=
  Spec.targetAt log j ≤ Spec.targetAt log (j - 1) ∧
  (|Spec.targetAt log j - Spec.targetAt log (j - 1)| < absTol ∨
    (Spec.targetAt log (j - 1) ≠ 0 ∧
      |Spec.targetAt log j - Spec.targetAt log (j - 1)| < relTol * |Spec.targetAt log (j - 1)|))

theorem isStationary_iff (cfg : RegConfig) (c p : ℝ) : isStationary cfg c p ↔
    c ≤ p ∧ (|c - p| < cfg.absTol ∨ (p ≠ 0 ∧ |c - p| < cfg.relTol * |p|)) := by
  unfold isStationary
  constructor
  · rintro ⟨h1 | ⟨h1, h2⟩, h3⟩
    · exact ⟨h3, Or.inl h1⟩
    · exact ⟨h3, Or.inr ⟨h1, (div_lt_iff₀ (abs_pos.2 h1)).1 h2⟩⟩
  · rintro ⟨h3, h1 | ⟨h1, h2⟩⟩
    · exact ⟨Or.inl h1, h3⟩
    · exact ⟨Or.inr ⟨h1, (div_lt_iff₀ (abs_pos.2 h1)).2 h2⟩, h3⟩

theorem entries_length (it : Nat) (l : List (FitState × ℝ)) : (Spec.entries it l).length = l.length := by
  induction l generalizing it with
  | nil => rfl
  | cons e l ih => simp [Spec.entries, ih]

theorem entries_get (it : Nat) (l : List (FitState × ℝ)) (i : Nat) :
    (Spec.entries it l)[i]? = (l[i]?).map (fun e => ⟨it + i, e.1.yMat, e.2⟩) := by
  induction l generalizing it i with
  | nil => simp [Spec.entries]
  | cons e l ih =>
    cases i with
    | zero => simp [Spec.entries]
    | succ i => simp only [Spec.entries, List.getElem?_cons_succ, ih]; congr 1; funext e; congr 1; omega

theorem lastState_getLast (s : FitState) (l : List (FitState × ℝ)) (h : l ≠ []) :
    ∃ e, l.getLast? = some e ∧ Spec.lastState s l = e.1 := by
  induction l generalizing s with
  | nil => exact absurd rfl h
  | cons e l ih =>
    cases l with
    | nil => exact ⟨e, rfl, rfl⟩
    | cons e' l =>
      obtain ⟨e2, h1, h2⟩ := ih e.1 (by simp)
      exact ⟨e2, by rw [List.getLast?_cons_cons]; exact h1, h2⟩

/-- how a loop with a budget of `k` ended after `run`: normally (exhausted, or by the tolerance test on the last two
entries), or by an exception of the body -/
def Spec.Ended (cfg : RegConfig) (step : FitState → Except PyErr (FitState × ℝ)) (k it : Nat) (s : FitState)
    (log : List IterationStatus) (run : List (FitState × ℝ)) : Except PyErr FitState → Prop
  | .ok s' => s' = Spec.lastState s run ∧ (run.length < k →
      run ≠ [] ∧ 2 ≤ it + run.length ∧ Spec.Stops cfg.absTol cfg.relTol log (it + run.length - 1))
  | .error e => run.length < k ∧ step (Spec.lastState s run) = .error e ∧
      (run ≠ [] → 2 ≤ it + run.length → ¬ Spec.Stops cfg.absTol cfg.relTol log (it + run.length - 1))

/-- The loop on a log holding exactly the entries of the current fit: what it logs, when it stops, what it returns. -/
theorem fitLoop_spec (cfg : RegConfig) (step : FitState → Except PyErr (FitState × ℝ)) (k it : Nat) (s : FitState)
    (log log' : List IterationStatus) (res : Except PyErr FitState) (hlog : log.length = it)
    (h : fitLoop cfg step k it s log = (res, log')) :
    ∃ run, Spec.IsRun step s run ∧ run.length ≤ k ∧ log' = log ++ Spec.entries it run ∧
      (∀ j, it ≤ j → 0 < j → j + 1 < it + run.length → ¬ Spec.Stops cfg.absTol cfg.relTol log' j) ∧
      Spec.Ended cfg step k it s log' run res := by
  induction k generalizing it s log with
  | zero =>
    simp only [fitLoop, Prod.mk.injEq] at h
    obtain ⟨rfl, rfl⟩ := h
    exact ⟨[], trivial, le_refl _, by simp [Spec.entries], fun j h1 _ h3 => by simp at h3; omega,
      ⟨rfl, fun h => absurd h (lt_irrefl _)⟩⟩
  | succ k ih =>
    unfold fitLoop at h
    split at h
    · rename_i e he
      simp only [Prod.mk.injEq] at h
      obtain ⟨rfl, rfl⟩ := h
      exact ⟨[], trivial, Nat.zero_le _, by simp [Spec.entries], fun j h1 _ h3 => by simp at h3; omega,
        ⟨Nat.succ_pos _, he, fun h => absurd rfl h⟩⟩
    · rename_i s' t hs
      set L := log ++ [⟨it, s'.yMat, t⟩] with hL
      have hLlen : L.length = it + 1 := by simp [hL, hlog]
      -- continuing
      have cont : fitLoop cfg step k (it + 1) s' L = (res, log') →
          (0 < it → ¬ Spec.Stops cfg.absTol cfg.relTol L it) →
          ∃ run, Spec.IsRun step s run ∧ run.length ≤ k + 1 ∧ log' = log ++ Spec.entries it run ∧
            (∀ j, it ≤ j → 0 < j → j + 1 < it + run.length → ¬ Spec.Stops cfg.absTol cfg.relTol log' j) ∧
            Spec.Ended cfg step (k + 1) it s log' run res := by
        intro hc hns
        obtain ⟨run, h1, h2, h3, h4, h5⟩ := ih (it + 1) s' L hLlen hc
        have hns' : 0 < it → ¬ Spec.Stops cfg.absTol cfg.relTol log' it := by
          intro h0
          have key : ∀ j, j ≤ it → Spec.targetAt log' j = Spec.targetAt L j := by
            intro j hj
            unfold Spec.targetAt
            rw [h3, List.getElem?_append_left (by omega)]
          unfold Spec.Stops
          rw [key it le_rfl, key (it - 1) (by omega)]
          exact hns h0
        refine ⟨(s', t) :: run, ⟨hs, h1⟩, by simp; omega, ?_, ?_, ?_⟩
        · rw [h3, hL, List.append_assoc]; rfl
        · intro j hj h0 hj2
          simp only [List.length_cons] at hj2
          rcases Nat.eq_or_lt_of_le hj with rfl | hlt
          · exact hns' h0
          · exact h4 j hlt h0 (by omega)
        · cases res with
          | ok s2 =>
            obtain ⟨h6, h7⟩ := h5
            refine ⟨h6, fun hlt => ?_⟩
            simp only [List.length_cons] at hlt
            obtain ⟨h8, h9, h10⟩ := h7 (by omega)
            refine ⟨by simp, by simp only [List.length_cons]; omega, ?_⟩
            have : it + ((s', t) :: run).length - 1 = it + 1 + run.length - 1 := by simp only [List.length_cons]; omega
            rw [this]; exact h10
          | error e =>
            obtain ⟨h6, h7, h8⟩ := h5
            refine ⟨by simp; omega, h7, fun _ h2 => ?_⟩
            have : it + ((s', t) :: run).length - 1 = it + 1 + run.length - 1 := by simp only [List.length_cons]; omega
            rw [this]
            by_cases hr : run = []
            · subst hr
              simp only [List.length_cons, List.length_nil] at h2
              exact hns' (by omega)
            · have : 0 < run.length := List.length_pos_iff.2 hr
              exact h8 hr (by omega)
      dsimp only at h
      split at h
      · rename_i hit
        split at h
        · rename_i hnone
          rw [List.getElem?_eq_none_iff] at hnone
          omega
        · rename_i prev hprev
          have ht1 : Spec.targetAt L it = t := by
            unfold Spec.targetAt
            rw [hL, List.getElem?_append_right (by omega), hlog]; simp
          have ht2 : Spec.targetAt L (it - 1) = prev.target := by
            unfold Spec.targetAt
            rw [hprev]; rfl
          split at h
          · rename_i hst
            simp only [Prod.mk.injEq] at h
            obtain ⟨rfl, rfl⟩ := h
            rw [isStationary_iff] at hst
            refine ⟨[(s', t)], ⟨hs, trivial⟩, by simp, rfl, ?_, rfl, fun _ => ⟨by simp, by simp; omega, ?_⟩⟩
            · intro j h1 _ h3
              simp at h3; omega
            · simp only [List.length_cons, List.length_nil, Nat.zero_add, Nat.add_sub_cancel]
              unfold Spec.Stops
              rw [ht1, ht2]; exact hst
          · rename_i hst
            refine cont h (fun _ hS => hst ?_)
            rw [isStationary_iff]
            unfold Spec.Stops at hS
            rw [ht1, ht2] at hS
            exact hS
      · rename_i hit
        exact cont h (fun h0 => absurd h0 hit)

end
end Verif
