import Verif.Props.KnownIdentify

/-!
C92 with the Laplacian constraint for networks of 29 to 38 nodes: the known lines are addressed as without the constraint
(src/identification/run.py:387), and some of these positions lie beyond the parameters of the prior.
-/

namespace Verif
noncomputable section
open Prior

theorem at'_error {β : Type} {xs : List β} {i : Nat} {e : PyErr} (h : at' xs i = .error e) : e = .indexError := by
  unfold at' at h
  split at h <;> cases h
  rfl

theorem setRow_error {row : List ℝ} {k : Int} {v : ℝ} {e : PyErr} (h : setRow row k v = .error e) : e = .indexError := by
  unfold setRow pyIndex at h
  simp only [bind, Except.bind, pure, Except.pure] at h
  split at h
  · rename_i h'
    split at h' <;> first | (cases h'; done) | skip
    all_goals (try split at h')
    all_goals first | (cases h'; cases h; rfl) | (cases h')
  · cases h

theorem setRow_beyond (row : List ℝ) (k : Nat) (v : ℝ) (h : row.length ≤ k) : setRow row (k : Int) v = .error .indexError := by
  cases hr : setRow row (k : Int) v with
  | error e => rw [setRow_error hr]
  | ok r =>
    exfalso
    unfold setRow pyIndex at hr
    simp only [bind, Except.bind, pure, Except.pure] at hr
    split at hr
    · cases hr
    · rename_i h'
      split at h'
      · omega
      · split at h'
        · omega
        · cases h'

/-- a loop whose steps raise only `IndexError`, one of which does, raises `IndexError` -/
theorem mapM_index {β γ : Type} (f : β → Except PyErr γ) (he : ∀ i e, f i = .error e → e = .indexError) :
    ∀ (l : List β) (i : β), i ∈ l → f i = .error .indexError → l.mapM f = .error .indexError := by
  intro l
  induction l with
  | nil => intro i hi; cases hi
  | cons a l ih =>
    intro i hi hf
    rw [List.mapM_cons]
    simp only [bind, Except.bind]
    cases ha : f a with
    | error e => rw [he a e ha]
    | ok b =>
      dsimp only
      rcases List.mem_cons.1 hi with rfl | hi
      · rw [hf] at ha; cases ha
      · rw [ih i hi hf]

/-- a position beyond the parameters: `IndexError` -/
theorem call_beyond {p : Prior} (hp : Spec.Consistent p) (is : List Nat) (v : List ℝ) (hv : v.length = is.length) (k : Nat)
    (hk : k ∈ is) (hn : p.n ≤ k) (c : ℝ) :
    raisePrior (p.call (.exactAdaptive (asInts is) v (.scalar c)) (.scalar LAPLACE)) = .error .indexError := by
  obtain ⟨i, hi, rfl⟩ := List.getElem_of_mem hk
  have hrows : buildRows (asInts is).length p.n (fun row i => do
      let w ← at' (stdWeights (.scalar c) v.length) i
      let idx ← at' (asInts is) i
      setRow row idx w) = .error .indexError := by
    unfold buildRows
    refine mapM_index _ ?_ _ i (List.mem_range.2 (by simpa [asInts] using hi)) ?_
    · intro i e h
      simp only [bind, Except.bind] at h
      split at h
      · rename_i h'; cases h; exact at'_error h'
      · split at h
        · rename_i h'; cases h; exact at'_error h'
        · exact setRow_error h
    · simp only [stdWeights]
      rw [at'_of (by simpa [hv] using hi), at'_asInts hi]
      simp only [bind, Except.bind]
      exact setRow_beyond _ _ _ (by simpa using hn)
  have hb : ∀ q : Prior, q.n = p.n → (q.smoothCall (.exactAdaptive (asInts is) v (.scalar c)) (.scalar LAPLACE)).1 =
      .error .indexError := by
    intro q hq
    simp only [smoothCall, delegate, baseCall, baseAddExact, stdWeights, broadcast1, List.length_replicate, if_true]
    rw [hq]
    simp only [stdWeights] at hrows
    rw [hrows]
    simp only [append]
  unfold call
  by_cases hs : p.sparseClass
  · rw [if_pos hs, if_pos (by rw [hp.storage]; exact hs)]
    have := hb { p with sparseNow := false } rfl
    revert this
    generalize { p with sparseNow := false }.smoothCall _ _ = r
    obtain ⟨r, q⟩ := r
    rintro rfl
    rfl
  · rw [if_neg hs]
    have := hb p rfl
    revert this
    generalize p.smoothCall _ _ = r
    obtain ⟨r, q⟩ := r
    rintro rfl
    rfl

theorem fromMasks_beyond (lap : Bool) (n : Nat) {E : Arr2 ℂ}
    (hEv : ∀ M, Spec.IsSquare n M → E.mulVec (vectorizeMatrix M) =
      .ok ((idEntries lap n).map (fun e => (Spec.sgn lap : ℂ) * ((M.get e.1 e.2 + M.get e.2 e.1) / 2))))
    {p : Prior} (hp : Spec.Consistent p) (l : ℝ) (wr : Prop) [Decidable wr]
    (H : List Nat) {k : Nat} (hk : k ∈ hubIdx lap n H) (hpn : p.n ≤ k) (w c : Arr2 ℂ) (hws : Spec.IsSquare n w)
    (hcs : Spec.IsSquare n c)
    (hw : ∀ a b, a < n → b < n → w.get a b = if a ≠ b ∧ (a ∈ H ∨ b ∈ H) then 1 + Complex.I else 0) :
    addFromMasks E p l wr w c = .error .indexError := by
  unfold addFromMasks
  rw [hEv w hws, hEv c hcs]
  simp only [bind, Except.bind]
  have hidx : whereAbsPos (makeRealVector ((idEntries lap n).map (fun e => (Spec.sgn lap : ℂ) *
      ((w.get e.1 e.2 + w.get e.2 e.1) / 2)))) = hubIdx lap n H := by
    unfold whereAbsPos hubIdx
    rw [hub_mask lap n H w hw]
  rw [hidx, makeReal_map, takeIdx_ok _ _ (by
    intro k hk
    have := mem_wherePos hk
    simpa [realEntries] using this)]
  dsimp only
  exact call_beyond hp _ _ (by simp) k hk hpn _

theorem hubIdx_mem {lap : Bool} {n : Nat} {H : List Nat} {k : Nat} (hk : k < (realEntries lap n).length)
    (h : atHub H ((realEntries lap n).getD k ((0, 0), false)) = true) : k ∈ hubIdx lap n H := by
  unfold hubIdx wherePos
  rw [List.mem_filter]
  refine ⟨List.mem_range.2 (by simpa using hk), ?_⟩
  rw [getD_map _ _ ((0, 0), false) hk, if_pos h]
  simp

/-- the imaginary part of the last line at node 26 -/
theorem hub_beyond : ∀ n, 29 ≤ n → n < 39 → ∃ k, k < (realEntries false n).length ∧
    atHub Spec.optimalHubs ((realEntries false n).getD k ((0, 0), false)) = true ∧ 2 * (Spec.offPairs n).length ≤ k := by
  have h : ∀ n, n < 10 → (fun n k => k < (realEntries false n).length ∧
      atHub Spec.optimalHubs ((realEntries false n).getD k ((0, 0), false)) = true ∧ 2 * (Spec.offPairs n).length ≤ k) (n + 29)
        (((n + 29) * (n + 30)) / 2 + (26 * (n + 29) - 325 + (n + 2))) := by
    decide +kernel
  intro n h1 h2
  obtain ⟨m, rfl⟩ : ∃ m, n = m + 29 := ⟨n - 29, by omega⟩
  exact ⟨_, h m (by omega)⟩

/-- C92 is violated with the Laplacian constraint also for 29 to 38 nodes: the known lines are addressed as without the constraint
(run.py:387), beyond the parameters of the prior, and `bayesian_eiv` raises `IndexError` whatever the known admittances -/
theorem C92_few_violated (cf : IdConf) (h90 : ¬ (cf.contrastEachRow = true ∧ cf.regularizeDiag = true))
    (n : Nat) (hn : 29 ≤ n) (hn' : n < 39) (y0 y : Arr2 ℂ) (hy0 : Spec.IsSquare n y0) (hy : Spec.IsSquare n y) :
    (∃ p, eivPrior cf n y0 none true = .ok p) ∧ eivPrior cf n y0 (some y) true = .error .indexError := by
  obtain ⟨p, hp, -, hpu, -⟩ := complex_prior n cf.lambdaprime y0 hy0 true cf.useTlsDiag cf.contrastEachRow cf.regularizeDiag
    (fun h => h90 h.2)
  refine ⟨⟨p, by simp only [eivPrior, hp, bind, Except.bind, pure, Except.pure]⟩, ?_⟩
  simp only [eivPrior, hp, bind, Except.bind]
  obtain ⟨E, hE, hEv⟩ := e_vec false n
  obtain ⟨w, c, hwc, hws, hcs, hw, hc⟩ := optimalLines_closed n (by omega) y hy
  obtain ⟨k, hk1, hk2, hk3⟩ := hub_beyond n hn hn'
  simp only [addKnownLines, hE, if_pos (show inStr "optimal" "optimal" by decide), hwc, bind, Except.bind]
  exact fromMasks_beyond false n hEv hpu.cons _ _ Spec.optimalHubs (hubIdx_mem hk1 hk2)
    (by rw [hpu.size, nReal_offPairs]; simpa using hk3) w c hws hcs hw

/-- with the Laplacian constraint the known lines are accepted exactly from 39 nodes on -/
theorem C92_accepts (cf : IdConf) (h90 : ¬ (cf.contrastEachRow = true ∧ cf.regularizeDiag = true)) (hl : cf.lambdaprime ≠ 0)
    (n : Nat) (y0 y : Arr2 ℂ) (hy0 : Spec.IsSquare n y0) (hy : Spec.IsSquare n y) :
    (∃ p, eivPrior cf n y0 (some y) true = .ok p) ↔ 39 ≤ n := by
  constructor
  · rintro ⟨p, hp⟩
    by_contra hlt
    have h29 := (eivPrior_needs hp).1
    rw [hy.1] at h29
    rw [(C92_few_violated cf h90 n h29 (by omega) y0 y hy0 hy).2] at hp
    cases hp
  · intro h
    obtain ⟨p, p', -, hp', -⟩ := C92_prior_violated cf h90 hl n h y0 y hy0 hy
    exact ⟨p', hp'⟩

/-- a concrete case: 33 nodes -/
example (cf : IdConf) (h90 : ¬ (cf.contrastEachRow = true ∧ cf.regularizeDiag = true)) :
    eivPrior cf 33 (Arr2.zeros 33 33) (some (oneLine 33 1 0 1)) true = .error .indexError :=
  (C92_few_violated cf h90 33 (by norm_num) (by norm_num) _ _ ⟨rfl, rfl⟩ ⟨rfl, rfl⟩).2

end
end Verif
