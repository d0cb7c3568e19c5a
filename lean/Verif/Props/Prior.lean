/-
C12-C20: bookkeeping and meaning of the prior objects.
-/
import Verif.Lemmas.PriorRow

namespace Verif
open Finset Prior
noncomputable section

/-! ### C12 bookkeeping -/

theorem new_consistent (sparse : Bool) (α : ℝ) (n : Nat) : Spec.Consistent (Prior.new sparse α n) :=
  ⟨rfl, rfl, rfl, by simp [Prior.new], rfl⟩

theorem runAll_step : ∀ (h : List (Call × Weights)) (p p' : Prior), Spec.Consistent p →
    (∀ co ∈ h, Spec.OneValuePerIndex co.1 co.2) → Spec.runAll p h = (.ok (), p') →
    Spec.Consistent p' ∧ p'.n = p.n ∧ p'.alpha = p.alpha ∧ p'.sparseClass = p.sparseClass ∧
      Spec.terms p' = Spec.terms p ++ h.flatMap (fun co => newTerms p.n co.1 co.2) := by
  intro h
  induction h with
  | nil => intro p p' hp _ hr; cases hr; exact ⟨hp, rfl, rfl, rfl, by simp⟩
  | cons co h ih =>
    intro p p' hp hw hr
    obtain ⟨c, o⟩ := co
    simp only [Spec.runAll] at hr
    split at hr
    · rename_i q hq
      obtain ⟨h1, h2, h3, h4, _, h6⟩ := call_step hp (hw (c, o) (by simp)) hq
      obtain ⟨g1, g2, g3, g4, g5⟩ := ih q p' h1 (fun x hx => hw x (by simp [hx])) hr
      refine ⟨g1, g2.trans h2, g3.trans h3, g4.trans h4, ?_⟩
      rw [g5, h6, h2]
      simp
    · simp at hr

/-- C12 (all but two guards): after every successful history of well-formed calls the prior is consistent, has `n`
columns, and `log_distribution` returns an `n × n` matrix and an `n`-vector on every vector of length `n` - except when
`n = 1`, and except for a sparse prior with exactly one row (see `C12_..._violated`). -/
theorem C12_bookkeeping_partial (sparse : Bool) (α : ℝ) (n : Nat) (h : List (Call × Weights)) (p' : Prior)
    (hw : ∀ co ∈ h, Spec.OneValuePerIndex co.1 co.2) (hr : Spec.runAll (Prior.new sparse α n) h = (.ok (), p')) :
    (p'.mu.length = p'.rows.length ∧ p'.gamma.length = p'.rows.length ∧ p'.n = n ∧
      ∀ row ∈ p'.rows, row.length = n) ∧
    ∀ x : List ℝ, x.length = n → n ≠ 1 → (sparse = true → p'.rows.length ≠ 1) →
      ∃ A b s, p'.logDistribution x = .ok (A, b, s) ∧ A.r = n ∧ A.c = n ∧ b.length = n := by
  obtain ⟨h1, h2, h3, h4, _⟩ := runAll_step h _ p' (new_consistent sparse α n) hw hr
  have hn : p'.n = n := h2
  refine ⟨⟨h1.mu_len, h1.gamma_len, hn, fun row hrow => (h1.row_len row hrow).trans hn⟩, fun x hx hn1 hs => ?_⟩
  rw [logDistribution_closed h1, if_neg]
  · exact ⟨_, _, _, rfl, hn, hn, by simp [linB, hn]⟩
  · rintro (h | h | ⟨h, h'⟩)
    · exact hn1 (hx ▸ h)
    · exact h (hx.trans hn.symm)
    · exact hs (h4.symm.trans h) h'

/-- C12 fails without the guards, whatever the smoothness parameter: a one-parameter prior cannot be evaluated at all
(`x.squeeze()` is a scalar), and neither can a sparse prior with a single row (`mu.squeeze()` is a scalar). -/
theorem C12_bookkeeping_violated (α : ℝ) :
    (∀ sparse h p', (∀ co ∈ h, Spec.OneValuePerIndex co.1 co.2) →
      Spec.runAll (Prior.new sparse α 1) h = (.ok (), p') → ∀ x : List ℝ, x.length = 1 →
        p'.logDistribution x = .error .valueError) ∧
    (∃ p', Spec.runAll (Prior.new true α 2) [(.sparsity [0] .none, .scalar LAPLACE)] = (.ok (), p') ∧
      ∀ x : List ℝ, p'.logDistribution x = .error .valueError) := by
  refine ⟨fun sparse h p' hw hr x hx => ?_, ?_⟩
  · obtain ⟨h1, _⟩ := runAll_step h _ p' (new_consistent sparse α 1) hw hr
    rw [logDistribution_closed h1, if_pos (Or.inl hx)]
  · refine ⟨⟨2, 2, [[1, 0]], [0], [1], α, true, true⟩, ?_, fun x => ?_⟩
    · simp [Spec.runAll, Prior.call, smoothCall, delegate, baseCall, baseAddSparsity, stdWeights, append, buildRows,
        Prior.new, at', setRow, pyIndex, LAPLACE, ordersLen, bind, Except.bind, pure, Except.pure]
    · rw [logDistribution_closed ⟨rfl, rfl, rfl, by simp, rfl⟩, if_pos (Or.inr (Or.inr ⟨rfl, rfl⟩))]

/-- witness: a two-call history meeting the hypotheses of C12 -/
example : ∃ p', (∀ co ∈ [((.exact [0, -1] [3, 4] (.scalar 2) : Call), Weights.scalar 2), (.ratios 2 [[0, 1]] [5] .none, .none)],
      Spec.OneValuePerIndex co.1 co.2) ∧
    Spec.runAll (Prior.new false 1 2) [(.exact [0, -1] [3, 4] (.scalar 2), .scalar 2), (.ratios 2 [[0, 1]] [5] .none, .none)]
      = (.ok (), p') ∧ p'.rows = [[2, 0], [0, 2], [1, -5]] ∧ p'.mu = [2 * 3, 2 * 4, 0] ∧ p'.gamma = [2, 2, 1] := by
  refine ⟨⟨2, 2, [[2, 0], [0, 2], [1, -5]], [2 * 3, 2 * 4, 0], [2, 2, 1], 1, false, false⟩, ?_, ?_, rfl, rfl, rfl⟩
  · simp [Spec.OneValuePerIndex]
  · simp [Spec.runAll, Prior.call, smoothCall, delegate, baseCall, baseAddExact, baseAddRatios, stdWeights, append,
      buildRows, Prior.new, at', setRow, pyIndex, ordersLen, bind, Except.bind, pure, Except.pure, broadcast1,
      List.range_succ]

/-- Without "one value per index" a call can succeed and desynchronise the object: every later evaluation then fails. -/
theorem C12_extra_values_desynchronise (α : ℝ) (v : ℝ) :
    ∃ p', Spec.runAll (Prior.new false α 2) [(.exact [0] [v, v] .none, .scalar GAUSS)] = (.ok (), p') ∧
      p'.rows.length = 1 ∧ p'.mu.length = 2 ∧ ∀ x A b s, p'.logDistribution x ≠ .ok (A, b, s) := by
  refine ⟨⟨2, 2, [[1, 0]], [1 * v, 1 * v], [2, 2], α, false, false⟩, ?_, rfl, rfl, fun x A b s h => ?_⟩
  · simp [Spec.runAll, Prior.call, smoothCall, delegate, baseCall, baseAddExact, stdWeights, append, buildRows,
      Prior.new, at', setRow, pyIndex, GAUSS, ordersLen, bind, Except.bind, pure, Except.pure, broadcast1,
      List.replicate_succ]
  · have := (logDistribution_ok_len h).1
    simp at this

/-! ### C13 meaning of the rows -/

/-- C13 exact prior: residual `w (x_k - v)`; negative indices count from the end -/
theorem C13_exact {p p' : Prior} {is : List Int} {vs : List ℝ} {w o : Weights} (hp : Spec.Consistent p)
    (hw : Spec.OneValuePerIndex (.exact is vs w) o) (h : p.call (.exact is vs w) o = (.ok (), p')) :
    ∀ t, t < is.length → ∃ k term, pyIndex p.n (is.getD t 0) = .ok k ∧
      (Spec.terms p')[p.rows.length + t]? = some term ∧ term.order = Spec.weightAt o t ∧
      ∀ x, term.resid p.n x = Spec.weightAt w t * (x.getD k 0 - vs.getD t 0) := by
  intro t ht
  have hwf := hw
  obtain ⟨hv, hw1, hw2⟩ := hw
  obtain ⟨nm, row, hm, hr, hterm⟩ := newTerm_at hp hwf h (t := t) ht
  simp only [delegate, rowBody] at hr
  obtain ⟨wt, h1, hr⟩ := bind_ok hr
  obtain ⟨idx, h2, hr⟩ := bind_ok hr
  obtain ⟨k, hk, hdot⟩ := dot_single hr
  have hi := (at'_ok h2 0).1
  have hwt := (at'_ok h1 0).1
  rw [stdWeights_getD (by omega)] at hwt
  refine ⟨k, _, by rw [hi]; exact hk, hterm, ?_, fun x => ?_⟩
  · show (stdWeights o vs.length).getD t 0 = _
    exact stdWeights_getD (by omega)
  · have hwl : (stdWeights w vs.length).length = vs.length := by rw [hv]; exact stdWeights_length hw1
    simp only [delegate, newMu] at hm
    rw [broadcast1_eq _ _ _ hwl] at hm
    cases hm
    simp only [Spec.Term.resid, hdot]
    have e : (List.zipWith (fun a b : ℝ => a * b) (stdWeights w vs.length) vs).getD t 0 = wt * vs.getD t 0 := by
      rw [← hwt, ← stdWeights_getD (w := w) (m := vs.length) (t := t) (by omega)]
      simp only [List.getD_eq_getElem?_getD]
      rw [List.getElem?_eq_getElem (by simp [hwl]; omega), List.getElem?_eq_getElem (by omega),
        List.getElem?_eq_getElem (by omega)]
      simp
    rw [e, hwt]; ring

/-- C13 sparsity prior: residual `w x_k` -/
theorem C13_sparsity {p p' : Prior} {is : List Int} {w o : Weights} (hp : Spec.Consistent p)
    (hw : Spec.OneValuePerIndex (.sparsity is w) o) (h : p.call (.sparsity is w) o = (.ok (), p')) :
    ∀ t, t < is.length → ∃ k term, pyIndex p.n (is.getD t 0) = .ok k ∧
      (Spec.terms p')[p.rows.length + t]? = some term ∧ term.order = Spec.weightAt o t ∧
      ∀ x, term.resid p.n x = Spec.weightAt w t * x.getD k 0 := by
  intro t ht
  obtain ⟨nm, row, hm, hr, hterm⟩ := newTerm_at hp hw h (t := t) ht
  simp only [delegate, rowBody] at hr
  obtain ⟨wt, h1, hr⟩ := bind_ok hr
  obtain ⟨idx, h2, hr⟩ := bind_ok hr
  obtain ⟨k, hk, hdot⟩ := dot_single hr
  have hi := (at'_ok h2 0).1
  have hwt := (at'_ok h1 0).1
  rw [stdWeights_getD (by omega)] at hwt
  refine ⟨k, _, by rw [hi]; exact hk, hterm, ?_, fun x => ?_⟩
  · show (stdWeights o is.length).getD t 0 = _
    exact stdWeights_getD (by omega)
  · simp only [delegate, newMu] at hm
    cases hm
    simp only [Spec.Term.resid, hdot, hwt]
    rw [List.getD_eq_getElem?_getD (l := List.replicate _ _), List.getElem?_replicate, if_pos ht]
    simp

/-- C13 adaptive sparsity prior: residual `x_k / v` -/
theorem C13_adaptive_sparsity {p p' : Prior} {is : List Int} {vs : List ℝ} {o : Weights} (hp : Spec.Consistent p)
    (hw : Spec.OneValuePerIndex (.adaptiveSparsity is vs) o) (h : p.call (.adaptiveSparsity is vs) o = (.ok (), p')) :
    ∀ t, t < is.length → ∃ k term, pyIndex p.n (is.getD t 0) = .ok k ∧
      (Spec.terms p')[p.rows.length + t]? = some term ∧ term.order = Spec.weightAt o t ∧
      ∀ x, term.resid p.n x = x.getD k 0 / vs.getD t 0 := by
  intro t ht
  have hwf := hw
  obtain ⟨hv, hw2⟩ := hw
  obtain ⟨nm, row, hm, hr, hterm⟩ := newTerm_at hp hwf h (t := t) ht
  simp only [delegate, rowBody] at hr
  obtain ⟨v, h1, hr⟩ := bind_ok hr
  obtain ⟨idx, h2, hr⟩ := bind_ok hr
  obtain ⟨k, hk, hdot⟩ := dot_single hr
  have hi := (at'_ok h2 0).1
  have hv' := (at'_ok h1 0).1
  refine ⟨k, _, by rw [hi]; exact hk, hterm, ?_, fun x => ?_⟩
  · show (stdWeights o vs.length).getD t 0 = _
    exact stdWeights_getD (by omega)
  · simp only [delegate, newMu] at hm
    cases hm
    simp only [Spec.Term.resid, hdot, hv']
    rw [List.getD_eq_getElem?_getD (l := List.replicate _ _), List.getElem?_replicate, if_pos ht]
    simp; ring

/-- C13 contrast prior: residual `w ((Σ x_k)/v - 1)` over the set of listed columns -/
theorem C13_contrast {p p' : Prior} {is : List (List Int)} {vs : List ℝ} {w o : Weights} (hp : Spec.Consistent p)
    (hw : Spec.OneValuePerIndex (.contrast is vs w) o) (h : p.call (.contrast is vs w) o = (.ok (), p')) :
    ∀ t, t < is.length → ∃ (ks : List Nat) (term : Spec.Term),
      List.Forall₂ (fun i k => pyIndex p.n i = .ok k) (is.getD t []) ks ∧
      (Spec.terms p')[p.rows.length + t]? = some term ∧ term.order = Spec.weightAt o t ∧
      ∀ x, term.resid p.n x = Spec.weightAt w t * ((∑ k ∈ ks.toFinset, x.getD k 0) / vs.getD t 0 - 1) := by
  intro t ht
  have hwf := hw
  obtain ⟨hv, hw1, hw2⟩ := hw
  obtain ⟨nm, row, hm, hr, hterm⟩ := newTerm_at hp hwf h (t := t) ht
  simp only [delegate, rowBody] at hr
  obtain ⟨wt, h1, hr⟩ := bind_ok hr
  obtain ⟨v, h3, hr⟩ := bind_ok hr
  obtain ⟨idx, h2, hr⟩ := bind_ok hr
  obtain ⟨ks, hk, hdot⟩ := dot_fold _ _ hr
  have hi := (at'_ok h2 []).1
  have hv' := (at'_ok h3 0).1
  have hwt := (at'_ok h1 0).1
  rw [stdWeights_getD (by omega)] at hwt
  refine ⟨ks, _, by rw [hi]; exact hk, hterm, ?_, fun x => ?_⟩
  · show (stdWeights o vs.length).getD t 0 = _
    exact stdWeights_getD (by omega)
  · simp only [delegate, newMu] at hm
    cases hm
    simp only [Spec.Term.resid, hdot, hwt, hv']
    rw [stdWeights_getD (by omega), hwt]
    ring

/-- C13 ratio prior: residual `w (x_a - v x_b)` for two different columns -/
theorem C13_ratios {p p' : Prior} {nc : Nat} {is : List (List Int)} {vs : List ℝ} {w o : Weights}
    (hp : Spec.Consistent p) (hw : Spec.OneValuePerIndex (.ratios nc is vs w) o)
    (h : p.call (.ratios nc is vs w) o = (.ok (), p')) :
    ∀ t, t < is.length → ∃ (i j : Int) (a b : Nat) (term : Spec.Term), is.getD t [] = [i, j] ∧
      pyIndex p.n i = .ok a ∧ pyIndex p.n j = .ok b ∧
      (Spec.terms p')[p.rows.length + t]? = some term ∧ term.order = Spec.weightAt o t ∧
      (a ≠ b → ∀ x, term.resid p.n x = Spec.weightAt w t * (x.getD a 0 - vs.getD t 0 * x.getD b 0)) := by
  intro t ht
  have hwf := hw
  obtain ⟨hv, hw1, hw2⟩ := hw
  obtain ⟨nm, row, hm, hr, hterm⟩ := newTerm_at hp hwf h (t := t) ht
  simp only [delegate, rowBody] at hr
  obtain ⟨v, h3, hr⟩ := bind_ok hr
  obtain ⟨wt, h1, hr⟩ := bind_ok hr
  obtain ⟨idx, h2, hr⟩ := bind_ok hr
  have hi := (at'_ok h2 []).1
  have hv' := (at'_ok h3 0).1
  have hwt := (at'_ok h1 0).1
  rw [stdWeights_getD (by omega)] at hwt
  match idx, hr, hi with
  | [], hr, _ => cases hr
  | [_], hr, _ => cases hr
  | _ :: _ :: _ :: _, hr, _ => cases hr
  | [i, j], hr, hi =>
    obtain ⟨_, _, hr⟩ := bind_ok hr
    obtain ⟨_, _, hr⟩ := bind_ok hr
    obtain ⟨r1, g1, hr⟩ := bind_ok hr
    obtain ⟨a, ha, rfl⟩ := setRow_inv g1
    obtain ⟨b, hb, rfl⟩ := setRow_inv hr
    simp only [List.length_set, List.length_replicate] at ha hb
    have hal := pyIndex_lt ha
    have hbl := pyIndex_lt hb
    refine ⟨i, j, a, b, _, hi, ha, hb, hterm, ?_, fun hab x => ?_⟩
    · show (stdWeights o vs.length).getD t 0 = _
      exact stdWeights_getD (by omega)
    · simp only [delegate, newMu] at hm
      split at hm
      · cases hm
      cases hm
      simp only [Spec.Term.resid]
      rw [dot_set _ _ _ (by simp) b hbl, dot_set _ _ _ (by simp) a hal, dot_zero,
        set_getD _ _ _ _ (by simpa using hbl), if_neg hab]
      simp only [List.getD_eq_getElem?_getD (l := List.replicate _ _), List.getElem?_replicate, if_pos ht, if_pos hal,
        if_pos hbl, Option.getD_some, hwt, hv']
      ring

/-- witness: a contrast over columns 0 and -1, and a ratio, are accepted by a fresh prior -/
example : ∃ p', (Prior.new false 1 3).call (.contrast [[0, -1]] [4] (.scalar 2)) .none = (.ok (), p') ∧
    p'.rows = [[2 / 4, 0, 2 / 4]] ∧ p'.mu = [2] := by
  refine ⟨⟨3, 3, [[2 / 4, 0, 2 / 4]], [2], [1], 1, false, false⟩, ?_, rfl, rfl⟩
  simp [Prior.call, smoothCall, delegate, baseCall, baseAddContrast, stdWeights, append, buildRows, Prior.new, at',
    setRow, pyIndex, ordersLen, bind, Except.bind, pure, Except.pure, List.replicate_succ]

/-! ### C14 prefix and order -/

/-- C14: whatever the outcome of a call, everything stored before is kept as a prefix -/
theorem C14_prefix (p : Prior) (c : Call) (o : Weights) :
    p.rows <+: (p.call c o).2.rows ∧ p.mu <+: (p.call c o).2.mu ∧ p.gamma <+: (p.call c o).2.gamma := by
  have hb : ∀ (q : Prior) c, q.rows <+: (q.baseCall c).2.rows ∧ q.mu <+: (q.baseCall c).2.mu ∧
      q.gamma <+: (q.baseCall c).2.gamma := by
    intro q c
    rw [baseCall_eq]
    cases newMu c with
    | error e => exact ⟨List.prefix_rfl, List.prefix_rfl, List.prefix_rfl⟩
    | ok nm =>
      simp only [append]
      cases newRows q.n c with
      | error e => exact ⟨List.prefix_rfl, List.prefix_append _ _, List.prefix_rfl⟩
      | ok rs =>
        by_cases hw : q.lcols = q.n
        · simp [hw]
        · simp [hw]
  have hs : ∀ (q : Prior) c o, q.rows <+: (q.smoothCall c o).2.rows ∧ q.mu <+: (q.smoothCall c o).2.mu ∧
      q.gamma <+: (q.smoothCall c o).2.gamma := by
    intro q c o
    have := hb q (delegate c)
    unfold smoothCall
    split
    · rename_i h; rw [h] at this; exact this
    · rename_i h
      rw [h] at this
      exact ⟨this.1, this.2.1, this.2.2.trans (List.prefix_append _ _)⟩
  unfold call
  split
  · split
    · have := hs { p with sparseNow := false } c o
      split
      · rename_i h; rw [h] at this; exact this
      · rename_i h; rw [h] at this; exact this
    · exact ⟨List.prefix_rfl, List.prefix_rfl, List.prefix_rfl⟩
  · exact hs p c o

theorem runAll_ok_iff : ∀ (h : List (Call × Weights)) (p : Prior), Spec.Consistent p →
    (∀ co ∈ h, Spec.OneValuePerIndex co.1 co.2) →
    ((∃ p', Spec.runAll p h = (.ok (), p')) ↔
      ∀ co ∈ h, (∃ nm, newMu (delegate co.1) = .ok nm) ∧ ∃ rs, newRows p.n (delegate co.1) = .ok rs) := by
  intro h
  induction h with
  | nil => intro p _ _; simp [Spec.runAll]
  | cons co h ih =>
    intro p hp hw
    obtain ⟨c, o⟩ := co
    constructor
    · rintro ⟨p', hr⟩
      simp only [Spec.runAll] at hr
      split at hr
      · rename_i q hq
        obtain ⟨h1, h2, _⟩ := call_step hp (hw (c, o) (by simp)) hq
        have := (ih q h1 (fun x hx => hw x (by simp [hx]))).1 ⟨p', hr⟩
        rw [h2] at this
        obtain ⟨nm, rs, hm, hr, _⟩ := call_ok hq
        intro co hco
        rcases List.mem_cons.1 hco with rfl | hco
        · exact ⟨⟨nm, hm⟩, ⟨rs, hr⟩⟩
        · exact this co hco
      · simp at hr
    · intro hall
      obtain ⟨⟨nm, hm⟩, ⟨rs, hr⟩⟩ := hall (c, o) (by simp)
      have hq := call_of (o := o) hm hr hp.width (fun h => hp.storage.trans h)
      obtain ⟨h1, h2, _⟩ := call_step hp (hw (c, o) (by simp)) hq
      obtain ⟨p', hp'⟩ := (ih _ h1 (fun x hx => hw x (by simp [hx]))).2
        (by rw [h2]; exact fun co hco => hall co (by simp [hco]))
      refine ⟨p', ?_⟩
      simp only [Spec.runAll, hq]
      exact hp'

/-- C14: reordering the calls of a successful history succeeds too and gives the same `log_distribution` everywhere -/
theorem C14_order_irrelevant (p p1 : Prior) (hp : Spec.Consistent p) (h1 h2 : List (Call × Weights))
    (hperm : h1.Perm h2) (hw : ∀ co ∈ h1, Spec.OneValuePerIndex co.1 co.2) (hr : Spec.runAll p h1 = (.ok (), p1)) :
    ∃ p2, Spec.runAll p h2 = (.ok (), p2) ∧ ∀ x, p1.logDistribution x = p2.logDistribution x := by
  have hw2 : ∀ co ∈ h2, Spec.OneValuePerIndex co.1 co.2 := fun co hco => hw co (hperm.mem_iff.2 hco)
  obtain ⟨p2, hp2⟩ := (runAll_ok_iff h2 p hp hw2).2
    (fun co hco => (runAll_ok_iff h1 p hp hw).1 ⟨p1, hr⟩ co (hperm.mem_iff.2 hco))
  refine ⟨p2, hp2, fun x => ?_⟩
  obtain ⟨a1, a2, a3, a4, a5⟩ := runAll_step h1 p p1 hp hw hr
  obtain ⟨b1, b2, b3, b4, b5⟩ := runAll_step h2 p p2 hp hw2 hp2
  have ht : (Spec.terms p1).Perm (Spec.terms p2) := by
    rw [a5, b5]
    exact (hperm.flatMap (fun _ _ => List.Perm.refl _)).append_left _
  have hlen : p1.rows.length = p2.rows.length := by
    rw [← terms_length a1, ← terms_length b1, ht.length_eq]
  have hsum : ∀ f : Spec.Term → ℝ, ((Spec.terms p1).map f).sum = ((Spec.terms p2).map f).sum :=
    fun f => (ht.map f).sum_eq
  rw [logDistribution_closed a1, logDistribution_closed b1, a2, b2, a3, b3, a4, b4, hlen]
  simp only [quadA, linB, pen, hsum]

/-! ### C15 convex quadratic model -/

theorem scale_pos (n : Nat) {α : ℝ} (hα : 0 < α) (x : List ℝ) (t : Spec.Term) : 0 < t.scale n α x :=
  add_pos_of_nonneg_of_pos (Real.rpow_nonneg (abs_nonneg _) _) hα

theorem list_sum_comm {β : Type} (s : Finset Nat) (l : List β) (f : Nat → β → ℝ) :
    ∑ i ∈ s, (l.map (f i)).sum = (l.map (fun t => ∑ i ∈ s, f i t)).sum := by
  induction l with
  | nil => simp
  | cons a l ih => simp [Finset.sum_add_distrib, ih]

theorem list_sum_mul {β : Type} (l : List β) (f : β → ℝ) (c : ℝ) :
    (l.map f).sum * c = (l.map (fun t => f t * c)).sum := by
  induction l with
  | nil => simp
  | cons a l ih => simp [add_mul, ih]

theorem list_sum_sub {β : Type} (l : List β) (f g : β → ℝ) :
    (l.map f).sum - (l.map g).sum = (l.map (fun t => f t - g t)).sum := by
  induction l with
  | nil => simp
  | cons a l ih => simp only [List.map_cons, List.sum_cons, ← ih]; ring

theorem list_sum_add {β : Type} (l : List β) (f g : β → ℝ) :
    (l.map f).sum + (l.map g).sum = (l.map (fun t => f t + g t)).sum := by
  induction l with
  | nil => simp
  | cons a l ih => simp only [List.map_cons, List.sum_cons, ← ih]; ring

/-- C15: for `α > 0`, with `s_t = |r_t(x)|^(2-order_t) + α > 0`: `A` is symmetric and positive semidefinite,
`yᵀAy - 2bᵀy + Σ center²/s = Σ r_t(y)²/s_t` for every `y`, the gradient `Ay - b` is `Σ row_t r_t(y)/s_t`, and `b` is
a combination of the rows. -/
theorem C15_quadratic_model {p : Prior} (hp : Spec.Consistent p) (hα : 0 < p.alpha) {x : List ℝ} {A : Arr2 ℝ}
    {b : List ℝ} {s : ℝ} (h : p.logDistribution x = .ok (A, b, s)) :
    A.r = p.n ∧ A.c = p.n ∧ b.length = p.n ∧
    (∀ t ∈ Spec.terms p, 0 < t.scale p.n p.alpha x) ∧
    (∀ i j, A.get i j = A.get j i) ∧
    (∀ y : List ℝ, 0 ≤ ∑ i ∈ range p.n, ∑ j ∈ range p.n, y.getD i 0 * A.get i j * y.getD j 0) ∧
    (∀ y : List ℝ, (∑ i ∈ range p.n, ∑ j ∈ range p.n, y.getD i 0 * A.get i j * y.getD j 0)
        - 2 * ∑ i ∈ range p.n, b.getD i 0 * y.getD i 0
        + ((Spec.terms p).map (fun t => t.center ^ 2 / t.scale p.n p.alpha x)).sum
      = ((Spec.terms p).map (fun t => (t.resid p.n y) ^ 2 / t.scale p.n p.alpha x)).sum) ∧
    (∀ y : List ℝ, ∀ i, i < p.n → (∑ j ∈ range p.n, A.get i j * y.getD j 0) - b.getD i 0
      = ((Spec.terms p).map (fun t => t.row.getD i 0 * (t.resid p.n y / t.scale p.n p.alpha x))).sum) ∧
    (∃ u : Spec.Term → ℝ, ∀ i, i < p.n → b.getD i 0 = ((Spec.terms p).map (fun t => t.row.getD i 0 * u t)).sum) := by
  rw [logDistribution_closed hp] at h
  split at h
  · cases h
  simp only [Except.ok.injEq, Prod.mk.injEq] at h
  obtain ⟨rfl, rfl, rfl⟩ := h
  have hpos : ∀ t ∈ Spec.terms p, 0 < t.scale p.n p.alpha x := fun t _ => scale_pos _ hα _ _
  have hAget : ∀ i j, i < p.n → j < p.n → (quadA p.n p.alpha x (Spec.terms p)).get i j =
      ((Spec.terms p).map (fun t => t.row.getD i 0 * (1 / t.scale p.n p.alpha x) * t.row.getD j 0)).sum :=
    fun i j hi hj => Arr2.ofFn_get _ hi hj
  have hbget : ∀ i, i < p.n → (linB p.n p.alpha x (Spec.terms p)).getD i 0 =
      ((Spec.terms p).map (fun t => t.row.getD i 0 * (1 / t.scale p.n p.alpha x) * t.center)).sum :=
    fun i hi => getD_map_range _ _ _ hi
  have hq : ∀ y : List ℝ, (∑ i ∈ range p.n, ∑ j ∈ range p.n,
        y.getD i 0 * (quadA p.n p.alpha x (Spec.terms p)).get i j * y.getD j 0) =
      ((Spec.terms p).map (fun t => (Spec.dot p.n t.row y) ^ 2 / t.scale p.n p.alpha x)).sum := by
    intro y
    have e1 : ∀ i ∈ range p.n, (∑ j ∈ range p.n,
        y.getD i 0 * (quadA p.n p.alpha x (Spec.terms p)).get i j * y.getD j 0) =
        ((Spec.terms p).map (fun t => ∑ j ∈ range p.n,
          t.row.getD i 0 * y.getD i 0 * (1 / t.scale p.n p.alpha x) * (t.row.getD j 0 * y.getD j 0))).sum := by
      intro i hi
      rw [← list_sum_comm]
      apply Finset.sum_congr rfl
      intro j hj
      rw [hAget i j (Finset.mem_range.1 hi) (Finset.mem_range.1 hj), mul_comm (y.getD i 0), list_sum_mul, list_sum_mul]
      congr 1
      apply List.map_congr_left
      intro t _
      ring
    rw [Finset.sum_congr rfl e1, list_sum_comm]
    congr 1
    apply List.map_congr_left
    intro t _
    unfold Spec.dot
    simp only [← Finset.mul_sum, ← Finset.sum_mul]
    ring
  have hbq : ∀ y : List ℝ, (∑ i ∈ range p.n, (linB p.n p.alpha x (Spec.terms p)).getD i 0 * y.getD i 0) =
      ((Spec.terms p).map (fun t => Spec.dot p.n t.row y * t.center / t.scale p.n p.alpha x)).sum := by
    intro y
    have e1 : ∀ i ∈ range p.n, (linB p.n p.alpha x (Spec.terms p)).getD i 0 * y.getD i 0 =
        ((Spec.terms p).map (fun t => t.row.getD i 0 * y.getD i 0 * (t.center / t.scale p.n p.alpha x))).sum := by
      intro i hi
      rw [hbget i (Finset.mem_range.1 hi), list_sum_mul]
      congr 1
      apply List.map_congr_left
      intro t _
      ring
    rw [Finset.sum_congr rfl e1, list_sum_comm]
    congr 1
    apply List.map_congr_left
    intro t _
    unfold Spec.dot
    rw [← Finset.sum_mul]
    ring
  refine ⟨rfl, rfl, by simp [linB], hpos, ?_, ?_, ?_, ?_, ?_⟩
  · intro i j
    simp only [quadA, Arr2.ofFn_get']
    by_cases hi : i < p.n <;> by_cases hj : j < p.n <;> simp [hi, hj]
    congr 1
    apply List.map_congr_left
    intro t _
    ring
  · intro y
    rw [hq y]
    apply List.sum_nonneg
    intro a ha
    obtain ⟨t, ht, rfl⟩ := List.mem_map.1 ha
    exact div_nonneg (sq_nonneg _) (hpos t ht).le
  · intro y
    rw [hq y, hbq y, mul_comm (2 : ℝ), list_sum_mul, list_sum_sub, list_sum_add]
    congr 1
    apply List.map_congr_left
    intro t _
    unfold Spec.Term.resid
    ring
  · intro y i hi
    have e1 : ∀ j ∈ range p.n, (quadA p.n p.alpha x (Spec.terms p)).get i j * y.getD j 0 =
        ((Spec.terms p).map (fun t => t.row.getD i 0 * (1 / t.scale p.n p.alpha x) * (t.row.getD j 0 * y.getD j 0))).sum := by
      intro j hj
      rw [hAget i j hi (Finset.mem_range.1 hj), list_sum_mul]
      congr 1
      apply List.map_congr_left
      intro t _
      ring
    rw [Finset.sum_congr rfl e1, list_sum_comm, hbget i hi, list_sum_sub]
    congr 1
    apply List.map_congr_left
    intro t _
    unfold Spec.Term.resid Spec.dot
    rw [← Finset.mul_sum]
    ring
  · refine ⟨fun t => t.center / t.scale p.n p.alpha x, fun i hi => ?_⟩
    rw [hbget i hi]
    congr 1
    apply List.map_congr_left
    intro t _
    ring

/-! ### C16 reported penalty -/

/-- C16 for the orders for which it holds: with only LAPLACE terms the penalty is `Σ |r|` up to `α` per term. -/
theorem C16_penalty_laplace_partial {p : Prior} (hp : Spec.Consistent p) {x : List ℝ} {A : Arr2 ℝ} {b : List ℝ}
    {s : ℝ} (h : p.logDistribution x = .ok (A, b, s)) (hl : ∀ t ∈ Spec.terms p, t.order = LAPLACE) :
    s = ((Spec.terms p).map (fun t => |t.resid p.n x| ^ t.order)).sum + p.rows.length * p.alpha := by
  rw [logDistribution_closed hp] at h
  split at h
  · cases h
  simp only [Except.ok.injEq, Prod.mk.injEq] at h
  obtain ⟨_, _, rfl⟩ := h
  rw [← terms_length hp]
  unfold pen
  generalize Spec.terms p = ts at hl ⊢
  induction ts with
  | nil => simp
  | cons t ts ih =>
    simp only [List.map_cons, List.sum_cons, List.length_cons]
    rw [ih (fun t ht => hl t (by simp [ht])), hl t (by simp)]
    unfold Spec.Term.scale
    rw [hl t (by simp)]
    unfold LAPLACE
    push_cast
    norm_num
    ring

/-- What is returned in general: `Σ |r|^(2-order)` plus `α` per term. -/
theorem C16_penalty_formula {p : Prior} (hp : Spec.Consistent p) {x : List ℝ} {A : Arr2 ℝ} {b : List ℝ}
    {s : ℝ} (h : p.logDistribution x = .ok (A, b, s)) :
    s = ((Spec.terms p).map (fun t => |t.resid p.n x| ^ (2 - t.order))).sum + p.rows.length * p.alpha := by
  rw [logDistribution_closed hp] at h
  split at h
  · cases h
  simp only [Except.ok.injEq, Prod.mk.injEq] at h
  obtain ⟨_, _, rfl⟩ := h
  rw [← terms_length hp]
  unfold pen
  generalize Spec.terms p = ts
  induction ts with
  | nil => simp
  | cons t ts ih =>
    simp only [List.map_cons, List.sum_cons, List.length_cons]
    rw [ih]
    unfold Spec.Term.scale
    push_cast
    ring

/-- C16 fails for GAUSS: with only GAUSS terms the reported penalty is the constant `(1+α)` per term, whatever `x`. -/
theorem C16_penalty_gauss_violated {p : Prior} (hp : Spec.Consistent p) {x : List ℝ} {A : Arr2 ℝ} {b : List ℝ}
    {s : ℝ} (h : p.logDistribution x = .ok (A, b, s)) (hg : ∀ t ∈ Spec.terms p, t.order = GAUSS) :
    s = p.rows.length * (1 + p.alpha) := by
  rw [C16_penalty_formula hp h, ← terms_length hp]
  have : ((Spec.terms p).map (fun t => |t.resid p.n x| ^ (2 - t.order))).sum = ((Spec.terms p).length : ℝ) := by
    generalize Spec.terms p = ts at hg
    induction ts with
    | nil => simp
    | cons t ts ih =>
      simp only [List.map_cons, List.sum_cons, List.length_cons]
      rw [ih (fun t ht => hg t (by simp [ht])), hg t (by simp)]
      unfold GAUSS
      push_cast
      norm_num
      ring
  rw [this]; ring

/-- C16 fails for DELTA too: the penalty is the sum of squares instead of (a smoothing of) the number of nonzeros. -/
theorem C16_penalty_delta_violated {p : Prior} (hp : Spec.Consistent p) {x : List ℝ} {A : Arr2 ℝ} {b : List ℝ}
    {s : ℝ} (h : p.logDistribution x = .ok (A, b, s)) (hd : ∀ t ∈ Spec.terms p, t.order = DELTA) :
    s = ((Spec.terms p).map (fun t => (t.resid p.n x) ^ 2)).sum + p.rows.length * p.alpha := by
  rw [C16_penalty_formula hp h]
  congr 2
  apply List.map_congr_left
  intro t ht
  rw [hd t ht]
  unfold DELTA
  rw [sub_zero, Real.rpow_two, sq_abs]

/-- the concrete disagreement: a GAUSS term on `x = (3, 0)` is reported as `1 + α`, not `9` -/
theorem C16_witness_violated : ∃ (p : Prior) (A : Arr2 ℝ) (b : List ℝ) (s : ℝ),
    Spec.runAll (Prior.new false (1/100) 2) [(.sparsity [0] .none, .scalar GAUSS)] = (.ok (), p) ∧
    p.logDistribution [3, 0] = .ok (A, b, s) ∧
    ((Spec.terms p).map (fun t => |t.resid p.n [3, 0]| ^ t.order)).sum = 9 ∧ s = 1 + 1/100 := by
  have hc : Spec.Consistent ⟨2, 2, [[1, 0]], [0], [2], 1/100, false, false⟩ := ⟨rfl, rfl, rfl, by simp, rfl⟩
  have hl := logDistribution_closed hc [3, 0]
  rw [if_neg (by simp)] at hl
  refine ⟨_, _, _, _, ?_, hl, ?_, ?_⟩
  · simp [Spec.runAll, Prior.call, smoothCall, delegate, baseCall, baseAddSparsity, stdWeights, append, buildRows,
      Prior.new, at', setRow, pyIndex, GAUSS, ordersLen, bind, Except.bind, pure, Except.pure]
  · simp [Spec.terms, Spec.Term.resid, Spec.dot, Finset.sum_range_succ]; norm_num
  · have := C16_penalty_gauss_violated hc hl (by simp [Spec.terms, GAUSS])
    rw [this]; simp

/-! ### C17 sparse and dense -/

/-- same content, whatever the class -/
def SameContent (p q : Prior) : Prop :=
  p.n = q.n ∧ p.lcols = q.lcols ∧ p.rows = q.rows ∧ p.mu = q.mu ∧ p.gamma = q.gamma ∧ p.alpha = q.alpha

theorem smoothCall_same (p q : Prior) (h : SameContent p q) (c : Call) (o : Weights) :
    (p.smoothCall c o).1 = (q.smoothCall c o).1 ∧ SameContent (p.smoothCall c o).2 (q.smoothCall c o).2 := by
  obtain ⟨n, lc, rows, mu, ga, al, sc, sn⟩ := p
  obtain ⟨n', lc', rows', mu', ga', al', sc', sn'⟩ := q
  obtain ⟨h1, h2, h3, h4, h5, h6⟩ := h
  simp only at h1 h2 h3 h4 h5 h6
  subst h1 h2 h3 h4 h5 h6
  unfold smoothCall
  rw [baseCall_eq, baseCall_eq]
  cases newMu (delegate c) with
  | error e => exact ⟨rfl, rfl, rfl, rfl, rfl, rfl, rfl⟩
  | ok nm =>
    simp only [append]
    cases newRows n (delegate c) with
    | error e => exact ⟨rfl, rfl, rfl, rfl, rfl, rfl, rfl⟩
    | ok rs =>
      by_cases hw : lc = n
      · simp only [hw, if_true]; exact ⟨trivial, rfl, rfl, rfl, rfl, rfl, rfl⟩
      · simp only [hw, if_false]; exact ⟨trivial, rfl, rfl, rfl, rfl, rfl, rfl⟩

/-- C17 up to the first failing call: a dense and a sparse prior fed with the same history give the same outcome (the
same first exception, if any) and the same content. -/
theorem C17_same_outcome_partial (α : ℝ) (n : Nat) (h : List (Call × Weights)) :
    (Spec.runAll (Prior.new false α n) h).1 = (Spec.runAll (Prior.new true α n) h).1 ∧
    SameContent (Spec.runAll (Prior.new false α n) h).2 (Spec.runAll (Prior.new true α n) h).2 := by
  have gen : ∀ (h : List (Call × Weights)) (p q : Prior), SameContent p q → p.sparseClass = false →
      q.sparseClass = true → q.sparseNow = true →
      (Spec.runAll p h).1 = (Spec.runAll q h).1 ∧ SameContent (Spec.runAll p h).2 (Spec.runAll q h).2 := by
    intro h
    induction h with
    | nil => intro p q hs _ _ _; exact ⟨rfl, hs⟩
    | cons co h ih =>
      intro p q hs hp hq hn
      obtain ⟨c, o⟩ := co
      have hcp : p.call c o = p.smoothCall c o := by unfold call; simp [hp]
      have hsame := smoothCall_same p { q with sparseNow := false } hs c o
      cases hpc : p.smoothCall c o with
      | mk out p' =>
        cases hqc : { q with sparseNow := false }.smoothCall c o with
        | mk out' q' =>
          rw [hpc, hqc] at hsame
          obtain ⟨he, hc⟩ := hsame
          simp only at he hc
          subst he
          cases out with
          | error e =>
            have hcq : q.call c o = (.error e, q') := by
              unfold call
              rw [if_pos hq, if_pos hn, hqc]
            simp only [Spec.runAll, hcp, hcq, hpc]
            exact ⟨trivial, hc⟩
          | ok u =>
            have hcq : q.call c o = (.ok (), { q' with sparseNow := true }) := by
              unfold call
              rw [if_pos hq, if_pos hn, hqc]
            simp only [Spec.runAll, hcp, hcq, hpc]
            apply ih p' { q' with sparseNow := true } hc
            · obtain ⟨_, _, _, _, _, rfl⟩ := smoothCall_ok hpc; exact hp
            · obtain ⟨_, _, _, _, _, rfl⟩ := smoothCall_ok hqc; exact hq
            · rfl
  exact gen h _ _ ⟨rfl, rfl, rfl, rfl, rfl, rfl⟩ rfl rfl rfl

/-- C17 for evaluation: the same successful history gives the same `A`, `b` and penalty for every `x`, unless it produced
exactly one row. -/
theorem C17_same_log_distribution_partial (α : ℝ) (n : Nat) (h : List (Call × Weights)) (p : Prior)
    (hw : ∀ co ∈ h, Spec.OneValuePerIndex co.1 co.2) (hr : Spec.runAll (Prior.new false α n) h = (.ok (), p))
    (h1 : p.rows.length ≠ 1) :
    ∃ q, Spec.runAll (Prior.new true α n) h = (.ok (), q) ∧ ∀ x, p.logDistribution x = q.logDistribution x := by
  have hs := C17_same_outcome_partial α n h
  rw [hr] at hs
  cases hq : Spec.runAll (Prior.new true α n) h with
  | mk out q =>
    rw [hq] at hs
    obtain ⟨he, g1, g2, g3, g4, g5, g6⟩ := hs
    simp only at he g1 g2 g3 g4 g5 g6
    subst he
    refine ⟨q, rfl, fun x => ?_⟩
    obtain ⟨a1, _, _, a4, _⟩ := runAll_step h _ p (new_consistent false α n) hw hr
    obtain ⟨b1, _, _, b4, _⟩ := runAll_step h _ q (new_consistent true α n) hw hq
    have ht : Spec.terms p = Spec.terms q := by simp [Spec.terms, g3, g4, g5]
    rw [logDistribution_closed a1, logDistribution_closed b1, ht, g1, g6, ← g3]
    simp [h1]

/-- C17 fails in both clauses: (1) with a single row, the dense prior evaluates and the sparse one raises; (2) after one
rejected call, a harmless call succeeds on the dense prior and raises `AttributeError` on the sparse one (`L` stayed
dense). -/
theorem C17_agree_violated (α : ℝ) :
    (∃ p q, Spec.runAll (Prior.new false α 2) [(.sparsity [0] .none, .scalar LAPLACE)] = (.ok (), p) ∧
      Spec.runAll (Prior.new true α 2) [(.sparsity [0] .none, .scalar LAPLACE)] = (.ok (), q) ∧
      (∃ r, p.logDistribution [0, 0] = .ok r) ∧ q.logDistribution [0, 0] = .error .valueError) ∧
    (let bad : Call := .sparsity [7] .none
     let good : Call := .sparsity [0] .none
     (((Prior.new false α 2).call bad .none).2.call good .none).1 = .ok () ∧
     (((Prior.new true α 2).call bad .none).2.call good .none).1 = .error .attributeError) := by
  refine ⟨⟨⟨2, 2, [[1, 0]], [0], [1], α, false, false⟩, ⟨2, 2, [[1, 0]], [0], [1], α, true, true⟩, ?_, ?_, ?_, ?_⟩,
    ?_, ?_⟩
  · simp [Spec.runAll, Prior.call, smoothCall, delegate, baseCall, baseAddSparsity, stdWeights, append, buildRows,
      Prior.new, at', setRow, pyIndex, LAPLACE, ordersLen, bind, Except.bind, pure, Except.pure]
  · simp [Spec.runAll, Prior.call, smoothCall, delegate, baseCall, baseAddSparsity, stdWeights, append, buildRows,
      Prior.new, at', setRow, pyIndex, LAPLACE, ordersLen, bind, Except.bind, pure, Except.pure]
  · rw [logDistribution_closed ⟨rfl, rfl, rfl, by simp, rfl⟩, if_neg (by simp)]
    exact ⟨_, rfl⟩
  · rw [logDistribution_closed ⟨rfl, rfl, rfl, by simp, rfl⟩, if_pos (by simp)]
  · simp [Prior.call, smoothCall, delegate, baseCall, baseAddSparsity, stdWeights, append, buildRows,
      Prior.new, at', setRow, pyIndex, ordersLen, bind, Except.bind, pure, Except.pure]
  · simp [Prior.call, smoothCall, delegate, baseCall, baseAddSparsity, stdWeights, append, buildRows,
      Prior.new, at', setRow, pyIndex, ordersLen, bind, Except.bind, pure, Except.pure]

/-! ### C18 copy construction -/

/-- C18 when the caller repeats `n` and the smoothness parameter: the copy is indistinguishable from the original under
every later history and evaluation. -/
theorem C18_copy_partial (p : Prior) (hp : Spec.Consistent p) :
    (∀ x, (Prior.copy p.alpha p.n p).logDistribution x = p.logDistribution x) ∧
    ∀ h, Spec.runAll (Prior.copy p.alpha p.n p) h = Spec.runAll p h := by
  have : Prior.copy p.alpha p.n p = p := by
    obtain ⟨n, lc, rows, mu, ga, al, sc, sn⟩ := p
    have := hp.storage
    simp only at this
    simp [Prior.copy, this]
  rw [this]
  exact ⟨fun _ => rfl, fun _ => rfl⟩

/-- C18 fails otherwise: `SmoothPrior(other=p)` (so `n = 0`), or any other `n`, rejects every further prior, even an empty
one; and each rejected call may leave `mu` longer. -/
theorem C18_copy_violated (p : Prior) (hp : Spec.Consistent p) (α : ℝ) (n' : Nat) (hn : n' ≠ p.n) :
    ∀ c o, ((Prior.copy α n' p).call c o).1 ≠ .ok () := by
  intro c o h
  cases hc : (Prior.copy α n' p).call c o with
  | mk out q =>
    rw [hc] at h
    simp only at h
    subst h
    obtain ⟨_, _, _, _, hl, _⟩ := call_ok hc
    exact hn ((show p.lcols = n' from hl).symm.trans hp.width)

/-- witness for both: the prior of the C12 example extended through a copy with the default `n = 0` -/
example : ((Prior.copy (1/100000) 0 (Prior.new false 1 2)).call (.sparsity [] .none) .none).1 = .error .valueError := by
  simp [Prior.call, smoothCall, delegate, baseCall, baseAddSparsity, stdWeights, append, buildRows,
      Prior.new, Prior.copy, pure, Except.pure]

/-! ### C19 adaptive exact prior -/

/-- C19 fails: on a `SmoothPrior`/`SparseSmoothPrior`, `add_exact_adaptive_prior` is `add_exact_prior`. -/
theorem C19_same_as_exact (p : Prior) (is : List Int) (vs : List ℝ) (w o : Weights) :
    p.call (.exactAdaptive is vs w) o = p.call (.exact is vs w) o := rfl

/-- ... so the residual is `w (x - v)` and differs from `w (x/v - 1)`: concrete value `v = 2`, at `x = (0, 0)`. -/
theorem C19_adaptive_violated : ∃ (p' : Prior) (term : Spec.Term),
    (Prior.new false 1 2).call (.exactAdaptive [0] [2] .none) (.scalar LAPLACE) = (.ok (), p') ∧
    Spec.OneValuePerIndex (.exactAdaptive [0] [2] .none) (.scalar LAPLACE) ∧
    (Spec.terms p')[0]? = some term ∧ term.resid 2 [0, 0] ≠ 1 * (0 / 2 - 1) := by
  refine ⟨⟨2, 2, [[1, 0]], [1 * 2], [1], 1, false, false⟩, ⟨[1, 0], 1 * 2, 1⟩, ?_, ?_, ?_, ?_⟩
  · simp [Prior.call, smoothCall, delegate, baseCall, baseAddExact, stdWeights, append, buildRows,
      Prior.new, at', setRow, pyIndex, LAPLACE, ordersLen, bind, Except.bind, pure, Except.pure, broadcast1]
  · simp [Spec.OneValuePerIndex]
  · rfl
  · simp [Spec.Term.resid, Spec.dot, Finset.sum_range_succ]

/-- C19 for the base class: `BayesianPrior.add_exact_adaptive_prior` adds rows with residual `w (x_k / v - 1)`. -/
theorem C19_base_class_partial {p p' : Prior} {is : List Int} {vs : List ℝ} {w : Weights}
    (hv : vs.length = is.length) (h : p.baseCall (.exactAdaptive is vs w) = (.ok (), p')) :
    ∀ t, t < is.length → ∃ k row, pyIndex p.n (is.getD t 0) = .ok k ∧
      p'.rows[p.rows.length + t]? = some row ∧
      ∀ x, Spec.dot p.n row x - p'.mu.getD (p.mu.length + t) 0
        = Spec.weightAt w t * (x.getD k 0 / vs.getD t 0 - 1) := by
  intro t ht
  rw [baseCall_eq] at h
  simp only [newMu, append] at h
  cases hr : newRows p.n (.exactAdaptive is vs w) with
  | error e => rw [hr] at h; simp at h
  | ok rs =>
    rw [hr] at h
    by_cases hl : p.lcols = p.n
    swap
    · simp [hl] at h
    simp only [hl, if_true, Prod.mk.injEq, true_and] at h
    subst h
    obtain ⟨hr1, hr2, hr3⟩ := newRows_inv hr
    have hb := hr2 t ht
    simp only [rowBody] at hb
    obtain ⟨wt, h1, hb⟩ := bind_ok hb
    obtain ⟨v, h3, hb⟩ := bind_ok hb
    obtain ⟨idx, h2, hb⟩ := bind_ok hb
    obtain ⟨k, hk, hdot⟩ := dot_single hb
    have hi := (at'_ok h2 0).1
    have hv' := (at'_ok h3 0).1
    have hwt := (at'_ok h1 0).1
    refine ⟨k, rs.getD t [], by rw [hi]; exact hk, ?_, fun x => ?_⟩
    · have : t < rs.length := by rw [hr1]; exact ht
      simp [List.getElem?_append_right, List.getD_eq_getElem?_getD, this]
    · rw [hdot, hv']
      have : (p.mu ++ stdWeights w vs.length).getD (p.mu.length + t) 0 = wt := by
        rw [List.getD_eq_getElem?_getD, List.getElem?_append_right (by omega), Nat.add_sub_cancel_left,
          ← List.getD_eq_getElem?_getD, hwt]
      rw [this, ← stdWeights_getD (w := w) (m := vs.length) (t := t) (by omega), hwt]
      ring

/-! ### C20 rejected calls -/

/-- C20 fails: in every consistent state, a sparsity call whose first index is out of range raises `IndexError` but has
already extended `mu`; afterwards every evaluation raises. -/
theorem C20_rejected_violated (p : Prior) (hp : Spec.Consistent p) (is : List Int) (i : Int) (w o : Weights)
    (hi : pyIndex p.n i = .error .indexError) (hw : w = .none ∨ ∃ c, w = .scalar c) :
    ∃ p', p.call (.sparsity (i :: is) w) o = (.error .indexError, p') ∧ p'.rows = p.rows ∧
      p'.mu.length = p.rows.length + (is.length + 1) ∧ ∀ x A b s, p'.logDistribution x ≠ .ok (A, b, s) := by
  have hbase : ∀ q : Prior, q.n = p.n → q.smoothCall (.sparsity (i :: is) w) o =
      (.error .indexError, { q with mu := q.mu ++ List.replicate (is.length + 1) 0 }) := by
    intro q hq
    have hrow : newRows q.n (.sparsity (i :: is) w) = .error .indexError := by
      rw [hq]
      unfold newRows buildRows
      rw [show numRows (.sparsity (i :: is) w) = is.length + 1 from rfl, List.range_succ_eq_map, List.mapM_cons]
      have : rowBody (.sparsity (i :: is) w) (List.replicate p.n 0) 0 = .error .indexError := by
        have hat : ∃ c, at' (stdWeights w (i :: is).length) 0 = .ok c := by
          rcases hw with rfl | ⟨c, rfl⟩
          · exact ⟨1, by simp [at', stdWeights]⟩
          · exact ⟨c, by simp [at', stdWeights]⟩
        obtain ⟨c, hc⟩ := hat
        simp only [rowBody, hc]
        have : at' (i :: is) 0 = .ok i := rfl
        simp only [this, setRow, List.length_replicate, hi, bind, Except.bind]
      rw [this]; rfl
    unfold smoothCall
    rw [baseCall_eq]
    simp only [delegate, newMu, append, hrow, List.length_cons]
  refine ⟨{ p with mu := p.mu ++ List.replicate (is.length + 1) 0, sparseNow := false }, ?_, rfl, ?_, ?_⟩
  · unfold call
    by_cases hs : p.sparseClass = true
    · have hn := hp.storage.trans hs
      rw [if_pos hs, if_pos hn, hbase { p with sparseNow := false } rfl]
    · have hn : p.sparseNow = false := by rw [hp.storage]; simpa using hs
      rw [if_neg hs, hbase p rfl]
      rw [← hn]
  · simp [hp.mu_len]
  · intro x A b s h
    have := (logDistribution_ok_len h).1
    simp [hp.mu_len] at this

/-- C20 for the failures raised before the first assignment: `weights*values` of incompatible shapes, and the `assert`
of the ratio prior. On a dense prior the object is untouched. -/
theorem C20_early_rejection_partial (p : Prior) (hd : p.sparseClass = false) (o : Weights) :
    (∀ (is : List Int) (vs ws : List ℝ), ws.length ≠ vs.length → ws.length ≠ 1 → vs.length ≠ 1 →
      p.call (.exact is vs (.array ws)) o = (.error .valueError, p)) ∧
    (∀ (nc : Nat) (is : List (List Int)) (vs : List ℝ) (w : Weights), nc < 2 →
      p.call (.ratios nc is vs w) o = (.error .assertionError, p)) := by
  have gen : ∀ c e, newMu (delegate c) = .error e → p.call c o = (.error e, p) := by
    intro c e h
    have : p.call c o = p.smoothCall c o := by unfold call; simp [hd]
    rw [this]
    unfold smoothCall
    rw [baseCall_eq, h]
  refine ⟨fun is vs ws h h1 h2 => gen _ _ ?_, fun nc is vs w h => gen _ _ ?_⟩
  · exact broadcast1_error _ ws vs h h1 h2
  · simp [delegate, newMu, h]

/-- the guards are met by weights of length 2 and values of length 3, and by an index matrix with one column -/
example : (Prior.new false 1 2).call (.exact [0, 1] [1, 2, 3] (.array [1, 2])) .none =
    (.error .valueError, Prior.new false 1 2) :=
  (C20_early_rejection_partial (Prior.new false 1 2) rfl .none).1 _ _ _ (by simp) (by simp) (by simp)

/-- the index error of C20 is reachable in a fresh two-parameter prior -/
example : pyIndex (Prior.new true 1 2).n 2 = .error .indexError := by simp [Prior.new, pyIndex]

end
end Verif
