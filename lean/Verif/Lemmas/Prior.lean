import Verif.Spec.Prior
import Verif.Lemmas.Elimination
import Verif.Lemmas.ElimLap
import Mathlib.Data.List.Perm.Basic

namespace Verif
open Finset
noncomputable section
namespace Prior

/-- entries appended to `mu` by a base call -/
def newMu : Call → Except PyErr (List ℝ)
  | .exact _ v w => broadcast1 (fun a b => a * b) (stdWeights w v.length) v
  | .exactAdaptive _ v w => .ok (stdWeights w v.length)
  | .sparsity i _ => .ok (List.replicate i.length 0)
  | .adaptiveSparsity i _ => .ok (List.replicate i.length 0)
  | .contrast _ v w => .ok (stdWeights w v.length)
  | .ratios k i _ _ => if k < 2 then .error .assertionError else .ok (List.replicate i.length 0)

/-- number of rows of a base call -/
def numRows : Call → Nat
  | .exact i _ _ => i.length
  | .exactAdaptive i _ _ => i.length
  | .sparsity i _ => i.length
  | .adaptiveSparsity i _ => i.length
  | .contrast i _ _ => i.length
  | .ratios _ i _ _ => i.length

/-- loop body of a base call -/
def rowBody : Call → List ℝ → Nat → Except PyErr (List ℝ)
  | .exact is v w, row, i => do
      let w ← at' (stdWeights w v.length) i
      let idx ← at' is i
      setRow row idx w
  | .exactAdaptive is v w, row, i => do
      let w ← at' (stdWeights w v.length) i
      let v ← at' v i
      let idx ← at' is i
      setRow row idx (w / v)
  | .sparsity is w, row, i => do
      let w ← at' (stdWeights w is.length) i
      let idx ← at' is i
      setRow row idx w
  | .adaptiveSparsity is v, row, i => do
      let v ← at' v i
      let idx ← at' is i
      setRow row idx (1 / v)
  | .contrast is v w, row, i => do
      let w ← at' (stdWeights w v.length) i
      let v ← at' v i
      let idxs ← at' is i
      idxs.foldlM (fun row idx => setRow row idx (w / v)) row
  | .ratios _ is v w, row, i => do
      let v ← at' v i
      let w ← at' (stdWeights w is.length) i
      let idxs ← at' is i
      match idxs with
      | [a, b] => do
        let _ ← pyIndex row.length a
        let _ ← pyIndex row.length b
        let row ← setRow row a (1 * w)
        setRow row b (-v * w)
      | _ => .error .valueError

def newRows (n : Nat) (c : Call) : Except PyErr (List (List ℝ)) := buildRows (numRows c) n (rowBody c)

theorem baseCall_eq (p : Prior) (c : Call) :
    p.baseCall c = match newMu c with
      | .error e => (.error e, p)
      | .ok nm => p.append nm (newRows p.n c) := by
  cases c <;> try rfl
  rename_i k i v w
  simp only [baseCall, baseAddRatios, newMu]
  split <;> rfl

theorem mapM_ok_inv {β γ : Type} (f : β → Except PyErr γ) : ∀ (l : List β) (r : List γ),
    l.mapM f = .ok r → List.Forall₂ (fun a b => f a = .ok b) l r := by
  intro l
  induction l with
  | nil => intro r h; simp [pure, Except.pure] at h; subst h; exact .nil
  | cons a l ih =>
    intro r h
    rw [List.mapM_cons] at h
    cases ha : f a with
    | error e => rw [ha] at h; cases h
    | ok b =>
      rw [ha] at h
      cases hl : l.mapM f with
      | error e => simp only [bind, Except.bind, hl] at h; cases h
      | ok bs =>
        simp only [bind, Except.bind, hl, pure, Except.pure] at h
        cases h
        exact .cons ha (ih bs hl)

theorem buildRows_inv {m n : Nat} {body : List ℝ → Nat → Except PyErr (List ℝ)} {rs : List (List ℝ)}
    (h : buildRows m n body = .ok rs) :
    rs.length = m ∧ ∀ i, i < m → body (List.replicate n 0) i = .ok (rs.getD i []) := by
  have hf := mapM_ok_inv _ _ _ h
  have hl := hf.length_eq
  rw [List.length_range] at hl
  refine ⟨hl.symm, fun i hi => ?_⟩
  have := (List.forall₂_iff_get.1 hf).2 i (by simpa using hi) (by omega)
  simp only [List.get_eq_getElem, List.getElem_range] at this
  rw [this, List.getD_eq_getElem?_getD, List.getElem?_eq_getElem (by omega)]; rfl

theorem setRow_length {row : List ℝ} {idx : Int} {v : ℝ} {r : List ℝ} (h : setRow row idx v = .ok r) :
    r.length = row.length := by
  unfold setRow at h
  cases hk : pyIndex row.length idx with
  | error e => rw [hk] at h; cases h
  | ok k => rw [hk] at h; cases h; simp

theorem foldSet_length {v : ℝ} : ∀ (idxs : List Int) (row r : List ℝ),
    idxs.foldlM (fun row idx => setRow row idx v) row = .ok r → r.length = row.length := by
  intro idxs
  induction idxs with
  | nil => intro row r h; cases h; rfl
  | cons a l ih =>
    intro row r h
    rw [List.foldlM_cons] at h
    cases ha : setRow row a v with
    | error e => rw [ha] at h; cases h
    | ok r1 => rw [ha] at h; rw [ih r1 r h, setRow_length ha]

theorem bind_ok {α β : Type} {x : Except PyErr α} {f : α → Except PyErr β} {b : β}
    (h : (x >>= f) = .ok b) : ∃ a, x = .ok a ∧ f a = .ok b := by
  cases x with
  | error e => cases h
  | ok a => exact ⟨a, rfl, h⟩

theorem rowBody_length {c : Call} {row r : List ℝ} {i : Nat} (h : rowBody c row i = .ok r) :
    r.length = row.length := by
  cases c <;> simp only [rowBody] at h
  · obtain ⟨_, _, h⟩ := bind_ok h
    obtain ⟨_, _, h⟩ := bind_ok h
    exact setRow_length h
  · obtain ⟨_, _, h⟩ := bind_ok h
    obtain ⟨_, _, h⟩ := bind_ok h
    obtain ⟨_, _, h⟩ := bind_ok h
    exact setRow_length h
  · obtain ⟨_, _, h⟩ := bind_ok h
    obtain ⟨_, _, h⟩ := bind_ok h
    exact setRow_length h
  · obtain ⟨_, _, h⟩ := bind_ok h
    obtain ⟨_, _, h⟩ := bind_ok h
    exact setRow_length h
  · obtain ⟨_, _, h⟩ := bind_ok h
    obtain ⟨_, _, h⟩ := bind_ok h
    obtain ⟨_, _, h⟩ := bind_ok h
    exact foldSet_length _ _ _ h
  · obtain ⟨_, _, h⟩ := bind_ok h
    obtain ⟨_, _, h⟩ := bind_ok h
    obtain ⟨idxs, _, h⟩ := bind_ok h
    match idxs, h with
    | [a, b], h =>
      obtain ⟨_, _, h⟩ := bind_ok h
      obtain ⟨_, _, h⟩ := bind_ok h
      obtain ⟨r1, h1, h⟩ := bind_ok h
      rw [setRow_length h, setRow_length h1]
    | [], h => cases h
    | [_], h => cases h
    | _ :: _ :: _ :: _, h => cases h

theorem newRows_inv {n : Nat} {c : Call} {rs : List (List ℝ)} (h : newRows n c = .ok rs) :
    rs.length = numRows c ∧ (∀ i, i < numRows c → rowBody c (List.replicate n 0) i = .ok (rs.getD i [])) ∧
    ∀ row ∈ rs, row.length = n := by
  obtain ⟨h1, h2⟩ := buildRows_inv h
  refine ⟨h1, h2, fun row hr => ?_⟩
  obtain ⟨i, hi, rfl⟩ := List.getElem_of_mem hr
  have := rowBody_length (h2 i (by omega))
  rw [List.getD_eq_getElem?_getD, List.getElem?_eq_getElem hi] at this
  simpa using this

theorem numRows_delegate (c : Call) : numRows (delegate c) = numRows c := by cases c <;> rfl

/-- a successful `SmoothPrior` call -/
theorem smoothCall_ok {p p' : Prior} {c : Call} {o : Weights} (h : p.smoothCall c o = (.ok (), p')) :
    ∃ nm rs, newMu (delegate c) = .ok nm ∧ newRows p.n (delegate c) = .ok rs ∧ p.lcols = p.n ∧
      p' = { p with mu := p.mu ++ nm, rows := p.rows ++ rs, gamma := p.gamma ++ stdWeights o (ordersLen c) } := by
  unfold smoothCall at h
  rw [baseCall_eq] at h
  cases hm : newMu (delegate c) with
  | error e => rw [hm] at h; simp at h
  | ok nm =>
    rw [hm] at h
    simp only [append] at h
    cases hr : newRows p.n (delegate c) with
    | error e => rw [hr] at h; simp at h
    | ok rs =>
      rw [hr] at h
      by_cases hw : p.lcols = p.n
      · simp only [hw, if_true] at h
        refine ⟨nm, rs, rfl, rfl, hw, ?_⟩
        rw [Prod.mk.injEq] at h
        rw [← h.2]
        simp [hw]
      · simp [hw] at h

theorem smoothCall_of {p : Prior} {c : Call} {o : Weights} {nm : List ℝ} {rs : List (List ℝ)}
    (hm : newMu (delegate c) = .ok nm) (hr : newRows p.n (delegate c) = .ok rs) (hw : p.lcols = p.n) :
    p.smoothCall c o = (.ok (),
      { p with mu := p.mu ++ nm, rows := p.rows ++ rs, gamma := p.gamma ++ stdWeights o (ordersLen c) }) := by
  unfold smoothCall
  rw [baseCall_eq, hm]
  simp only [append, hr, hw, if_true]

/-- a successful call of either class -/
theorem call_ok {p p' : Prior} {c : Call} {o : Weights} (h : p.call c o = (.ok (), p')) :
    ∃ nm rs, newMu (delegate c) = .ok nm ∧ newRows p.n (delegate c) = .ok rs ∧ p.lcols = p.n ∧
      (p.sparseClass = true → p.sparseNow = true) ∧
      p' = { p with mu := p.mu ++ nm, rows := p.rows ++ rs, gamma := p.gamma ++ stdWeights o (ordersLen c) } := by
  unfold call at h
  by_cases hs : p.sparseClass = true
  · rw [if_pos hs] at h
    by_cases hn : p.sparseNow = true
    · rw [if_pos hn] at h
      cases hc : { p with sparseNow := false }.smoothCall c o with
      | mk out q =>
        rw [hc] at h
        cases out with
        | error e => simp at h
        | ok u =>
          obtain ⟨nm, rs, h1, h2, h3, h4⟩ := smoothCall_ok hc
          refine ⟨nm, rs, h1, h2, h3, fun _ => hn, ?_⟩
          simp only [Prod.mk.injEq, true_and] at h
          rw [← h, h4]
          simp [hn]
    · rw [if_neg hn] at h; simp at h
  · rw [if_neg hs] at h
    obtain ⟨nm, rs, h1, h2, h3, h4⟩ := smoothCall_ok h
    exact ⟨nm, rs, h1, h2, h3, fun h => absurd h hs, h4⟩

theorem call_of {p : Prior} {c : Call} {o : Weights} {nm : List ℝ} {rs : List (List ℝ)}
    (hm : newMu (delegate c) = .ok nm) (hr : newRows p.n (delegate c) = .ok rs) (hw : p.lcols = p.n)
    (hs : p.sparseClass = true → p.sparseNow = true) :
    p.call c o = (.ok (),
      { p with mu := p.mu ++ nm, rows := p.rows ++ rs, gamma := p.gamma ++ stdWeights o (ordersLen c) }) := by
  unfold call
  by_cases hc : p.sparseClass = true
  · have hn := hs hc
    rw [if_pos hc, if_pos hn]
    rw [smoothCall_of (p := { p with sparseNow := false }) hm hr hw]
    simp [hn]
  · rw [if_neg hc]; exact smoothCall_of hm hr hw

theorem stdWeights_length {w : Weights} {m : Nat}
    (h : match w with | .array ws => ws.length = m | _ => True) : (stdWeights w m).length = m := by
  cases w <;> simp_all [stdWeights]

theorem newMu_length {c : Call} {o : Weights} (h : Spec.OneValuePerIndex c o) {nm : List ℝ}
    (hm : newMu (delegate c) = .ok nm) : nm.length = numRows c := by
  cases c with
  | exact i v w =>
    obtain ⟨h1, h2, h3⟩ := h
    have hw : (stdWeights w v.length).length = v.length := by rw [h1]; exact stdWeights_length h2
    simp only [delegate, newMu, broadcast1, hw, if_true] at hm
    cases hm; simp [hw, numRows, ← h1]
  | exactAdaptive i v w =>
    obtain ⟨h1, h2, h3⟩ := h
    have hw : (stdWeights w v.length).length = v.length := by rw [h1]; exact stdWeights_length h2
    simp only [delegate, newMu, broadcast1, hw, if_true] at hm
    cases hm; simp [hw, numRows, ← h1]
  | sparsity i w => simp only [delegate, newMu] at hm; cases hm; simp [numRows]
  | adaptiveSparsity i w => simp only [delegate, newMu] at hm; cases hm; simp [numRows]
  | contrast i v w =>
    obtain ⟨h1, h2, h3⟩ := h
    have hw : (stdWeights w v.length).length = v.length := by rw [h1]; exact stdWeights_length h2
    simp only [delegate, newMu] at hm
    cases hm; simp [hw, numRows, ← h1]
  | ratios k i v w =>
    simp only [delegate, newMu] at hm
    split at hm
    · cases hm
    · cases hm; simp [numRows]

theorem orders_length {c : Call} {o : Weights} (h : Spec.OneValuePerIndex c o) :
    (stdWeights o (ordersLen c)).length = numRows c := by
  cases c with
  | exact i v w => obtain ⟨h1, h2, h3⟩ := h; simp only [ordersLen, numRows, h1]; exact stdWeights_length h3
  | exactAdaptive i v w => obtain ⟨h1, h2, h3⟩ := h; simp only [ordersLen, numRows, h1]; exact stdWeights_length h3
  | sparsity i w => obtain ⟨h2, h3⟩ := h; simp only [ordersLen, numRows]; exact stdWeights_length h3
  | adaptiveSparsity i v => obtain ⟨h1, h3⟩ := h; simp only [ordersLen, numRows, h1]; exact stdWeights_length h3
  | contrast i v w => obtain ⟨h1, h2, h3⟩ := h; simp only [ordersLen, numRows, h1]; exact stdWeights_length h3
  | ratios k i v w => obtain ⟨h1, h2, h3⟩ := h; simp only [ordersLen, numRows, h1]; exact stdWeights_length h3

/-- the terms a call adds -/
def newTerms (n : Nat) (c : Call) (o : Weights) : List Spec.Term :=
  match newMu (delegate c), newRows n (delegate c) with
  | .ok nm, .ok rs => (rs.zip (nm.zip (stdWeights o (ordersLen c)))).map (fun t => ⟨t.1, t.2.1, t.2.2⟩)
  | _, _ => []

theorem call_step {p p' : Prior} {c : Call} {o : Weights} (hp : Spec.Consistent p)
    (hw : Spec.OneValuePerIndex c o) (h : p.call c o = (.ok (), p')) :
    Spec.Consistent p' ∧ p'.n = p.n ∧ p'.alpha = p.alpha ∧ p'.sparseClass = p.sparseClass ∧
      p'.rows.length = p.rows.length + numRows c ∧
      Spec.terms p' = Spec.terms p ++ newTerms p.n c o := by
  obtain ⟨nm, rs, hm, hr, hl, hs, rfl⟩ := call_ok h
  obtain ⟨hr1, hr2, hr3⟩ := newRows_inv hr
  rw [numRows_delegate] at hr1
  have hml := newMu_length hw hm
  have hol := orders_length hw
  refine ⟨⟨?_, ?_, hl, ?_, hp.storage⟩, rfl, rfl, rfl, ?_, ?_⟩
  · simp [hp.mu_len, hml, hr1]
  · simp [hp.gamma_len, hol, hr1]
  · intro row hrow
    rcases List.mem_append.1 hrow with h | h
    · exact hp.row_len row h
    · exact hr3 row h
  · simp [hr1]
  · simp only [Spec.terms, newTerms, hm, hr]
    rw [List.zip_append (l₁ := p.mu) (by rw [hp.mu_len, hp.gamma_len]),
      List.zip_append (by simp [hp.mu_len, hp.gamma_len]), List.map_append]

end Prior
end
end Verif
