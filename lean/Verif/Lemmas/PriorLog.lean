import Verif.Lemmas.Prior

namespace Verif
open Finset
noncomputable section
namespace Prior

theorem broadcast1_eq {β γ δ : Type} (f : β → γ → δ) (a : List β) (b : List γ) (h : a.length = b.length) :
    broadcast1 f a b = .ok (List.zipWith f a b) := by
  unfold broadcast1; exact if_pos h

theorem broadcast1_error {β γ δ : Type} (f : β → γ → δ) (a : List β) (b : List γ) (h : a.length ≠ b.length)
    (ha : a.length ≠ 1) (hb : b.length ≠ 1) : broadcast1 f a b = .error .valueError := by
  unfold broadcast1
  rw [if_neg h]
  split
  · simp at ha
  · simp at hb
  · rfl

theorem sum_map_range {β : Type} (l : List β) (d : β) (f : β → ℝ) :
    (l.map f).sum = ∑ k ∈ range l.length, f (l.getD k d) := by
  induction l with
  | nil => simp
  | cons a l ih =>
    rw [List.map_cons, List.sum_cons, List.length_cons, Finset.sum_range_succ', ih, add_comm]
    simp

theorem terms_length {p : Prior} (hp : Spec.Consistent p) : (Spec.terms p).length = p.rows.length := by
  simp [Spec.terms, hp.mu_len, hp.gamma_len]

/-- the default term -/
def t0 : Spec.Term := ⟨[], 0, 0⟩

theorem terms_getD {p : Prior} (hp : Spec.Consistent p) {k : Nat} (hk : k < p.rows.length) :
    (Spec.terms p).getD k t0 = ⟨p.rows.getD k [], p.mu.getD k 0, p.gamma.getD k 0⟩ := by
  have h1 : k < p.mu.length := by rw [hp.mu_len]; exact hk
  have h2 : k < p.gamma.length := by rw [hp.gamma_len]; exact hk
  have h3 : k < (Spec.terms p).length := by rw [terms_length hp]; exact hk
  simp only [List.getD_eq_getElem?_getD, List.getElem?_eq_getElem h1, List.getElem?_eq_getElem h2,
    List.getElem?_eq_getElem hk, List.getElem?_eq_getElem h3, Option.getD_some]
  simp [Spec.terms]

/-- closed forms of the three results -/
def quadA (n : Nat) (α : ℝ) (x : List ℝ) (ts : List Spec.Term) : Arr2 ℝ :=
  Arr2.ofFn n n (fun i j => (ts.map (fun t => t.row.getD i 0 * (1 / t.scale n α x) * t.row.getD j 0)).sum)
def linB (n : Nat) (α : ℝ) (x : List ℝ) (ts : List Spec.Term) : List ℝ :=
  (List.range n).map (fun i => (ts.map (fun t => t.row.getD i 0 * (1 / t.scale n α x) * t.center)).sum)
def pen (n : Nat) (α : ℝ) (x : List ℝ) (ts : List Spec.Term) : ℝ := (ts.map (fun t => t.scale n α x)).sum

theorem weights_eq {p : Prior} (hp : Spec.Consistent p) (x : List ℝ) :
    (List.zipWith (fun r g => |r| ^ ((2 : ℝ) - g))
      (List.zipWith (fun a b => a - b)
        ((List.range p.rows.length).map (fun i => ∑ k ∈ range p.lcols, p.larr.get i k * x.getD k 0)) p.mu) p.gamma).map
          (fun t => t + p.alpha) = (Spec.terms p).map (fun t => t.scale p.n p.alpha x) := by
  have hm := hp.mu_len
  have hg := hp.gamma_len
  apply List.ext_getElem
  · simp [hm, hg, terms_length hp]
  · intro k h1 h2
    have hk : k < p.rows.length := by simpa [terms_length hp] using h2
    simp only [List.getElem_map, List.getElem_zipWith, List.getElem_range]
    have ht := terms_getD hp hk
    rw [List.getD_eq_getElem?_getD, List.getElem?_eq_getElem (by rw [terms_length hp]; exact hk), Option.getD_some] at ht
    rw [ht]
    simp only [Spec.Term.scale, Spec.Term.resid, Spec.dot]
    rw [List.getD_eq_getElem?_getD (l := p.mu), List.getElem?_eq_getElem (by omega), Option.getD_some,
      List.getD_eq_getElem?_getD (l := p.gamma), List.getElem?_eq_getElem (by omega), Option.getD_some]
    congr 3
    congr 1
    apply Finset.sum_congr (by rw [hp.width])
    intro j hj
    unfold larr
    rw [Arr2.ofFn_get _ hk (by rw [hp.width]; exact Finset.mem_range.1 hj)]

theorem logDistribution_closed {p : Prior} (hp : Spec.Consistent p) (x : List ℝ) :
    p.logDistribution x =
      if x.length = 1 ∨ x.length ≠ p.n ∨ (p.sparseClass = true ∧ p.rows.length = 1) then .error .valueError
      else .ok (quadA p.n p.alpha x (Spec.terms p), linB p.n p.alpha x (Spec.terms p),
        pen p.n p.alpha x (Spec.terms p)) := by
  unfold logDistribution
  by_cases h1 : x.length = 1
  · simp [h1]; rfl
  by_cases h2 : x.length = p.n
  swap
  · have : ¬ (p.larr.c = x.length) := by
      show ¬ (p.lcols = x.length)
      rw [hp.width]; exact fun h => h2 h.symm
    simp only [h1, if_false, Arr2.mulVec, this, h2, ne_eq, not_false_eq_true, true_or, or_true, if_true]
    rfl
  have hlc : p.larr.c = x.length := by show p.lcols = x.length; rw [hp.width, h2]
  have hlr : p.larr.r = p.rows.length := rfl
  have hlx : p.larr.mulVec x = .ok ((List.range p.rows.length).map
      (fun i => ∑ k ∈ range p.lcols, p.larr.get i k * x.getD k 0)) := by
    rw [Arr2.mulVec, if_pos hlc]; rfl
  have hr : broadcast1 (fun a b : ℝ => a - b) ((List.range p.rows.length).map
      (fun i => ∑ k ∈ range p.lcols, p.larr.get i k * x.getD k 0)) p.mu = .ok (List.zipWith (fun a b => a - b)
        ((List.range p.rows.length).map (fun i => ∑ k ∈ range p.lcols, p.larr.get i k * x.getD k 0)) p.mu) := by
    exact broadcast1_eq _ _ _ (by simp [hp.mu_len])
  have hw : broadcast1 (fun r g => |r| ^ ((2 : ℝ) - g)) (List.zipWith (fun a b => a - b)
        ((List.range p.rows.length).map (fun i => ∑ k ∈ range p.lcols, p.larr.get i k * x.getD k 0)) p.mu) p.gamma =
      .ok (List.zipWith (fun r g => |r| ^ ((2 : ℝ) - g)) (List.zipWith (fun a b => a - b)
        ((List.range p.rows.length).map (fun i => ∑ k ∈ range p.lcols, p.larr.get i k * x.getD k 0)) p.mu) p.gamma) := by
    exact broadcast1_eq _ _ _ (by simp [hp.mu_len, hp.gamma_len])
  simp only [h1, if_false, hlx, hr, hw, bind, Except.bind, pure, Except.pure]
  rw [weights_eq hp x]
  set ts := Spec.terms p with hts
  have htl : ts.length = p.rows.length := terms_length hp
  set W := Arr2.diag ((ts.map (fun t => t.scale p.n p.alpha x)).map (fun t => 1 / t)) with hW
  have hWr : W.r = p.rows.length := by simp [hW, Arr2.diag, htl]
  have hWc : W.c = p.rows.length := by simp [hW, Arr2.diag, htl]
  obtain ⟨LW, hLW, hLWr, hLWc, hLWg⟩ : ∃ C, p.larr.T.matmul W = .ok C ∧ C.r = p.n ∧ C.c = p.rows.length ∧
      ∀ i k, i < p.n → k < p.rows.length → C.get i k =
        (ts.getD k t0).row.getD i 0 * (1 / (ts.getD k t0).scale p.n p.alpha x) := by
    refine ⟨Arr2.ofFn p.larr.T.r W.c (Arr2.mulGet p.larr.T W), ?_, ?_, ?_, ?_⟩
    · rw [Arr2.matmul, if_pos (by rw [Arr2.T_c, hlr, hWr])]
    · show p.lcols = p.n; exact hp.width
    · exact hWc
    · intro i k hi hk
      refine (Arr2.ofFn_get _ (by show i < p.lcols; rw [hp.width]; exact hi) (by rw [hWc]; exact hk)).trans ?_
      unfold Arr2.mulGet
      rw [Arr2.T_c, hlr]
      rw [Finset.sum_eq_single_of_mem k (Finset.mem_range.2 hk)]
      · rw [Arr2.T_get, terms_getD hp hk]
        congr 1
        · unfold larr
          rw [Arr2.ofFn_get _ hk (by rw [hp.width]; exact hi)]
        · have hk' : k < ts.length := by omega
          rw [hW, Arr2.diag, Arr2.ofFn_get _ (by simpa using hk') (by simpa using hk'), if_pos rfl,
            ← terms_getD hp hk, List.getD_eq_getElem?_getD, List.getD_eq_getElem?_getD]
          simp [hk', ← hts]
      · intro b hb hne
        have hb' : b < ts.length := by rw [htl]; exact Finset.mem_range.1 hb
        rw [hW, Arr2.diag, Arr2.ofFn_get _ (by simpa using hb') (by simp; omega), if_neg hne, mul_zero]
  have hA : LW.matmul p.larr = .ok (quadA p.n p.alpha x ts) := by
    rw [Arr2.matmul, if_pos (by rw [hLWc, hlr])]
    congr 1
    apply Arr2.ext'
    · exact hLWr
    · exact hp.width
    · intro i j hi hj
      have hi : i < p.n := by rw [← hLWr]; exact hi
      have hj' : j < p.lcols := hj
      have hj : j < p.n := by rw [← hp.width]; exact hj'
      refine (Arr2.ofFn_get _ (by rw [hLWr]; exact hi) hj').trans ?_
      refine Eq.trans ?_ (Arr2.ofFn_get _ hi hj).symm
      rw [sum_map_range ts t0, htl]
      unfold Arr2.mulGet
      rw [hLWc]
      apply Finset.sum_congr rfl
      intro k hk
      have hk := Finset.mem_range.1 hk
      rw [hLWg i k hi hk, terms_getD hp hk]
      congr 1
      unfold larr
      rw [Arr2.ofFn_get _ hk hj']
  have hb : LW.mulVec p.mu = .ok (linB p.n p.alpha x ts) := by
    rw [Arr2.mulVec, if_pos (by rw [hLWc, hp.mu_len]), hLWr, hLWc]
    congr 1
    apply List.map_congr_left
    intro i hi
    have hi := List.mem_range.1 hi
    rw [sum_map_range ts t0, htl]
    apply Finset.sum_congr rfl
    intro k hk
    have hk := Finset.mem_range.1 hk
    rw [hLWg i k hi hk, terms_getD hp hk]
  simp only [hLW, hA, hp.mu_len]
  by_cases h3 : p.sparseClass = true ∧ p.rows.length = 1
  · simp only [h3, h1, h2]
    simp
    rfl
  · rw [if_neg h3, if_neg (by tauto), hb]
    rfl

/-- `log_distribution` can only succeed when `L` and `mu` have the same number of rows -/
theorem logDistribution_ok_len {p : Prior} {x : List ℝ} {A : Arr2 ℝ} {b : List ℝ} {s : ℝ}
    (h : p.logDistribution x = .ok (A, b, s)) : p.mu.length = p.rows.length ∧ p.lcols = x.length ∧ x.length ≠ 1 := by
  unfold logDistribution at h
  by_cases h1 : x.length = 1
  · simp [h1] at h; cases h
  simp only [h1, if_false] at h
  obtain ⟨lx, hlx, h⟩ := bind_ok h
  obtain ⟨r, hr, h⟩ := bind_ok h
  obtain ⟨w0, hw0, h⟩ := bind_ok h
  obtain ⟨lw, hlw, h⟩ := bind_ok h
  obtain ⟨a, ha, h⟩ := bind_ok h
  have hl : p.lcols = x.length := by
    by_contra hne
    rw [Arr2.mulVec, if_neg (show ¬ p.larr.c = x.length from hne)] at hlx
    cases hlx
  refine ⟨?_, hl, h1⟩
  have hc : lw.c = p.larr.r := by
    by_contra hne
    rw [Arr2.matmul, if_neg hne] at ha; cases ha
  by_cases h3 : p.sparseClass = true ∧ p.mu.length = 1
  · simp only [h3] at h; simp at h; cases h
  · rw [if_neg h3] at h
    obtain ⟨b', hb, h⟩ := bind_ok h
    by_contra hne
    rw [Arr2.mulVec, if_neg (by rw [hc]; exact fun h => hne h.symm)] at hb
    cases hb

end Prior
end
end Verif
