/-
C43-C45, C90: the priors of the identification scripts.
-/
import Verif.Lemmas.IdEntries

namespace Verif
open Finset Prior
noncomputable section

/-! ### Specification -/
namespace Spec

/-- sum of the entries of row `i` outside the diagonal -/
def rowSum (n : Nat) (Y : Arr2 ℂ) (i : Nat) : ℂ := ∑ j ∈ (range n).erase i, Y.get i j

/-- `w = 1/|S_ab|` on every line, real or imaginary parts -/
def lineTerms (lap : Bool) (n : Nat) (S Y : Arr2 ℂ) (im : Bool) : List ℝ :=
  (offPairs n).map (fun e => sgn lap * part im (Y.get e.1 e.2) / |part im (S.get e.1 e.2)|)

/-- one term per node: the sum of its lines relative to the centre `c i`, minus one -/
def nodeTerms (n : Nat) (w : ℝ) (c : Nat → ℂ) (Y : Arr2 ℂ) (im : Bool) : List ℝ :=
  (List.range n).map (fun i => w * (part im (rowSum n Y i) / part im (c i) - 1))

/-- deviation of the diagonal from that of `y` -/
def diagTerms (n : Nat) (w : ℝ) (y Y : Arr2 ℂ) (im : Bool) : List ℝ :=
  (List.range n).map (fun i => w * (part im (Y.get i i) - part im (y.get i i)))

/-- documented centre of the sum of the lines at node `i` -/
def centre (n : Nat) (useTlsDiag : Bool) (y : Arr2 ℂ) (i : Nat) : ℂ :=
  if useTlsDiag then -y.get i i else rowSum n (symPart n y) i

end Spec

/-! ### masks -/

theorem mask_eq (lap : Bool) (n : Nat) (abs : Bool) (habs : abs = false → lap = false) :
    makeRealVector (scaleVec (1 + Complex.I) (((idEntries lap n).map (fun e => (Spec.sgn lap : ℂ) *
      (((onesMinusEye n).get e.1 e.2 + (onesMinusEye n).get e.2 e.1) / 2))).map
        (fun z => if abs then ((‖z‖ : ℝ) : ℂ) else z))) =
      (realEntries lap n).map (fun e => if e.1.1 ≠ e.1.2 then (1 : ℝ) else 0) := by
  simp only [scaleVec, List.map_map]
  rw [makeReal_map]
  apply List.map_congr_left
  intro e he
  have hb : e.1.1 < n ∧ e.1.2 < n := by
    simp only [List.mem_append, List.mem_map] at he
    have : e.1 ∈ idEntries lap n := by rcases he with ⟨a, h, rfl⟩ | ⟨a, h, rfl⟩ <;> exact h
    have := (mem_idEntries lap n e.1).1 this
    omega
  simp only [Function.comp, onesMinusEye]
  rw [Arr2.ofFn_get _ hb.1 hb.2, Arr2.ofFn_get _ hb.2 hb.1]
  have hval : (Spec.sgn lap : ℂ) * (((1 - if e.1.1 = e.1.2 then (1 : ℂ) else 0) + (1 - if e.1.2 = e.1.1 then (1 : ℂ) else 0)) / 2) =
      (Spec.sgn lap : ℂ) * ((if e.1.1 ≠ e.1.2 then (1 : ℝ) else 0 : ℝ) : ℂ) := by
    by_cases h : e.1.1 = e.1.2
    · simp [h]
    · simp [h, Ne.symm h]
  rw [hval]
  cases abs with
  | false =>
    have := habs rfl
    subst this
    by_cases h : e.1.1 = e.1.2 <;> cases e.2 <;> simp [h, Spec.sgn, Spec.part]
  | true =>
    by_cases h : e.1.1 = e.1.2 <;> cases lap <;> cases e.2 <;> simp [h, Spec.sgn, Spec.part]

theorem filter_real (lap : Bool) (n : Nat) :
    (realEntries lap n).filter (fun e => decide ((0 : ℝ) < if e.1.1 ≠ e.1.2 then 1 else 0)) =
      (Spec.offPairs n).map (fun e => (e, false)) ++ (Spec.offPairs n).map (fun e => (e, true)) := by
  have : (fun e : (Nat × Nat) × Bool => decide ((0 : ℝ) < if e.1.1 ≠ e.1.2 then 1 else 0)) =
      fun e => decide (e.1.1 ≠ e.1.2) := by
    funext e
    by_cases h : e.1.1 = e.1.2 <;> simp [h]
  rw [this, realEntries, List.filter_append, List.filter_map, List.filter_map]
  have h2 := filter_entries lap n
  simp only [Function.comp_def]
  rw [h2]

theorem params_length (lap : Bool) (n : Nat) (Y : Arr2 ℂ) : (Spec.params lap n Y).length = (realEntries lap n).length := by
  rw [params_entries, List.length_map]

theorem idEntries_length (lap : Bool) (n : Nat) :
    (idEntries lap n).length = (Spec.offPairs n).length + if lap then 0 else n := by
  cases lap with
  | true => simp [idEntries]
  | false =>
    simp only [idEntries, Bool.false_eq_true, if_false, Spec.offPairs]
    rw [length_flatMap_range n (fun j => n - j) (fun j t => (j + t, j)),
      length_flatMap_range n (fun j => n - 1 - j) (fun j t => (j + 1 + t, j))]
    have : ∀ j ∈ range n, n - j = n - 1 - j + 1 := by
      intro j hj
      have := Finset.mem_range.1 hj
      omega
    rw [Finset.sum_congr rfl this, Finset.sum_add_distrib]
    simp

theorem realEntries_length (lap : Bool) (n : Nat) :
    (realEntries lap n).length = (idEntries lap n).length * 2 := by
  simp [realEntries]; omega

/-- off-diagonal parameters of the symmetrised estimate -/
theorem sym_entries (lap : Bool) (n : Nat) (y m : Arr2 ℂ) (hy : Spec.IsSquare n y) (hm : symmetrize lap n y = .ok m)
    {e : Nat × Nat} (he : e ∈ idEntries lap n) :
    (m.get e.1 e.2 + m.get e.2 e.1) / 2 = (Spec.symPart n y).get e.1 e.2 := by
  obtain ⟨m', hm', _, _, h1, _⟩ := symmetrize_closed lap n y hy
  rw [hm] at hm'
  cases hm'
  have hb := (mem_idEntries lap n e).1 he
  have hc : lap = false ∨ e.1 ≠ e.2 := by
    rcases hb.1 with h | h
    · right; omega
    · left; exact h.1
  have hc' : lap = false ∨ e.2 ≠ e.1 := by rcases hc with h | h; exact .inl h; exact .inr h.symm
  rw [h1 e.1 e.2 hb.2 (by omega) hc, h1 e.2 e.1 (by omega) hb.2 hc']
  unfold Spec.symPart
  rw [Arr2.ofFn_get _ hb.2 (by omega)]
  ring

/-! ### C43 -/

theorem lasso_computes (n : Nat) (y : Arr2 ℂ) (hy : Spec.IsSquare n y) (lap : Bool) :
    ∃ p, buildLassoPrior n y lap = .ok p ∧ Spec.Adds (Prior.new true 0.00001 (realEntries lap n).length) p
      (fun x => (List.range (realEntries lap n).length).map
        (fun k => |(Spec.params lap n (Spec.symPart n y)).getD k 0| * x.getD k 0)) := by
  obtain ⟨E, hE, hEv⟩ := e_vec lap n
  obtain ⟨m, hm, hmr, hmc, _⟩ := symmetrize_closed lap n y hy
  have hes := hEv m ⟨hmr, hmc⟩
  have hey := hEv y hy
  have hpar : makeRealVector ((idEntries lap n).map (fun e => (Spec.sgn lap : ℂ) * ((m.get e.1 e.2 + m.get e.2 e.1) / 2))) =
      Spec.params lap n (Spec.symPart n y) := by
    rw [params_entries, makeReal_map]
    apply List.map_congr_left
    intro e he
    have : e.1 ∈ idEntries lap n := by
      simp only [List.mem_append, List.mem_map] at he
      rcases he with ⟨a, h, rfl⟩ | ⟨a, h, rfl⟩ <;> exact h
    rw [sym_entries lap n y m hy hm this]
    cases e.2 <;> simp [Spec.part]
  have hlen : ∀ k, k < (realEntries lap n).length → k < (Spec.params lap n (Spec.symPart n y)).length := by
    intro k hk; rw [params_length]; exact hk
  obtain ⟨p, hp, hadd⟩ := call_adaptive (new_consistent true 0.00001 (realEntries lap n).length)
    (List.range (realEntries lap n).length)
    (fun k => ((Spec.params lap n (Spec.symPart n y)).map (fun t => 1 / |t| ^ (1 : ℝ))).getD k 0)
    (fun k hk => List.mem_range.1 hk)
  refine ⟨p, ?_, ?_⟩
  · simp only [buildLassoPrior, hE, hm, hes, hey, bind, Except.bind]
    rw [hpar, List.length_map, ← realEntries_length]
    have e : (List.range (realEntries lap n).length).map
        (fun k => ((Spec.params lap n (Spec.symPart n y)).map (fun t => 1 / |t| ^ (1 : ℝ))).getD k 0) =
        (Spec.params lap n (Spec.symPart n y)).map (fun t => 1 / |t| ^ (1 : ℝ)) := by
      have := map_range_getElem ((Spec.params lap n (Spec.symPart n y)).map (fun t => 1 / |t| ^ (1 : ℝ))) 0 id
      rw [List.length_map, params_length] at this
      simp only [id] at this
      rw [this]
      exact List.map_id _
    rw [e] at hp
    exact hp
  · obtain ⟨ha, hb, hc, ts, hd, he, hf⟩ := hadd
    refine ⟨ha, hb, hc, ts, hd, he, fun x => ?_⟩
    rw [hf x]
    apply List.map_congr_left
    intro k hk
    have hk := hlen k (List.mem_range.1 hk)
    have e : ((Spec.params lap n (Spec.symPart n y)).map (fun t => 1 / |t| ^ (1 : ℝ))).getD k 0 =
        1 / |(Spec.params lap n (Spec.symPart n y)).getD k 0| ^ (1 : ℝ) :=
      getD_map _ (fun t => 1 / |t| ^ (1 : ℝ)) 0 hk
    rw [e, Real.rpow_one, div_div_eq_mul_div, div_one, mul_comm]

namespace Spec
/-- adaptive lasso: parameter `k` has the l1 weight `1/|θ k|` and the centre zero -/
def AdaptiveLasso (θ : List ℝ) (p : Prior) : Prop :=
  p.n = θ.length ∧ (∀ t ∈ terms p, t.order = 1) ∧
    ∀ x, (terms p).map (fun t => t.resid p.n x) = (List.range θ.length).map (fun k => x.getD k 0 / |θ.getD k 0|)
end Spec

/-- C43, what the code computes: the weight of parameter `k` is `|θ k|` where `θ` are the parameters of the symmetrised
estimate, because the reciprocals are passed to a method that takes reciprocals again. -/
theorem C43_computes (n : Nat) (y : Arr2 ℂ) (hy : Spec.IsSquare n y) (lap : Bool) :
    ∃ p, buildLassoPrior n y lap = .ok p ∧ Spec.Consistent p ∧ p.alpha = 0.00001 ∧
      p.n = (Spec.params lap n (Spec.symPart n y)).length ∧ (∀ t ∈ Spec.terms p, t.order = 1) ∧
      ∀ x, (Spec.terms p).map (fun t => t.resid p.n x) =
        (List.range (Spec.params lap n (Spec.symPart n y)).length).map
          (fun k => |(Spec.params lap n (Spec.symPart n y)).getD k 0| * x.getD k 0) := by
  obtain ⟨p, hp, ha, hb, hc, ts, hd, he, hf⟩ := lasso_computes n y hy lap
  have hd : Spec.terms p = ts := hd
  rw [params_length]
  refine ⟨p, hp, ha, hc, hb, by rw [hd]; exact he, fun x => ?_⟩
  rw [hd, hb]
  exact hf x

/-- C43 where it holds: all parameters of the estimate have absolute value one. -/
theorem C43_partial (n : Nat) (y : Arr2 ℂ) (hy : Spec.IsSquare n y) (lap : Bool)
    (h1 : ∀ k, k < (Spec.params lap n (Spec.symPart n y)).length → |(Spec.params lap n (Spec.symPart n y)).getD k 0| = 1) :
    ∃ p, buildLassoPrior n y lap = .ok p ∧ Spec.AdaptiveLasso (Spec.params lap n (Spec.symPart n y)) p := by
  obtain ⟨p, hp, _, _, hn, ho, hf⟩ := C43_computes n y hy lap
  refine ⟨p, hp, hn, ho, fun x => ?_⟩
  rw [hf x]
  apply List.map_congr_left
  intro k hk
  rw [h1 k (List.mem_range.1 hk), one_mul, div_one]

/-- C43 is violated by every estimate with a nonzero parameter whose absolute value is not one. -/
theorem C43_violated (n : Nat) (y : Arr2 ℂ) (hy : Spec.IsSquare n y) (lap : Bool) (k : Nat)
    (hk : k < (Spec.params lap n (Spec.symPart n y)).length) (h0 : (Spec.params lap n (Spec.symPart n y)).getD k 0 ≠ 0)
    (h1 : |(Spec.params lap n (Spec.symPart n y)).getD k 0| ≠ 1) :
    ∃ p, buildLassoPrior n y lap = .ok p ∧ ¬ Spec.AdaptiveLasso (Spec.params lap n (Spec.symPart n y)) p := by
  obtain ⟨p, hp, _, _, hn, ho, hf⟩ := C43_computes n y hy lap
  refine ⟨p, hp, fun h => ?_⟩
  have e := (hf (List.replicate (Spec.params lap n (Spec.symPart n y)).length 1)).symm.trans (h.2.2 _)
  have e := congrArg (fun l => l.getD k 0) e
  rw [getD_map_range _ _ k hk, getD_map_range _ _ k hk] at e
  have hx : (List.replicate (Spec.params lap n (Spec.symPart n y)).length (1 : ℝ)).getD k 0 = 1 := by
    simp [List.getD_eq_getElem?_getD, hk]
  rw [hx, mul_one] at e
  have hpos := abs_pos.2 h0
  rw [eq_div_iff hpos.ne'] at e
  rcases mul_self_eq_one_iff.1 e with h | h
  · exact h1 h
  · linarith

/-- non-vacuity: one node with admittance `2 + 2i` (violated) and with `1 + i` (partial) -/
example : let y : Arr2 ℂ := Arr2.ofFn 1 1 (fun _ _ => 2 + 2 * Complex.I)
    Spec.IsSquare 1 y ∧ (Spec.params false 1 (Spec.symPart 1 y)) = [2, 2] := by
  refine ⟨⟨rfl, rfl⟩, ?_⟩
  simp [Spec.params, Spec.vech, Spec.symPart, Arr2.ofFn, List.range_succ]

example : let y : Arr2 ℂ := Arr2.ofFn 1 1 (fun _ _ => 1 - Complex.I)
    Spec.IsSquare 1 y ∧ (Spec.params false 1 (Spec.symPart 1 y)) = [1, -1] := by
  refine ⟨⟨rfl, rfl⟩, ?_⟩
  simp [Spec.params, Spec.vech, Spec.symPart, Arr2.ofFn, List.range_succ]

/-! ### C44 -/

theorem starMatrix_get {n i a b : Nat} (ha : a < n) (hb : b < n) :
    (starMatrix n i).get a b = if a ≠ b ∧ (a = i ∨ b = i) then 1 else 0 := by
  unfold starMatrix
  rw [Arr2.ofFn_get _ ha hb]
  by_cases h1 : a = i <;> by_cases h2 : b = i
  · subst h1; subst h2; norm_num
  · have : a ≠ b := by omega
    simp [h1, h2]; omega
  · have : a ≠ b := by omega
    simp [h1, h2]
  · simp [h1, h2]

/-- is the real parameter a part `im` of a line at node `i`? -/
def touches (i : Nat) (im : Bool) (e : (Nat × Nat) × Bool) : Bool :=
  decide (e.2 = im ∧ e.1.1 ≠ e.1.2 ∧ (e.1.1 = i ∨ e.1.2 = i))

theorem star_mask (lap : Bool) (n i : Nat) (im : Bool) :
    (makeRealVector (scaleVec (if im then Complex.I else 1) ((idEntries lap n).map (fun e => (Spec.sgn lap : ℂ) *
      (((starMatrix n i).get e.1 e.2 + (starMatrix n i).get e.2 e.1) / 2))))).map (fun t => |t|) =
      (realEntries lap n).map (fun e => if touches i im e then (1 : ℝ) else 0) := by
  simp only [scaleVec, List.map_map]
  rw [makeReal_map, List.map_map]
  apply List.map_congr_left
  intro e he
  have hb : e.1.1 < n ∧ e.1.2 < n := by
    simp only [List.mem_append, List.mem_map] at he
    have : e.1 ∈ idEntries lap n := by rcases he with ⟨a, h, rfl⟩ | ⟨a, h, rfl⟩ <;> exact h
    have := (mem_idEntries lap n e.1).1 this
    omega
  simp only [Function.comp]
  rw [starMatrix_get hb.1 hb.2, starMatrix_get hb.2 hb.1]
  have hval : ((if e.1.1 ≠ e.1.2 ∧ (e.1.1 = i ∨ e.1.2 = i) then (1 : ℂ) else 0) +
      (if e.1.2 ≠ e.1.1 ∧ (e.1.2 = i ∨ e.1.1 = i) then (1 : ℂ) else 0)) / 2 =
      ((if e.1.1 ≠ e.1.2 ∧ (e.1.1 = i ∨ e.1.2 = i) then (1 : ℝ) else 0 : ℝ) : ℂ) := by
    have hiff : (e.1.2 ≠ e.1.1 ∧ (e.1.2 = i ∨ e.1.1 = i)) ↔ (e.1.1 ≠ e.1.2 ∧ (e.1.1 = i ∨ e.1.2 = i)) := by
      rw [or_comm, ne_comm]
    rw [if_congr hiff rfl rfl]
    by_cases h : e.1.1 ≠ e.1.2 ∧ (e.1.1 = i ∨ e.1.2 = i) <;> simp [h]
  rw [hval]
  by_cases h : e.1.1 ≠ e.1.2 ∧ (e.1.1 = i ∨ e.1.2 = i)
  · have ht : touches i im e = decide (e.2 = im) := by
      simp only [touches]
      by_cases h2 : e.2 = im <;> simp [h2, h]
    rw [if_pos h, ht]
    cases im <;> cases lap <;> cases he2 : e.2 <;> simp [Spec.sgn, Spec.part]
  · have ht : touches i im e = false := by
      simp only [touches, decide_eq_false_iff_not]
      exact fun hh => h hh.2
    rw [ht]
    simp only [h, if_false]
    cases im <;> cases lap <;> cases e.2 <;> simp [Spec.sgn, Spec.part]

theorem filter_touch (lap : Bool) (n i : Nat) (im : Bool) :
    (realEntries lap n).filter (fun e => decide ((0 : ℝ) < if touches i im e then 1 else 0)) =
      ((Spec.offPairs n).filter (fun e => decide (e.1 = i ∨ e.2 = i))).map (fun e => (e, im)) := by
  have h0 : (fun e : (Nat × Nat) × Bool => decide ((0 : ℝ) < if touches i im e then 1 else 0)) = touches i im := by
    funext e
    cases h : touches i im e <;> simp
  rw [h0, realEntries, List.filter_append, List.filter_map, List.filter_map, ← filter_entries lap n, List.filter_filter]
  have h1 : ∀ b : Bool, (touches i im ∘ fun e : Nat × Nat => (e, b)) =
      fun e => decide (b = im) && (decide (e.1 = i ∨ e.2 = i) && decide (e.1 ≠ e.2)) := by
    intro b; funext e
    simp only [touches, Function.comp, Bool.decide_and]
    cases decide (b = im) <;> cases decide (e.1 ≠ e.2) <;> cases decide (e.1 = i ∨ e.2 = i) <;> rfl
  rw [h1, h1]
  cases im <;> simp

theorem wherePos_sum {β : Type} (l : List β) (f g : β → ℝ) (d : β) :
    ((wherePos (l.map f)).map (fun k => (l.map g).getD k 0)).sum =
      ((l.filter (fun b => decide (0 < f b))).map g).sum := by
  rw [wherePos_map l f d _ g]
  intro k hk
  exact getD_map l g d hk

/-- the rows of indices of the contrast prior -/
def starRow (lap : Bool) (n : Nat) (im : Bool) (i : Nat) : List Nat :=
  wherePos ((realEntries lap n).map (fun e => if touches i im e then (1 : ℝ) else 0))

theorem list_sum_mul_left' {β : Type} (l : List β) (f : β → ℝ) (c : ℝ) :
    (l.map (fun b => c * f b)).sum = c * (l.map f).sum := by
  induction l with
  | nil => simp
  | cons a l ih => simp [ih, mul_add]

theorem part_sum (im : Bool) {β : Type} (s : Finset β) (f : β → ℂ) :
    Spec.part im (∑ j ∈ s, f j) = ∑ j ∈ s, Spec.part im (f j) := by
  cases im
  · exact Complex.re_sum s f
  · exact Complex.im_sum s f

theorem starRow_sum (lap : Bool) (n i : Nat) (hi : i < n) (im : Bool) (Y : Arr2 ℂ) (hY : Spec.IsSymm Y) :
    ((starRow lap n im i).map (fun k => (Spec.params lap n Y).getD k 0)).sum =
      Spec.sgn lap * Spec.part im (Spec.rowSum n Y i) := by
  rw [params_entries]
  unfold starRow
  rw [wherePos_sum _ _ _ ((0, 0), false), filter_touch, List.map_map]
  have : ((fun e : (Nat × Nat) × Bool => Spec.sgn lap * Spec.part e.2 (Y.get e.1.1 e.1.2)) ∘ fun e => (e, im)) =
      fun e => Spec.sgn lap * Spec.part im (Y.get e.1 e.2) := rfl
  rw [this, list_sum_mul_left', sum_star n i hi (fun a b => Spec.part im (Y.get a b)) (fun a b => by rw [hY.2 a b]),
    Spec.rowSum, part_sum]

theorem Spec.Adds.l1 {lap : Bool} {n : Nat} {α : ℝ} {p : Prior} {rs : List ℝ → List ℝ}
    (h : Spec.Adds (Prior.new true α (realEntries lap n).length) p rs) {rs' : Arr2 ℂ → List ℝ}
    (hrs : ∀ Y, Spec.IsSquare n Y → Spec.IsSymm Y → rs (Spec.params lap n Y) = rs' Y) :
    Spec.L1Prior lap n p rs' := by
  obtain ⟨ha, hb, hc, ts, hd, he, hf⟩ := h
  have hd : Spec.terms p = ts := hd
  refine ⟨ha, ?_, by rw [hd]; exact he, fun Y h1 h2 => ?_⟩
  · rw [hb]
    show (realEntries lap n).length = _
    rw [realEntries_length, idEntries_length]
    cases lap <;> simp <;> omega
  · rw [hd, hb]
    exact (hf _).trans (hrs Y h1 h2)

theorem Spec.Adds.trans {p q r : Prior} {f g : List ℝ → List ℝ} (h1 : Spec.Adds p q f) (h2 : Spec.Adds q r g) :
    Spec.Adds p r (fun x => f x ++ g x) := by
  obtain ⟨a1, b1, c1, t1, d1, e1, f1⟩ := h1
  obtain ⟨a2, b2, c2, t2, d2, e2, f2⟩ := h2
  refine ⟨a2, b2.trans b1, c2.trans c1, t1 ++ t2, by rw [d2, d1, List.append_assoc], ?_, fun x => ?_⟩
  · intro t ht
    rcases List.mem_append.1 ht with h | h
    · exact e1 t h
    · exact e2 t h
  · show _ = f x ++ g x
    rw [List.map_append, f1 x, ← f2 x, b1]

/-- the first part of `build_complex_prior`: one adaptive term per line and part -/
theorem complex_adaptive (n : Nat) (y : Arr2 ℂ) (hy : Spec.IsSquare n y) (lap : Bool) {m : Arr2 ℂ}
    (hm : symmetrize lap n y = .ok m) :
    let off := wherePos ((realEntries lap n).map (fun e => if e.1.1 ≠ e.1.2 then (1 : ℝ) else 0))
    let es := makeRealVector ((idEntries lap n).map (fun e => (Spec.sgn lap : ℂ) * ((m.get e.1 e.2 + m.get e.2 e.1) / 2)))
    takeIdx (es.map (fun t => |t|)) off = .ok (off.map (fun k => (es.map (fun t => |t|)).getD k 0)) ∧
    ∃ p, raisePrior ((Prior.new true 1e-8 (realEntries lap n).length).call
      (.adaptiveSparsity (asInts off) (off.map (fun k => (es.map (fun t => |t|)).getD k 0))) (.scalar LAPLACE)) = .ok p ∧
      ∃ f, Spec.Adds (Prior.new true 1e-8 (realEntries lap n).length) p f ∧
        ∀ Y, f (Spec.params lap n Y) = Spec.lineTerms lap n (Spec.symPart n y) Y false ++
            Spec.lineTerms lap n (Spec.symPart n y) Y true := by
  intro off es
  have hoff : ∀ k ∈ off, k < (realEntries lap n).length := fun k hk => by simpa using mem_wherePos hk
  have hes : es.map (fun t => |t|) = (realEntries lap n).map
      (fun e => |Spec.part e.2 ((Spec.symPart n y).get e.1.1 e.1.2)|) := by
    show (makeRealVector _).map _ = _
    rw [makeReal_map, List.map_map]
    apply List.map_congr_left
    intro e he
    have : e.1 ∈ idEntries lap n := by
      simp only [List.mem_append, List.mem_map] at he
      rcases he with ⟨a, h, rfl⟩ | ⟨a, h, rfl⟩ <;> exact h
    simp only [Function.comp]
    rw [sym_entries lap n y m hy hm this]
    cases lap <;> cases e.2 <;> simp [Spec.part, Spec.sgn]
  refine ⟨takeIdx_ok _ _ (fun k hk => by rw [hes, List.length_map]; exact hoff k hk), ?_⟩
  obtain ⟨p, hp, hadd⟩ := call_adaptive (new_consistent true 1e-8 (realEntries lap n).length) off
    (fun k => (es.map (fun t => |t|)).getD k 0) hoff
  refine ⟨p, hp, _, hadd, fun Y => ?_⟩
  rw [hes, params_entries]
  rw [wherePos_map _ _ ((0, 0), false) _
    (fun e => Spec.sgn lap * Spec.part e.2 (Y.get e.1.1 e.1.2) / |Spec.part e.2 ((Spec.symPart n y).get e.1.1 e.1.2)|)
    (fun k hk => by rw [getD_map _ _ ((0, 0), false) hk, getD_map _ _ ((0, 0), false) hk])]
  rw [filter_real, List.map_append, List.map_map, List.map_map]
  rfl

theorem rowSum_sym (lap : Bool) (n : Nat) (y m : Arr2 ℂ) (hy : Spec.IsSquare n y) (hm : symmetrize lap n y = .ok m)
    {i : Nat} (hi : i < n) : (∑ k ∈ range n, (m.get i k - if i = k then m.get i i else 0)) =
      Spec.rowSum n (Spec.symPart n y) i := by
  obtain ⟨m', hm', _, _, h1, _⟩ := symmetrize_closed lap n y hy
  rw [hm] at hm'
  cases hm'
  rw [← Finset.sum_erase_add _ _ (Finset.mem_range.2 hi), if_pos rfl, sub_self, add_zero, Spec.rowSum]
  apply Finset.sum_congr rfl
  intro j hj
  rw [Finset.mem_erase, Finset.mem_range] at hj
  rw [if_neg (fun h => hj.1 h.symm), sub_zero, h1 i j hi hj.2 (.inr hj.1.symm)]
  unfold Spec.symPart
  rw [Arr2.ofFn_get _ hi hj.2]

theorem valuesContrast_eq (n : Nat) (y m : Arr2 ℂ) (hy : Spec.IsSquare n y) (lap tls : Bool)
    (hm : symmetrize lap n y = .ok m) : valuesContrast n y m lap tls =
      (List.range n).map (fun i => Spec.sgn lap * Spec.part false (Spec.centre n tls y i)) ++
      (List.range n).map (fun i => Spec.sgn lap * Spec.part true (Spec.centre n tls y i)) := by
  have hrs : (dropDiag n m).rowSums = (List.range n).map (fun i => Spec.rowSum n (Spec.symPart n y) i) := by
    unfold Arr2.rowSums
    apply List.map_congr_left
    intro i hi
    have hi : i < n := List.mem_range.1 hi
    rw [← rowSum_sym lap n y m hy hm hi]
    apply Finset.sum_congr rfl
    intro k hk
    exact Arr2.ofFn_get _ hi (Finset.mem_range.1 hk)
  unfold valuesContrast
  rw [hrs]
  cases tls <;> cases lap <;>
    simp [concatReIm, diagOf, Spec.sgn, Spec.part, Spec.centre, Function.comp_def]

theorem map_range_add {β : Type} (a b : Nat) (f : Nat → β) :
    (List.range (a + b)).map f = (List.range a).map f ++ (List.range b).map (fun i => f (a + i)) := by
  rw [List.range_add, List.map_append, List.map_map]
  rfl

theorem getD_two {β : Type} (n : Nat) (f g : Nat → β) (d : β) {i : Nat} (hi : i < n) :
    ((List.range n).map f ++ (List.range n).map g).getD i d = f i ∧
    ((List.range n).map f ++ (List.range n).map g).getD (n + i) d = g i := by
  constructor
  · rw [List.getD_eq_getElem?_getD, List.getElem?_append_left (by simpa using hi)]; simp [hi]
  · rw [List.getD_eq_getElem?_getD, List.getElem?_append_right (by simp)]; simp [hi]

theorem contrast_value (lap : Bool) (w s c : ℝ) :
    w / (Spec.sgn lap * c) * (Spec.sgn lap * s) - w = w * (s / c - 1) := by
  cases lap
  · simp only [Spec.sgn, Bool.false_eq_true, if_false, one_mul]; ring
  · simp only [Spec.sgn, if_true, neg_mul, one_mul, div_neg, neg_mul_neg]; ring

/-- the contrast part of `build_complex_prior`, one row per node and part -/
theorem complex_contrast (n : Nat) (lam : ℝ) (y : Arr2 ℂ) (hy : Spec.IsSquare n y) (lap tls : Bool) {m : Arr2 ℂ}
    (hm : symmetrize lap n y = .ok m) {p : Prior} (hp : Spec.Consistent p) (hn : p.n = (realEntries lap n).length) :
    ∃ p', raisePrior (p.call (.contrast
        ((((List.range n).map (starRow lap n false)) ++ (List.range n).map (starRow lap n true)).map asInts)
        (valuesContrast n y m lap tls)
        (.array ((List.replicate n (-1 : ℝ) ++ List.replicate n 1).map (fun w => lam * w)))) (.scalar LAPLACE)) = .ok p' ∧
      ∃ f, Spec.Adds p p' f ∧ ∀ Y, Spec.IsSymm Y → f (Spec.params lap n Y) =
        Spec.nodeTerms n (-lam) (Spec.centre n tls y) Y false ++ Spec.nodeTerms n lam (Spec.centre n tls y) Y true := by
  have hvc := valuesContrast_eq n y m hy lap tls hm
  have hws : (List.replicate n (-1 : ℝ) ++ List.replicate n 1).map (fun w => lam * w) =
      (List.range n).map (fun _ => -lam) ++ (List.range n).map (fun _ => lam) := by
    rw [List.map_append, List.map_replicate, List.map_replicate, List.map_const', List.map_const']
    simp
  have hmem : ∀ row ∈ (List.range n).map (starRow lap n false) ++ (List.range n).map (starRow lap n true),
      (∀ k ∈ row, k < p.n) ∧ row.Nodup := by
    intro row hrow
    have : ∃ im i, row = starRow lap n im i := by
      simp only [List.mem_append, List.mem_map] at hrow
      rcases hrow with ⟨i, _, rfl⟩ | ⟨i, _, rfl⟩
      · exact ⟨_, _, rfl⟩
      · exact ⟨_, _, rfl⟩
    obtain ⟨im, i, rfl⟩ := this
    refine ⟨fun k hk => ?_, nodup_wherePos _⟩
    rw [hn]
    simpa using mem_wherePos hk
  obtain ⟨p', h, hadd⟩ := call_contrast hp
    ((List.range n).map (starRow lap n false) ++ (List.range n).map (starRow lap n true)) (valuesContrast n y m lap tls)
    ((List.replicate n (-1 : ℝ) ++ List.replicate n 1).map (fun w => lam * w))
    (by rw [hvc]; simp) (by simp) (fun row hr => (hmem row hr).1) (fun row hr => (hmem row hr).2)
  refine ⟨p', h, _, hadd, fun Y hY => ?_⟩
  rw [hws, hvc]
  have hlen : ((List.range n).map (starRow lap n false) ++ (List.range n).map (starRow lap n true)).length = n + n := by
    simp
  rw [hlen, map_range_add]
  unfold Spec.nodeTerms
  congr 1
  · apply List.map_congr_left
    intro i hi
    have hi := List.mem_range.1 hi
    rw [(getD_two n _ _ _ hi).1, (getD_two n _ _ _ hi).1, (getD_two n _ _ _ hi).1, starRow_sum lap n i hi false Y hY]
    exact contrast_value _ _ _ _
  · apply List.map_congr_left
    intro i hi
    have hi := List.mem_range.1 hi
    rw [(getD_two n _ _ _ hi).2, (getD_two n _ _ _ hi).2, (getD_two n _ _ _ hi).2, starRow_sum lap n i hi true Y hY]
    exact contrast_value _ _ _ _

theorem e_scale (lap : Bool) (n : Nat) (M : Arr2 ℂ) :
    (idEntries lap n).map (fun e => (Spec.sgn lap : ℂ) * ((M.get e.1 e.2 + M.get e.2 e.1) / 2)) =
    scaleVec 1 ((idEntries lap n).map (fun e => (Spec.sgn lap : ℂ) * ((M.get e.1 e.2 + M.get e.2 e.1) / 2))) := by
  simp [scaleVec]

/-- everything up to the contrast prior with one row per node -/
theorem complex_rows (n : Nat) (lam : ℝ) (y : Arr2 ℂ) (hy : Spec.IsSquare n y) (lap tls reg : Bool) :
    ∃ p, Spec.L1Prior lap n p (fun Y =>
        (Spec.lineTerms lap n (Spec.symPart n y) Y false ++ Spec.lineTerms lap n (Spec.symPart n y) Y true) ++
        (Spec.nodeTerms n (-lam) (Spec.centre n tls y) Y false ++ Spec.nodeTerms n lam (Spec.centre n tls y) Y true)) ∧
      p.alpha = 1e-8 ∧ p.n = (realEntries lap n).length ∧
      buildComplexPrior n lam y lap tls true reg = (if reg then do
        let e ← eMatrix ℂ lap n
        let dm ← e.mulVec (vectorizeMatrix (Arr2.eye n))
        let idx := whereAbsPos (makeRealVector (scaleVec (1 + Complex.I) dm))
        raisePrior (p.call (.exactAdaptive (asInts idx) (concatReIm (diagOf n y)) (.scalar lam)) (.scalar LAPLACE))
      else .ok p) := by
  obtain ⟨E, hE, hEv⟩ := e_vec lap n
  obtain ⟨m, hm, hmr, hmc, _⟩ := symmetrize_closed lap n y hy
  obtain ⟨htake, p1, hp1, f1, hadd1, hf1⟩ := complex_adaptive n y hy lap hm
  obtain ⟨p2, hp2, f2, hadd2, hf2⟩ := complex_contrast n lam y hy lap tls hm hadd1.1 hadd1.2.1
  have hmask := mask_eq lap n true (by simp)
  simp only [if_true] at hmask
  have hrow : ∀ im i, whereAbsPos (makeRealVector (scaleVec (if im then Complex.I else 1)
      ((idEntries lap n).map (fun e => (Spec.sgn lap : ℂ) *
      (((starMatrix n i).get e.1 e.2 + (starMatrix n i).get e.2 e.1) / 2))))) = starRow lap n im i := by
    intro im i
    unfold whereAbsPos starRow
    rw [star_mask]
  have hre : (List.range n).mapM (fun i => do
      let s ← E.mulVec (vectorizeMatrix (starMatrix n i))
      pure (whereAbsPos (makeRealVector s))) = (.ok ((List.range n).map (starRow lap n false)) : Except PyErr _) := by
    apply mapM_ok_of
    intro i _
    rw [hEv (starMatrix n i) ⟨rfl, rfl⟩]
    simp only [bind, Except.bind, pure, Except.pure]
    rw [e_scale, ← hrow false i]
    rfl
  have him : (List.range n).mapM (fun i => do
      let s ← E.mulVec (vectorizeMatrix (starMatrix n i))
      pure (whereAbsPos (makeRealVector (scaleVec Complex.I s)))) =
        (.ok ((List.range n).map (starRow lap n true)) : Except PyErr _) := by
    apply mapM_ok_of
    intro i _
    rw [hEv (starMatrix n i) ⟨rfl, rfl⟩]
    simp only [bind, Except.bind, pure, Except.pure]
    rw [← hrow true i]
    rfl
  refine ⟨p2, (hadd1.trans hadd2).l1 (fun Y _ hY => by rw [hf1 Y, hf2 Y hY]), ?_, ?_, ?_⟩
  · rw [hadd2.2.2.1, hadd1.2.2.1]; rfl
  · rw [hadd2.2.1, hadd1.2.1]; rfl
  · simp only [buildComplexPrior, hE, hm, hEv y hy, hEv (onesMinusEye n) ⟨rfl, rfl⟩, hEv m ⟨hmr, hmc⟩, bind, Except.bind,
      if_true]
    rw [hmask]
    simp only [htake]
    rw [List.length_map, ← realEntries_length]
    simp only [hp1]
    simp only [bind, Except.bind] at hre him
    simp only [hre, him]
    simp only [hp2]
    rfl

/-- C44: with one contrast row per node (the configured option) and no diagonal regularisation, the prior consists of
exactly these l1 terms, as functions of a symmetric matrix `Y` whose parameters are penalised: for each line and part its
value times `1/|estimate|`, then for each node and part the sum of exactly its lines relative to the centre, minus one.
(A zero estimate or centre has the weight `inf` in numpy; here `x/0 = 0`.) -/
theorem C44_complex_prior (n : Nat) (lam : ℝ) (y : Arr2 ℂ) (hy : Spec.IsSquare n y) (lap tls : Bool) :
    ∃ p, buildComplexPrior n lam y lap tls true false = .ok p ∧ p.alpha = 1e-8 ∧
      Spec.L1Prior lap n p (fun Y =>
        (Spec.lineTerms lap n (Spec.symPart n y) Y false ++ Spec.lineTerms lap n (Spec.symPart n y) Y true) ++
        (Spec.nodeTerms n (-lam) (Spec.centre n tls y) Y false ++ Spec.nodeTerms n lam (Spec.centre n tls y) Y true)) := by
  obtain ⟨p, h1, h2, _, h3⟩ := complex_rows n lam y hy lap tls false
  exact ⟨p, by simpa using h3, h2, h1⟩

/-! ### diagonal regularisation -/

theorem diag_mask (lap : Bool) (n : Nat) :
    (makeRealVector (scaleVec (1 + Complex.I) ((idEntries lap n).map (fun e => (Spec.sgn lap : ℂ) *
      (((Arr2.eye n : Arr2 ℂ).get e.1 e.2 + (Arr2.eye n : Arr2 ℂ).get e.2 e.1) / 2))))).map (fun t => |t|) =
      (realEntries lap n).map (fun e => if e.1.1 = e.1.2 then (1 : ℝ) else 0) := by
  simp only [scaleVec, List.map_map]
  rw [makeReal_map, List.map_map]
  apply List.map_congr_left
  intro e he
  have hb : e.1.1 < n ∧ e.1.2 < n := by
    simp only [List.mem_append, List.mem_map] at he
    have : e.1 ∈ idEntries lap n := by rcases he with ⟨a, h, rfl⟩ | ⟨a, h, rfl⟩ <;> exact h
    have := (mem_idEntries lap n e.1).1 this
    omega
  simp only [Function.comp, Arr2.eye]
  rw [Arr2.ofFn_get _ hb.1 hb.2, Arr2.ofFn_get _ hb.2 hb.1]
  by_cases h : e.1.1 = e.1.2
  · cases lap <;> cases e.2 <;> simp [h, Spec.sgn, Spec.part]
  · cases lap <;> cases e.2 <;> simp [h, Ne.symm h, Spec.sgn, Spec.part]

theorem filter_diag (n : Nat) : (idEntries false n).filter (fun e => decide (e.1 = e.2)) = (List.range n).map (fun i => (i, i)) := by
  unfold idEntries
  rw [if_neg (by simp), List.filter_flatMap]
  rw [← List.flatMap_singleton' ((List.range n).map (fun i => (i, i))), List.flatMap_map]
  apply List.flatMap_congr
  intro j hj
  have hj := List.mem_range.1 hj
  obtain ⟨m, hm⟩ : ∃ m, n - j = m + 1 := ⟨n - j - 1, by omega⟩
  rw [hm, List.range_succ_eq_map]
  simp only [List.map_cons, List.map_map, List.filter_cons]
  simp only [Nat.add_zero, decide_true, if_true]
  congr 1
  rw [List.filter_eq_nil_iff]
  intro e he
  simp only [List.mem_map, List.mem_range, Function.comp] at he
  obtain ⟨t, _, rfl⟩ := he
  simp

/-- C44 with diagonal regularisation, outside Laplacian mode: additionally one term per node and part, the deviation of the
diagonal entry from that of the estimate (see C90 for Laplacian mode). -/
theorem C44_diag (n : Nat) (lam : ℝ) (y : Arr2 ℂ) (hy : Spec.IsSquare n y) (tls : Bool) :
    ∃ p, buildComplexPrior n lam y false tls true true = .ok p ∧ p.alpha = 1e-8 ∧
      Spec.L1Prior false n p (fun Y =>
        ((Spec.lineTerms false n (Spec.symPart n y) Y false ++ Spec.lineTerms false n (Spec.symPart n y) Y true) ++
        (Spec.nodeTerms n (-lam) (Spec.centre n tls y) Y false ++ Spec.nodeTerms n lam (Spec.centre n tls y) Y true)) ++
        (Spec.diagTerms n lam y Y false ++ Spec.diagTerms n lam y Y true)) := by
  obtain ⟨p, ⟨g1, g2, g3, g4⟩, h2, hn, h3⟩ := complex_rows n lam y hy false tls true
  obtain ⟨E, hE, hEv⟩ := e_vec false n
  have hfil : (realEntries false n).filter (fun e => decide ((0 : ℝ) < if e.1.1 = e.1.2 then 1 else 0)) =
      (List.range n).map (fun i => ((i, i), false)) ++ (List.range n).map (fun i => ((i, i), true)) := by
    have : (fun e : (Nat × Nat) × Bool => decide ((0 : ℝ) < if e.1.1 = e.1.2 then 1 else 0)) =
        fun e => decide (e.1.1 = e.1.2) := by
      funext e
      by_cases h : e.1.1 = e.1.2 <;> simp [h]
    rw [this, realEntries, List.filter_append, List.filter_map, List.filter_map]
    have h2 := filter_diag n
    simp only [Function.comp_def]
    rw [h2, List.map_map, List.map_map]
    rfl
  let is := wherePos ((realEntries false n).map (fun e => if e.1.1 = e.1.2 then (1 : ℝ) else 0))
  let v : Nat → ℝ := fun k => ((realEntries false n).map (fun e => Spec.part e.2 (y.get e.1.1 e.1.2))).getD k 0
  have hv : is.map v = concatReIm (diagOf n y) := by
    show (wherePos _).map _ = _
    rw [wherePos_map _ _ ((0, 0), false) v (fun e => Spec.part e.2 (y.get e.1.1 e.1.2))
      (fun k hk => getD_map _ _ _ hk), hfil]
    simp [concatReIm, diagOf, Spec.part, Function.comp_def]
  obtain ⟨p', hp', hadd⟩ := call_exact g1 is v (fun k hk => by rw [hn]; simpa using mem_wherePos hk)
    (.scalar lam) lam (fun m => rfl) true
  obtain ⟨a1, a2, a3, ts, a4, a5, a6⟩ := hadd
  refine ⟨p', ?_, a3.trans h2, a1, a2.trans g2, ?_, ?_⟩
  · rw [h3]
    simp only [if_true, hE, hEv (Arr2.eye n) ⟨rfl, rfl⟩, bind, Except.bind]
    unfold whereAbsPos
    rw [diag_mask, ← hv]
    simpa using hp'
  · intro t ht
    rw [a4] at ht
    rcases List.mem_append.1 ht with h | h
    · exact g3 t h
    · exact a5 t h
  · intro Y hsq hY
    rw [a4, a2, List.map_append, g4 Y hsq hY, a6]
    congr 1
    rw [params_entries]
    show (wherePos _).map _ = _
    rw [wherePos_map _ _ ((0, 0), false) _
      (fun e => lam * (Spec.part e.2 (Y.get e.1.1 e.1.2) - Spec.part e.2 (y.get e.1.1 e.1.2)))
      (fun k hk => by
        show lam * (_ - ((realEntries false n).map (fun e => Spec.part e.2 (y.get e.1.1 e.1.2))).getD k 0) = _
        rw [getD_map _ _ ((0, 0), false) hk, getD_map _ _ ((0, 0), false) hk]
        simp [Spec.sgn]), hfil]
    simp [Spec.diagTerms, Function.comp_def]

/-- C90 is violated: with diagonal regularisation in Laplacian mode the call returns a prior with `2n` more centres and
orders than rows, on which `log_distribution` raises for every parameter vector. -/
theorem C90_violated (n : Nat) (hn2 : 1 ≤ n) (lam : ℝ) (y : Arr2 ℂ) (hy : Spec.IsSquare n y) (tls : Bool) :
    ∃ p, buildComplexPrior n lam y true tls true true = .ok p ∧ p.mu.length = p.rows.length + 2 * n ∧
      ¬ Spec.Consistent p ∧ ∀ x : List ℝ, ∀ r, p.logDistribution x ≠ .ok r := by
  obtain ⟨p, ⟨g1, g2, g3, g4⟩, h2, hn, h3⟩ := complex_rows n lam y hy true tls true
  obtain ⟨E, hE, hEv⟩ := e_vec true n
  have hidx : wherePos ((realEntries true n).map (fun e => if e.1.1 = e.1.2 then (1 : ℝ) else 0)) = [] := by
    have e := wherePos_entries (realEntries true n) (fun e => if e.1.1 = e.1.2 then (1 : ℝ) else 0) ((0, 0), false)
    have : (realEntries true n).filter (fun e => decide ((0 : ℝ) < if e.1.1 = e.1.2 then 1 else 0)) = [] := by
      rw [List.filter_eq_nil_iff]
      intro e he
      have : e.1 ∈ idEntries true n := by
        simp only [realEntries, List.mem_append, List.mem_map] at he
        rcases he with ⟨a, h, rfl⟩ | ⟨a, h, rfl⟩ <;> exact h
      have := (mem_idEntries true n e.1).1 this
      have : e.1.1 ≠ e.1.2 := by simp at this; omega
      simp [this]
    rw [this] at e
    exact List.map_eq_nil_iff.1 e
  have hcall := call_of (p := p) (c := .exactAdaptive (asInts []) (concatReIm (diagOf n y)) (.scalar lam))
    (o := .scalar LAPLACE) (nm := (concatReIm (diagOf n y)).map (fun t => lam * t)) (rs := [])
    (by
      simp only [delegate, newMu, stdWeights, broadcast1, List.length_replicate, if_true]
      congr 1
      apply List.ext_getElem <;> simp)
    rfl g1.width (fun h => by rw [g1.storage]; exact h)
  have hlen : (concatReIm (diagOf n y)).length = 2 * n := by simp [concatReIm, diagOf]; omega
  have hmu : p.mu.length = p.rows.length := g1.mu_len
  refine ⟨{ p with
      mu := p.mu ++ (concatReIm (diagOf n y)).map (fun t => lam * t),
      rows := p.rows ++ [],
      gamma := p.gamma ++ stdWeights (.scalar LAPLACE) (concatReIm (diagOf n y)).length }, ?_, ?_, ?_, ?_⟩
  · rw [h3]
    simp only [if_true, hE, hEv (Arr2.eye n) ⟨rfl, rfl⟩, bind, Except.bind]
    unfold whereAbsPos
    rw [diag_mask, hidx, hcall]
    rfl
  · simp [hlen, hmu]
  · intro hc
    have := hc.mu_len
    simp [hlen, hmu] at this
    omega
  · intro x r h
    have := (logDistribution_ok_len (A := r.1) (b := r.2.1) (s := r.2.2) h).1
    simp [hlen, hmu] at this
    omega

/-! ### C45 -/

theorem nodeTerms_zero (n : Nat) (w : ℝ) (c : Nat → ℂ) (Y : Arr2 ℂ) (im : Bool)
    (hc : ∀ i, i < n → Spec.part im (c i) = Spec.part im (Spec.rowSum n Y i))
    (h0 : ∀ i, i < n → Spec.part im (Spec.rowSum n Y i) ≠ 0) :
    Spec.nodeTerms n w c Y im = List.replicate n 0 := by
  unfold Spec.nodeTerms
  rw [List.eq_replicate_iff]
  refine ⟨by simp, fun b hb => ?_⟩
  obtain ⟨i, hi, rfl⟩ := List.mem_map.1 hb
  have hi := List.mem_range.1 hi
  rw [hc i hi, div_self (h0 i hi), sub_self, mul_zero]

/-- the symmetrised estimate: symmetric, with the off-diagonal entries of the symmetric part of `y` -/
def Spec.Symmetrised (n : Nat) (y Y : Arr2 ℂ) : Prop :=
  Spec.IsSquare n Y ∧ Spec.IsSymm Y ∧ ∀ i j, i < n → j < n → i ≠ j → Y.get i j = (y.get i j + y.get j i) / 2

/-- the matrix computed by the code is one -/
theorem symmetrize_is (lap : Bool) (n : Nat) (y m : Arr2 ℂ) (hy : Spec.IsSquare n y) (hm : symmetrize lap n y = .ok m) :
    Spec.Symmetrised n y m := by
  obtain ⟨m', hm', hr, hc, h1, _⟩ := symmetrize_closed lap n y hy
  rw [hm] at hm'
  cases hm'
  refine ⟨⟨hr, hc⟩, ⟨by omega, fun i j => ?_⟩, fun i j hi hj hij => h1 i j hi hj (.inr hij)⟩
  by_cases hi : i < n ∧ j < n
  · by_cases hij : i = j
    · rw [hij]
    · rw [h1 i j hi.1 hi.2 (.inr hij), h1 j i hi.2 hi.1 (.inr (Ne.symm hij)), add_comm]
  · rw [m.oob i j (by rw [hr, hc]; exact hi), m.oob j i (by rw [hr, hc]; exact fun h => hi h.symm)]

theorem rowSum_symmetrised {n : Nat} {y Y : Arr2 ℂ} (h : Spec.Symmetrised n y Y) {i : Nat} (hi : i < n) :
    Spec.rowSum n (Spec.symPart n y) i = Spec.rowSum n Y i := by
  apply Finset.sum_congr rfl
  intro j hj
  rw [Finset.mem_erase, Finset.mem_range] at hj
  rw [h.2.2 i j hi hj.2 hj.1.symm]
  unfold Spec.symPart
  rw [Arr2.ofFn_get _ hi hj.2]

/-- C45 where it holds: one contrast row per node (the configured option), the sums of the lines of each node (real and
imaginary parts) nonzero, and either the sums are the centres or the diagonal agrees with them. Then all `2n` contrast
residuals vanish at the symmetrised estimate. -/
theorem C45_partial (n : Nat) (lam : ℝ) (y Y : Arr2 ℂ) (hy : Spec.IsSquare n y) (lap tls : Bool)
    (hY : Spec.Symmetrised n y Y) (h0 : ∀ im i, i < n → Spec.part im (Spec.rowSum n Y i) ≠ 0)
    (htls : tls = true → ∀ i, i < n → y.get i i = -Spec.rowSum n Y i) :
    ∃ p, buildComplexPrior n lam y lap tls true false = .ok p ∧
      ((Spec.terms p).map (fun t => t.resid p.n (Spec.params lap n Y))).drop (2 * (Spec.offPairs n).length) =
        List.replicate (2 * n) 0 := by
  obtain ⟨p, hp, _, _, _, _, h⟩ := C44_complex_prior n lam y hy lap tls
  refine ⟨p, hp, ?_⟩
  have hc : ∀ im i, i < n → Spec.part im (Spec.centre n tls y i) = Spec.part im (Spec.rowSum n Y i) := by
    intro im i hi
    unfold Spec.centre
    cases tls with
    | false => rw [if_neg (by simp), rowSum_symmetrised hY hi]
    | true => rw [if_pos rfl, htls rfl i hi, neg_neg]
  rw [h Y hY.1 hY.2.1]
  beta_reduce
  rw [nodeTerms_zero _ _ _ _ _ (hc false) (h0 false), nodeTerms_zero _ _ _ _ _ (hc true) (h0 true),
    List.drop_append_of_le_length (by simp [Spec.lineTerms]; omega), List.drop_of_length_le (by simp [Spec.lineTerms]; omega)]
  simp [two_mul]

theorem sum_if_list {β : Type} (l : List β) (q : β → Bool) (F : β → ℝ) :
    ((l.filter q).map F).sum = (l.map (fun b => if q b then F b else 0)).sum := by
  induction l with
  | nil => simp
  | cons a l ih => cases h : q a <;> simp [List.filter_cons, h, ih]

/-- every line belongs to two nodes -/
theorem sum_rowSum (n : Nat) (F : Nat → Nat → ℝ) (hF : ∀ a b, F a b = F b a) :
    ∑ i ∈ range n, ∑ j ∈ (range n).erase i, F i j = 2 * ((Spec.offPairs n).map (fun e => F e.1 e.2)).sum := by
  have e1 : ∀ i ∈ range n, ∑ j ∈ (range n).erase i, F i j =
      ((Spec.offPairs n).map (fun e => if decide (e.1 = i ∨ e.2 = i) then F e.1 e.2 else 0)).sum := by
    intro i hi
    rw [← sum_star n i (Finset.mem_range.1 hi) F hF, sum_if_list]
  rw [Finset.sum_congr rfl e1, list_sum_comm, ← list_sum_mul_left']
  congr 1
  apply List.map_congr_left
  intro e he
  have hb := (mem_offPairs n e).1 he
  have : ∀ i, (if decide (e.1 = i ∨ e.2 = i) then F e.1 e.2 else 0) =
      (if e.1 = i then F e.1 e.2 else 0) + (if e.2 = i then F e.1 e.2 else 0) := by
    intro i
    by_cases h1 : e.1 = i <;> by_cases h2 : e.2 = i
    · omega
    · simp [h1, h2]
    · simp [h1, h2]
    · simp [h1, h2]
  rw [Finset.sum_congr rfl (fun i _ => this i), Finset.sum_add_distrib, Finset.sum_ite_eq, Finset.sum_ite_eq,
    if_pos (Finset.mem_range.2 hb.2), if_pos (Finset.mem_range.2 (by omega))]
  ring

namespace Spec
/-- sum over all lines -/
def total (n : Nat) (Y : Arr2 ℂ) (im : Bool) : ℝ := ((offPairs n).map (fun e => part im (Y.get e.1 e.2))).sum

/-- sum of the centres of all nodes -/
def centreSum (n : Nat) (tls : Bool) (y : Arr2 ℂ) (im : Bool) : ℝ :=
  ∑ i ∈ range n, part im (centre n tls y i)
end Spec

theorem list_sum_range (n : Nat) (f : Nat → ℝ) : ((List.range n).map f).sum = ∑ i ∈ range n, f i := by
  induction n with
  | zero => simp
  | succ n ih => rw [List.range_succ, List.map_append, List.sum_append, ih, Finset.sum_range_succ]; simp

/-- what `build_complex_prior` computes with a single contrast row per part: the centre has the wrong sign and counts every
line twice. -/
theorem complex_total (n : Nat) (lam : ℝ) (y : Arr2 ℂ) (hy : Spec.IsSquare n y) (lap tls reg : Bool) :
    ∃ p, buildComplexPrior n lam y lap tls false reg = .ok p ∧ p.alpha = 1e-8 ∧
      Spec.L1Prior lap n p (fun Y =>
        (Spec.lineTerms lap n (Spec.symPart n y) Y false ++ Spec.lineTerms lap n (Spec.symPart n y) Y true) ++
        [lam * (Spec.total n Y false / -Spec.centreSum n tls y false - 1),
         -lam * (Spec.total n Y true / -Spec.centreSum n tls y true - 1)]) := by
  obtain ⟨E, hE, hEv⟩ := e_vec lap n
  obtain ⟨m, hm, hmr, hmc, _⟩ := symmetrize_closed lap n y hy
  obtain ⟨htake, p1, hp1, f1, hadd1, hf1⟩ := complex_adaptive n y hy lap hm
  have hmask := mask_eq lap n true (by simp)
  simp only [if_true] at hmask
  let off := wherePos ((realEntries lap n).map (fun e => if e.1.1 ≠ e.1.2 then (1 : ℝ) else 0))
  let q := (Spec.offPairs n).length
  have hmap : ∀ (F : Nat → ℝ) (g : (Nat × Nat) × Bool → ℝ),
      (∀ k, k < (realEntries lap n).length → F k = g ((realEntries lap n).getD k ((0, 0), false))) →
      off.map F = (Spec.offPairs n).map (fun e => g (e, false)) ++ (Spec.offPairs n).map (fun e => g (e, true)) := by
    intro F g h
    show (wherePos _).map F = _
    rw [wherePos_map _ _ ((0, 0), false) F g h, filter_real, List.map_append, List.map_map, List.map_map]
    rfl
  have hlen : off.length = q + q := by
    have := congrArg List.length (hmap (fun _ => 0) (fun _ => 0) (fun _ _ => rfl))
    simpa using this
  have hsplit1 : split2 off = .ok (off.take q, off.drop q) := by
    unfold split2
    rw [if_pos (by omega), show off.length / 2 = q by omega]
  have hvc := valuesContrast_eq n y m hy lap tls hm
  have hsplit2 : split2 (valuesContrast n y m lap tls) =
      .ok ((List.range n).map (fun i => Spec.sgn lap * Spec.part false (Spec.centre n tls y i)),
        (List.range n).map (fun i => Spec.sgn lap * Spec.part true (Spec.centre n tls y i))) := by
    have hl : (valuesContrast n y m lap tls).length = n + n := by rw [hvc]; simp
    unfold split2
    rw [if_pos (by omega), show (valuesContrast n y m lap tls).length / 2 = n by omega, hvc, List.take_left' (by simp),
      List.drop_left' (by simp)]
  have hsum : ∀ im, ((List.range n).map (fun i => Spec.sgn lap * Spec.part im (Spec.centre n tls y i))).sum =
      Spec.sgn lap * Spec.centreSum n tls y im := by
    intro im
    rw [list_sum_mul_left', list_sum_range]
    rfl
  have hoff : ∀ k ∈ off, k < p1.n := fun k hk => by
    rw [hadd1.2.1]; show k < (realEntries lap n).length; simpa using mem_wherePos hk
  obtain ⟨p2, hp2, hadd2⟩ := call_contrast hadd1.1 [off.take q, off.drop q]
    [-(Spec.sgn lap * Spec.centreSum n tls y false), -(Spec.sgn lap * Spec.centreSum n tls y true)]
    [lam * 1, lam * (-1)] rfl rfl
    (by
      intro row hr k hk
      simp only [List.mem_cons, List.not_mem_nil, or_false] at hr
      rcases hr with rfl | rfl
      · exact hoff k (List.mem_of_mem_take hk)
      · exact hoff k (List.mem_of_mem_drop hk))
    (by
      intro row hr
      simp only [List.mem_cons, List.not_mem_nil, or_false] at hr
      have := nodup_wherePos ((realEntries lap n).map (fun e => if e.1.1 ≠ e.1.2 then (1 : ℝ) else 0))
      rcases hr with rfl | rfl
      · exact this.sublist (List.take_sublist _ _)
      · exact this.sublist (List.drop_sublist _ _))
  refine ⟨p2, ?_, ?_, (hadd1.trans hadd2).l1 (fun Y _ hY => ?_)⟩
  · simp only [buildComplexPrior, hE, hm, hEv y hy, hEv (onesMinusEye n) ⟨rfl, rfl⟩, hEv m ⟨hmr, hmc⟩, bind, Except.bind,
      Bool.false_eq_true, if_false]
    rw [hmask]
    simp only [htake]
    rw [List.length_map, ← realEntries_length]
    simp only [hp1]
    have hsplit1' : split2 (wherePos ((realEntries lap n).map (fun e => if e.1.1 ≠ e.1.2 then (1 : ℝ) else 0))) =
      .ok (off.take q, off.drop q) := hsplit1
    simp only [hsplit1', hsplit2, hsum]
    exact hp2
  · rw [hadd2.2.2.1, hadd1.2.2.1]; rfl
  · rw [hf1 Y]
    congr 1
    have hs : off.map (fun k => (Spec.params lap n Y).getD k 0) =
        (Spec.offPairs n).map (fun e => Spec.sgn lap * Spec.part false (Y.get e.1 e.2)) ++
        (Spec.offPairs n).map (fun e => Spec.sgn lap * Spec.part true (Y.get e.1 e.2)) := by
      refine hmap _ (fun e => Spec.sgn lap * Spec.part e.2 (Y.get e.1.1 e.1.2)) (fun k hk => ?_)
      rw [params_entries, getD_map _ _ ((0, 0), false) hk]
    have h1 : ((off.take q).map (fun k => (Spec.params lap n Y).getD k 0)).sum = Spec.sgn lap * Spec.total n Y false := by
      rw [List.map_take, hs, List.take_left' (by simp [q]), list_sum_mul_left']; rfl
    have h2 : ((off.drop q).map (fun k => (Spec.params lap n Y).getD k 0)).sum = Spec.sgn lap * Spec.total n Y true := by
      rw [List.map_drop, hs, List.drop_left' (by simp [q]), list_sum_mul_left']; rfl
    simp only [List.length_cons, List.length_nil, List.range_succ, List.range_zero, List.nil_append, List.cons_append,
      List.map_cons, List.map_nil, List.getD_cons_zero, List.getD_cons_succ, Nat.zero_add]
    rw [h1, h2, ← mul_neg, ← mul_neg, contrast_value, contrast_value, mul_one, mul_neg_one]

theorem centreSum_total {n : Nat} {y Y : Arr2 ℂ} (hY : Spec.Symmetrised n y Y) (im : Bool) :
    Spec.centreSum n false y im = 2 * Spec.total n Y im := by
  unfold Spec.centreSum Spec.total
  rw [← sum_rowSum n (fun a b => Spec.part im (Y.get a b)) (fun a b => by rw [hY.2.1.2 a b])]
  apply Finset.sum_congr rfl
  intro i hi
  unfold Spec.centre
  rw [if_neg (by simp), rowSum_symmetrised hY (Finset.mem_range.1 hi), Spec.rowSum, part_sum]

/-- C45 is violated with `contrast_each_row=False`: at the symmetrised estimate both contrast residuals are `∓3/2 λ'`
instead of zero, for every estimate whose lines do not sum to zero. -/
theorem C45_violated (n : Nat) (lam : ℝ) (y Y : Arr2 ℂ) (hy : Spec.IsSquare n y) (lap reg : Bool)
    (hY : Spec.Symmetrised n y Y) (h0 : ∀ im, Spec.total n Y im ≠ 0) :
    ∃ p, buildComplexPrior n lam y lap false false reg = .ok p ∧
      ((Spec.terms p).map (fun t => t.resid p.n (Spec.params lap n Y))).drop (2 * (Spec.offPairs n).length) =
        [-(3 / 2) * lam, 3 / 2 * lam] := by
  obtain ⟨p, hp, _, _, _, _, h⟩ := complex_total n lam y hy lap false reg
  refine ⟨p, hp, ?_⟩
  rw [h Y hY.1 hY.2.1, List.drop_append_of_le_length (by simp [Spec.lineTerms]; omega),
    List.drop_of_length_le (by simp [Spec.lineTerms]; omega), List.nil_append, centreSum_total hY, centreSum_total hY]
  have key : ∀ im, Spec.total n Y im / -(2 * Spec.total n Y im) = -(1 / 2) := by
    intro im
    have := h0 im
    field_simp
  rw [key, key]
  congr 1
  · ring
  · congr 1; ring

/-- non-vacuity: two nodes joined by a line of admittance `1 + i` -/
example : let y : Arr2 ℂ := Arr2.ofFn 2 2 (fun i j => if i = j then 1 + Complex.I else -(1 + Complex.I))
    Spec.IsSquare 2 y ∧ Spec.Symmetrised 2 y y ∧ (∀ im i, i < 2 → Spec.part im (Spec.rowSum 2 y i) ≠ 0) ∧
      (∀ i, i < 2 → y.get i i = -Spec.rowSum 2 y i) ∧ (∀ im, Spec.total 2 y im ≠ 0) := by
  intro y
  have h01 : y.get 0 1 = -(1 + Complex.I) := by simp [y, Arr2.ofFn]
  have h10 : y.get 1 0 = -(1 + Complex.I) := by simp [y, Arr2.ofFn]
  have h00 : y.get 0 0 = 1 + Complex.I := by simp [y, Arr2.ofFn]
  have h11 : y.get 1 1 = 1 + Complex.I := by simp [y, Arr2.ofFn]
  have e0 : (range 2).erase 0 = {1} := by decide
  have e1 : (range 2).erase 1 = {0} := by decide
  have r0 : Spec.rowSum 2 y 0 = -(1 + Complex.I) := by rw [Spec.rowSum, e0, Finset.sum_singleton, h01]
  have r1 : Spec.rowSum 2 y 1 = -(1 + Complex.I) := by rw [Spec.rowSum, e1, Finset.sum_singleton, h10]
  have hsym : ∀ i j, y.get i j = y.get j i := by
    intro i j
    simp only [y, Arr2.ofFn, and_comm, eq_comm]
  refine ⟨⟨rfl, rfl⟩, ⟨⟨rfl, rfl⟩, ⟨rfl, hsym⟩, fun i j _ _ _ => ?_⟩, ?_, ?_, ?_⟩
  · rw [hsym j i]; ring
  · intro im i hi
    interval_cases i
    · rw [r0]; cases im <;> simp [Spec.part]
    · rw [r1]; cases im <;> simp [Spec.part]
  · intro i hi
    interval_cases i
    · rw [r0, h00, neg_neg]
    · rw [r1, h11, neg_neg]
  · intro im
    simp only [Spec.total, Spec.offPairs, List.range_succ, List.range_zero, List.nil_append, List.cons_append,
      List.flatMap_cons, List.flatMap_nil, List.map_cons, List.map_nil, List.sum_cons, List.sum_nil, List.append_nil]
    simp [h10]
    cases im <;> simp [Spec.part]

/-! ### C91 -/

/-- C91: the loads prior is the l1 distance of the off-diagonal entries to those of the (symmetrised) known matrix. -/
theorem C91_loads_prior (n : Nat) (y : Arr2 ℂ) (hy : Spec.IsSquare n y) :
    ∃ p, buildLoadsIdPrior n y = .ok p ∧ p.alpha = 1e-10 ∧ Spec.L1Prior false n p (fun Y =>
      (Spec.offPairs n).map (fun e => (Y.get e.1 e.2).re - ((Spec.symPart n y).get e.1 e.2).re) ++
      (Spec.offPairs n).map (fun e => (Y.get e.1 e.2).im - ((Spec.symPart n y).get e.1 e.2).im)) := by
  obtain ⟨E, hE, hEv⟩ := e_vec false n
  have hmask := mask_eq false n false (by simp)
  simp only [Bool.false_eq_true, if_false, List.map_id'] at hmask
  let off := wherePos ((realEntries false n).map (fun e => if e.1.1 ≠ e.1.2 then (1 : ℝ) else 0))
  have hoff : ∀ k ∈ off, k < (realEntries false n).length := fun k hk => by simpa using mem_wherePos hk
  have hpar : makeRealVector ((idEntries false n).map (fun e => (Spec.sgn false : ℂ) * ((y.get e.1 e.2 + y.get e.2 e.1) / 2))) =
      (realEntries false n).map (fun e => Spec.part e.2 ((y.get e.1.1 e.1.2 + y.get e.1.2 e.1.1) / 2)) := by
    rw [makeReal_map]
    apply List.map_congr_left
    intro e _
    simp [Spec.sgn]
  obtain ⟨p, hp, hadd⟩ := call_exact (new_consistent true 1e-10 (realEntries false n).length) off
    (fun k => (makeRealVector ((idEntries false n).map
      (fun e => (Spec.sgn false : ℂ) * ((y.get e.1 e.2 + y.get e.2 e.1) / 2)))).getD k 0) hoff .none 1 (fun m => rfl) false
  refine ⟨p, ?_, hadd.2.2.1, hadd.l1 (fun Y _ _ => ?_)⟩
  · simp only [buildLoadsIdPrior, hE, hEv y hy, hEv (onesMinusEye n) ⟨rfl, rfl⟩, bind, Except.bind]
    rw [hmask, takeIdx_ok _ _ (fun k hk => by rw [hpar, List.length_map]; exact hoff k hk), List.length_map,
      ← realEntries_length]
    rw [if_neg (by simp)] at hp
    exact hp
  · rw [hpar, params_entries]
    show (wherePos _).map _ = _
    rw [wherePos_map _ _ ((0, 0), false) _
      (fun e => Spec.part e.2 (Y.get e.1.1 e.1.2) - Spec.part e.2 ((y.get e.1.1 e.1.2 + y.get e.1.2 e.1.1) / 2))
      (fun k hk => by
        rw [getD_map _ _ ((0, 0), false) hk, getD_map _ _ ((0, 0), false) hk]; simp [Spec.sgn])]
    rw [filter_real, List.map_append, List.map_map, List.map_map]
    congr 1 <;>
    · apply List.map_congr_left
      intro e he
      have hb := (mem_offPairs n e).1 he
      unfold Spec.symPart
      rw [Arr2.ofFn_get _ hb.2 (by omega)]
      simp [Spec.part]

end
end Verif
