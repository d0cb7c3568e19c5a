/-
C46, C92: lines assumed to be known.
-/
import Verif.Model.KnownLines
import Verif.Props.IdPriors

namespace Verif
open Finset Prior
noncomputable section

/-! ### Specification -/
namespace Spec

/-- the lines at one of the nodes `H` -/
def hubLines (n : Nat) (H : List Nat) : List (Nat × Nat) :=
  (offPairs n).filter (fun e => decide (e.1 ∈ H ∨ e.2 ∈ H))

/-- known value of a line: that of `y` on the lines `K`, zero (no line) elsewhere -/
def known (K : List (Nat × Nat)) (y : Arr2 ℂ) (e : Nat × Nat) : ℂ :=
  if e ∈ K ∨ e.swap ∈ K then (y.get e.1 e.2 + y.get e.2 e.1) / 2 else 0

/-- distance, with weight `w`, of every line at `H` to `f` times its known value -/
def pinTerms (lap : Bool) (n : Nat) (w f : ℝ) (H : List Nat) (K : List (Nat × Nat)) (y Y : Arr2 ℂ) (im : Bool) : List ℝ :=
  (hubLines n H).map (fun e => w * (sgn lap * (part im (Y.get e.1 e.2) - f * part im (known K y e))))

/-- `p'` is `p` and the l1 terms `pinTerms` -/
def Pins (lap : Bool) (n : Nat) (p p' : Prior) (w f : ℝ) (H : List Nat) (K : List (Nat × Nat)) (y : Arr2 ℂ) : Prop :=
  Consistent p' ∧ p'.n = p.n ∧ p'.alpha = p.alpha ∧ ∃ ts, terms p' = terms p ++ ts ∧ (∀ t ∈ ts, t.order = 1) ∧
    ∀ Y, IsSquare n Y → ts.map (fun t => t.resid p.n (params lap n Y)) =
      pinTerms lap n w f H K y Y false ++ pinTerms lap n w f H K y Y true

/-- nodes and lines of the optimal choice (run.py:173-192) -/
def optimalHubs : List Nat := [0, 25, 26]
def optimalKnown : List (Nat × Nat) := [(1, 0), (24, 25), (26, 25), (26, 27), (26, 28)]

/-- nodes and lines of the suboptimal choice (run.py:200-217) -/
def suboptimalHubs : List Nat := [7, 20, 21]
def suboptimalKnown : List (Nat × Nat) := [(7, 6), (7, 8), (19, 20), (21, 20), (21, 22)]

/-- documented effect of `prior_type` on centre and weight -/
def factor (s : String) : ℝ := if inStr "wrong" s then 1.1 else 1
def weight (s : String) : ℝ := if inStr "wrong" s then 0.01 else 1

end Spec

/-! ### masks -/

/-- is the real parameter a part of a line at `H`? -/
def atHub (H : List Nat) (e : (Nat × Nat) × Bool) : Bool :=
  decide (e.1.1 ≠ e.1.2 ∧ (e.1.1 ∈ H ∨ e.1.2 ∈ H))

theorem hub_mask (lap : Bool) (n : Nat) (H : List Nat) (w : Arr2 ℂ)
    (hw : ∀ a b, a < n → b < n → w.get a b = if a ≠ b ∧ (a ∈ H ∨ b ∈ H) then 1 + Complex.I else 0) :
    (makeRealVector ((idEntries lap n).map (fun e => (Spec.sgn lap : ℂ) *
      ((w.get e.1 e.2 + w.get e.2 e.1) / 2)))).map (fun t => |t|) =
      (realEntries lap n).map (fun e => if atHub H e then (1 : ℝ) else 0) := by
  rw [makeReal_map, List.map_map]
  apply List.map_congr_left
  intro e he
  have hb : e.1.1 < n ∧ e.1.2 < n := by
    simp only [List.mem_append, List.mem_map] at he
    have : e.1 ∈ idEntries lap n := by rcases he with ⟨a, h, rfl⟩ | ⟨a, h, rfl⟩ <;> exact h
    have := (mem_idEntries lap n e.1).1 this
    omega
  simp only [Function.comp]
  rw [hw _ _ hb.1 hb.2, hw _ _ hb.2 hb.1]
  have hiff : (e.1.2 ≠ e.1.1 ∧ (e.1.2 ∈ H ∨ e.1.1 ∈ H)) ↔ (e.1.1 ≠ e.1.2 ∧ (e.1.1 ∈ H ∨ e.1.2 ∈ H)) := by
    rw [or_comm, ne_comm]
  rw [if_congr hiff rfl rfl]
  by_cases h : e.1.1 ≠ e.1.2 ∧ (e.1.1 ∈ H ∨ e.1.2 ∈ H)
  · have ht : atHub H e = true := by simp only [atHub, decide_eq_true_eq]; exact h
    rw [if_pos h, ht, if_pos rfl, add_self_div_two]
    cases lap <;> cases e.2 <;> simp [Spec.sgn, Spec.part]
  · have ht : atHub H e = false := by simp only [atHub, decide_eq_false_iff_not]; exact h
    rw [if_neg h, ht]
    cases lap <;> cases e.2 <;> simp [Spec.sgn, Spec.part]

theorem filter_hub (lap : Bool) (n : Nat) (H : List Nat) :
    (realEntries lap n).filter (fun e => decide ((0 : ℝ) < if atHub H e then 1 else 0)) =
      (Spec.hubLines n H).map (fun e => (e, false)) ++ (Spec.hubLines n H).map (fun e => (e, true)) := by
  have h0 : (fun e : (Nat × Nat) × Bool => decide ((0 : ℝ) < if atHub H e then 1 else 0)) = atHub H := by
    funext e
    cases h : atHub H e <;> simp
  rw [h0, realEntries, List.filter_append, List.filter_map, List.filter_map, Spec.hubLines, ← filter_entries lap n,
    List.filter_filter]
  have h1 : ∀ b : Bool, (atHub H ∘ fun e : Nat × Nat => (e, b)) =
      fun e => (decide (e.1 ∈ H ∨ e.2 ∈ H) && decide (e.1 ≠ e.2)) := by
    intro b; funext e
    simp only [atHub, Function.comp, Bool.decide_and]
    rw [Bool.and_comm]
  rw [h1, h1]

/-- positions of the real parameters of the lines at `H` -/
def hubIdx (lap : Bool) (n : Nat) (H : List Nat) : List Nat :=
  wherePos ((realEntries lap n).map (fun e => if atHub H e then (1 : ℝ) else 0))

theorem hubIdx_map (lap : Bool) (n : Nat) (H : List Nat) {γ : Type} (F : Nat → γ) (g : (Nat × Nat) × Bool → γ)
    (h : ∀ k, k < (realEntries lap n).length → F k = g ((realEntries lap n).getD k ((0, 0), false))) :
    (hubIdx lap n H).map F = (Spec.hubLines n H).map (fun e => g (e, false)) ++
      (Spec.hubLines n H).map (fun e => g (e, true)) := by
  unfold hubIdx
  rw [wherePos_map _ _ ((0, 0), false) F g h, filter_hub, List.map_append, List.map_map, List.map_map]
  rfl

/-- the parameters addressed by the prior, for any prior with enough parameters -/
theorem fromMasks_adds (lap : Bool) (n : Nat) {E : Arr2 ℂ}
    (hEv : ∀ M, Spec.IsSquare n M → E.mulVec (vectorizeMatrix M) =
      .ok ((idEntries lap n).map (fun e => (Spec.sgn lap : ℂ) * ((M.get e.1 e.2 + M.get e.2 e.1) / 2))))
    {p : Prior} (hp : Spec.Consistent p) (l : ℝ) (wr : Prop) [Decidable wr]
    (H : List Nat) (hpn : ∀ k ∈ hubIdx lap n H, k < p.n) (w c : Arr2 ℂ) (hws : Spec.IsSquare n w)
    (hcs : Spec.IsSquare n c)
    (hw : ∀ a b, a < n → b < n → w.get a b = if a ≠ b ∧ (a ∈ H ∨ b ∈ H) then 1 + Complex.I else 0) :
    ∃ p', addFromMasks E p l wr w c = .ok p' ∧ Spec.Adds p p' (fun x => (hubIdx lap n H).map (fun k =>
      (l * if wr then 0.01 else 1) * (x.getD k 0 - Spec.sgn lap * (Spec.part ((realEntries lap n).getD k ((0, 0), false)).2
        ((c.get ((realEntries lap n).getD k ((0, 0), false)).1.1 ((realEntries lap n).getD k ((0, 0), false)).1.2 +
          c.get ((realEntries lap n).getD k ((0, 0), false)).1.2 ((realEntries lap n).getD k ((0, 0), false)).1.1) / 2)) *
            if wr then 1.1 else 1))) := by
  obtain ⟨p', hp', hadd⟩ := call_exact hp (hubIdx lap n H)
    (fun k => Spec.sgn lap * (Spec.part ((realEntries lap n).getD k ((0, 0), false)).2
        ((c.get ((realEntries lap n).getD k ((0, 0), false)).1.1 ((realEntries lap n).getD k ((0, 0), false)).1.2 +
          c.get ((realEntries lap n).getD k ((0, 0), false)).1.2 ((realEntries lap n).getD k ((0, 0), false)).1.1) / 2)) *
            if wr then 1.1 else 1) hpn (.scalar (l * if wr then 0.01 else 1)) _ (fun m => rfl) true
  refine ⟨p', ?_, hadd⟩
  unfold addFromMasks
  rw [hEv w hws, hEv c hcs]
  simp only [bind, Except.bind]
  have hidx : whereAbsPos (makeRealVector ((idEntries lap n).map (fun e => (Spec.sgn lap : ℂ) *
      ((w.get e.1 e.2 + w.get e.2 e.1) / 2)))) = hubIdx lap n H := by
    unfold whereAbsPos hubIdx
    rw [hub_mask lap n H w hw]
  rw [hidx, makeReal_map, takeIdx_ok _ _ (by
    intro k hk
    have := mem_wherePos hk
    simpa [realEntries] using this)]
  simp only [if_true] at hp'
  rw [← hp']
  simp only [List.map_map]
  refine congrArg (fun v => raisePrior (p.call (.exactAdaptive (asInts (hubIdx lap n H)) v _) _)) ?_
  apply List.map_congr_left
  intro k hk
  have hk : k < (realEntries lap n).length := by simpa using mem_wherePos hk
  simp only [Function.comp]
  rw [show ((idEntries lap n).map (fun e => (e, false)) ++ (idEntries lap n).map (fun e => (e, true))) = realEntries lap n
    from rfl, getD_map _ _ ((0, 0), false) hk]
  congr 1
  cases ((realEntries lap n).getD k ((0, 0), false)).2 <;> simp [Spec.part]

theorem fromMasks_pins (lap : Bool) (n : Nat) {E : Arr2 ℂ}
    (hEv : ∀ M, Spec.IsSquare n M → E.mulVec (vectorizeMatrix M) =
      .ok ((idEntries lap n).map (fun e => (Spec.sgn lap : ℂ) * ((M.get e.1 e.2 + M.get e.2 e.1) / 2))))
    {p : Prior} (hp : Spec.Consistent p) (hpn : p.n = (realEntries lap n).length) (l : ℝ) (wr : Prop) [Decidable wr]
    (H : List Nat) (K : List (Nat × Nat)) (y w c : Arr2 ℂ) (hws : Spec.IsSquare n w) (hcs : Spec.IsSquare n c)
    (hw : ∀ a b, a < n → b < n → w.get a b = if a ≠ b ∧ (a ∈ H ∨ b ∈ H) then 1 + Complex.I else 0)
    (hc : ∀ a b, a < n → b < n → c.get a b = if (a, b) ∈ K ∨ (b, a) ∈ K then y.get a b else 0) :
    ∃ p', addFromMasks E p l wr w c = .ok p' ∧
      Spec.Pins lap n p p' (l * if wr then 0.01 else 1) (if wr then 1.1 else 1) H K y := by
  obtain ⟨p', h, ha, hb, hd, ts, he, hf, hg⟩ := fromMasks_adds lap n hEv hp l wr H
    (fun k hk => by rw [hpn]; simpa using mem_wherePos hk) w c hws hcs hw
  refine ⟨p', h, ha, hb, hd, ts, he, hf, fun Y _ => ?_⟩
  rw [hg]
  beta_reduce
  have hcen : ∀ e : Nat × Nat, e ∈ Spec.hubLines n H → (c.get e.1 e.2 + c.get e.2 e.1) / 2 = Spec.known K y e := by
    intro e he
    have hm := (mem_offPairs n e).1 (List.mem_filter.1 he).1
    rw [hc _ _ hm.2 (by omega), hc _ _ (by omega) hm.2]
    unfold Spec.known
    by_cases h : (e.1, e.2) ∈ K ∨ (e.2, e.1) ∈ K
    · rw [if_pos h, if_pos h.symm]; exact (if_pos h).symm
    · rw [if_neg h, if_neg (fun h' => h h'.symm), add_zero, zero_div]; exact (if_neg h).symm
  rw [hubIdx_map lap n H _ (fun e => (l * if wr then 0.01 else 1) * (Spec.sgn lap * Spec.part e.2 (Y.get e.1.1 e.1.2) -
    Spec.sgn lap * (Spec.part e.2 ((c.get e.1.1 e.1.2 + c.get e.1.2 e.1.1) / 2)) * if wr then 1.1 else 1))]
  · unfold Spec.pinTerms
    congr 1 <;>
    · apply List.map_congr_left
      intro e he
      rw [hcen e he]
      ring
  · intro k hk
    rw [params_entries, getD_map _ _ ((0, 0), false) hk]

theorem setCross_ok {n : Nat} {m : Arr2 ℂ} (hm : Spec.IsSquare n m) {k : Nat} (hk : k < n) (v : ℂ) :
    ∃ m', setCross m k v = .ok m' ∧ Spec.IsSquare n m' ∧
      ∀ a b, a < n → b < n → m'.get a b = if a = k ∨ b = k then v else m.get a b := by
  refine ⟨Arr2.ofFn m.r m.c (fun i j => if i = k ∨ j = k then v else m.get i j), ?_, hm, ?_⟩
  · unfold setCross
    rw [hm.1, hm.2, pyIndex_nat hk]
    rfl
  · intro a b ha hb
    exact Arr2.ofFn_get _ (by rw [hm.1]; exact ha) (by rw [hm.2]; exact hb)

theorem set_ok {n : Nat} {m : Arr2 ℂ} (hm : Spec.IsSquare n m) {i j : Nat} (hi : i < n) (hj : j < n) (v : ℂ) :
    ∃ m', m.set (i : Int) (j : Int) v = .ok m' ∧ Spec.IsSquare n m' ∧
      ∀ a b, a < n → b < n → m'.get a b = if a = i ∧ b = j then v else m.get a b := by
  refine ⟨Arr2.ofFn m.r m.c (fun p q => if p = i ∧ q = j then v else m.get p q), ?_, hm, ?_⟩
  · unfold Arr2.set
    rw [hm.1, hm.2, pyIndex_nat hi, pyIndex_nat hj]
    rfl
  · intro a b ha hb
    exact Arr2.ofFn_get _ (by rw [hm.1]; exact ha) (by rw [hm.2]; exact hb)

theorem setLine_ok {n : Nat} {y m : Arr2 ℂ} (hy : Spec.IsSquare n y) (hm : Spec.IsSquare n m) {i j : Nat} (hi : i < n)
    (hj : j < n) : ∃ m', setLine y m i j = .ok m' ∧ Spec.IsSquare n m' ∧
      ∀ a b, a < n → b < n → m'.get a b = if (a = i ∧ b = j) ∨ (a = j ∧ b = i) then y.get a b else m.get a b := by
  obtain ⟨m1, e1, s1, g1⟩ := set_ok hm hi hj (y.get i j)
  obtain ⟨m2, e2, s2, g2⟩ := set_ok s1 hj hi (y.get j i)
  refine ⟨m2, ?_, s2, ?_⟩
  · unfold setLine item
    rw [hy.1, hy.2, pyIndex_nat hi, pyIndex_nat hj]
    simp only [bind, Except.bind, pure, Except.pure, e1, e2]
  · intro a b ha hb
    rw [g2 a b ha hb, g1 a b ha hb]
    split_ifs with h1 h2 h3 <;> first | rfl | (exfalso; omega) | (obtain ⟨rfl, rfl⟩ := h1; rfl) | (obtain ⟨rfl, rfl⟩ := h3; rfl) | skip

theorem optimalLines_closed (n : Nat) (hn : 29 ≤ n) (y : Arr2 ℂ) (hy : Spec.IsSquare n y) :
    ∃ w c, optimalLines y (Arr2.zeros y.r y.c) (Arr2.zeros y.r y.c) = .ok (w, c) ∧ Spec.IsSquare n w ∧ Spec.IsSquare n c ∧
      (∀ a b, a < n → b < n → w.get a b = if a ≠ b ∧ (a ∈ Spec.optimalHubs ∨ b ∈ Spec.optimalHubs) then 1 + Complex.I else 0) ∧
      (∀ a b, a < n → b < n → c.get a b = if (a, b) ∈ Spec.optimalKnown ∨ (b, a) ∈ Spec.optimalKnown then y.get a b else 0) := by
  have hz : Spec.IsSquare n (Arr2.zeros y.r y.c : Arr2 ℂ) := hy
  have hz0 : ∀ a b, (Arr2.zeros y.r y.c : Arr2 ℂ).get a b = 0 := fun a b => by
    unfold Arr2.zeros; rw [Arr2.ofFn_get']; split <;> rfl
  obtain ⟨m0, e0, s0, g0⟩ := setCross_ok hz (k := 0) (by omega) (1 + Complex.I)
  obtain ⟨m1, e1, s1, g1⟩ := set_ok s0 (i := 0) (j := 0) (by omega) (by omega) 0
  obtain ⟨m2, e2, s2, g2⟩ := setCross_ok hz (k := 0) (by omega) 0
  obtain ⟨m3, e3, s3, g3⟩ := setLine_ok hy s2 (i := 1) (j := 0) (by omega) (by omega)
  obtain ⟨m4, e4, s4, g4⟩ := setCross_ok s1 (k := 26) (by omega) (1 + Complex.I)
  obtain ⟨m5, e5, s5, g5⟩ := setCross_ok s4 (k := 25) (by omega) (1 + Complex.I)
  obtain ⟨m6, e6, s6, g6⟩ := set_ok s5 (i := 26) (j := 26) (by omega) (by omega) 0
  obtain ⟨m7, e7, s7, g7⟩ := set_ok s6 (i := 25) (j := 25) (by omega) (by omega) 0
  obtain ⟨m8, e8, s8, g8⟩ := setCross_ok s3 (k := 26) (by omega) 0
  obtain ⟨m9, e9, s9, g9⟩ := setCross_ok s8 (k := 25) (by omega) 0
  obtain ⟨m10, e10, s10, g10⟩ := setLine_ok hy s9 (i := 24) (j := 25) (by omega) (by omega)
  obtain ⟨m11, e11, s11, g11⟩ := setLine_ok hy s10 (i := 26) (j := 25) (by omega) (by omega)
  obtain ⟨m12, e12, s12, g12⟩ := setLine_ok hy s11 (i := 26) (j := 27) (by omega) (by omega)
  obtain ⟨m13, e13, s13, g13⟩ := setLine_ok hy s12 (i := 26) (j := 28) (by omega) (by omega)
  simp only [Nat.cast_ofNat, Nat.cast_zero] at e1
  simp only [Nat.cast_ofNat, Nat.cast_zero] at e6
  simp only [Nat.cast_ofNat, Nat.cast_zero] at e7
  refine ⟨m7, m13, ?_, s7, s13, ?_, ?_⟩
  · simp only [optimalLines, e0, e1, e2, e3, e4, e5, e6, e7, e8, e9, e10, e11, e12, e13, bind, Except.bind, pure, Except.pure]
  · intro a b ha hb
    rw [g7 a b ha hb, g6 a b ha hb, g5 a b ha hb, g4 a b ha hb, g1 a b ha hb, g0 a b ha hb, hz0]
    simp only [Spec.optimalHubs, List.mem_cons, List.not_mem_nil, or_false, Prod.mk.injEq]
    split_ifs <;> first | with_reducible rfl | (exfalso; omega)
  · intro a b ha hb
    rw [g13 a b ha hb, g12 a b ha hb, g11 a b ha hb, g10 a b ha hb, g9 a b ha hb, g8 a b ha hb, g3 a b ha hb, g2 a b ha hb, hz0]
    by_cases hK : (a, b) ∈ Spec.optimalKnown ∨ (b, a) ∈ Spec.optimalKnown
    · rw [if_pos hK]
      simp only [Spec.optimalKnown, List.mem_cons, List.not_mem_nil, or_false, Prod.mk.injEq] at hK
      rcases hK with (h | h | h | h | h) | (h | h | h | h | h) <;> obtain ⟨rfl, rfl⟩ := h <;> simp
    · rw [if_neg hK]
      have hl : ∀ i j, (i, j) ∈ Spec.optimalKnown → ¬((a = i ∧ b = j) ∨ (a = j ∧ b = i)) := by
        rintro i j hij (⟨rfl, rfl⟩ | ⟨rfl, rfl⟩)
        · exact hK (.inl hij)
        · exact hK (.inr hij)
      rw [if_neg (hl 26 28 (by decide)), if_neg (hl 26 27 (by decide)), if_neg (hl 26 25 (by decide)),
        if_neg (hl 24 25 (by decide)), if_neg (hl 1 0 (by decide))]
      simp

/-- masks of the branch for the suboptimal choice -/
theorem suboptimalLines_closed (n : Nat) (hn : 23 ≤ n) (y : Arr2 ℂ) (hy : Spec.IsSquare n y) :
    ∃ w c, suboptimalLines y (Arr2.zeros y.r y.c) (Arr2.zeros y.r y.c) = .ok (w, c) ∧ Spec.IsSquare n w ∧ Spec.IsSquare n c ∧
      (∀ a b, a < n → b < n → w.get a b = if a ≠ b ∧ (a ∈ Spec.suboptimalHubs ∨ b ∈ Spec.suboptimalHubs) then 1 + Complex.I else 0) ∧
      (∀ a b, a < n → b < n → c.get a b = if (a, b) ∈ Spec.suboptimalKnown ∨ (b, a) ∈ Spec.suboptimalKnown then y.get a b else 0) := by
  have hz : Spec.IsSquare n (Arr2.zeros y.r y.c : Arr2 ℂ) := hy
  have hz0 : ∀ a b, (Arr2.zeros y.r y.c : Arr2 ℂ).get a b = 0 := fun a b => by
    unfold Arr2.zeros; rw [Arr2.ofFn_get']; split <;> rfl
  obtain ⟨m0, e0, s0, g0⟩ := setCross_ok hz (k := 7) (by omega) (1 + Complex.I)
  obtain ⟨m1, e1, s1, g1⟩ := set_ok s0 (i := 7) (j := 7) (by omega) (by omega) 0
  obtain ⟨m2, e2, s2, g2⟩ := setCross_ok hz (k := 7) (by omega) 0
  obtain ⟨m3, e3, s3, g3⟩ := setLine_ok hy s2 (i := 7) (j := 6) (by omega) (by omega)
  obtain ⟨m3', e3', s3', g3'⟩ := setLine_ok hy s3 (i := 7) (j := 8) (by omega) (by omega)
  obtain ⟨m4, e4, s4, g4⟩ := setCross_ok s1 (k := 21) (by omega) (1 + Complex.I)
  obtain ⟨m5, e5, s5, g5⟩ := setCross_ok s4 (k := 20) (by omega) (1 + Complex.I)
  obtain ⟨m6, e6, s6, g6⟩ := set_ok s5 (i := 21) (j := 21) (by omega) (by omega) 0
  obtain ⟨m7, e7, s7, g7⟩ := set_ok s6 (i := 20) (j := 20) (by omega) (by omega) 0
  obtain ⟨m8, e8, s8, g8⟩ := setCross_ok s3' (k := 21) (by omega) 0
  obtain ⟨m9, e9, s9, g9⟩ := setCross_ok s8 (k := 20) (by omega) 0
  obtain ⟨m10, e10, s10, g10⟩ := setLine_ok hy s9 (i := 19) (j := 20) (by omega) (by omega)
  obtain ⟨m11, e11, s11, g11⟩ := setLine_ok hy s10 (i := 21) (j := 20) (by omega) (by omega)
  obtain ⟨m12, e12, s12, g12⟩ := setLine_ok hy s11 (i := 21) (j := 22) (by omega) (by omega)
  simp only [Nat.cast_ofNat] at e1
  simp only [Nat.cast_ofNat] at e6
  simp only [Nat.cast_ofNat] at e7
  refine ⟨m7, m12, ?_, s7, s12, ?_, ?_⟩
  · simp only [suboptimalLines, e0, e1, e2, e3, e3', e4, e5, e6, e7, e8, e9, e10, e11, e12, bind, Except.bind, pure, Except.pure]
  · intro a b ha hb
    rw [g7 a b ha hb, g6 a b ha hb, g5 a b ha hb, g4 a b ha hb, g1 a b ha hb, g0 a b ha hb, hz0]
    simp only [Spec.suboptimalHubs, List.mem_cons, List.not_mem_nil, or_false, Prod.mk.injEq]
    split_ifs <;> first | with_reducible rfl | (exfalso; omega)
  · intro a b ha hb
    rw [g12 a b ha hb, g11 a b ha hb, g10 a b ha hb, g9 a b ha hb, g8 a b ha hb, g3' a b ha hb, g3 a b ha hb, g2 a b ha hb, hz0]
    by_cases hK : (a, b) ∈ Spec.suboptimalKnown ∨ (b, a) ∈ Spec.suboptimalKnown
    · rw [if_pos hK]
      simp only [Spec.suboptimalKnown, List.mem_cons, List.not_mem_nil, or_false, Prod.mk.injEq] at hK
      rcases hK with (h | h | h | h | h) | (h | h | h | h | h) <;> obtain ⟨rfl, rfl⟩ := h <;> simp
    · rw [if_neg hK]
      have hl : ∀ i j, (i, j) ∈ Spec.suboptimalKnown → ¬((a = i ∧ b = j) ∨ (a = j ∧ b = i)) := by
        rintro i j hij (⟨rfl, rfl⟩ | ⟨rfl, rfl⟩)
        · exact hK (.inl hij)
        · exact hK (.inr hij)
      rw [if_neg (hl 21 22 (by decide)), if_neg (hl 21 20 (by decide)), if_neg (hl 19 20 (by decide)),
        if_neg (hl 7 8 (by decide)), if_neg (hl 7 6 (by decide))]
      simp

/-! ### C46 -/

/-- C46, the branch for the suboptimal choice, which no type reaches: it would pin the lines at nodes 7, 20, 21 to their known values -/
theorem C46_branch_partial (lap : Bool) (n : Nat) (hn : 23 ≤ n) (p : Prior) (hp : Spec.Consistent p)
    (hpn : p.n = 2 * (Spec.offPairs n).length + if lap then 0 else 2 * n) (l : ℝ) (y : Arr2 ℂ) (hy : Spec.IsSquare n y) (s : String) :
    ∃ E w c p', eMatrix ℂ lap n = .ok E ∧ suboptimalLines y (Arr2.zeros y.r y.c) (Arr2.zeros y.r y.c) = .ok (w, c) ∧
      addFromMasks E p l (inStr "wrong" s) w c = .ok p' ∧
      Spec.Pins lap n p p' (l * Spec.weight s) (Spec.factor s) Spec.suboptimalHubs Spec.suboptimalKnown y := by
  obtain ⟨E, hE, hEv⟩ := e_vec lap n
  obtain ⟨w, c, hwc, hws, hcs, hw, hc⟩ := suboptimalLines_closed n hn y hy
  have hpn' : p.n = (realEntries lap n).length := by
    rw [realEntries_length, idEntries_length, hpn]
    cases lap <;> simp <;> ring
  obtain ⟨p', hp', hpin⟩ := fromMasks_pins lap n hEv hp hpn' l (inStr "wrong" s) _ _ y w c hws hcs hw hc
  exact ⟨E, w, c, p', hE, hwc, hp', hpin⟩

theorem known_lines_optimal (lap : Bool) (n : Nat) (hn : 29 ≤ n) (p : Prior) (hp : Spec.Consistent p)
    (hpn : p.n = 2 * (Spec.offPairs n).length + if lap then 0 else 2 * n) (l : ℝ) (y : Arr2 ℂ) (hy : Spec.IsSquare n y)
    (s : String) (hs : inStr "optimal" s) :
    ∃ p', addKnownLines n p l y lap s = .ok p' ∧
      Spec.Pins lap n p p' (l * Spec.weight s) (Spec.factor s) Spec.optimalHubs Spec.optimalKnown y := by
  obtain ⟨E, hE, hEv⟩ := e_vec lap n
  obtain ⟨w, c, hwc, hws, hcs, hw, hc⟩ := optimalLines_closed n hn y hy
  have hpn' : p.n = (realEntries lap n).length := by
    rw [realEntries_length, idEntries_length, hpn]
    cases lap <;> simp <;> ring
  obtain ⟨p', hp', hpin⟩ := fromMasks_pins lap n hEv hp hpn' l (inStr "wrong" s) _ _ y w c hws hcs hw hc
  refine ⟨p', ?_, hpin⟩
  simp only [addKnownLines, hE, if_pos hs, hwc, bind, Except.bind]
  exact hp'

/-- C46 for the types that contain "optimal" and not "suboptimal": the lines at nodes 0, 25, 26 are pinned to their known
values (times 1.1 and with a hundredth of the weight when the type contains "wrong"). -/
theorem C46_partial (lap : Bool) (n : Nat) (hn : 29 ≤ n) (p : Prior) (hp : Spec.Consistent p)
    (hpn : p.n = 2 * (Spec.offPairs n).length + if lap then 0 else 2 * n) (l : ℝ) (y : Arr2 ℂ) (hy : Spec.IsSquare n y)
    (s : String) (hs : inStr "optimal" s) (_hsub : ¬ inStr "suboptimal" s) :
    ∃ p', addKnownLines n p l y lap s = .ok p' ∧
      Spec.Pins lap n p p' (l * Spec.weight s) (Spec.factor s) Spec.optimalHubs Spec.optimalKnown y :=
  known_lines_optimal lap n hn p hp hpn l y hy s hs

/-- a type with neither word adds nothing -/
theorem C46_none (lap : Bool) (n : Nat) (p : Prior) (hp : Spec.Consistent p)
    (hpn : p.n = 2 * (Spec.offPairs n).length + if lap then 0 else 2 * n) (l : ℝ) (y : Arr2 ℂ) (hy : Spec.IsSquare n y)
    (s : String) (hs : ¬ inStr "optimal" s) :
    ∃ p', addKnownLines n p l y lap s = .ok p' ∧ Spec.Consistent p' ∧ p'.n = p.n ∧ Spec.terms p' = Spec.terms p := by
  obtain ⟨E, hE, hEv⟩ := e_vec lap n
  have hz : Spec.IsSquare n (Arr2.zeros y.r y.c : Arr2 ℂ) := hy
  have hz0 : ∀ a b, (Arr2.zeros y.r y.c : Arr2 ℂ).get a b = 0 := fun a b => by
    unfold Arr2.zeros; rw [Arr2.ofFn_get']; split <;> rfl
  have hpn' : p.n = (realEntries lap n).length := by
    rw [realEntries_length, idEntries_length, hpn]
    cases lap <;> simp <;> ring
  have hns : ¬ inStr "suboptimal" s := fun h => hs (List.IsInfix.trans (by decide) h)
  obtain ⟨p', hp', ha, hb, _, ts, hd, _, hf⟩ := fromMasks_pins lap n hEv hp hpn' l (inStr "wrong" s) [] [] y _ _ hz hz
    (fun a b _ _ => by rw [hz0]; simp) (fun a b _ _ => by rw [hz0]; simp)
  refine ⟨p', ?_, ha, hb, ?_⟩
  · simp only [addKnownLines, hE, if_neg hs, if_neg hns, bind, Except.bind, pure, Except.pure]
    exact hp'
  · have := hf (Arr2.zeros n n) ⟨rfl, rfl⟩
    have h0 : Spec.hubLines n [] = [] := by simp [Spec.hubLines]
    simp only [Spec.pinTerms, h0, List.map_nil, List.append_nil, List.map_eq_nil_iff] at this
    rw [hd, this, List.append_nil]

/-- the matrix of a single line -/
def oneLine (n a b : Nat) (v : ℂ) : Arr2 ℂ :=
  Arr2.ofFn n n (fun i j => if (i = a ∧ j = b) ∨ (i = b ∧ j = a) then v else 0)

theorem pins_unique {lap : Bool} {n : Nat} {p p' : Prior} {w f w' f' : ℝ} {H H' : List Nat} {K K' : List (Nat × Nat)}
    {y : Arr2 ℂ} (h : Spec.Pins lap n p p' w f H K y) (h' : Spec.Pins lap n p p' w' f' H' K' y) (Y : Arr2 ℂ)
    (hY : Spec.IsSquare n Y) :
    Spec.pinTerms lap n w f H K y Y false ++ Spec.pinTerms lap n w f H K y Y true =
      Spec.pinTerms lap n w' f' H' K' y Y false ++ Spec.pinTerms lap n w' f' H' K' y Y true := by
  obtain ⟨_, _, _, ts, ht, _, hf⟩ := h
  obtain ⟨_, _, _, ts', ht', _, hf'⟩ := h'
  have : ts = ts' := List.append_cancel_left (ht.symm.trans ht')
  subst this
  rw [← hf Y hY, ← hf' Y hY]

/-- C46 is violated by every type that contains "suboptimal": the lines at nodes 0, 25, 26 are pinned instead of those at
nodes 7, 20, 21. -/
theorem C46_violated (lap : Bool) (n : Nat) (hn : 29 ≤ n) (p : Prior) (hp : Spec.Consistent p)
    (hpn : p.n = 2 * (Spec.offPairs n).length + if lap then 0 else 2 * n) (l : ℝ) (hl : l ≠ 0) (y : Arr2 ℂ)
    (hy : Spec.IsSquare n y) (s : String) (hs : inStr "suboptimal" s) :
    ∃ p', addKnownLines n p l y lap s = .ok p' ∧
      Spec.Pins lap n p p' (l * Spec.weight s) (Spec.factor s) Spec.optimalHubs Spec.optimalKnown y ∧
      ¬ Spec.Pins lap n p p' (l * Spec.weight s) (Spec.factor s) Spec.suboptimalHubs Spec.suboptimalKnown y := by
  obtain ⟨p', hp', hpin⟩ := known_lines_optimal lap n hn p hp hpn l y hy s (List.IsInfix.trans (by decide) hs)
  refine ⟨p', hp', hpin, fun h => ?_⟩
  have e0 := pins_unique hpin h (Arr2.zeros n n) ⟨rfl, rfl⟩
  have e1 := pins_unique hpin h (oneLine n 8 7 1) ⟨rfl, rfl⟩
  have hz0 : ∀ a b, (Arr2.zeros n n : Arr2 ℂ).get a b = 0 := fun a b => by
    unfold Arr2.zeros; rw [Arr2.ofFn_get']; split <;> rfl
  have hsame : ∀ im, Spec.pinTerms lap n (l * Spec.weight s) (Spec.factor s) Spec.optimalHubs Spec.optimalKnown y
      (oneLine n 8 7 1) im = Spec.pinTerms lap n (l * Spec.weight s) (Spec.factor s) Spec.optimalHubs Spec.optimalKnown y
      (Arr2.zeros n n) im := by
    intro im
    unfold Spec.pinTerms
    apply List.map_congr_left
    intro e he
    have he := List.mem_filter.1 he
    have hm := (mem_offPairs n e).1 he.1
    have hh := of_decide_eq_true he.2
    simp only [Spec.optimalHubs, List.mem_cons, List.not_mem_nil, or_false] at hh
    have : (oneLine n 8 7 1).get e.1 e.2 = 0 := by
      unfold oneLine
      rw [Arr2.ofFn_get _ hm.2 (by omega), if_neg (by omega)]
    rw [this, hz0]
  rw [hsame, hsame] at e1
  have e := e0.symm.trans e1
  have e := (List.append_inj e (by simp [Spec.pinTerms])).1
  unfold Spec.pinTerms at e
  have hmem : (8, 7) ∈ Spec.hubLines n Spec.suboptimalHubs := by
    unfold Spec.hubLines
    rw [List.mem_filter, mem_offPairs]
    exact ⟨⟨by decide, by simp; omega⟩, by decide⟩
  have e := List.map_inj_left.1 e (8, 7) hmem
  have h1 : (oneLine n 8 7 1).get 8 7 = 1 := by
    unfold oneLine
    rw [Arr2.ofFn_get _ (by omega) (by omega)]
    simp
  rw [hz0] at e
  simp only [h1] at e
  have hw : l * Spec.weight s ≠ 0 := by
    refine mul_ne_zero hl ?_
    unfold Spec.weight
    split <;> norm_num
  have hsg : Spec.sgn lap ≠ 0 := by cases lap <;> simp [Spec.sgn]
  have e := mul_left_cancel₀ hsg (mul_left_cancel₀ hw e)
  simp [Spec.part] at e
  linarith

/-- the types used for non-vacuity -/
example : inStr "suboptimal" "suboptimal wrong" ∧ inStr "optimal" "suboptimal wrong" ∧ inStr "optimal" "optimal" ∧
    ¬ inStr "suboptimal" "optimal" ∧ ¬ inStr "optimal" "none" := by decide

/-- an empty prior of the size used by `bayesian_eiv` meets the hypotheses -/
example (n : Nat) : let p := Prior.new true 1e-8 (2 * (Spec.offPairs n).length)
    Spec.Consistent p ∧ p.n = 2 * (Spec.offPairs n).length + if true then 0 else 2 * n :=
  ⟨new_consistent _ _ _, rfl⟩

/-! ### C92 -/

theorem offPairs_length (n : Nat) : (Spec.offPairs n).length = n * (n - 1) / 2 := by
  unfold Spec.offPairs
  rw [length_flatMap_range n (fun j => n - 1 - j) (fun j t => (j + 1 + t, j))]
  exact velStart_self n

theorem mem_hubIdx {lap : Bool} {n : Nat} {H : List Nat} {k : Nat} (h : k ∈ hubIdx lap n H) :
    k < (realEntries lap n).length ∧ atHub H ((realEntries lap n).getD k ((0, 0), false)) = true := by
  unfold hubIdx wherePos at h
  have h := List.mem_filter.1 h
  have hk : k < (realEntries lap n).length := by simpa using h.1
  refine ⟨hk, ?_⟩
  have h2 := of_decide_eq_true h.2
  rw [getD_map _ _ ((0, 0), false) hk] at h2
  by_contra hc
  rw [if_neg hc] at h2
  exact lt_irrefl _ h2

theorem hubIdx_lt {n : Nat} (hn : 39 ≤ n) : ∀ k ∈ hubIdx false n Spec.optimalHubs, k < 2 * (Spec.offPairs n).length := by
  intro k hk
  obtain ⟨hk, hh⟩ := mem_hubIdx hk
  have hl : (idEntries false n).length = ∑ j ∈ range n, (n - j) := by
    simp only [idEntries, Bool.false_eq_true, if_false]
    exact length_flatMap_range n (fun j => n - j) (fun j t => (j + t, j))
  have hl2 : (idEntries false n).length = n * (n + 1) / 2 := hl.trans (triStart_self n)
  have h1 := two_mul_half n
  have h2 := two_mul_half_pred n
  rw [realEntries_length] at hk
  rw [offPairs_length, h2]
  obtain ⟨m, rfl⟩ : ∃ m, n = m + 39 := ⟨n - 39, by omega⟩
  simp only [show m + 39 - 1 = m + 38 by omega] at h2 ⊢
  by_cases hlt : k < (idEntries false (m + 39)).length
  · nlinarith
  · obtain ⟨k', rfl⟩ : ∃ k', k = (idEntries false (m + 39)).length + k' := ⟨k - (idEntries false (m + 39)).length, by omega⟩
    have hk' : k' < (idEntries false (m + 39)).length := by omega
    obtain ⟨j, t, hj, ht, hjt⟩ := exists_block (m + 39) (fun j => m + 39 - j) k' (by rw [← hl]; exact hk')
    have hent : (realEntries false (m + 39)).getD ((idEntries false (m + 39)).length + k') ((0, 0), false) =
        ((j + t, j), true) := by
      unfold realEntries
      rw [List.getD_eq_getElem?_getD, List.getElem?_append_right (by simp), List.getElem?_map]
      simp only [List.length_map, Nat.add_sub_cancel_left]
      simp only [idEntries, Bool.false_eq_true, if_false]
      rw [hjt, getElem?_flatMap_range (m + 39) (fun j => m + 39 - j) (fun j t => (j + t, j)) j t hj ht]
      rfl
    rw [hent] at hh
    have hh := of_decide_eq_true hh
    simp only [Spec.optimalHubs, List.mem_cons, List.not_mem_nil, or_false] at hh
    have hj26 : j ≤ 26 := by omega
    have hst : k' < triStart (m + 39) (j + 1) := by
      rw [triStart_succ, hjt]
      show triStart (m + 39) j + t < _
      omega
    have hst' := triStart_mono (m + 39) (show j + 1 ≤ 27 by omega)
    have h27 := two_triStart (m + 39) 27 (by omega)
    push_cast at h27
    have h27' : 2 * triStart (m + 39) 27 + 702 = 54 * (m + 39) := by zify; linarith
    nlinarith

/-- C92 is violated in Laplacian mode: `bayesian_eiv` calls `add_known_lines` with `laplacian=False` whatever its own mode
(run.py:387). For at least 39 nodes the call succeeds, but the terms refer to other lines: they do not even depend on the
admittance of the known line between nodes 1 and 0. -/
theorem C92_violated (n : Nat) (hn : 39 ≤ n) (p : Prior) (hp : Spec.Consistent p)
    (hpn : p.n = 2 * (Spec.offPairs n).length) (l : ℝ) (hl : l ≠ 0) (y : Arr2 ℂ) (hy : Spec.IsSquare n y) :
    ∃ p', addKnownLines n p l y false "optimal" = .ok p' ∧
      ¬ Spec.Pins true n p p' l 1 Spec.optimalHubs Spec.optimalKnown y := by
  obtain ⟨E, hE, hEv⟩ := e_vec false n
  obtain ⟨w, c, hwc, hws, hcs, hw, hc⟩ := optimalLines_closed n (by omega) y hy
  obtain ⟨p', hp', _, hpn', _, ts, hts, _, hf⟩ := fromMasks_adds false n hEv hp l (inStr "wrong" "optimal")
    Spec.optimalHubs (by rw [hpn]; exact hubIdx_lt hn) w c hws hcs hw
  refine ⟨p', ?_, ?_⟩
  · simp only [addKnownLines, hE, if_pos (show inStr "optimal" "optimal" by decide), hwc, bind, Except.bind]
    exact hp'
  · rintro ⟨_, _, _, ts', hts', _, hf'⟩
    have : ts' = ts := List.append_cancel_left (hts'.symm.trans hts)
    subst this
    have hz0 : ∀ a b, (Arr2.zeros n n : Arr2 ℂ).get a b = 0 := fun a b => by
      unfold Arr2.zeros; rw [Arr2.ofFn_get']; split <;> rfl
    have hsame : ts'.map (fun t => t.resid p.n (Spec.params true n (oneLine n 1 0 1))) =
        ts'.map (fun t => t.resid p.n (Spec.params true n (Arr2.zeros n n))) := by
      rw [hf, hf]
      apply List.map_congr_left
      intro k hk
      have hx : (Spec.params true n (oneLine n 1 0 1)).getD k 0 = (Spec.params true n (Arr2.zeros n n)).getD k 0 := by
        obtain ⟨hk1, hk2⟩ := mem_hubIdx hk
        have hk0 : k ≠ 0 := by
          rintro rfl
          have : (realEntries false n).getD 0 ((0, 0), false) = ((0, 0), false) := by
            obtain ⟨m, rfl⟩ : ∃ m, n = m + 1 := ⟨n - 1, by omega⟩
            unfold realEntries idEntries
            simp [List.range_succ_eq_map]
          rw [this] at hk2
          simp [atHub] at hk2
        rw [params_entries, params_entries]
        by_cases hk3 : k < (realEntries true n).length
        · rw [getD_map _ _ ((0, 0), false) hk3, getD_map _ _ ((0, 0), false) hk3, hz0]
          congr 1
          have hnd : (realEntries true n).Nodup := by
            unfold realEntries
            refine List.Nodup.append ((nodup_offPairs n).map ?_) ((nodup_offPairs n).map ?_) ?_
            · intro a b h; exact (Prod.mk.inj h).1
            · intro a b h; exact (Prod.mk.inj h).1
            · intro a ha hb
              simp only [List.mem_map] at ha hb
              obtain ⟨_, _, rfl⟩ := ha
              obtain ⟨_, _, h⟩ := hb
              simp at h
          have hg : (realEntries true n).getD k ((0, 0), false) = (realEntries true n)[k] := by
            simp [List.getD_eq_getElem?_getD, hk3]
          have h0 : (realEntries true n)[0]'(by omega) = ((1, 0), false) := by
            obtain ⟨m, rfl⟩ : ∃ m, n = m + 2 := ⟨n - 2, by omega⟩
            simp only [realEntries, idEntries, if_true, Spec.offPairs]
            rw [List.getElem_append_left (by simp [List.range_succ_eq_map])]
            simp [List.range_succ_eq_map]
          have hne : (realEntries true n)[k] ≠ ((1, 0), false) := by
            rw [← h0]
            intro h
            exact hk0 ((List.Nodup.getElem_inj_iff hnd).1 h)
          rw [hg]
          have hb : (realEntries true n)[k].1.2 < (realEntries true n)[k].1.1 ∧ (realEntries true n)[k].1.1 < n := by
            have := List.getElem_mem hk3
            simp only [realEntries, List.mem_append, List.mem_map] at this
            have h' : (realEntries true n)[k].1 ∈ Spec.offPairs n := by
              rcases this with ⟨a, h, h2⟩ | ⟨a, h, h2⟩
              · simp only [realEntries]; rw [← h2]; exact h
              · simp only [realEntries]; rw [← h2]; exact h
            exact (mem_offPairs n _).1 h'
          unfold oneLine
          rw [Arr2.ofFn_get _ hb.2 (by omega)]
          rcases hr : (realEntries true n)[k] with ⟨⟨a, b⟩, im⟩
          rw [hr] at hne hb
          simp only at hb ⊢
          by_cases hab : (a = 1 ∧ b = 0) ∨ (a = 0 ∧ b = 1)
          · rw [if_pos hab]
            cases im with
            | true => simp [Spec.part]
            | false =>
              exfalso
              apply hne
              rcases hab with ⟨rfl, rfl⟩ | ⟨rfl, rfl⟩
              · rfl
              · omega
          · rw [if_neg hab]
        · simp [List.getD_eq_getElem?_getD, hk3]
      rw [hx]
    rw [hf' _ ⟨rfl, rfl⟩, hf' _ ⟨rfl, rfl⟩] at hsame
    have e := (List.append_inj hsame (by simp [Spec.pinTerms])).1
    unfold Spec.pinTerms at e
    have hmem : (1, 0) ∈ Spec.hubLines n Spec.optimalHubs := by
      unfold Spec.hubLines
      rw [List.mem_filter, mem_offPairs]
      exact ⟨⟨by decide, by simp; omega⟩, by decide⟩
    have e := List.map_inj_left.1 e (1, 0) hmem
    have h1 : (oneLine n 1 0 1).get 1 0 = 1 := by
      unfold oneLine
      rw [Arr2.ofFn_get _ (by omega) (by omega)]
      simp
    rw [hz0] at e
    simp only [h1] at e
    have hsg : Spec.sgn true ≠ 0 := by simp [Spec.sgn]
    have e := mul_left_cancel₀ hsg (mul_left_cancel₀ hl e)
    simp [Spec.part] at e

end
end Verif
