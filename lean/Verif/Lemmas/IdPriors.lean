import Verif.Spec.IdPriors
import Verif.Model.IdentificationPriors
import Verif.Lemmas.PriorRow
import Verif.Props.Prior

namespace Verif
open Finset Prior
noncomputable section

/-! ### calls with natural indices -/
namespace Prior

theorem mapM_ok_of {β γ : Type} (f : β → Except PyErr γ) (g : β → γ) : ∀ (l : List β),
    (∀ a ∈ l, f a = .ok (g a)) → l.mapM f = .ok (l.map g) := by
  intro l
  induction l with
  | nil => intro _; rfl
  | cons a l ih =>
    intro h
    rw [List.mapM_cons, h a (by simp), ih (fun b hb => h b (by simp [hb]))]
    rfl

theorem buildRows_of {m n : Nat} {body : List ℝ → Nat → Except PyErr (List ℝ)} (r : Nat → List ℝ)
    (h : ∀ i, i < m → body (List.replicate n 0) i = .ok (r i)) :
    buildRows m n body = .ok ((List.range m).map r) :=
  mapM_ok_of _ _ _ (fun i hi => h i (List.mem_range.1 hi))

theorem zip3_map (m : Nat) (r : Nat → List ℝ) (nm os : List ℝ) (h1 : nm.length = m) (h2 : os.length = m) :
    (((List.range m).map r).zip (nm.zip os)).map (fun t => (⟨t.1, t.2.1, t.2.2⟩ : Spec.Term)) =
      (List.range m).map (fun i => ⟨r i, nm.getD i 0, os.getD i 0⟩) := by
  apply List.ext_getElem
  · simp [h1, h2]
  · intro i hi hi'
    simp only [List.length_map, List.length_range] at hi'
    simp [List.getD_eq_getElem?_getD, h1, h2, hi']

/-- a call whose rows are known succeeds and adds the corresponding terms -/
theorem call_adds {p : Prior} (hp : Spec.Consistent p) {c : Call} {nm : List ℝ} (r : Nat → List ℝ)
    (hw : Spec.OneValuePerIndex c (.scalar LAPLACE)) (hm : newMu (delegate c) = .ok nm)
    (hr : ∀ i, i < numRows c → rowBody (delegate c) (List.replicate p.n 0) i = .ok (r i)) :
    ∃ p', raisePrior (p.call c (.scalar LAPLACE)) = .ok p' ∧
      Spec.Adds p p' (fun x => (List.range (numRows c)).map (fun i => Spec.dot p.n (r i) x - nm.getD i 0)) := by
  have hrows : newRows p.n (delegate c) = .ok ((List.range (numRows c)).map r) := by
    unfold newRows
    rw [numRows_delegate]
    exact buildRows_of r hr
  have hcall := call_of (p := p) (o := .scalar LAPLACE) hm hrows hp.width (fun h => by rw [hp.storage]; exact h)
  refine ⟨_, by rw [hcall]; rfl, ?_⟩
  obtain ⟨h1, h2, h3, _, _, h6⟩ := call_step hp hw hcall
  refine ⟨h1, h2, h3, _, h6, ?_⟩
  have hml := newMu_length hw hm
  have hol := orders_length hw
  have e : newTerms p.n c (.scalar LAPLACE) = (List.range (numRows c)).map
      (fun i => ⟨r i, nm.getD i 0, (stdWeights (.scalar LAPLACE) (ordersLen c)).getD i 0⟩) := by
    simp only [newTerms, hm, hrows]
    exact zip3_map _ _ _ _ hml hol
  rw [e]
  constructor
  · intro t ht
    obtain ⟨i, hi, rfl⟩ := List.mem_map.1 ht
    have hi := List.mem_range.1 hi
    have hol' : ordersLen c = numRows c := by simpa [stdWeights] using hol
    show (stdWeights _ _).getD i 0 = 1
    simp [stdWeights, hol', hi, List.getD_eq_getElem?_getD, LAPLACE]
  · intro x
    rw [List.map_map]
    rfl

theorem setRow_nat {n k : Nat} (row : List ℝ) (hl : row.length = n) (hk : k < n) (v : ℝ) :
    setRow row (k : Int) v = .ok (row.set k v) := by
  unfold setRow
  rw [hl, pyIndex_nat hk]
  rfl

theorem dot_unit {n k : Nat} (hk : k < n) (c : ℝ) (x : List ℝ) :
    Spec.dot n ((List.replicate n 0).set k c) x = c * x.getD k 0 := by
  obtain ⟨k', hk', h⟩ := dot_single (setRow_nat (n := n) (List.replicate n 0) (by simp) hk c)
  rw [pyIndex_nat hk] at hk'
  cases hk'
  exact h x

theorem at'_asInts {is : List Nat} {i : Nat} (h : i < is.length) : at' (asInts is) i = .ok ((is[i] : Nat) : Int) := by
  rw [at'_of (by simpa [asInts] using h)]
  simp [asInts]

theorem map_range_getElem {β γ : Type} (l : List β) (d : β) (f : β → γ) :
    (List.range l.length).map (fun i => f (l.getD i d)) = l.map f := by
  apply List.ext_getElem
  · simp
  · intro i hi hi'
    simp only [List.length_map] at hi'
    simp [List.getD_eq_getElem?_getD, hi']

theorem call_adaptive {p : Prior} (hp : Spec.Consistent p) (is : List Nat) (v : Nat → ℝ) (his : ∀ k ∈ is, k < p.n) :
    ∃ p', raisePrior (p.call (.adaptiveSparsity (asInts is) (is.map v)) (.scalar LAPLACE)) = .ok p' ∧
      Spec.Adds p p' (fun x => is.map (fun k => x.getD k 0 / v k)) := by
  have hlt : ∀ i (hi : i < is.length), is[i] < p.n := fun i hi => his _ (List.getElem_mem hi)
  obtain ⟨p', h, ha, hb, hc, ts, hd, he, hf⟩ := call_adds hp (c := .adaptiveSparsity (asInts is) (is.map v))
    (nm := List.replicate is.length 0)
    (fun i => (List.replicate p.n 0).set (is.getD i 0) (1 / v (is.getD i 0)))
    ⟨by simp [asInts], trivial⟩ (by simp [delegate, newMu, asInts]) (by
      intro i hi
      have hi : i < is.length := by simpa [numRows, asInts] using hi
      simp only [delegate, rowBody]
      rw [at'_of (by simpa using hi), at'_asInts hi]
      simp only [bind, Except.bind, List.getElem_map]
      rw [setRow_nat _ (by simp) (hlt i hi)]
      simp [List.getD_eq_getElem?_getD, hi])
  refine ⟨p', h, ha, hb, hc, ts, hd, he, fun x => ?_⟩
  rw [hf x, show numRows (.adaptiveSparsity (asInts is) (is.map v)) = is.length by simp [numRows, asInts]]
  refine Eq.trans ?_ (map_range_getElem is 0 _)
  apply List.map_congr_left
  intro i hi
  have hi := List.mem_range.1 hi
  have e : is.getD i 0 = is[i] := by simp [List.getD_eq_getElem?_getD, hi]
  rw [dot_unit (by rw [e]; exact hlt i hi), List.getD_eq_getElem?_getD (l := List.replicate _ _),
    List.getElem?_replicate, if_pos hi, Option.getD_some, sub_zero]
  ring

theorem weights_len {w : Weights} {m : Nat} : (stdWeights w m).length = m →
    match w with | .array ws => ws.length = m | _ => True := by
  intro h
  cases w with
  | none => trivial
  | scalar _ => trivial
  | array ws => simpa [stdWeights] using h

theorem call_exact {p : Prior} (hp : Spec.Consistent p) (is : List Nat) (v : Nat → ℝ) (his : ∀ k ∈ is, k < p.n)
    (w : Weights) (c : ℝ) (hw : ∀ m, stdWeights w m = List.replicate m c) (adaptive : Bool) :
    ∃ p', raisePrior (p.call (if adaptive then .exactAdaptive (asInts is) (is.map v) w
        else .exact (asInts is) (is.map v) w) (.scalar LAPLACE)) = .ok p' ∧
      Spec.Adds p p' (fun x => is.map (fun k => c * (x.getD k 0 - v k))) := by
  have hlt : ∀ i (hi : i < is.length), is[i] < p.n := fun i hi => his _ (List.getElem_mem hi)
  have hww := weights_len (w := w) (m := is.length) (by rw [hw]; simp)
  have hd : delegate (if adaptive then .exactAdaptive (asInts is) (is.map v) w else .exact (asInts is) (is.map v) w) =
      .exact (asInts is) (is.map v) w := by cases adaptive <;> rfl
  have hnr : numRows (if adaptive then .exactAdaptive (asInts is) (is.map v) w else .exact (asInts is) (is.map v) w) =
      is.length := by cases adaptive <;> simp [numRows, asInts]
  obtain ⟨p', h, ha, hb, hc, ts, hd, he, hf⟩ := call_adds hp
    (c := if adaptive then .exactAdaptive (asInts is) (is.map v) w else .exact (asInts is) (is.map v) w)
    (nm := is.map (fun k => c * v k))
    (fun i => (List.replicate p.n 0).set (is.getD i 0) c)
    (by cases adaptive <;> exact ⟨by simp [asInts], by simp only [asInts, List.length_map]; exact hww, trivial⟩)
    (by
      rw [hd]
      simp only [newMu, hw, broadcast1, List.length_replicate, List.length_map, if_true]
      congr 1
      apply List.ext_getElem <;> simp)
    (by
      intro i hi
      rw [hnr] at hi
      rw [hd]
      simp only [rowBody, hw]
      rw [at'_of (by simpa using hi), at'_asInts hi]
      simp only [bind, Except.bind, List.getElem_replicate]
      rw [setRow_nat _ (by simp) (hlt i hi)]
      simp [List.getD_eq_getElem?_getD, hi])
  refine ⟨p', h, ha, hb, hc, ts, hd, he, fun x => ?_⟩
  rw [hf x, hnr]
  refine Eq.trans ?_ (map_range_getElem is 0 _)
  apply List.map_congr_left
  intro i hi
  have hi := List.mem_range.1 hi
  have e : is.getD i 0 = is[i] := by simp [List.getD_eq_getElem?_getD, hi]
  rw [dot_unit (by rw [e]; exact hlt i hi)]
  have : (is.map (fun k => c * v k)).getD i 0 = c * v (is.getD i 0) := by simp [List.getD_eq_getElem?_getD, hi]
  rw [this]
  ring

theorem fold_nat {n : Nat} (c : ℝ) (ks : List Nat) (h : ∀ k ∈ ks, k < n) : ∀ row : List ℝ, row.length = n →
    ∃ r, (asInts ks).foldlM (fun row idx => setRow row idx c) row = .ok r := by
  induction ks with
  | nil => intro row _; exact ⟨row, rfl⟩
  | cons k ks ih =>
    intro row hl
    obtain ⟨r, hr⟩ := ih (fun k hk => h k (by simp [hk])) (row.set k c) (by simpa using hl)
    refine ⟨r, ?_⟩
    show List.foldlM _ row ((k : Int) :: asInts ks) = _
    rw [List.foldlM_cons, setRow_nat row hl (h k (by simp)) c]
    exact hr

theorem forall2_nat {n : Nat} : ∀ (is ks : List Nat), (∀ k ∈ is, k < n) →
    List.Forall₂ (fun i k => pyIndex n i = .ok k) (asInts is) ks → ks = is := by
  intro is
  induction is with
  | nil => intro ks _ h; cases h; rfl
  | cons k is ih =>
    intro ks hlt h
    cases h with
    | cons h1 h2 =>
      rw [pyIndex_nat (hlt k (by simp))] at h1
      cases h1
      rw [ih _ (fun k hk => hlt k (by simp [hk])) h2]

theorem call_contrast {p : Prior} (hp : Spec.Consistent p) (rows : List (List Nat)) (vs ws : List ℝ)
    (hv : vs.length = rows.length) (hwl : ws.length = rows.length) (hrow : ∀ row ∈ rows, ∀ k ∈ row, k < p.n)
    (hnd : ∀ row ∈ rows, row.Nodup) :
    ∃ p', raisePrior (p.call (.contrast (rows.map asInts) vs (.array ws)) (.scalar LAPLACE)) = .ok p' ∧
      Spec.Adds p p' (fun x => (List.range rows.length).map (fun i =>
        ws.getD i 0 / vs.getD i 0 * ((rows.getD i []).map (fun k => x.getD k 0)).sum - ws.getD i 0)) := by
  have hex : ∀ i, ∃ r, i < rows.length → (asInts (rows.getD i [])).foldlM
      (fun row idx => setRow row idx (ws.getD i 0 / vs.getD i 0)) (List.replicate p.n 0) = .ok r := by
    intro i
    by_cases hi : i < rows.length
    · obtain ⟨r, hr⟩ := fold_nat (n := p.n) (ws.getD i 0 / vs.getD i 0) (rows.getD i [])
        (hrow _ (by simp [List.getD_eq_getElem?_getD, hi])) (List.replicate p.n 0) (by simp)
      exact ⟨r, fun _ => hr⟩
    · exact ⟨[], fun h => absurd h hi⟩
  choose r hr using hex
  have hnr : numRows (.contrast (rows.map asInts) vs (.array ws)) = rows.length := by simp [numRows]
  obtain ⟨p', h, ha, hb, hc, ts, hd, he, hf⟩ := call_adds hp (c := .contrast (rows.map asInts) vs (.array ws))
    (nm := ws) r ⟨by simpa using hv, by simpa using hwl, trivial⟩ (by simp [delegate, newMu, stdWeights]) (by
      intro i hi
      rw [hnr] at hi
      simp only [delegate, rowBody, stdWeights]
      rw [at'_of (by omega), at'_of (by omega), at'_of (by simpa using hi)]
      simp only [bind, Except.bind, List.getElem_map]
      have := hr i hi
      simpa [List.getD_eq_getElem?_getD, hi, show i < ws.length by omega, show i < vs.length by omega] using this)
  refine ⟨p', h, ha, hb, hc, ts, hd, he, fun x => ?_⟩
  rw [hf x, hnr]
  apply List.map_congr_left
  intro i hi
  have hi := List.mem_range.1 hi
  obtain ⟨ks, hks, hdot⟩ := dot_fold _ _ (hr i hi)
  have hmem : rows.getD i [] ∈ rows := by simp [List.getD_eq_getElem?_getD, hi]
  have := forall2_nat _ _ (hrow _ hmem) hks
  subst this
  rw [hdot x, List.sum_toFinset _ (hnd _ hmem)]

end Prior
end
end Verif
