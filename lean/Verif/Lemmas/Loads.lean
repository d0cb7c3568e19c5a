/-
Lemmas on the model of the load profiles.
-/
import Verif.Model.Loads
import Verif.Spec.Loads
import Verif.Lemmas.ListIdx
import Verif.Lemmas.Prior
import Mathlib.Data.List.GetD

namespace Verif
open Finset

theorem forRange_of_ok {σ : Type} (P : Nat → σ → Prop) {n : Nat} {s0 s : σ} {f : σ → Nat → Except PyErr σ}
    (h : forRange n s0 f = .ok s) (h0 : P 0 s0) (hstep : ∀ k, k < n → ∀ s s', P k s → f s k = .ok s' → P (k + 1) s') : P n s := by
  unfold forRange at h
  induction n generalizing s with
  | zero => cases h; exact h0
  | succ n ih =>
    rw [List.range_succ, List.foldlM_append] at h
    obtain ⟨t, ht, h⟩ := Prior.bind_ok h
    have := ih ht (fun k hk => hstep k (Nat.lt_succ_of_lt hk))
    obtain ⟨u, hu, h⟩ := Prior.bind_ok h
    cases h
    exact hstep n (Nat.lt_succ_self n) t _ this hu

/-- the rows that `selectRows` reads from a file with `n` rows -/
def sliceRows (n : Nat) (skip : List Int) (length : Int) : List Nat :=
  skip.flatMap (fun s => List.range' (pySlice n s) (pySlice n (length + s) - pySlice n s))

theorem selectRows_acc (n0 : Nat) (length : Int) (a : Arr2 ℝ) : ∀ (skip : List Int) (acc : Arr2 ℝ) (done : List Nat),
    acc = Arr2.ofFn done.length a.c (fun i j => a.get (done.getD i 0) j) →
    forIn' skip acc (fun acc s =>
      let footer : Int := n0 - (length + s)
      acc.vstack (a.rows s (n0 - footer))) =
    .ok (Arr2.ofFn (done ++ sliceRows a.r skip length).length a.c (fun i j => a.get ((done ++ sliceRows a.r skip length).getD i 0) j)) := by
  intro skip
  induction skip with
  | nil =>
    intro acc done h
    rw [forIn'_nil, h]
    simp [sliceRows]
  | cons s rest ih =>
    intro acc done h
    rw [forIn'_cons]
    have hs : (n0 : Int) - (n0 - (length + s)) = length + s := by ring
    dsimp only
    rw [hs]
    have hv : acc.vstack (a.rows s (length + s)) = .ok (Arr2.ofFn
        (done ++ List.range' (pySlice a.r s) (pySlice a.r (length + s) - pySlice a.r s)).length a.c (fun i j =>
          a.get ((done ++ List.range' (pySlice a.r s) (pySlice a.r (length + s) - pySlice a.r s)).getD i 0) j)) := by
      subst h
      refine (if_pos rfl).trans (congrArg Except.ok ?_)
      refine Arr2.ext' ?_ rfl ?_
      · simp [Arr2.rows]
      · intro i j hi hj
        have hj' : j < a.c := hj
        have hi' : i < done.length + (pySlice a.r (length + s) - pySlice a.r s) := hi
        refine (Arr2.ofFn_get (r := done.length + (pySlice a.r (length + s) - pySlice a.r s)) (c := a.c) _ hi' hj').trans ?_
        rw [Arr2.ofFn_get (r := (done ++ List.range' (pySlice a.r s) (pySlice a.r (length + s) - pySlice a.r s)).length) (c := a.c) _
          (by simpa using hi') hj']
        show (if i < done.length then _ else _) = _
        by_cases hd : i < done.length
        · rw [if_pos hd, Arr2.ofFn_get _ hd hj', List.getD_append _ _ _ _ hd]
        · have hd' : done.length ≤ i := Nat.le_of_not_lt hd
          have hk : i - done.length < pySlice a.r (length + s) - pySlice a.r s := by omega
          rw [if_neg hd, List.getD_append_right _ _ _ _ hd']
          show (Arr2.ofFn _ _ _).get (i - done.length) j = _
          rw [Arr2.ofFn_get _ hk hj', List.getD_eq_getElem _ _ (by simpa using hk)]
          simp
    rw [hv]
    show forIn' rest _ _ = _
    rw [ih _ _ rfl]
    simp [sliceRows, List.append_assoc]

theorem selectRows_eq (n0 : Nat) (skip : List Int) (length : Int) (a : Arr2 ℝ) :
    selectRows n0 skip length a = .ok (Arr2.ofFn (sliceRows a.r skip length).length a.c
      (fun i j => a.get ((sliceRows a.r skip length).getD i 0) j)) := by
  have := selectRows_acc n0 length a skip (Arr2.zeros 0 a.c) [] (Arr2.ext' rfl rfl (fun i _ hi _ => absurd hi (Nat.not_lt_zero i)))
  exact this

theorem sliceRows_inside {n len : Nat} {skip : List Nat} (h : ∀ s ∈ skip, s + len ≤ n) :
    sliceRows n (skip.map (fun s : Nat => (s : Int))) len = Spec.weekRows skip len := by
  unfold sliceRows Spec.weekRows
  rw [List.flatMap_map]
  refine List.flatMap_congr (fun s hs => ?_)
  have := h s hs
  rw [show ((len : Int) + (s : Int)) = ((len + s : Nat) : Int) by push_cast; ring, pySlice_nat, pySlice_nat, min_eq_right (by omega),
    min_eq_right (by omega)]
  congr 1
  omega

theorem weekRows_length (skip : List Nat) (len : Nat) : (Spec.weekRows skip len).length = skip.length * len := by
  unfold Spec.weekRows
  induction skip with
  | nil => simp
  | cons s rest ih => simp [ih]; ring

/-- row `t` of week `k` -/
theorem weekRows_get {skip : List Nat} {len k t : Nat} (hk : k < skip.length) (ht : t < len) :
    (Spec.weekRows skip len).getD (k * len + t) 0 = skip.getD k 0 + t := by
  unfold Spec.weekRows
  induction skip generalizing k with
  | nil => exact absurd hk (Nat.not_lt_zero _)
  | cons s rest ih =>
    rw [List.flatMap_cons]
    cases k with
    | zero =>
      rw [List.getD_append _ _ _ _ (by simpa using ht), List.getD_eq_getElem _ _ (by simpa using ht)]
      simp
    | succ k =>
      rw [List.getD_append_right _ _ _ _ (by simp; nlinarith)]
      have : (k + 1) * len + t - (List.range' s len).length = k * len + t := by
        simp only [List.length_range']
        have : (k + 1) * len = k * len + len := by ring
        omega
      rw [this, ih (by simpa using hk)]
      rfl

theorem setCol_ok {a b : Arr2 ℝ} {i : Nat} {col : List ℝ} (h : a.setCol i col = .ok b) :
    i < a.c ∧ col.length = a.r ∧ b.r = a.r ∧ b.c = a.c ∧ ∀ t < a.r, ∀ j < a.c, b.get t j = if j = i then col.getD t 0 else a.get t j := by
  unfold Arr2.setCol at h
  split at h
  · rename_i hi
    split at h
    · rename_i hl
      cases h
      exact ⟨hi, hl, rfl, rfl, fun t ht j hj => Arr2.ofFn_get _ ht hj⟩
    · cases h
  · cases h

/-- column `j` of the loads of quantity `q` -/
def ColumnOf (rng : RandInt) (k : Nat) (q : Quantity) (j : Nat) (m : Arr2 ℝ) : Prop :=
  j < q.ref.length ∧ ∃ col, households rng k q.prof q.perc (q.ref.getD j 0) = .ok col ∧ ∀ t < q.prof.r, m.get t j = col.getD t 0

/-- invariant of the assignments: `done s j` says which columns are final -/
def AssignInv (rng : RandInt) (k0 : Nat) (qs : List Quantity) (n : Nat) (done : Nat → Nat → Prop) (loads : List (Arr2 ℝ)) : Prop :=
  loads.length = qs.length ∧ ∀ s q, qs[s]? = some q → ∃ m, loads[s]? = some m ∧ m.r = q.prof.r ∧ m.c = n ∧
    ∀ j < n, done s j → ColumnOf rng (k0 + j * qs.length + s) q j m

theorem assignOne_ok {rng : RandInt} {k : Nat} {q : Quantity} {i : Nat} {l l' : Arr2 ℝ} (h : assignOne rng k q i l = .ok l') :
    ∃ col, i < q.ref.length ∧ households rng k q.prof q.perc (q.ref.getD i 0) = .ok col ∧ l.setCol i col = .ok l' := by
  unfold assignOne at h
  obtain ⟨r, hr, h1⟩ := Prior.bind_ok h
  obtain ⟨col, hc, h2⟩ := Prior.bind_ok h1
  unfold refAt at hr
  split at hr
  · rename_i hi
    cases hr
    exact ⟨col, hi, hc, h2⟩
  · cases hr

theorem assignNode_inv {rng : RandInt} {k0 : Nat} {qs : List Quantity} {n i : Nat} {loads loads' : List (Arr2 ℝ)}
    (hi : i < n) (h : assignNode rng k0 qs loads i = .ok loads') (hinv : AssignInv rng k0 qs n (fun _ j => j < i) loads) :
    AssignInv rng k0 qs n (fun _ j => j < i + 1) loads' := by
  have key : AssignInv rng k0 qs n (fun s j => j < i ∨ j = i ∧ s < qs.length) loads' := by
    refine forRange_of_ok (fun s l => AssignInv rng k0 qs n (fun s' j => j < i ∨ j = i ∧ s' < s) l) h ?_ ?_
    · refine ⟨hinv.1, fun s q hq => ?_⟩
      obtain ⟨m, h1, h2, h3, h4⟩ := hinv.2 s q hq
      exact ⟨m, h1, h2, h3, fun j hj hd => h4 j hj (hd.resolve_right (fun h => absurd h.2 (Nat.not_lt_zero _)))⟩
    · intro s hs l l' hP hf
      have hq := List.getElem?_eq_getElem hs
      obtain ⟨m, h1, h2, h3, h4⟩ := hP.2 s _ hq
      rw [hq, h1] at hf
      obtain ⟨m', hm', hf⟩ := Prior.bind_ok hf
      cases hf
      obtain ⟨col, hr, hcol, hset⟩ := assignOne_ok hm'
      obtain ⟨hi', hl, hr', hc', hget⟩ := setCol_ok hset
      refine ⟨by rw [List.length_set]; exact hP.1, fun s' q' hq' => ?_⟩
      by_cases hss : s' = s
      · subst hss
        rw [hq] at hq'
        cases hq'
        refine ⟨m', List.getElem?_set_self (by rw [hP.1]; exact hs), by rw [hr', h2], by rw [hc', h3], fun j hj hd => ?_⟩
        by_cases hji : j = i
        · subst hji
          refine ⟨hr, col, hcol, fun t ht => ?_⟩
          rw [hget t (by rw [h2]; exact ht) j (by rw [h3]; exact hj), if_pos rfl]
        · obtain ⟨g1, c, g2, g3⟩ := h4 j hj (Or.inl (by omega))
          refine ⟨g1, c, g2, fun t ht => ?_⟩
          rw [hget t (by rw [h2]; exact ht) j (by rw [h3]; exact hj), if_neg hji]
          exact g3 t ht
      · obtain ⟨m'', g1, g2, g3, g4⟩ := hP.2 s' q' hq'
        refine ⟨m'', by rw [List.getElem?_set_ne (Ne.symm hss)]; exact g1, g2, g3, fun j hj hd => g4 j hj ?_⟩
        rcases hd with hd | hd
        · exact Or.inl hd
        · exact Or.inr ⟨hd.1, by omega⟩
  refine ⟨key.1, fun s q hq => ?_⟩
  obtain ⟨m, h1, h2, h3, h4⟩ := key.2 s q hq
  refine ⟨m, h1, h2, h3, fun j hj hd => h4 j hj ?_⟩
  have : s < qs.length := (List.getElem?_eq_some_iff.1 hq).1
  by_cases hji : j = i
  · exact Or.inr ⟨hji, this⟩
  · exact Or.inl (by omega)

/-- what `assign` returns, when it does -/
theorem assign_ok {rng : RandInt} {k0 : Nat} {qs : List Quantity} {n : Nat} {loads : List (Arr2 ℝ)} (h : assign rng k0 qs n = .ok loads) :
    AssignInv rng k0 qs n (fun _ _ => True) loads := by
  have := forRange_of_ok (fun i l => AssignInv rng k0 qs n (fun _ j => j < i) l) h ?_ (fun i hi l l' hP hf => assignNode_inv hi hf hP)
  · refine ⟨this.1, fun s q hq => ?_⟩
    obtain ⟨m, h1, h2, h3, h4⟩ := this.2 s q hq
    exact ⟨m, h1, h2, h3, fun j hj _ => h4 j hj hj⟩
  · refine ⟨by simp, fun s q hq => ⟨Arr2.zeros q.prof.r n, ?_, rfl, rfl, fun j _ hd => absurd hd (Nat.not_lt_zero _)⟩⟩
    rw [List.getElem?_map, hq]
    rfl

theorem households_ok {rng : RandInt} {k : Nat} {prof : Arr2 ℝ} {perc ref : ℝ} {col : List ℝ}
    (h : households rng k prof perc ref = .ok col) : perc ≠ 0 ∧ 0 ≤ pyRound (ref / perc) ∧
      col = (List.range prof.r).map (fun t => ((rng.draw k prof.c (pyRound (ref / perc)).toNat).map (fun h => prof.get t h)).sum) := by
  unfold households at h
  split at h
  · cases h
  · rename_i hp
    dsimp only at h
    split at h
    · cases h
    · rename_i hn
      cases h
      exact ⟨hp, by omega, rfl⟩

theorem assignNode_exists {rng : RandInt} {k0 : Nat} {qs : List Quantity} {n i : Nat} {loads : List (Arr2 ℝ)} (hi : i < n)
    (hinv : AssignInv rng k0 qs n (fun _ _ => False) loads)
    (hq : ∀ q ∈ qs, q.perc ≠ 0 ∧ i < q.ref.length ∧ 0 ≤ pyRound (q.ref.getD i 0 / q.perc)) :
    ∃ loads', assignNode rng k0 qs loads i = .ok loads' ∧ AssignInv rng k0 qs n (fun _ _ => False) loads' := by
  refine forRange_inv (fun _ l => AssignInv rng k0 qs n (fun _ _ => False) l) _ _ _ hinv ?_
  intro s hs l hP
  have hqs := List.getElem?_eq_getElem hs
  obtain ⟨m, h1, h2, h3, _⟩ := hP.2 s _ hqs
  obtain ⟨g1, g2, g3⟩ := hq _ (List.getElem_mem hs)
  have hcol : households rng (k0 + i * qs.length + s) qs[s].prof qs[s].perc (qs[s].ref.getD i 0) =
      .ok ((List.range qs[s].prof.r).map (fun t => ((rng.draw (k0 + i * qs.length + s) qs[s].prof.c
        (pyRound (qs[s].ref.getD i 0 / qs[s].perc)).toNat).map (fun h => qs[s].prof.get t h)).sum)) := by
    unfold households
    rw [if_neg g1]
    dsimp only
    rw [if_neg (by omega)]
  generalize hcc : ((List.range qs[s].prof.r).map (fun t => ((rng.draw (k0 + i * qs.length + s) qs[s].prof.c
        (pyRound (qs[s].ref.getD i 0 / qs[s].perc)).toNat).map (fun h => qs[s].prof.get t h)).sum)) = col at hcol
  have hset : m.setCol i col = .ok (Arr2.ofFn m.r m.c (fun t j => if j = i then col.getD t 0 else m.get t j)) := by
    unfold Arr2.setCol
    rw [if_pos (by rw [h3]; exact hi), if_pos]
    rw [h2, ← hcc]
    exact (List.length_map _).trans List.length_range
  have hone : assignOne rng (k0 + i * qs.length + s) qs[s] i m =
      .ok (Arr2.ofFn m.r m.c (fun t j => if j = i then col.getD t 0 else m.get t j)) := by
    unfold assignOne refAt
    rw [if_pos g2]
    show (households _ _ _ _ _).bind _ = _
    rw [hcol]
    exact hset
  refine ⟨l.set s (Arr2.ofFn m.r m.c (fun t j => if j = i then col.getD t 0 else m.get t j)), ?_, ?_⟩
  · rw [hqs, h1]
    show (assignOne _ _ _ _ _).bind _ = _
    rw [hone]
    rfl
  · refine ⟨by rw [List.length_set]; exact hP.1, fun s' q' hq' => ?_⟩
    by_cases hss : s' = s
    · subst hss
      rw [hqs] at hq'
      cases hq'
      exact ⟨_, List.getElem?_set_self (by rw [hP.1]; exact hs), h2, h3, fun _ _ hd => hd.elim⟩
    · obtain ⟨m'', g1, g2, g3, _⟩ := hP.2 s' q' hq'
      exact ⟨m'', by rw [List.getElem?_set_ne (Ne.symm hss)]; exact g1, g2, g3, fun _ _ hd => hd.elim⟩

/-- when `assign` returns -/
theorem assign_exists {rng : RandInt} {k0 : Nat} {qs : List Quantity} {n : Nat}
    (hq : ∀ q ∈ qs, q.perc ≠ 0 ∧ n ≤ q.ref.length ∧ ∀ i < n, 0 ≤ pyRound (q.ref.getD i 0 / q.perc)) :
    ∃ loads, assign rng k0 qs n = .ok loads := by
  obtain ⟨l, hl, _⟩ := forRange_inv (fun _ l => AssignInv rng k0 qs n (fun _ _ => False) l) n
    (qs.map (fun q => Arr2.zeros q.prof.r n)) (assignNode rng k0 qs)
    ⟨by simp, fun s q h => ⟨Arr2.zeros q.prof.r n, by rw [List.getElem?_map, h]; rfl, rfl, rfl, fun _ _ hd => hd.elim⟩⟩
    (fun i hi l hP => assignNode_exists hi hP (fun q h =>
      ⟨(hq q h).1, lt_of_lt_of_le hi (hq q h).2.1, (hq q h).2.2 i hi⟩))
  exact ⟨l, hl⟩

end Verif
