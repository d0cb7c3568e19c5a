/-
C121: profiles read from CSV files and from numpy files.
-/
import Verif.Model.LoadsCsv
import Verif.Props.Loads2

namespace Verif
noncomputable section

/-- some rows of an array -/
def rowsOf (a : Arr2 ℝ) (rows : List Nat) : Arr2 ℝ := Arr2.ofFn rows.length a.c (fun i j => a.get (rows.getD i 0) j)

theorem readCsv_ok {a : Arr2 ℝ} {s f : Nat} (h : s < a.r) : readCsv a s f = .ok (rowsOf a (List.range' s (a.r - s - f))) := by
  unfold readCsv
  rw [if_neg (by omega), if_neg (by simpa using h)]
  congr 1
  refine Arr2.ext' (by simp [rowsOf]) rfl fun i j hi (hj : j < a.c) => ?_
  have hi' : i < a.r - s - f := hi
  refine (Arr2.ofFn_get (r := a.r - s - f) (c := a.c) _ hi' hj).trans ?_
  unfold rowsOf
  rw [Arr2.ofFn_get _ (by simpa using hi') hj, List.getD_eq_getElem _ _ (by simpa using hi')]
  simp

theorem rowsOf_append (a : Arr2 ℝ) (r1 r2 : List Nat) : (rowsOf a r1).vstack (rowsOf a r2) = .ok (rowsOf a (r1 ++ r2)) := by
  refine (if_pos rfl).trans (congrArg Except.ok ?_)
  refine Arr2.ext' (by simp [rowsOf]) rfl fun i j hi hj => ?_
  have hi' : i < r1.length + r2.length := hi
  have hj' : j < a.c := hj
  refine (Arr2.ofFn_get (r := r1.length + r2.length) (c := a.c) _ hi' hj').trans ?_
  show (if i < r1.length then _ else _) = (rowsOf a (r1 ++ r2)).get i j
  unfold rowsOf
  rw [Arr2.ofFn_get (r := (r1 ++ r2).length) _ (by simpa using hi') hj']
  by_cases hd : i < r1.length
  · rw [if_pos hd, Arr2.ofFn_get _ hd hj', List.getD_append _ _ _ _ hd]
  · have hd' : r1.length ≤ i := Nat.le_of_not_lt hd
    rw [if_neg hd, List.getD_append_right _ _ _ _ hd']
    show (Arr2.ofFn _ _ _).get (i - r1.length) j = _
    rw [Arr2.ofFn_get _ (by omega) hj']

/-- rows read from a file -/
def csvRows (n : Nat) (parts : List (Nat × Nat)) : List Nat := parts.flatMap (fun p => List.range' p.1 (n - p.1 - p.2))

theorem csvAdd_rows (a : Arr2 ℝ) (done : List (Nat × Nat)) (r : List Nat) :
    csvAdd (if done = [] then none else some (rowsOf a (csvRows a.r done))) (rowsOf a r) = .ok (rowsOf a (csvRows a.r done ++ r)) := by
  by_cases h : done = []
  · subst h; rfl
  · rw [if_neg h]; exact rowsOf_append ..

theorem csvProfiles_ok {pl ql : Arr2 ℝ} (parts : List (Nat × Nat)) (hp : ∀ p ∈ parts, p.1 < pl.r) (hq : ∀ p ∈ parts, p.1 < ql.r) :
    csvProfiles pl ql (parts.map (fun p => (p.1 : Int))) (parts.map (fun p => (p.2 : Int))) =
      .ok (if parts = [] then none else some (rowsOf pl (csvRows pl.r parts)),
        if parts = [] then none else some (rowsOf ql (csvRows ql.r parts))) := by
  unfold csvProfiles forRange
  rw [List.length_map (as := parts) (f := fun p => (p.1 : Int))]
  have key : ∀ k, k ≤ parts.length → List.foldlM (m := Except PyErr) (fun (acc : Option (Arr2 ℝ) × Option (Arr2 ℝ)) i =>
      if i < (parts.map (fun p => (p.2 : Int))).length then do
        let p ← readCsv pl ((parts.map (fun p => (p.1 : Int))).getD i 0) ((parts.map (fun p => (p.2 : Int))).getD i 0)
        let p ← csvAdd acc.1 p
        let q ← readCsv ql ((parts.map (fun p => (p.1 : Int))).getD i 0) ((parts.map (fun p => (p.2 : Int))).getD i 0)
        let q ← csvAdd acc.2 q
        pure (some p, some q)
      else .error .indexError) (none, none) (List.range k) =
      .ok (if parts.take k = [] then none else some (rowsOf pl (csvRows pl.r (parts.take k))),
        if parts.take k = [] then none else some (rowsOf ql (csvRows ql.r (parts.take k)))) := by
    intro k
    induction k with
    | zero => intro _; rfl
    | succ k ih =>
      intro hk
      have hk' : k < parts.length := hk
      rw [List.range_succ, List.foldlM_append, ih (by omega)]
      have ht : parts.take (k + 1) = parts.take k ++ [parts[k]] := by rw [List.take_succ_eq_append_getElem hk']
      have e1 : (parts.map (fun p => (p.1 : Int))).getD k 0 = (parts[k].1 : Int) := by
        rw [List.getD_eq_getElem _ _ (by simpa using hk')]; simp
      have e2 : (parts.map (fun p => (p.2 : Int))).getD k 0 = (parts[k].2 : Int) := by
        rw [List.getD_eq_getElem _ _ (by simpa using hk')]; simp
      have c : ∀ n, csvRows n (parts.take (k + 1)) = csvRows n (parts.take k) ++ List.range' parts[k].1 (n - parts[k].1 - parts[k].2) := by
        intro n; rw [ht, csvRows, List.flatMap_append]; simp [csvRows, -List.take_append_getElem]
      have hne : parts.take (k + 1) ≠ [] := by rw [ht]; exact List.append_ne_nil_of_right_ne_nil _ (List.cons_ne_nil _ _)
      simp only [bind, Except.bind, List.foldlM_cons, List.foldlM_nil, pure, Except.pure]
      rw [if_pos (by simpa using hk'), e1, e2, readCsv_ok (hp _ (List.getElem_mem _)), readCsv_ok (hq _ (List.getElem_mem _)),
        if_neg hne, if_neg hne, c, c]
      simp only [csvAdd_rows]
  have := key parts.length le_rfl
  rw [List.take_length] at this
  exact this

theorem rowsOf_map (a : Arr2 ℝ) (rows : List Nat) : (rowsOf a rows).map (· / 1000000) = selected a rows := by
  refine Arr2.ext' rfl rfl fun i j hi hj => ?_
  have hi' : i < rows.length := hi
  have hj' : j < a.c := hj
  refine (Arr2.ofFn_get (r := rows.length) (c := a.c) _ hi' hj').trans ?_
  rw [rowsOf, Arr2.ofFn_get _ hi' hj', selected, Arr2.ofFn_get _ hi' hj']

theorem loadProfileCsv_eq (rng : RandInt) (k0 : Nat) {pl ql : Arr2 ℝ} {parts : List (Nat × Nat)} (hne : parts ≠ [])
    (hp : ∀ p ∈ parts, p.1 < pl.r) (hq : ∀ p ∈ parts, p.1 < ql.r) (refP refQ : List (List ℝ)) :
    loadProfileCsv rng k0 pl ql (parts.map (fun p => (p.1 : Int))) (parts.map (fun p => (p.2 : Int))) refP refQ = (do
      let pp ← meanPercentile (selected pl (csvRows pl.r parts))
      let qp ← meanPercentile (selected ql (csvRows ql.r parts))
      assign rng k0 (refP.map (fun r => ⟨selected pl (csvRows pl.r parts), pp, r⟩) ++
        refQ.map (fun r => ⟨selected ql (csvRows ql.r parts), qp, r⟩)) (refP.headD []).length) := by
  unfold loadProfileCsv
  rw [csvProfiles_ok parts hp hq, if_neg hne, if_neg hne]
  simp only [bind, Except.bind, rowsOf_map]

/-- C121: with the footers that `load_profile_from_numpy` computes, `load_profile_from_csv` returns the same loads (and raises the same
exceptions) for files of the same length that contain all selected weeks. -/
theorem C121_partial (rng : RandInt) (k0 : Nat) (pl ql : Arr2 ℝ) (skip : List Nat) (len : Nat) (refP refQ : List (List ℝ))
    (hne : skip ≠ []) (hlen : 0 < len) (hin : ∀ s ∈ skip, s + len ≤ pl.r) (hr : ql.r = pl.r) :
    loadProfileCsv rng k0 pl ql (skip.map (fun s : Nat => (s : Int))) (skip.map (fun s : Nat => (pl.r : Int) - (len + s))) refP refQ =
      loadProfile rng k0 pl ql (skip.map (fun s : Nat => (s : Int))) len refP refQ := by
  have h1 : skip.map (fun s : Nat => (s : Int)) = (skip.map (fun s => (s, pl.r - (len + s)))).map (fun p => (p.1 : Int)) := by simp
  have h2 : skip.map (fun s : Nat => (pl.r : Int) - (len + s)) = (skip.map (fun s => (s, pl.r - (len + s)))).map (fun p => (p.2 : Int)) := by
    rw [List.map_map]
    refine List.map_congr_left fun s hs => ?_
    have := hin s hs
    simp only [Function.comp]
    omega
  have hlt : ∀ p ∈ skip.map (fun s => (s, pl.r - (len + s))), p.1 < pl.r := by
    intro p hp
    obtain ⟨s, hs, rfl⟩ := List.mem_map.1 hp
    have := hin s hs
    show s < pl.r
    omega
  have hrows : csvRows pl.r (skip.map (fun s => (s, pl.r - (len + s)))) = Spec.weekRows skip len := by
    unfold csvRows Spec.weekRows
    rw [List.flatMap_map]
    refine List.flatMap_congr fun s hs => ?_
    have := hin s hs
    congr 1
    show pl.r - s - (pl.r - (len + s)) = len
    omega
  rw [h2]
  conv_lhs => rw [h1]
  rw [loadProfileCsv_eq rng k0 (by simpa using hne) hlt (by rw [hr]; exact hlt), loadProfile_eq, sliceRows_inside hin,
    sliceRows_inside (by rw [hr]; exact hin), hr, hrows]

theorem foldlM_always {σ : Type} {f : σ → Nat → Except PyErr σ} {e : PyErr} : ∀ (l : List Nat) (s : σ),
    (∀ i ∈ l, ∀ s e', f s i = .error e' → e' = e) → (∃ i ∈ l, ∀ s, f s i = .error e) → l.foldlM f s = .error e
  | [], _, _, h => by obtain ⟨i, hi, _⟩ := h; cases hi
  | a :: l, s, h1, h2 => by
    rw [List.foldlM_cons]
    cases h : f s a with
    | error e' => rw [h1 a (by simp) s e' h]; rfl
    | ok s' =>
      show l.foldlM f s' = _
      refine foldlM_always l s' (fun i hi => h1 i (by simp [hi])) ?_
      obtain ⟨i, hi, hf⟩ := h2
      rcases List.mem_cons.1 hi with rfl | hi
      · rw [hf s] at h; cases h
      · exact ⟨i, hi, hf⟩

theorem readCsv_error {a : Arr2 ℝ} {h f : Int} {e : PyErr} (he : readCsv a h f = .error e) : e = .valueError := by
  unfold readCsv at he
  split at he
  · cases he; rfl
  split at he
  · cases he; rfl
  · cases he

theorem csvAdd_error {acc : Option (Arr2 ℝ)} {a : Arr2 ℝ} {e : PyErr} (he : csvAdd acc a = .error e) : e = .valueError := by
  unfold csvAdd Arr2.vstack at he
  split at he
  · cases he
  split at he
  · cases he
  · cases he; rfl

/-- C121, weeks beyond the end of the files: the CSV reader raises `ValueError`, where the other one silently returns fewer samples
(`C75_violated`). -/
theorem C121_overrun (rng : RandInt) (k0 : Nat) (pl ql : Arr2 ℝ) (skip : List Nat) (len : Nat) (refP refQ : List (List ℝ))
    (h : ∃ s ∈ skip, pl.r < s + len) :
    loadProfileCsv rng k0 pl ql (skip.map (fun s : Nat => (s : Int))) (skip.map (fun s : Nat => (pl.r : Int) - (len + s))) refP refQ =
      .error .valueError := by
  have key : csvProfiles pl ql (skip.map (fun s : Nat => (s : Int))) (skip.map (fun s : Nat => (pl.r : Int) - (len + s))) =
      .error .valueError := by
    unfold csvProfiles forRange
    refine foldlM_always _ _ (fun i hi s e he => ?_) ?_
    · have hi' : i < skip.length := by simpa using hi
      rw [if_pos (by simpa using hi')] at he
      cases h1 : readCsv pl ((skip.map (fun s : Nat => (s : Int))).getD i 0) ((skip.map (fun s : Nat => (pl.r : Int) - (len + s))).getD i 0) with
      | error e' => rw [h1] at he; cases he; exact readCsv_error h1
      | ok p =>
        rw [h1] at he
        cases h2 : csvAdd s.1 p with
        | error e' => simp only [bind, Except.bind, h2] at he; cases he; exact csvAdd_error h2
        | ok p2 =>
          simp only [bind, Except.bind, h2] at he
          cases h3 : readCsv ql ((skip.map (fun s : Nat => (s : Int))).getD i 0)
            ((skip.map (fun s : Nat => (pl.r : Int) - (len + s))).getD i 0) with
          | error e' => rw [h3] at he; cases he; exact readCsv_error h3
          | ok q =>
            rw [h3] at he
            cases h4 : csvAdd s.2 q with
            | error e' => simp only [h4] at he; cases he; exact csvAdd_error h4
            | ok q2 => simp only [h4] at he; cases he
    · obtain ⟨s, hs, hlt⟩ := h
      obtain ⟨i, hi, rfl⟩ := List.mem_iff_getElem.1 hs
      refine ⟨i, by simpa using hi, fun acc => ?_⟩
      rw [if_pos (by simpa using hi)]
      have : readCsv pl ((skip.map (fun s : Nat => (s : Int))).getD i 0) ((skip.map (fun s : Nat => (pl.r : Int) - (len + s))).getD i 0) =
          .error .valueError := by
        unfold readCsv
        refine if_pos ?_
        rw [List.getD_eq_getElem _ _ (by simpa using hi), List.getElem_map]
        omega
      rw [this]
      rfl
  unfold loadProfileCsv
  rw [key]
  rfl

/-- the common part of both readers on given rows of the files -/
theorem assignRows (rng : RandInt) (k0 : Nat) {pl ql : Arr2 ℝ} {rp rq : List Nat} {refP refQ : List (List ℝ)}
    (hp : rp ≠ []) (hq : rq ≠ []) (hpc : pl.c ≠ 0) (hqc : ql.c ≠ 0)
    (hp0 : ∀ t ∈ rp, ∀ j < pl.c, pl.get t j ≠ 0) (hq0 : ∀ t ∈ rq, ∀ j < ql.c, ql.get t j ≠ 0)
    (hr : ∀ r ∈ refP ++ refQ, (refP.headD []).length ≤ r.length ∧ ∀ x ∈ r, 0 ≤ x) :
    ∃ loads, (do
      let pp ← meanPercentile (selected pl rp)
      let qp ← meanPercentile (selected ql rq)
      assign rng k0 (refP.map (fun r => ⟨selected pl rp, pp, r⟩) ++ refQ.map (fun r => ⟨selected ql rq, qp, r⟩)) (refP.headD []).length :
        Except PyErr (List (Arr2 ℝ))) = .ok loads ∧ loads.length = refP.length + refQ.length ∧
      ∀ k m, loads[k]? = some m → m.r = if k < refP.length then rp.length else rq.length := by
  obtain ⟨up, h1, h1'⟩ := meanPercentile_pos hp hpc hp0
  obtain ⟨uq, h2, h2'⟩ := meanPercentile_pos hq hqc hq0
  simp only [h1, h2, bind, Except.bind]
  obtain ⟨loads, h⟩ := assign_exists (rng := rng) (k0 := k0) (n := (refP.headD []).length)
    (qs := refP.map (fun r => ⟨selected pl rp, up, r⟩) ++ refQ.map (fun r => ⟨selected ql rq, uq, r⟩)) (fun q hq => by
    have hnn : ∀ r ∈ refP ++ refQ, ∀ u : ℝ, 0 < u → (refP.headD []).length ≤ r.length ∧
        ∀ i < (refP.headD []).length, 0 ≤ pyRound (r.getD i 0 / u) := by
      intro r hr' u hu
      refine ⟨(hr r hr').1, fun i hi => pyRound_nonneg (div_nonneg ?_ hu.le)⟩
      have : i < r.length := lt_of_lt_of_le hi (hr r hr').1
      rw [List.getD_eq_getElem _ _ this]
      exact (hr r hr').2 _ (List.getElem_mem this)
    rcases List.mem_append.1 hq with hq | hq
    · obtain ⟨r, hr', rfl⟩ := List.mem_map.1 hq
      exact ⟨h1'.ne', hnn r (List.mem_append_left _ hr') up h1'⟩
    · obtain ⟨r, hr', rfl⟩ := List.mem_map.1 hq
      exact ⟨h2'.ne', hnn r (List.mem_append_right _ hr') uq h2'⟩)
  obtain ⟨hl, ha⟩ := assign_ok h
  rw [List.length_append, List.length_map, List.length_map] at hl
  refine ⟨loads, h, hl, fun k m hk => ?_⟩
  have hkl : k < refP.length + refQ.length := hl ▸ (List.getElem?_eq_some_iff.1 hk).1
  rcases Nat.lt_or_ge k refP.length with h3 | h3
  · obtain ⟨m', g1, g2, _⟩ := ha k ⟨selected pl rp, up, refP[k]⟩ (by
      rw [List.getElem?_append_left (by simpa using h3), List.getElem?_map, List.getElem?_eq_getElem h3]; rfl)
    rw [hk] at g1
    cases g1
    rw [g2, if_pos h3]
    rfl
  · obtain ⟨m', g1, g2, _⟩ := ha k ⟨selected ql rq, uq, refQ[k - refP.length]⟩ (by
      rw [List.getElem?_append_right (by simpa using h3), List.getElem?_map, List.length_map,
        List.getElem?_eq_getElem (by omega : k - refP.length < refQ.length)]; rfl)
    rw [hk] at g1
    cases g1
    rw [g2, if_neg (by omega)]
    rfl

/-- C121, violated: when the reactive file is longer than the active one by `d` lines, the CSV reader takes `d` reactive samples too many,
the other reader takes as many as asked for. -/
theorem C121_violated (rng : RandInt) (k0 : Nat) (pl ql : Arr2 ℝ) (s len d : Nat) (refP refQ : List (List ℝ))
    (hlen : 0 < len) (hin : s + len ≤ pl.r) (hr : ql.r = pl.r + d) (hpc : pl.c ≠ 0) (hqc : ql.c ≠ 0)
    (hp0 : ∀ t < pl.r, ∀ j < pl.c, pl.get t j ≠ 0) (hq0 : ∀ t < ql.r, ∀ j < ql.c, ql.get t j ≠ 0)
    (href : ∀ r ∈ refP ++ refQ, (refP.headD []).length ≤ r.length ∧ ∀ x ∈ r, 0 ≤ x) :
    (∃ loads, loadProfileCsv rng k0 pl ql [(s : Int)] [(pl.r : Int) - (len + s)] refP refQ = .ok loads ∧
      loads.length = refP.length + refQ.length ∧ (∀ k m, loads[k]? = some m → m.r = if k < refP.length then len else len + d)) ∧
    (∃ loads, loadProfile rng k0 pl ql [(s : Int)] len refP refQ = .ok loads ∧
      loads.length = refP.length + refQ.length ∧ ∀ m ∈ loads, m.r = len) := by
  have hcsv : ∀ n, csvRows n [(s, pl.r - (len + s))] = List.range' s (n - s - (pl.r - (len + s))) := by intro n; simp [csvRows]
  have hpy : ∀ n, s + len ≤ n → sliceRows n [(s : Int)] len = List.range' s len := by
    intro n hn
    exact (sliceRows_inside (n := n) (len := len) (skip := [s]) (by simpa using hn)).trans (by simp [Spec.weekRows])
  have mem : ∀ {n l t : Nat}, s + l ≤ n → t ∈ List.range' s l → t < n := by
    intro n l t h ht
    rw [List.mem_range'_1] at ht
    omega
  have hnn : ∀ {l : Nat}, 0 < l → List.range' s l ≠ [] := by
    intro l hl h
    have := congrArg List.length h
    simp at this
    omega
  have e1 : pl.r - s - (pl.r - (len + s)) = len := by omega
  have e2 : ql.r - s - (pl.r - (len + s)) = len + d := by omega
  constructor
  · obtain ⟨loads, h1, h2, h3⟩ := assignRows rng k0 (rp := List.range' s len) (rq := List.range' s (len + d)) (hnn hlen) (hnn (by omega)) hpc hqc
      (fun t ht => hp0 t (mem hin ht)) (fun t ht => hq0 t (mem (by omega) ht)) href
    refine ⟨loads, ?_, h2, fun k m hk => ?_⟩
    · rw [← h1]
      have := loadProfileCsv_eq rng k0 (pl := pl) (ql := ql) (parts := [(s, pl.r - (len + s))]) (by simp)
        (by simp; omega) (by simp; omega) refP refQ
      rw [hcsv, hcsv, e1, e2] at this
      rw [← this]
      congr 1
      simp
      omega
    · rw [h3 k m hk]; simp
  · obtain ⟨loads, h1, h2, h3⟩ := assignRows rng k0 (rp := List.range' s len) (rq := List.range' s len) (hnn hlen) (hnn hlen) hpc hqc
      (fun t ht => hp0 t (mem hin ht)) (fun t ht => hq0 t (mem (by omega) ht)) href
    refine ⟨loads, ?_, h2, fun m hm => ?_⟩
    · rw [← h1, loadProfile_eq, hpy _ hin, hpy _ (by omega)]
    · obtain ⟨k, hk⟩ := List.mem_iff_getElem?.1 hm
      rw [h3 k m hk]; simp

/-- without any week the CSV reader raises `TypeError`, the other one `IndexError` -/
theorem C121_empty (rng : RandInt) (k0 : Nat) (pl ql : Arr2 ℝ) (len : Int) (refP refQ : List (List ℝ)) :
    loadProfileCsv rng k0 pl ql [] [] refP refQ = .error .typeError ∧
    loadProfile rng k0 pl ql [] len refP refQ = .error .indexError := by
  refine ⟨rfl, ?_⟩
  rw [loadProfile_eq]
  rfl

/-- two weeks of two samples from files with three lines, and a reactive file with a line more -/
example (rng : RandInt) : (∃ loads, loadProfileCsv rng 0 (Arr2.ofFn 3 1 (fun _ _ => 1)) (Arr2.ofFn 3 1 (fun _ _ => 1))
      ([0, 1].map (fun s : Nat => (s : Int))) ([0, 1].map (fun s : Nat => ((3 : Nat) : Int) - ((2 : Nat) + s))) [[1]] [[2]] = .ok loads) ∧
    (∃ loads, loadProfileCsv rng 0 (Arr2.ofFn 3 1 (fun _ _ => 1)) (Arr2.ofFn 4 1 (fun _ _ => 1)) [((0 : Nat) : Int)]
      [((3 : Nat) : Int) - ((2 : Nat) + (0 : Nat))] [[1]] [[2]] = .ok loads ∧ loads.length = 2 ∧
      ∀ k m, loads[k]? = some m → m.r = if k < 1 then 2 else 3) := by
  have h : ∀ n : Nat, ∀ t < n, ∀ j < 1, (Arr2.ofFn n 1 (fun _ _ => (1 : ℝ))).get t j ≠ 0 := by
    intro n t ht j hj
    rw [Arr2.ofFn_get _ ht hj]
    norm_num
  have href : ∀ r ∈ [[(1 : ℝ)]] ++ [[2]], (([[(1 : ℝ)]] : List (List ℝ)).headD []).length ≤ r.length ∧ ∀ x ∈ r, 0 ≤ x := by
    intro r hr
    simp only [List.cons_append, List.nil_append, List.mem_cons, List.not_mem_nil, or_false] at hr
    rcases hr with rfl | rfl <;> simp
  constructor
  · have e := C121_partial rng 0 (Arr2.ofFn 3 1 (fun _ _ => (1 : ℝ))) (Arr2.ofFn 3 1 (fun _ _ => (1 : ℝ))) [0, 1] 2 [[1]] [[2]] (by simp) (by simp)
      (by intro s hs; show s + 2 ≤ 3; simp at hs; omega) rfl
    have hs : sliceRows 3 ([0, 1].map (fun s : Nat => (s : Int))) (2 : Nat) = [0, 1, 1, 2] :=
      (sliceRows_inside (n := 3) (len := 2) (skip := [0, 1]) (by simp)).trans (by simp [Spec.weekRows, List.range'])
    have hm : ∀ t ∈ sliceRows 3 ([0, 1].map (fun s : Nat => (s : Int))) (2 : Nat), ∀ j < 1, (Arr2.ofFn 3 1 (fun _ _ => (1 : ℝ))).get t j ≠ 0 := by
      intro t ht j hj
      rw [hs] at ht
      refine h 3 t ?_ j hj
      simp only [List.mem_cons, List.not_mem_nil, or_false] at ht
      omega
    obtain ⟨loads, hl⟩ := loadProfile_exists rng 0 (Arr2.ofFn 3 1 (fun _ _ => (1 : ℝ))) (Arr2.ofFn 3 1 (fun _ _ => (1 : ℝ)))
      ([0, 1].map (fun s : Nat => (s : Int))) (2 : Nat) [[1]] [[2]] (by show sliceRows 3 _ _ ≠ []; rw [hs]; simp)
      (by show sliceRows 3 _ _ ≠ []; rw [hs]; simp) (by show 1 ≠ 0; norm_num) (by show 1 ≠ 0; norm_num) hm hm href
    exact ⟨loads, e.trans hl⟩
  · exact (C121_violated rng 0 (Arr2.ofFn 3 1 (fun _ _ => (1 : ℝ))) (Arr2.ofFn 4 1 (fun _ _ => (1 : ℝ))) 0 2 1 [[1]] [[2]] (by norm_num)
      (by show 0 + 2 ≤ 3; norm_num) rfl (by show 1 ≠ 0; norm_num) (by show 1 ≠ 0; norm_num) (h 3) (h 4) href).1

end
end Verif
