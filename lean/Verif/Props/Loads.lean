/-
Properties of the load profiles: C75, C76, C77, C83, C97, C98, C99.
-/
import Verif.Lemmas.Loads
import Verif.Model.Simulation
import Verif.Props.Sampling
import Mathlib.Algebra.Order.Floor.Semifield

namespace Verif
open Finset
noncomputable section

theorem pyRound_rounds (x : ℝ) : Spec.Rounds x (pyRound x) := by
  unfold Spec.Rounds
  by_cases h : Int.fract x = 1 / 2
  · right
    have hx : x = (⌊x⌋ : ℝ) + 1 / 2 := by rw [← h]; exact (Int.floor_add_fract x).symm
    unfold pyRound
    rw [if_pos h]
    split
    · rename_i he
      refine ⟨?_, he⟩
      rw [show x - (⌊x⌋ : ℝ) = 1 / 2 by linarith]
      norm_num
    · rename_i he
      refine ⟨?_, by rw [Int.even_add_one]; exact he⟩
      rw [show x - ((⌊x⌋ + 1 : Int) : ℝ) = -(1 / 2) by push_cast; linarith]
      rw [abs_neg]; norm_num
  · left
    unfold pyRound
    rw [if_neg h]
    refine lt_of_le_of_ne (abs_sub_round x) (fun he => h ?_)
    rw [abs_sub_round_eq_min] at he
    have h1 := Int.fract_nonneg x
    have h2 := Int.fract_lt_one x
    rcases min_choice (Int.fract x) (1 - Int.fract x) with h' | h' <;> rw [h'] at he <;> linarith

theorem percentile90_spec {col : List ℝ} (h : col ≠ []) : Spec.Percentile90 col (percentile90 col) := by
  classical
  refine ⟨col.mergeSort (fun a b => decide (a ≤ b)), List.mergeSort_perm _ _, ?_, ?_⟩
  · have := List.pairwise_mergeSort (le := fun a b : ℝ => decide (a ≤ b)) (by intro a b c; simpa using le_trans) (by intro a b; simpa using le_total a b) col
    simpa using this
  · have hn : 1 ≤ col.length := List.length_pos_iff.2 h
    have hpos : (90 / 100 * ((col.length : ℝ) - 1) : ℝ) = ((9 * (col.length - 1) : Nat) : ℝ) / ((10 : Nat) : ℝ) := by
      push_cast [Nat.cast_sub hn]
      ring
    have hfl : ⌊(90 / 100 * ((col.length : ℝ) - 1) : ℝ)⌋₊ = 9 * (col.length - 1) / 10 := by
      rw [hpos, Nat.floor_div_natCast, Nat.floor_natCast]
    unfold percentile90
    simp only [hfl]
    have hdm : ((9 * (col.length - 1) : Nat) : ℝ) = 10 * ((9 * (col.length - 1) / 10 : Nat) : ℝ) + ((9 * (col.length - 1) % 10 : Nat) : ℝ) := by
      exact_mod_cast (Nat.div_add_mod (9 * (col.length - 1)) 10).symm
    have hw : (90 / 100 * ((col.length : ℝ) - 1) : ℝ) - ((9 * (col.length - 1) / 10 : Nat) : ℝ) =
        ((9 * (col.length - 1) % 10 : Nat) : ℝ) / 10 := by
      rw [hpos, hdm]
      push_cast
      ring
    rw [hw]
    by_cases h1 : col.length = 1
    · have : 9 * (col.length - 1) % 10 = 0 := by omega
      rw [this]
      push_cast
      ring
    · rw [min_eq_left (by omega)]
      ring

/-- the profiles of the selected rows, in MW -/
def selected (a : Arr2 ℝ) (rows : List Nat) : Arr2 ℝ := Arr2.ofFn rows.length a.c (fun i j => a.get (rows.getD i 0) j / 1000000)

theorem meanPercentile_spec {a : Arr2 ℝ} {rows : List Nat} {u : ℝ} (h : meanPercentile (selected a rows) = .ok u) :
    rows ≠ [] ∧ a.c ≠ 0 ∧ Spec.MeanPercentile a rows u := by
  unfold meanPercentile at h
  split at h
  · cases h
  rename_i hr
  split at h
  · cases h
  rename_i hc
  have hne : rows ≠ [] := fun e => hr (by subst e; rfl)
  refine ⟨hne, hc, fun j => percentile90 (rows.map (fun t => |a.get t j / 1000000|)), fun j hj => percentile90_spec (by simpa using hne), ?_⟩
  cases h
  rw [list_sum_map_range]
  congr 1
  refine Finset.sum_congr rfl (fun j hj => ?_)
  congr 1
  refine List.ext_getElem (by simp [selected]) (fun t h1 h2 => ?_)
  have ht : t < rows.length := by simpa using h2
  simp only [List.getElem_map, List.getElem_range]
  rw [selected, Arr2.ofFn_get _ ht (Finset.mem_range.1 hj), List.getD_eq_getElem _ _ ht]

theorem loadProfile_eq (rng : RandInt) (k0 : Nat) (pl ql : Arr2 ℝ) (skip : List Int) (len : Int) (refP refQ : List (List ℝ)) :
    loadProfile rng k0 pl ql skip len refP refQ = (do
      let pp ← meanPercentile (selected pl (sliceRows pl.r skip len))
      let qp ← meanPercentile (selected ql (sliceRows ql.r skip len))
      assign rng k0 (refP.map (fun r => ⟨selected pl (sliceRows pl.r skip len), pp, r⟩) ++
        refQ.map (fun r => ⟨selected ql (sliceRows ql.r skip len), qp, r⟩)) (refP.headD []).length) := by
  have hm : ∀ a : Arr2 ℝ, (Arr2.ofFn (sliceRows a.r skip len).length a.c (fun i j => a.get ((sliceRows a.r skip len).getD i 0) j)).map
      (· / 1000000) = selected a (sliceRows a.r skip len) := by
    intro a
    refine Arr2.ext' rfl rfl (fun i j hi hj => ?_)
    have hi' : i < (sliceRows a.r skip len).length := hi
    have hj' : j < a.c := hj
    refine (Arr2.ofFn_get (r := (sliceRows a.r skip len).length) (c := a.c) _ hi' hj').trans ?_
    rw [Arr2.ofFn_get _ hi' hj', selected, Arr2.ofFn_get _ hi' hj']
  unfold loadProfile
  simp only [selectRows_eq, bind, Except.bind, hm]

/-- what one column of the generated loads is -/
theorem columnOf_spec {rng : RandInt} {k : Nat} {a : Arr2 ℝ} {rows : List Nat} {u : ℝ} {ref : List ℝ} {j : Nat} {m : Arr2 ℝ}
    (hc : a.c ≠ 0) (h : ColumnOf rng k ⟨selected a rows, u, ref⟩ j m) :
    u ≠ 0 ∧ j < ref.length ∧ ∃ hs : List Nat, Spec.Rounds (ref.getD j 0 / u) hs.length ∧ Spec.SumOfHouseholds a rows hs (fun t => m.get t j) := by
  obtain ⟨h1, col, h2, h3⟩ := h
  obtain ⟨g1, g2, g3⟩ := households_ok h2
  refine ⟨g1, h1, rng.draw k a.c (pyRound (ref.getD j 0 / u)).toNat, ?_, fun h hh => rng.lt _ _ _ h hh, fun t ht => ?_⟩
  · rw [rng.length _ _ _ (Nat.pos_of_ne_zero hc), Int.toNat_of_nonneg g2]
    exact pyRound_rounds _
  · show m.get t j = _
    rw [h3 t ht, g3]
    have ht' : t < (selected a rows).r := ht
    rw [getD_map_range _ _ _ ht']
    show ((rng.draw k a.c _).map _).sum = _
    rw [List.map_congr_left (g := fun h => a.get (rows.getD t 0) h * (1000000 : ℝ)⁻¹) (fun h hh => by
      rw [selected, Arr2.ofFn_get _ ht (rng.lt _ _ _ h hh), div_eq_mul_inv]), List.sum_map_mul_right]
    exact (div_eq_mul_inv _ _).symm

/-- C75: `load_profile_from_numpy` reads, from both files, the rows of the selected weeks in order, and the load of each node is the sum
of as many households as its nominal power is multiples of the mean 90th percentile (rounded). Missing: weeks beyond the end of the file
(see `C75_violated`). -/
theorem C75_partial (rng : RandInt) (k0 : Nat) (pl ql : Arr2 ℝ) (skip : List Nat) (len : Nat) (refP refQ : List (List ℝ))
    (hp : ∀ s ∈ skip, s + len ≤ pl.r) (hq : ∀ s ∈ skip, s + len ≤ ql.r) (loads : List (Arr2 ℝ))
    (h : loadProfile rng k0 pl ql (skip.map (fun s : Nat => (s : Int))) len refP refQ = .ok loads) :
    ∃ up uq, Spec.MeanPercentile pl (Spec.weekRows skip len) up ∧ Spec.MeanPercentile ql (Spec.weekRows skip len) uq ∧
      loads.length = refP.length + refQ.length ∧
      (∀ (s : Nat) (ref : List ℝ), refP[s]? = some ref → ∃ m : Arr2 ℝ, loads[s]? = some m ∧ m.r = skip.length * len ∧ m.c = (refP.headD []).length ∧
        ∀ i < m.c, ∃ hs : List Nat, Spec.Rounds (ref.getD i 0 / up) hs.length ∧
          Spec.SumOfHouseholds pl (Spec.weekRows skip len) hs (fun t => m.get t i)) ∧
      (∀ (s : Nat) (ref : List ℝ), refQ[s]? = some ref → ∃ m : Arr2 ℝ, loads[refP.length + s]? = some m ∧ m.r = skip.length * len ∧ m.c = (refP.headD []).length ∧
        ∀ i < m.c, ∃ hs : List Nat, Spec.Rounds (ref.getD i 0 / uq) hs.length ∧
          Spec.SumOfHouseholds ql (Spec.weekRows skip len) hs (fun t => m.get t i)) := by
  rw [loadProfile_eq] at h
  rw [sliceRows_inside hp, sliceRows_inside hq] at h
  obtain ⟨up, hup, h⟩ := Prior.bind_ok h
  obtain ⟨uq, huq, h⟩ := Prior.bind_ok h
  obtain ⟨_, hpc, hps⟩ := meanPercentile_spec hup
  obtain ⟨_, hqc, hqs⟩ := meanPercentile_spec huq
  obtain ⟨hl, ha⟩ := assign_ok h
  refine ⟨up, uq, hps, hqs, by simpa using hl, ?_, ?_⟩
  · intro s ref hs
    have hlt : s < refP.length := (List.getElem?_eq_some_iff.1 hs).1
    obtain ⟨m, h1, h2, h3, h4⟩ := ha s ⟨selected pl (Spec.weekRows skip len), up, ref⟩ (by
      rw [List.getElem?_append_left (by simpa using hlt), List.getElem?_map, hs]; rfl)
    refine ⟨m, h1, h2.trans (weekRows_length _ _), h3, fun i hi => ?_⟩
    exact (columnOf_spec hpc (h4 i (h3 ▸ hi) trivial)).2.2
  · intro s ref hs
    obtain ⟨m, h1, h2, h3, h4⟩ := ha (refP.length + s) ⟨selected ql (Spec.weekRows skip len), uq, ref⟩ (by
      rw [List.getElem?_append_right (by simp), List.getElem?_map]
      simp [hs])
    refine ⟨m, h1, h2.trans (weekRows_length _ _), h3, fun i hi => ?_⟩
    exact (columnOf_spec hqc (h4 i (h3 ▸ hi) trivial)).2.2

/-! ### when profiles can be read -/

theorem percentile90_pos {col : List ℝ} (h : col ≠ []) (hp : ∀ x ∈ col, 0 < x) : 0 < percentile90 col := by
  obtain ⟨s, hs, _, hv⟩ := percentile90_spec h
  dsimp only at hv
  have hl : s.length = col.length := hs.length_eq
  have hn : 1 ≤ col.length := List.length_pos_iff.2 h
  have hpos : ∀ k, k < s.length → 0 < s.getD k 0 := by
    intro k hk
    rw [List.getD_eq_getElem _ _ hk]
    exact hp _ (hs.mem_iff.1 (List.getElem_mem hk))
  have h1 := hpos (9 * (col.length - 1) / 10) (by omega)
  rw [hv]
  set w : ℝ := ((9 * (col.length - 1) % 10 : Nat) : ℝ) / 10 with hw
  have hw0 : 0 ≤ w := by positivity
  have hw1 : w < 1 := by
    rw [hw, div_lt_one (by norm_num)]
    exact_mod_cast Nat.mod_lt _ (by norm_num)
  by_cases hc : col.length = 1
  · have : w = 0 := by rw [hw, hc]; norm_num
    rw [this]; simpa using h1
  · have h2 := hpos (9 * (col.length - 1) / 10 + 1) (by omega)
    nlinarith [mul_pos (sub_pos.2 hw1) h1, mul_nonneg hw0 h2.le]

theorem meanPercentile_pos {a : Arr2 ℝ} {rows : List Nat} (hr : rows ≠ []) (hc : a.c ≠ 0) (hp : ∀ t ∈ rows, ∀ j < a.c, a.get t j ≠ 0) :
    ∃ u, meanPercentile (selected a rows) = .ok u ∧ 0 < u := by
  unfold meanPercentile
  have h1 : (selected a rows).r ≠ 0 := fun e => hr (List.length_eq_zero_iff.1 e)
  have h2 : (selected a rows).c ≠ 0 := hc
  rw [if_neg h1, if_neg h2]
  refine ⟨_, rfl, ?_⟩
  refine div_pos ?_ (by exact_mod_cast Nat.pos_of_ne_zero hc)
  rw [list_sum_map_range]
  refine Finset.sum_pos (fun j hj => ?_) ⟨0, Finset.mem_range.2 (Nat.pos_of_ne_zero hc)⟩
  refine percentile90_pos ?_ ?_
  · simp [selected, hr]
  · intro x hx
    obtain ⟨t, ht, rfl⟩ := List.mem_map.1 hx
    have ht' : t < rows.length := List.mem_range.1 ht
    have hj' : j < a.c := Finset.mem_range.1 hj
    rw [selected, Arr2.ofFn_get _ ht' hj', List.getD_eq_getElem _ _ ht']
    have := hp _ (List.getElem_mem ht') j (Finset.mem_range.1 hj)
    positivity

/-- households that are never idle and nominal powers that are not negative -/
theorem loadProfile_exists (rng : RandInt) (k0 : Nat) (pl ql : Arr2 ℝ) (skip : List Int) (len : Int) (refP refQ : List (List ℝ))
    (hp : sliceRows pl.r skip len ≠ []) (hq : sliceRows ql.r skip len ≠ []) (hpc : pl.c ≠ 0) (hqc : ql.c ≠ 0)
    (hp0 : ∀ t ∈ sliceRows pl.r skip len, ∀ j < pl.c, pl.get t j ≠ 0) (hq0 : ∀ t ∈ sliceRows ql.r skip len, ∀ j < ql.c, ql.get t j ≠ 0)
    (hr : ∀ r ∈ refP ++ refQ, (refP.headD []).length ≤ r.length ∧ ∀ x ∈ r, 0 ≤ x) :
    ∃ loads, loadProfile rng k0 pl ql skip len refP refQ = .ok loads := by
  obtain ⟨up, h1, h1'⟩ := meanPercentile_pos hp hpc hp0
  obtain ⟨uq, h2, h2'⟩ := meanPercentile_pos hq hqc hq0
  rw [loadProfile_eq, h1]
  show ∃ loads, (meanPercentile _).bind _ = _
  rw [h2]
  refine assign_exists (fun q hq => ?_)
  have hnn : ∀ r ∈ refP ++ refQ, ∀ u : ℝ, 0 < u → (refP.headD []).length ≤ r.length ∧
      ∀ i < (refP.headD []).length, 0 ≤ pyRound (r.getD i 0 / u) := by
    intro r hr' u hu
    refine ⟨(hr r hr').1, fun i hi => pyRound_nonneg (div_nonneg ?_ hu.le)⟩
    have : i < r.length := lt_of_lt_of_le hi (hr r hr').1
    rw [List.getD_eq_getElem _ _ this]
    exact (hr r hr').2 _ (List.getElem_mem this)
  rcases List.mem_append.1 hq with hq | hq
  · obtain ⟨r, hr', rfl⟩ := List.mem_map.1 hq
    exact ⟨h1'.ne', hnn r (List.mem_append_left _ hr') up h1'⟩
  · obtain ⟨r, hr', rfl⟩ := List.mem_map.1 hq
    exact ⟨h2'.ne', hnn r (List.mem_append_right _ hr') uq h2'⟩

theorem unpack2_ok {l : List (Arr2 ℝ)} {p q : Arr2 ℝ} (h : unpack2 l = .ok (p, q)) : l = [p, q] := by
  unfold unpack2 at h
  split at h
  · cases h; rfl
  · cases h

theorem sliceRows_le (n : Nat) (skip : List Int) (len : Nat) : (sliceRows n skip len).length ≤ skip.length * len := by
  unfold sliceRows
  induction skip with
  | nil => simp
  | cons s rest ih =>
    rw [List.flatMap_cons, List.length_append, List.length_range', List.length_cons]
    have : pySlice n (len + s) - pySlice n s ≤ len := by
      unfold pySlice
      split <;> split <;> omega
    calc _ ≤ len + rest.length * len := Nat.add_le_add this ih
      _ = (rest.length + 1) * len := by ring

theorem weekLength_eq {days : Nat} {weeks : List Int} (h : weeks.length ≠ 0) :
    weekLength days weeks = .ok ((days * 24 * 60 / weeks.length : Nat) : Int) := by
  unfold weekLength
  rw [if_neg h]
  congr 1
  have : (days : ℝ) / (weeks.length : ℝ) * 24 * 60 = ((days * 24 * 60 : Nat) : ℝ) / ((weeks.length : Nat) : ℝ) := by
    push_cast
    ring
  rw [this, Int.floor_div_natCast, Int.floor_natCast]
  rfl

/-- the profile branch, taken apart -/
theorem rawLoads_profiles {rng : RandInt} {z : Nat → ℝ} {files : String → Option (Arr2 ℝ)} {net : Net} {fa fr : String}
    {weeks : List Int} {days : Nat} {const : Option (List Int)} {p q : Arr2 ℝ}
    (h : rawLoads rng z files net (.profiles fa fr weeks days const) = .ok (p, q)) :
    weeks.length ≠ 0 ∧ ∃ pl ql, files fa = some pl ∧ files fr = some ql ∧
      loadProfile rng 0 pl ql (skipRows weeks) ((days * 24 * 60 / weeks.length : Nat) : Int) [nominalP net] [nominalQ net] = .ok [p, q] := by
  have hw : weeks.length ≠ 0 := by
    intro hw
    change (weekLength days weeks).bind _ = _ at h
    rw [weekLength, if_pos hw] at h
    cases h
  refine ⟨hw, ?_⟩
  change (weekLength days weeks).bind _ = _ at h
  rw [weekLength_eq hw] at h
  replace h : (readProfile files fa).bind _ = _ := h
  obtain ⟨pl, hp, h⟩ := Prior.bind_ok h
  obtain ⟨ql, hq, h⟩ := Prior.bind_ok h
  obtain ⟨l, hl, h⟩ := Prior.bind_ok h
  have hp' : files fa = some pl := by
    unfold readProfile at hp
    split at hp
    · rename_i e; cases hp; exact e
    · cases hp
  have hq' : files fr = some ql := by
    unfold readProfile at hq
    split at hq
    · rename_i e; cases hq; exact e
    · cases hq
  exact ⟨pl, ql, hp', hq', by rw [hl, unpack2_ok h]⟩

/-- the two arrays returned in the profile branch -/
theorem loadProfile_pair {rng : RandInt} {pl ql : Arr2 ℝ} {skip : List Int} {len : Int} {rp rq : List ℝ} {p q : Arr2 ℝ}
    (h : loadProfile rng 0 pl ql skip len [rp] [rq] = .ok [p, q]) :
    ∃ up uq, p.r = (sliceRows pl.r skip len).length ∧ p.c = rp.length ∧
      q.r = (sliceRows ql.r skip len).length ∧ q.c = rp.length ∧ pl.c ≠ 0 ∧ ql.c ≠ 0 ∧
      (∀ j < rp.length, ColumnOf rng (0 + j * 2 + 0) ⟨selected pl (sliceRows pl.r skip len), up, rp⟩ j p) ∧
      (∀ j < rp.length, ColumnOf rng (0 + j * 2 + 1) ⟨selected ql (sliceRows ql.r skip len), uq, rq⟩ j q) := by
  rw [loadProfile_eq] at h
  obtain ⟨up, hup, h⟩ := Prior.bind_ok h
  obtain ⟨uq, huq, h⟩ := Prior.bind_ok h
  obtain ⟨_, hpc, _⟩ := meanPercentile_spec hup
  obtain ⟨_, hqc, _⟩ := meanPercentile_spec huq
  obtain ⟨_, ha⟩ := assign_ok h
  refine ⟨up, uq, ?_⟩
  obtain ⟨m, h1, h2, h3, h4⟩ := ha 0 ⟨selected pl (sliceRows pl.r skip len), up, rp⟩ rfl
  obtain ⟨m', g1, g2, g3, g4⟩ := ha 1 ⟨selected ql (sliceRows ql.r skip len), uq, rq⟩ rfl
  cases h1
  cases g1
  exact ⟨h2, h3, g2, g3, hpc, hqc, fun j hj => h4 j hj trivial, fun j hj => g4 j hj trivial⟩

/-! ### blending -/

theorem blendCol_ok {a nom : ℝ} {i : Nat} {m m' : Arr2 ℝ} (h : blendCol a nom i m = .ok m') :
    i < m.c ∧ m'.r = m.r ∧ m'.c = m.c ∧ ∀ t < m.r, ∀ j < m.c, m'.get t j = if j = i then (1 - a) * m.get t j + a * nom else m.get t j := by
  unfold blendCol at h
  split at h
  · rename_i hi
    cases h
    exact ⟨hi, rfl, rfl, fun t ht j hj => Arr2.ofFn_get _ ht hj⟩
  · cases h

/-- `m'` is `m` with the columns `j < k` of the listed nodes blended with their nominal values -/
def BlendedTo {ρ : Type} (a : ℝ) (nodes : List Int) (rows : List ρ) (bus : ρ → Int) (nom : ρ → ℝ) (k : Nat) (m m' : Arr2 ℝ) : Prop :=
  m'.r = m.r ∧ m'.c = m.c ∧ ∀ t < m.r, ∀ j < m.c,
    (∀ l, rows[j]? = some l → bus l ∈ nodes → j < k → m'.get t j = (1 - a) * m.get t j + a * nom l) ∧
    ((∀ l, rows[j]? = some l → bus l ∈ nodes → k ≤ j) → m'.get t j = m.get t j)

theorem blendedTo_zero {ρ : Type} {a : ℝ} {nodes : List Int} {rows : List ρ} {bus : ρ → Int} {nom : ρ → ℝ} (m : Arr2 ℝ) :
    BlendedTo a nodes rows bus nom 0 m m :=
  ⟨rfl, rfl, fun _ _ _ _ => ⟨fun _ _ _ h => absurd h (Nat.not_lt_zero _), fun _ => rfl⟩⟩

theorem blendedTo_skip {ρ : Type} {a : ℝ} {nodes : List Int} {rows : List ρ} {bus : ρ → Int} {nom : ρ → ℝ} {k : Nat} {m m' : Arr2 ℝ}
    {l : ρ} (hl : rows[k]? = some l) (hb : bus l ∉ nodes) (h : BlendedTo a nodes rows bus nom k m m') :
    BlendedTo a nodes rows bus nom (k + 1) m m' := by
  refine ⟨h.1, h.2.1, fun t ht j hj => ⟨fun l' hl' hb' hjk => ?_, fun h' => (h.2.2 t ht j hj).2 (fun l' hl' hb' => ?_)⟩⟩
  · rcases Nat.lt_succ_iff_lt_or_eq.1 hjk with h1 | h1
    · exact (h.2.2 t ht j hj).1 l' hl' hb' h1
    · subst h1
      rw [hl] at hl'
      cases hl'
      exact absurd hb' hb
  · exact (Nat.le_succ k).trans (h' l' hl' hb')

theorem blendedTo_step {ρ : Type} {a : ℝ} {nodes : List Int} {rows : List ρ} {bus : ρ → Int} {nom : ρ → ℝ} {k : Nat} {m m' m'' : Arr2 ℝ}
    {l : ρ} (hl : rows[k]? = some l) (hb : bus l ∈ nodes) (h : BlendedTo a nodes rows bus nom k m m')
    (hs : blendCol a (nom l) k m' = .ok m'') : BlendedTo a nodes rows bus nom (k + 1) m m'' := by
  obtain ⟨hk, h1, h2, h3⟩ := blendCol_ok hs
  obtain ⟨g1, g2, g3⟩ := h
  refine ⟨h1.trans g1, h2.trans g2, fun t ht j hj => ?_⟩
  rw [h3 t (g1 ▸ ht) j (g2 ▸ hj)]
  by_cases hjk : j = k
  · subst hjk
    rw [if_pos rfl, (g3 t ht j hj).2 (fun l' _ _ => le_refl _)]
    refine ⟨fun l' hl' _ _ => ?_, fun h' => absurd (h' l hl hb) (by omega)⟩
    rw [hl] at hl'
    cases hl'
    rfl
  · rw [if_neg hjk]
    exact ⟨fun l' hl' hb' hjk' => (g3 t ht j hj).1 l' hl' hb' (by omega),
      fun h' => (g3 t ht j hj).2 (fun l' hl' hb' => (Nat.le_succ k).trans (h' l' hl' hb'))⟩

/-- the final state of a blending -/
def Blended {ρ : Type} (a : ℝ) (const : Option (List Int)) (rows : List ρ) (bus : ρ → Int) (nom : ρ → ℝ) (m m' : Arr2 ℝ) : Prop :=
  m'.r = m.r ∧ m'.c = m.c ∧ ∀ t < m.r, ∀ j < m.c,
    (∀ nodes l, const = some nodes → rows[j]? = some l → bus l ∈ nodes → m'.get t j = (1 - a) * m.get t j + a * nom l) ∧
    ((∀ nodes l, const = some nodes → rows[j]? = some l → bus l ∉ nodes) → m'.get t j = m.get t j)

theorem blended_of_blendedTo {ρ : Type} {a : ℝ} {nodes : List Int} {rows : List ρ} {bus : ρ → Int} {nom : ρ → ℝ} {m m' : Arr2 ℝ}
    (h : BlendedTo a nodes rows bus nom rows.length m m') : Blended a (some nodes) rows bus nom m m' := by
  refine ⟨h.1, h.2.1, fun t ht j hj => ⟨fun nodes' l he hl hb => ?_, fun h' => (h.2.2 t ht j hj).2 (fun l hl hb => absurd hb (h' nodes l rfl hl))⟩⟩
  cases he
  exact (h.2.2 t ht j hj).1 l hl hb (List.getElem?_eq_some_iff.1 hl).1

theorem blended_none {ρ : Type} {a : ℝ} {rows : List ρ} {bus : ρ → Int} {nom : ρ → ℝ} (m : Arr2 ℝ) : Blended a none rows bus nom m m :=
  ⟨rfl, rfl, fun _ _ _ _ => ⟨fun _ _ h => (nomatch h), fun _ => rfl⟩⟩

theorem blendLoads_ok {a : ℝ} {const : Option (List Int)} {net : Net} {p q p' q' : Arr2 ℝ} (h : blendLoads a const net p q = .ok (p', q')) :
    Blended a const net.load LoadRow.bus LoadRow.p p p' ∧ Blended a const net.load LoadRow.bus LoadRow.q q q' := by
  cases const with
  | none => cases h; exact ⟨blended_none _, blended_none _⟩
  | some nodes =>
    have key := forRange_of_ok (fun k st => BlendedTo a nodes net.load LoadRow.bus LoadRow.p k p st.1 ∧
      BlendedTo a nodes net.load LoadRow.bus LoadRow.q k q st.2) (s := (p', q')) h ⟨blendedTo_zero _, blendedTo_zero _⟩ ?_
    · exact ⟨blended_of_blendedTo key.1, blended_of_blendedTo key.2⟩
    · intro k hk st st' hP hf
      have hl := List.getElem?_eq_getElem hk
      rw [hl] at hf
      dsimp only at hf
      split at hf
      · rename_i hb
        obtain ⟨p1, h1, hf⟩ := Prior.bind_ok hf
        obtain ⟨q1, h2, hf⟩ := Prior.bind_ok hf
        cases hf
        exact ⟨blendedTo_step hl hb hP.1 h1, blendedTo_step hl hb hP.2 h2⟩
      · rename_i hb
        cases hf
        exact ⟨blendedTo_skip hl hb hP.1, blendedTo_skip hl hb hP.2⟩

theorem blendCol_exists (a nom : ℝ) {i : Nat} {m : Arr2 ℝ} (h : i < m.c) : ∃ m', blendCol a nom i m = .ok m' := ⟨_, if_pos h⟩

theorem blendLoads_exists (a : ℝ) (const : Option (List Int)) {net : Net} {p q : Arr2 ℝ} (hp : net.load.length ≤ p.c)
    (hq : net.load.length ≤ q.c) : ∃ r, blendLoads a const net p q = .ok r := by
  cases const with
  | none => exact ⟨_, rfl⟩
  | some nodes =>
    obtain ⟨st, hs, _⟩ := forRange_inv (fun (_ : Nat) (st : Arr2 ℝ × Arr2 ℝ) => net.load.length ≤ st.1.c ∧ net.load.length ≤ st.2.c) net.load.length
      (p, q) (fun st i =>
        match net.load[i]? with
        | some l =>
          if l.bus ∈ nodes then do
            let p ← blendCol a l.p i st.1
            let q ← blendCol a l.q i st.2
            pure (p, q)
          else pure st
        | none => pure st) ⟨hp, hq⟩ (fun k hk st hP => by
          rw [List.getElem?_eq_getElem hk]
          dsimp only
          by_cases hb : (net.load[k]).bus ∈ nodes
          · obtain ⟨p1, h1⟩ := blendCol_exists a (net.load[k]).p (lt_of_lt_of_le hk hP.1)
            obtain ⟨q1, h2⟩ := blendCol_exists a (net.load[k]).q (lt_of_lt_of_le hk hP.2)
            refine ⟨(p1, q1), ?_, ?_, ?_⟩
            · rw [if_pos hb, h1, h2]; rfl
            · rw [(blendCol_ok h1).2.2.1]; exact hP.1
            · rw [(blendCol_ok h2).2.2.1]; exact hP.2
          · exact ⟨st, by rw [if_neg hb]; rfl, hP⟩)
    exact ⟨st, hs⟩

theorem blended_between {ρ : Type} {a : ℝ} (ha0 : 0 ≤ a) (ha1 : a ≤ 1) {const : Option (List Int)} {rows : List ρ} {bus : ρ → Int}
    {nom : ρ → ℝ} {m m' : Arr2 ℝ} (h : Blended a const rows bus nom m m') {t j : Nat} {l : ρ} (ht : t < m.r) (hj : j < m.c)
    (hl : rows[j]? = some l) :
    Spec.Between (m'.get t j) (m.get t j) (nom l) ∧ (a = 0 → m'.get t j = m.get t j) ∧
    (a = 1 → (∃ nodes, const = some nodes ∧ bus l ∈ nodes) → m'.get t j = nom l) ∧
    ((∀ nodes, const = some nodes → bus l ∉ nodes) → m'.get t j = m.get t j) := by
  have hun : (∀ nodes, const = some nodes → bus l ∉ nodes) → m'.get t j = m.get t j := by
    intro h'
    refine (h.2.2 t ht j hj).2 (fun nodes l' he hl' => ?_)
    rw [hl] at hl'
    cases hl'
    exact h' nodes he
  have hb : ∀ nodes, const = some nodes → bus l ∈ nodes → m'.get t j = (1 - a) * m.get t j + a * nom l :=
    fun nodes he hb => (h.2.2 t ht j hj).1 nodes l he hl hb
  by_cases hc : ∃ nodes, const = some nodes ∧ bus l ∈ nodes
  · obtain ⟨nodes, he, hb'⟩ := hc
    have e := hb nodes he hb'
    refine ⟨?_, fun h0 => by rw [e, h0]; ring, fun h1 _ => by rw [e, h1]; ring, hun⟩
    rw [e]
    unfold Spec.Between
    constructor
    · rcases le_total (m.get t j) (nom l) with h1 | h1
      · rw [min_eq_left h1]; nlinarith
      · rw [min_eq_right h1]; nlinarith
    · rcases le_total (m.get t j) (nom l) with h1 | h1
      · rw [max_eq_right h1]; nlinarith
      · rw [max_eq_left h1]; nlinarith
  · have hn : ∀ nodes, const = some nodes → bus l ∉ nodes := fun nodes he hb => hc ⟨nodes, he, hb⟩
    have e := hun hn
    refine ⟨?_, fun _ => e, fun _ hc' => absurd hc' hc, fun _ => e⟩
    rw [e]
    exact ⟨min_le_left _ _, le_max_left _ _⟩

theorem computeLoads_ok {rng : RandInt} {z : Nat → ℝ} {files : String → Option (Arr2 ℝ)} {a : ℝ} {net : Net} {lp : LoadParams}
    {p q : Arr2 ℝ} {t : List ℝ} (h : computeLoads rng z files a net lp = .ok (p, q, t)) :
    ∃ p0 q0, rawLoads rng z files net lp = .ok (p0, q0) ∧ blendLoads a lp.const net p0 q0 = .ok (p, q) ∧ t = minuteTimes lp.days := by
  unfold computeLoads at h
  obtain ⟨⟨p0, q0⟩, h0, h⟩ := Prior.bind_ok h
  obtain ⟨⟨p1, q1⟩, h1, h⟩ := Prior.bind_ok h
  cases h
  exact ⟨p0, q0, h0, h1, rfl⟩

/-- C77: blending with a factor in [0, 1] keeps each load between its profile and its nominal value, changes nothing with factor 0, gives
the nominal value with factor 1, and leaves the nodes that are not listed alone. -/
theorem C77 (rng : RandInt) (z : Nat → ℝ) (files : String → Option (Arr2 ℝ)) (a : ℝ) (ha0 : 0 ≤ a) (ha1 : a ≤ 1) (net : Net)
    (lp : LoadParams) (p q : Arr2 ℝ) (t : List ℝ) (h : computeLoads rng z files a net lp = .ok (p, q, t)) :
    ∃ p0 q0, rawLoads rng z files net lp = .ok (p0, q0) ∧ p.r = p0.r ∧ p.c = p0.c ∧ q.r = q0.r ∧ q.c = q0.c ∧
      ∀ (i : Nat) (l : LoadRow), net.load[i]? = some l →
        (∀ t < p0.r, i < p0.c → Spec.Between (p.get t i) (p0.get t i) l.p ∧ (a = 0 → p.get t i = p0.get t i) ∧
          (a = 1 → (∃ nodes, lp.const = some nodes ∧ l.bus ∈ nodes) → p.get t i = l.p) ∧
          ((∀ nodes, lp.const = some nodes → l.bus ∉ nodes) → p.get t i = p0.get t i)) ∧
        (∀ t < q0.r, i < q0.c → Spec.Between (q.get t i) (q0.get t i) l.q ∧ (a = 0 → q.get t i = q0.get t i) ∧
          (a = 1 → (∃ nodes, lp.const = some nodes ∧ l.bus ∈ nodes) → q.get t i = l.q) ∧
          ((∀ nodes, lp.const = some nodes → l.bus ∉ nodes) → q.get t i = q0.get t i)) := by
  obtain ⟨p0, q0, h0, h1, _⟩ := computeLoads_ok h
  obtain ⟨hp, hq⟩ := blendLoads_ok h1
  exact ⟨p0, q0, h0, hp.1, hp.2.1, hq.1, hq.2.1, fun i l hl =>
    ⟨fun t ht hi => blended_between ha0 ha1 hp ht hi hl, fun t ht hi => blended_between ha0 ha1 hq ht hi hl⟩⟩

/-! ### number of samples -/

theorem minuteTimes_length (days : Nat) : (minuteTimes days).length = days * 24 * 60 := by simp [minuteTimes]

theorem skipRows_length (weeks : List Int) : (skipRows weeks).length = weeks.length := by simp [skipRows]

/-- C76, violated: with profiles from files, when the number of minutes is not a multiple of the number of selected weeks, there are fewer
load samples than time stamps. -/
theorem C76_violated (rng : RandInt) (z : Nat → ℝ) (files : String → Option (Arr2 ℝ)) (a : ℝ) (net : Net) (fa fr : String)
    (weeks : List Int) (days : Nat) (const : Option (List Int)) (hd : ¬ weeks.length ∣ days * 24 * 60) (p q : Arr2 ℝ) (t : List ℝ)
    (h : computeLoads rng z files a net (.profiles fa fr weeks days const) = .ok (p, q, t)) : p.r < t.length ∧ q.r < t.length := by
  obtain ⟨p0, q0, h0, h1, rfl⟩ := computeLoads_ok h
  obtain ⟨hp, hq⟩ := blendLoads_ok h1
  obtain ⟨hw, pl, ql, _, _, hl⟩ := rawLoads_profiles h0
  obtain ⟨up, uq, g1, _, g2, _⟩ := loadProfile_pair hl
  rw [hp.1, hq.1, g1, g2]
  show _ < (minuteTimes days).length ∧ _ < (minuteTimes days).length
  rw [minuteTimes_length]
  have e : weeks.length * (days * 24 * 60 / weeks.length) < days * 24 * 60 :=
    lt_of_le_of_ne (Nat.mul_div_le _ _) (fun e => hd ⟨_, e.symm⟩)
  constructor
  · exact lt_of_le_of_lt (sliceRows_le _ _ _) (by rw [skipRows_length]; exact e)
  · exact lt_of_le_of_lt (sliceRows_le _ _ _) (by rw [skipRows_length]; exact e)

/-- C76 for profiles from files, when the number of minutes is a multiple of the number of selected weeks and the files cover them.
Missing: the other cases, see `C76_violated`. -/
theorem C76_partial (rng : RandInt) (z : Nat → ℝ) (files : String → Option (Arr2 ℝ)) (a : ℝ) (net : Net) (fa fr : String)
    (weeks : List Nat) (days : Nat) (const : Option (List Int)) (hd : weeks.length ∣ days * 24 * 60)
    (hf : ∀ pl, files fa = some pl ∨ files fr = some pl → ∀ w ∈ weeks, w * 10080 + days * 24 * 60 / weeks.length ≤ pl.r)
    (p q : Arr2 ℝ) (t : List ℝ)
    (h : computeLoads rng z files a net (.profiles fa fr (weeks.map (fun w : Nat => (w : Int))) days const) = .ok (p, q, t)) :
    p.r = t.length ∧ q.r = t.length := by
  obtain ⟨p0, q0, h0, h1, rfl⟩ := computeLoads_ok h
  obtain ⟨hp, hq⟩ := blendLoads_ok h1
  obtain ⟨hw, pl, ql, hpl, hql, hl⟩ := rawLoads_profiles h0
  obtain ⟨up, uq, g1, _, g2, _⟩ := loadProfile_pair hl
  rw [hp.1, hq.1, g1, g2]
  show _ = (minuteTimes days).length ∧ _ = (minuteTimes days).length
  have hs : skipRows (weeks.map (fun w : Nat => (w : Int))) = (weeks.map (fun w => w * 10080)).map (fun s : Nat => (s : Int)) := by
    unfold skipRows
    rw [List.map_map, List.map_map]
    refine List.map_congr_left (fun w _ => ?_)
    simp only [Function.comp]
    push_cast
    ring
  have hc : weeks.length * (days * 24 * 60 / weeks.length) = days * 24 * 60 := Nat.mul_div_cancel' hd
  rw [minuteTimes_length, List.length_map, hs, sliceRows_inside (by simpa using hf pl (Or.inl hpl)),
    sliceRows_inside (by simpa using hf ql (Or.inr hql)), weekRows_length, List.length_map]
  exact ⟨hc, hc⟩

end
end Verif
