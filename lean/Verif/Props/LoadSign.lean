/-
C97: exactly when loads can be generated for networks with nodes of negative nominal power, and what they are then.
-/
import Verif.Props.Loads2

namespace Verif
noncomputable section

theorem pyRound_nonneg_iff (x : ℝ) : 0 ≤ pyRound x ↔ -(1 / 2) ≤ x := by
  constructor
  · intro h
    obtain ⟨n, hn⟩ := Int.eq_ofNat_of_zero_le h
    exact rounds_nonneg (n := n) (hn ▸ pyRound_rounds x)
  · intro h
    by_contra hc
    have h1 : pyRound x ≤ -1 := by omega
    have h2 : ((pyRound x : Int) : ℝ) ≤ -1 := by exact_mod_cast h1
    rcases pyRound_rounds x with h3 | ⟨h3, h4⟩
    · have := abs_lt.1 h3
      linarith
    · rcases (abs_eq (by norm_num : (0 : ℝ) ≤ 1 / 2)).1 h3 with h5 | h5
      · have h6 : ((pyRound x : Int) : ℝ) = -1 := by linarith
        have h7 : pyRound x = -1 := by exact_mod_cast h6
        rw [h7] at h4
        exact absurd h4 (by decide)
      · linarith

/-- C97 for random loads: they can be generated exactly if no nominal power is negative. Missing: negative ones, see
`C97_gaussian_violated`. -/
theorem C97_gaussian_partial (rng : RandInt) (z : Nat → ℝ) (files : String → Option (Arr2 ℝ)) (a : ℝ) (net : Net) {sd : ℝ} (hsd : 0 < sd)
    (days : Nat) (const : Option (List Int)) :
    (∃ r, computeLoads rng z files a net (.gaussian sd days const) = .ok r) ↔ ∀ l ∈ net.load, 0 ≤ l.p ∧ 0 ≤ l.q := by
  constructor
  · rintro ⟨r, hr⟩ l hl
    by_contra hc
    have : l.p < 0 ∨ l.q < 0 := by
      by_contra h
      push Not at h
      exact hc h
    rw [C97_gaussian_violated rng z files a net hsd days const ⟨l, hl, this⟩] at hr
    cases hr
  · intro h
    obtain ⟨⟨p, q⟩, h0⟩ := rawLoads_gaussian_exists rng z files net (sd := sd) days const
      (fun l hl => ⟨mul_nonneg (h l hl).1 hsd.le, mul_nonneg (h l hl).2 hsd.le⟩)
    obtain ⟨g1, g2⟩ := rawLoads_gaussian h0
    obtain ⟨_, _, c1, _⟩ := gaussianLoad_ok g1
    obtain ⟨_, _, c2, _⟩ := gaussianLoad_ok g2
    obtain ⟨⟨p', q'⟩, h1⟩ := blendLoads_exists a const (net := net) (p := p) (q := q) (by rw [c1]; simp [nominalP]) (by rw [c2]; simp [nominalQ])
    refine ⟨(p', q', minuteTimes days), ?_⟩
    unfold computeLoads
    rw [h0]
    show (blendLoads a const net p q).bind _ = _
    rw [h1]
    rfl

theorem percentile90_unique {col : List ℝ} {u v : ℝ} (hu : Spec.Percentile90 col u) (hv : Spec.Percentile90 col v) : u = v := by
  obtain ⟨s, hs, hso, e⟩ := hu
  obtain ⟨s', hs', hso', e'⟩ := hv
  have : s = s' := (hs.trans hs'.symm).eq_of_pairwise (fun _ _ _ _ h1 h2 => le_antisymm h1 h2) hso hso'
  subst this
  dsimp only at e e'
  rw [e, e']

theorem meanPercentile_unique {file : Arr2 ℝ} {rows : List Nat} {u v : ℝ} (hu : Spec.MeanPercentile file rows u)
    (hv : Spec.MeanPercentile file rows v) : u = v := by
  obtain ⟨f, hf, rfl⟩ := hu
  obtain ⟨g, hg, rfl⟩ := hv
  congr 1
  exact Finset.sum_congr rfl (fun j hj => percentile90_unique (hf j (Finset.mem_range.1 hj)) (hg j (Finset.mem_range.1 hj)))

theorem meanPercentile_of {a : Arr2 ℝ} {rows : List Nat} {u : ℝ} (hr : rows ≠ []) (hc : a.c ≠ 0) (h : Spec.MeanPercentile a rows u) :
    meanPercentile (selected a rows) = .ok u := by
  have h1 : (selected a rows).r ≠ 0 := fun e => hr (List.length_eq_zero_iff.1 e)
  have h2 : (selected a rows).c ≠ 0 := hc
  have e : ∃ v, meanPercentile (selected a rows) = .ok v := by
    unfold meanPercentile
    rw [if_neg h1, if_neg h2]
    exact ⟨_, rfl⟩
  obtain ⟨v, hv⟩ := e
  rw [hv, meanPercentile_unique (meanPercentile_spec hv).2.2 h]

theorem percentile90_nonneg {col : List ℝ} {v : ℝ} (h : Spec.Percentile90 col v) (hp : ∀ x ∈ col, 0 ≤ x) : 0 ≤ v := by
  obtain ⟨s, hs, _, e⟩ := h
  dsimp only at e
  have hpos : ∀ k, 0 ≤ s.getD k 0 := by
    intro k
    by_cases hk : k < s.length
    · rw [List.getD_eq_getElem _ _ hk]
      exact hp _ (hs.mem_iff.1 (List.getElem_mem hk))
    · rw [List.getD_eq_default _ _ (by omega)]
  have hw : ((9 * (col.length - 1) % 10 : Nat) : ℝ) / 10 ≤ 1 := by
    rw [div_le_one (by norm_num)]
    exact_mod_cast (Nat.mod_lt _ (by norm_num : 10 > 0)).le
  rw [e]
  have h1 := mul_nonneg (sub_nonneg.2 hw) (hpos (9 * (col.length - 1) / 10))
  have h2 : 0 ≤ ((9 * (col.length - 1) % 10 : Nat) : ℝ) / 10 * s.getD (9 * (col.length - 1) / 10 + 1) 0 := mul_nonneg (by positivity) (hpos _)
  exact add_nonneg h1 h2

theorem meanPercentile_nonneg {file : Arr2 ℝ} {rows : List Nat} {v : ℝ} (h : Spec.MeanPercentile file rows v) : 0 ≤ v := by
  obtain ⟨f, hf, rfl⟩ := h
  refine div_nonneg (Finset.sum_nonneg (fun j hj => percentile90_nonneg (hf j (Finset.mem_range.1 hj)) ?_)) (by positivity)
  intro x hx
  obtain ⟨t, _, rfl⟩ := List.mem_map.1 hx
  exact abs_nonneg _

theorem skipRows_nat (weeks : List Nat) :
    skipRows (weeks.map (fun w : Nat => (w : Int))) = (weeks.map (fun w => w * 10080)).map (fun s : Nat => (s : Int)) := by
  unfold skipRows
  rw [List.map_map, List.map_map]
  refine List.map_congr_left (fun w _ => ?_)
  simp only [Function.comp]
  push_cast
  ring

/-- C97 for profiles: with `up`, `uq` the mean 90th percentiles of the households in the selected weeks, loads can be generated exactly if no
node feeds in more than half of them. Missing: more feed-in, see `C97_profiles_violated`; and what is generated is no feed-in, see `C97_zero`. -/
theorem C97_profiles_partial (rng : RandInt) (z : Nat → ℝ) (files : String → Option (Arr2 ℝ)) (a : ℝ) (net : Net) (fa fr : String)
    (weeks : List Nat) (days : Nat) (const : Option (List Int)) (pl ql : Arr2 ℝ) (hpl : files fa = some pl) (hql : files fr = some ql)
    (hw : weeks ≠ []) (hd : weeks.length ≤ days * 24 * 60) (hpc : pl.c ≠ 0) (hqc : ql.c ≠ 0)
    (hp : ∀ w ∈ weeks, w * 10080 + days * 24 * 60 / weeks.length ≤ pl.r) (hq : ∀ w ∈ weeks, w * 10080 + days * 24 * 60 / weeks.length ≤ ql.r)
    (up uq : ℝ) (hup : Spec.MeanPercentile pl (Spec.weekRows (weeks.map (· * 10080)) (days * 24 * 60 / weeks.length)) up) (hup0 : 0 < up)
    (huq : Spec.MeanPercentile ql (Spec.weekRows (weeks.map (· * 10080)) (days * 24 * 60 / weeks.length)) uq) (huq0 : 0 < uq) :
    (∃ r, computeLoads rng z files a net (.profiles fa fr (weeks.map (fun w : Nat => (w : Int))) days const) = .ok r) ↔
      ∀ l ∈ net.load, -(up / 2) ≤ l.p ∧ -(uq / 2) ≤ l.q := by
  have hl0 : 0 < weeks.length := List.length_pos_iff.2 hw
  have hlen : weeks.length ≠ 0 := hl0.ne'
  have hlen' : (weeks.map (fun w : Nat => (w : Int))).length ≠ 0 := by rw [List.length_map]; exact hlen
  have hrne : Spec.weekRows (weeks.map (· * 10080)) (days * 24 * 60 / weeks.length) ≠ [] := by
    intro e
    have := weekRows_length (weeks.map (· * 10080)) (days * 24 * 60 / weeks.length)
    rw [e, List.length_map] at this
    have h1 : 0 < days * 24 * 60 / weeks.length := Nat.div_pos hd hl0
    have h2 : 0 < weeks.length * (days * 24 * 60 / weeks.length) := Nat.mul_pos hl0 h1
    simp only [List.length_nil] at this
    omega
  have es : ∀ n, (∀ w ∈ weeks, w * 10080 + days * 24 * 60 / weeks.length ≤ n) →
      sliceRows n (skipRows (weeks.map (fun w : Nat => (w : Int)))) ((days * 24 * 60 / weeks.length : Nat) : Int) =
        Spec.weekRows (weeks.map (· * 10080)) (days * 24 * 60 / weeks.length) := by
    intro n hn
    rw [skipRows_nat]
    exact sliceRows_inside (by simpa using hn)
  have e1 := meanPercentile_of hrne hpc hup
  have e2 := meanPercentile_of hrne hqc huq
  have hdiv : ∀ (x u : ℝ), 0 < u → (-(1 / 2) ≤ x / u ↔ -(u / 2) ≤ x) := by
    intro x u hu
    rw [le_div_iff₀ hu]
    constructor <;> intro h <;> linarith
  constructor
  · rintro ⟨⟨p, q, t⟩, h⟩ l hmem
    obtain ⟨p0, q0, h0, h1, rfl⟩ := computeLoads_ok h
    obtain ⟨_, pl', ql', hpl', hql', hl⟩ := rawLoads_profiles h0
    rw [hpl] at hpl'
    rw [hql] at hql'
    cases hpl'
    cases hql'
    rw [List.length_map, loadProfile_eq, es _ hp, es _ hq, e1, e2] at hl
    obtain ⟨_, ha⟩ := assign_ok hl
    obtain ⟨i, hi⟩ := List.mem_iff_getElem?.1 hmem
    have hil : i < net.load.length := (List.getElem?_eq_some_iff.1 hi).1
    have hil' : i < ([nominalP net].headD []).length := by simpa [nominalP] using hil
    have gp : (nominalP net).getD i 0 = l.p := by rw [List.getD, nominalP, List.getElem?_map, hi]; rfl
    have gq : (nominalQ net).getD i 0 = l.q := by rw [List.getD, nominalQ, List.getElem?_map, hi]; rfl
    constructor
    · obtain ⟨m, _, _, _, h4⟩ := ha 0 _ rfl
      obtain ⟨_, _, hs, hr, _⟩ := columnOf_spec hpc (h4 i hil' trivial)
      rw [gp] at hr
      exact (hdiv _ _ hup0).1 (rounds_nonneg hr)
    · obtain ⟨m, _, _, _, h4⟩ := ha 1 _ rfl
      obtain ⟨_, _, hs, hr, _⟩ := columnOf_spec hqc (h4 i hil' trivial)
      rw [gq] at hr
      exact (hdiv _ _ huq0).1 (rounds_nonneg hr)
  · intro h
    have hget : ∀ (f : LoadRow → ℝ) (i : Nat), i < net.load.length → ∃ l ∈ net.load, (net.load.map f).getD i 0 = f l := by
      intro f i hi
      refine ⟨net.load[i], List.getElem_mem hi, ?_⟩
      rw [List.getD_eq_getElem _ _ (by simpa using hi), List.getElem_map]
    have hass := assign_exists (rng := rng) (k0 := 0) (n := net.load.length)
      (qs := [⟨selected pl (Spec.weekRows (weeks.map (· * 10080)) (days * 24 * 60 / weeks.length)), up, nominalP net⟩,
        ⟨selected ql (Spec.weekRows (weeks.map (· * 10080)) (days * 24 * 60 / weeks.length)), uq, nominalQ net⟩]) (by
        intro q hq'
        simp only [List.mem_cons, List.not_mem_nil, or_false] at hq'
        rcases hq' with rfl | rfl
        · refine ⟨hup0.ne', by simp [nominalP], fun i hi => ?_⟩
          obtain ⟨l, hl, e⟩ := hget LoadRow.p i hi
          rw [pyRound_nonneg_iff]
          show _ ≤ (net.load.map LoadRow.p).getD i 0 / up
          rw [e]
          exact (hdiv _ _ hup0).2 (h l hl).1
        · refine ⟨huq0.ne', by simp [nominalQ], fun i hi => ?_⟩
          obtain ⟨l, hl, e⟩ := hget LoadRow.q i hi
          rw [pyRound_nonneg_iff]
          show _ ≤ (net.load.map LoadRow.q).getD i 0 / uq
          rw [e]
          exact (hdiv _ _ huq0).2 (h l hl).2)
    obtain ⟨loads, hloads⟩ := hass
    obtain ⟨hlen2, ha⟩ := assign_ok hloads
    obtain ⟨m0, g1, _, g3, _⟩ := ha 0 _ rfl
    obtain ⟨m1, k1, _, k3, _⟩ := ha 1 _ rfl
    have hls : loads = [m0, m1] := by
      match loads, hlen2, g1, k1 with
      | [x, y], _, g1, k1 => cases g1; cases k1; rfl
    subst hls
    have hraw : rawLoads rng z files net (.profiles fa fr (weeks.map (fun w : Nat => (w : Int))) days const) = .ok (m0, m1) := by
      show (weekLength _ _).bind _ = _
      rw [weekLength_eq hlen']
      show (readProfile files fa).bind _ = _
      have r1 : readProfile files fa = .ok pl := by unfold readProfile; rw [hpl]
      have r2 : readProfile files fr = .ok ql := by unfold readProfile; rw [hql]
      rw [r1]
      show (readProfile files fr).bind _ = _
      rw [r2]
      show (loadProfile _ _ _ _ _ _ _ _).bind _ = _
      rw [List.length_map, loadProfile_eq, es _ hp, es _ hq, e1, e2]
      have hn : (List.headD [nominalP net] []).length = net.load.length := by simp [nominalP]
      show (assign rng 0 [_, _] (List.headD [nominalP net] []).length).bind _ = _
      rw [hn, hloads]
      rfl
    obtain ⟨⟨p', q'⟩, h1⟩ := blendLoads_exists a const (net := net) (p := m0) (q := m1) (by rw [g3]) (by rw [k3])
    refine ⟨(p', q', minuteTimes days), ?_⟩
    unfold computeLoads
    rw [hraw]
    show (blendLoads a const net m0 m1).bind _ = _
    rw [h1]
    rfl

theorem rounds_neg {x : ℝ} (hx : x < 0) {n : Nat} (h : Spec.Rounds x n) : n = 0 := by
  have h1 : |x - ((n : Int) : ℝ)| ≤ 1 / 2 := by
    rcases h with h | h
    · exact h.le
    · exact h.1.le
  have h2 := (abs_le.1 h1).1
  have h3 : ((n : Int) : ℝ) < 1 := by linarith
  have : (n : Int) < 1 := by exact_mod_cast h3
  omega

/-- C97: profiles never give feed-in: where loads are generated, a node of negative nominal power has no load, apart from the constant
share of the nodes chosen as constant. -/
theorem C97_zero (rng : RandInt) (z : Nat → ℝ) (files : String → Option (Arr2 ℝ)) (a : ℝ) (net : Net) (fa fr : String)
    (weeks : List Int) (days : Nat) (const : Option (List Int)) (p q : Arr2 ℝ) (t : List ℝ)
    (h : computeLoads rng z files a net (.profiles fa fr weeks days const) = .ok (p, q, t)) (i : Nat) (l : LoadRow)
    (hl : net.load[i]? = some l) :
    (l.p < 0 → ∀ k < p.r, p.get k i = if ∃ nodes, const = some nodes ∧ l.bus ∈ nodes then a * l.p else 0) ∧
      (l.q < 0 → ∀ k < q.r, q.get k i = if ∃ nodes, const = some nodes ∧ l.bus ∈ nodes then a * l.q else 0) := by
  obtain ⟨p0, q0, h0, h1, _⟩ := computeLoads_ok h
  obtain ⟨hp, hq⟩ := blendLoads_ok h1
  have hil : i < net.load.length := (List.getElem?_eq_some_iff.1 hl).1
  have gp : (nominalP net).getD i 0 = l.p := by rw [List.getD, nominalP, List.getElem?_map, hl]; rfl
  have gq : (nominalQ net).getD i 0 = l.q := by rw [List.getD, nominalQ, List.getElem?_map, hl]; rfl
  have lnp : (nominalP net).length = net.load.length := by simp [nominalP]
  obtain ⟨hw, pl, ql, _, _, hld⟩ := rawLoads_profiles h0
  have hld' := hld
  rw [loadProfile_eq] at hld'
  obtain ⟨up, hup, hld'⟩ := Prior.bind_ok hld'
  obtain ⟨uq, huq, hld'⟩ := Prior.bind_ok hld'
  obtain ⟨_, hpc, hps⟩ := meanPercentile_spec hup
  obtain ⟨_, hqc, hqs⟩ := meanPercentile_spec huq
  obtain ⟨_, ha⟩ := assign_ok hld'
  have hil' : i < ([nominalP net].headD []).length := by simpa [nominalP] using hil
  obtain ⟨m0, a1, a2, a3, a4⟩ := ha 0 _ rfl
  obtain ⟨m1, b1, b2, b3, b4⟩ := ha 1 _ rfl
  cases a1
  cases b1
  obtain ⟨nu, _, hs, hr, _, hsum⟩ := columnOf_spec hpc (a4 i hil' trivial)
  obtain ⟨nq, _, hs', hr', _, hsum'⟩ := columnOf_spec hqc (b4 i hil' trivial)
  have pup : 0 < up := lt_of_le_of_ne (meanPercentile_nonneg hps) (Ne.symm nu)
  have puq : 0 < uq := lt_of_le_of_ne (meanPercentile_nonneg hqs) (Ne.symm nq)
  rw [gp] at hr
  rw [gq] at hr'
  have fin : ∀ {m m' : Arr2 ℝ} {nom : LoadRow → ℝ}, Blended a const net.load LoadRow.bus nom m m' → i < m.c →
      (∀ k < m.r, m.get k i = 0) → ∀ k < m'.r, m'.get k i = if ∃ nodes, const = some nodes ∧ l.bus ∈ nodes then a * nom l else 0 := by
    intro m m' nom hb hc hz k hk
    have hk' : k < m.r := hb.1 ▸ hk
    obtain ⟨b1, b2⟩ := hb.2.2 k hk' i hc
    by_cases hex : ∃ nodes, const = some nodes ∧ l.bus ∈ nodes
    · rw [if_pos hex]
      obtain ⟨nodes, hn1, hn2⟩ := hex
      rw [b1 nodes l hn1 hl hn2, hz k hk']
      ring
    · rw [if_neg hex, b2 (fun nodes l' hn1 hl' hn2 => hex ⟨nodes, hn1, by rw [hl] at hl'; cases hl'; exact hn2⟩), hz k hk']
  refine ⟨fun hz => fin hp (by rw [a3]; exact hil') ?_, fun hz => fin hq (by rw [b3]; exact hil') ?_⟩
  · intro k hk
    have : hs = [] := List.length_eq_zero_iff.1 (rounds_neg (div_neg_of_neg_of_pos hz pup) hr)
    have e := hsum k (by rw [a2] at hk; exact hk)
    rw [this] at e
    simpa using e
  · intro k hk
    have : hs' = [] := List.length_eq_zero_iff.1 (rounds_neg (div_neg_of_neg_of_pos hz puq) hr')
    have e := hsum' k (by rw [b2] at hk; exact hk)
    rw [this] at e
    simpa using e

/-- one household of constant power 1 MW for one day -/
def signFile : Arr2 ℝ := Arr2.ofFn 1440 1 (fun _ _ => 1000000)

theorem signFile_percentile : Spec.MeanPercentile signFile (Spec.weekRows ([0].map (· * 10080)) (1 * 24 * 60 / [0].length)) 1 := by
  refine ⟨fun _ => 1, fun h hh => ?_, by show (1 : ℝ) = (∑ _ ∈ Finset.range 1, 1) / ((1 : Nat) : ℝ); simp⟩
  have e : (Spec.weekRows ([0].map (· * 10080)) (1 * 24 * 60 / [0].length)).map (fun t => |signFile.get t h / 1000000|) = List.replicate 1440 (1 : ℝ) := by
    refine List.eq_replicate_iff.2 ⟨by rw [List.length_map, weekRows_length]; rfl, fun x hx => ?_⟩
    obtain ⟨t, ht, rfl⟩ := List.mem_map.1 hx
    have ht' : t < 1440 := by
      simp only [Spec.weekRows, List.map_cons, List.map_nil, List.flatMap_cons, List.flatMap_nil, List.append_nil] at ht
      have := List.mem_range'_1.1 ht
      simp only [List.length_cons, List.length_nil] at this
      omega
    rw [signFile, Arr2.ofFn_get _ ht' (show h < 1 from hh)]
    norm_num
  rw [e]
  refine ⟨List.replicate 1440 1, List.Perm.refl _, List.pairwise_replicate.2 (Or.inr le_rfl), ?_⟩
  dsimp only
  rw [List.length_replicate, List.getD_eq_getElem _ _ (by rw [List.length_replicate]; norm_num),
    List.getD_eq_getElem _ _ (by rw [List.length_replicate]; norm_num), List.getElem_replicate, List.getElem_replicate]
  ring

/-- feed-in of a quarter of a household is accepted, feed-in of a whole one is not -/
example (rng : RandInt) (z : Nat → ℝ) (a x : ℝ) (net : Net) (hnet : net.load = [⟨1, 1, x, 0, 0, 0⟩]) :
    (∃ r, computeLoads rng z (fun _ => some signFile) a net (.profiles "a" "r" ([0].map (fun w : Nat => (w : Int))) 1 none) = .ok r) ↔ -(1 / 2) ≤ x := by
  rw [C97_profiles_partial rng z _ a net "a" "r" [0] 1 none signFile signFile rfl rfl (by simp) (by simp) (by show (1 : Nat) ≠ 0; norm_num)
    (by show (1 : Nat) ≠ 0; norm_num) (by simp [signFile, Arr2.ofFn]) (by simp [signFile, Arr2.ofFn]) 1 1 signFile_percentile one_pos signFile_percentile one_pos, hnet]
  simp

end
end Verif
