/-
C97 for three phases: exactly when loads can be generated for networks with phases of negative nominal power, and what they are then.
-/
import Verif.Props.LoadSign
import Verif.Props.SimulateRun3

namespace Verif
noncomputable section

theorem half_le_div {x u : ℝ} (hu : 0 < u) : -(1 / 2) ≤ x / u ↔ -(u / 2) ≤ x := by
  rw [le_div_iff₀ hu]
  constructor <;> intro h <;> linarith

/-- when the profiles of files can be assigned to reference powers -/
theorem loadProfile_iff (rng : RandInt) (k0 : ℕ) {pl ql : Arr2 ℝ} {weeks : List ℕ} {len : ℕ} (hw : weeks ≠ []) (hlen : 0 < len)
    (hpc : pl.c ≠ 0) (hqc : ql.c ≠ 0) (hp : ∀ w ∈ weeks, w * 10080 + len ≤ pl.r) (hq : ∀ w ∈ weeks, w * 10080 + len ≤ ql.r) {up uq : ℝ}
    (hup : Spec.MeanPercentile pl (Spec.weekRows (weeks.map (· * 10080)) len) up) (hup0 : 0 < up)
    (huq : Spec.MeanPercentile ql (Spec.weekRows (weeks.map (· * 10080)) len) uq) (huq0 : 0 < uq) {n : ℕ} {refP refQ : List (List ℝ)}
    (hh : (refP.headD []).length = n) (hr : ∀ r ∈ refP ++ refQ, r.length = n) :
    ((∃ loads, loadProfile rng k0 pl ql (skipRows (weeks.map (fun w : ℕ => (w : Int)))) ((len : ℕ) : Int) refP refQ = .ok loads) ↔
      (∀ r ∈ refP, ∀ x ∈ r, -(up / 2) ≤ x) ∧ ∀ r ∈ refQ, ∀ x ∈ r, -(uq / 2) ≤ x) ∧
    ∀ loads, loadProfile rng k0 pl ql (skipRows (weeks.map (fun w : ℕ => (w : Int)))) ((len : ℕ) : Int) refP refQ = .ok loads →
      loads.length = refP.length + refQ.length ∧ ∀ m ∈ loads, m.c = n := by
  have hl0 : 0 < weeks.length := List.length_pos_iff.2 hw
  have hrne : Spec.weekRows (weeks.map (· * 10080)) len ≠ [] := by
    intro e
    have := weekRows_length (weeks.map (· * 10080)) len
    rw [e, List.length_map] at this
    have h2 : 0 < weeks.length * len := Nat.mul_pos hl0 hlen
    simp only [List.length_nil] at this
    omega
  have es : ∀ n, (∀ w ∈ weeks, w * 10080 + len ≤ n) →
      sliceRows n (skipRows (weeks.map (fun w : Nat => (w : Int)))) (len : Int) = Spec.weekRows (weeks.map (· * 10080)) len := by
    intro n hn
    rw [skipRows_nat]
    exact sliceRows_inside (by simpa using hn)
  have e0 : loadProfile rng k0 pl ql (skipRows (weeks.map (fun w : ℕ => (w : Int)))) ((len : ℕ) : Int) refP refQ =
      assign rng k0 (refP.map (fun r => ⟨selected pl (Spec.weekRows (weeks.map (· * 10080)) len), up, r⟩) ++
        refQ.map (fun r => ⟨selected ql (Spec.weekRows (weeks.map (· * 10080)) len), uq, r⟩)) n := by
    rw [loadProfile_eq, es _ hp, es _ hq, meanPercentile_of hrne hpc hup, meanPercentile_of hrne hqc huq, hh]
    rfl
  rw [e0]
  refine ⟨⟨?_, ?_⟩, ?_⟩
  · rintro ⟨loads, hl⟩
    obtain ⟨_, ha⟩ := assign_ok hl
    have key : ∀ {a : Arr2 ℝ} {u : ℝ} {r : List ℝ}, a.c ≠ 0 → 0 < u → r.length = n →
        (⟨selected a (Spec.weekRows (weeks.map (· * 10080)) len), u, r⟩ : Quantity) ∈
          refP.map (fun r => (⟨selected pl (Spec.weekRows (weeks.map (· * 10080)) len), up, r⟩ : Quantity)) ++
          refQ.map (fun r => (⟨selected ql (Spec.weekRows (weeks.map (· * 10080)) len), uq, r⟩ : Quantity)) →
        ∀ x ∈ r, -(u / 2) ≤ x := by
      intro a u r ha0 hu hrn hmem x hx
      obtain ⟨s, hs⟩ := List.mem_iff_getElem?.1 hmem
      obtain ⟨m, _, _, _, h4⟩ := ha s _ hs
      obtain ⟨i, hi, rfl⟩ := List.mem_iff_getElem.1 hx
      obtain ⟨_, _, hs', hr', _⟩ := columnOf_spec ha0 (h4 i (hrn ▸ hi) trivial)
      rw [List.getD_eq_getElem _ _ hi] at hr'
      exact (half_le_div hu).1 (rounds_nonneg hr')
    exact ⟨fun r hr' => key hpc hup0 (hr r (List.mem_append_left _ hr')) (List.mem_append_left _ (List.mem_map.2 ⟨r, hr', rfl⟩)),
      fun r hr' => key hqc huq0 (hr r (List.mem_append_right _ hr')) (List.mem_append_right _ (List.mem_map.2 ⟨r, hr', rfl⟩))⟩
  · rintro ⟨h1, h2⟩
    refine assign_exists (fun q hq' => ?_)
    have key : ∀ {u : ℝ} {r : List ℝ}, 0 < u → r.length = n → (∀ x ∈ r, -(u / 2) ≤ x) → ∀ i < n, 0 ≤ pyRound (r.getD i 0 / u) := by
      intro u r hu hrn hx i hi
      rw [pyRound_nonneg_iff, half_le_div hu, List.getD_eq_getElem _ _ (hrn.symm ▸ hi)]
      exact hx _ (List.getElem_mem _)
    rcases List.mem_append.1 hq' with hm | hm
    · obtain ⟨r, hr', rfl⟩ := List.mem_map.1 hm
      have e := hr r (List.mem_append_left _ hr')
      exact ⟨hup0.ne', e.ge, key hup0 e (h1 r hr')⟩
    · obtain ⟨r, hr', rfl⟩ := List.mem_map.1 hm
      have e := hr r (List.mem_append_right _ hr')
      exact ⟨huq0.ne', e.ge, key huq0 e (h2 r hr')⟩
  · intro loads hl
    obtain ⟨h1, ha⟩ := assign_ok hl
    refine ⟨by simpa using h1, fun m hm => ?_⟩
    obtain ⟨s, hs, rfl⟩ := List.mem_iff_getElem.1 hm
    obtain ⟨m, g1, _, g3, _⟩ := ha s _ (List.getElem?_eq_getElem (h1 ▸ hs))
    rw [List.getElem?_eq_getElem hs] at g1
    cases g1
    exact g3

/-- C97, violated for three phases: random loads cannot be generated at all. -/
theorem C97_three_gaussian_violated (rng : RandInt) (files : String → Option (Arr2 ℝ)) (a : ℝ) (net : Net) (sd : ℝ) (days : ℕ)
    (const : Option (List Int)) : computeLoads3 rng files a net (.gaussian sd days const) = .error .nameError := rfl

/-- C97 for profiles and three phases: with `up`, `uq` the mean 90th percentiles of the households in the selected weeks, loads can be
generated exactly if no symmetric load and no phase of an asymmetric load feeds in more than half of them. Missing: more feed-in; and what is
generated is no feed-in, see `C97_three_zero`. -/
theorem C97_three_profiles_partial (rng : RandInt) (files : String → Option (Arr2 ℝ)) (a : ℝ) (net : Net) (fa fr : String)
    (weeks : List ℕ) (days : ℕ) (const : Option (List Int)) (pl ql : Arr2 ℝ) (hpl : files fa = some pl) (hql : files fr = some ql)
    (hw : weeks ≠ []) (hd : weeks.length ≤ days * 24 * 60) (hpc : pl.c ≠ 0) (hqc : ql.c ≠ 0)
    (hp : ∀ w ∈ weeks, w * 10080 + days * 24 * 60 / weeks.length ≤ pl.r) (hq : ∀ w ∈ weeks, w * 10080 + days * 24 * 60 / weeks.length ≤ ql.r)
    (up uq : ℝ) (hup : Spec.MeanPercentile pl (Spec.weekRows (weeks.map (· * 10080)) (days * 24 * 60 / weeks.length)) up) (hup0 : 0 < up)
    (huq : Spec.MeanPercentile ql (Spec.weekRows (weeks.map (· * 10080)) (days * 24 * 60 / weeks.length)) uq) (huq0 : 0 < uq) :
    (∃ r, computeLoads3 rng files a net (.profiles fa fr (weeks.map (fun w : ℕ => (w : Int))) days const) = .ok r) ↔
      (∀ l ∈ net.load, -(up / 2) ≤ l.p ∧ -(uq / 2) ≤ l.q) ∧
        ∀ l ∈ net.asym, ∀ ph : Fin 3, -(up / 2) ≤ l.p ph ∧ -(uq / 2) ≤ l.q ph := by
  have hl0 : 0 < weeks.length := List.length_pos_iff.2 hw
  obtain ⟨i1, s1⟩ := loadProfile_iff rng 0 hw (Nat.div_pos hd hl0) hpc hqc hp hq hup hup0 huq huq0 (n := net.load.length)
    (refP := [nominalP net]) (refQ := [nominalQ net]) (by simp [nominalP]) (by simp [nominalP, nominalQ])
  obtain ⟨i2, s2⟩ := loadProfile_iff rng (2 * net.load.length) hw (Nat.div_pos hd hl0) hpc hqc hp hq hup hup0 huq huq0 (n := net.asym.length)
    (refP := [asymRefs net 0, asymRefs net 1, asymRefs net 2]) (refQ := [asymRefs net 3, asymRefs net 4, asymRefs net 5])
    (by simp [asymRefs]) (by simp [asymRefs])
  have c1 : ((∀ r ∈ [nominalP net], ∀ x ∈ r, -(up / 2) ≤ x) ∧ ∀ r ∈ [nominalQ net], ∀ x ∈ r, -(uq / 2) ≤ x) ↔
      ∀ l ∈ net.load, -(up / 2) ≤ l.p ∧ -(uq / 2) ≤ l.q := by
    simp only [List.mem_singleton, forall_eq, nominalP, nominalQ, List.forall_mem_map]
    exact ⟨fun h l hl => ⟨h.1 l hl, h.2 l hl⟩, fun h => ⟨fun l hl => (h l hl).1, fun l hl => (h l hl).2⟩⟩
  have c2 : ((∀ r ∈ [asymRefs net 0, asymRefs net 1, asymRefs net 2], ∀ x ∈ r, -(up / 2) ≤ x) ∧
      ∀ r ∈ [asymRefs net 3, asymRefs net 4, asymRefs net 5], ∀ x ∈ r, -(uq / 2) ≤ x) ↔
      ∀ l ∈ net.asym, ∀ ph : Fin 3, -(up / 2) ≤ l.p ph ∧ -(uq / 2) ≤ l.q ph := by
    simp only [List.mem_cons, List.not_mem_nil, or_false, forall_eq_or_imp, forall_eq, asymRefs, List.forall_mem_map, asymNominal]
    constructor
    · rintro ⟨⟨h0, h1, h2⟩, h3, h4, h5⟩ l hl ph
      fin_cases ph
      · exact ⟨h0 l hl, h3 l hl⟩
      · exact ⟨h1 l hl, h4 l hl⟩
      · exact ⟨h2 l hl, h5 l hl⟩
    · intro h
      exact ⟨⟨fun l hl => (h l hl 0).1, fun l hl => (h l hl 1).1, fun l hl => (h l hl 2).1⟩,
        fun l hl => (h l hl 0).2, fun l hl => (h l hl 1).2, fun l hl => (h l hl 2).2⟩
  rw [← c1, ← c2, ← i1, ← i2]
  constructor
  · rintro ⟨⟨p, q, as, t⟩, h⟩
    obtain ⟨p0, q0, as0, h0, -⟩ := computeLoads3_ok h
    obtain ⟨_, pl', ql', hpl', hql', hl, hla⟩ := rawLoads3_profiles h0
    rw [hpl] at hpl'
    rw [hql] at hql'
    cases hpl'
    cases hql'
    rw [List.length_map] at hl hla
    exact ⟨⟨_, hl⟩, _, hla⟩
  · rintro ⟨⟨l, hl⟩, as, has⟩
    obtain ⟨g1, g2⟩ := s1 l hl
    obtain ⟨k1, k2⟩ := s2 as has
    obtain ⟨p0, q0, rfl⟩ := List.length_eq_two.1 g1
    have hraw : rawLoads3 rng files net (.profiles fa fr (weeks.map (fun w : ℕ => (w : Int))) days const) = .ok (p0, q0, as) := by
      have hw' : (weeks.map (fun w : ℕ => (w : Int))).length ≠ 0 := by simpa using hw
      simp only [rawLoads3, weekLength_eq hw', readProfile, hpl, hql, bind, Except.bind, List.length_map, hl, unpack2, has,
        pure, Except.pure]
    obtain ⟨⟨p, q⟩, hb⟩ := blendLoads_exists a const (net := net) (p := p0) (q := q0) (g2 p0 (by simp)).ge (g2 q0 (by simp)).ge
    obtain ⟨asym, hba⟩ := blendAsym_exists a const (net := net) (loads := as) k1 (fun m hm => (k2 m hm).ge)
    refine ⟨(p, q, asym, minuteTimes days), ?_⟩
    unfold computeLoads3
    rw [hraw]
    show (blendLoads a const net p0 q0).bind _ = _
    rw [hb]
    show (blendAsym a const net as).bind _ = _
    rw [hba]
    rfl

/-- C97 for three phases: profiles never give feed-in: where loads are generated, a phase of an asymmetric load with negative nominal power
has no load, apart from the constant share of the nodes chosen as constant. -/
theorem C97_three_zero (rng : RandInt) (files : String → Option (Arr2 ℝ)) (a : ℝ) (net : Net) (fa fr : String)
    (weeks : List Int) (days : ℕ) (const : Option (List Int)) (p q : Arr2 ℝ) (asym : List (Arr2 ℝ)) (t : List ℝ)
    (h : computeLoads3 rng files a net (.profiles fa fr weeks days const) = .ok (p, q, asym, t)) (i : ℕ) (l : AsymRow)
    (hl : net.asym[i]? = some l) (ph : Fin 3) :
    (l.p ph < 0 → ∃ m, asym[ph.val]? = some m ∧
      ∀ k < m.r, m.get k i = if ∃ nodes, const = some nodes ∧ l.bus ∈ nodes then a * l.p ph else 0) ∧
    (l.q ph < 0 → ∃ m, asym[3 + ph.val]? = some m ∧
      ∀ k < m.r, m.get k i = if ∃ nodes, const = some nodes ∧ l.bus ∈ nodes then a * l.q ph else 0) := by
  obtain ⟨p0, q0, as0, h0, -, h2, -⟩ := computeLoads3_ok h
  obtain ⟨hal, hab⟩ := blendAsym_ok h2
  obtain ⟨_, pl, ql, _, _, _, hla⟩ := rawLoads3_profiles h0
  have hil : i < net.asym.length := (List.getElem?_eq_some_iff.1 hl).1
  rw [loadProfile_eq] at hla
  obtain ⟨up, hup, hla⟩ := Prior.bind_ok hla
  obtain ⟨uq, huq, hla⟩ := Prior.bind_ok hla
  obtain ⟨_, hpc, hps⟩ := meanPercentile_spec hup
  obtain ⟨_, hqc, hqs⟩ := meanPercentile_spec huq
  obtain ⟨_, ha⟩ := assign_ok hla
  have hn : ([asymRefs net 0, asymRefs net 1, asymRefs net 2].headD []).length = net.asym.length := by simp [asymRefs]
  rw [hn] at ha
  have href : ∀ s : ℕ, (asymRefs net s).getD i 0 = asymNominal l s := by
    intro s
    rw [List.getD, asymRefs, List.getElem?_map, hl]
    rfl
  have key : ∀ {f : Arr2 ℝ} {rows : List ℕ} {u : ℝ} (s : ℕ), s < 6 → f.c ≠ 0 → Spec.MeanPercentile f rows u →
      (List.map (fun r => (⟨selected pl (sliceRows pl.r (skipRows weeks) ((days * 24 * 60 / weeks.length : ℕ) : Int)), up, r⟩ : Quantity))
        [asymRefs net 0, asymRefs net 1, asymRefs net 2] ++
        List.map (fun r => (⟨selected ql (sliceRows ql.r (skipRows weeks) ((days * 24 * 60 / weeks.length : ℕ) : Int)), uq, r⟩ : Quantity))
        [asymRefs net 3, asymRefs net 4, asymRefs net 5])[s]? = some ⟨selected f rows, u, asymRefs net s⟩ →
      asymNominal l s < 0 → ∃ m, asym[s]? = some m ∧
        ∀ k < m.r, m.get k i = if ∃ nodes, const = some nodes ∧ l.bus ∈ nodes then a * asymNominal l s else 0 := by
    intro f rows u s hs hf hu hq hneg
    obtain ⟨m0, a1, a2, a3, a4⟩ := ha s _ hq
    obtain ⟨nu, _, hs0, hr, _, hsum⟩ := columnOf_spec hf (a4 i hil trivial)
    have pu : 0 < u := lt_of_le_of_ne (meanPercentile_nonneg hu) (Ne.symm nu)
    rw [href] at hr
    have hnil : hs0 = [] := List.length_eq_zero_iff.1 (rounds_neg (div_neg_of_neg_of_pos hneg pu) hr)
    have hz : ∀ k < m0.r, m0.get k i = 0 := by
      intro k hk
      have e := hsum k (by rw [a2] at hk; exact hk)
      rw [hnil] at e
      simpa using e
    obtain ⟨m, g1, g2⟩ := hab s m0 a1 hs
    refine ⟨m, g1, fun k hk => ?_⟩
    have hk' : k < m0.r := g2.1 ▸ hk
    obtain ⟨b1, b2⟩ := g2.2.2 k hk' i (by rw [a3]; exact hil)
    by_cases hex : ∃ nodes, const = some nodes ∧ l.bus ∈ nodes
    · rw [if_pos hex]
      obtain ⟨nodes, hn1, hn2⟩ := hex
      rw [b1 nodes l hn1 hl hn2, hz k hk']
      ring
    · rw [if_neg hex, b2 (fun nodes l' hn1 hl' hn2 => hex ⟨nodes, hn1, by rw [hl] at hl'; cases hl'; exact hn2⟩), hz k hk']
  constructor
  · intro hneg
    have e : l.p ph = asymNominal l ph.val := by fin_cases ph <;> rfl
    rw [e] at hneg ⊢
    refine key ph.val (by omega) hpc hps ?_ hneg
    fin_cases ph <;> rfl
  · intro hneg
    have e : l.q ph = asymNominal l (3 + ph.val) := by fin_cases ph <;> rfl
    rw [e] at hneg ⊢
    refine key (3 + ph.val) (by omega) hqc hqs ?_ hneg
    fin_cases ph <;> rfl

/-- one phase feeding in a quarter of a household is accepted, one feeding in a whole household is not -/
example (rng : RandInt) (a x : ℝ) (net : Net) (hnet : net.load = []) (hasym : net.asym = [⟨1, 1, ![0, x, 0], fun _ => 0⟩]) :
    (∃ r, computeLoads3 rng (fun _ => some signFile) a net (.profiles "a" "r" ([0].map (fun w : ℕ => (w : Int))) 1 none) = .ok r) ↔
      -(1 / 2) ≤ x := by
  rw [C97_three_profiles_partial rng _ a net "a" "r" [0] 1 none signFile signFile rfl rfl (by simp) (by simp) (by show (1 : ℕ) ≠ 0; norm_num)
    (by show (1 : ℕ) ≠ 0; norm_num) (by simp [signFile, Arr2.ofFn]) (by simp [signFile, Arr2.ofFn]) 1 1 signFile_percentile one_pos
    signFile_percentile one_pos, hnet, hasym]
  constructor
  · rintro ⟨-, h⟩
    simpa using (h _ (List.mem_singleton.2 rfl) 1).1
  · intro h
    refine ⟨by simp, fun l hl ph => ?_⟩
    rw [List.mem_singleton.1 hl]
    fin_cases ph
    · norm_num
    · exact ⟨by simpa using h, by norm_num⟩
    · norm_num

end
end Verif
