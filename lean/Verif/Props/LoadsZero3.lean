/-
C98 for three-phase networks: a phase without nominal power has no load.
-/
import Verif.Props.Loads3

namespace Verif
noncomputable section

/-- blending keeps a column of zeros of a node whose nominal value is zero -/
theorem blended_zero {R : Type} {a : ℝ} {const : Option (List Int)} {tab : List R} {bus : R → Int} {nom : R → ℝ} {m m' : Arr2 ℝ}
    (hb : Blended a const tab bus nom m m') {i : Nat} {l : R} (hl : tab[i]? = some l) (hc : i < m.c) (hn : nom l = 0)
    (hz : ∀ k < m.r, m.get k i = 0) : ∀ k < m'.r, m'.get k i = 0 := by
  intro k hk
  have hk' : k < m.r := hb.1 ▸ hk
  obtain ⟨b1, b2⟩ := hb.2.2 k hk' i hc
  by_cases hex : ∃ nodes, const = some nodes ∧ bus l ∈ nodes
  · obtain ⟨nodes, hn1, hn2⟩ := hex
    rw [b1 nodes l hn1 hl hn2, hz k hk', hn]
    ring
  · rw [b2 (fun nodes l' hn1 hl' hn2 => hex ⟨nodes, hn1, by rw [hl] at hl'; cases hl'; exact hn2⟩), hz k hk']

/-- no household is drawn for a nominal power of zero -/
theorem column_zero {file : Arr2 ℝ} {rows : List Nat} {hs : List Nat} {u : ℝ} {f : Nat → ℝ} (hr : Spec.Rounds (0 / u) hs.length)
    (hsum : Spec.SumOfHouseholds file rows hs f) : ∀ k < rows.length, f k = 0 := by
  rw [zero_div] at hr
  have he : hs = [] := List.length_eq_zero_iff.1 (rounds_zero hr)
  intro k hk
  have e := hsum.2 k hk
  rw [he] at e
  simpa using e

/-- C98 for three-phase networks: a symmetric load without nominal power, and each phase of an asymmetric load without nominal power,
is zero at any time, in what the power flow is run with -/
theorem C98_three (rng : RandInt) (files : String → Option (Arr2 ℝ)) (a : ℝ) (net : Net) (lp : LoadParams) (p q : Arr2 ℝ)
    (asym : List (Arr2 ℝ)) (t : List ℝ) (h : computeLoads3 rng files a net lp = .ok (p, q, asym, t))
    (flow : Net → Controls3 → Except PyErr SimResult3) : ∃ C : Controls3, simRun3 flow net p q asym = flow net C ∧
      (∀ (i : Nat) (l : LoadRow), net.load[i]? = some l →
        (l.p = 0 → ∀ k < C.p.r, C.p.get k i = 0) ∧ (l.q = 0 → ∀ k < C.q.r, C.q.get k i = 0)) ∧
      ∀ (ph : Fin 3) (i : Nat) (l : AsymRow), net.asym[i]? = some l →
        (l.p ph = 0 → ∀ k < (C.pa ph).r, (C.pa ph).get k i = 0) ∧ (l.q ph = 0 → ∀ k < (C.qa ph).r, (C.qa ph).get k i = 0) := by
  obtain ⟨p0, q0, asym0, h0, h1, h2, _⟩ := computeLoads3_ok h
  obtain ⟨hbp, hbq⟩ := blendLoads_ok h1
  obtain ⟨hal, has⟩ := blendAsym_ok h2
  cases lp with
  | gaussian sd days const => cases h0
  | profiles fa fr weeks days const =>
    obtain ⟨hw, pl, ql, hpl, hql, hl, hla⟩ := rawLoads3_profiles h0
    obtain ⟨up0, uq0, r1, c1, r2, c2, hpc0, hqc0, k1, k2⟩ := loadProfile_pair hl
    rw [loadProfile_eq] at hla
    obtain ⟨up, hup, hla⟩ := Prior.bind_ok hla
    obtain ⟨uq, huq, hla⟩ := Prior.bind_ok hla
    obtain ⟨_, hpc, hps⟩ := meanPercentile_spec hup
    obtain ⟨_, hqc, hqs⟩ := meanPercentile_spec huq
    obtain ⟨_, ha⟩ := assign_ok hla
    set rp := sliceRows pl.r (skipRows weeks) ((days * 24 * 60 / weeks.length : Nat) : Int)
    set rq := sliceRows ql.r (skipRows weeks) ((days * 24 * 60 / weeks.length : Nat) : Int)
    have hn : ([asymRefs net 0, asymRefs net 1, asymRefs net 2].headD []).length = net.asym.length := by simp [asymRefs]
    rw [hn] at ha
    have one : ∀ (s : Nat) (file : Arr2 ℝ) (rows : List Nat) (u : ℝ), s < 6 → file.c ≠ 0 →
        ([asymRefs net 0, asymRefs net 1, asymRefs net 2].map (fun r => (⟨selected pl rp, up, r⟩ : Quantity)) ++
          [asymRefs net 3, asymRefs net 4, asymRefs net 5].map (fun r => (⟨selected ql rq, uq, r⟩ : Quantity)))[s]? =
          some ⟨selected file rows, u, asymRefs net s⟩ →
        ∃ m : Arr2 ℝ, asymFrame net asym s = .ok m ∧ ∀ (i : Nat) (l : AsymRow), net.asym[i]? = some l → asymNominal l s = 0 →
          ∀ k < m.r, m.get k i = 0 := by
      intro s file rows u hs hc hq
      obtain ⟨m0, g1, g2, g3, g4⟩ := ha s _ hq
      obtain ⟨m, j1, j2⟩ := has s m0 g1 hs
      refine ⟨m, by unfold asymFrame; rw [j1]; exact if_pos (j2.2.1.trans g3), fun i l hl hz => ?_⟩
      have hil : i < net.asym.length := (List.getElem?_eq_some_iff.1 hl).1
      refine blended_zero j2 hl (by rw [g3]; exact hil) hz ?_
      obtain ⟨_, _, hs', hr, hsum⟩ := columnOf_spec hc (g4 i hil trivial)
      have href : (asymRefs net s).getD i 0 = 0 := by
        rw [List.getD, asymRefs, List.getElem?_map, hl]
        exact hz
      change Spec.Rounds ((asymRefs net s).getD i 0 / u) _ at hr
      rw [href] at hr
      intro k hk
      exact column_zero hr hsum k (by rw [g2] at hk; exact hk)
    obtain ⟨m0, f0, e0⟩ := one 0 pl rp up (by norm_num) hpc rfl
    obtain ⟨m1, f1, e1⟩ := one 1 pl rp up (by norm_num) hpc rfl
    obtain ⟨m2, f2, e2⟩ := one 2 pl rp up (by norm_num) hpc rfl
    obtain ⟨m3, f3, e3⟩ := one 3 ql rq uq (by norm_num) hqc rfl
    obtain ⟨m4, f4, e4⟩ := one 4 ql rq uq (by norm_num) hqc rfl
    obtain ⟨m5, f5, e5⟩ := one 5 ql rq uq (by norm_num) hqc rfl
    have lnp : (nominalP net).length = net.load.length := by simp [nominalP]
    have hpc' : p.c = net.load.length := by rw [hbp.2.1, c1, lnp]
    have hqc' : q.c = net.load.length := by rw [hbq.2.1, c2, lnp]
    refine ⟨{ p := p, q := q, pa := ![m0, m1, m2], qa := ![m3, m4, m5] }, ?_, ?_, ?_⟩
    · unfold simRun3
      rw [frame, if_pos hpc', frame, if_pos hqc', f0, f1, f2, f3, f4, f5]
      rfl
    · intro i l hl
      have hil : i < net.load.length := (List.getElem?_eq_some_iff.1 hl).1
      have gp : (nominalP net).getD i 0 = l.p := by rw [List.getD, nominalP, List.getElem?_map, hl]; rfl
      have gq : (nominalQ net).getD i 0 = l.q := by rw [List.getD, nominalQ, List.getElem?_map, hl]; rfl
      refine ⟨fun hz => blended_zero hbp hl (by omega) hz ?_, fun hz => blended_zero hbq hl (by omega) hz ?_⟩
      · obtain ⟨_, _, hs, hr, hsum⟩ := columnOf_spec hpc0 (k1 i (lnp ▸ hil))
        rw [gp, hz] at hr
        exact fun k hk => column_zero hr hsum k (r1 ▸ hk)
      · obtain ⟨_, _, hs, hr, hsum⟩ := columnOf_spec hqc0 (k2 i (lnp ▸ hil))
        rw [gq, hz] at hr
        exact fun k hk => column_zero hr hsum k (r2 ▸ hk)
    · intro ph i l hl
      fin_cases ph
      · exact ⟨e0 i l hl, e3 i l hl⟩
      · exact ⟨e1 i l hl, e4 i l hl⟩
      · exact ⟨e2 i l hl, e5 i l hl⟩

/-- C98_three: a load on the first phase only, of which the flow sees nothing on the second phase -/
example (rng : RandInt) (net : Net) (hload : net.load = []) (hasym : net.asym = [⟨0, 7, ![1, 0, 0], ![0, 0, 0]⟩])
    (flow : Net → Controls3 → Except PyErr SimResult3) : ∃ p q asym t C,
      computeLoads3 rng (fun _ => some (flatFile 1440)) 1 net (.profiles "p" "q" [0] 1 none) = .ok (p, q, asym, t) ∧
      simRun3 flow net p q asym = flow net C ∧ ∀ k < (C.pa 1).r, (C.pa 1).get k 0 = 0 := by
  obtain ⟨⟨p, q, asym, t⟩, h⟩ := flat_computeLoads3 rng 1 net (rows := 1440) (days := 1) (by norm_num) (by norm_num)
    (by rw [hload]; simp) (by
      rw [hasym]
      intro l hl ph
      rw [List.mem_singleton.1 hl]
      fin_cases ph <;> simp)
  obtain ⟨C, e, -, hC⟩ := C98_three rng _ 1 net _ p q asym t h flow
  exact ⟨p, q, asym, t, C, h, e, (hC 1 0 ⟨0, 7, ![1, 0, 0], ![0, 0, 0]⟩ (by rw [hasym]; rfl)).1 (by simp)⟩

end
end Verif
