/-
C76, C77, C83: loads of three-phase networks.
-/
import Verif.Props.Loads2

namespace Verif
noncomputable section

/-! ### blending of the asymmetric loads -/

/-- `loads'` is `loads` with the columns `j < k` of the listed nodes blended with their nominal values, and column `k` too for the first
`n` quantities -/
def AsymBlended (a : ℝ) (nodes : List Int) (net : Net) (k n : Nat) (loads loads' : List (Arr2 ℝ)) : Prop :=
  loads'.length = loads.length ∧ ∀ s m, loads[s]? = some m → s < 6 → ∃ m', loads'[s]? = some m' ∧
    BlendedTo a nodes net.asym AsymRow.bus (fun l => asymNominal l s) (if s < n then k + 1 else k) m m'

theorem blendAsym_ok {a : ℝ} {const : Option (List Int)} {net : Net} {loads loads' : List (Arr2 ℝ)}
    (h : blendAsym a const net loads = .ok loads') : loads'.length = loads.length ∧ ∀ s m, loads[s]? = some m → s < 6 →
      ∃ m', loads'[s]? = some m' ∧ Blended a const net.asym AsymRow.bus (fun l => asymNominal l s) m m' := by
  cases const with
  | none => cases h; exact ⟨rfl, fun s m hm _ => ⟨m, hm, blended_none _⟩⟩
  | some nodes =>
    have key := forRange_of_ok (fun k l => AsymBlended a nodes net k 0 loads l) h
      ⟨rfl, fun s m hm _ => ⟨m, hm, by rw [if_neg (Nat.not_lt_zero s)]; exact blendedTo_zero _⟩⟩ ?_
    · refine ⟨key.1, fun s m hm hs => ?_⟩
      obtain ⟨m', h1, h2⟩ := key.2 s m hm hs
      rw [if_neg (Nat.not_lt_zero s)] at h2
      exact ⟨m', h1, blended_of_blendedTo h2⟩
    · intro k hk st st' hP hf
      have hl := List.getElem?_eq_getElem hk
      rw [hl] at hf
      dsimp only at hf
      split at hf
      · rename_i hb
        have inner := forRange_of_ok (fun n l => AsymBlended a nodes net k n loads l) hf hP ?_
        · refine ⟨inner.1, fun s m hm hs => ?_⟩
          obtain ⟨m', h1, h2⟩ := inner.2 s m hm hs
          rw [if_pos hs] at h2
          exact ⟨m', h1, by rw [if_neg (Nat.not_lt_zero s)]; exact h2⟩
        · intro n hn l l' hQ hg
          split at hg
          · rename_i m hm
            obtain ⟨m', h1, hg⟩ := Prior.bind_ok hg
            cases hg
            refine ⟨by rw [List.length_set]; exact hQ.1, fun s m0 hm0 hs => ?_⟩
            obtain ⟨m1, g1, g2⟩ := hQ.2 s m0 hm0 hs
            by_cases hsn : s = n
            · subst hsn
              rw [hm] at g1
              cases g1
              rw [if_neg (lt_irrefl s)] at g2
              refine ⟨m', List.getElem?_set_self (List.getElem?_eq_some_iff.1 hm).1, ?_⟩
              rw [if_pos (Nat.lt_succ_self s)]
              exact blendedTo_step (nom := fun l => asymNominal l s) hl hb g2 h1
            · refine ⟨m1, by rw [List.getElem?_set_ne (Ne.symm hsn)]; exact g1, ?_⟩
              have : (if s < n + 1 then k + 1 else k) = if s < n then k + 1 else k := by
                split_ifs <;> omega
              rw [this]
              exact g2
          · cases hg
      · rename_i hb
        cases hf
        refine ⟨hP.1, fun s m hm hs => ?_⟩
        obtain ⟨m', h1, h2⟩ := hP.2 s m hm hs
        rw [if_neg (Nat.not_lt_zero s)] at h2
        exact ⟨m', h1, by rw [if_neg (Nat.not_lt_zero s)]; exact blendedTo_skip hl hb h2⟩

theorem computeLoads3_ok {rng : RandInt} {files : String → Option (Arr2 ℝ)} {a : ℝ} {net : Net} {lp : LoadParams}
    {p q : Arr2 ℝ} {asym : List (Arr2 ℝ)} {t : List ℝ} (h : computeLoads3 rng files a net lp = .ok (p, q, asym, t)) :
    ∃ p0 q0 asym0, rawLoads3 rng files net lp = .ok (p0, q0, asym0) ∧ blendLoads a lp.const net p0 q0 = .ok (p, q) ∧
      blendAsym a lp.const net asym0 = .ok asym ∧ t = minuteTimes lp.days := by
  unfold computeLoads3 at h
  obtain ⟨⟨p0, q0, asym0⟩, h0, h⟩ := Prior.bind_ok h
  obtain ⟨⟨p1, q1⟩, h1, h⟩ := Prior.bind_ok h
  obtain ⟨asym1, h2, h⟩ := Prior.bind_ok h
  cases h
  exact ⟨p0, q0, asym0, h0, h1, h2, rfl⟩

/-- C77 for a three-phase network: the same for the symmetric loads and for the six quantities of the asymmetric ones, in the order
`p_a, p_b, p_c, q_a, q_b, q_c`. -/
theorem C77_three (rng : RandInt) (files : String → Option (Arr2 ℝ)) (a : ℝ) (ha0 : 0 ≤ a) (ha1 : a ≤ 1) (net : Net)
    (lp : LoadParams) (p q : Arr2 ℝ) (asym : List (Arr2 ℝ)) (t : List ℝ) (h : computeLoads3 rng files a net lp = .ok (p, q, asym, t)) :
    ∃ p0 q0 asym0, rawLoads3 rng files net lp = .ok (p0, q0, asym0) ∧ p.r = p0.r ∧ p.c = p0.c ∧ q.r = q0.r ∧ q.c = q0.c ∧
      asym.length = asym0.length ∧
      (∀ (i : Nat) (l : LoadRow), net.load[i]? = some l →
        (∀ t < p0.r, i < p0.c → Spec.Between (p.get t i) (p0.get t i) l.p ∧ (a = 0 → p.get t i = p0.get t i) ∧
          (a = 1 → (∃ nodes, lp.const = some nodes ∧ l.bus ∈ nodes) → p.get t i = l.p) ∧
          ((∀ nodes, lp.const = some nodes → l.bus ∉ nodes) → p.get t i = p0.get t i)) ∧
        (∀ t < q0.r, i < q0.c → Spec.Between (q.get t i) (q0.get t i) l.q ∧ (a = 0 → q.get t i = q0.get t i) ∧
          (a = 1 → (∃ nodes, lp.const = some nodes ∧ l.bus ∈ nodes) → q.get t i = l.q) ∧
          ((∀ nodes, lp.const = some nodes → l.bus ∉ nodes) → q.get t i = q0.get t i))) ∧
      ∀ (s : Nat) (m0 : Arr2 ℝ), asym0[s]? = some m0 → s < 6 → ∃ m : Arr2 ℝ, asym[s]? = some m ∧ m.r = m0.r ∧ m.c = m0.c ∧
        ∀ (i : Nat) (l : AsymRow), net.asym[i]? = some l → ∀ t < m0.r, i < m0.c →
          let nom := if s < 3 then l.p (Fin.ofNat 3 s) else l.q (Fin.ofNat 3 (s - 3))
          Spec.Between (m.get t i) (m0.get t i) nom ∧ (a = 0 → m.get t i = m0.get t i) ∧
          (a = 1 → (∃ nodes, lp.const = some nodes ∧ l.bus ∈ nodes) → m.get t i = nom) ∧
          ((∀ nodes, lp.const = some nodes → l.bus ∉ nodes) → m.get t i = m0.get t i) := by
  obtain ⟨p0, q0, asym0, h0, h1, h2, _⟩ := computeLoads3_ok h
  obtain ⟨hp, hq⟩ := blendLoads_ok h1
  obtain ⟨hal, has⟩ := blendAsym_ok h2
  refine ⟨p0, q0, asym0, h0, hp.1, hp.2.1, hq.1, hq.2.1, hal, fun i l hl =>
    ⟨fun t ht hi => blended_between ha0 ha1 hp ht hi hl, fun t ht hi => blended_between ha0 ha1 hq ht hi hl⟩, ?_⟩
  intro s m0 hm0 hs
  obtain ⟨m, hm, hb⟩ := has s m0 hm0 hs
  refine ⟨m, hm, hb.1, hb.2.1, fun i l hl t ht hi => ?_⟩
  have e : asymNominal l s = if s < 3 then l.p (Fin.ofNat 3 s) else l.q (Fin.ofNat 3 (s - 3)) := by
    interval_cases s <;> rfl
  intro nom
  have := blended_between ha0 ha1 hb ht hi hl
  rw [e] at this
  exact this

/-! ### C83 -/

/-- C83, violated: with random loads, `generate_loads` of a three-phase network raises a `NameError`, whatever the network. -/
theorem C83_violated (rng : RandInt) (files : String → Option (Arr2 ℝ)) (a : ℝ) (name : String) (net : Net) (sd : ℝ) (days : Nat)
    (const : Option (List Int)) (st : Store) :
    generateLoads3 rng files a name net (some (.gaussian sd days const)) st = (.error .nameError, st) := rfl

theorem generateGaussianLoad_all {z : Nat → ℝ} {sd : ℝ} {n : Nat} {refs : List (List ℝ)} {f : Nat → Arr2 ℝ}
    (h : ∀ s < refs.length, gaussianLoad z (s * (n * (refs.headD []).length)) sd n (refs.getD s []) = .ok (f s)) :
    generateGaussianLoad z sd n refs = .ok ((List.range refs.length).map f) := by
  obtain ⟨l, h1, h2⟩ := forRange_inv (fun k (l : List (Arr2 ℝ)) => l = (List.range k).map f) refs.length [] (fun acc s => do
    let a ← gaussianLoad z (s * (n * (refs.headD []).length)) sd n (refs.getD s [])
    pure (acc ++ [a])) rfl (fun k hk l hl => ⟨l ++ [f k], by rw [h k hk]; rfl, by rw [hl, List.range_succ, List.map_append]; rfl⟩)
  rw [← h2]
  exact h1

/-- C83, violated beyond the missing import: the arrays of `generate_gaussian_load` are in the order `pa, qa, pb, qb, pc, qc`, while the
simulation takes them as `p_a, p_b, p_c, q_a, q_b, q_c`; the power flow is then run with the reactive power of phase a as the active power of
phase b. -/
theorem C83_order_violated (flow : Net → Controls3 → Except PyErr SimResult3) (z : Nat → ℝ) (n : Nat) (net : Net) (p q : Arr2 ℝ)
    (hp : p.c = net.load.length) (hq : q.c = net.load.length) (t i : Nat) (ht : t < n) (l : AsymRow) (hl : net.asym[i]? = some l)
    (hne : l.q 0 ≠ l.p 1) :
    ∃ asym, generateGaussianLoad z 0 n [net.asym.map (fun l => l.p 0), net.asym.map (fun l => l.q 0), net.asym.map (fun l => l.p 1),
        net.asym.map (fun l => l.q 1), net.asym.map (fun l => l.p 2), net.asym.map (fun l => l.q 2)] = .ok asym ∧
      ∃ C : Controls3, simRun3 flow net p q asym = flow net C ∧ (C.pa 1).get t i = l.q 0 ∧ (C.pa 1).get t i ≠ l.p 1 := by
  set refs := [net.asym.map (fun l => l.p 0), net.asym.map (fun l => l.q 0), net.asym.map (fun l => l.p 1),
        net.asym.map (fun l => l.q 1), net.asym.map (fun l => l.p 2), net.asym.map (fun l => l.q 2)] with hrefs
  let f : Nat → Arr2 ℝ := fun s => Arr2.ofFn n (refs.getD s []).length (fun t j => (refs.getD s []).getD j 0 + (refs.getD s []).getD j 0 * 0 *
    z (s * (n * (refs.headD []).length) + (t * (refs.getD s []).length + j)))
  have hg : ∀ s < refs.length, gaussianLoad z (s * (n * (refs.headD []).length)) 0 n (refs.getD s []) = .ok (f s) := by
    intro s _
    exact if_neg (fun ⟨r, _, hr⟩ => by rw [mul_zero] at hr; exact lt_irrefl _ hr)
  have hc : ∀ s < 6, (f s).c = net.asym.length := by
    intro s hs
    show (refs.getD s []).length = _
    interval_cases s <;> simp [hrefs]
  have hil : i < net.asym.length := (List.getElem?_eq_some_iff.1 hl).1
  refine ⟨_, generateGaussianLoad_all hg, { p := p, q := q, pa := ![f 0, f 1, f 2], qa := ![f 3, f 4, f 5] }, ?_, ?_⟩
  · have hfr : ∀ s < 6, asymFrame net ((List.range refs.length).map f) s = .ok (f s) := by
      intro s hs
      unfold asymFrame
      rw [List.getElem?_map, List.getElem?_range (by simpa [hrefs] using hs)]
      exact if_pos (hc s hs)
    unfold simRun3
    rw [frame, if_pos hp, frame, if_pos hq, hfr 0 (by norm_num), hfr 1 (by norm_num), hfr 2 (by norm_num), hfr 3 (by norm_num),
      hfr 4 (by norm_num), hfr 5 (by norm_num)]
    rfl
  · have e : (f 1).get t i = l.q 0 := by
      have hj : i < (refs.getD 1 []).length := by simpa [hrefs] using hil
      refine (Arr2.ofFn_get (r := n) (c := (refs.getD 1 []).length) _ ht hj).trans ?_
      have : (refs.getD 1 []).getD i 0 = l.q 0 := by
        show (net.asym.map (fun l => l.q 0)).getD i 0 = _
        rw [List.getD, List.getElem?_map, hl]
        rfl
      rw [this]
      ring
    exact ⟨e, fun h => hne (e.symm.trans h)⟩

/-- the profile branch of a three-phase network, taken apart -/
theorem rawLoads3_profiles {rng : RandInt} {files : String → Option (Arr2 ℝ)} {net : Net} {fa fr : String}
    {weeks : List Int} {days : Nat} {const : Option (List Int)} {p q : Arr2 ℝ} {asym : List (Arr2 ℝ)}
    (h : rawLoads3 rng files net (.profiles fa fr weeks days const) = .ok (p, q, asym)) :
    weeks.length ≠ 0 ∧ ∃ pl ql, files fa = some pl ∧ files fr = some ql ∧
      loadProfile rng 0 pl ql (skipRows weeks) ((days * 24 * 60 / weeks.length : Nat) : Int) [nominalP net] [nominalQ net] = .ok [p, q] ∧
      loadProfile rng (2 * net.load.length) pl ql (skipRows weeks) ((days * 24 * 60 / weeks.length : Nat) : Int)
        [asymRefs net 0, asymRefs net 1, asymRefs net 2] [asymRefs net 3, asymRefs net 4, asymRefs net 5] = .ok asym := by
  have hw : weeks.length ≠ 0 := by
    intro hw
    change (weekLength days weeks).bind _ = _ at h
    rw [weekLength, if_pos hw] at h
    cases h
  refine ⟨hw, ?_⟩
  change (weekLength days weeks).bind _ = _ at h
  rw [weekLength_eq hw] at h
  replace h : (readProfile files fa).bind _ = _ := h
  obtain ⟨pl, hp, h⟩ := Prior.bind_ok h
  obtain ⟨ql, hq, h⟩ := Prior.bind_ok h
  obtain ⟨l, hl, h⟩ := Prior.bind_ok h
  obtain ⟨⟨p', q'⟩, hu, h⟩ := Prior.bind_ok h
  obtain ⟨l', hl', h⟩ := Prior.bind_ok h
  cases h
  have hp' : files fa = some pl := by
    unfold readProfile at hp
    split at hp
    · rename_i e; cases hp; exact e
    · cases hp
  have hq' : files fr = some ql := by
    unfold readProfile at hq
    split at hq
    · rename_i e; cases hq; exact e
    · cases hq
  exact ⟨pl, ql, hp', hq', by rw [hl, unpack2_ok hu], hl'⟩

/-- C83 for profiles from files: the simulation gets, as active (reactive) power of each phase of each asymmetric load, a profile made
for the nominal active (reactive) power of that phase. Missing: random loads, see `C83_violated`. -/
theorem C83_partial (rng : RandInt) (files : String → Option (Arr2 ℝ)) (a : ℝ) (net : Net) (fa fr : String) (weeks : List Int) (days : Nat)
    (const : Option (List Int)) (p q : Arr2 ℝ) (asym : List (Arr2 ℝ)) (t : List ℝ)
    (h : computeLoads3 rng files a net (.profiles fa fr weeks days const) = .ok (p, q, asym, t)) :
    ∃ pl ql rp rq up uq, files fa = some pl ∧ files fr = some ql ∧ Spec.MeanPercentile pl rp up ∧ Spec.MeanPercentile ql rq uq ∧
      ∀ flow : Net → Controls3 → Except PyErr SimResult3, ∃ C : Controls3, simRun3 flow net p q asym = flow net C ∧ C.p = p ∧ C.q = q ∧
        ∀ (ph : Fin 3) (i : Nat) (l : AsymRow), net.asym[i]? = some l →
          (∃ (hs : List Nat) (prof : Nat → ℝ), Spec.Rounds (l.p ph / up) hs.length ∧ Spec.SumOfHouseholds pl rp hs prof ∧
            ∀ t < rp.length, ((∀ nodes, const = some nodes → l.bus ∉ nodes) → (C.pa ph).get t i = prof t) ∧
              ((∃ nodes, const = some nodes ∧ l.bus ∈ nodes) → (C.pa ph).get t i = (1 - a) * prof t + a * l.p ph)) ∧
          (∃ (hs : List Nat) (prof : Nat → ℝ), Spec.Rounds (l.q ph / uq) hs.length ∧ Spec.SumOfHouseholds ql rq hs prof ∧
            ∀ t < rq.length, ((∀ nodes, const = some nodes → l.bus ∉ nodes) → (C.qa ph).get t i = prof t) ∧
              ((∃ nodes, const = some nodes ∧ l.bus ∈ nodes) → (C.qa ph).get t i = (1 - a) * prof t + a * l.q ph)) := by
  obtain ⟨p0, q0, asym0, h0, h1, h2, _⟩ := computeLoads3_ok h
  obtain ⟨hbp, hbq⟩ := blendLoads_ok h1
  obtain ⟨hal, has⟩ := blendAsym_ok h2
  obtain ⟨hw, pl, ql, hpl, hql, hl, hla⟩ := rawLoads3_profiles h0
  obtain ⟨_, _, _, c1, _, c2, _⟩ := loadProfile_pair hl
  rw [loadProfile_eq] at hla
  obtain ⟨up, hup, hla⟩ := Prior.bind_ok hla
  obtain ⟨uq, huq, hla⟩ := Prior.bind_ok hla
  obtain ⟨_, hpc, hps⟩ := meanPercentile_spec hup
  obtain ⟨_, hqc, hqs⟩ := meanPercentile_spec huq
  obtain ⟨_, ha⟩ := assign_ok hla
  set rp := sliceRows pl.r (skipRows weeks) ((days * 24 * 60 / weeks.length : Nat) : Int)
  set rq := sliceRows ql.r (skipRows weeks) ((days * 24 * 60 / weeks.length : Nat) : Int)
  refine ⟨pl, ql, rp, rq, up, uq, hpl, hql, hps, hqs, fun flow => ?_⟩
  have hn : ([asymRefs net 0, asymRefs net 1, asymRefs net 2].headD []).length = net.asym.length := by simp [asymRefs]
  rw [hn] at ha
  have href : ∀ (s i : Nat) (l : AsymRow), net.asym[i]? = some l → (asymRefs net s).getD i 0 = asymNominal l s := by
    intro s i l hl
    rw [List.getD, asymRefs, List.getElem?_map, hl]
    rfl
  -- one quantity
  have one : ∀ (s : Nat) (file : Arr2 ℝ) (rows : List Nat) (u : ℝ), s < 6 → file.c ≠ 0 →
      ([asymRefs net 0, asymRefs net 1, asymRefs net 2].map (fun r => (⟨selected pl rp, up, r⟩ : Quantity)) ++
        [asymRefs net 3, asymRefs net 4, asymRefs net 5].map (fun r => (⟨selected ql rq, uq, r⟩ : Quantity)))[s]? =
        some ⟨selected file rows, u, asymRefs net s⟩ →
      ∃ m : Arr2 ℝ, asymFrame net asym s = .ok m ∧ ∀ (i : Nat) (l : AsymRow), net.asym[i]? = some l →
        ∃ (hs : List Nat) (prof : Nat → ℝ), Spec.Rounds (asymNominal l s / u) hs.length ∧ Spec.SumOfHouseholds file rows hs prof ∧
            ∀ t < rows.length, ((∀ nodes, const = some nodes → l.bus ∉ nodes) → m.get t i = prof t) ∧
              ((∃ nodes, const = some nodes ∧ l.bus ∈ nodes) → m.get t i = (1 - a) * prof t + a * asymNominal l s) := by
    intro s file rows u hs hc hq
    obtain ⟨m0, g1, g2, g3, g4⟩ := ha s _ hq
    obtain ⟨m, k1, k2⟩ := has s m0 g1 hs
    have hmc : m.c = net.asym.length := k2.2.1.trans g3
    refine ⟨m, by unfold asymFrame; rw [k1]; exact if_pos hmc, fun i l hl => ?_⟩
    have hil : i < net.asym.length := (List.getElem?_eq_some_iff.1 hl).1
    obtain ⟨_, _, hs', hr, hsum⟩ := columnOf_spec hc (g4 i hil trivial)
    rw [href s i l hl] at hr
    refine ⟨hs', fun t => m0.get t i, hr, hsum, fun t ht => ?_⟩
    have ht' : t < m0.r := by rw [g2]; exact ht
    have hi' : i < m0.c := by rw [g3]; exact hil
    obtain ⟨b1, b2⟩ := k2.2.2 t ht' i hi'
    refine ⟨fun hno => b2 (fun nodes l' hn1 hl' => ?_), fun ⟨nodes, hn1, hn2⟩ => b1 nodes l hn1 hl hn2⟩
    rw [hl] at hl'
    cases hl'
    exact hno nodes hn1
  obtain ⟨m0, f0, e0⟩ := one 0 pl rp up (by norm_num) hpc rfl
  obtain ⟨m1, f1, e1⟩ := one 1 pl rp up (by norm_num) hpc rfl
  obtain ⟨m2, f2, e2⟩ := one 2 pl rp up (by norm_num) hpc rfl
  obtain ⟨m3, f3, e3⟩ := one 3 ql rq uq (by norm_num) hqc rfl
  obtain ⟨m4, f4, e4⟩ := one 4 ql rq uq (by norm_num) hqc rfl
  obtain ⟨m5, f5, e5⟩ := one 5 ql rq uq (by norm_num) hqc rfl
  have hpc' : p.c = net.load.length := by rw [hbp.2.1, c1]; simp [nominalP]
  have hqc' : q.c = net.load.length := by rw [hbq.2.1, c2]; simp [nominalP]
  refine ⟨{ p := p, q := q, pa := ![m0, m1, m2], qa := ![m3, m4, m5] }, ?_, rfl, rfl, ?_⟩
  · unfold simRun3
    rw [frame, if_pos hpc', frame, if_pos hqc', f0, f1, f2, f3, f4, f5]
    rfl
  · intro ph i l hl
    fin_cases ph
    · exact ⟨e0 i l hl, e3 i l hl⟩
    · exact ⟨e1 i l hl, e4 i l hl⟩
    · exact ⟨e2 i l hl, e5 i l hl⟩

/-! ### cases that meet the hypotheses -/

theorem sliceRows_lt {n : Nat} {skip : List Int} {len : Int} {t : Nat} (h : t ∈ sliceRows n skip len) : t < n := by
  unfold sliceRows at h
  obtain ⟨s, _, hs⟩ := List.mem_flatMap.1 h
  rw [List.mem_range'_1] at hs
  have : pySlice n (len + s) ≤ n := by unfold pySlice; split <;> omega
  omega

/-- a constant profile of `rows` minutes for one household -/
def flatFile (rows : Nat) : Arr2 ℝ := Arr2.ofFn rows 1 (fun _ _ => 1)

theorem flatFile_ne {rows t : Nat} (h : t < rows) : ∀ j < (flatFile rows).c, (flatFile rows).get t j ≠ 0 := by
  intro j hj
  have hj' : j < 1 := hj
  rw [flatFile, Arr2.ofFn_get _ h hj']
  norm_num

theorem sliceRows_first {n len : Nat} (hn : 0 < n) (hl : 0 < len) (rest : List Int) : sliceRows n (0 :: rest) len ≠ [] := by
  unfold sliceRows
  rw [List.flatMap_cons]
  have : List.range' (pySlice n 0) (pySlice n ((len : Int) + 0) - pySlice n 0) ≠ [] := by
    rw [add_zero, pySlice_nat, show (0 : Int) = ((0 : Nat) : Int) from rfl, pySlice_nat]
    intro h
    have := congrArg List.length h
    rw [List.length_range', List.length_nil] at this
    omega
  intro h
  exact this (List.append_eq_nil_iff.1 h).1

theorem flat_loads (rng : RandInt) (k0 : Nat) {rows len : Nat} (hr : 0 < rows) (hl : 0 < len) (rest : List Int) (refP refQ : List (List ℝ))
    (h : ∀ r ∈ refP ++ refQ, (refP.headD []).length ≤ r.length ∧ ∀ x ∈ r, 0 ≤ x) :
    ∃ loads, loadProfile rng k0 (flatFile rows) (flatFile rows) (0 :: rest) len refP refQ = .ok loads :=
  loadProfile_exists rng k0 _ _ _ _ refP refQ (sliceRows_first hr hl rest) (sliceRows_first hr hl rest) Nat.one_ne_zero Nat.one_ne_zero
    (fun _ ht => flatFile_ne (sliceRows_lt ht)) (fun _ ht => flatFile_ne (sliceRows_lt ht)) h

/-- the profile branches, with one household of constant power -/
theorem flat_computeLoads (rng : RandInt) (z : Nat → ℝ) (a : ℝ) (net : Net) {rows days : Nat} (hr : 0 < rows) (rest : List Int)
    (hd : rest.length + 1 ≤ days * 24 * 60) (const : Option (List Int)) (h : ∀ l ∈ net.load, 0 ≤ l.p ∧ 0 ≤ l.q) :
    ∃ r, computeLoads rng z (fun _ => some (flatFile rows)) a net (.profiles "p" "q" (0 :: rest) days const) = .ok r := by
  have hlen : 0 < days * 24 * 60 / (0 :: rest : List Int).length := Nat.div_pos hd (Nat.succ_pos _)
  obtain ⟨l, hl⟩ := flat_loads rng 0 hr hlen (skipRows rest) [nominalP net] [nominalQ net] (by
    intro r hr
    simp only [List.cons_append, List.nil_append, List.mem_cons, List.not_mem_nil, or_false] at hr
    rcases hr with rfl | rfl
    · exact ⟨le_refl _, fun x hx => by obtain ⟨l, hl, rfl⟩ := List.mem_map.1 hx; exact (h l hl).1⟩
    · exact ⟨by simp [nominalP, nominalQ], fun x hx => by obtain ⟨l, hl, rfl⟩ := List.mem_map.1 hx; exact (h l hl).2⟩)
  have hlen2 : ∃ p q, l = [p, q] := by
    have hl' := hl
    rw [loadProfile_eq] at hl'
    obtain ⟨up, _, hl'⟩ := Prior.bind_ok hl'
    obtain ⟨uq, _, hl'⟩ := Prior.bind_ok hl'
    exact List.length_eq_two.1 (assign_ok hl').1
  obtain ⟨p, q, rfl⟩ := hlen2
  obtain ⟨_, _, _, c1, _, c2, _⟩ := loadProfile_pair hl
  obtain ⟨r, hr'⟩ := blendLoads_exists a const (net := net) (p := p) (q := q) (by rw [c1]; simp [nominalP]) (by rw [c2]; simp [nominalP])
  have hraw : rawLoads rng z (fun _ => some (flatFile rows)) net (.profiles "p" "q" (0 :: rest) days const) = .ok (p, q) := by
    simp only [rawLoads]
    rw [weekLength_eq (by simp)]
    change (loadProfile rng 0 (flatFile rows) (flatFile rows) (skipRows (0 :: rest)) _ [nominalP net] [nominalQ net]).bind _ = _
    rw [show skipRows (0 :: rest) = 0 :: skipRows rest by simp [skipRows], hl]
    rfl
  refine ⟨(r.1, r.2, minuteTimes days), ?_⟩
  unfold computeLoads
  rw [hraw]
  show (blendLoads a const net p q).bind _ = _
  rw [hr']
  rfl

/-- seven weeks for one day: 1435 loads for 1440 time stamps, `C76_violated` -/
example (rng : RandInt) (z : Nat → ℝ) : ∃ (p q : Arr2 ℝ) (t : List ℝ),
    computeLoads rng z (fun _ => some (flatFile 1)) (84 / 100) { load := [⟨0, 0, 1, 2, 0, 0⟩] }
      (.profiles "p" "q" [0, 1, 2, 3, 4, 5, 6] 1 (some [0])) = .ok (p, q, t) ∧ p.r < t.length ∧ q.r < t.length := by
  obtain ⟨⟨p, q, t⟩, h⟩ := flat_computeLoads rng z (84 / 100) { load := [⟨0, 0, 1, 2, 0, 0⟩] } (rows := 1) (days := 1) (by norm_num)
    [1, 2, 3, 4, 5, 6] (by simp) (some [0]) (by simp)
  exact ⟨p, q, t, h, C76_violated rng z _ _ _ _ _ _ _ _ (by simp) p q t h⟩

/-- one week for one day: `C76_partial`, `C77`, `C98` -/
example (rng : RandInt) (z : Nat → ℝ) : ∃ (p q : Arr2 ℝ) (t : List ℝ),
    computeLoads rng z (fun _ => some (flatFile 1440)) (84 / 100) { load := [⟨0, 0, 1, 0, 0, 0⟩] } (.profiles "p" "q" [0] 1 (some [0])) =
      .ok (p, q, t) ∧ p.r = t.length ∧ q.r = t.length ∧ ∀ k < q.r, q.get k 0 = 0 := by
  obtain ⟨⟨p, q, t⟩, h⟩ := flat_computeLoads rng z (84 / 100) { load := [⟨0, 0, 1, 0, 0, 0⟩] } (rows := 1440) (days := 1) (by norm_num)
    [] (by simp) (some [0]) (by simp)
  have := C76_partial rng z (fun _ => some (flatFile 1440)) (84 / 100) _ "p" "q" [0] 1 _ (by simp)
    (by intro pl hpl w hw; simp only [or_self, Option.some.injEq] at hpl; subst hpl; simp at hw; subst hw; simp [flatFile, Arr2.ofFn]) p q t h
  exact ⟨p, q, t, h, this.1, this.2, (C98 rng z _ _ _ _ p q t h 0 _ rfl).2 rfl⟩

/-- the asymmetric loads can be made too, `C77_three` and `C83_partial` -/
theorem flat_computeLoads3 (rng : RandInt) (a : ℝ) (net : Net) {rows days : Nat} (hr : 0 < rows) (hd : 1 ≤ days * 24 * 60)
    (h : ∀ l ∈ net.load, 0 ≤ l.p ∧ 0 ≤ l.q) (h3 : ∀ l ∈ net.asym, ∀ ph, 0 ≤ l.p ph ∧ 0 ≤ l.q ph) :
    ∃ r, computeLoads3 rng (fun _ => some (flatFile rows)) a net (.profiles "p" "q" [0] days none) = .ok r := by
  obtain ⟨⟨p, q, t⟩, h1⟩ := flat_computeLoads rng (fun _ => 0) a net hr [] (by simpa using hd) none h
  obtain ⟨p0, q0, h1, _, _⟩ := computeLoads_ok h1
  obtain ⟨_, pl, ql, hpl, hql, h1⟩ := rawLoads_profiles h1
  cases hpl
  cases hql
  have hnn : ∀ s, ∀ x ∈ asymRefs net s, 0 ≤ x := by
    intro s x hx
    obtain ⟨l, hl, rfl⟩ := List.mem_map.1 hx
    unfold asymNominal
    split
    · exact (h3 l hl _).1
    · exact (h3 l hl _).1
    · exact (h3 l hl _).1
    · exact (h3 l hl _).2
    · exact (h3 l hl _).2
    · exact (h3 l hl _).2
  have hlen : 0 < days * 24 * 60 / ([0] : List Int).length := by
    rw [List.length_singleton, Nat.div_one]
    exact hd
  obtain ⟨asym, h2⟩ := flat_loads rng (2 * net.load.length) hr hlen [] [asymRefs net 0, asymRefs net 1, asymRefs net 2]
    [asymRefs net 3, asymRefs net 4, asymRefs net 5] (by
      intro r hr
      simp only [List.cons_append, List.nil_append, List.mem_cons, List.not_mem_nil, or_false] at hr
      rcases hr with rfl | rfl | rfl | rfl | rfl | rfl <;> exact ⟨by simp [asymRefs], hnn _⟩)
  refine ⟨(p0, q0, asym, minuteTimes days), ?_⟩
  have hraw : rawLoads3 rng (fun _ => some (flatFile rows)) net (.profiles "p" "q" [0] days none) = .ok (p0, q0, asym) := by
    simp only [rawLoads3]
    rw [weekLength_eq (by simp)]
    change (loadProfile rng 0 (flatFile rows) (flatFile rows) (skipRows [0]) _ [nominalP net] [nominalQ net]).bind _ = _
    rw [h1]
    show (loadProfile rng (2 * net.load.length) (flatFile rows) (flatFile rows) (skipRows [0]) _ _ _).bind _ = _
    rw [show skipRows [0] = [0] by simp [skipRows], h2]
    rfl
  unfold computeLoads3
  rw [hraw]
  rfl

end
end Verif
