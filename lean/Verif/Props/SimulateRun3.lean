/-
C116 for loads from files, and C123: when the simulation of a three-phase network completes.
-/
import Verif.Props.SimulateRun
import Verif.Props.Pipeline3
import Verif.Props.Loads3

namespace Verif
open Finset Matrix Net
open Prog hiding pure bind read save call ofExcept
noncomputable section

namespace Spec

/-- two files of household profiles: they contain the selected weeks, between which the minutes can be divided, and no household is
ever idle -/
structure Profiles (files : String → Option (Arr2 ℝ)) (fa fr : String) (weeks : List ℕ) (days : ℕ) : Prop where
  nonempty : weeks ≠ []
  multiple : weeks.length ∣ days * 1440
  files : ∀ f, f = fa ∨ f = fr → ∃ m, files f = some m ∧ (∀ w ∈ weeks, w * 10080 + days * 1440 / weeks.length ≤ m.r) ∧ 0 < m.c ∧
    ∀ t < m.r, ∀ j < m.c, m.get t j ≠ 0

end Spec

/-! ### loads from files -/

theorem skipRows_nat (weeks : List ℕ) :
    skipRows (weeks.map (fun w : ℕ => (w : Int))) = (weeks.map (fun w => w * 10080)).map (fun s : ℕ => (s : Int)) := by
  unfold skipRows
  rw [List.map_map, List.map_map]
  refine List.map_congr_left (fun w _ => ?_)
  simp only [Function.comp]
  push_cast
  ring

theorem profile_rows {weeks : List ℕ} {days n : ℕ} (hd : weeks.length ∣ days * 1440)
    (h : ∀ w ∈ weeks, w * 10080 + days * 1440 / weeks.length ≤ n) :
    (sliceRows n (skipRows (weeks.map (fun w : ℕ => (w : Int)))) ((days * 1440 / weeks.length : ℕ) : Int)).length = days * 1440 := by
  rw [skipRows_nat, sliceRows_inside (by simpa using h), weekRows_length, List.length_map]
  exact Nat.mul_div_cancel' hd

theorem profile_loads (rng : RandInt) (k0 : ℕ) {pl ql : Arr2 ℝ} {weeks : List ℕ} {days : ℕ} (hdays : 0 < days)
    (hd : weeks.length ∣ days * 1440) (hp : ∀ w ∈ weeks, w * 10080 + days * 1440 / weeks.length ≤ pl.r)
    (hq : ∀ w ∈ weeks, w * 10080 + days * 1440 / weeks.length ≤ ql.r) (hpc : 0 < pl.c) (hqc : 0 < ql.c)
    (hp0 : ∀ t < pl.r, ∀ j < pl.c, pl.get t j ≠ 0) (hq0 : ∀ t < ql.r, ∀ j < ql.c, ql.get t j ≠ 0) {n : ℕ} {refP refQ : List (List ℝ)}
    (hh : (refP.headD []).length = n) (hr : ∀ r ∈ refP ++ refQ, r.length = n ∧ ∀ x ∈ r, 0 ≤ x) :
    ∃ loads, loadProfile rng k0 pl ql (skipRows (weeks.map (fun w : ℕ => (w : Int)))) ((days * 1440 / weeks.length : ℕ) : Int) refP refQ =
      .ok loads ∧ loads.length = refP.length + refQ.length ∧ ∀ m ∈ loads, m.r = days * 1440 ∧ m.c = n := by
  have ep := profile_rows hd hp
  have eq := profile_rows hd hq
  obtain ⟨loads, hl⟩ := loadProfile_exists rng k0 pl ql (skipRows (weeks.map (fun w : ℕ => (w : Int))))
    ((days * 1440 / weeks.length : ℕ) : Int) refP refQ (fun e => by rw [e] at ep; simp at ep; omega)
    (fun e => by rw [e] at eq; simp at eq; omega) hpc.ne' hqc.ne' (fun t ht => hp0 t (sliceRows_lt ht)) (fun t ht => hq0 t (sliceRows_lt ht))
    (fun r hr' => ⟨by rw [hh, (hr r hr').1], (hr r hr').2⟩)
  refine ⟨loads, hl, ?_⟩
  rw [loadProfile_eq] at hl
  obtain ⟨up, _, hl⟩ := Prior.bind_ok hl
  obtain ⟨uq, _, hl⟩ := Prior.bind_ok hl
  obtain ⟨h1, h2⟩ := assign_ok hl
  refine ⟨by simpa using h1, fun m hm => ?_⟩
  obtain ⟨s, hs, rfl⟩ := List.mem_iff_getElem.1 hm
  have hs' : s < (refP.map (fun r => (⟨selected pl (sliceRows pl.r (skipRows (weeks.map (fun w : ℕ => (w : Int))))
      ((days * 1440 / weeks.length : ℕ) : Int)), up, r⟩ : Quantity)) ++ refQ.map (fun r => (⟨selected ql (sliceRows ql.r (skipRows
      (weeks.map (fun w : ℕ => (w : Int)))) ((days * 1440 / weeks.length : ℕ) : Int)), uq, r⟩ : Quantity))).length := by
    rw [← h1]; exact hs
  obtain ⟨m, g1, g2, g3, -⟩ := h2 s _ (List.getElem?_eq_getElem hs')
  rw [List.getElem?_eq_getElem hs] at g1
  cases g1
  refine ⟨?_, g3.trans hh⟩
  rw [g2]
  have := List.getElem_mem hs'
  rcases List.mem_append.1 this with hm' | hm'
  · obtain ⟨r, -, he⟩ := List.mem_map.1 hm'
    rw [← he]; exact ep
  · obtain ⟨r, -, he⟩ := List.mem_map.1 hm'
    rw [← he]; exact eq

theorem nominal_refs {net : Net} (h : ∀ l ∈ net.load, 0 ≤ l.p ∧ 0 ≤ l.q) :
    ∀ r ∈ [nominalP net] ++ [nominalQ net], r.length = net.load.length ∧ ∀ x ∈ r, 0 ≤ x := by
  intro r hr
  simp only [List.cons_append, List.nil_append, List.mem_cons, List.not_mem_nil, or_false] at hr
  rcases hr with rfl | rfl
  · exact ⟨by simp [nominalP], fun x hx => by obtain ⟨l, hl, rfl⟩ := List.mem_map.1 hx; exact (h l hl).1⟩
  · exact ⟨by simp [nominalQ], fun x hx => by obtain ⟨l, hl, rfl⟩ := List.mem_map.1 hx; exact (h l hl).2⟩

theorem asym_refs {net : Net} (h : ∀ l ∈ net.asym, ∀ ph, 0 ≤ l.p ph ∧ 0 ≤ l.q ph) :
    ∀ r ∈ [asymRefs net 0, asymRefs net 1, asymRefs net 2] ++ [asymRefs net 3, asymRefs net 4, asymRefs net 5],
      r.length = net.asym.length ∧ ∀ x ∈ r, 0 ≤ x := by
  have hnn : ∀ s, ∀ x ∈ asymRefs net s, 0 ≤ x := by
    intro s x hx
    obtain ⟨l, hl, rfl⟩ := List.mem_map.1 hx
    unfold asymNominal
    split
    · exact (h l hl _).1
    · exact (h l hl _).1
    · exact (h l hl _).1
    · exact (h l hl _).2
    · exact (h l hl _).2
    · exact (h l hl _).2
  intro r hr
  simp only [List.cons_append, List.nil_append, List.mem_cons, List.not_mem_nil, or_false] at hr
  rcases hr with rfl | rfl | rfl | rfl | rfl | rfl <;> exact ⟨by simp [asymRefs], hnn _⟩

theorem day_minutes (days n : ℕ) : days * 24 * 60 / n = days * 1440 / n := by rw [show days * 24 * 60 = days * 1440 by ring]

/-- the loads of a single-phase network from files -/
theorem computeLoads_profiles (rng : RandInt) (z : ℕ → ℝ) {files : String → Option (Arr2 ℝ)} (a : ℝ) {net : Net} {fa fr : String}
    {weeks : List ℕ} {days : ℕ} (hdays : 0 < days) (hf : Spec.Profiles files fa fr weeks days) (const : Option (List Int))
    (h : ∀ l ∈ net.load, 0 ≤ l.p ∧ 0 ≤ l.q) :
    ∃ p q, computeLoads rng z files a net (.profiles fa fr (weeks.map (fun w : ℕ => (w : Int))) days const) =
      .ok (p, q, minuteTimes days) ∧ (p.r = days * 1440 ∧ p.c = net.load.length) ∧ q.r = days * 1440 ∧ q.c = net.load.length := by
  obtain ⟨pl, hpl, p1, p2, p3⟩ := hf.files fa (.inl rfl)
  obtain ⟨ql, hql, q1, q2, q3⟩ := hf.files fr (.inr rfl)
  obtain ⟨l, hl, hlen, hsz⟩ := profile_loads rng 0 hdays hf.multiple p1 q1 p2 q2 p3 q3 (n := net.load.length) (refP := [nominalP net])
    (refQ := [nominalQ net]) (by simp [nominalP]) (nominal_refs h)
  obtain ⟨p0, q0, rfl⟩ := List.length_eq_two.1 hlen
  obtain ⟨pr, pc⟩ := hsz p0 (by simp)
  obtain ⟨qr, qc⟩ := hsz q0 (by simp)
  have hraw : rawLoads rng z files net (.profiles fa fr (weeks.map (fun w : ℕ => (w : Int))) days const) = .ok (p0, q0) := by
    have hw : (weeks.map (fun w : ℕ => (w : Int))).length ≠ 0 := by simpa using hf.nonempty
    simp only [rawLoads, weekLength_eq hw, readProfile, hpl, hql, bind, Except.bind, List.length_map, day_minutes, hl, unpack2]
  obtain ⟨⟨p, q⟩, hb⟩ := blendLoads_exists a const (net := net) (p := p0) (q := q0) pc.ge qc.ge
  obtain ⟨bp, bq⟩ := blendLoads_ok hb
  refine ⟨p, q, ?_, ⟨by rw [bp.1, pr], by rw [bp.2.1, pc]⟩, by rw [bq.1, qr], by rw [bq.2.1, qc]⟩
  unfold computeLoads
  rw [hraw]
  show (blendLoads a const net p0 q0).bind _ = _
  rw [hb]
  rfl

theorem blendAsym_exists (a : ℝ) (const : Option (List Int)) {net : Net} {loads : List (Arr2 ℝ)} (hl : loads.length = 6)
    (h : ∀ m ∈ loads, net.asym.length ≤ m.c) : ∃ r, blendAsym a const net loads = .ok r := by
  cases const with
  | none => exact ⟨_, rfl⟩
  | some nodes =>
    obtain ⟨st, hs, _⟩ := forRange_inv (fun (_ : ℕ) (st : List (Arr2 ℝ)) => st.length = 6 ∧ ∀ m ∈ st, net.asym.length ≤ m.c)
      net.asym.length loads (fun loads i =>
      match net.asym[i]? with
      | some l =>
        if l.bus ∈ nodes then
          forRange 6 loads (fun loads s =>
            match loads[s]? with
            | some m => do
              let m ← blendCol a (asymNominal l s) i m
              pure (loads.set s m)
            | none => .error .indexError)
        else pure loads
      | none => pure loads) ⟨hl, h⟩ (fun k hk st hP => by
        rw [List.getElem?_eq_getElem hk]
        dsimp only
        by_cases hb : (net.asym[k]).bus ∈ nodes
        · rw [if_pos hb]
          refine forRange_inv (fun (_ : ℕ) (st : List (Arr2 ℝ)) => st.length = 6 ∧ ∀ m ∈ st, net.asym.length ≤ m.c) 6 st _ hP ?_
          rintro s hs st' ⟨g1, g2⟩
          have hs' : s < st'.length := by omega
          rw [List.getElem?_eq_getElem hs']
          obtain ⟨m', hm'⟩ := blendCol_exists a (asymNominal (net.asym[k]) s) (lt_of_lt_of_le hk (g2 _ (List.getElem_mem hs')))
          refine ⟨st'.set s m', ?_, by simpa using g1, fun m hm => ?_⟩
          · dsimp only
            rw [hm']
            rfl
          · rcases List.mem_or_eq_of_mem_set hm with hm | rfl
            · exact g2 m hm
            · rw [(blendCol_ok hm').2.2.1]; exact g2 _ (List.getElem_mem hs')
        · exact ⟨st, by rw [if_neg hb]; rfl, hP⟩)
    exact ⟨st, hs⟩

/-- the loads of a three-phase network from files -/
theorem computeLoads3_profiles (rng : RandInt) {files : String → Option (Arr2 ℝ)} (a : ℝ) {net : Net} {fa fr : String}
    {weeks : List ℕ} {days : ℕ} (hdays : 0 < days) (hf : Spec.Profiles files fa fr weeks days) (const : Option (List Int))
    (h : ∀ l ∈ net.load, 0 ≤ l.p ∧ 0 ≤ l.q) (h3 : ∀ l ∈ net.asym, ∀ ph, 0 ≤ l.p ph ∧ 0 ≤ l.q ph) :
    ∃ p q asym, computeLoads3 rng files a net (.profiles fa fr (weeks.map (fun w : ℕ => (w : Int))) days const) =
      .ok (p, q, asym, minuteTimes days) ∧ (p.r = days * 1440 ∧ p.c = net.load.length) ∧ (q.r = days * 1440 ∧ q.c = net.load.length) ∧
      asym.length = 6 ∧ ∀ m ∈ asym, m.r = days * 1440 ∧ m.c = net.asym.length := by
  obtain ⟨pl, hpl, p1, p2, p3⟩ := hf.files fa (.inl rfl)
  obtain ⟨ql, hql, q1, q2, q3⟩ := hf.files fr (.inr rfl)
  obtain ⟨l, hl, hlen, hsz⟩ := profile_loads rng 0 hdays hf.multiple p1 q1 p2 q2 p3 q3 (n := net.load.length) (refP := [nominalP net])
    (refQ := [nominalQ net]) (by simp [nominalP]) (nominal_refs h)
  obtain ⟨p0, q0, rfl⟩ := List.length_eq_two.1 hlen
  obtain ⟨pr, pc⟩ := hsz p0 (by simp)
  obtain ⟨qr, qc⟩ := hsz q0 (by simp)
  obtain ⟨as, has, halen, hasz⟩ := profile_loads rng (2 * net.load.length) hdays hf.multiple p1 q1 p2 q2 p3 q3 (n := net.asym.length)
    (refP := [asymRefs net 0, asymRefs net 1, asymRefs net 2]) (refQ := [asymRefs net 3, asymRefs net 4, asymRefs net 5])
    (by simp [asymRefs]) (asym_refs h3)
  have hraw : rawLoads3 rng files net (.profiles fa fr (weeks.map (fun w : ℕ => (w : Int))) days const) = .ok (p0, q0, as) := by
    have hw : (weeks.map (fun w : ℕ => (w : Int))).length ≠ 0 := by simpa using hf.nonempty
    simp only [rawLoads3, weekLength_eq hw, readProfile, hpl, hql, bind, Except.bind, List.length_map, day_minutes, hl, unpack2, has,
      pure, Except.pure]
  obtain ⟨⟨p, q⟩, hb⟩ := blendLoads_exists a const (net := net) (p := p0) (q := q0) pc.ge qc.ge
  obtain ⟨bp, bq⟩ := blendLoads_ok hb
  obtain ⟨asym, hba⟩ := blendAsym_exists a const (net := net) (loads := as) halen (fun m hm => (hasz m hm).2.ge)
  obtain ⟨al, aa⟩ := blendAsym_ok hba
  refine ⟨p, q, asym, ?_, ⟨by rw [bp.1, pr], by rw [bp.2.1, pc]⟩, ⟨by rw [bq.1, qr], by rw [bq.2.1, qc]⟩, al.trans halen, fun m hm => ?_⟩
  · unfold computeLoads3
    rw [hraw]
    show (blendLoads a const net p0 q0).bind _ = _
    rw [hb]
    show (blendAsym a const net as).bind _ = _
    rw [hba]
    rfl
  · obtain ⟨s, hs, rfl⟩ := List.mem_iff_getElem.1 hm
    have hs' : s < as.length := by rw [← al]; exact hs
    obtain ⟨m', g1, g2⟩ := aa s _ (List.getElem?_eq_getElem hs') (by have : as.length = 6 := halen; omega)
    rw [List.getElem?_eq_getElem hs] at g1
    cases g1
    obtain ⟨e1, e2⟩ := hasz _ (List.getElem_mem hs')
    exact ⟨g2.1.trans e1, g2.2.1.trans e2⟩

/-- C116 for loads from files: the same with two files of household profiles that contain the selected weeks, households that are
never idle, and a number of weeks that divides the number of minutes. -/
theorem C116_profiles {w : SimWorld} {cf : SimConf} {a : SimArgs} (st : Store) (h3 : a.threePhased = false) (hseq : a.sequence = false)
    (hall : a.loads = a.networkSim ∧ a.networkSim = a.noise) (hg : a.gaussian ≤ 0) {weeks : List ℕ}
    (hw : cf.weeks = weeks.map (fun w : ℕ => (w : Int))) (hprof : Spec.Profiles w.files a.active a.reactive weeks cf.days)
    (hhid : cf.hidden = []) (hpinv : Spec.PinvContract w.pinv) (hsd : 0 ≤ cf.vm ∧ 0 ≤ cf.cm ∧ 0 ≤ cf.vp ∧ 0 ≤ cf.cp) (hsf : 0 ≤ cf.safety)
    (hdays : 0 < cf.days) (hfm : 0 ≤ cf.fmeas) (hsteps : 0 < cf.steps)
    (hN : cf.steps ≤ Spec.rawCount (minuteTimes cf.days) cf.fmeas)
    {net : Net} {bs : List BusData} (hbs : makeNet w a.network = .ok (net, bs)) (h0 : 0 < bs.length)
    (hloads : ∀ b ∈ bs, Spec.LoadOrConnection b ∧ Spec.DemandNonneg b) {y : Arr2 ℂ}
    (hy : w.yBus net = .ok y) (hruns : Spec.FlowRuns w.flow net (cf.days * 1440) bs.length)
    (hf : ∀ c res, w.flow net c = .ok res → Spec.PowerFlow bs y res) (hr : Spec.Reducible bs y a.laplacian) :
    ∃ d, (simulate w cf a st).res = .ok d := by
  have hnet := hbs
  unfold makeNet at hnet
  obtain ⟨b, hb, hnet⟩ := Prior.bind_ok hnet
  obtain ⟨ls, -, hnet⟩ := Prior.bind_ok hnet
  obtain ⟨⟨net', ls'⟩, hnd, hnet⟩ := Prior.bind_ok hnet
  cases hnet
  obtain ⟨k1, -, -⟩ := redo_all hall
  have hpos : ∀ l ∈ net.load, 0 ≤ l.p ∧ 0 ≤ l.q := by
    intro l hl
    obtain ⟨-, -, hl', -⟩ := netData_tables hnd
    rw [hl'] at hl
    obtain ⟨b, hb, hl⟩ := List.mem_flatMap.1 hl
    obtain ⟨p, q, hd⟩ := netData_sym hnd b hb
    obtain ⟨hp, hq⟩ := (hloads b hb).2 p q hd
    unfold loadRows at hl
    rw [hd] at hl
    split at hl
    · simp only [List.mem_singleton] at hl
      subst hl
      exact ⟨hp, hq⟩
    · split at hl
      · simp only [List.mem_singleton] at hl
        subst hl
        simp
      · cases hl
  obtain ⟨p, q, h6, ⟨pr, pc⟩, qr, qc⟩ := computeLoads_profiles w.rng w.z cf.constantness hdays hprof (constantNodes cf a bs) hpos
  refine completes_after_loads st h3 hseq hall hhid hpinv hsd hsf hdays hfm hsteps hN hbs h0 (fun b hb => (hloads b hb).1) hy hruns hf hr
    (lp := .profiles a.active a.reactive cf.weeks cf.days (constantNodes cf a bs)) ?_ (by rw [hw]; exact h6) pr qr pc qc
  obtain ⟨pl, hpl, -⟩ := hprof.files a.active (.inl rfl)
  obtain ⟨ql, hql, -⟩ := hprof.files a.reactive (.inr rfl)
  unfold loadParams
  rw [if_neg (fun h => absurd h.2 (not_lt.2 hg)), if_pos ⟨by rw [hpl]; rfl, by rw [hql]; rfl, k1⟩]

/-! ### three phases -/

/-- one stage after the other -/
theorem simulate3_run {w : SimWorld} {cf : SimConf} {a : SimArgs} {st : Store} (h3 : a.threePhased = true)
    (hs : a.redoNetsim = true) (hn : a.redoNoise = true) {net : Net} {bs : List BusData} {lp : LoadParams}
    {l : Arr2 ℝ × Arr2 ℝ × List (Arr2 ℝ) × List ℝ} {s : Arr2 ℂ × Arr2 ℂ × Arr2 ℂ} {n : NoiseResult} {d : NetworkData}
    (h1 : makeNet3 w a.network = .ok (net, bs)) (h2 : loadParams w cf a bs = .ok (some lp))
    (h4 : computeLoads3 w.rng w.files cf.constantness net lp = .ok l)
    (h4' : ∀ m ∈ l.2.2.1, ∀ m' ∈ l.2.2.1, m.r = m'.r ∧ m.c = m'.c)
    (h5 : simCompute3 w.flow3 w.yBus3 net l.1 l.2.1 l.2.2.1 = .ok s)
    (h6 : addNoiseAndFilter3 w.z net s.1 s.2.1 l.2.2.2 cf.fmeas cf.steps (noiseParams cf a) (List.replicate 3 cf.safety) = .ok n)
    (h7 : networkData w a net (hiddenNodes cf a bs) n = .ok d) : (simulate w cf a st).res = .ok d := by
  unfold simulate
  rw [Prog.bind_ok (a := (net, bs)) (by rw [h3]; simpa using h1), Prog.bind_ok (a := some lp) (by simpa using h2)]
  have hst : stages w cf a net (some lp) = stages3 w cf a net (some lp) := by unfold stages; rw [h3]; rfl
  have key : ∀ st, (stages w cf a net (some lp) st).res = .ok n := by
    intro st
    rw [hst]
    unfold stages3
    rw [Prog.bind_ok (a := l) (by simp only [call_run, generateLoads3, h4, if_pos h4']), Prog.bind_ok (a := s) (by
      unfold netsim3
      rw [if_pos hs]
      simp only [call_run, simulateNet3, h5])]
    simp only [call_run, hn, if_true, noiseStage3, h6]
  simp only [ofExcept_run]
  rw [Prog.bind_ok (key _), Prog.bind_ok (a := d) (by simpa using h7), Prog.bind_ok (a := ()) (by simp)]
  simp

theorem totalLoad_nonneg (net : Net) (b : Int) (ph : Fin 3) : 0 ≤ totalLoad net b ph := by
  unfold totalLoad
  have key : ∀ {β : Type} (c : β → Prop) [DecidablePred c] (f : β → ℝ), (∀ x, 0 ≤ f x) → ∀ (l : List β) (x : ℝ), 0 ≤ x →
      0 ≤ l.foldl (fun acc y => if c y then f y else acc) x := by
    intro β c _ f hf l
    induction l with
    | nil => exact fun x hx => hx
    | cons y l ih =>
      intro x hx
      refine ih _ ?_
      dsimp only
      split
      · exact hf y
      · exact hx
  refine key (fun l : AsymRow => l.bus = b) (fun l => l.p ph * l.p ph + l.q ph * l.q ph) (fun l => add_nonneg (mul_self_nonneg _) (mul_self_nonneg _)) _ _ ?_
  exact key (fun l : LoadRow => l.bus = b) (fun l => l.p * l.p + l.q * l.q) (fun l => add_nonneg (mul_self_nonneg _) (mul_self_nonneg _)) _ _ le_rfl

/-- the ratings exist if there are not more symmetric loads than nodes -/
theorem ratings3_completes {net : Net} (hl : net.load.length ≤ net.bus.length) {s : ℝ} (hs : 0 ≤ s) :
    ∃ r, ratings3 (List.replicate 3 s) net = .ok r ∧ r.length = 3 * net.bus.length ∧ ∀ x ∈ r, 0 ≤ x := by
  obtain ⟨a, ha, hac, har, ha0⟩ : ∃ a, baseRatings3 (List.replicate 3 s) net = .ok a ∧ a.c = net.bus.length ∧ a.r = 3 ∧
      ∀ i j, i < 3 → j < net.bus.length → 0 ≤ a.get i j := by
    refine ⟨_, if_pos (.inl (by simp)), rfl, rfl, fun i j hi hj => ?_⟩
    rw [Arr2.ofFn_get _ hi hj, if_neg (by simp)]
    refine mul_nonneg ?_ ?_
    · rw [List.getD_replicate _ hi]; exact hs
    · split
      · exact totalLoad_nonneg _ _ _
      · exact le_rfl
  obtain ⟨b, hb, hbc, hbr, hb0⟩ := forRange_inv (fun _ (x : Arr2 ℝ) => x.c = net.bus.length ∧ x.r = 3 ∧
    ∀ i j, i < 3 → j < net.bus.length → 0 ≤ x.get i j) net.load.length a (ratingStep3 net) ⟨hac, har, ha0⟩ (by
      rintro k hk x ⟨hx1, hx2, hx3⟩
      unfold ratingStep3
      rw [List.getElem?_eq_getElem hk]
      dsimp only
      split
      · rw [if_pos (by omega)]
        refine ⟨_, rfl, hx1, hx2, ?_⟩
        intro i j hi hj
        rw [Arr2.ofFn_get _ (by omega) (by omega)]
        split
        · unfold Arr2.rowSum
          apply List.sum_nonneg
          intro y hy
          obtain ⟨t, ht, rfl⟩ := List.mem_map.1 hy
          exact hx3 i t hi (by rw [← hx1]; exact List.mem_range.1 ht)
        · exact hx3 i j hi hj
      · exact ⟨_, rfl, hx1, hx2, hx3⟩)
  refine ⟨(List.range (3 * net.bus.length)).map (fun k => b.get (k / net.bus.length) (k % net.bus.length)), ?_, by simp, ?_⟩
  · unfold ratings3
    simp only [ha, bind, Except.bind, hb, pure, Except.pure]
  · intro x hx
    obtain ⟨t, ht, rfl⟩ := List.mem_map.1 hx
    have ht' := List.mem_range.1 ht
    have hpos : 0 < net.bus.length := by omega
    exact hb0 _ _ ((Nat.div_lt_iff_lt_mul hpos).2 ht') (Nat.mod_lt _ hpos)

/-- the noise stage completes -/
theorem stage3_completes (z : ℕ → ℝ) {net : Net} {voltage current : Arr2 ℂ} {times : List ℝ} (ht : Spec.Times times) {fmeas : ℝ}
    (hfm : 0 ≤ fmeas) {steps : ℕ} (hs : 0 < steps) (hN : steps ≤ Spec.rawCount times fmeas) {safety : ℝ} (hsf : 0 ≤ safety)
    (hvr : voltage.r = times.length) (hcr : current.r = times.length) (hc : voltage.c = current.c)
    (hl : net.load.length ≤ net.bus.length) (hvc : voltage.c = net.bus.length * 3) {p : NoiseParams} (h1 : 0 ≤ p.vm) (h2 : 0 ≤ p.cm)
    (h3 : 0 ≤ p.vp) (h4 : 0 ≤ p.cp) :
    ∃ n, addNoiseAndFilter3 z net voltage current times fmeas steps p (List.replicate 3 safety) = .ok n := by
  obtain ⟨r, hr, r1, r2⟩ := ratings3_completes hl hsf
  have key : ∀ {ts : List ℝ} {f : ℕ} {vm cm vp cp : ℝ}, Spec.Grid times ts → f ≠ 0 → 0 ≤ vm → 0 ≤ cm → 0 ≤ vp → 0 ≤ cp →
      ∃ x, noiseSeries z r voltage current times ts f vm cm vp cp = .ok x :=
    fun hg hf e1 e2 e3 e4 => series_completes z r2 hvr hcr hc (by omega) hg hf e1 e2 e3 e4
  obtain ⟨ts, ts', t1, t2, t3, t4, t5, t6⟩ := sampling_ok ht hfm hs hN
  unfold addNoiseAndFilter3
  simp only [hr, t1, t2, bind, Except.bind]
  have h0 := Real.sqrt_nonneg (((Spec.rawCount times fmeas / steps : ℕ)) : ℝ)
  split
  · obtain ⟨x, hx⟩ := key t5 one_ne_zero (div_nonneg h1 h0) (div_nonneg h2 h0) (div_nonneg h3 h0) (div_nonneg h4 h0)
    simp only [t3, hx]
    exact ⟨_, rfl⟩
  · obtain ⟨x, hx⟩ := key t4 t6 h1 h2 h3 h4
    simp only [hx]
    exact ⟨_, rfl⟩

namespace Spec

/-- the three-phase power flow computes voltages of all nodes for loads in `n` steps -/
def FlowRuns3 (flow : Net → Controls3 → Except PyErr SimResult3) (net : Net) (n : ℕ) : Prop :=
  ∀ c : Controls3, c.p.r = n → c.q.r = n → c.p.c = net.load.length → c.q.c = net.load.length →
    (∀ p, (c.pa p).r = n ∧ (c.pa p).c = net.asym.length ∧ (c.qa p).r = n ∧ (c.qa p).c = net.asym.length) →
    ∃ res, flow net c = .ok res ∧ ∀ p, (res.vm p).r = n

/-- nominal powers of a node without sign, on one or three phases -/
def DemandNonneg3 (b : BusData) : Prop :=
  (∀ p q, b.demand = .sym p q → 0 ≤ p ∧ 0 ≤ q) ∧ ∀ p q, b.demand = .asym p q → ∀ ph, 0 ≤ p ph ∧ 0 ≤ q ph

end Spec

/-- voltages and currents of a converged power flow -/
theorem sim3_completes {flow : Net → Controls3 → Except PyErr SimResult3} {yBus : Net → Except PyErr (Arr2 ℂ)} {net : Net} {p q : Arr2 ℝ}
    {asym : List (Arr2 ℝ)} {bs : List BusData} {y : Arr2 ℂ} (hy : yBus net = .ok y) (hsz : Spec.IsSquare (bs.length * 3) y)
    (hf : ∀ c res, flow net c = .ok res → Spec.PowerFlow3 bs y res) {n : ℕ} (hruns : Spec.FlowRuns3 flow net n)
    (hp : p.r = n ∧ p.c = net.load.length) (hq : q.r = n ∧ q.c = net.load.length) (hal : asym.length = 6)
    (ha : ∀ m ∈ asym, m.r = n ∧ m.c = net.asym.length) :
    ∃ s, simCompute3 flow yBus net p q asym = .ok s ∧ s.1.r = n ∧ s.1.c = bs.length * 3 ∧ s.2.1.r = n ∧ s.2.1.c = bs.length * 3 := by
  have hfr : ∀ k, (hk : k < 6) → asymFrame net asym k = .ok (asym[k]) := by
    intro k hk
    unfold asymFrame
    rw [List.getElem?_eq_getElem (by omega)]
    exact if_pos (ha _ (List.getElem_mem _)).2
  have hm : ∀ k, (hk : k < 6) → (asym[k]).r = n ∧ (asym[k]).c = net.asym.length := fun k hk => ha _ (List.getElem_mem _)
  obtain ⟨res, hres, hrn⟩ := hruns { p := p, q := q, pa := ![asym[0], asym[1], asym[2]], qa := ![asym[3], asym[4], asym[5]] }
    hp.1 hq.1 hp.2 hq.2 (by
      intro ph
      have e := fun k hk => hm k hk
      fin_cases ph
      · exact ⟨(e 0 (by norm_num)).1, (e 0 (by norm_num)).2, (e 3 (by norm_num)).1, (e 3 (by norm_num)).2⟩
      · exact ⟨(e 1 (by norm_num)).1, (e 1 (by norm_num)).2, (e 4 (by norm_num)).1, (e 4 (by norm_num)).2⟩
      · exact ⟨(e 2 (by norm_num)).1, (e 2 (by norm_num)).2, (e 5 (by norm_num)).1, (e 5 (by norm_num)).2⟩)
  have hrun : simRun3 flow net p q asym = .ok res := by
    unfold simRun3 frame
    rw [if_pos hp.2, if_pos hq.2, hfr 0 (by norm_num), hfr 1 (by norm_num), hfr 2 (by norm_num), hfr 3 (by norm_num),
      hfr 4 (by norm_num), hfr 5 (by norm_num)]
    exact hres
  obtain ⟨T, hT⟩ := (hf _ _ hres).size
  have hTn : T = n := by rw [← hrn 0, (hT 0).1.1]
  subst hTn
  have hpol : ∀ ph, ∃ v, polarVoltage (res.vm ph) (res.va ph) = .ok v ∧ v.r = T ∧ v.c = bs.length := by
    intro ph
    obtain ⟨⟨a1, a2⟩, a3, a4⟩ := hT ph
    exact ⟨_, if_pos ⟨by rw [a1, a3], by rw [a2, a4]⟩, a1, a2⟩
  obtain ⟨v0, e0, r0, c0⟩ := hpol 0
  obtain ⟨v1, e1, r1, c1⟩ := hpol 1
  obtain ⟨v2, e2, r2, c2⟩ := hpol 2
  have hk : ∀ (v : Arr2 ℂ) k, v.r = T → v.c = bs.length → (v.kron (unitRow k)).r = T ∧ (v.kron (unitRow k)).c = bs.length * 3 := by
    intro v k h1 h2
    exact ⟨by show v.r * 1 = T; omega, by show v.c * 3 = _; rw [h2]⟩
  obtain ⟨a1, a2⟩ := hk v0 0 r0 c0
  obtain ⟨b1, b2⟩ := hk v1 1 r1 c1
  obtain ⟨d1, d2⟩ := hk v2 2 r2 c2
  obtain ⟨s, hs, sr, sc⟩ : ∃ s, (v0.kron (unitRow 0)).zipWith (· + ·) (v1.kron (unitRow 1)) = .ok s ∧ s.r = T ∧ s.c = bs.length * 3 :=
    ⟨_, if_pos ⟨a1.trans b1.symm, a2.trans b2.symm⟩, a1, a2⟩
  obtain ⟨v, hv, vr, vc⟩ : ∃ v, s.zipWith (· + ·) (v2.kron (unitRow 2)) = .ok v ∧ v.r = T ∧ v.c = bs.length * 3 :=
    ⟨_, if_pos ⟨sr.trans d1.symm, sc.trans d2.symm⟩, sr, sc⟩
  obtain ⟨i, hi⟩ : ∃ i, v.matmul y = .ok i := ⟨_, if_pos (by rw [vc, hsz.1])⟩
  obtain ⟨-, ir, ic, -⟩ := matmul_entry hi
  refine ⟨(v, i, y), ?_, vr, vc, by rw [ir, vr], by rw [ic, hsz.2]⟩
  unfold simCompute3 getCurrentAndVoltage3
  simp only [hy, hrun, e0, e1, e2, hs, hv, hi, bind, Except.bind, pure, Except.pure]

/-- C123: a run of simulate_network.py that recomputes everything for a three-phase network in sequence values, with loads from
files and no hidden nodes configured, completes if nominal powers, noise levels, safety factor and measuring frequency are not
negative, there is at least one day and at least as many samples as steps, the files contain the selected weeks, and the power flow
converges. -/
theorem C123 {w : SimWorld} {cf : SimConf} {a : SimArgs} (st : Store) (h3 : a.threePhased = true) (hseq : a.sequence = true)
    (hall : a.loads = a.networkSim ∧ a.networkSim = a.noise) (hg : a.gaussian ≤ 0) {weeks : List ℕ}
    (hw : cf.weeks = weeks.map (fun w : ℕ => (w : Int))) (hprof : Spec.Profiles w.files a.active a.reactive weeks cf.days)
    (hhid : cf.hidden = []) (hpinv : Spec.PinvContract w.pinv) (hsd : 0 ≤ cf.vm ∧ 0 ≤ cf.cm ∧ 0 ≤ cf.vp ∧ 0 ≤ cf.cp) (hsf : 0 ≤ cf.safety)
    (hdays : 0 < cf.days) (hfm : 0 ≤ cf.fmeas) (hsteps : 0 < cf.steps)
    (hN : cf.steps ≤ Spec.rawCount (minuteTimes cf.days) cf.fmeas)
    {net : Net} {bs : List BusData} (hbs : makeNet3 w a.network = .ok (net, bs))
    (hloads : ∀ b ∈ bs, Spec.DemandNonneg3 b) {y0 y1 y2 y : Arr2 ℂ} (h0 : Spec.IsSquare bs.length y0)
    (h1 : Spec.IsSquare bs.length y1) (h2 : Spec.IsSquare bs.length y2) (hyy : makeYBus3 y0 y1 y2 = .ok y)
    (hy : w.yBus3 net = .ok y) (hruns : Spec.FlowRuns3 w.flow3 net (cf.days * 1440))
    (hf : ∀ c res, w.flow3 net c = .ok res → Spec.PowerFlow3 bs y res) (hr : Spec.Reducible3 bs y0 y1 y2) :
    ∃ d, (simulate w cf a st).res = .ok d := by
  have hnet := hbs
  unfold makeNet3 at hnet
  obtain ⟨b, hb, hnet⟩ := Prior.bind_ok hnet
  obtain ⟨ls, -, hnet⟩ := Prior.bind_ok hnet
  obtain ⟨net', hnd, hnet⟩ := Prior.bind_ok hnet
  cases hnet
  obtain ⟨k1, k2, k3⟩ := redo_all hall
  obtain ⟨-, tb, tl, ta, -⟩ := netData3_tables hnd
  have hpos : ∀ l ∈ net.load, 0 ≤ l.p ∧ 0 ≤ l.q := by
    intro l hl
    rw [tl] at hl
    obtain ⟨b, hb, hl⟩ := List.mem_flatMap.1 hl
    unfold loadRows at hl
    split at hl
    · split at hl
      · rename_i p q hd
        simp only [List.mem_singleton] at hl
        subst hl
        exact (hloads b hb).1 p q hd
      · cases hl
    · split at hl
      · simp only [List.mem_singleton] at hl
        subst hl
        simp
      · cases hl
  have hpos3 : ∀ l ∈ net.asym, ∀ ph, 0 ≤ l.p ph ∧ 0 ≤ l.q ph := by
    intro l hl
    rw [ta] at hl
    obtain ⟨b, hb, hl⟩ := List.mem_flatMap.1 hl
    unfold asymRows at hl
    split at hl
    · split at hl
      · cases hl
      · rename_i p q hd
        simp only [List.mem_singleton] at hl
        subst hl
        exact (hloads b hb).2 p q hd
    · cases hl
  have hll : net.load.length ≤ net.bus.length := by
    rw [tl, tb, List.length_map]
    clear * -
    induction bs with
    | nil => simp
    | cons b bs ih =>
      rw [List.flatMap_cons, List.length_append, List.length_cons]
      have : (loadRows b).length ≤ 1 := by
        unfold loadRows
        split
        · split <;> simp
        · split <;> simp
      omega
  obtain ⟨p, q, asym, h4, hp, hq, hal, hasz⟩ := computeLoads3_profiles w.rng cf.constantness hdays hprof (constantNodes cf a bs) hpos hpos3
  have hlp : loadParams w cf a bs = .ok (some (.profiles a.active a.reactive cf.weeks cf.days (constantNodes cf a bs))) := by
    obtain ⟨pl, hpl, -⟩ := hprof.files a.active (.inl rfl)
    obtain ⟨ql, hql, -⟩ := hprof.files a.reactive (.inr rfl)
    unfold loadParams
    rw [if_neg (fun h => absurd h.2 (not_lt.2 hg)), if_pos ⟨by rw [hpl]; rfl, by rw [hql]; rfl, k1⟩]
  obtain ⟨Y', hY', hysz, -⟩ := C62_networks bs.length h0 h1 h2
  rw [hyy] at hY'
  cases hY'
  obtain ⟨s, hs, s1, s2, s3, s4⟩ := sim3_completes hy hysz hf hruns hp hq hal hasz
  have htimes := minuteTimes_times hdays
  have htl : (minuteTimes cf.days).length = cf.days * 1440 := by rw [minuteTimes_length]; ring
  obtain ⟨n, hn⟩ := stage3_completes w.z (net := net) htimes hfm hsteps hN hsf (s1.trans htl.symm) (s3.trans htl.symm) (by rw [s2, s4])
    hll (by rw [s2, tb, List.length_map]) (p := noiseParams cf a) hsd.1 hsd.2.1 hsd.2.2.1 hsd.2.2.2
  obtain ⟨d, m, r, hd, -⟩ := network3_exact h3 hseq hhid hpinv hnd h0 h1 h2 hyy hy hf hr hs htimes hn
  exact ⟨d, simulate3_run h3 k2 k3 hbs hlp (by rw [hw]; exact h4) (fun m hm m' hm' =>
    ⟨(hasz m hm).1.trans (hasz m' hm').1.symm, (hasz m hm).2.trans (hasz m' hm').2.symm⟩) hs hn hd⟩

/-- C123, random loads: a run that recomputes the loads of a three-phase network with random loads raises a `NameError` -/
theorem C123_gaussian {w : SimWorld} {cf : SimConf} {a : SimArgs} (st : Store) (h3 : a.threePhased = true)
    (hl : a.redoLoads = true) (hg : 0 < a.gaussian) {net : Net} {bs : List BusData} (hbs : makeNet3 w a.network = .ok (net, bs)) :
    (simulate w cf a st).res = .error .nameError := by
  have hlp : loadParams w cf a bs = .ok (some (.gaussian a.gaussian cf.days (constantNodes cf a bs))) := if_pos ⟨hl, hg⟩
  unfold simulate
  rw [Prog.bind_ok (a := (net, bs)) (by rw [h3]; simpa using hbs), Prog.bind_ok (a := some _) (by simpa using hlp)]
  have key : ∀ st, (stages w cf a net (some (.gaussian a.gaussian cf.days (constantNodes cf a bs))) st).res = .error .nameError := by
    intro st
    have hst : ∀ lp, stages w cf a net lp = stages3 w cf a net lp := by intro lp; unfold stages; rw [h3]; rfl
    rw [hst]
    unfold stages3
    rw [Prog.bind_error (e := .nameError) (by simp only [call_run, C83_violated])]
  simp only [ofExcept_run]
  rw [Prog.bind_error (key _)]

end
end Verif
