/-
Property C174: running the simulation again for the noise only.
-/
import Verif.Props.HiddenRun3
import Verif.Props.Programs

namespace Verif
noncomputable section
open Prog hiding pure bind read save call ofExcept
open Spec (Redone Requested PlainName)

namespace Spec

/-- a later run of the simulation for the noise only: other random numbers, other recorded profiles (or none) and other standard
deviations, on the same network and with the same sampling -/
structure Rerun where
  rng : RandInt
  z : Nat → ℝ
  files : String → Option (Arr2 ℝ)
  vm : ℝ
  cm : ℝ
  vp : ℝ
  cp : ℝ

/-- numpy accepts the standard deviations -/
def Rerun.Valid (r : Rerun) : Prop := 0 ≤ r.vm ∧ 0 ≤ r.cm ∧ 0 ≤ r.vp ∧ 0 ≤ r.cp

/-- the programs around the later run -/
def Rerun.world (r : Rerun) (w : SimWorld) : SimWorld := { w with rng := r.rng, z := r.z, files := r.files }
/-- the settings of the later run -/
def Rerun.conf (r : Rerun) (cf : SimConf) : SimConf := { cf with vm := r.vm, cm := r.cm, vp := r.vp, cp := r.cp }
/-- the options of the later run: `--noise` and neither `--loads` nor `--network-simulation` -/
def noiseOnly (a : SimArgs) : SimArgs := { a with loads := false, networkSim := false, noise := true }

/-- the files after a list of such runs, one after the other -/
def sweep (w : SimWorld) (cf : SimConf) (a : SimArgs) : List Rerun → Store → Store
  | [], st => st
  | r :: rs, st => sweep w cf a rs (simulate (r.world w) (r.conf cf) (noiseOnly a) st).store

/-- all that is saved for the identification except the noisy measurements -/
structure SameGrid (d d' : NetworkData) : Prop where
  voltage : d'.voltage = d.voltage
  current : d'.current = d.current
  y : d'.y = d.y
  ratings : d'.ratings = d.ratings
  fparam : d'.fparam = d.fparam
  ids : d'.ids = d.ids
  noisyVoltage : d'.noisyVoltage.r = d.noisyVoltage.r ∧ d'.noisyVoltage.c = d.noisyVoltage.c
  noisyCurrent : d'.noisyCurrent.r = d.noisyCurrent.r ∧ d'.noisyCurrent.c = d.noisyCurrent.c

end Spec

open Spec (Rerun noiseOnly sweep SameGrid)

/-! ### the noise stage -/

theorem filter_interp {a : Arr2 ℂ} {old new : List ℝ} {f : Nat} {noise : Nat → List ℂ → Except PyErr (List ℂ)} {o : Arr2 ℂ}
    (h : filterAndResample a old new f noise = .ok o) : ∀ i, i < a.c → ∃ t, interp1d old (a.col i) new = .ok t := by
  unfold filterAndResample at h
  split at h
  · cases h
  · dsimp only at h
    obtain ⟨-, h2⟩ := forRange_visits (s0 := Arr2.zeros (new.length / f) a.c) (s := o)
      (f := fun filtered i => do
        let tmp ← interp1d old (a.col i) new
        let res ← noise i tmp
        Except.ok (Arr2.ofFn (new.length / f) a.c fun t j => if j = i then blockMean f res t else filtered.get t j))
      (fun _ : Arr2 ℂ => True) (fun _ _ _ _ _ => trivial) a.c trivial h
    intro i hi
    obtain ⟨s, s', -, hk⟩ := h2 i hi
    obtain ⟨x, hx, hk⟩ := Prior.bind_ok hk
    exact ⟨x, hx⟩

/-- other noise: the series exist again, and those without noise are the same -/
theorem series_again {z z' : Nat → ℝ} {r : List ℝ} (r2 : ∀ x ∈ r, 0 ≤ x) {voltage current : Arr2 ℂ} {times ts : List ℝ} {f : Nat}
    {vm cm vp cp vm' cm' vp' cp' : ℝ} {x : Arr2 ℂ × Arr2 ℂ × Arr2 ℂ × Arr2 ℂ} (e1 : 0 ≤ vm') (e2 : 0 ≤ cm') (e3 : 0 ≤ vp')
    (e4 : 0 ≤ cp') (h : noiseSeries z r voltage current times ts f vm cm vp cp = .ok x) :
    ∃ y, noiseSeries z' r voltage current times ts f vm' cm' vp' cp' = .ok y ∧ y.2.2 = x.2.2 ∧
      (y.1.r = x.1.r ∧ y.1.c = x.1.c) ∧ (y.2.1.r = x.2.1.r ∧ y.2.1.c = x.2.1.c) := by
  have hsz := (noiseSeries_shape h).2.2.2.2.2
  unfold noiseSeries at h
  obtain ⟨vi, h1, h⟩ := Prior.bind_ok h
  obtain ⟨noisy, h2, h⟩ := Prior.bind_ok h
  obtain ⟨⟨nv, ni⟩, h3, h⟩ := Prior.bind_ok h
  obtain ⟨clean, h4, h⟩ := Prior.bind_ok h
  obtain ⟨⟨v, i⟩, h5, h⟩ := Prior.bind_ok h
  cases h
  obtain ⟨-, -, hc⟩ := hstack2_ok h1
  obtain ⟨f0, n1, n2, -⟩ := filter_shape h2
  obtain ⟨s1, s2, s3, s4⟩ := split2_ok h3
  have hi := filter_interp h4
  choose! tmp htmp using hi
  have hsd : ∀ (g g' : ℝ → ℝ), (∀ x, 0 ≤ x → 0 ≤ g x) → (∀ x, 0 ≤ x → 0 ≤ g' x) → ∀ k, k < vi.c →
      ∃ q, 0 ≤ q ∧ stdAt (r.map g ++ r.map g') k = .ok q := by
    intro g g' hg0 hg1 k hk
    have hk' : k < (r.map g ++ r.map g').length := by
      simp only [List.length_append, List.length_map]; omega
    refine ⟨_, ?_, if_pos hk'⟩
    rw [List.getD_eq_getElem _ _ hk']
    have := List.getElem_mem hk'
    rcases List.mem_append.1 this with hm | hm
    · obtain ⟨y, hy, he⟩ := List.mem_map.1 hm
      rw [← he]; exact hg0 y (r2 y hy)
    · obtain ⟨y, hy, he⟩ := List.mem_map.1 hm
      rw [← he]; exact hg1 y (r2 y hy)
  have hno : ∀ k, k < vi.c → ∃ q, polarNoise z' (r.map (fun _ => vm') ++ r.map (fun r => cm' * r))
      (r.map (fun _ => vp') ++ r.map (fun _ => cp')) k (tmp k) = .ok q := by
    intro k hk
    obtain ⟨q1, q2, q3⟩ := hsd (fun _ => vm') (fun r => cm' * r) (fun _ _ => e1) (fun x hx => mul_nonneg e2 hx) k hk
    obtain ⟨q4, q5, q6⟩ := hsd (fun _ => vp') (fun _ => cp') (fun _ _ => e3) (fun _ _ => e4) k hk
    have : polarNoise z' (r.map (fun _ => vm') ++ r.map (fun r => cm' * r))
        (r.map (fun _ => vp') ++ r.map (fun _ => cp')) k (tmp k) = addPolarNoise1 z' (k * (2 * (tmp k).length)) (tmp k) q1 q4 := by
      unfold polarNoise
      rw [q3, q6]
      rfl
    rw [this]
    exact ⟨_, addPolarNoise1_ok _ _ _ q2 q5⟩
  choose! res hres using hno
  obtain ⟨o, ho, or, oc, -⟩ := filter_ok vi times ts f f0 _ _ _ htmp hres
  have hev : o.c % 2 = 0 := by
    rw [oc, ← n2]
    unfold Arr2.split2 at h3
    split at h3
    · assumption
    · cases h3
  obtain ⟨y, hy⟩ : ∃ y, o.split2 = .ok y := ⟨_, if_pos hev⟩
  obtain ⟨t1, t2, t3, t4⟩ := split2_ok hy
  refine ⟨(y.1, y.2, v, i), ?_, rfl, ⟨?_, ?_⟩, ?_, ?_⟩
  · unfold noiseSeries
    simp only [h1, ho, hy, h4, h5, bind, Except.bind, pure, Except.pure]
  · exact (t1.trans or).trans (s1.trans n1).symm
  · exact (t3.trans (by rw [oc])).trans (s3.trans (by rw [n2])).symm
  · exact (t2.trans or).trans (s2.trans n1).symm
  · exact (t4.trans (by rw [oc])).trans (s4.trans (by rw [n2])).symm

/-- two results of the noise stage that differ in the noise only -/
structure SameExact (n n' : NoiseResult) : Prop where
  voltage : n'.voltage = n.voltage
  current : n'.current = n.current
  ratings : n'.ratings = n.ratings
  fparam : n'.fparam = n.fparam
  noisyVoltage : n'.noisyVoltage.r = n.noisyVoltage.r ∧ n'.noisyVoltage.c = n.noisyVoltage.c
  noisyCurrent : n'.noisyCurrent.r = n.noisyCurrent.r ∧ n'.noisyCurrent.c = n.noisyCurrent.c

theorem noise_again {z z' : Nat → ℝ} {net : Net} {voltage current : Arr2 ℂ} {times : List ℝ} {fmeas : ℝ} {steps : Nat} {p p' : NoiseParams}
    {safety : ℝ} (hsf : 0 ≤ safety) (e1 : 0 ≤ p'.vm) (e2 : 0 ≤ p'.cm) (e3 : 0 ≤ p'.vp) (e4 : 0 ≤ p'.cp)
    (he : p'.equivalent = p.equivalent) {n : NoiseResult} (h : addNoiseAndFilter z net voltage current times fmeas steps p safety = .ok n) :
    ∃ n', addNoiseAndFilter z' net voltage current times fmeas steps p' safety = .ok n' ∧ SameExact n n' := by
  have r2 := (ratings_spec safety hsf net).2
  unfold addNoiseAndFilter at h ⊢
  obtain ⟨⟨m, ts⟩, h1, h⟩ := Prior.bind_ok h
  obtain ⟨f, h2, h⟩ := Prior.bind_ok h
  dsimp only at h h2
  have h0 := Real.sqrt_nonneg (f : ℝ)
  simp only [h1, h2, bind, Except.bind, he]
  split at h
  · rename_i hq
    rw [if_pos hq]
    obtain ⟨ts', h3, h⟩ := Prior.bind_ok h
    obtain ⟨x, h4, h⟩ := Prior.bind_ok h
    obtain ⟨y, y1, y2, y3, y4⟩ := series_again (z' := z') r2 (div_nonneg e1 h0) (div_nonneg e2 h0) (div_nonneg e3 h0) (div_nonneg e4 h0) h4
    cases h
    simp only [h3, y1]
    exact ⟨_, rfl, congrArg Prod.fst y2, congrArg Prod.snd y2, rfl, rfl, y3, y4⟩
  · rename_i hq
    rw [if_neg hq]
    obtain ⟨x, h4, h⟩ := Prior.bind_ok h
    obtain ⟨y, y1, y2, y3, y4⟩ := series_again (z' := z') r2 e1 e2 e3 e4 h4
    cases h
    simp only [y1]
    exact ⟨_, rfl, congrArg Prod.fst y2, congrArg Prod.snd y2, rfl, rfl, y3, y4⟩

theorem ratings3_nonneg {net : Net} {s : ℝ} (hs : 0 ≤ s) {r : List ℝ} (h : ratings3 (List.replicate 3 s) net = .ok r) :
    ∀ x ∈ r, 0 ≤ x := by
  unfold ratings3 at h
  obtain ⟨a, h1, h⟩ := Prior.bind_ok h
  obtain ⟨b, h2, h⟩ := Prior.bind_ok h
  cases h
  have ha : a.c = net.bus.length ∧ a.r = 3 ∧ ∀ i j, i < a.r → j < a.c → 0 ≤ a.get i j := by
    unfold baseRatings3 at h1
    rw [if_pos (.inl (by simp))] at h1
    cases h1
    refine ⟨rfl, rfl, fun i j hi hj => ?_⟩
    have hi : i < 3 := hi
    rw [Arr2.ofFn_get _ hi (show j < net.bus.length from hj)]
    refine mul_nonneg ?_ ?_
    · rw [if_neg (by simp)]
      rw [List.getD_eq_getElem _ _ (by simpa using hi), List.getElem_replicate]
      exact hs
    · split
      · exact totalLoad_nonneg _ _ _
      · exact le_rfl
  obtain ⟨hb, -⟩ := forRange_visits (f := ratingStep3 net) (s0 := a) (s := b)
    (fun b : Arr2 ℝ => b.c = net.bus.length ∧ b.r = 3 ∧ ∀ i j, i < b.r → j < b.c → 0 ≤ b.get i j) (by
      intro s k s' hs' hk
      unfold ratingStep3 at hk
      split at hk
      · split at hk
        · split at hk
          · cases hk
            refine ⟨hs'.1, hs'.2.1, fun i j hi hj => ?_⟩
            rw [Arr2.ofFn_get _ (show i < s.r from hi) (show j < s.c from hj)]
            split
            · unfold Arr2.rowSum
              refine List.sum_nonneg ?_
              intro y hy
              obtain ⟨q, hq, rfl⟩ := List.mem_map.1 hy
              exact hs'.2.2 _ _ hi (List.mem_range.1 hq)
            · exact hs'.2.2 _ _ hi hj
          · cases hk
        · cases hk; exact hs'
      · cases hk) net.load.length ha h2
  intro x hx
  obtain ⟨k, hk, rfl⟩ := List.mem_map.1 hx
  have hk := List.mem_range.1 hk
  have hpos : 0 < net.bus.length := by
    rcases Nat.eq_zero_or_pos net.bus.length with h0 | h0
    · rw [h0] at hk; omega
    · exact h0
  refine hb.2.2 _ _ ?_ ?_
  · rw [hb.2.1]; exact Nat.div_lt_of_lt_mul (by rw [Nat.mul_comm]; exact hk)
  · rw [hb.1]; exact Nat.mod_lt _ hpos

theorem noise_again3 {z z' : Nat → ℝ} {net : Net} {voltage current : Arr2 ℂ} {times : List ℝ} {fmeas : ℝ} {steps : Nat} {p p' : NoiseParams}
    {safety : ℝ} (hsf : 0 ≤ safety) (e1 : 0 ≤ p'.vm) (e2 : 0 ≤ p'.cm) (e3 : 0 ≤ p'.vp) (e4 : 0 ≤ p'.cp)
    (he : p'.equivalent = p.equivalent) {n : NoiseResult}
    (h : addNoiseAndFilter3 z net voltage current times fmeas steps p (List.replicate 3 safety) = .ok n) :
    ∃ n', addNoiseAndFilter3 z' net voltage current times fmeas steps p' (List.replicate 3 safety) = .ok n' ∧ SameExact n n' := by
  unfold addNoiseAndFilter3 at h ⊢
  obtain ⟨r, hr, h⟩ := Prior.bind_ok h
  have r2 := ratings3_nonneg hsf hr
  obtain ⟨⟨m, ts⟩, h1, h⟩ := Prior.bind_ok h
  obtain ⟨f, h2, h⟩ := Prior.bind_ok h
  dsimp only at h h2
  have h0 := Real.sqrt_nonneg (f : ℝ)
  simp only [hr, h1, h2, bind, Except.bind, he]
  split at h
  · rename_i hq
    rw [if_pos hq]
    obtain ⟨ts', h3, h⟩ := Prior.bind_ok h
    obtain ⟨x, h4, h⟩ := Prior.bind_ok h
    obtain ⟨y, y1, y2, y3, y4⟩ := series_again (z' := z') r2 (div_nonneg e1 h0) (div_nonneg e2 h0) (div_nonneg e3 h0) (div_nonneg e4 h0) h4
    cases h
    simp only [h3, y1]
    exact ⟨_, rfl, congrArg Prod.fst y2, congrArg Prod.snd y2, rfl, rfl, y3, y4⟩
  · rename_i hq
    rw [if_neg hq]
    obtain ⟨x, h4, h⟩ := Prior.bind_ok h
    obtain ⟨y, y1, y2, y3, y4⟩ := series_again (z' := z') r2 e1 e2 e3 e4 h4
    cases h
    simp only [y1]
    exact ⟨_, rfl, congrArg Prod.fst y2, congrArg Prod.snd y2, rfl, rfl, y3, y4⟩

/-! ### the saved data -/

theorem deleteCols_again {m m' q : Arr2 ℂ} {idx : List Nat} (hs : m'.r = m.r ∧ m'.c = m.c) (h : m.deleteCols idx = .ok q) :
    ∃ q', m'.deleteCols idx = .ok q' ∧ (q'.r = q.r ∧ q'.c = q.c) := by
  unfold Arr2.deleteCols at h ⊢
  rw [hs.2]
  split at h
  · rename_i hc
    rw [if_pos hc]
    cases h
    exact ⟨_, rfl, hs.1, rfl⟩
  · cases h

theorem toSeq_again {m m' q : Arr2 ℂ} (hs : m'.r = m.r ∧ m'.c = m.c) (h : measurementPhaseToSequence m = .ok q) :
    ∃ q', measurementPhaseToSequence m' = .ok q' ∧ (q'.r = q.r ∧ q'.c = q.c) := by
  unfold measurementPhaseToSequence Arr2.matmul at h ⊢
  rw [hs.2]
  split at h
  · rename_i hc
    rw [if_pos hc]
    cases h
    exact ⟨_, rfl, hs.1, rfl⟩
  · cases h

theorem drop_again {b : Bool} {net : Net} {n n' : NoiseResult} (e : SameExact n n') {idx : List Nat} {y : Arr2 ℂ} {d : NetworkData}
    (h : dropReduced b net n idx y = .ok d) : ∃ d', dropReduced b net n' idx y = .ok d' ∧ SameGrid d d' := by
  unfold dropReduced at h ⊢
  obtain ⟨nv, h1, h⟩ := Prior.bind_ok h
  obtain ⟨ni, h2, h⟩ := Prior.bind_ok h
  obtain ⟨v, h3, h⟩ := Prior.bind_ok h
  obtain ⟨i, h4, h⟩ := Prior.bind_ok h
  obtain ⟨r, h5, h⟩ := Prior.bind_ok h
  obtain ⟨q, h6, h⟩ := Prior.bind_ok h
  cases h
  obtain ⟨nv', k1, s1⟩ := deleteCols_again e.noisyVoltage h1
  obtain ⟨ni', k2, s2⟩ := deleteCols_again e.noisyCurrent h2
  simp only [k1, k2, e.voltage, e.current, e.ratings, e.fparam, h3, h4, h5, h6, bind, Except.bind, pure, Except.pure]
  exact ⟨_, rfl, rfl, rfl, rfl, rfl, rfl, rfl, s1, s2⟩

theorem sequence_again {d d' q : NetworkData} (e : SameGrid d d') (h : toSequence d = .ok q) :
    ∃ q', toSequence d' = .ok q' ∧ SameGrid q q' := by
  unfold toSequence at h ⊢
  obtain ⟨nv, h1, h⟩ := Prior.bind_ok h
  obtain ⟨ni, h2, h⟩ := Prior.bind_ok h
  obtain ⟨v, h3, h⟩ := Prior.bind_ok h
  obtain ⟨i, h4, h⟩ := Prior.bind_ok h
  obtain ⟨y, h5, h⟩ := Prior.bind_ok h
  cases h
  obtain ⟨nv', k1, s1⟩ := toSeq_again e.noisyVoltage h1
  obtain ⟨ni', k2, s2⟩ := toSeq_again e.noisyCurrent h2
  simp only [k1, k2, e.voltage, e.current, e.ratings, e.fparam, e.y, e.ids, h3, h4, h5, bind, Except.bind, pure, Except.pure]
  exact ⟨_, rfl, rfl, rfl, rfl, rfl, rfl, rfl, s1, s2⟩

theorem data_again {w : SimWorld} {a : SimArgs} (r : Rerun) {net : Net} {hidden : List Int} {n n' : NoiseResult} (e : SameExact n n')
    {d : NetworkData} (h : networkData w a net hidden n = .ok d) :
    ∃ d', networkData (r.world w) (noiseOnly a) net hidden n' = .ok d' ∧ SameGrid d d' := by
  unfold networkData at h ⊢
  obtain ⟨⟨idx, y⟩, h1, h⟩ := Prior.bind_ok h
  obtain ⟨d0, h2, h⟩ := Prior.bind_ok h
  have h1' : reduction (r.world w) (noiseOnly a) net hidden n' = .ok (idx, y) := by
    unfold reduction at h1 ⊢
    rw [e.voltage, e.current]
    exact h1
  obtain ⟨d1, k2, e2⟩ := drop_again e h2
  have k2 : dropReduced (noiseOnly a).threePhased net n' idx y = .ok d1 := k2
  simp only [h1', k2, bind, Except.bind]
  have hq : (noiseOnly a).sequence = a.sequence := rfl
  rw [hq]
  split at h
  · rename_i hs
    rw [if_pos hs]
    exact sequence_again e2 h
  · rename_i hs
    rw [if_neg hs]
    cases h
    exact ⟨_, rfl, e2⟩

/-! ### one run after another -/

theorem noiseOnly_redo (a : SimArgs) : (noiseOnly a).redoLoads = false ∧ (noiseOnly a).redoNetsim = false ∧ (noiseOnly a).redoNoise = true :=
  ⟨rfl, rfl, rfl⟩

theorem noiseOnly_params {w : SimWorld} {cf : SimConf} {a : SimArgs} (bs : List BusData) : loadParams w cf (noiseOnly a) bs = .ok none := by
  unfold loadParams
  have := (noiseOnly_redo a).1
  simp [this]

theorem loadsLoad_stored {st : Store} {name : String} {l : Arr2 ℝ × Arr2 ℝ × List ℝ}
    (h : st (resultFile .loads name) = some (loadsNpz l)) : loadsLoad st name = .ok l := by
  unfold loadsLoad Store.load
  rw [h]
  rfl

theorem loadsLoad3_stored {st : Store} {name : String} {l : Arr2 ℝ × Arr2 ℝ × List (Arr2 ℝ) × List ℝ}
    (h : st (resultFile .loads name) = some (loadsNpz3 l)) : loadsLoad3 st name = .ok l := by
  unfold loadsLoad3 Store.load
  rw [h]
  rfl

theorem simLoad_stored {st : Store} {name : String} {s : Arr2 ℂ × Arr2 ℂ × Arr2 ℂ}
    (h : st (resultFile .simulation name) = some (simNpz s)) : simLoad st name = .ok s := by
  unfold simLoad Store.load
  rw [h]
  rfl

/-- the result of a noise run, from what the two files hold -/
theorem again_run1 {w : SimWorld} {cf : SimConf} {a : SimArgs} {st : Store} (h3 : a.threePhased = false) {net : Net} {bs : List BusData}
    {l : Arr2 ℝ × Arr2 ℝ × List ℝ} {s : Arr2 ℂ × Arr2 ℂ × Arr2 ℂ} {n : NoiseResult} {d : NetworkData}
    (h1 : makeNet w a.network = .ok (net, bs)) (hl : loadsLoad st a.network = .ok l) (hs : simLoad st a.network = .ok s)
    (h6 : addNoiseAndFilter w.z net s.1 s.2.1 l.2.2 cf.fmeas cf.steps (noiseParams cf (noiseOnly a)) cf.safety = .ok n)
    (h7 : networkData w (noiseOnly a) net (hiddenNodes cf (noiseOnly a) bs) n = .ok d) :
    (simulate w cf (noiseOnly a) st).res = .ok d := by
  have h3' : (noiseOnly a).threePhased = false := h3
  unfold simulate
  rw [Prog.bind_ok (a := (net, bs)) (by rw [h3']; exact h1), Prog.bind_ok (a := none) (by simpa using noiseOnly_params bs)]
  have hst : stages w cf (noiseOnly a) net none = stages1 w cf (noiseOnly a) net none := by unfold stages; rw [h3']; rfl
  have key : (stages w cf (noiseOnly a) net none st).res = .ok n := by
    rw [hst]
    unfold stages1
    rw [Prog.bind_ok (a := l) hl, Prog.bind_ok (a := s) (by
      unfold netsim1
      rw [(noiseOnly_redo a).2.1]
      exact hs)]
    simp only [call_run, (noiseOnly_redo a).2.2, if_true, noiseStage, h6]
  simp only [ofExcept_run]
  rw [Prog.bind_ok key, Prog.bind_ok (a := d) (by simpa using h7), Prog.bind_ok (a := ()) (by simp)]
  simp

theorem again_run3 {w : SimWorld} {cf : SimConf} {a : SimArgs} {st : Store} (h3 : a.threePhased = true) {net : Net} {bs : List BusData}
    {l : Arr2 ℝ × Arr2 ℝ × List (Arr2 ℝ) × List ℝ} {s : Arr2 ℂ × Arr2 ℂ × Arr2 ℂ} {n : NoiseResult} {d : NetworkData}
    (h1 : makeNet3 w a.network = .ok (net, bs)) (hl : loadsLoad3 st a.network = .ok l) (hs : simLoad st a.network = .ok s)
    (h6 : addNoiseAndFilter3 w.z net s.1 s.2.1 l.2.2.2 cf.fmeas cf.steps (noiseParams cf (noiseOnly a)) (List.replicate 3 cf.safety) = .ok n)
    (h7 : networkData w (noiseOnly a) net (hiddenNodes cf (noiseOnly a) bs) n = .ok d) :
    (simulate w cf (noiseOnly a) st).res = .ok d := by
  have h3' : (noiseOnly a).threePhased = true := h3
  unfold simulate
  rw [Prog.bind_ok (a := (net, bs)) (by rw [h3']; exact h1), Prog.bind_ok (a := none) (by simpa using noiseOnly_params bs)]
  have hst : stages w cf (noiseOnly a) net none = stages3 w cf (noiseOnly a) net none := by unfold stages; rw [h3']; rfl
  have key : (stages w cf (noiseOnly a) net none st).res = .ok n := by
    rw [hst]
    unfold stages3
    rw [Prog.bind_ok (a := l) hl, Prog.bind_ok (a := s) (by
      unfold netsim3
      rw [(noiseOnly_redo a).2.1]
      exact hs)]
    simp only [call_run, (noiseOnly_redo a).2.2, if_true, noiseStage3, h6]
  simp only [ofExcept_run]
  rw [Prog.bind_ok key, Prog.bind_ok (a := d) (by simpa using h7), Prog.bind_ok (a := ()) (by simp)]
  simp

/-- the files of the loads and of the power flow hold what they held after the run -/
def KeptFiles (name : String) (st st' : Store) : Prop :=
  st' (resultFile .loads name) = st (resultFile .loads name) ∧ st' (resultFile .simulation name) = st (resultFile .simulation name)

/-- one noise run on files that hold the loads and the power flow of a completed run -/
theorem again_step {w : SimWorld} {cf : SimConf} {a : SimArgs} {st : Store} {d : NetworkData} (hn : PlainName a.network)
    (hsf : 0 ≤ cf.safety) (hr : Redone a.noise [a.loads, a.networkSim, a.noise]) (h : (simulate w cf a st).res = .ok d)
    {st' : Store} (hk : KeptFiles a.network (simulate w cf a st).store st') {r : Rerun} (hv : r.Valid) :
    ∃ d', (simulate (r.world w) (r.conf cf) (noiseOnly a) st').res = .ok d' ∧ SameGrid d d' ∧
      (r.z = w.z → r.conf cf = cf → d' = d) := by
  obtain ⟨v1, v2, v3, v4⟩ := hv
  cases h3 : a.threePhased with
  | false =>
    obtain ⟨net, bs, l, s, n, c1, c2, c3, c4, c5, c6, -, c8, -⟩ := C78_simulate hn h3 h
    have hl : loadsLoad st' a.network = .ok l := by
      by_cases hc : Redone a.loads [a.loads, a.networkSim, a.noise]
      · exact loadsLoad_stored (hk.1.trans (c2 hc).2)
      · have := (c3 hc).1
        unfold loadsLoad at this ⊢
        rw [load_congr (hk.1.trans (c3 hc).2)]
        exact this
    have hs : simLoad st' a.network = .ok s := by
      by_cases hc : Redone a.networkSim [a.loads, a.networkSim, a.noise]
      · exact simLoad_stored (hk.2.trans (c4 hc).2)
      · have := (c5 hc).1
        unfold simLoad at this ⊢
        rw [load_congr (hk.2.trans (c5 hc).2)]
        exact this
    have c6 := (c6 hr).1
    obtain ⟨n', k1, k2⟩ := noise_again (z' := r.z) (p := ⟨cf.vm, cf.cm, cf.vp, cf.cp, a.equivalent⟩) (p' := noiseParams (r.conf cf) (noiseOnly a)) hsf v1 v2 v3 v4 rfl c6
    obtain ⟨d', k3, k4⟩ := data_again r k2 c8
    refine ⟨d', again_run1 (w := r.world w) (cf := r.conf cf) h3 c1 hl hs k1 k3, k4, fun hz hc => ?_⟩
    rw [hz, hc] at k1
    have k1 : addNoiseAndFilter w.z net s.1 s.2.1 l.2.2 cf.fmeas cf.steps ⟨cf.vm, cf.cm, cf.vp, cf.cp, a.equivalent⟩ cf.safety = .ok n' := k1
    rw [c6] at k1
    cases k1
    have k3 : networkData w a net (hiddenNodes cf a bs) n = .ok d' := k3
    rw [c8] at k3
    cases k3
    rfl
  | true =>
    obtain ⟨net, bs, l, s, n, c1, c2, c3, c4, c5, c6, -, c8, -⟩ := C78_simulate3 hn h3 h
    have hl : loadsLoad3 st' a.network = .ok l := by
      by_cases hc : Redone a.loads [a.loads, a.networkSim, a.noise]
      · exact loadsLoad3_stored (hk.1.trans (c2 hc).2)
      · have := (c3 hc).1
        unfold loadsLoad3 at this ⊢
        rw [load_congr (hk.1.trans (c3 hc).2)]
        exact this
    have hs : simLoad st' a.network = .ok s := by
      by_cases hc : Redone a.networkSim [a.loads, a.networkSim, a.noise]
      · exact simLoad_stored (hk.2.trans (c4 hc).2)
      · have := (c5 hc).1
        unfold simLoad at this ⊢
        rw [load_congr (hk.2.trans (c5 hc).2)]
        exact this
    have c6 := (c6 hr).1
    obtain ⟨n', k1, k2⟩ := noise_again3 (z' := r.z) (p := ⟨cf.vm, cf.cm, cf.vp, cf.cp, a.equivalent⟩) (p' := noiseParams (r.conf cf) (noiseOnly a)) hsf v1 v2 v3 v4 rfl c6
    obtain ⟨d', k3, k4⟩ := data_again r k2 c8
    refine ⟨d', again_run3 (w := r.world w) (cf := r.conf cf) h3 c1 hl hs k1 k3, k4, fun hz hc => ?_⟩
    rw [hz, hc] at k1
    have k1 : addNoiseAndFilter3 w.z net s.1 s.2.1 l.2.2.2 cf.fmeas cf.steps ⟨cf.vm, cf.cm, cf.vp, cf.cp, a.equivalent⟩
      (List.replicate 3 cf.safety) = .ok n' := k1
    rw [c6] at k1
    cases k1
    have k3 : networkData w a net (hiddenNodes cf a bs) n = .ok d' := k3
    rw [c8] at k3
    cases k3
    rfl

/-- a completed noise run leaves the two files alone -/
theorem again_files {w : SimWorld} {cf : SimConf} {a : SimArgs} {st : Store} {d : NetworkData} (hn : PlainName a.network)
    (h : (simulate w cf (noiseOnly a) st).res = .ok d) : KeptFiles a.network st (simulate w cf (noiseOnly a) st).store ∧
      (simulate w cf (noiseOnly a) st).store (resultFile .network a.network) = some (networkNpz d) := by
  have hl : ¬Redone (noiseOnly a).loads [(noiseOnly a).loads, (noiseOnly a).networkSim, (noiseOnly a).noise] := by
    rw [← redoLoads_iff]; simp [(noiseOnly_redo a).1]
  have hs : ¬Redone (noiseOnly a).networkSim [(noiseOnly a).loads, (noiseOnly a).networkSim, (noiseOnly a).noise] := by
    rw [← redoNetsim_iff]; simp [(noiseOnly_redo a).2.1]
  cases h3 : a.threePhased with
  | false =>
    obtain ⟨net, bs, l, s, n, c1, c2, c3, c4, c5, c6, c7, c8, c9⟩ := C78_simulate (a := noiseOnly a) hn h3 h
    exact ⟨⟨(c3 hl).2, (c5 hs).2⟩, c9⟩
  | true =>
    obtain ⟨net, bs, l, s, n, c1, c2, c3, c4, c5, c6, c7, c8, c9⟩ := C78_simulate3 (a := noiseOnly a) hn h3 h
    exact ⟨⟨(c3 hl).2, (c5 hs).2⟩, c9⟩

theorem sweep_kept {w : SimWorld} {cf : SimConf} {a : SimArgs} {st : Store} {d : NetworkData} (hn : PlainName a.network)
    (hsf : 0 ≤ cf.safety) (hr : Redone a.noise [a.loads, a.networkSim, a.noise]) (h : (simulate w cf a st).res = .ok d) :
    ∀ (rs : List Rerun) (st' : Store), (∀ r ∈ rs, r.Valid) → KeptFiles a.network (simulate w cf a st).store st' →
      KeptFiles a.network (simulate w cf a st).store (sweep w cf a rs st') := by
  intro rs
  induction rs with
  | nil => exact fun st' _ hk => hk
  | cons r rs ih =>
    intro st' hv hk
    obtain ⟨d', k1, -⟩ := again_step hn hsf hr h hk (hv r (List.mem_cons_self ..))
    have k2 := (again_files hn k1).1
    exact ih _ (fun q hq => hv q (List.mem_cons_of_mem _ hq)) ⟨k2.1.trans hk.1, k2.2.trans hk.2⟩

/-- C174: after a run of the simulation that computed the noise, any number of runs for the noise only, each with its own random
numbers and non-negative standard deviations, complete one after the other; each saves data that differ from those of the first run
in the noisy measurements at most (and are the same with the same numbers and deviations), and leaves the loads and the power flow
of the first run on disk -/
theorem C174 {w : SimWorld} {cf : SimConf} {a : SimArgs} {st : Store} {d : NetworkData} (hn : PlainName a.network)
    (hsf : 0 ≤ cf.safety) (hr : Redone a.noise [a.loads, a.networkSim, a.noise]) (h : (simulate w cf a st).res = .ok d)
    {rs : List Rerun} (hrs : ∀ r ∈ rs, r.Valid) {r : Rerun} (hv : r.Valid) :
    ∃ d', (simulate (r.world w) (r.conf cf) (noiseOnly a) (sweep w cf a rs (simulate w cf a st).store)).res = .ok d' ∧ SameGrid d d' ∧
      (r.z = w.z → r.conf cf = cf → d' = d) ∧
      ∀ st', st' = sweep w cf a (rs ++ [r]) (simulate w cf a st).store →
        st' (resultFile .loads a.network) = (simulate w cf a st).store (resultFile .loads a.network) ∧
        st' (resultFile .simulation a.network) = (simulate w cf a st).store (resultFile .simulation a.network) ∧
        st' (resultFile .network a.network) = some (networkNpz d') := by
  have hk := sweep_kept hn hsf hr h rs _ hrs ⟨rfl, rfl⟩
  obtain ⟨d', k1, k2, k3⟩ := again_step hn hsf hr h hk hv
  refine ⟨d', k1, k2, k3, fun st' hst' => ?_⟩
  have hap : ∀ (rs : List Rerun) (st : Store), sweep w cf a (rs ++ [r]) st =
      (simulate (r.world w) (r.conf cf) (noiseOnly a) (sweep w cf a rs st)).store := by
    intro rs
    induction rs with
    | nil => exact fun _ => rfl
    | cons q rs ih => exact fun st => ih _
  rw [hap] at hst'
  subst hst'
  obtain ⟨⟨f1, f2⟩, f3⟩ := again_files hn k1
  exact ⟨f1.trans hk.1, f2.trans hk.2, f3⟩

/-- C174 for the two commands of the script: once the first one completed, the second one completes for every noise level, whatever
was run in between for other levels, and identifies the same grid from the same exact data -/
theorem C174_script (env : Cli.Env) {w : SimWorld} {cf : SimConf} {a a' : SimArgs} {st : Store} {d : NetworkData} (hsf : 0 ≤ cf.safety)
    (ha : Cli.runLine env "simulate_network.py -vqte --network ieee123center" = .simulate (.run a))
    (ha' : Cli.runLine env "simulate_network.py -qtde --network ieee123center" = .simulate (.run a'))
    (h : (simulate w cf a st).res = .ok d) {rs : List Rerun} (hrs : ∀ r ∈ rs, r.Valid) {r : Rerun} (hv : r.Valid) :
    ∃ d', (simulate (r.world w) (r.conf cf) a' (sweep w cf a rs (simulate w cf a st).store)).res = .ok d' ∧ SameGrid d d' := by
  have hae : a = Cli.Spec.fullRun env := by
    rw [Cli.line_full_v env] at ha
    simp only [Cli.Run.simulate.injEq, Cli.Outcome.run.injEq] at ha
    exact ha.symm
  have hae' : a' = noiseOnly a := by
    rw [Cli.line_noise env] at ha'
    simp only [Cli.Run.simulate.injEq, Cli.Outcome.run.injEq] at ha'
    rw [hae]
    exact ha'.symm
  obtain ⟨d', h1, h2, -⟩ := C174 (by rw [hae]; exact shipped_names3 (bs := ieee123CenterBus) rfl) hsf
    (by rw [hae, ← redoNoise_iff]; rfl) h hrs hv
  rw [hae']
  exact ⟨d', h1, h2⟩

/-- C174: the command of the README for the shipped three-phase network, then ten noise runs with other deviations -/
example (env : Cli.Env) (st : Store) : ∃ a d d', Cli.runLine env "simulate_network.py -vqte --network ieee123center" = .simulate (.run a) ∧
    (simulate shippedWorld3 { demoConf115 with hidden := shippedHidden, weeks := [0] } a st).res = .ok d ∧
    (simulate shippedWorld3 { demoConf115 with hidden := shippedHidden, weeks := [0], vm := 1 / 10, cm := 1 / 5 } (noiseOnly a)
      (sweep shippedWorld3 { demoConf115 with hidden := shippedHidden, weeks := [0] } a
        (List.replicate 9 ⟨shippedWorld3.rng, fun _ => 1, shippedWorld3.files, 1, 1, 1, 1⟩)
        (simulate shippedWorld3 { demoConf115 with hidden := shippedHidden, weeks := [0] } a st).store)).res = .ok d' ∧
    SameGrid d d' := by
  obtain ⟨a, d, ha, hd⟩ := shipped3_completes env st
  have hae : a = Cli.Spec.fullRun env := by
    rw [Cli.line_full_v env] at ha
    simp only [Cli.Run.simulate.injEq, Cli.Outcome.run.injEq] at ha
    exact ha.symm
  obtain ⟨d', h1, h2, -⟩ := C174 (r := ⟨shippedWorld3.rng, shippedWorld3.z, shippedWorld3.files, 1 / 10, 1 / 5, 0, 0⟩)
    (rs := List.replicate 9 ⟨shippedWorld3.rng, fun _ => 1, shippedWorld3.files, 1, 1, 1, 1⟩)
    (by rw [hae]; exact shipped_names3 (bs := ieee123CenterBus) rfl) (by norm_num [demoConf115]) (by rw [hae, ← redoNoise_iff]; rfl) hd
    (fun r hr => by rw [(List.mem_replicate.1 hr).2]; exact ⟨zero_le_one, zero_le_one, zero_le_one, zero_le_one⟩)
    ⟨by norm_num, by norm_num, le_rfl, le_rfl⟩
  exact ⟨a, d, d', ha, hd, h1, h2⟩

end
end Verif
