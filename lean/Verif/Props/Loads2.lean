/-
C75 (violation), C76 (random loads), C77 and C83 (three phases), C97, C98, C99.
-/
import Verif.Props.Loads
import Verif.Props.NoiseLaw
import Verif.Model.Simulation

namespace Verif
open MeasureTheory ProbabilityTheory
open scoped NNReal
noncomputable section

/-! ### C75: weeks beyond the end of the file -/

theorem sliceRows_overrun {n s len : Nat} (hs : s < n) (h : n < s + len) : sliceRows n [(s : Int)] len = List.range' s (n - s) := by
  unfold sliceRows
  rw [List.flatMap_cons, List.flatMap_nil, List.append_nil, show ((len : Int) + (s : Int)) = ((len + s : Nat) : Int) by push_cast; ring,
    pySlice_nat, pySlice_nat, min_eq_right (by omega), min_eq_left (by omega)]

/-- C75, violated: when the selected week runs beyond the end of the files, `load_profile_from_numpy` silently returns fewer samples than
asked for, whatever the files. -/
theorem C75_violated (rng : RandInt) (k0 : Nat) (pl ql : Arr2 ℝ) (s len : Nat) (refP refQ : List (List ℝ))
    (hp : s < pl.r) (hpo : pl.r < s + len) (hq : s < ql.r) (hqo : ql.r < s + len) (hpc : pl.c ≠ 0) (hqc : ql.c ≠ 0)
    (hp0 : ∀ t < pl.r, ∀ j < pl.c, pl.get t j ≠ 0) (hq0 : ∀ t < ql.r, ∀ j < ql.c, ql.get t j ≠ 0)
    (hr : ∀ r ∈ refP ++ refQ, (refP.headD []).length ≤ r.length ∧ ∀ x ∈ r, 0 ≤ x) :
    ∃ loads, loadProfile rng k0 pl ql [(s : Int)] len refP refQ = .ok loads ∧ loads.length = refP.length + refQ.length ∧
      ∀ m ∈ loads, m.r < len := by
  have ep := sliceRows_overrun hp hpo
  have eq := sliceRows_overrun hq hqo
  have mem : ∀ {n t : Nat}, s < n → t ∈ List.range' s (n - s) → t < n := by
    intro n t h ht
    rw [List.mem_range'_1] at ht
    omega
  obtain ⟨loads, h⟩ := loadProfile_exists rng k0 pl ql [(s : Int)] len refP refQ (by rw [ep]; simp; omega) (by rw [eq]; simp; omega)
    hpc hqc (fun t ht => hp0 t (mem hp (ep ▸ ht))) (fun t ht => hq0 t (mem hq (eq ▸ ht))) hr
  refine ⟨loads, h, ?_⟩
  rw [loadProfile_eq, ep, eq] at h
  obtain ⟨up, hup, h⟩ := Prior.bind_ok h
  obtain ⟨uq, huq, h⟩ := Prior.bind_ok h
  obtain ⟨hl, ha⟩ := assign_ok h
  rw [List.length_append, List.length_map, List.length_map] at hl
  refine ⟨hl, fun m hm => ?_⟩
  obtain ⟨k, hk⟩ := List.mem_iff_getElem?.1 hm
  have hkl : k < refP.length + refQ.length := hl ▸ (List.getElem?_eq_some_iff.1 hk).1
  rcases Nat.lt_or_ge k refP.length with h1 | h1
  · obtain ⟨m', g1, g2, _⟩ := ha k ⟨selected pl (List.range' s (pl.r - s)), up, refP[k]⟩ (by
      rw [List.getElem?_append_left (by simpa using h1), List.getElem?_map, List.getElem?_eq_getElem h1]; rfl)
    rw [hk] at g1
    cases g1
    rw [g2]
    show (List.range' s (pl.r - s)).length < len
    rw [List.length_range']
    omega
  · obtain ⟨m', g1, g2, _⟩ := ha k ⟨selected ql (List.range' s (ql.r - s)), uq, refQ[k - refP.length]⟩ (by
      rw [List.getElem?_append_right (by simpa using h1), List.getElem?_map, List.length_map,
        List.getElem?_eq_getElem (by omega : k - refP.length < refQ.length)]; rfl)
    rw [hk] at g1
    cases g1
    rw [g2]
    show (List.range' s (ql.r - s)).length < len
    rw [List.length_range']
    omega

/-- a file with two rows, three of which are asked for -/
example (rng : RandInt) : ∃ loads, loadProfile rng 0 (Arr2.ofFn 2 1 (fun _ _ => 1)) (Arr2.ofFn 2 1 (fun _ _ => 1)) [((0 : Nat) : Int)] (3 : Nat)
    [[1]] [[2]] = .ok loads ∧ loads.length = 2 ∧ ∀ m ∈ loads, m.r < 3 := by
  have h : ∀ t < 2, ∀ j < 1, (Arr2.ofFn 2 1 (fun _ _ => (1 : ℝ))).get t j ≠ 0 := by
    intro t ht j hj
    rw [Arr2.ofFn_get _ ht hj]
    norm_num
  refine C75_violated rng 0 _ _ 0 3 [[1]] [[2]] ?_ ?_ ?_ ?_ ?_ ?_ h h ?_
  · show 0 < 2; norm_num
  · show 2 < 3; norm_num
  · show 0 < 2; norm_num
  · show 2 < 3; norm_num
  · show 1 ≠ 0; norm_num
  · show 1 ≠ 0; norm_num
  · intro r hr
    simp only [List.cons_append, List.nil_append, List.mem_cons, List.not_mem_nil, or_false] at hr
    rcases hr with rfl | rfl <;> simp

/-- and a file that is long enough, for `C75_partial` -/
example (rng : RandInt) : ∃ loads, loadProfile rng 0 (Arr2.ofFn 3 1 (fun _ _ => 1)) (Arr2.ofFn 3 1 (fun _ _ => 1))
    ([0, 1].map (fun s : Nat => (s : Int))) (2 : Nat) [[1]] [[2]] = .ok loads := by
  have hs : sliceRows 3 ([0, 1].map (fun s : Nat => (s : Int))) (2 : Nat) = [0, 1, 1, 2] :=
    (sliceRows_inside (n := 3) (len := 2) (skip := [0, 1]) (by simp)).trans (by simp [Spec.weekRows, List.range'])
  have h : ∀ t ∈ sliceRows 3 ([0, 1].map (fun s : Nat => (s : Int))) (2 : Nat), ∀ j < 1, (Arr2.ofFn 3 1 (fun _ _ => (1 : ℝ))).get t j ≠ 0 := by
    intro t ht j hj
    rw [hs] at ht
    have ht' : t < 3 := by
      simp only [List.mem_cons, List.not_mem_nil, or_false] at ht
      omega
    rw [Arr2.ofFn_get _ ht' hj]
    norm_num
  refine loadProfile_exists rng 0 _ _ _ _ [[1]] [[2]] ?_ ?_ ?_ ?_ h h ?_
  · show sliceRows 3 _ _ ≠ []; rw [hs]; simp
  · show sliceRows 3 _ _ ≠ []; rw [hs]; simp
  · show 1 ≠ 0; norm_num
  · show 1 ≠ 0; norm_num
  · intro r hr
    simp only [List.cons_append, List.nil_append, List.mem_cons, List.not_mem_nil, or_false] at hr
    rcases hr with rfl | rfl <;> simp

/-! ### random loads -/

theorem generateGaussianLoad_two (z : Nat → ℝ) (sd : ℝ) (n : Nat) (a b : List ℝ) :
    generateGaussianLoad z sd n [a, b] = (gaussianLoad z 0 sd n a).bind (fun p =>
      (gaussianLoad z (n * a.length) sd n b).bind (fun q => .ok [p, q])) := by
  have : generateGaussianLoad z sd n [a, b] = (gaussianLoad z (0 * (n * a.length)) sd n a).bind (fun p =>
      (gaussianLoad z (1 * (n * a.length)) sd n b).bind (fun q => .ok [p, q])) := by
    unfold generateGaussianLoad forRange
    rw [show List.range [a, b].length = [0, 1] from rfl, List.foldlM_cons, List.headD_cons]
    show ((gaussianLoad z (0 * (n * a.length)) sd n a).bind _).bind _ = _
    cases gaussianLoad z (0 * (n * a.length)) sd n a with
    | error e => rfl
    | ok p =>
      dsimp only [Except.bind, pure, Except.pure]
      rw [List.foldlM_cons]
      dsimp only [bind, Except.bind]
      rw [show ([a, b] : List (List ℝ)).getD 1 [] = b from rfl]
      cases gaussianLoad z (1 * (n * a.length)) sd n b with
      | error e => rfl
      | ok q => rfl
  rw [this, Nat.zero_mul, Nat.one_mul]

theorem gaussianLoad_ok {z : Nat → ℝ} {k : Nat} {sd : ℝ} {n : Nat} {ref : List ℝ} {m : Arr2 ℝ} (h : gaussianLoad z k sd n ref = .ok m) :
    (∀ r ∈ ref, 0 ≤ r * sd) ∧ m.r = n ∧ m.c = ref.length ∧
      ∀ t < n, ∀ j < ref.length, m.get t j = ref.getD j 0 + ref.getD j 0 * sd * z (k + (t * ref.length + j)) := by
  unfold gaussianLoad at h
  split at h
  · cases h
  · rename_i hn
    cases h
    exact ⟨fun r hr => not_lt.1 (fun hlt => hn ⟨r, hr, hlt⟩), rfl, rfl, fun t ht j hj => Arr2.ofFn_get _ ht hj⟩

theorem rawLoads_gaussian {rng : RandInt} {z : Nat → ℝ} {files : String → Option (Arr2 ℝ)} {net : Net} {sd : ℝ} {days : Nat}
    {const : Option (List Int)} {p q : Arr2 ℝ} (h : rawLoads rng z files net (.gaussian sd days const) = .ok (p, q)) :
    gaussianLoad z 0 sd (days * 24 * 60) (nominalP net) = .ok p ∧
    gaussianLoad z (days * 24 * 60 * net.load.length) sd (days * 24 * 60) (nominalQ net) = .ok q := by
  change (generateGaussianLoad z sd (minuteTimes days).length [nominalP net, nominalQ net]).bind _ = _ at h
  rw [generateGaussianLoad_two, minuteTimes_length] at h
  obtain ⟨l, hl, h⟩ := Prior.bind_ok h
  obtain ⟨p', hp, hl⟩ := Prior.bind_ok hl
  obtain ⟨q', hq, hl⟩ := Prior.bind_ok hl
  cases hl
  cases h
  exact ⟨hp, by simpa [nominalP] using hq⟩

theorem rawLoads_gaussian_exists (rng : RandInt) (z : Nat → ℝ) (files : String → Option (Arr2 ℝ)) (net : Net) {sd : ℝ} (days : Nat)
    (const : Option (List Int)) (h : ∀ l ∈ net.load, 0 ≤ l.p * sd ∧ 0 ≤ l.q * sd) :
    ∃ r, rawLoads rng z files net (.gaussian sd days const) = .ok r := by
  have hp : ¬ ∃ r ∈ nominalP net, r * sd < 0 := by
    rintro ⟨r, hr, hlt⟩
    obtain ⟨l, hl, rfl⟩ := List.mem_map.1 hr
    exact absurd (h l hl).1 (not_le.2 hlt)
  have hq : ¬ ∃ r ∈ nominalQ net, r * sd < 0 := by
    rintro ⟨r, hr, hlt⟩
    obtain ⟨l, hl, rfl⟩ := List.mem_map.1 hr
    exact absurd (h l hl).2 (not_le.2 hlt)
  change ∃ r, (generateGaussianLoad z sd (minuteTimes days).length [nominalP net, nominalQ net]).bind _ = .ok r
  rw [generateGaussianLoad_two, gaussianLoad, if_neg hp]
  show ∃ r, ((gaussianLoad _ _ _ _ _).bind _).bind _ = .ok r
  rw [gaussianLoad, if_neg hq]
  exact ⟨_, rfl⟩

/-- C76 for random loads: always. -/
theorem C76_gaussian (rng : RandInt) (z : Nat → ℝ) (files : String → Option (Arr2 ℝ)) (a : ℝ) (net : Net) (sd : ℝ) (days : Nat)
    (const : Option (List Int)) (p q : Arr2 ℝ) (t : List ℝ)
    (h : computeLoads rng z files a net (.gaussian sd days const) = .ok (p, q, t)) : p.r = t.length ∧ q.r = t.length := by
  obtain ⟨p0, q0, h0, h1, rfl⟩ := computeLoads_ok h
  obtain ⟨hp, hq⟩ := blendLoads_ok h1
  obtain ⟨g1, g2⟩ := rawLoads_gaussian h0
  rw [hp.1, hq.1, (gaussianLoad_ok g1).2.1, (gaussianLoad_ok g2).2.1]
  show _ = (minuteTimes days).length ∧ _ = (minuteTimes days).length
  rw [minuteTimes_length]
  exact ⟨rfl, rfl⟩

/-- C99: the random loads, before blending, are independent normal variables, with the nominal power as mean and the configured fraction
of it as standard deviation. -/
theorem C99 {Ω : Type} [MeasurableSpace Ω] {P : Measure Ω} (z : Nat → Ω → ℝ)
    (hz : ∀ k, HasLaw (z k) (gaussianReal 0 1) P) (hi : iIndepFun z P) (rng : RandInt) (files : String → Option (Arr2 ℝ)) (net : Net)
    (sd : ℝ) (days : Nat) (const : Option (List Int)) (h : ∀ l ∈ net.load, 0 ≤ l.p * sd ∧ 0 ≤ l.q * sd) :
    ∃ p q : Ω → Arr2 ℝ, (∀ ω, rawLoads rng (fun k => z k ω) files net (.gaussian sd days const) = .ok (p ω, q ω)) ∧
      (∀ ω, (p ω).r = days * 1440 ∧ (q ω).r = days * 1440 ∧ (p ω).c = net.load.length ∧ (q ω).c = net.load.length) ∧
      (∀ t < days * 1440, ∀ (i : Nat) (l : LoadRow), net.load[i]? = some l →
        HasLaw (fun ω => (p ω).get t i) (gaussianReal l.p (NNReal.mk ((l.p * sd) ^ 2) (sq_nonneg _))) P ∧
        HasLaw (fun ω => (q ω).get t i) (gaussianReal l.q (NNReal.mk ((l.q * sd) ^ 2) (sq_nonneg _))) P) ∧
      iIndepFun (fun (e : Bool × Fin (days * 1440) × Fin net.load.length) ω => ((if e.1 then p ω else q ω).get e.2.1 e.2.2)) P := by
  have hex := fun ω => rawLoads_gaussian_exists rng (fun k => z k ω) files net days const h
  choose r hr using hex
  have hn : days * 24 * 60 = days * 1440 := by ring
  have hP := fun ω => gaussianLoad_ok (rawLoads_gaussian (p := (r ω).1) (q := (r ω).2) (hr ω)).1
  have hQ := fun ω => gaussianLoad_ok (rawLoads_gaussian (p := (r ω).1) (q := (r ω).2) (hr ω)).2
  rw [hn] at hP hQ
  have lp : (nominalP net).length = net.load.length := by simp [nominalP]
  have lq : (nominalQ net).length = net.load.length := by simp [nominalQ]
  rw [lp] at hP
  rw [lq] at hQ
  have gp : ∀ (i : Nat) (l : LoadRow), net.load[i]? = some l → (nominalP net).getD i 0 = l.p := by
    intro i l hl
    rw [List.getD, nominalP, List.getElem?_map, hl]
    rfl
  have gq : ∀ (i : Nat) (l : LoadRow), net.load[i]? = some l → (nominalQ net).getD i 0 = l.q := by
    intro i l hl
    rw [List.getD, nominalQ, List.getElem?_map, hl]
    rfl
  have law : ∀ (k : Nat) (c : ℝ), HasLaw (fun ω => c + c * sd * z k ω) (gaussianReal c (NNReal.mk ((c * sd) ^ 2) (sq_nonneg _))) P := by
    intro k c
    have := gaussianReal_const_add (gaussian_scale (hz k) (c * sd)) c
    rwa [zero_add] at this
  refine ⟨fun ω => (r ω).1, fun ω => (r ω).2, fun ω => hr ω, fun ω => ⟨(hP ω).2.1, (hQ ω).2.1, (hP ω).2.2.1, (hQ ω).2.2.1⟩, ?_, ?_⟩
  · intro t ht i l hl
    have hil : i < net.load.length := (List.getElem?_eq_some_iff.1 hl).1
    constructor
    · have e : (fun ω => (r ω).1.get t i) = fun ω => l.p + l.p * sd * z (0 + (t * net.load.length + i)) ω := by
        funext ω
        rw [(hP ω).2.2.2 t ht i hil, gp i l hl]
      rw [e]
      exact law _ _
    · have e : (fun ω => (r ω).2.get t i) = fun ω => l.q + l.q * sd * z (days * 1440 * net.load.length + (t * net.load.length + i)) ω := by
        funext ω
        rw [(hQ ω).2.2.2 t ht i hil, gq i l hl]
      rw [e]
      exact law _ _
  · let pos : Bool × Fin (days * 1440) × Fin net.load.length → Nat := fun e =>
      (if e.1 then 0 else days * 1440 * net.load.length) + (e.2.1 * net.load.length + e.2.2)
    let c : Bool × Fin (days * 1440) × Fin net.load.length → ℝ := fun e => (if e.1 then nominalP net else nominalQ net).getD e.2.2 0
    have hlt : ∀ (t : Fin (days * 1440)) (i : Fin net.load.length), (t : Nat) * net.load.length + i < days * 1440 * net.load.length := by
      intro t i
      have : ((t : Nat) + 1) * net.load.length ≤ days * 1440 * net.load.length := Nat.mul_le_mul_right _ t.2
      have h2 := i.2
      have : (t : Nat) * net.load.length + net.load.length ≤ days * 1440 * net.load.length := by linarith [this]
      omega
    have hti : ∀ (t t' : Fin (days * 1440)) (i i' : Fin net.load.length), (t : Nat) * net.load.length + i = t' * net.load.length + i' →
        t = t' ∧ i = i' := by
      intro t t' i i' he
      have h0 : 0 < net.load.length := lt_of_le_of_lt (Nat.zero_le _) i.2
      have hi : (i : Nat) = i' := by
        have := congrArg (· % net.load.length) he
        simpa [Nat.mul_add_mod_of_lt, Nat.mod_eq_of_lt i.2, Nat.mod_eq_of_lt i'.2, Nat.add_mod] using this
      have ht : (t : Nat) = t' := by
        rw [hi] at he
        exact Nat.eq_of_mul_eq_mul_right h0 (Nat.add_right_cancel he)
      exact ⟨Fin.ext ht, Fin.ext hi⟩
    have hinj : Function.Injective pos := by
      rintro ⟨b, t, i⟩ ⟨b', t', i'⟩ he
      have h1 := hlt t i
      have h2 := hlt t' i'
      dsimp only [pos] at he
      cases b <;> cases b' <;> simp only [if_true, if_false, Bool.false_eq_true] at he
      · obtain ⟨rfl, rfl⟩ := hti _ _ _ _ (by omega : (t : Nat) * net.load.length + i = t' * net.load.length + i')
        rfl
      · omega
      · omega
      · obtain ⟨rfl, rfl⟩ := hti _ _ _ _ (by omega : (t : Nat) * net.load.length + i = t' * net.load.length + i')
        rfl
    have e : (fun (e : Bool × Fin (days * 1440) × Fin net.load.length) ω => ((if e.1 then (r ω).1 else (r ω).2).get e.2.1 e.2.2)) =
        fun e => (fun x => c e + c e * sd * x) ∘ z (pos e) := by
      funext e ω
      obtain ⟨b, t, i⟩ := e
      cases b
      · exact (hQ ω).2.2.2 t t.2 i i.2
      · exact (hP ω).2.2.2 t t.2 i i.2
    rw [e]
    exact (hi.precomp hinj).comp (fun e x => c e + c e * sd * x) (fun e => by fun_prop)

/-- independent standard normal samples exist, so the hypotheses of `C99` are met -/
example : ∃ (Ω : Type) (_ : MeasurableSpace Ω) (P : Measure Ω) (z : Nat → Ω → ℝ), (∀ k, HasLaw (z k) (gaussianReal 0 1) P) ∧ iIndepFun z P := by
  obtain ⟨Ω, m, P, _, z, h1, h2⟩ := exists_standard_normals
  exact ⟨Ω, m, P, z, h1, h2⟩

/-! ### C97, C98: signs of the nominal powers -/

/-- C97, violated: random loads cannot be generated for a network with a load of negative nominal power. -/
theorem C97_gaussian_violated (rng : RandInt) (z : Nat → ℝ) (files : String → Option (Arr2 ℝ)) (a : ℝ) (net : Net) {sd : ℝ} (hsd : 0 < sd)
    (days : Nat) (const : Option (List Int)) (h : ∃ l ∈ net.load, l.p < 0 ∨ l.q < 0) :
    computeLoads rng z files a net (.gaussian sd days const) = .error .valueError := by
  have : rawLoads rng z files net (.gaussian sd days const) = .error .valueError := by
    change (generateGaussianLoad z sd (minuteTimes days).length [nominalP net, nominalQ net]).bind _ = _
    rw [generateGaussianLoad_two]
    by_cases hp : ∃ r ∈ nominalP net, r * sd < 0
    · rw [gaussianLoad, if_pos hp]
      rfl
    · have hq : ∃ r ∈ nominalQ net, r * sd < 0 := by
        obtain ⟨l, hl, h1 | h1⟩ := h
        · exact absurd ⟨l.p, List.mem_map_of_mem hl, mul_neg_of_neg_of_pos h1 hsd⟩ hp
        · exact ⟨l.q, List.mem_map_of_mem hl, mul_neg_of_neg_of_pos h1 hsd⟩
      rw [gaussianLoad, if_neg hp]
      show ((gaussianLoad _ _ _ _ _).bind _).bind _ = _
      rw [gaussianLoad, if_pos hq]
      rfl
  unfold computeLoads
  rw [this]
  rfl

theorem rounds_nonneg {x : ℝ} {n : Nat} (h : Spec.Rounds x n) : -(1 / 2) ≤ x := by
  have hn : (0 : ℝ) ≤ ((n : Int) : ℝ) := by positivity
  rcases h with h | h
  · have := abs_lt.1 h
    linarith
  · rcases (abs_eq (by norm_num : (0 : ℝ) ≤ 1 / 2)).1 h.1 with h1 | h1 <;> linarith

/-- C97, violated: profiles from files cannot be generated for a load that feeds in more than half of the mean 90th percentile of the
households. -/
theorem C97_profiles_violated (rng : RandInt) (z : Nat → ℝ) (files : String → Option (Arr2 ℝ)) (a : ℝ) (net : Net) (fa fr : String)
    (weeks : List Int) (days : Nat) (const : Option (List Int)) (p q : Arr2 ℝ) (t : List ℝ)
    (h : computeLoads rng z files a net (.profiles fa fr weeks days const) = .ok (p, q, t)) :
    ∃ pl ql rp rq up uq, files fa = some pl ∧ files fr = some ql ∧ Spec.MeanPercentile pl rp up ∧ Spec.MeanPercentile ql rq uq ∧
      ∀ l ∈ net.load, -(1 / 2) ≤ l.p / up ∧ -(1 / 2) ≤ l.q / uq := by
  obtain ⟨p0, q0, h0, h1, rfl⟩ := computeLoads_ok h
  obtain ⟨hw, pl, ql, hpl, hql, hl⟩ := rawLoads_profiles h0
  have hl' := hl
  rw [loadProfile_eq] at hl'
  obtain ⟨up, hup, hl'⟩ := Prior.bind_ok hl'
  obtain ⟨uq, huq, hl'⟩ := Prior.bind_ok hl'
  obtain ⟨_, hpc, hps⟩ := meanPercentile_spec hup
  obtain ⟨_, hqc, hqs⟩ := meanPercentile_spec huq
  obtain ⟨_, ha⟩ := assign_ok hl'
  refine ⟨pl, ql, _, _, up, uq, hpl, hql, hps, hqs, fun l hmem => ?_⟩
  obtain ⟨i, hi⟩ := List.mem_iff_getElem?.1 hmem
  have hil : i < net.load.length := (List.getElem?_eq_some_iff.1 hi).1
  have hil' : i < ([nominalP net].headD []).length := by simpa [nominalP] using hil
  have gp : (nominalP net).getD i 0 = l.p := by rw [List.getD, nominalP, List.getElem?_map, hi]; rfl
  have gq : (nominalQ net).getD i 0 = l.q := by rw [List.getD, nominalQ, List.getElem?_map, hi]; rfl
  constructor
  · obtain ⟨m, _, _, _, h4⟩ := ha 0 _ rfl
    obtain ⟨_, _, hs, hr, _⟩ := columnOf_spec hpc (h4 i hil' trivial)
    rw [gp] at hr
    exact rounds_nonneg hr
  · obtain ⟨m, _, _, _, h4⟩ := ha 1 _ rfl
    obtain ⟨_, _, hs, hr, _⟩ := columnOf_spec hqc (h4 i hil' trivial)
    rw [gq] at hr
    exact rounds_nonneg hr

theorem rounds_zero {n : Nat} (h : Spec.Rounds 0 n) : n = 0 := by
  by_contra hn
  have h1 : (1 : ℝ) ≤ ((n : Int) : ℝ) := by
    push_cast
    exact_mod_cast Nat.one_le_iff_ne_zero.2 hn
  rcases h with h | h
  · have := abs_lt.1 h
    linarith
  · rcases (abs_eq (by norm_num : (0 : ℝ) ≤ 1 / 2)).1 h.1 with h2 | h2 <;> linarith

/-- C98: a node without nominal power has no load, at any time. -/
theorem C98 (rng : RandInt) (z : Nat → ℝ) (files : String → Option (Arr2 ℝ)) (a : ℝ) (net : Net) (lp : LoadParams) (p q : Arr2 ℝ)
    (t : List ℝ) (h : computeLoads rng z files a net lp = .ok (p, q, t)) (i : Nat) (l : LoadRow) (hl : net.load[i]? = some l) :
    (l.p = 0 → ∀ k < p.r, p.get k i = 0) ∧ (l.q = 0 → ∀ k < q.r, q.get k i = 0) := by
  obtain ⟨p0, q0, h0, h1, _⟩ := computeLoads_ok h
  obtain ⟨hp, hq⟩ := blendLoads_ok h1
  have hil : i < net.load.length := (List.getElem?_eq_some_iff.1 hl).1
  have gp : (nominalP net).getD i 0 = l.p := by rw [List.getD, nominalP, List.getElem?_map, hl]; rfl
  have gq : (nominalQ net).getD i 0 = l.q := by rw [List.getD, nominalQ, List.getElem?_map, hl]; rfl
  have lnp : (nominalP net).length = net.load.length := by simp [nominalP]
  have lnq : (nominalQ net).length = net.load.length := by simp [nominalQ]
  have raw : net.load.length ≤ p0.c ∧ net.load.length ≤ q0.c ∧ (l.p = 0 → ∀ k < p0.r, p0.get k i = 0) ∧ (l.q = 0 → ∀ k < q0.r, q0.get k i = 0) := by
    cases lp with
    | gaussian sd days const =>
      obtain ⟨g1, g2⟩ := rawLoads_gaussian h0
      obtain ⟨_, r1, c1, e1⟩ := gaussianLoad_ok g1
      obtain ⟨_, r2, c2, e2⟩ := gaussianLoad_ok g2
      refine ⟨by omega, by omega, fun hz k hk => ?_, fun hz k hk => ?_⟩
      · rw [e1 k (r1 ▸ hk) i (lnp ▸ hil), gp, hz]; ring
      · rw [e2 k (r2 ▸ hk) i (lnq ▸ hil), gq, hz]; ring
    | profiles fa fr weeks days const =>
      obtain ⟨hw, pl, ql, _, _, hld⟩ := rawLoads_profiles h0
      obtain ⟨up, uq, r1, c1, r2, c2, hpc, hqc, k1, k2⟩ := loadProfile_pair hld
      refine ⟨by omega, by omega, fun hz k hk => ?_, fun hz k hk => ?_⟩
      · obtain ⟨_, _, hs, hr, _, hsum⟩ := columnOf_spec hpc (k1 i (lnp ▸ hil))
        rw [gp, hz, zero_div] at hr
        have : hs = [] := List.length_eq_zero_iff.1 (rounds_zero hr)
        have e := hsum k (r1 ▸ hk)
        rw [this] at e
        simpa using e
      · obtain ⟨_, _, hs, hr, _, hsum⟩ := columnOf_spec hqc (k2 i (lnp ▸ hil))
        rw [gq, hz, zero_div] at hr
        have : hs = [] := List.length_eq_zero_iff.1 (rounds_zero hr)
        have e := hsum k (r2 ▸ hk)
        rw [this] at e
        simpa using e
  obtain ⟨c1, c2, z1, z2⟩ := raw
  have fin : ∀ {m m' : Arr2 ℝ} {nom : LoadRow → ℝ}, Blended a lp.const net.load LoadRow.bus nom m m' → i < m.c → nom l = 0 →
      (∀ k < m.r, m.get k i = 0) → ∀ k < m'.r, m'.get k i = 0 := by
    intro m m' nom hb hc hn hz k hk
    have hk' : k < m.r := hb.1 ▸ hk
    obtain ⟨b1, b2⟩ := hb.2.2 k hk' i hc
    by_cases hex : ∃ nodes, lp.const = some nodes ∧ l.bus ∈ nodes
    · obtain ⟨nodes, hn1, hn2⟩ := hex
      rw [b1 nodes l hn1 hl hn2, hz k hk', hn]
      ring
    · rw [b2 (fun nodes l' hn1 hl' hn2 => hex ⟨nodes, hn1, by rw [hl] at hl'; cases hl'; exact hn2⟩), hz k hk']
  exact ⟨fun hz => fin hp (lt_of_lt_of_le hil c1) hz (z1 hz), fun hz => fin hq (lt_of_lt_of_le hil c2) hz (z2 hz)⟩

end
end Verif
