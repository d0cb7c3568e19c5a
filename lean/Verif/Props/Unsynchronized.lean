/-
C127, what does use only the magnitudes: the weighted errors-in-variables fit; what does not: its initial estimate.
-/
import Verif.Props.EivOrder3
import Verif.Props.BayesProgram

namespace Verif
open Finset
noncomputable section

/-- what meters without common time measure: the same magnitudes of the voltages and the same products of each current with the
conjugate of its voltage (complex powers) -/
structure Spec.SameMeters (v c v' c' : Arr2 ℂ) : Prop where
  voltages : v'.r = v.r ∧ v'.c = v.c
  currents : c'.r = c.r ∧ c'.c = c.c
  magnitudes : ∀ t j, t < v.r → j < v.c → ‖v'.get t j‖ = ‖v.get t j‖
  powers : ∀ t j, t < v.r → j < v.c → c'.get t j * (starRingEnd ℂ) (v'.get t j) = c.get t j * (starRingEnd ℂ) (v.get t j)

theorem Spec.SameMeters.columns {v c v' c' : Arr2 ℂ} (h : Spec.SameMeters v c v' c') (hs : c.r = v.r ∧ c.c = v.c) {m : Nat} {f : Nat → Nat}
    (hf : ∀ j < m, f j < v.c) : Spec.SameMeters (Spec.columnsAt v m f) (Spec.columnsAt c m f) (Spec.columnsAt v' m f)
      (Spec.columnsAt c' m f) := by
  refine ⟨⟨h.voltages.1, rfl⟩, ⟨h.currents.1, rfl⟩, fun t j ht hj => ?_, fun t j ht hj => ?_⟩
  all_goals
    have ht : t < v.r := ht
    have hj : j < m := hj
    have ht1 : t < v'.r := by rw [h.voltages.1]; exact ht
    have ht2 : t < c.r := by rw [hs.1]; exact ht
    have ht3 : t < c'.r := by rw [h.currents.1, hs.1]; exact ht
    unfold Spec.columnsAt
  · rw [Arr2.ofFn_get _ ht hj, Arr2.ofFn_get _ ht1 hj]
    exact h.magnitudes t _ ht (hf j hj)
  · rw [Arr2.ofFn_get _ ht hj, Arr2.ofFn_get _ ht1 hj, Arr2.ofFn_get _ ht2 hj, Arr2.ofFn_get _ ht3 hj]
    exact h.powers t _ ht (hf j hj)

/-- C127, `bayesian_eiv`: with weights and without synchronisation the outcome, with the log, the file and the errors, depends on the
measurements only through the magnitudes of the voltages and the complex powers. Missing: the initial estimate, an argument here, is
made from the phases (`C127_initial_violated`), and without weights the phases are used (`C127_violated`). -/
theorem C127_partial (ext : NumExt) (cf : IdConf) (name : String) {v c v' c' : Arr2 ℂ} (h : Spec.SameMeters v c v' c')
    (vsd isd : SdPolar) (ratings : List ℝ) (y0 : Arr2 ℂ) (ye : Option (Arr2 ℂ)) (lap : Bool) (K : Nat) (st : Store) :
    bayesianEiv ext cf name (some v') (some c') vsd isd ratings y0 ye lap true K false st =
      bayesianEiv ext cf name (some v) (some c) vsd isd ratings y0 ye lap true K false st := by
  have key : ∀ prior, eivCompute ext cf prior v' c' vsd isd ratings y0 lap true K false =
      eivCompute ext cf prior v c vsd isd ratings y0 lap true K false := by
    intro prior
    have e1 : v'.map (fun z => ((‖z‖ : ℝ) : ℂ)) = v.map (fun z => ((‖z‖ : ℝ) : ℂ)) := by
      refine Arr2.ext' h.voltages.1 h.voltages.2 fun t j (ht : t < v'.r) (hj : j < v'.c) => ?_
      have ht' : t < v.r := by rw [← h.voltages.1]; exact ht
      have hj' : j < v.c := by rw [← h.voltages.2]; exact hj
      unfold Arr2.map
      rw [Arr2.ofFn_get _ ht hj, Arr2.ofFn_get _ ht' hj']
      dsimp only
      rw [h.magnitudes t j ht' hj']
    have e2 : Arr2.zipWith (fun i v => i * (starRingEnd ℂ) v / ((‖v‖ : ℝ) : ℂ)) c' v' =
        Arr2.zipWith (fun i v => i * (starRingEnd ℂ) v / ((‖v‖ : ℝ) : ℂ)) c v := by
      unfold Arr2.zipWith
      rw [h.voltages.1, h.voltages.2, h.currents.1, h.currents.2]
      split
      · rename_i hs
        congr 1
        refine Arr2.ext' rfl rfl fun t j ht hj => ?_
        have ht : t < c.r := ht
        have hj : j < c.c := hj
        rw [Arr2.ofFn_get _ ht hj, Arr2.ofFn_get _ ht hj]
        have ht' : t < v.r := by rw [← hs.1]; exact ht
        have hj' : j < v.c := by rw [← hs.2]; exact hj
        dsimp only
        rw [h.powers t j ht' hj', h.magnitudes t j ht' hj']
      · rfl
    simp only [eivCompute, eivWeights, Bool.and_false, Bool.false_eq_true, if_false, Bool.not_false, Bool.and_self, if_true, e1, e2]
    simp only [bind_assoc]
    refine bind_same _ fun ci => bind_same _ fun W => ?_
    have k1 := noise_array_cases naiveAll c (ratings.map (fun r => isd.m * r)) isd.p true
    have k2 := noise_array_cases naiveAll c' (ratings.map (fun r => isd.m * r)) isd.p true
    rw [h.currents.2] at k2
    rcases k1 with ⟨⟨w1, h1⟩, g1⟩ | ⟨h1, g1, g1'⟩ <;> rcases k2 with ⟨⟨w2, h2⟩, g2⟩ | ⟨h2, g2, g2'⟩
    · rw [show naiveNoiseCovariance c (ratedSd isd ratings) isd.p true = _ from h1,
        show naiveNoiseCovariance c' (ratedSd isd ratings) isd.p true = _ from h2]
      rfl
    · exact absurd (g1 g2) g2'
    · exact absurd (g2 g1) g1'
    · rw [show naiveNoiseCovariance c (ratedSd isd ratings) isd.p true = _ from h1,
        show naiveNoiseCovariance c' (ratedSd isd ratings) isd.p true = _ from h2]
  unfold bayesianEiv
  dsimp only
  rw [h.voltages.2]
  cases eivPrior cf v.c y0 ye lap with
  | error e => rfl
  | ok prior =>
    dsimp only
    cases decide (K > 0) with
    | false => rfl
    | true => dsimp only; rw [key]

/-- the same for `bayesian_eiv` of run3ph.py, column by column -/
theorem C127_three_partial (ext : NumExt) (cf : IdConf) (name : String) {v c v' c' : Arr2 ℂ} (h : Spec.SameMeters v c v' c')
    (hs : c.r = v.r) (vsd isd : SdPolar) {ids : List Int} {ratings : List ℝ} {y0 : Arr2 ℂ} {ye : Option (Arr2 ℂ)}
    (hd : Spec.PhaseData ids v c ratings y0 ye) {m : Fin 3 → Nat} {f : Fin 3 → Nat → Nat}
    (hp : ∀ l : Fin 3, Spec.LabelPos ids (l.val : Int) (m l) (f l)) (lap : Bool) (K : Nat) :
    bayesianEiv3 ext cf name v' c' ids vsd isd ratings y0 ye lap true K false =
      bayesianEiv3 ext cf name v c ids vsd isd ratings y0 ye lap true K false := by
  have hcc : c.c = v.c := by rw [← hd.v, ← hd.c]
  have step : ∀ (l : Fin 3) (y : Arr2 ℂ), bayesianStep ext cf name v' c' ids vsd isd ratings y0 ye lap true K false y (l.val : Int) =
      bayesianStep ext cf name v c ids vsd isd ratings y0 ye lap true K false y (l.val : Int) := fun l y =>
    bayesianStep_congr (hp l) hd (by rw [hd.v, h.voltages.2]) (by rw [hd.c, h.currents.2]) (fun st =>
      C127_partial ext cf name (h.columns ⟨hs, hcc⟩ fun j hj => by rw [← hd.v]; exact (hp l).lt j hj) vsd isd _ _ _ lap K st) y
  have s0 := step 0
  have s1 := step 1
  have s2 := step 2
  simp only [Fin.val_zero, Fin.val_one, Fin.val_two, Nat.cast_zero, Nat.cast_one, Nat.cast_ofNat] at s0 s1 s2
  unfold bayesianEiv3
  simp only [s0, s1, s2]

/-! ### the initial estimate -/

/-- four samples of two nodes, the second one seen with a factor `s` -/
def sign127 (s : ℂ) (t k : Nat) : ℂ := if k = 0 then (if t % 2 = 0 then 1 else -1) else (if t < 2 then s else -s)

def demoY127 (s : ℂ) : Arr2 ℂ := Arr2.ofFn 2 2 (fun t j => if t = j then 1 else s * (1 + Complex.I))

def demoX127 (s : ℂ) : Arr2 ℂ := Arr2.ofFn 4 2 (sign127 s)

def demoZ127 (s : ℂ) : Arr2 ℂ := Arr2.ofFn 4 2 (fun t j => ∑ k ∈ range 2, sign127 s t k * (demoY127 s).get k j)

def demoData127 (s : ℂ) : NetworkData := ⟨demoX127 s, demoZ127 s, demoX127 s, demoZ127 s, demoY127 s, [1, 1], 4, [1, 1]⟩

/-- `python identify_network.py --network ieee_33 --weighted --unsynchronized` -/
def demoArgs127 : IdArgs := ⟨"ieee_33", 50, false, false, false, "1", false, false, false, true, false, true⟩

theorem demo127_centred (s : ℂ) : centreData false (demoX127 s) (demoZ127 s) = (demoX127 s, demoZ127 s) := by
  show (centreColumns _, centreColumns _) = _
  rw [centreColumns_zero, centreColumns_zero]
  · intro j (hj : j < 2)
    show ∑ t ∈ range 4, (demoZ127 s).get t j = 0
    have : ∀ t ∈ range 4, (demoZ127 s).get t j = ∑ k ∈ range 2, sign127 s t k * (demoY127 s).get k j := fun t ht =>
      Arr2.ofFn_get _ (mem_range.1 ht) hj
    rw [Finset.sum_congr rfl this]
    simp [Finset.sum_range_succ, sign127]
    try ring
  · intro j (hj : j < 2)
    show ∑ t ∈ range 4, (demoX127 s).get t j = 0
    have : ∀ t ∈ range 4, (demoX127 s).get t j = sign127 s t j := fun t ht => Arr2.ofFn_get _ (mem_range.1 ht) hj
    rw [Finset.sum_congr rfl this]
    interval_cases j <;> simp [Finset.sum_range_succ, sign127]

theorem demo127_rank {s : ℂ} (hs : s ≠ 0) : Spec.FullColumnRank (demoX127 s) := by
  intro v h
  have e : ∀ (t : Nat) (ht : t < 4), ∑ k : Fin 2, sign127 s t k * v k = 0 := fun t ht => by
    have := congrFun h ⟨t, ht⟩
    rw [Matrix.mulVec, dotProduct] at this
    refine (Finset.sum_congr rfl fun (k : Fin 2) _ => ?_).trans this
    exact congrArg (· * _) (Arr2.ofFn_get (r := 4) (c := 2) (sign127 s) ht k.2).symm
  have h0 := e 0 (by norm_num)
  have h1 := e 2 (by norm_num)
  rw [Fin.sum_univ_two] at h0 h1
  simp [sign127] at h0 h1
  have g0 : v (0 : Fin 2) = 0 := by linear_combination (h0 + h1) / 2
  have g1 : s * v (1 : Fin 2) = 0 := by linear_combination (h0 - h1) / 2
  funext (k : Fin 2)
  fin_cases k
  · exact g0
  · exact (mul_eq_zero.1 g1).resolve_left hs

theorem demo127_noisy (s : ℂ) : Spec.Noisy (demoX127 s) (demoZ127 s) (demoX127 s) (demoZ127 s) (demoY127 s) 0 := by
  refine ⟨?_, ⟨rfl, rfl⟩, ⟨rfl, rfl⟩, fun a b => ?_⟩
  · rw [Arr2.matmul_ok _ _ rfl]
    congr 1
    refine Arr2.ext' rfl rfl fun i j (hi : i < 4) (hj : j < 2) => ?_
    refine (Arr2.ofFn_get (r := 4) (c := 2) _ hi hj).trans ?_
    rw [Arr2.mulGet]
    have e : (demoZ127 s).get i j = ∑ k ∈ range 2, sign127 s i k * (demoY127 s).get k j := Arr2.ofFn_get _ hi hj
    rw [e]
    exact Finset.sum_congr rfl fun k hk => congrArg (· * _) (Arr2.ofFn_get (r := 4) (c := 2) (sign127 s) hi (mem_range.1 hk))
  · rw [sub_self, sub_self, Matrix.zero_mulVec, Matrix.zero_mulVec, add_zero, zero_mul]
    exact le_of_eq (len_eq_zero.2 rfl)

theorem demo127_seen {s : ℂ} (hs : s = 1 ∨ s = -1) : Spec.LinesSeen 2 (demoY127 s) := by
  intro e he im
  rw [mem_offPairs] at he
  have h1 : e.1 = 1 := by omega
  have h2 : e.2 = 0 := by omega
  rcases hs with rfl | rfl <;> cases im <;> simp [Spec.symPart, Spec.part, demoY127, h1, h2, Arr2.ofFn_get']

/-- the weighted, unsynchronised run on these data: its total least squares estimate, from which the initial estimate of the
errors-in-variables method is made, is `demoY127 s` -/
theorem demo127_run {s : ℂ} (hs : s = 1 ∨ s = -1) (sc : SimConf) (hsc : 0 < sc.vm ∧ 0 < sc.vp) (st : Store) : ∃ r,
    (identify ⟨exactPinv, exactSvd, exactInv, exactSolve⟩ demoConf126 sc demoArgs127
      (st.savez (resultFile .network "ieee_33") (networkNpz (demoData127 s)))).res = .ok r ∧ r.1.1 = demoY127 s ∧ r.1.2.1 = demoY127 s := by
  have hload : networkLoad (st.savez (resultFile .network "ieee_33") (networkNpz (demoData127 s))) "ieee_33" = .ok (demoData127 s) :=
    C49_network "ieee_33" (demoData127 s) st (h := []) ⟨templates_plain "ieee_33" (by decide), by simp⟩
  have hs0 : s ≠ 0 := by rcases hs with rfl | rfl <;> simp
  obtain ⟨σ, hσ, hat⟩ := atLeast_of_rank (demo127_rank hs0)
  have hsel : selectPhase demoArgs127 (demoData127 s) = .ok (demoData127 s) := by
    unfold selectPhase
    rw [if_neg]
    · rfl
    · rintro ⟨-, x, hx, hx1⟩
      exact hx1 (by simpa [demoData127] using hx)
  have hN : Spec.Noisy (centreData false (demoX127 s) (demoZ127 s)).1 (centreData false (demoX127 s) (demoZ127 s)).2 (demoX127 s)
      (demoZ127 s) (demoY127 s) 0 := by
    rw [demo127_centred]; exact demo127_noisy s
  obtain ⟨B, T, L, hS, -, hB, hT, -, -, htls, e1, e2⟩ := standard_noisy (ext := ⟨exactPinv, exactSvd, exactInv, exactSolve⟩)
    (cf := demoConf126) zero_le_one exactInv_contract exactSolve_exact exactSolve_total exactPinv_contract exactSvd_contract rfl hN hat
    le_rfl (by rwa [mul_zero]) 50
  rw [mul_zero, sub_zero] at e2
  rw [sub_zero] at e1
  have hTY : T = demoY127 s := errorBound_exact hσ hT ⟨rfl, rfl⟩ e2
  have hBY : B = demoY127 s := errorBound_exact hσ hB ⟨rfl, rfl⟩ e1
  obtain ⟨r, hr, -, b2⟩ := C119 (ext := ⟨exactPinv, exactSvd, exactInv, exactSolve⟩) (cf := demoConf126) (sc := sc) (a := demoArgs127)
    (x0 := demoX127 s) (z0 := demoZ127 s) (d := demoData127 s) (d' := demoData127 s) exactInv_contract exactSolve_exact
    exactSolve_total exactPinv_contract exactSvd_contract zero_le_one zero_le_one
    ⟨by decide, rfl, rfl, .inr rfl, fun h => by simp [demoArgs127] at h⟩ (by decide) hload hsel (by simp [demoArgs127]) rfl hN hat le_rfl
    (by rwa [mul_zero]) (by
      rintro (h | h)
      · cases h.1
      · cases h) (by
      intro _
      refine .inr ⟨one_pos, .inr ⟨rfl, rfl, one_ne_zero⟩, fun T' hT' => ?_, fun _ => ⟨by simp [demoData127, demoX127], hsc.1, hsc.2,
        by norm_num [demoData127], by simp [demoData127], fun _ t j ht hj => ?_⟩⟩
      · have : T' = T := Except.ok.inj (hT'.symm.trans htls)
        rw [this, hTY]
        exact demo127_seen hs
      · have ht : t < 4 := ht
        have hj : j < 2 := hj
        show (demoX127 s).get t j ≠ 0
        unfold demoX127
        rw [Arr2.ofFn_get _ ht hj, sign127]
        split_ifs <;> simp [hs0])
  have hn := templates_plain "ieee_33" (by decide)
  have hr1 : r.1 = (B, T, L) := by
    obtain ⟨d', y0, ⟨all', g1, g2⟩, -, hst, -⟩ := C78_identify (a := demoArgs127) hn (by decide) hr
    rw [show demoArgs127.network = "ieee_33" from rfl, hload] at g1
    cases g1
    rw [hsel] at g2
    cases g2
    exact Except.ok.inj ((hst (by simp [Spec.Redone, demoArgs127])).1.symm.trans hS)
  exact ⟨r, hr, by rw [hr1]; exact hBY, by rw [hr1]; exact hTY⟩

theorem demo127_meters : Spec.SameMeters (demoX127 1) (demoZ127 1) (demoX127 (-1)) (demoZ127 (-1)) := by
  refine ⟨⟨rfl, rfl⟩, ⟨rfl, rfl⟩, fun t j ht hj => ?_, fun t j ht hj => ?_⟩
  · have ht : t < 4 := ht
    have hj : j < 2 := hj
    show ‖(demoX127 (-1)).get t j‖ = ‖(demoX127 1).get t j‖
    unfold demoX127
    rw [Arr2.ofFn_get _ ht hj, Arr2.ofFn_get _ ht hj]
    unfold sign127
    split_ifs <;> simp
  · have ht : t < 4 := ht
    have hj : j < 2 := hj
    show (demoZ127 (-1)).get t j * (starRingEnd ℂ) ((demoX127 (-1)).get t j) = (demoZ127 1).get t j * (starRingEnd ℂ) ((demoX127 1).get t j)
    unfold demoX127 demoZ127 demoY127
    rw [Arr2.ofFn_get _ ht hj, Arr2.ofFn_get _ ht hj, Arr2.ofFn_get _ ht hj, Arr2.ofFn_get _ ht hj]
    simp only [Finset.sum_range_succ, Finset.sum_range_zero, Arr2.ofFn_get']
    interval_cases t <;> interval_cases j <;> simp [sign127, add_comm, add_left_comm]

/-- C127 is violated with weights too: `identify_network.py --weighted --unsynchronized` returns different ordinary and total least squares
estimates, and so starts the errors-in-variables method from different matrices, for two networks whose meters show the same. -/
theorem C127_initial_violated (sc : SimConf) (hsc : 0 < sc.vm ∧ 0 < sc.vp) : ∃ d d' : NetworkData,
    Spec.SameMeters d.noisyVoltage d.noisyCurrent d'.noisyVoltage d'.noisyCurrent ∧ d'.ratings = d.ratings ∧ d'.fparam = d.fparam ∧
    ∀ st : Store, ∃ r r', (identify ⟨exactPinv, exactSvd, exactInv, exactSolve⟩ demoConf126 sc demoArgs127
        (st.savez (resultFile .network "ieee_33") (networkNpz d))).res = .ok r ∧
      (identify ⟨exactPinv, exactSvd, exactInv, exactSolve⟩ demoConf126 sc demoArgs127
        (st.savez (resultFile .network "ieee_33") (networkNpz d'))).res = .ok r' ∧
      r'.1.1 ≠ r.1.1 ∧ r'.1.2.1 ≠ r.1.2.1 := by
  have hm : Spec.SameMeters (demoX127 1) (demoZ127 1) (demoX127 (-1)) (demoZ127 (-1)) := demo127_meters
  refine ⟨demoData127 1, demoData127 (-1), hm, rfl, rfl, fun st => ?_⟩
  · obtain ⟨r, h1, h2, h3⟩ := demo127_run (.inl rfl) sc hsc st
    obtain ⟨r', h1', h2', h3'⟩ := demo127_run (.inr rfl) sc hsc st
    have hne : demoY127 (-1) ≠ demoY127 1 := by
      intro h
      have := congrArg (fun A => (Arr2.get A 0 1).re) h
      simp [demoY127, Arr2.ofFn_get'] at this
      norm_num at this
    exact ⟨r, r', h1, h1', by rw [h2, h2']; exact hne, by rw [h3, h3']; exact hne⟩

/-- Concrete case: a node whose voltage and current are turned by a quarter. -/
example (cf : IdConf) (K : Nat) (st : Store) :
    bayesianEiv ⟨exactPinv, exactSvd, exactInv, exactSolve⟩ cf "a" (some (Arr2.ofFn 1 2 fun _ j => if j = 0 then 1 else Complex.I))
      (some (Arr2.ofFn 1 2 fun _ j => if j = 0 then 2 else 3 * Complex.I)) ⟨1, 1⟩ ⟨1, 1⟩ [1, 1] (Arr2.eye 2) none false true K false st =
    bayesianEiv ⟨exactPinv, exactSvd, exactInv, exactSolve⟩ cf "a" (some (Arr2.ofFn 1 2 fun _ _ => 1))
      (some (Arr2.ofFn 1 2 fun _ j => if j = 0 then 2 else 3)) ⟨1, 1⟩ ⟨1, 1⟩ [1, 1] (Arr2.eye 2) none false true K false st := by
  refine C127_partial _ cf "a" (v := Arr2.ofFn 1 2 fun _ _ => 1) (c := Arr2.ofFn 1 2 fun _ j => if j = 0 then 2 else 3)
    (v' := Arr2.ofFn 1 2 fun _ j => if j = 0 then 1 else Complex.I) (c' := Arr2.ofFn 1 2 fun _ j => if j = 0 then 2 else 3 * Complex.I)
    ⟨⟨rfl, rfl⟩, ⟨rfl, rfl⟩, fun t j ht hj => ?_, fun t j ht hj => ?_⟩ _ _ _ _ _ _ _ _
  · have ht : t < 1 := ht
    have hj : j < 2 := hj
    rw [Arr2.ofFn_get _ ht hj, Arr2.ofFn_get _ ht hj]
    split <;> simp
  · have ht : t < 1 := ht
    have hj : j < 2 := hj
    rw [Arr2.ofFn_get _ ht hj, Arr2.ofFn_get _ ht hj, Arr2.ofFn_get _ ht hj, Arr2.ofFn_get _ ht hj]
    split
    · simp
    · simp [mul_assoc]

end
end Verif
