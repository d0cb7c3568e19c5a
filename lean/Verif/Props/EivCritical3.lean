/-
C150 and C155 for three-phase networks in sequence values: each block of the estimate approaches a critical point of its own objective.
-/
import Verif.Props.EivUnit
import Verif.Props.IdentifyRun3

namespace Verif
noncomputable section

/-- runs of the three labels that succeed for enough iterations give a run of `bayesian_eiv` of run3ph.py -/
theorem eiv3_of_labels {ext : NumExt} {cf : IdConf} {name : String} {v c : Arr2 ℂ} {ids : List Int} {vsd isd : SdPolar} {ratings : List ℝ}
    {y0 : Arr2 ℂ} {ye : Option (Arr2 ℂ)} {lap weighted pmu : Bool} (h0 : 0 ∈ ids) (hd : Spec.PhaseData ids v c ratings y0 ye)
    {m : Fin 3 → Nat} {f : Fin 3 → Nat → Nat} (hp : ∀ l : Fin 3, Spec.LabelPos ids (l.val : Int) (m l) (f l)) (st : Store)
    {P : Fin 3 → Arr2 ℂ → Prop} (h : ∀ l, ∃ K0, ∀ K, K0 ≤ K → ∃ r, labelRun ext cf name v c vsd isd ratings y0 ye lap weighted K pmu
      (m l) (f l) st = .ok r ∧ P l r.1) :
    ∃ K0, ∀ K, K0 ≤ K → ∃ r E, (bayesianEiv3 ext cf name v c ids vsd isd ratings y0 ye lap weighted K pmu st).res = .ok r ∧
      (bayesianEiv3 ext cf name v c ids vsd isd ratings y0 ye lap weighted K pmu st).store (resultFile .bayesian name) =
        some (bayesianNpz r) ∧ Spec.Assembled ids m f E r.1 ∧ ∀ l, P l (E l) := by
  choose K0 hK using h
  refine ⟨K0 0 + K0 1 + K0 2 + 1, fun K hk => ?_⟩
  have hle : ∀ l, K0 l ≤ K := by
    intro l
    fin_cases l
    · exact (by omega : K0 0 ≤ K)
    · exact (by omega : K0 1 ≤ K)
    · exact (by omega : K0 2 ≤ K)
  have hpos : 0 < K := by omega
  choose rs hrs hP using fun l => hK l K (hle l)
  have hrs' : ∀ l st', labelRun ext cf name v c vsd isd ratings y0 ye lap weighted K pmu (m l) (f l) st' = .ok (rs l) := fun l st' => by
    rw [labelRun_const hpos _ _ st' st]
    exact hrs l
  have hq := fun l => labelRun_square hpos (hrs l)
  obtain ⟨-, -, a, -, -, -, -, -, hA⟩ := assemble hp (fun l => (hq l).1) rfl
  obtain ⟨log, -, hM⟩ := mergedLog_ok hp (logs := fun l => (rs l).2) fun l e he => ((hq l).2.2 e he).1
  have hr := (C52_bayesian hpos h0 hd hp st (a, log)).1.2 ⟨rs, hrs', hA, hM⟩
  exact ⟨(a, log), fun l => (rs l).1, hr, bayesianEiv3_stored hr, hA, hP⟩

/-- C150 for three phases: with weights and zero tolerances, enough iterations give an estimate each block of which is as close as
wanted to a critical point of the objective of that sequence -/
theorem C150_three {ext : NumExt} {cf : IdConf} (hex : Spec.Exact ext.solve) (htot : Spec.Total ext.solve) (hl : 0 < cf.lambdaEiv)
    (ha : cf.absTol ≤ 0) (hr : cf.relTol ≤ 0) {v c y0 : Arr2 ℂ} {ids : List Int} {ratings : List ℝ} {ye : Option (Arr2 ℂ)} (h0 : 0 ∈ ids)
    (hd : Spec.PhaseData ids v c ratings y0 ye) (hrows : c.r = v.r) {m : Fin 3 → Nat} {f : Fin 3 → Nat → Nat}
    (hp : ∀ l : Fin 3, Spec.LabelPos ids (l.val : Int) (m l) (f l)) (hm : ∀ l, 2 ≤ m l) (lap pmu : Bool)
    (hye : ye ≠ none → (∀ l, 29 ≤ m l) ∧ lap = false)
    (h90 : ¬ (lap = true ∧ cf.contrastEachRow = true ∧ cf.regularizeDiag = true))
    (hseen : ∀ l, Spec.LinesSeen (m l) (Spec.blockAt y0 (m l) (f l)))
    (hdet : lap = true ∨ (cf.contrastEachRow = true ∧ cf.regularizeDiag = true ∧ cf.lambdaprime ≠ 0))
    (vsd isd : SdPolar) (hsm : 0 < vsd.m) (hsp : 0 < vsd.p) (hv : pmu = false → ∀ t j, t < v.r → j < v.c → v.get t j ≠ 0)
    (name : String) (st : Store) :
    ∃ (prior : Fin 3 → Prior) (cv ci : Fin 3 → Arr2 ℂ) (W wi : Fin 3 → Arr2 ℝ),
      (∀ l, eivPrior cf (m l) (Spec.blockAt y0 (m l) (f l)) (ye.map (fun y => Spec.blockAt y (m l) (f l))) lap = .ok (prior l)) ∧
      (∀ l, eivWeights (Spec.columnsAt v (m l) (f l)) (Spec.columnsAt c (m l) (f l)) vsd isd (Spec.entriesAt ratings (m l) (f l)) true pmu =
        .ok (cv l, ci l, some (W l), some (wi l))) ∧
      ∀ ε : ℝ, 0 < ε → ∃ K0, ∀ K, K0 ≤ K → ∃ r E,
        (bayesianEiv3 ext cf name v c ids vsd isd ratings y0 ye lap true K pmu st).res = .ok r ∧
        (bayesianEiv3 ext cf name v c ids vsd isd ratings y0 ye lap true K pmu st).store (resultFile .bayesian name) =
          some (bayesianNpz r) ∧ Spec.Assembled ids m f E r.1 ∧
        ∀ l, ∃ Y D, Spec.EivCritical lap (m l) (regConfig cf (prior l) cf.lambdaEiv lap 0) (W l) (W l) (centreData lap (cv l) (ci l)).1
            (centreData lap (cv l) (ci l)).2 Y D ∧ ∀ a b, a < m l → b < m l → ‖(E l).get a b - Y.get a b‖ < ε := by
  have hne : ∀ l, Spec.entriesAt ratings (m l) (f l) ≠ [] := by
    intro l e
    have := congrArg List.length e
    simp only [Spec.entriesAt, List.length_map, List.length_range, List.length_nil] at this
    have := hm l
    omega
  have hrun := fun l => C150_run hex htot hl ha hr (v := Spec.columnsAt v (m l) (f l)) (i := Spec.columnsAt c (m l) (f l))
    (y0 := Spec.blockAt y0 (m l) (f l)) ⟨rfl, rfl⟩ ⟨hrows, rfl⟩ (ye.map (fun y => Spec.blockAt y (m l) (f l))) lap pmu
    (by
      intro y hy
      have hn : ye ≠ none := by rintro rfl; cases hy
      obtain ⟨y', -, rfl⟩ := Option.map_eq_some_iff.1 hy
      exact ⟨(hye hn).1 l, ⟨rfl, rfl⟩, (hye hn).2⟩) h90 (hseen l) hdet vsd isd (Spec.entriesAt ratings (m l) (f l))
    (by have := hm l; show m l ≠ 1; omega) hsm hsp (hne l) (by
      intro hpm t j ht hj
      have ht : t < v.r := ht
      have hj : j < m l := hj
      unfold Spec.columnsAt
      rw [Arr2.ofFn_get _ ht hj]
      exact hv hpm t _ ht (by rw [← hd.v]; exact (hp l).lt j hj)) name st
  choose prior cv ci W wi h1 h2 h3 using hrun
  refine ⟨prior, cv, ci, W, wi, h1, h2, fun ε hε => ?_⟩
  refine eiv3_of_labels h0 hd hp st (P := fun l E => ∃ Y D, Spec.EivCritical lap (m l) (regConfig cf (prior l) cf.lambdaEiv lap 0) (W l) (W l)
    (centreData lap (cv l) (ci l)).1 (centreData lap (cv l) (ci l)).2 Y D ∧ ∀ a b, a < m l → b < m l → ‖E.get a b - Y.get a b‖ < ε) ?_
  intro l
  obtain ⟨K0, hK⟩ := h3 l ε hε
  refine ⟨K0, fun K hk => ?_⟩
  obtain ⟨Y', log, Y, D, g1, g2, g3⟩ := hK K hk
  refine ⟨(Y', log), ?_, Y, D, g2, g3⟩
  unfold labelRun
  rw [g1]

/-- C155 for three phases: the same without weights, with weight one on every measurement in the objectives -/
theorem C155_three {ext : NumExt} {cf : IdConf} (hex : Spec.Exact ext.solve) (htot : Spec.Total ext.solve) (hinv : Spec.InvContract ext.inv)
    (hl : 0 < cf.lambdaEiv) (ha : cf.absTol ≤ 0) (hr : cf.relTol ≤ 0) {v c y0 : Arr2 ℂ} {ids : List Int} {ratings : List ℝ}
    {ye : Option (Arr2 ℂ)} (h0 : 0 ∈ ids)
    (hd : Spec.PhaseData ids v c ratings y0 ye) (hrows : c.r = v.r) {m : Fin 3 → Nat} {f : Fin 3 → Nat → Nat}
    (hp : ∀ l : Fin 3, Spec.LabelPos ids (l.val : Int) (m l) (f l)) (lap pmu : Bool)
    (hye : ye ≠ none → (∀ l, 29 ≤ m l) ∧ lap = false)
    (h90 : ¬ (lap = true ∧ cf.contrastEachRow = true ∧ cf.regularizeDiag = true))
    (hseen : ∀ l, Spec.LinesSeen (m l) (Spec.blockAt y0 (m l) (f l)))
    (hdet : lap = true ∨ (cf.contrastEachRow = true ∧ cf.regularizeDiag = true ∧ cf.lambdaprime ≠ 0))
    (vsd isd : SdPolar) (name : String) (st : Store) :
    ∃ prior : Fin 3 → Prior,
      (∀ l, eivPrior cf (m l) (Spec.blockAt y0 (m l) (f l)) (ye.map (fun y => Spec.blockAt y (m l) (f l))) lap = .ok (prior l)) ∧
      ∀ ε : ℝ, 0 < ε → ∃ K0, ∀ K, K0 ≤ K → ∃ r E,
        (bayesianEiv3 ext cf name v c ids vsd isd ratings y0 ye lap false K pmu st).res = .ok r ∧
        (bayesianEiv3 ext cf name v c ids vsd isd ratings y0 ye lap false K pmu st).store (resultFile .bayesian name) =
          some (bayesianNpz r) ∧ Spec.Assembled ids m f E r.1 ∧
        ∀ l, ∃ Y D, Spec.EivCritical lap (m l) (regConfig cf (prior l) cf.lambdaEiv lap 0) (Spec.unitWeights (2 * (m l * v.r)))
            (Spec.unitWeights (2 * (m l * v.r))) (centreData lap (Spec.columnsAt v (m l) (f l)) (Spec.columnsAt c (m l) (f l))).1
            (centreData lap (Spec.columnsAt v (m l) (f l)) (Spec.columnsAt c (m l) (f l))).2 Y D ∧
          ∀ a b, a < m l → b < m l → ‖(E l).get a b - Y.get a b‖ < ε := by
  have hrun := fun l => C155_run hex htot hinv hl ha hr (v := Spec.columnsAt v (m l) (f l)) (i := Spec.columnsAt c (m l) (f l))
    (y0 := Spec.blockAt y0 (m l) (f l)) ⟨rfl, rfl⟩ ⟨hrows, rfl⟩ (ye.map (fun y => Spec.blockAt y (m l) (f l))) lap pmu
    (by
      intro y hy
      have hn : ye ≠ none := by rintro rfl; cases hy
      obtain ⟨y', -, rfl⟩ := Option.map_eq_some_iff.1 hy
      exact ⟨(hye hn).1 l, ⟨rfl, rfl⟩, (hye hn).2⟩) h90 (hseen l) hdet vsd isd (Spec.entriesAt ratings (m l) (f l)) name st
  choose prior h1 h3 using hrun
  refine ⟨prior, h1, fun ε hε => ?_⟩
  refine eiv3_of_labels h0 hd hp st (P := fun l E => ∃ Y D, Spec.EivCritical lap (m l) (regConfig cf (prior l) cf.lambdaEiv lap 0)
    (Spec.unitWeights (2 * (m l * v.r))) (Spec.unitWeights (2 * (m l * v.r)))
    (centreData lap (Spec.columnsAt v (m l) (f l)) (Spec.columnsAt c (m l) (f l))).1
    (centreData lap (Spec.columnsAt v (m l) (f l)) (Spec.columnsAt c (m l) (f l))).2 Y D ∧
    ∀ a b, a < m l → b < m l → ‖E.get a b - Y.get a b‖ < ε) ?_
  intro l
  obtain ⟨K0, hK⟩ := h3 l ε hε
  refine ⟨K0, fun K hk => ?_⟩
  obtain ⟨Y', log, Y, D, g1, g2, g3⟩ := hK K hk
  refine ⟨(Y', log), ?_, Y, D, g2, g3⟩
  unfold labelRun
  rw [g1]

/-- two samples of two nodes on each of three sequences -/
def demoV150 : Arr2 ℂ := Arr2.ofFn 2 6 (fun t j => demoV126.get t (j / 3))

/-- an initial guess with a line on each sequence -/
def demoY150 : Arr2 ℂ := Arr2.ofFn 6 6 (fun p q => if p % 3 = q % 3 then demoY126.get (p / 3) (q / 3) else 0)

theorem demo150_labels (l : Fin 3) : Spec.LabelPos [0, 1, 2, 0, 1, 2] (l.val : Int) 2 (fun k => 3 * k + l.val) := by
  refine ⟨fun a b _ _ => by omega, fun a ha => ?_, fun a ha => ?_, fun p hp he => ⟨p / 3, ?_, ?_⟩⟩
  · show 3 * a + l.val < 6
    have := l.isLt
    omega
  · have : a = 0 ∨ a = 1 := by omega
    rcases this with rfl | rfl <;> fin_cases l <;> rfl
  · have hp : p < 6 := hp
    omega
  · have hp : p < 6 := hp
    have hl := l.isLt
    have : p = 0 ∨ p = 1 ∨ p = 2 ∨ p = 3 ∨ p = 4 ∨ p = 5 := by omega
    rcases this with rfl | rfl | rfl | rfl | rfl | rfl <;> simp at he <;> omega

theorem demo150_block (l : Fin 3) : Spec.blockAt demoY150 2 (fun k => 3 * k + l.val) = demoY126 := by
  refine Arr2.ext' rfl rfl fun a b ha hb => ?_
  have ha : a < 2 := ha
  have hb : b < 2 := hb
  have hl := l.isLt
  unfold Spec.blockAt demoY150
  rw [Arr2.ofFn_get _ ha hb]
  dsimp only
  rw [Arr2.ofFn_get _ (by omega) (by omega), if_pos (by omega), show (3 * a + l.val) / 3 = a by omega,
    show (3 * b + l.val) / 3 = b by omega]

theorem demo150_data : Spec.PhaseData [0, 1, 2, 0, 1, 2] demoV150 demoV150 [1, 1, 1, 1, 1, 1] demoY150 none :=
  ⟨rfl, rfl, rfl, ⟨rfl, rfl⟩, fun y h => by cases h⟩

theorem demo150_seen (l : Fin 3) : Spec.LinesSeen 2 (Spec.blockAt demoY150 2 (fun k => 3 * k + l.val)) := by
  rw [demo150_block]
  exact demoY126_seen

/-- `C150_three` and `C155_three` apply to two samples of two nodes on each sequence -/
example (pmu : Bool) (st : Store) : ∃ K0, ∀ K, K0 ≤ K → ∃ r r', (bayesianEiv3 ⟨exactPinv, exactSvd, exactInv, exactSolve⟩
      ⟨1, 1, 1, 0, 0, true, true, true⟩ "a" demoV150 demoV150 [0, 1, 2, 0, 1, 2] ⟨1, 1⟩ ⟨1, 1⟩ [1, 1, 1, 1, 1, 1] demoY150 none false true K
      pmu st).res = .ok r ∧ (bayesianEiv3 ⟨exactPinv, exactSvd, exactInv, exactSolve⟩
      ⟨1, 1, 1, 0, 0, true, true, true⟩ "a" demoV150 demoV150 [0, 1, 2, 0, 1, 2] ⟨1, 1⟩ ⟨1, 1⟩ [1, 1, 1, 1, 1, 1] demoY150 none false false K
      pmu st).res = .ok r' := by
  obtain ⟨_, _, _, _, _, _, _, h⟩ := C150_three (ext := ⟨exactPinv, exactSvd, exactInv, exactSolve⟩)
    (cf := ⟨1, 1, 1, 0, 0, true, true, true⟩) exactSolve_exact exactSolve_total one_pos le_rfl le_rfl (by simp) demo150_data rfl
    demo150_labels (fun _ => le_rfl) false pmu (fun h => absurd rfl h) (fun h => by cases h.1) demo150_seen (.inr ⟨rfl, rfl, one_ne_zero⟩)
    ⟨1, 1⟩ ⟨1, 1⟩ one_pos one_pos (fun _ t j (ht : t < 2) (hj : j < 6) => by
        unfold demoV150 demoV126
        rw [Arr2.ofFn_get _ ht hj, Arr2.ofFn_get _ ht (by omega)]
        split <;> norm_num) "a" st
  obtain ⟨_, _, h'⟩ := C155_three (ext := ⟨exactPinv, exactSvd, exactInv, exactSolve⟩)
    (cf := ⟨1, 1, 1, 0, 0, true, true, true⟩) exactSolve_exact exactSolve_total exactInv_contract one_pos le_rfl le_rfl (by simp) demo150_data
    rfl demo150_labels false pmu (fun h => absurd rfl h) (fun h => by cases h.1) demo150_seen (.inr ⟨rfl, rfl, one_ne_zero⟩)
    ⟨1, 1⟩ ⟨1, 1⟩ "a" st
  obtain ⟨K0, hK⟩ := h 1 one_pos
  obtain ⟨K1, hK1⟩ := h' 1 one_pos
  refine ⟨max K0 K1, fun K hk => ?_⟩
  obtain ⟨r, _, h1, _⟩ := hK K (le_of_max_le_left hk)
  obtain ⟨r', _, h2, _⟩ := hK1 K (le_of_max_le_right hk)
  exact ⟨r, r', h1, h2⟩

end
end Verif
