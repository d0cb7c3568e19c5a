/-
C105, C107: when the report of plot_results.py is completed.
-/
import Verif.Props.PlotResults
import Verif.Props.Programs2

namespace Verif
open Finset
noncomputable section

/-! ### the compared entries -/

theorem comparison_ok (lap : Bool) (n : Nat) : ∃ E, comparisonMatrix lap n = .ok E ∧ E.c = n ^ 2 ∧
    ∀ M, Spec.IsSquare n M → E.mulVec (vectorizeMatrix M) = .ok (Spec.compared lap n M) := by
  obtain ⟨S, hS, ⟨sr, sc⟩, -⟩ := eliminationSym_closed (α := ℂ) n
  have hsym : ∀ M, Spec.IsSquare n M → S.mulVec (vectorizeMatrix M) = .ok (Spec.vech n (Spec.symHalf n M)) := by
    intro M hM
    obtain ⟨S', hS', h⟩ := C07_elimination_sym n M hM
    rw [hS] at hS'
    cases hS'
    exact h
  cases lap with
  | false => exact ⟨S, hS, sc, fun M hM => hsym M hM⟩
  | true =>
    obtain ⟨L, hL, ⟨lr, lc⟩, -⟩ := eliminationLap_closed (α := ℂ) n
    obtain ⟨E, hE, er, ec, em⟩ := Arr2.matmul_mat (A := L) (B := S) ⟨lr, lc⟩ ⟨sr, sc⟩
    refine ⟨E, ?_, ec, fun M hM => ?_⟩
    · unfold comparisonMatrix
      rw [if_pos rfl, hS, hL]
      exact hE
    · obtain ⟨L', hL', h⟩ := C09_drops_diagonal n (Spec.symHalf n M)
      rw [hL] at hL'
      cases hL'
      have hl : (vectorizeMatrix M).length = n ^ 2 := by rw [vec_length, hM.1, hM.2, pow_two]
      obtain ⟨w, hw, wl, wm⟩ := Arr2.mulVec_mat (A := E) ⟨er, ec⟩ hl
      obtain ⟨u, hu, ul, um⟩ := Arr2.mulVec_mat (A := S) ⟨sr, sc⟩ hl
      obtain ⟨z, hz, zl, zm⟩ := Arr2.mulVec_mat (A := L) ⟨lr, lc⟩ ul
      rw [hsym M hM] at hu
      cases hu
      rw [h] at hz
      cases hz
      rw [hw]
      congr 1
      refine toVec_inj wl zl ?_
      refine (wm.trans ?_).trans zm.symm
      rw [um, em, Matrix.mulVec_mulVec]

theorem compared_length (lap : Bool) (n : Nat) (M : Arr2 ℂ) :
    (Spec.compared lap n M).length = if lap then n * (n - 1) / 2 else n * (n + 1) / 2 := by
  cases lap with
  | false => exact vech_length n _
  | true => exact (List.length_map _).trans (vel_length n _)

theorem vel_mem [Zero α] {n : Nat} {M : Arr2 α} {x : α} : x ∈ Spec.vel n M ↔ ∃ i j, j < i ∧ i < n ∧ M.get i j = x := by
  unfold Spec.vel
  simp only [List.mem_flatMap, List.mem_range, List.mem_map]
  constructor
  · rintro ⟨j, hj, t, ht, h⟩
    exact ⟨j + 1 + t, j, by omega, by omega, h⟩
  · rintro ⟨i, j, h1, h2, h⟩
    exact ⟨j, by omega, i - j - 1, by omega, by rw [← h]; congr 1; omega⟩

theorem vech_mem [Zero α] {n : Nat} {M : Arr2 α} {x : α} : x ∈ Spec.vech n M ↔ ∃ i j, j ≤ i ∧ i < n ∧ M.get i j = x := by
  unfold Spec.vech
  simp only [List.mem_flatMap, List.mem_range, List.mem_map]
  constructor
  · rintro ⟨j, hj, t, ht, h⟩
    exact ⟨j + t, j, by omega, by omega, h⟩
  · rintro ⟨i, j, h1, h2, h⟩
    exact ⟨j, by omega, i - j, by omega, by rw [← h]; congr 1; omega⟩

/-- the moduli off the diagonal -/
def offArr (n : Nat) (y : Arr2 ℂ) : Arr2 ℂ := Arr2.ofFn n n (fun i j => if i = j then 0 else ((‖y.get i j‖ : ℝ) : ℂ))

theorem offDiagonal_ok {n : Nat} {y : Arr2 ℂ} (hy : Spec.IsSquare n y) : offDiagonal y = .ok (offArr n y) := by
  unfold offDiagonal
  rw [if_pos (hy.1.trans hy.2.symm), hy.1, hy.2]
  rfl

theorem symOff_get {n : Nat} {y : Arr2 ℂ} {i j : Nat} (hi : i < n) (hj : j < n) :
    (Spec.symHalf n (offArr n y)).get i j = if i = j then 0 else (((‖y.get i j‖ + ‖y.get j i‖) / 2 : ℝ) : ℂ) := by
  unfold Spec.symHalf offArr
  rw [Arr2.ofFn_get _ hi hj, Arr2.ofFn_get _ hi hj, Arr2.ofFn_get _ hj hi]
  by_cases h : i = j
  · subst h; simp
  · rw [if_neg h, if_neg (fun h' => h h'.symm), if_neg h]
    push_cast
    rfl

theorem symOff_zero {n : Nat} {y : Arr2 ℂ} {i j : Nat} (hi : i < n) (hj : j < n) (hne : i ≠ j) :
    (Spec.symHalf n (offArr n y)).get i j = 0 ↔ y.get i j = 0 ∧ y.get j i = 0 := by
  rw [symOff_get hi hj, if_neg hne, Complex.ofReal_eq_zero]
  constructor
  · intro h
    have h1 := norm_nonneg (y.get i j)
    have h2 := norm_nonneg (y.get j i)
    exact ⟨norm_eq_zero.1 (by linarith), norm_eq_zero.1 (by linarith)⟩
  · rintro ⟨h1, h2⟩
    rw [h1, h2]
    simp

/-- some compared entry has no line -/
theorem mask_zero (lap : Bool) {n : Nat} (hn : 0 < n) (y : Arr2 ℂ) :
    (0 : ℂ) ∈ Spec.compared lap n (offArr n y) ↔ (lap = true → Spec.AbsentLine n y) := by
  cases lap with
  | false =>
    refine ⟨fun _ h => (nomatch h), fun _ => ?_⟩
    exact vech_mem.2 ⟨0, 0, le_rfl, hn, by rw [symOff_get hn hn, if_pos rfl]⟩
  | true =>
    have : (0 : ℂ) ∈ Spec.compared true n (offArr n y) ↔ (0 : ℂ) ∈ Spec.vel n (Spec.symHalf n (offArr n y)) := by
      unfold Spec.compared
      simp
    rw [this, vel_mem]
    constructor
    · rintro ⟨i, j, h1, h2, h⟩ _
      exact ⟨i, j, h1, h2, (symOff_zero h2 (by omega) (by omega)).1 h⟩
    · intro h
      obtain ⟨i, j, h1, h2, h⟩ := h rfl
      exact ⟨i, j, h1, h2, (symOff_zero h2 (by omega) (by omega)).2 h⟩

theorem masked_length {mask x y : List ℂ} (hx : mask.length = x.length) (hy : mask.length = y.length) (keep : Bool) :
    (masked mask keep x).length = (masked mask keep y).length := by
  unfold masked
  rw [List.length_map, List.length_map]
  induction mask generalizing x y with
  | nil => rfl
  | cons a l ih =>
    cases x with
    | nil => exact nomatch hx
    | cons b x =>
      cases y with
      | nil => exact nomatch hy
      | cons c y =>
        rw [List.zip_cons_cons, List.zip_cons_cons, List.filter_cons, List.filter_cons]
        have := ih (Nat.succ.inj hx) (Nat.succ.inj hy)
        dsimp only
        split
        · rw [List.length_cons, List.length_cons, this]
        · exact this

theorem masked_pos {mask x : List ℂ} (hx : mask.length = x.length) : 0 < (masked mask false x).length ↔ (0 : ℂ) ∈ mask := by
  unfold masked
  rw [List.length_map]
  induction mask generalizing x with
  | nil => simp
  | cons a l ih =>
    cases x with
    | nil => exact nomatch hx
    | cons b x =>
      rw [List.zip_cons_cons, List.filter_cons]
      have := ih (Nat.succ.inj hx)
      dsimp only
      by_cases ha : a = 0
      · simp [ha]
      · have h0 : 0 < ‖a‖ := norm_pos_iff.2 ha
        simp only [h0, decide_true, Bool.true_beq, Bool.false_eq_true, if_false, List.mem_cons]
        rw [this]
        constructor
        · exact Or.inr
        · rintro (h | h)
          · exact absurd h.symm ha
          · exact h

theorem rowMetrics_iff {a b : List ℂ} (h : a.length = b.length) :
    (0 < b.length → ∃ m, errorMetrics (oneRow a) (oneRow b) = .ok m) ∧
      (b.length = 0 → errorMetrics (oneRow a) (oneRow b) = .error .valueError) := by
  constructor
  · intro hb
    obtain ⟨m, hm, _⟩ := C22_bundle (oneRow a) (oneRow b) rfl h (Nat.one_pos) (by show 0 < a.length; omega)
    exact ⟨m, hm⟩
  · intro hb
    have ha : a = [] := List.length_eq_zero_iff.1 (h.trans hb)
    have hb : b = [] := List.length_eq_zero_iff.1 hb
    subst ha hb
    have hz : Arr2.zipWith (fun a b : ℂ => a - b) (oneRow []) (oneRow []) = .ok (diff (oneRow []) (oneRow [])) := if_pos ⟨rfl, rfl⟩
    have hm : maxError (oneRow []) (oneRow []) = .error .valueError := by
      unfold maxError
      rw [hz]
      rfl
    unfold errorMetrics
    rw [froError_eq rfl rfl, hm]
    rfl

theorem sparsity_iff {mask a b : List ℂ} (ha : mask.length = a.length) (hb : mask.length = b.length) :
    ((0 : ℂ) ∈ mask → ∃ m, sparsityMetrics mask a b = .ok m) ∧
      ((0 : ℂ) ∉ mask → sparsityMetrics mask a b = .error .valueError) := by
  have hl : ((masked mask false a).map (fun z => 2 * z)).length = ((masked mask false b).map (fun z => 2 * z)).length := by
    rw [List.length_map, List.length_map, masked_length ha hb]
  have h := rowMetrics_iff hl
  constructor
  · intro hm
    exact h.1 (by rw [List.length_map]; exact (masked_pos hb).2 hm)
  · intro hm
    refine h.2 ?_
    rw [List.length_map]
    have := (masked_pos hb).not.2 hm
    omega

/-! ### the parts of the report -/

theorem Npz.mat_of {d : Npz} {k : String} {m : Arr2 ℂ} (h : d k = some (.mat m)) : d.mat k = .ok m := by unfold Npz.mat; rw [h]

theorem zipSub_ok {y z : Arr2 ℂ} (hr : y.r = z.r) (hc : y.c = z.c) : Arr2.zipWith (fun a b : ℂ => a - b) y z = .ok (diff y z) :=
  if_pos ⟨hr, hc⟩

/-- a conversion that accepts all matrices of size `n` -/
def Accepts (n : Nat) (cc : Arr2 ℂ → Except PyErr (Arr2 ℂ)) : Prop := ∀ y, Spec.IsSquare n y → ∃ p, cc y = .ok p ∧ Spec.IsSquare n p

theorem plotStandard_ok {cc : Arr2 ℂ → Except PyErr (Arr2 ℂ)} {n : Nat} (hn : 0 < n) (hcc : Accepts n cc) {st : Store} {name : String}
    {R : Spec.StoredResults} (hst : Spec.Stored st name R) (hsh : Spec.ResultShapes n R) {yb : Arr2 ℂ} (hy : Spec.IsSquare n yb) :
    (R.standard = none → (plotStandard cc st name yb).1 = .ok none) ∧
    ∀ s, R.standard = some s → ∃ o t l, Spec.IsSquare n o ∧ Spec.IsSquare n t ∧ Spec.IsSquare n l ∧
      (plotStandard cc st name yb).1 = .ok (some (o, t, l)) := by
  constructor
  · intro h
    unfold plotStandard
    rw [hst.noStandard h]
    rfl
  · intro s h
    obtain ⟨d, hd, ho, ht, hl⟩ := hst.standard s h
    obtain ⟨so, stt, sl⟩ := hsh.standard s h
    obtain ⟨o, co, qo⟩ := hcc _ so
    obtain ⟨t, ct, qt⟩ := hcc _ stt
    obtain ⟨l, cl, ql⟩ := hcc _ sl
    have met : ∀ z, Spec.IsSquare n z → ∃ m, errorMetrics yb z = .ok m := fun z hz => by
      obtain ⟨m, hm, _⟩ := C22_bundle yb z (hy.1.trans hz.1.symm) (hy.2.trans hz.2.symm) (by rw [hy.1]; exact hn) (by rw [hy.2]; exact hn)
      exact ⟨m, hm⟩
    obtain ⟨mo, hmo⟩ := met o qo
    obtain ⟨mt, hmt⟩ := met t qt
    obtain ⟨ml, hml⟩ := met l ql
    have eo : (d.mat "o" >>= cc) = .ok o := by rw [Npz.mat_of ho]; exact co
    have et : (d.mat "t" >>= cc) = .ok t := by rw [Npz.mat_of ht]; exact ct
    have el : (d.mat "l" >>= cc) = .ok l := by rw [Npz.mat_of hl]; exact cl
    refine ⟨o, t, l, qo, qt, ql, ?_⟩
    unfold plotStandard
    rw [hd]
    dsimp only
    rw [eo, Rep.ofExcept_ok, et, Rep.ofExcept_ok, el, Rep.ofExcept_ok, hmo, Rep.ofExcept_ok, hmt, hml]
    rfl

theorem mapM_total {α β : Type} {f : α → Except PyErr β} {l : List α} (h : ∀ a ∈ l, ∃ b, f a = .ok b) : ∃ r, l.mapM f = .ok r := by
  induction l with
  | nil => exact ⟨[], rfl⟩
  | cons a l ih =>
    obtain ⟨b, hb⟩ := h a (by simp)
    obtain ⟨r, hr⟩ := ih (fun x hx => h x (by simp [hx]))
    refine ⟨b :: r, ?_⟩
    rw [List.mapM_cons, hb, hr]
    rfl

theorem mulVec_wrong {E : Arr2 ℂ} {k n : Nat} (hE : E.c = k ^ 2) (hkn : k ≠ n) {M : Arr2 ℂ} (hM : Spec.IsSquare n M) :
    E.mulVec (vectorizeMatrix M) = .error .valueError := by
  unfold Arr2.mulVec
  rw [if_neg]
  rw [hE, vec_length, hM.1, hM.2, ← pow_two]
  intro h
  exact hkn (Nat.pow_left_injective (n := 2) (by norm_num) h)

/-- outcome of the Bayesian part -/
theorem plotBayesian_iff {cc : Arr2 ℂ → Except PyErr (Arr2 ℂ)} {n : Nat} (hn : 0 < n) (hcc : Accepts n cc) {st : Store} {name : String}
    {R : Spec.StoredResults} (hst : Spec.Stored st name R) (hsh : Spec.ResultShapes n R) {yb : Arr2 ℂ} (hy : Spec.IsSquare n yb)
    (k : Nat) (lap : Bool) (std : Option (Arr2 ℂ × Arr2 ℂ × Arr2 ℂ))
    (hstd : ∀ s, std = some s → Spec.IsSquare n s.1 ∧ Spec.IsSquare n s.2.1 ∧ Spec.IsSquare n s.2.2) :
    (R.bayesian = none → plotBayesian cc st name k lap yb std = (.ok (), [])) ∧
    ∀ b, R.bayesian = some b → (plotBayesian cc st name k lap yb std).1 =
      if k = n then (if std = none then .error .nameError else if 0 ∈ Spec.compared lap n (offArr n yb) then .ok () else .error .valueError)
      else .error .valueError := by
  constructor
  · intro h
    unfold plotBayesian
    rw [hst.noBayesian h]
    rfl
  · intro b h
    obtain ⟨d, hd, dy, di⟩ := hst.bayesian b h
    obtain ⟨sy, si⟩ := hsh.bayesian b h
    obtain ⟨y, cy, qy⟩ := hcc _ sy
    have met : ∀ z, Spec.IsSquare n z → ∃ m, errorMetrics yb z = .ok m ∧ rrmsError yb z = .ok m.rrms := fun z hz => by
      obtain ⟨m, hm, _, _, hr, _⟩ := C22_bundle yb z (hy.1.trans hz.1.symm) (hy.2.trans hz.2.symm) (by rw [hy.1]; exact hn)
        (by rw [hy.2]; exact hn)
      exact ⟨m, hm, hr⟩
    obtain ⟨m, hm, -⟩ := met y qy
    obtain ⟨er, her⟩ : ∃ r, b.2.mapM (fun i => cc i.params >>= rrmsError yb) = .ok r := by
      refine mapM_total fun i hi => ?_
      obtain ⟨p, hp, qp⟩ := hcc _ (si i hi)
      obtain ⟨m', -, hr⟩ := met p qp
      exact ⟨m'.rrms, by rw [hp]; exact hr⟩
    have ey : (d.mat "y" >>= cc) = .ok y := by rw [Npz.mat_of dy]; exact cy
    have ei : d.log "i" = .ok b.2 := by unfold Npz.log; rw [di]
    obtain ⟨E, hE, ec, em⟩ := comparison_ok lap k
    have hoff : offDiagonal yb = .ok (offArr n yb) := offDiagonal_ok hy
    have qoff : Spec.IsSquare n (offArr n yb) := ⟨rfl, rfl⟩
    unfold plotBayesian
    rw [hd]
    dsimp only
    rw [ey, Rep.ofExcept_ok, ei, Rep.ofExcept_ok, her, Rep.ofExcept_ok, hm, Rep.ofExcept_ok]
    rw [Rep.write_bind, Rep.write_bind]
    dsimp only
    rw [zipSub_ok (qy.1.trans hy.1.symm) (qy.2.trans hy.2.symm), Rep.ofExcept_ok, Rep.write_bind, Rep.write_bind, Rep.write_bind]
    dsimp only
    rw [hE, Rep.ofExcept_ok, hoff, Rep.ofExcept_ok]
    by_cases hk : k = n
    · subst hk
      rw [if_pos rfl, em _ qoff, Rep.ofExcept_ok]
      cases std with
      | none =>
        rw [if_pos rfl]
        rfl
      | some s =>
        obtain ⟨q1, q2, q3⟩ := hstd s rfl
        rw [if_neg (by simp)]
        have hu : unboundLocal (some s) = .ok s := rfl
        rw [hu, Rep.ofExcept_ok, em _ q1, Rep.ofExcept_ok, em _ q2, Rep.ofExcept_ok, em _ q3, Rep.ofExcept_ok, em _ qy, Rep.ofExcept_ok,
          em _ hy, Rep.ofExcept_ok, Rep.write_bind]
        dsimp only
        have hl : ∀ M M' : Arr2 ℂ, (Spec.compared lap k M).length = (Spec.compared lap k M').length := fun M M' => by
          rw [compared_length, compared_length]
        by_cases h0 : (0 : ℂ) ∈ Spec.compared lap k (offArr k yb)
        · rw [if_pos h0]
          obtain ⟨m1, h1⟩ := (sparsity_iff (hl (offArr k yb) s.1) (hl (offArr k yb) yb)).1 h0
          obtain ⟨m2, h2⟩ := (sparsity_iff (hl (offArr k yb) s.2.1) (hl (offArr k yb) yb)).1 h0
          obtain ⟨m3, h3⟩ := (sparsity_iff (hl (offArr k yb) s.2.2) (hl (offArr k yb) yb)).1 h0
          obtain ⟨m4, h4⟩ := (sparsity_iff (hl (offArr k yb) y) (hl (offArr k yb) yb)).1 h0
          rw [h1, Rep.ofExcept_ok, h2, Rep.ofExcept_ok, h3, Rep.ofExcept_ok, h4, Rep.ofExcept_ok]
          rfl
        · rw [if_neg h0, (sparsity_iff (hl (offArr k yb) s.1) (hl (offArr k yb) yb)).2 h0]
          rfl
    · rw [if_neg hk, mulVec_wrong ec hk qoff]
      rfl

/-! ### C105, C107 -/

theorem accepts_correct {n : Nat} {R : Spec.StoredResults} (hsh : Spec.ResultShapes n R) (seq : Bool) :
    Accepts n (correctComponent R.phases seq) := by
  intro y hy
  unfold correctComponent
  by_cases h1 : Spec.SinglePhase R
  · have h1' : R.phases ≠ "012" ∧ R.phases ≠ "123" := h1
    rw [if_pos h1']
    exact ⟨y, rfl, hy⟩
  · have h1' : ¬(R.phases ≠ "012" ∧ R.phases ≠ "123") := h1
    obtain ⟨-, h3⟩ := hsh.three h1
    obtain ⟨k, rfl⟩ : ∃ k, n = k * 3 := ⟨n / 3, by omega⟩
    obtain ⟨⟨p, hp, qp, -⟩, q, hq, qq, -⟩ := admittance_mat k y hy
    rw [if_neg h1']
    split
    · exact ⟨p, hp, qp⟩
    · split
      · exact ⟨q, hq, qq⟩
      · exact ⟨y, rfl, hy⟩

theorem correct_shown {R : Spec.StoredResults} {seq : Bool} {y : Arr2 ℂ} (h : Spec.Shown R seq y) :
    correctComponent R.phases seq R.y = .ok y := by
  unfold correctComponent
  rcases h with ⟨h1, h2, h3⟩ | ⟨h1, h2, h3⟩ | ⟨h1, h2, h3⟩
  · rw [if_neg (fun h => h.1 h1), if_pos ⟨h1, h2⟩]
    exact h3
  · rw [if_neg (fun h => h.2 h1), if_neg (fun h => by rw [h1] at h; exact absurd h.1 (by decide)), if_pos ⟨h1, h2⟩]
    exact h3
  · rw [h3]
    rw [if_neg h1, if_neg h2]
    split <;> rfl

/-- the voltages of the report -/
theorem plotVoltage_ok {n : Nat} {R : Spec.StoredResults} (hsh : Spec.ResultShapes n R) (seq : Bool) :
    ∃ v, plotVoltage R.phases seq R.voltage R.labels = .ok v ∧ (v.c = n ↔ Spec.NodeCount R n) := by
  unfold plotVoltage
  by_cases h1 : Spec.SinglePhase R
  · have h1' : R.phases ≠ "012" ∧ R.phases ≠ "123" := h1
    rw [if_pos h1']
    have hc : R.voltage.c = R.labels.length := hsh.labels.symm
    refine ⟨Arr2.ofFn R.voltage.r (Arr2.keepIdx R.voltage.c (otherLabels R.labels 1)).length
      (fun i j => R.voltage.get i ((Arr2.keepIdx R.voltage.c (otherLabels R.labels 1)).getD j 0)), ?_, ?_⟩
    · unfold Arr2.deleteCols
      rw [if_pos (by rw [hc]; exact other_lt R.labels 1)]
    · show (Arr2.keepIdx R.voltage.c (otherLabels R.labels 1)).length = n ↔ _
      obtain ⟨m, f, hp⟩ := exists_labelPos R.labels 1
      rw [hc, keep_other, labelled_eq hp, List.length_map, List.length_range, ← count_eq hp]
      constructor
      · intro h
        exact ⟨fun _ => h, fun h' => absurd h1 h'⟩
      · intro h
        exact h.1 h1
  · have h1' : ¬(R.phases ≠ "012" ∧ R.phases ≠ "123") := h1
    rw [if_neg h1']
    obtain ⟨h3, -⟩ := hsh.three h1
    obtain ⟨k, hk⟩ : ∃ k, R.voltage.c = k * 3 := ⟨R.voltage.c / 3, by omega⟩
    obtain ⟨⟨p, hp, -, pc, -⟩, q, hq, -, qc, -⟩ := measurement_mat k R.voltage hk
    have key : ∀ v : Arr2 ℂ, v.c = R.voltage.c → (v.c = n ↔ Spec.NodeCount R n) := by
      intro v hv
      constructor
      · intro h
        exact ⟨fun h' => absurd h' h1, fun _ => hv.symm.trans h⟩
      · intro h
        exact hv.trans (h.2 h1)
    split
    · exact ⟨p, hp, key p (pc.trans hk.symm)⟩
    · split
      · exact ⟨q, hq, key q (qc.trans hk.symm)⟩
      · exact ⟨_, rfl, key _ rfl⟩

open scoped Classical in
/-- outcome of a report -/
theorem plotResults_outcome (ext : PlotExt) {st : Store} {name : String} {R : Spec.StoredResults} (hst : Spec.Stored st name R) {n : Nat}
    (hn : 0 < n) (hsh : Spec.ResultShapes n R) {seq : Bool} {y : Arr2 ℂ} (hy : Spec.Shown R seq y) :
    (plotResults ext ⟨name, seq⟩ st).1 = if R.bayesian = none then .ok () else if Spec.NodeCount R n then
      (if R.standard = none then .error .nameError else if R.laplacian = true → Spec.AbsentLine n y then .ok () else .error .valueError)
      else .error .valueError := by
  have hcy := correct_shown hy
  have hacc := accepts_correct hsh seq
  have qy : Spec.IsSquare n y := by
    obtain ⟨p, hp, qp⟩ := hacc _ hsh.y
    rw [hcy] at hp
    cases hp
    exact qp
  obtain ⟨v, hv, hvc⟩ := plotVoltage_ok hsh seq
  have hr : referenceLoad st name = .ok (R.y, R.phases, R.laplacian) := by
    obtain ⟨d, hd, h1, h2, h3⟩ := hst.reference
    unfold referenceLoad Store.load Npz.mat Npz.str Npz.bool
    simp only [hd, h1, h2, h3, bind, Except.bind, pure, Except.pure]
  have hw : plotDataLoad st name = .ok (R.voltage, R.labels) := by
    obtain ⟨d, hd, h1, h2⟩ := hst.network
    unfold plotDataLoad Store.load Npz.mat Npz.ints
    simp only [hd, h1, h2, bind, Except.bind, pure, Except.pure]
  have hstd := plotStandard_ok hn hacc hst hsh qy
  obtain ⟨s, hs, hsq, hnone⟩ : ∃ s, (plotStandard (correctComponent R.phases seq) st name y).1 = .ok s ∧
      (∀ x, s = some x → Spec.IsSquare n x.1 ∧ Spec.IsSquare n x.2.1 ∧ Spec.IsSquare n x.2.2) ∧ (s = none ↔ R.standard = none) := by
    cases hR : R.standard with
    | none => exact ⟨none, hstd.1 hR, fun x hx => (nomatch hx), by simp⟩
    | some x =>
      obtain ⟨o, t, l, qo, qt, ql, e⟩ := hstd.2 x hR
      exact ⟨_, e, fun x hx => by cases hx; exact ⟨qo, qt, ql⟩, by simp⟩
  have hbay := plotBayesian_iff hn hacc hst hsh qy v.c R.laplacian s hsq
  have hunc : ∀ k, plotUncertainty ext st name k y s = (.ok (), []) := by
    intro k
    unfold plotUncertainty
    rw [hst.uncertainty]
    rfl
  have main : (plotResults ext ⟨name, seq⟩ st).1 = (plotBayesian (correctComponent R.phases seq) st name v.c R.laplacian y s).1 := by
    unfold plotResults
    dsimp only
    rw [hr, Rep.ofExcept_ok, hw, Rep.ofExcept_ok]
    dsimp only
    rw [hv, Rep.ofExcept_ok, hcy, Rep.ofExcept_ok, Rep.write_bind, Rep.write_bind]
    dsimp only
    rw [Rep.bind_fst hs]
    exact Rep.bind_unit (hunc v.c)
  rw [main]
  cases hb : R.bayesian with
  | none => rw [if_pos rfl, hbay.1 hb]
  | some b =>
    rw [if_neg (by simp), hbay.2 b hb]
    refine if_congr hvc ?_ rfl
    refine if_congr hnone rfl ?_
    exact if_congr (mask_zero R.laplacian hn y) rfl rfl

/-- C105: exactly when a report is completed. -/
theorem C105_partial (ext : PlotExt) {st : Store} {name : String} {R : Spec.StoredResults} (hst : Spec.Stored st name R) {n : Nat}
    (hn : 0 < n) (hsh : Spec.ResultShapes n R) {seq : Bool} {y : Arr2 ℂ} (hy : Spec.Shown R seq y) :
    (plotResults ext ⟨name, seq⟩ st).1 = .ok () ↔ R.bayesian = none ∨
      (R.standard ≠ none ∧ Spec.NodeCount R n ∧ (R.laplacian = true → Spec.AbsentLine n y)) := by
  rw [plotResults_outcome ext hst hn hsh hy]
  by_cases h1 : R.bayesian = none
  · simp [h1]
  · by_cases h2 : Spec.NodeCount R n
    · by_cases h3 : R.standard = none
      · simp [h1, h2, h3]
      · by_cases h4 : R.laplacian = true → Spec.AbsentLine n y
        · simp [h1, h2, h3, h4]
        · rw [if_neg h1, if_pos h2, if_neg h3, if_neg h4]
          refine ⟨fun h => (nomatch h), ?_⟩
          rintro (h | ⟨-, -, h⟩)
          · exact absurd h h1
          · exact absurd h h4
    · simp [h1, h2]

/-- C105 is violated: in Laplacian mode the report on a network without two unconnected nodes raises, though all results are there. -/
theorem C105_violated (ext : PlotExt) {st : Store} {name : String} {R : Spec.StoredResults} (hst : Spec.Stored st name R) {n : Nat}
    (hn : 0 < n) (hsh : Spec.ResultShapes n R) {seq : Bool} {y : Arr2 ℂ} (hy : Spec.Shown R seq y) (hs : R.standard ≠ none)
    (hb : R.bayesian ≠ none) (hc : Spec.NodeCount R n) (hl : R.laplacian = true)
    (hfull : ∀ i j, j < i → i < n → y.get i j ≠ 0 ∨ y.get j i ≠ 0) :
    (plotResults ext ⟨name, seq⟩ st).1 = .error .valueError := by
  rw [plotResults_outcome ext hst hn hsh hy, if_neg hb, if_pos hc, if_neg hs, if_neg]
  intro h
  obtain ⟨i, j, h1, h2, h3, h4⟩ := h hl
  rcases hfull i j h1 h2 with h | h
  · exact h h3
  · exact h h4

/-- C105 is violated: without the standard results the report raises. -/
theorem C105_violated_missing (ext : PlotExt) {st : Store} {name : String} {R : Spec.StoredResults} (hst : Spec.Stored st name R) {n : Nat}
    (hn : 0 < n) (hsh : Spec.ResultShapes n R) {seq : Bool} {y : Arr2 ℂ} (hy : Spec.Shown R seq y) (hs : R.standard = none)
    (hb : R.bayesian ≠ none) (hc : Spec.NodeCount R n) : (plotResults ext ⟨name, seq⟩ st).1 = .error .nameError := by
  rw [plotResults_outcome ext hst hn hsh hy, if_neg hb, if_pos hc, if_pos hs]

/-- C107 is violated: the report on a phase with another number of nodes than phase 1 raises. -/
theorem C107_violated (ext : PlotExt) {st : Store} {name : String} {R : Spec.StoredResults} (hst : Spec.Stored st name R) {n : Nat}
    (hn : 0 < n) (hsh : Spec.ResultShapes n R) {seq : Bool} (hp : Spec.SinglePhase R) (hb : R.bayesian ≠ none)
    (hc : R.labels.count 1 ≠ n) : (plotResults ext ⟨name, seq⟩ st).1 = .error .valueError := by
  have hy : Spec.Shown R seq R.y := Or.inr (Or.inr ⟨fun h => hp.1 h.1, fun h => hp.2 h.1, rfl⟩)
  rw [plotResults_outcome ext hst hn hsh hy, if_neg hb, if_neg]
  intro h
  exact hc (h.1 hp)

/-- C107: the voltages of the report on a single phase are those labelled 1, whatever the phase. -/
theorem C107_partial (ext : PlotExt) {st : Store} {name : String} {R : Spec.StoredResults} (hst : Spec.Stored st name R) {n : Nat}
    (hsh : Spec.ResultShapes n R) {seq : Bool} (hp : Spec.SinglePhase R) {m : Nat} {f : Nat → Nat}
    (hf : Spec.LabelPos R.labels 1 m f) :
    (plotResults ext ⟨name, seq⟩ st).2.head? = some (.plot "correlations" (column (ext.spectrum (Spec.columnsAt R.voltage m f)))) := by
  have hr : referenceLoad st name = .ok (R.y, R.phases, R.laplacian) := by
    obtain ⟨d, hd, h1, h2, h3⟩ := hst.reference
    unfold referenceLoad Store.load Npz.mat Npz.str Npz.bool
    simp only [hd, h1, h2, h3, bind, Except.bind, pure, Except.pure]
  have hw : plotDataLoad st name = .ok (R.voltage, R.labels) := by
    obtain ⟨d, hd, h1, h2⟩ := hst.network
    unfold plotDataLoad Store.load Npz.mat Npz.ints
    simp only [hd, h1, h2, bind, Except.bind, pure, Except.pure]
  have hp' : R.phases ≠ "012" ∧ R.phases ≠ "123" := hp
  have hv : plotVoltage R.phases seq R.voltage R.labels = .ok (Spec.columnsAt R.voltage m f) := by
    unfold plotVoltage
    rw [if_pos hp']
    exact deleteCols_other hf hsh.labels.symm
  have hc : correctComponent R.phases seq R.y = .ok R.y := if_pos hp'
  unfold plotResults
  dsimp only
  rw [hr, Rep.ofExcept_ok, hw, Rep.ofExcept_ok]
  dsimp only
  rw [hv, Rep.ofExcept_ok, hc, Rep.ofExcept_ok, Rep.write_bind]
  rfl

/-! ### stored results -/

theorem resultFile_inj {s s' : Stage} {n : String} : resultFile s n = resultFile s' n ↔ s = s' := by
  constructor
  · intro h
    have h := List.append_cancel_right (resultFile_eq_iff.1 h)
    cases s <;> cases s' <;> first | rfl | (exfalso; revert h; simp [Stage.pre])
  · rintro rfl
    rfl

/-- files with given results -/
def storeOf (name : String) (R : Spec.StoredResults) : Store := fun f =>
  if f = resultFile .reference name then some (npz [("y", .mat R.y), ("p", .str R.phases), ("l", .bool R.laplacian)])
  else if f = resultFile .network name then some (npz [("w", .mat R.voltage), ("h", .ints R.labels)])
  else if f = resultFile .standard name then R.standard.map (fun s => npz [("o", .mat s.1), ("t", .mat s.2.1), ("l", .mat s.2.2)])
  else if f = resultFile .bayesian name then R.bayesian.map (fun b => npz [("y", .mat b.1), ("i", .log b.2)])
  else none

theorem storeOf_stored (name : String) (R : Spec.StoredResults) : Spec.Stored (storeOf name R) name R := by
  have e1 : storeOf name R (resultFile .reference name) = some (npz [("y", .mat R.y), ("p", .str R.phases), ("l", .bool R.laplacian)]) := by
    simp [storeOf]
  have e2 : storeOf name R (resultFile .network name) = some (npz [("w", .mat R.voltage), ("h", .ints R.labels)]) := by
    simp [storeOf, resultFile_inj]
  have e3 : storeOf name R (resultFile .standard name) =
      R.standard.map (fun s => npz [("o", .mat s.1), ("t", .mat s.2.1), ("l", .mat s.2.2)]) := by
    simp [storeOf, resultFile_inj]
  have e4 : storeOf name R (resultFile .bayesian name) = R.bayesian.map (fun b => npz [("y", .mat b.1), ("i", .log b.2)]) := by
    simp [storeOf, resultFile_inj]
  have e5 : storeOf name R (resultFile .uncertainty name) = none := by
    simp [storeOf, resultFile_inj]
  refine ⟨⟨_, e1, rfl, rfl, rfl⟩, ⟨_, e2, rfl, rfl⟩, fun h => by rw [e3, h]; rfl, fun s h => ?_, fun h => by rw [e4, h]; rfl,
    fun b h => ?_, e5⟩
  · rw [e3, h]
    exact ⟨_, rfl, rfl, rfl, rfl⟩
  · rw [e4, h]
    exact ⟨_, rfl, rfl, rfl⟩

/-- results for two nodes and the line between them -/
def twoNodes (labels : List Int) (phases : String) (laplacian : Bool) : Spec.StoredResults :=
  ⟨Arr2.ofFn 2 2 (fun i j => if i = j then 1 else -1), phases, laplacian, Arr2.zeros 5 labels.length, labels,
    some (Arr2.eye 2, Arr2.zeros 2 2, Arr2.eye 2), some (Arr2.eye 2, [⟨0, Arr2.eye 2, 0⟩])⟩

theorem twoNodes_shapes (labels : List Int) (lap : Bool) : Spec.ResultShapes 2 (twoNodes labels "2" lap) where
  y := ⟨rfl, rfl⟩
  standard s h := by cases h; exact ⟨⟨rfl, rfl⟩, ⟨rfl, rfl⟩, ⟨rfl, rfl⟩⟩
  bayesian b h := by
    cases h
    refine ⟨⟨rfl, rfl⟩, fun i hi => ?_⟩
    rw [List.mem_singleton] at hi
    subst hi
    exact ⟨rfl, rfl⟩
  labels := rfl
  three h := absurd ⟨by show ("2" : String) ≠ _; decide, by show ("2" : String) ≠ _; decide⟩ h

/-- C105, C107: instances of the hypotheses -/
example (ext : PlotExt) :
    (plotResults ext ⟨"net", false⟩ (storeOf "net" (twoNodes [1, 1] "2" true))).1 = .error .valueError ∧
    (plotResults ext ⟨"net", false⟩ (storeOf "net" (twoNodes [1, 1] "2" false))).1 = .ok () ∧
    (plotResults ext ⟨"net", false⟩ (storeOf "net" (twoNodes [1, 2, 2] "2" false))).1 = .error .valueError := by
  have hp : ∀ l b, Spec.SinglePhase (twoNodes l "2" b) := fun l b =>
    ⟨by show ("2" : String) ≠ _; decide, by show ("2" : String) ≠ _; decide⟩
  have hy : ∀ l b, Spec.Shown (twoNodes l "2" b) false (twoNodes l "2" b).y := fun l b =>
    Or.inr (Or.inr ⟨fun h => (hp l b).1 h.1, fun h => (hp l b).2 h.1, rfl⟩)
  have hc : ∀ b, Spec.NodeCount (twoNodes [1, 1] "2" b) 2 := fun b => ⟨fun _ => rfl, fun h => absurd (hp _ b) h⟩
  refine ⟨?_, ?_, ?_⟩
  · refine C105_violated ext (storeOf_stored _ _) (by norm_num) (twoNodes_shapes _ _) (hy _ _) (by simp [twoNodes]) (by simp [twoNodes])
      (hc _) rfl fun i j h1 h2 => Or.inl ?_
    show (Arr2.ofFn 2 2 (fun i j => if i = j then (1 : ℂ) else -1)).get i j ≠ 0
    rw [Arr2.ofFn_get _ h2 (by omega), if_neg (by omega)]
    norm_num
  · exact (C105_partial ext (storeOf_stored _ _) (by norm_num) (twoNodes_shapes _ _) (hy _ _)).2
      (Or.inr ⟨by simp [twoNodes], hc _, fun h => (nomatch h)⟩)
  · exact C107_violated ext (storeOf_stored _ _) (by norm_num) (twoNodes_shapes _ _) (hp _ _) (by simp [twoNodes])
      (by show List.count (1 : Int) [1, 2, 2] ≠ 2; decide)

end
end Verif
