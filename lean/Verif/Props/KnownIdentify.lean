/-
C92 for the prior of `bayesian_eiv`, and C125: identify_network.py with the option `--exact`.
-/
import Verif.Props.IdentifyRun3
import Verif.Props.NoisyPipeline

namespace Verif
open Finset Spec
noncomputable section

/-! ### the prior -/

theorem nReal_offPairs (lap : Bool) (n : Nat) : nReal lap n = 2 * (Spec.offPairs n).length + if lap then 0 else 2 * n := by
  rw [← params_length_nReal lap n (Arr2.zeros n n), params_length, realEntries_length, idEntries_length]
  cases lap <;> simp <;> ring

/-- C92 without the Laplacian constraint: for at least 29 nodes and every known matrix, the prior of `bayesian_eiv` is the one without
known matrix and terms that pull the lines at nodes 0, 25 and 26 to their known values -/
theorem C92_partial (cf : IdConf) (n : Nat) (hn : 29 ≤ n) (y0 y : Arr2 ℂ) (hy0 : Spec.IsSquare n y0) (hy : Spec.IsSquare n y) :
    ∃ p p', eivPrior cf n y0 none false = .ok p ∧ eivPrior cf n y0 (some y) false = .ok p' ∧
      Spec.Pins false n p p' cf.lambdaprime 1 Spec.optimalHubs Spec.optimalKnown y := by
  obtain ⟨p, hp, -, hpu, -⟩ := complex_prior n cf.lambdaprime y0 hy0 false cf.useTlsDiag cf.contrastEachRow cf.regularizeDiag (by simp)
  obtain ⟨p', hp', hpin⟩ := known_lines_optimal false n hn p hpu.cons (by rw [hpu.size, nReal_offPairs]) cf.lambdaprime y hy "optimal"
    (by decide)
  refine ⟨p, p', by simp only [eivPrior, hp, bind, Except.bind, pure, Except.pure], by simp only [eivPrior, hp, bind, Except.bind]; exact hp', ?_⟩
  have e1 : cf.lambdaprime * Spec.weight "optimal" = cf.lambdaprime := by
    unfold Spec.weight
    rw [if_neg (by decide), mul_one]
  have e2 : Spec.factor "optimal" = 1 := by
    unfold Spec.factor
    rw [if_neg (by decide)]
  rw [e1, e2] at hpin
  exact hpin

/-- C92 with the Laplacian constraint: for at least 39 nodes `bayesian_eiv` builds a prior from every known matrix, but its terms are not
those of the known lines -/
theorem C92_prior_violated (cf : IdConf) (h90 : ¬ (cf.contrastEachRow = true ∧ cf.regularizeDiag = true)) (hl : cf.lambdaprime ≠ 0)
    (n : Nat) (hn : 39 ≤ n) (y0 y : Arr2 ℂ) (hy0 : Spec.IsSquare n y0) (hy : Spec.IsSquare n y) :
    ∃ p p', eivPrior cf n y0 none true = .ok p ∧ eivPrior cf n y0 (some y) true = .ok p' ∧
      ¬ Spec.Pins true n p p' cf.lambdaprime 1 Spec.optimalHubs Spec.optimalKnown y := by
  obtain ⟨p, hp, -, hpu, -⟩ := complex_prior n cf.lambdaprime y0 hy0 true cf.useTlsDiag cf.contrastEachRow cf.regularizeDiag
    (fun h => h90 h.2)
  obtain ⟨p', hp', hpin⟩ := C92_violated n hn p hpu.cons (by rw [hpu.size, nReal_offPairs]; simp) cf.lambdaprime hl y hy
  exact ⟨p, p', by simp only [eivPrior, hp, bind, Except.bind, pure, Except.pure], by simp only [eivPrior, hp, bind, Except.bind]; exact hp',
    hpin⟩

theorem eivPrior_needs {cf : IdConf} {n : Nat} {y0 y : Arr2 ℂ} {lap : Bool} {p : Prior} (h : eivPrior cf n y0 (some y) lap = .ok p) :
    29 ≤ y.r ∧ 29 ≤ y.c := by
  by_contra hy
  unfold eivPrior at h
  obtain ⟨q, -, h⟩ := Prior.bind_ok h
  dsimp only at h
  rw [known_few n q _ hy] at h
  cases h

/-! ### the program -/

/-- C125, necessary: a run with `--exact` and without the Laplacian constraint completes only for networks of at least 29 nodes -/
theorem C125_needs {ext : NumExt} {cf : IdConf} {sc : SimConf} {a : IdArgs} {st : Store}
    {r : (Arr2 ℂ × Arr2 ℂ × Arr2 ℂ) × (Arr2 ℂ × List IterationStatus)} (h : (identify ext cf sc a st).res = .ok r)
    (h3 : a.threePhased = false) (hx : a.exact = true) (hl : a.laplacian = false) :
    ∃ d d', networkLoad st a.network = .ok d ∧ selectPhase a d = .ok d' ∧ 29 ≤ d'.y.r ∧ 29 ≤ d'.y.c := by
  obtain ⟨-, -, -, d, d', y0, st1, st2, h1, h2, -, -, -, -, h6, -⟩ := identify_ok.1 h
  refine ⟨d, d', h1, h2, ?_⟩
  unfold identifyBayesian at h6
  simp only [h3, Bool.false_eq_true, if_false, Prog.call, hx, hl, Bool.not_false, Bool.and_self, if_true, bayesianEiv] at h6
  cases hp : eivPrior cf d'.noisyVoltage.c y0 (some d'.y) false with
  | error e => rw [hp] at h6; cases h6
  | ok p => exact eivPrior_needs hp

/-- the same in sequence values: every sequence has at least 29 entries -/
theorem C125_needs3 {ext : NumExt} {cf : IdConf} {sc : SimConf} {a : IdArgs} {st : Store} {d : NetworkData}
    {r : (Arr2 ℂ × Arr2 ℂ × Arr2 ℂ) × (Arr2 ℂ × List IterationStatus)} (hsh : Spec.Shapes ext) (hn : Spec.PlainName a.network)
    (h : (identify ext cf sc a st).res = .ok r) (hload : networkLoad st a.network = .ok d)
    (hopt : a.threePhased = true ∧ a.phases = "012" ∧ a.standard = a.bayesian ∧ 0 < a.maxIter) (hx : a.exact = true)
    (hl : a.laplacian = false) (hd : Spec.PhaseData d.ids d.noisyVoltage d.noisyCurrent d.ratings d.y none) (h0 : 0 ∈ d.ids)
    {m : Fin 3 → ℕ} {f : Fin 3 → ℕ → ℕ} (hp : ∀ l : Fin 3, LabelPos d.ids (l.val : Int) (m l) (f l)) : ∀ l, 29 ≤ m l := by
  obtain ⟨h3, hph, hsb, hit⟩ := hopt
  obtain ⟨d', y0, k1, k2, k3, -, k5, -⟩ := C78_identify3 hn h3 h
  rw [hload] at k1
  cases k1
  have hR : Redone a.bayesian [a.standard, a.bayesian] := by
    rw [hsb]
    cases a.bayesian
    · right; simp
    · left; rfl
  have hs := (k3 (by rw [hsb] at hR ⊢; exact hR)).1 st
  rw [if_pos hph] at hs
  obtain ⟨es, -, -, ht, -⟩ := (C52_standard hsh hd.v hd.c hp _ _).1 hs
  obtain ⟨y0', hy0, hsq, -⟩ := halfSum_square ht.square
  rw [k2] at hy0
  cases hy0
  have hb := k5 ⟨hR, hit⟩ st
  simp only [hx, hl, Bool.not_false, Bool.and_self, if_true] at hb
  have hd' : Spec.PhaseData d.ids d.noisyVoltage d.noisyCurrent d.ratings y0 (some d.y) := ⟨hd.v, hd.c, hd.ratings, hsq, fun y hy => by
    cases hy; exact hd.init⟩
  obtain ⟨rs, hrs, -⟩ := ((C52_bayesian hit h0 hd' hp _ _).1).1 hb
  intro l
  have hr := hrs l st
  unfold labelRun at hr
  rw [bayesianEiv_fst hit] at hr
  obtain ⟨p, hpr, -⟩ := Prior.bind_ok hr
  exact (eivPrior_needs hpr).1

/-- C125, the exception: if the standard methods return (C119), the run ends with `IndexError` -/
theorem C125_few {ext : NumExt} {cf : IdConf} {sc : SimConf} {a : IdArgs} {st : Store} {d d' : NetworkData}
    (hinv : Spec.InvContract ext.inv) (hex : Spec.Exact ext.solve) (htot : Spec.Total ext.solve) (hpinv : Spec.PinvContract ext.pinv)
    (hsvd : Spec.SvdContract ext.svdVh) (hlasso : 0 ≤ cf.lambdaLasso)
    (hopt : a.threePhased = false ∧ a.continueId = false ∧ (a.standard = true ∨ a.bayesian = false) ∧ a.exact = true ∧ a.laplacian = false)
    (hph : checkPhases a.phases a.sequence = .ok ()) (hload : networkLoad st a.network = .ok d) (hsel : selectPhase a d = .ok d')
    {x0 z0 Y : Arr2 ℂ} (hY : Y.r = Y.c) {ε σ : ℝ}
    (hN : Spec.Noisy (centreColumns d'.noisyVoltage) (centreColumns d'.noisyCurrent) x0 z0 Y ε)
    (hσ : Spec.AtLeast x0 σ) (hε : 0 ≤ ε) (hεσ : 2 * ε < σ) (hfew : d'.y.r < 29 ∨ d'.y.c < 29) :
    (identify ext cf sc a st).res = .error .indexError := by
  obtain ⟨h3, hc, hstd, hx, hl⟩ := hopt
  obtain ⟨B, T, L, hS, hYs, hB, hT, hi, hols, htls, e1, e2⟩ := standard_noisy (lap := false) hlasso hinv hex htot hpinv hsvd hY hN hσ hε hεσ
    a.maxIter
  obtain ⟨y0, hy0, hsq, hsym⟩ := halfSum_square hT
  obtain ⟨p, hp, -⟩ := complex_prior d'.noisyVoltage.c cf.lambdaprime y0 hsq false cf.useTlsDiag cf.contrastEachRow
    cf.regularizeDiag (by simp)
  have hredo : a.redoStandard = true := by
    unfold IdArgs.redoStandard
    rcases hstd with h | h <;> rw [h]
    · rfl
    · cases a.standard <;> rfl
  have hstand : (identifyStandard ext cf a d' (st.savez (resultFile .reference a.network)
      (referenceNpz d'.y a.phases a.laplacian))).res = .ok (B, T, L) := by
    unfold identifyStandard
    simp only [h3, hredo, hl, if_true, Bool.false_eq_true, if_false, Prog.call, standardMethods, hS]
  have hbay : ∀ st', (identifyBayesian ext cf sc a d' y0 st').res = .error .indexError := by
    intro st'
    unfold identifyBayesian
    have hq : eivPrior cf d'.noisyVoltage.c y0 (some d'.y) false = .error .indexError := by
      simp only [eivPrior, hp, bind, Except.bind]
      exact known_few _ _ _ (by omega) false
    simp only [h3, Bool.false_eq_true, if_false, Prog.call, hx, hl, Bool.not_false, Bool.and_self, if_true, bayesianEiv, hq]
  unfold identify
  rw [Prog.bind_ok (a := ()) hph]
  simp only [Prog.ofExcept_run]
  rw [Prog.bind_ok (a := d) hload]
  simp only [Prog.read_run]
  rw [Prog.bind_ok (a := d') hsel]
  simp only [Prog.ofExcept_run]
  rw [Prog.bind_ok (a := ()) rfl]
  simp only [Prog.save_run]
  rw [Prog.bind_ok (a := (B, T, L)) hstand]
  rw [Prog.bind_ok (a := y0) (by unfold initialEstimate; rw [hc]; exact hy0)]
  rw [Prog.bind_error (hbay _)]

/-! ### concrete runs -/

/-- entry of a column of two opposite samples in the rows `2 (o + j)`, `2 (o + j) + 1` -/
def pat (s : ℂ) (o t j : Nat) : ℂ := if t / 2 = o + j then (if t % 2 = 0 then s else -s) else 0

/-- voltages of `n` nodes, each excited alone in two samples -/
def spreadV (n : Nat) : Arr2 ℂ := Arr2.ofFn (4 * n) n (fun t j => pat (5 * n) 0 t j)

/-- their currents through unit admittances, with errors in other samples -/
def spreadC (n : Nat) : Arr2 ℂ := Arr2.ofFn (4 * n) n (fun t j => pat (5 * n) 0 t j + pat 1 n t j)

theorem pat_mean (s : ℂ) (o n j : Nat) (hj : j < n) (ho : o ≤ n) : ∑ t ∈ range (4 * n), pat s o t j = 0 := by
  rw [Finset.sum_eq_add_of_mem (2 * (o + j)) (2 * (o + j) + 1) (Finset.mem_range.2 (by omega)) (Finset.mem_range.2 (by omega)) (by omega)]
  · unfold pat
    rw [if_pos (by omega), if_pos (by omega), if_pos (by omega), if_neg (by omega)]
    ring
  · intro t _ ht
    exact if_neg (by omega)

theorem spread_centred (n : Nat) : centreColumns (spreadV n) = spreadV n ∧ centreColumns (spreadC n) = spreadC n := by
  constructor
  · refine Arr2.ext' rfl rfl fun t j (ht : t < 4 * n) (hj : j < n) => ?_
    refine (Arr2.ofFn_get (r := 4 * n) (c := n) _ ht hj).trans ?_
    have : ∑ s ∈ range (4 * n), (spreadV n).get s j = 0 := by
      rw [← pat_mean (5 * n) 0 n j hj (Nat.zero_le _)]
      exact Finset.sum_congr rfl fun s hs => Arr2.ofFn_get _ (Finset.mem_range.1 hs) hj
    show (spreadV n).get t j - (∑ s ∈ range (4 * n), (spreadV n).get s j) / _ = _
    rw [this, zero_div, sub_zero]
  · refine Arr2.ext' rfl rfl fun t j (ht : t < 4 * n) (hj : j < n) => ?_
    refine (Arr2.ofFn_get (r := 4 * n) (c := n) _ ht hj).trans ?_
    have : ∑ s ∈ range (4 * n), (spreadC n).get s j = 0 := by
      have e : ∑ s ∈ range (4 * n), (spreadC n).get s j = ∑ s ∈ range (4 * n), (pat (5 * n) 0 s j + pat 1 n s j) :=
        Finset.sum_congr rfl fun s hs => Arr2.ofFn_get _ (Finset.mem_range.1 hs) hj
      rw [e, Finset.sum_add_distrib, pat_mean _ 0 n j hj (Nat.zero_le _), pat_mean _ n n j hj le_rfl, add_zero]
    show (spreadC n).get t j - (∑ s ∈ range (4 * n), (spreadC n).get s j) / _ = _
    rw [this, zero_div, sub_zero]

theorem pat_sum {n : Nat} (s : ℂ) (o t : Nat) (v : Fin n → ℂ) (k : Fin n) (hk : t / 2 = o + k) :
    ∑ j : Fin n, pat s o t j * v j = (if t % 2 = 0 then s else -s) * v k := by
  rw [Finset.sum_eq_single k]
  · rw [pat, if_pos hk]
  · intro j _ hj
    rw [pat, if_neg (fun h => hj (Fin.ext (by omega))), zero_mul]
  · simp

theorem pat_none {n : Nat} (s : ℂ) (o t : Nat) (v : Fin n → ℂ) (h : ∀ k : Fin n, t / 2 ≠ o + k) : ∑ j : Fin n, pat s o t j * v j = 0 :=
  Finset.sum_eq_zero fun j _ => by rw [pat, if_neg (h j), zero_mul]

theorem spreadV_mulVec (n : Nat) (v : Fin n → ℂ) (t : Fin (4 * n)) :
    ((spreadV n).toMat (4 * n) n).mulVec v t = ∑ j : Fin n, pat (5 * n) 0 t j * v j := by
  show ∑ j : Fin n, (spreadV n).get t j * v j = _
  refine Finset.sum_congr rfl fun j _ => ?_
  rw [spreadV, Arr2.ofFn_get _ t.2 j.2]

theorem spreadC_mulVec (n : Nat) (v : Fin n → ℂ) (t : Fin (4 * n)) :
    ((spreadC n).toMat (4 * n) n).mulVec v t = (∑ j : Fin n, pat (5 * n) 0 t j * v j) + ∑ j : Fin n, pat 1 n t j * v j := by
  rw [← Finset.sum_add_distrib]
  show ∑ j : Fin n, (spreadC n).get t j * v j = _
  refine Finset.sum_congr rfl fun j _ => ?_
  rw [← add_mul, spreadC, Arr2.ofFn_get _ t.2 j.2]

theorem entry_le_len {n : Nat} (v : Fin n → ℂ) (k : Fin n) : ‖v k‖ ≤ Spec.len v := by
  refine Real.le_sqrt_of_sq_le ?_
  exact Finset.single_le_sum (f := fun i => ‖v i‖ ^ 2) (fun i _ => by positivity) (Finset.mem_univ k)

theorem spread_excited (n : Nat) : Spec.AtLeast (spreadV n) (5 * n) := by
  intro (v : Fin n → ℂ)
  show 5 * (n : ℝ) * Spec.len (n := n) v ≤ Spec.len (n := 4 * n) (((spreadV n).toMat (4 * n) n).mulVec v)
  refine Real.le_sqrt_of_sq_le ?_
  unfold Spec.len
  rw [mul_pow, Real.sq_sqrt (Finset.sum_nonneg fun i _ => by positivity), Finset.mul_sum]
  let g : Fin n ↪ Fin (4 * n) := ⟨fun k => ⟨2 * k, by omega⟩, fun a b h => Fin.ext (by
    have := congrArg Fin.val h
    dsimp only at this
    omega)⟩
  calc ∑ k : Fin n, (5 * (n : ℝ)) ^ 2 * ‖v k‖ ^ 2
      = ∑ t ∈ Finset.univ.map g, ‖((spreadV n).toMat (4 * n) n).mulVec v t‖ ^ 2 := by
        rw [Finset.sum_map]
        refine Finset.sum_congr rfl fun k _ => ?_
        rw [spreadV_mulVec, pat_sum _ 0 _ v k (by show 2 * (k : ℕ) / 2 = _; omega),
          if_pos (show (g k : ℕ) % 2 = 0 by show 2 * (k : ℕ) % 2 = 0; omega), norm_mul]
        simp
        ring
    _ ≤ _ := Finset.sum_le_sum_of_subset_of_nonneg (Finset.subset_univ _) fun i _ _ => by positivity

theorem spread_unrelated (n : Nat) : Spec.Unrelated (spreadV n) (spreadC n) := by
  intro (a : Fin n → ℂ) (b : Fin n → ℂ) h
  have h' : ∀ t : Fin (4 * n), ((spreadV n).toMat (4 * n) n).mulVec a t + ((spreadC n).toMat (4 * n) n).mulVec b t = 0 := fun t => congrFun h t
  have hb : ∀ k, b k = 0 := by
    intro k
    have := h' ⟨2 * (n + k), by omega⟩
    rw [spreadV_mulVec, spreadC_mulVec, pat_none _ 0 _ _ (fun j => by show 2 * (n + (k : ℕ)) / 2 ≠ _; omega),
      pat_none _ 0 _ _ (fun j => by show 2 * (n + (k : ℕ)) / 2 ≠ _; omega),
      pat_sum _ n _ b k (by show 2 * (n + (k : ℕ)) / 2 = _; omega), if_pos (show 2 * (n + (k : ℕ)) % 2 = 0 by omega)] at this
    simpa using this
  refine ⟨funext fun k => ?_, funext hb⟩
  have := h' ⟨2 * k, by omega⟩
  rw [spreadV_mulVec, spreadC_mulVec, pat_sum _ 0 _ a k (by show 2 * (k : ℕ) / 2 = _; omega),
    pat_sum _ 0 _ b k (by show 2 * (k : ℕ) / 2 = _; omega), pat_none _ n _ b (fun j => by show 2 * (k : ℕ) / 2 ≠ _; omega),
    if_pos (show 2 * (k : ℕ) % 2 = 0 by omega), hb k, mul_zero, add_zero, add_zero] at this
  rcases mul_eq_zero.1 this with h0 | h0
  · have : n ≠ 0 := by have := k.2; omega
    simp [this] at h0
  · exact h0

theorem spread_noisy (n : Nat) : Spec.Noisy (spreadV n) (spreadC n) (spreadV n) (spreadV n) (Arr2.eye n) (2 * n) := by
  refine ⟨?_, ⟨rfl, rfl⟩, ⟨rfl, rfl⟩, ?_⟩
  · rw [Arr2.matmul_ok _ _ rfl]
    congr 1
    refine Arr2.ext' rfl rfl fun i j (hi : i < 4 * n) (hj : j < n) => ?_
    refine (Arr2.ofFn_get (r := 4 * n) (c := n) _ hi hj).trans ?_
    rw [Arr2.mulGet, show (spreadV n).c = n from rfl, Finset.sum_eq_single j]
    · unfold Arr2.eye
      rw [Arr2.ofFn_get _ hj hj, if_pos rfl, mul_one]
    · intro k hk hkj
      unfold Arr2.eye
      rw [Arr2.ofFn_get _ (Finset.mem_range.1 hk) hj, if_neg hkj, mul_zero]
    · intro h
      exact absurd (Finset.mem_range.2 hj) h
  · intro (a : Fin n → ℂ) (b : Fin n → ℂ)
    show Spec.len (n := 4 * n) (((spreadV n).toMat (4 * n) n - (spreadV n).toMat (4 * n) n).mulVec a +
      ((spreadC n).toMat (4 * n) n - (spreadV n).toMat (4 * n) n).mulVec b) ≤ 2 * n * Spec.len (n := n + n) (Fin.append a b)
    rw [sub_self, Matrix.zero_mulVec, zero_add, Matrix.sub_mulVec]
    have hL : Spec.len b ≤ Spec.len (n := n + n) (Fin.append a b) := by
      refine Real.sqrt_le_sqrt ?_
      rw [Fin.sum_univ_add]
      simp only [Fin.append_left, Fin.append_right]
      have : 0 ≤ ∑ i, ‖a i‖ ^ 2 := Finset.sum_nonneg fun i _ => by positivity
      linarith
    have h0 : 0 ≤ Spec.len b := Real.sqrt_nonneg _
    have hrow : ∀ t : Fin (4 * n), ‖(((spreadC n).toMat (4 * n) n).mulVec b - ((spreadV n).toMat (4 * n) n).mulVec b) t‖ ^ 2 ≤ Spec.len b ^ 2 := by
      intro t
      rw [Pi.sub_apply, spreadC_mulVec, spreadV_mulVec, add_sub_cancel_left]
      refine pow_le_pow_left₀ (norm_nonneg _) ?_ 2
      by_cases ht : n ≤ (t : ℕ) / 2
      · rw [pat_sum 1 n t b ⟨(t : ℕ) / 2 - n, by omega⟩ (by dsimp only; omega), norm_mul]
        refine le_trans (le_of_eq ?_) (entry_le_len b ⟨(t : ℕ) / 2 - n, by omega⟩)
        split <;> simp
      · rw [pat_none 1 n t b (fun k => by omega), norm_zero]
        exact h0
    refine Real.sqrt_le_iff.2 ⟨mul_nonneg (by positivity) (h0.trans hL), ?_⟩
    refine (Finset.sum_le_sum fun t _ => hrow t).trans ?_
    rw [Finset.sum_const, Finset.card_univ, Fintype.card_fin, nsmul_eq_mul, mul_pow]
    have h1 : Spec.len b ^ 2 ≤ Spec.len (n := n + n) (Fin.append a b) ^ 2 := pow_le_pow_left₀ h0 hL 2
    have h2 : ((4 * n : ℕ) : ℝ) ≤ (2 * (n : ℝ)) ^ 2 := by
      have : n ≤ n * n := Nat.le_mul_self n
      have : ((n : ℕ) : ℝ) ≤ n * n := by exact_mod_cast this
      push_cast
      nlinarith
    exact mul_le_mul h2 h1 (sq_nonneg _) (sq_nonneg _)

/-- measurements of `n` nodes -/
def spreadData (n : Nat) : NetworkData := ⟨spreadV n, spreadC n, spreadV n, spreadV n, Arr2.eye n, List.replicate n 1, 1, List.replicate n 1⟩

/-- `python identify_network.py --network ieee_33 --max-iterations 50 --exact` -/
def demoArgs125 : IdArgs := ⟨"ieee_33", 50, false, false, false, "1", false, true, false, false, false, false⟩

/-- The same kind of data: with 29 nodes or more the script returns; with fewer (at least one) it ends with `IndexError`. -/
example (sc : SimConf) (st : Store) (n : Nat) (hn : 0 < n) :
    (29 ≤ n → ∃ r, (identify ⟨exactPinv, exactSvd, exactInv, exactSolve⟩ demoIdConf sc demoArgs125
      (st.savez (resultFile .network "ieee_33") (networkNpz (spreadData n)))).res = .ok r) ∧
    (n < 29 → (identify ⟨exactPinv, exactSvd, exactInv, exactSolve⟩ demoIdConf sc demoArgs125
      (st.savez (resultFile .network "ieee_33") (networkNpz (spreadData n)))).res = .error .indexError) := by
  have hload : networkLoad (st.savez (resultFile .network "ieee_33") (networkNpz (spreadData n))) "ieee_33" = .ok (spreadData n) :=
    C49_network "ieee_33" (spreadData n) st (h := []) ⟨templates_plain "ieee_33" (by decide), by simp⟩
  have hsel : selectPhase demoArgs125 (spreadData n) = .ok (spreadData n) := by
    unfold selectPhase
    rw [if_neg]
    · rfl
    · rintro ⟨-, x, hx, hx1⟩
      exact hx1 (List.eq_of_mem_replicate hx)
  have hc : centreData false (spreadV n) (spreadC n) = (spreadV n, spreadC n) := by
    show (centreColumns _, centreColumns _) = _
    rw [(spread_centred n).1, (spread_centred n).2]
  have hn0 : (0 : ℝ) < n := by exact_mod_cast hn
  constructor
  · intro h29
    obtain ⟨r, hr, -⟩ := C119 (ext := ⟨exactPinv, exactSvd, exactInv, exactSolve⟩) (sc := sc) (cf := demoIdConf) (a := demoArgs125) (x0 := spreadV n) (z0 := spreadV n) (Y := Arr2.eye n) (ε := 2 * n) (σ := 5 * n)
      (d := spreadData n) (d' := spreadData n) exactInv_contract exactSolve_exact
      exactSolve_total exactPinv_contract exactSvd_contract (by simp [demoIdConf]) (by simp [demoIdConf])
      ⟨by decide, rfl, rfl, .inr rfl, fun _ => .inr ⟨h29, rfl, rfl⟩⟩ (by decide) hload hsel (by simp [demoArgs125]) rfl
      (by
        show Spec.Noisy (centreData false (spreadV n) (spreadC n)).1 (centreData false (spreadV n) (spreadC n)).2 _ _ _ _
        rw [hc]; exact spread_noisy n)
      (spread_excited n) (by positivity) (by linarith) (by
        rintro (h | h)
        · cases h.1
        · cases h) (fun _ => .inl ⟨rfl, by
          show Spec.Unrelated (centreData false (spreadV n) (spreadC n)).1 (centreData false (spreadV n) (spreadC n)).2
          rw [hc]; exact spread_unrelated n⟩)
    exact ⟨r, hr⟩
  · intro h29
    exact C125_few (x0 := spreadV n) (z0 := spreadV n) (Y := Arr2.eye n) (ε := 2 * n) (σ := 5 * n)
      (d := spreadData n) (d' := spreadData n) exactInv_contract exactSolve_exact
      exactSolve_total exactPinv_contract exactSvd_contract (by simp [demoIdConf])
      ⟨by decide, rfl, .inr rfl, rfl, rfl⟩ (by decide) hload hsel rfl
      (by
        show Spec.Noisy (centreColumns (spreadV n)) (centreColumns (spreadC n)) _ _ _ _
        rw [(spread_centred n).1, (spread_centred n).2]; exact spread_noisy n)
      (spread_excited n) (by positivity) (by linarith) (.inl h29)

end
end Verif
