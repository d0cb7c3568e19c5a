/-
C108: three sequences whose fits take different numbers of iterations. The merged log ends with the shortest log, before the estimate.
-/
import Verif.Props.EivRun
import Verif.Props.EivTls
import Verif.Props.EivCritical3
import Verif.Props.Standard3
import Verif.Props.PlotLog

namespace Verif
open Finset
noncomputable section

/-- voltages and currents of each sequence: without linear relations, and with zero mean -/
def shortX : Arr2 ℂ := col3 1 (-1) 0
def shortZ : Arr2 ℂ := col3 1 1 (-2)

theorem short_unrelated : Spec.Unrelated shortX shortZ := by
  intro (a : Fin 1 → ℂ) (b : Fin 1 → ℂ) h
  have h : ((col3 1 (-1) 0).toMat 3 1).mulVec a + ((col3 1 1 (-2)).toMat 3 1).mulVec b = 0 := h
  rw [col3_mulVec, col3_mulVec] at h
  have h1 := congrFun h 1
  have h2 := congrFun h 2
  simp at h1 h2
  have e : a 0 = 0 := by rw [h2] at h1; simpa using h1
  refine ⟨funext fun (k : Fin 1) => ?_, funext fun (k : Fin 1) => ?_⟩ <;> rw [Subsingleton.elim k 0]
  · exact e
  · exact h2

/-- distance of the data to voltages `a` and the currents `a y` -/
def shortDist (y : ℝ) (a : Fin 3 → ℂ) : ℝ :=
  (Complex.normSq (1 - a 0) + Complex.normSq (1 - a 0 * y)) + (Complex.normSq (-1 - a 1) + Complex.normSq (1 - a 1 * y)) +
    (Complex.normSq (0 - a 2) + Complex.normSq (-2 - a 2 * y))

/-- the nearest voltages -/
def shortHat (y : ℝ) : Fin 3 → ℂ := ![(((1 + y) / (1 + y ^ 2) : ℝ) : ℂ), (((-1 + y) / (1 + y ^ 2) : ℝ) : ℂ), ((-2 * y / (1 + y ^ 2) : ℝ) : ℂ)]

theorem short_one (y u v : ℝ) (a : ℂ) : Complex.normSq (u - a) + Complex.normSq (v - a * y) =
    (1 + y ^ 2) * Complex.normSq (a - (((u + v * y) / (1 + y ^ 2) : ℝ) : ℂ)) + (v - u * y) ^ 2 / (1 + y ^ 2) := by
  have h : (1 + y ^ 2 : ℝ) ≠ 0 := by positivity
  simp only [Complex.normSq_apply, Complex.sub_re, Complex.sub_im, Complex.mul_re, Complex.mul_im, Complex.ofReal_re, Complex.ofReal_im]
  field_simp
  ring

theorem short_dist (y : ℝ) (a : Fin 3 → ℂ) : shortDist y a = (1 + y ^ 2) * (Complex.normSq (a 0 - shortHat y 0) +
    Complex.normSq (a 1 - shortHat y 1) + Complex.normSq (a 2 - shortHat y 2)) +
      ((1 - y) ^ 2 + (1 + y) ^ 2 + 4) / (1 + y ^ 2) := by
  have h0 := short_one y 1 1 (a 0)
  have h1 := short_one y (-1) 1 (a 1)
  have h2 := short_one y 0 (-2) (a 2)
  push_cast at h0 h1 h2
  unfold shortDist
  rw [h0, h1, h2]
  simp only [shortHat, Matrix.cons_val_zero, Matrix.cons_val_one, Matrix.cons_val]
  push_cast
  ring_nf

theorem short_nearest {y : ℝ} {a : Fin 3 → ℂ} (h : shortDist y a ≤ shortDist y (shortHat y)) : a = shortHat y := by
  rw [short_dist, short_dist] at h
  simp only [sub_self, map_zero, add_zero, mul_zero, zero_add] at h
  have hp : (0 : ℝ) < 1 + y ^ 2 := by positivity
  have n0 := Complex.normSq_nonneg (a 0 - shortHat y 0)
  have n1 := Complex.normSq_nonneg (a 1 - shortHat y 1)
  have n2 := Complex.normSq_nonneg (a 2 - shortHat y 2)
  have hs : Complex.normSq (a 0 - shortHat y 0) + Complex.normSq (a 1 - shortHat y 1) + Complex.normSq (a 2 - shortHat y 2) ≤ 0 := by
    by_contra hc
    push Not at hc
    have := mul_pos hp hc
    linarith
  funext k
  fin_cases k
  · exact sub_eq_zero.1 (Complex.normSq_eq_zero.1 (show Complex.normSq (a 0 - shortHat y 0) = 0 by linarith))
  · exact sub_eq_zero.1 (Complex.normSq_eq_zero.1 (show Complex.normSq (a 1 - shortHat y 1) = 0 by linarith))
  · exact sub_eq_zero.1 (Complex.normSq_eq_zero.1 (show Complex.normSq (a 2 - shortHat y 2) = 0 by linarith))

/-- matrix and target after one iteration from the real matrix `y` -/
def shortNext (y : ℝ) : ℝ := 3 * y * (1 + y ^ 2) / (1 + 3 * y ^ 2)
def shortTarget (y : ℝ) : ℝ := 6 / (1 + 3 * y ^ 2) + 2 * (1 + 3 * y ^ 2) / (1 + y ^ 2) ^ 2

/-- misfit of the currents for the nearest voltages -/
theorem short_misfit (y p r : ℝ) : Complex.normSq (1 - shortHat y 0 * ⟨p, r⟩) + Complex.normSq (1 - shortHat y 1 * ⟨p, r⟩) +
    Complex.normSq (-2 - shortHat y 2 * ⟨p, r⟩) =
      2 * (1 + 3 * y ^ 2) / (1 + y ^ 2) ^ 2 * ((p - shortNext y) ^ 2 + r ^ 2) + 6 / (1 + 3 * y ^ 2) := by
  have h : (1 + y ^ 2 : ℝ) ≠ 0 := by positivity
  have h3 : (1 + 3 * y ^ 2 : ℝ) ≠ 0 := by positivity
  simp only [shortHat, shortNext, Matrix.cons_val_zero, Matrix.cons_val_one, Matrix.cons_val, Complex.normSq_apply, Complex.sub_re,
    Complex.sub_im, Complex.mul_re, Complex.mul_im, Complex.ofReal_re, Complex.ofReal_im, Complex.one_re, Complex.one_im, Complex.neg_re,
    Complex.neg_im, Complex.re_ofNat, Complex.im_ofNat]
  field_simp
  ring

/-- one unweighted iteration without prior on these data -/
theorem short_step {cfg : RegConfig} {yInit : Arr2 ℂ} (h : FitSetup false 1 cfg shortX shortZ yInit) (hl : cfg.lam = 0) {solve : Solver}
    (hex : Spec.Exact solve) (htot : Spec.Total solve) {inv : Arr2 ℂ → Except PyErr (Arr2 ℂ)} (hinv : Spec.InvContract inv)
    {dt : Arr2 ℂ} (hdt : dtMatrix ℂ false 1 = .ok dt) {u : List ℝ} {s : FitState} (hs : StateAt cfg.prior (nReal false 1) u s) {y : ℝ}
    (hy : s.yMat = scalarArr (y : ℂ)) : ∃ s' u', eivUnweightedStep solve inv cfg shortX shortZ dt (Spec.stackReal shortZ) s =
        .ok (s', shortTarget y) ∧ StateAt cfg.prior (nReal false 1) u' s' ∧ s'.yMat = scalarArr ((shortNext y : ℝ) : ℂ) := by
  have hsq : Spec.IsSquare 1 s.yMat := by rw [hy]; exact ⟨rfl, rfl⟩
  have hsym : Spec.IsSymm s.yMat := by rw [hy]; exact scalar_symm _
  have hget : s.yMat.get 0 0 = (y : ℂ) := by rw [hy, scalarArr_get]
  obtain ⟨s', t, hst⟩ := unwStep_data h hl.ge short_unrelated hex htot hinv hdt hs hsq
  obtain ⟨xh, zh, u', ⟨n1, n2, n3, n4⟩, hs', hY', ht⟩ := (unwStep_at h hex hinv hdt hs hsq).1 s' t hst
  have x0 := col3_get 1 (-1) 0
  have z0 := col3_get 1 1 (-2)
  have hxr : shortX.r = 3 := rfl
  have hxc : shortX.c = 1 := rfl
  have hzr : shortZ.r = 3 := rfl
  have hzc : shortZ.c = 1 := rfl
  -- the nearest voltages
  have hx : ∀ k : Fin 3, xh.get k.val 0 = shortHat y k := by
    have hdist : ∀ a b : Arr2 ℂ, a.r = shortX.r → a.c = 1 → Spec.Consistent2 a b s.yMat →
        Spec.dist2 shortX a + Spec.dist2 shortZ b = shortDist y (fun k => a.get k.val 0) := by
      intro a b ha1 ha2 hc
      obtain ⟨c1, c2, c3, c4⟩ := matmul_entry hc
      have hb : ∀ k, k < 3 → b.get k 0 = a.get k 0 * y := by
        intro k hk
        rw [c4 k 0 (by rw [ha1]; exact hk) (by rw [hsq.2]; norm_num), ha2, Finset.sum_range_one, hget]
      unfold Spec.dist2 shortDist
      rw [hxr, hxc, hzr, hzc]
      simp only [Finset.sum_range_succ, Finset.sum_range_zero, zero_add]
      rw [hb 0 (by norm_num), hb 1 (by norm_num), hb 2 (by norm_num)]
      show Complex.normSq ((col3 1 (-1) 0).get 0 0 - _) + Complex.normSq ((col3 1 (-1) 0).get 1 0 - _) +
        Complex.normSq ((col3 1 (-1) 0).get 2 0 - _) + (Complex.normSq ((col3 1 1 (-2)).get 0 0 - _) +
        Complex.normSq ((col3 1 1 (-2)).get 1 0 - _) + Complex.normSq ((col3 1 1 (-2)).get 2 0 - _)) = _
      rw [x0.1, x0.2.1, x0.2.2, z0.1, z0.2.1, z0.2.2]
      simp only [Fin.val_zero, Fin.val_one, Fin.val_two]
      ring
    have hc := hdist xh zh n1 n2 n3
    have hco : Spec.Consistent2 (col3 (shortHat y 0) (shortHat y 1) (shortHat y 2))
        (Arr2.ofFn 3 1 fun i _ => (col3 (shortHat y 0) (shortHat y 1) (shortHat y 2)).get i 0 * (y : ℂ)) s.yMat := by
      refine matmul_of_entries (by rw [hsq.1]; rfl) rfl (by rw [hsq.2]; rfl) fun i j hi hj => ?_
      have hi : i < 3 := hi
      have hj : j < 1 := by rw [hsq.2] at hj; exact hj
      obtain rfl : j = 0 := by omega
      rw [Arr2.ofFn_get _ hi hj, show (col3 (shortHat y 0) (shortHat y 1) (shortHat y 2)).c = 1 from rfl, Finset.sum_range_one, hget]
    have hm := n4 (col3 (shortHat y 0) (shortHat y 1) (shortHat y 2)) _ rfl rfl hco
    rw [hc, hdist (col3 (shortHat y 0) (shortHat y 1) (shortHat y 2)) _ rfl rfl hco] at hm
    have he : (fun k : Fin 3 => (col3 (shortHat y 0) (shortHat y 1) (shortHat y 2)).get k.val 0) = shortHat y := by
      have := col3_get (shortHat y 0) (shortHat y 1) (shortHat y 2)
      funext k
      fin_cases k
      · exact this.1
      · exact this.2.1
      · exact this.2.2
    rw [he] at hm
    exact fun k => congrFun (short_nearest hm) k
  -- the correction of the same iteration with unit weights
  obtain ⟨A, hA, -⟩ := regressionMatrix_spec false 1 hdt shortX rfl
  have hu := unit_step h hex htot hinv hdt hA hs hsq hsym
  rw [hst] at hu
  cases hw : eivWeightedStep solve cfg shortX dt A (Spec.stackReal shortX) (Spec.stackReal shortZ) (Spec.unitWeights (2 * (1 * shortX.r)))
        (Spec.unitWeights (2 * (1 * shortX.r))) s with
  | error e => rw [hw] at hu; cases hu
  | ok q =>
    rw [hw] at hu
    obtain ⟨s2, t2⟩ := q
    have hu : Except.ok s' = Except.ok s2 := hu
    cases hu
    have hW := unit_posDef (2 * (1 * shortX.r))
    obtain ⟨D, u2, d1, d2, d3, -, -, -, d7⟩ := eivStep_at h hl.ge hW.1 hW.1 hex hdt hA hs hsq hsym hw
    have hcost : ∀ (Y E : Arr2 ℂ), E.r = shortX.r → E.c = 1 →
        Spec.eivCost (Spec.unitWeights (2 * (1 * shortX.r))) (Spec.unitWeights (2 * (1 * shortX.r))) shortX shortZ Y E =
        (Complex.normSq (1 - (1 - E.get 0 0) * Y.get 0 0) + Complex.normSq (E.get 0 0)) +
        (Complex.normSq (1 - (-1 - E.get 1 0) * Y.get 0 0) + Complex.normSq (E.get 1 0)) +
        (Complex.normSq (-2 - (0 - E.get 2 0) * Y.get 0 0) + Complex.normSq (E.get 2 0)) := by
      intro Y E e1 e2
      rw [eivCost_unit (x := shortX) (z := shortZ) (Y := Y) (D := E) (n := 1) ⟨rfl, rfl⟩ ⟨e1, e2⟩, hxr, hxc]
      simp only [Finset.sum_range_succ, Finset.sum_range_zero, zero_add]
      show Complex.normSq ((col3 1 1 (-2)).get 0 0 - ((col3 1 (-1) 0).get 0 0 - _) * _) + _ +
        (Complex.normSq ((col3 1 1 (-2)).get 1 0 - ((col3 1 (-1) 0).get 1 0 - _) * _) + _) +
        (Complex.normSq ((col3 1 1 (-2)).get 2 0 - ((col3 1 (-1) 0).get 2 0 - _) * _) + _) = _
      rw [x0.1, x0.2.1, x0.2.2, z0.1, z0.2.1, z0.2.2]
    have hD : ∀ k : Fin 3, (![1, -1, 0] : Fin 3 → ℂ) k - D.get k.val 0 = shortHat y k := by
      have hm := d3 (col3 (1 - shortHat y 0) (-1 - shortHat y 1) (0 - shortHat y 2)) rfl rfl
      have hg := col3_get (1 - shortHat y 0) (-1 - shortHat y 1) (0 - shortHat y 2)
      rw [hcost _ _ d1 d2, hcost _ (col3 (1 - shortHat y 0) (-1 - shortHat y 1) (0 - shortHat y 2)) rfl rfl, hget, hg.1, hg.2.1, hg.2.2] at hm
      have := short_nearest (y := y) (a := fun k => (![1, -1, 0] : Fin 3 → ℂ) k - D.get k.val 0) (by
        unfold shortDist
        simp only [Matrix.cons_val_zero, Matrix.cons_val_one, Matrix.cons_val, Fin.val_zero, Fin.val_one, Fin.val_two]
        simp only [sub_sub_cancel] at hm ⊢
        linarith)
      exact fun k => congrFun this k
    have hD0 := hD 0
    have hD1 := hD 1
    have hD2 := hD 2
    simp only [Matrix.cons_val_zero, Matrix.cons_val_one, Matrix.cons_val, Fin.val_zero, Fin.val_one, Fin.val_two] at hD0 hD1 hD2
    have hul := hs'.1
    match u', hul with
    | [p, r], _ =>
      have hYe := demo_toMatrix hdt p r hY'
      obtain ⟨V, _, _, _, _, _, hV⟩ := toMatrix_ok false 1 hdt (y := [shortNext y, 0]) rfl
      have hVe := demo_toMatrix hdt _ _ hV
      have hm := d7 [shortNext y, 0] V rfl hV
      rw [hl, zero_mul, zero_mul, add_zero, add_zero, hcost _ _ d1 d2, hcost _ _ d1 d2, hD0, hD1, hD2, hYe, hVe, scalarArr_get,
        scalarArr_get] at hm
      have m1 := short_misfit y p r
      have m2 := short_misfit y (shortNext y) 0
      simp only [sub_self, ne_eq, OfNat.ofNat_ne_zero, not_false_eq_true, zero_pow, add_zero, mul_zero, zero_add] at m2
      have hc : 0 < 2 * (1 + 3 * y ^ 2) / (1 + y ^ 2) ^ 2 := by positivity
      have hz : (p - shortNext y) ^ 2 + r ^ 2 ≤ 0 := by
        by_contra hn
        push Not at hn
        have := mul_pos hc hn
        linarith
      have hp : p = shortNext y := by nlinarith [sq_nonneg (p - shortNext y), sq_nonneg r]
      have hr : r = 0 := by nlinarith [sq_nonneg (p - shortNext y), sq_nonneg r]
      subst hp hr
      have hfin : s'.yMat = scalarArr ((shortNext y : ℝ) : ℂ) := hYe
      refine ⟨s', _, ?_, hs', hfin⟩
      rw [hst]
      congr 2
      rw [ht, hl, zero_mul, Complex.ofReal_zero, add_zero, hYe]
      have e1 : Spec.misfit xh shortZ (scalarArr ⟨shortNext y, 0⟩) = 6 / (1 + 3 * y ^ 2) := by
        rw [← m2]
        unfold Spec.misfit
        rw [hzr, hzc, n2]
        simp only [Finset.sum_range_succ, Finset.sum_range_zero, zero_add, scalarArr_get]
        have h0 := hx 0
        have h1 := hx 1
        have h2 := hx 2
        simp only [Fin.val_zero, Fin.val_one, Fin.val_two] at h0 h1 h2
        rw [h0, h1, h2]
        show Complex.normSq ((col3 1 1 (-2)).get 0 0 - _) + Complex.normSq ((col3 1 1 (-2)).get 1 0 - _) +
          Complex.normSq ((col3 1 1 (-2)).get 2 0 - _) = _
        rw [z0.1, z0.2.1, z0.2.2]
      have e2 : Spec.sumSq xh = ((2 * (1 + 3 * y ^ 2) / (1 + y ^ 2) ^ 2 : ℝ) : ℂ) := by
        unfold Spec.sumSq
        rw [n1, n2, hxr]
        simp only [Finset.sum_range_succ, Finset.sum_range_zero, zero_add]
        have h0 := hx 0
        have h1 := hx 1
        have h2 := hx 2
        simp only [Fin.val_zero, Fin.val_one, Fin.val_two] at h0 h1 h2
        rw [h0, h1, h2]
        simp only [shortHat, Matrix.cons_val_zero, Matrix.cons_val_one, Matrix.cons_val]
        rw [← Complex.ofReal_mul, ← Complex.ofReal_mul, ← Complex.ofReal_mul, ← Complex.ofReal_add, ← Complex.ofReal_add]
        congr 1
        have h : (1 + y ^ 2 : ℝ) ≠ 0 := by positivity
        field_simp
        ring
      rw [e1, e2, ← Complex.ofReal_add, Complex.norm_real, Real.norm_of_nonneg (by positivity)]
      rfl

theorem shortNext_ne {y : ℝ} (hy : y ≠ 0) : shortNext y ≠ y := by
  intro h
  have h3 : (1 + 3 * y ^ 2 : ℝ) ≠ 0 := by positivity
  rw [shortNext, div_eq_iff h3] at h
  have : 2 * y = 0 := by linear_combination h
  exact hy (by linarith)

/-- the settings: no weight on the prior, tolerance one tenth -/
def shortConf : IdConf := ⟨0, 0, 1, 1 / 10, 1 / 10, true, true, false⟩

theorem short_setup (y : ℂ) (k : Nat) : ∃ p, eivPrior shortConf 1 (scalarArr y) none false = .ok p ∧
    FitSetup false 1 (regConfig shortConf p 0 false k) shortX shortZ (scalarArr y) := by
  obtain ⟨p, hp, ha, hu, -⟩ := eiv_prior shortConf 1 (scalarArr y) ⟨rfl, rfl⟩ none false (fun _ h => nomatch h) (by simp)
  exact ⟨p, hp, rfl, rfl, rfl, ⟨rfl, rfl⟩, ⟨rfl, rfl⟩, hu, ha⟩

/-- the run from zero stops after two iterations -/
theorem short_fit_zero {solve : Solver} (hex : Spec.Exact solve) (htot : Spec.Total solve) {inv : Arr2 ℂ → Except PyErr (Arr2 ℂ)}
    (hinv : Spec.InvContract inv) {p : Prior} (h : FitSetup false 1 (regConfig shortConf p 0 false 3) shortX shortZ (scalarArr 0)) :
    ∃ obj, eivFit solve inv (regConfig shortConf p 0 false 3) RegObj.fresh shortX shortZ none none (scalarArr 0) = (.ok (), obj) ∧
      obj.admittance = some (scalarArr 0) ∧ obj.iterations.map (fun e => e.params) = [scalarArr 0, scalarArr 0] := by
  obtain ⟨dt, A, y0, s, hdt, hA, hst, hsy, -, -, hf⟩ := eivSetup_ok h solve inv
  have hn : shortNext 0 = 0 := by norm_num [shortNext]
  obtain ⟨s1, u1, e1, g1, m1⟩ := short_step h rfl hex htot hinv hdt hst (y := 0) (by rw [hsy]; simp)
  rw [hn] at m1
  obtain ⟨s2, u2, e2, g2, m2⟩ := short_step h rfl hex htot hinv hdt g1 m1
  rw [hn] at m2
  have hb : eivFit solve inv (regConfig shortConf p 0 false 3) RegObj.fresh shortX shortZ none none (scalarArr 0) =
      (.ok (), ⟨[⟨0, s1.yMat, shortTarget 0⟩, ⟨1, s2.yMat, shortTarget 0⟩], some s2.yMat⟩) := by
    show eivBody solve inv _ RegObj.fresh shortX shortZ none none (scalarArr 0) = _
    rw [hf _ _ _ (.inl rfl)]
    show finishFit _ (fitLoop _ _ 3 0 s []) = _
    have hs : isStationary (regConfig shortConf p 0 false 3) (shortTarget 0) (shortTarget 0) := by
      refine ⟨.inl ?_, le_rfl⟩
      rw [sub_self, abs_zero]
      show (0 : ℝ) < 1 / 10
      norm_num
    simp [fitLoop, e1, e2, hs, finishFit]
  refine ⟨_, hb, ?_, ?_⟩
  · rw [m2]; simp
  · simp [m1, m2]

/-- the run from one makes three iterations, and the third matrix differs from the second -/
theorem short_fit_one {solve : Solver} (hex : Spec.Exact solve) (htot : Spec.Total solve) {inv : Arr2 ℂ → Except PyErr (Arr2 ℂ)}
    (hinv : Spec.InvContract inv) {p : Prior} (h : FitSetup false 1 (regConfig shortConf p 0 false 3) shortX shortZ (scalarArr 1)) :
    ∃ obj, eivFit solve inv (regConfig shortConf p 0 false 3) RegObj.fresh shortX shortZ none none (scalarArr 1) = (.ok (), obj) ∧
      obj.admittance = some (scalarArr ((shortNext (117 / 62) : ℝ) : ℂ)) ∧ obj.iterations.map (fun e => e.params) =
        [scalarArr ((3 / 2 : ℝ) : ℂ), scalarArr ((117 / 62 : ℝ) : ℂ), scalarArr ((shortNext (117 / 62) : ℝ) : ℂ)] := by
  obtain ⟨dt, A, y0, s, hdt, hA, hst, hsy, -, -, hf⟩ := eivSetup_ok h solve inv
  have hn1 : shortNext 1 = 3 / 2 := by norm_num [shortNext]
  have hn2 : shortNext (3 / 2) = 117 / 62 := by norm_num [shortNext]
  obtain ⟨s1, u1, e1, g1, m1⟩ := short_step h rfl hex htot hinv hdt hst (y := 1) (by rw [hsy]; simp)
  rw [hn1] at m1
  obtain ⟨s2, u2, e2, g2, m2⟩ := short_step h rfl hex htot hinv hdt g1 m1
  rw [hn2] at m2
  obtain ⟨s3, u3, e3, g3, m3⟩ := short_step h rfl hex htot hinv hdt g2 m2
  have hb : eivFit solve inv (regConfig shortConf p 0 false 3) RegObj.fresh shortX shortZ none none (scalarArr 1) =
      (.ok (), ⟨[⟨0, s1.yMat, shortTarget 1⟩, ⟨1, s2.yMat, shortTarget (3 / 2)⟩, ⟨2, s3.yMat, shortTarget (117 / 62)⟩], some s3.yMat⟩) := by
    show eivBody solve inv _ RegObj.fresh shortX shortZ none none (scalarArr 1) = _
    rw [hf _ _ _ (.inl rfl)]
    show finishFit _ (fitLoop _ _ 3 0 s []) = _
    have hs : ¬ isStationary (regConfig shortConf p 0 false 3) (shortTarget (3 / 2)) (shortTarget 1) := by
      rintro ⟨h | ⟨-, h⟩, -⟩
      · have h : |shortTarget (3 / 2) - shortTarget 1| < 1 / 10 := h
        norm_num [shortTarget] at h
      · have h : |shortTarget (3 / 2) - shortTarget 1| / |shortTarget 1| < 1 / 10 := h
        norm_num [shortTarget] at h
    by_cases h3 : isStationary (regConfig shortConf p 0 false 3) (shortTarget (117 / 62)) (shortTarget (3 / 2)) <;>
      simp [fitLoop, e1, e2, e3, hs, h3, finishFit]
  refine ⟨_, hb, ?_, ?_⟩
  · rw [m3]
  · simp only [List.map_cons, List.map_nil, m1, m2, m3]

/-- the same data on each of three sequences, and an initial guess that differs between them -/
def shortV : Arr2 ℂ := Arr2.ofFn 3 3 fun t _ => shortX.get t 0
def shortI : Arr2 ℂ := Arr2.ofFn 3 3 fun t _ => shortZ.get t 0
def shortY0 : Arr2 ℂ := Arr2.ofFn 3 3 fun i j => if i = 1 ∧ j = 1 then 1 else 0

theorem short_columns (l : Fin 3) : Spec.columnsAt shortV 1 (fun _ => l.val) = shortX ∧ Spec.columnsAt shortI 1 (fun _ => l.val) = shortZ ∧
    Spec.blockAt shortY0 1 (fun _ => l.val) = scalarArr (if l = 1 then 1 else 0) := by
  refine ⟨Arr2.ext' rfl rfl fun i j (hi : i < 3) (hj : j < 1) => ?_, Arr2.ext' rfl rfl fun i j (hi : i < 3) (hj : j < 1) => ?_,
    Arr2.ext' rfl rfl fun i j (hi : i < 1) (hj : j < 1) => ?_⟩
  · refine (Arr2.ofFn_get (r := 3) (c := 1) _ hi hj).trans ?_
    unfold shortV
    rw [Arr2.ofFn_get _ hi l.isLt, show j = 0 by omega]
  · refine (Arr2.ofFn_get (r := 3) (c := 1) _ hi hj).trans ?_
    unfold shortI
    rw [Arr2.ofFn_get _ hi l.isLt, show j = 0 by omega]
  · unfold Spec.blockAt shortY0 scalarArr
    rw [Arr2.ofFn_get _ hi hj, Arr2.ofFn_get _ l.isLt l.isLt, Arr2.ofFn_get _ hi hj]
    fin_cases l <;> simp

theorem short_centred : centreData false shortX shortZ = (shortX, shortZ) := by
  show (centreColumns _, centreColumns _) = _
  rw [shortX, shortZ, col3_centred (by norm_num), col3_centred (by norm_num)]

theorem short_label {ext : NumExt} (hex : Spec.Exact ext.solve) (htot : Spec.Total ext.solve) (hinv : Spec.InvContract ext.inv)
    (name : String) (vsd isd : SdPolar) (pmu : Bool) (st : Store) (l : Fin 3) : ∃ r,
      labelRun ext shortConf name shortV shortI vsd isd [1, 1, 1] shortY0 none false false 3 pmu 1 (fun _ => l.val) st = .ok r ∧
      (l ≠ 1 → r.2.length = 2) ∧ (l = 1 → r.1 = scalarArr ((shortNext (117 / 62) : ℝ) : ℂ) ∧ r.2.map (fun e => e.params) =
        [scalarArr ((3 / 2 : ℝ) : ℂ), scalarArr ((117 / 62 : ℝ) : ℂ), scalarArr ((shortNext (117 / 62) : ℝ) : ℂ)]) := by
  obtain ⟨c1, c2, c3⟩ := short_columns l
  obtain ⟨p, hp, hs⟩ := short_setup (if l = 1 then 1 else 0) 3
  have key : ∀ obj Y, eivFit ext.solve ext.inv (regConfig shortConf p 0 false 3) RegObj.fresh shortX shortZ none none
        (scalarArr (if l = 1 then 1 else 0)) = (.ok (), obj) → obj.admittance = some Y →
      labelRun ext shortConf name shortV shortI vsd isd [1, 1, 1] shortY0 none false false 3 pmu 1 (fun _ => l.val) st =
        .ok (Y, obj.iterations) := by
    intro obj Y ho hY
    unfold labelRun
    rw [bayesianEiv_fst (by norm_num), c1, c2, c3]
    have hp : eivPrior shortConf shortX.c (scalarArr (if l = 1 then 1 else 0)) none false = .ok p := hp
    rw [Option.map_none, hp]
    have ho : eivFit ext.solve ext.inv (regConfig shortConf p shortConf.lambdaEiv false 3) RegObj.fresh shortX shortZ none none
        (scalarArr (if l = 1 then 1 else 0)) = (.ok (), obj) := ho
    simp only [eivCompute, eivWeights, Bool.false_and, Bool.false_eq_true, if_false, pure, Except.pure, Bind.bind, Except.bind,
      short_centred, ho, fitted, hY]
  by_cases hl : l = 1
  · rw [if_pos hl] at hs
    obtain ⟨obj, h1, h2, h3⟩ := short_fit_one hex htot hinv hs
    exact ⟨_, key obj _ (by rw [if_pos hl]; exact h1) h2, fun h => absurd hl h, fun _ => ⟨rfl, h3⟩⟩
  · rw [if_neg hl] at hs
    obtain ⟨obj, h1, h2, h3⟩ := short_fit_zero hex htot hinv hs
    refine ⟨_, key obj _ (by rw [if_neg hl]; exact h1) h2, fun _ => ?_, fun h => absurd h hl⟩
    have := congrArg List.length h3
    simpa using this

/-- C108 is violated with three phases: a run whose log ends before the estimate. Measured against the estimate itself, whose error is
zero, the last logged iterate has an error. -/
theorem C108_violated {ext : NumExt} (hex : Spec.Exact ext.solve) (htot : Spec.Total ext.solve) (hinv : Spec.InvContract ext.inv)
    (name : String) (vsd isd : SdPolar) (pmu : Bool) (st : Store) : ∃ r e,
      (bayesianEiv3 ext shortConf name shortV shortI [0, 1, 2] vsd isd [1, 1, 1] shortY0 none false false 3 pmu st).res = .ok r ∧
      r.2.getLast? = some e ∧ Spec.froDist r.1 r.1 = 0 ∧ 0 < Spec.froDist r.1 e.params := by
  choose rs hrs hshort hlong using short_label hex htot hinv name vsd isd pmu st
  have hd : Spec.PhaseData [0, 1, 2] shortV shortI [1, 1, 1] shortY0 none := ⟨rfl, rfl, rfl, ⟨rfl, rfl⟩, fun _ h => nomatch h⟩
  have hp : ∀ l : Fin 3, Spec.LabelPos [0, 1, 2] (l.val : Int) ((fun _ => 1 : Fin 3 → Nat) l) ((fun l _ => l.val : Fin 3 → Nat → Nat) l) :=
    demo143_labels
  have hrs' : ∀ l st', labelRun ext shortConf name shortV shortI vsd isd [1, 1, 1] shortY0 none false false 3 pmu 1 (fun _ => l.val) st' =
      .ok (rs l) := fun l st' => by
    rw [labelRun_const (by norm_num) _ _ st' st]
    exact hrs l
  have hq := fun l => labelRun_square (by norm_num) (hrs l)
  obtain ⟨-, -, a, -, -, -, -, -, hA⟩ := assemble hp (fun l => (hq l).1) rfl
  obtain ⟨log, -, hM⟩ := mergedLog_ok hp (logs := fun l => (rs l).2) fun l e he => ((hq l).2.2 e he).1
  have hr := (C52_bayesian (by norm_num) (by simp) hd hp st (a, log)).1.2 ⟨rs, hrs', hA, hM⟩
  have hlen : log.length = 2 := by
    have h0 := hM.shortest.1 0
    rw [hshort 0 (by decide)] at h0
    obtain ⟨l, hl⟩ := hM.shortest.2
    by_cases h1 : l = 1
    · have := congrArg List.length (hlong l h1).2
      simp at this
      omega
    · rw [hl, hshort l h1]
  have hlt : 1 < log.length := by omega
  have hg : log.getLast? = some log[1] := by
    rw [List.getLast?_eq_getElem?, hlen, List.getElem?_eq_getElem hlt]
  obtain ⟨es, h1, -, -, hB⟩ := hM.entry 1 _ (List.getElem?_eq_getElem hlt)
  obtain ⟨b1, b2⟩ := hlong 1 rfl
  have he : (es 1).params = scalarArr ((117 / 62 : ℝ) : ℂ) := by
    have := congrArg (fun l : List (Arr2 ℂ) => l[1]?) b2
    simp only [List.getElem?_map] at this
    have h11 : (rs 1).2[1]? = some (es 1) := h1 1
    rw [h11] at this
    simpa using this
  have ga : a.get 1 1 = ((shortNext (117 / 62) : ℝ) : ℂ) := by
    have := hA.block 1 0 0 (by norm_num) (by norm_num)
    rw [b1, scalarArr_get] at this
    exact this
  have ge : log[1].params.get 1 1 = ((117 / 62 : ℝ) : ℂ) := by
    have := hB.block 1 0 0 (by norm_num) (by norm_num)
    rw [he, scalarArr_get] at this
    exact this
  refine ⟨(a, log), log[1], hr, hg, by simp [Spec.froDist], ?_⟩
  have har : a.r = 3 ∧ a.c = 3 := hA.square
  unfold Spec.froDist
  refine Real.sqrt_pos.2 ?_
  have hpos : (0 : ℝ) < ‖a.get 1 1 - log[1].params.get 1 1‖ ^ 2 := by
    rw [ga, ge]
    have hne : ((shortNext (117 / 62) : ℝ) : ℂ) - ((117 / 62 : ℝ) : ℂ) ≠ 0 :=
      sub_ne_zero.2 fun h => shortNext_ne (by norm_num) (Complex.ofReal_injective h)
    exact pow_pos (norm_pos_iff.2 hne) 2
  have hrow : (0 : ℝ) < ∑ j ∈ range a.c, ‖a.get 1 j - log[1].params.get 1 j‖ ^ 2 :=
    lt_of_lt_of_le hpos (Finset.single_le_sum (f := fun j => ‖a.get 1 j - log[1].params.get 1 j‖ ^ 2) (fun j _ => by positivity)
      (Finset.mem_range.2 (by rw [har.2]; norm_num)))
  exact lt_of_lt_of_le hrow (Finset.single_le_sum (a := 1) (f := fun i => ∑ j ∈ range a.c, ‖a.get i j - log[1].params.get i j‖ ^ 2)
    (fun i _ => Finset.sum_nonneg fun j _ => by positivity) (Finset.mem_range.2 (by rw [har.1]; norm_num)))

/-- the hypotheses of `C108_violated` hold for the exact routines -/
example (st : Store) : ∃ r e, (bayesianEiv3 ⟨exactPinv, exactSvd, exactInv, exactSolve⟩ shortConf "a" shortV shortI [0, 1, 2] ⟨1, 1⟩ ⟨1, 1⟩
    [1, 1, 1] shortY0 none false false 3 true st).res = .ok r ∧ r.2.getLast? = some e ∧ e.params ≠ r.1 := by
  obtain ⟨r, e, h1, h2, h3, h4⟩ := C108_violated (ext := ⟨exactPinv, exactSvd, exactInv, exactSolve⟩) exactSolve_exact exactSolve_total
    exactInv_contract "a" ⟨1, 1⟩ ⟨1, 1⟩ true st
  exact ⟨r, e, h1, h2, fun h => by rw [h, h3] at h4; exact lt_irrefl _ h4⟩

end
end Verif
