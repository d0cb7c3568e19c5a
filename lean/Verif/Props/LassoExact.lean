/-
C141: the estimate with the absolute-value prior on noise-free data.
-/
import Verif.Props.Stop
import Verif.Props.PipelineDemo

namespace Verif
open Finset Matrix Filter Topology
noncomputable section

/-! ### the estimate left by a fit -/

/-- the estimate of a fit with at least one iteration: admissible, and not worse than the symmetrised initial guess; better,
unless that guess is the minimiser -/
theorem fit_below {lap : Bool} {n : Nat} {cfg : RegConfig} {x z yInit : Arr2 ℂ} (h : FitSetup lap n cfg x z yInit)
    (hl : 0 ≤ cfg.lam) (ho : ∀ t ∈ Spec.terms cfg.prior, t.order = 1 ∨ t.order = 2)
    (hid : Spec.Identifiable lap n cfg.prior cfg.lam x) {solve : Solver} (hex : Spec.Exact solve) (hK : 0 < cfg.maxIter)
    {obj : RegObj} (hfit : bayesianFit solve cfg RegObj.fresh x z yInit = (.ok (), obj)) {L : Arr2 ℂ}
    (hL : obj.admittance = some L) :
    Spec.IsSquare n L ∧ Spec.Admissible lap L ∧
      Spec.objective lap n cfg.prior cfg.lam x z L ≤ Spec.objective lap n cfg.prior cfg.lam x z (Spec.projection lap n yInit) ∧
      (¬ Spec.IsMap lap n cfg.prior cfg.lam x z (Spec.projection lap n yInit) →
        Spec.objective lap n cfg.prior cfg.lam x z L < Spec.objective lap n cfg.prior cfg.lam x z (Spec.projection lap n yInit)) := by
  obtain ⟨dt, A, y0, s, hdt, hA, hAs, hst, hsy, hY0, hf⟩ := setup_ok h solve
  rw [hf] at hfit
  generalize hr : fitLoop cfg (regStep solve cfg n dt A (makeRealVector (vectorizeMatrix z))) cfg.maxIter 0 s
    RegObj.fresh.iterations = r at hfit
  obtain ⟨rs, log'⟩ := r
  obtain ⟨run, h1, h2, h3, h4, h5⟩ := fitLoop_spec cfg _ cfg.maxIter 0 s [] log' rs rfl hr
  cases rs with
  | error e => cases congrArg Prod.fst hfit
  | ok s' =>
    have hobj : obj.admittance = some s'.yMat := (congrArg (fun q => q.2.admittance) hfit).symm
    rw [hL] at hobj
    obtain rfl : L = s'.yMat := Option.some.inj hobj
    obtain ⟨hs', hshort⟩ := h5
    have hne : run ≠ [] := by
      intro he
      have := hshort (by rw [he]; exact hK)
      exact this.1 he
    -- along the run
    have key : ∀ (l : List (FitState × ℝ)) (s : FitState) (y : List ℝ) (Y : Arr2 ℂ), toMatrix n dt y = .ok Y →
        StateAt cfg.prior (nReal lap n) y s →
        Spec.IsRun (regStep solve cfg n dt A (makeRealVector (vectorizeMatrix z))) s l → l ≠ [] →
        ∃ y', toMatrix n dt y' = .ok (Spec.lastState s l).yMat ∧
          Spec.objective lap n cfg.prior cfg.lam x z (Spec.lastState s l).yMat ≤ Spec.objective lap n cfg.prior cfg.lam x z Y ∧
          (¬ Spec.IsMap lap n cfg.prior cfg.lam x z Y → Spec.objective lap n cfg.prior cfg.lam x z (Spec.lastState s l).yMat <
            Spec.objective lap n cfg.prior cfg.lam x z Y) := by
      intro l
      induction l with
      | nil => intro _ _ _ _ _ _ hn; exact absurd rfl hn
      | cons q l ih =>
        intro s y Y hY hs hrun _
        obtain ⟨g1, g2⟩ := hrun
        obtain ⟨y', hs', hy', hset⟩ := settles_step h hl ho hid hex hdt hA hAs hY hs (s' := q.1) (t := q.2) g1
        have hle : Spec.objective lap n cfg.prior cfg.lam x z q.1.yMat ≤ Spec.objective lap n cfg.prior cfg.lam x z Y := by
          by_cases hm : Spec.IsMap lap n cfg.prior cfg.lam x z Y
          · rw [hset.1.2 hm]
          · exact (hset.2 hm).le
        by_cases hl0 : l = []
        · subst hl0
          exact ⟨y', hy', hle, hset.2⟩
        · obtain ⟨y2, e1, e2, _⟩ := ih q.1 y' q.1.yMat hy' hs' g2 hl0
          exact ⟨y2, e1, e2.trans hle, fun hm => lt_of_le_of_lt e2 (hset.2 hm)⟩
    obtain ⟨y', k1, k2, k3⟩ := key run s y0 _ hY0 hst h1 hne
    rw [← hs'] at k1 k2 k3
    obtain ⟨a1, a2⟩ := toMatrix_admissible lap n hdt k1
    exact ⟨a1, a2, k2, k3⟩

/-! ### penalties -/

theorem smooth_le {α order : ℝ} (hα : 0 < α) (ho : order = 1) (r : ℝ) : Spec.smooth α order r ≤ 2 * |r| := by
  unfold Spec.smooth
  rw [if_neg (by rw [ho]; norm_num)]
  have : 0 ≤ Real.log (1 + |r| / α) := Real.log_nonneg (by have : 0 ≤ |r| / α := by positivity
                                                           linarith)
  nlinarith [mul_nonneg hα.le this]

/-- data that a matrix fits exactly -/
theorem misfit_zero {x z Y : Arr2 ℂ} (h : x.matmul Y = .ok z) : Spec.misfit x z Y = 0 := by
  obtain ⟨h1, h2, h3, h4⟩ := matmul_entry h
  unfold Spec.misfit
  refine Finset.sum_eq_zero fun j hj => Finset.sum_eq_zero fun i hi => ?_
  rw [h4 i j (by rw [← h2]; exact mem_range.1 hi) (by rw [← h3]; exact mem_range.1 hj), sub_self, map_zero]

/-- the misfit of another matrix on data that `Y` fits exactly -/
theorem misfit_exact {n : Nat} {x z Y V : Arr2 ℂ} (h : x.matmul Y = .ok z) (hY : Spec.IsSquare n Y) :
    Spec.misfit x z V = ∑ j ∈ range n, ∑ i ∈ range x.r,
      Complex.normSq (∑ k ∈ range n, x.get i k * (Y.get k j - V.get k j)) := by
  obtain ⟨h1, h2, h3, h4⟩ := matmul_entry h
  unfold Spec.misfit
  rw [h3, h2, hY.2, h1, hY.1]
  refine Finset.sum_congr rfl fun j hj => Finset.sum_congr rfl fun i hi => ?_
  rw [h4 i j (mem_range.1 hi) (by rw [hY.2]; exact mem_range.1 hj), h1, hY.1, ← Finset.sum_sub_distrib]
  congr 1
  exact Finset.sum_congr rfl fun k _ => by ring

/-- the penalty of the prior built by the program, for the parameters `θ` of the estimate it was built from -/
theorem lasso_penalty {p : Prior} {θ : List ℝ} (ho : ∀ t ∈ Spec.terms p, t.order = 1)
    (hres : ∀ y, (Spec.terms p).map (fun t => t.resid p.n y) = (List.range θ.length).map (fun k => |θ.getD k 0| * y.getD k 0))
    (y : List ℝ) :
    ((Spec.terms p).map (fun t => Spec.smooth p.alpha t.order (t.resid p.n y))).sum =
      ∑ k ∈ range θ.length, Spec.smooth p.alpha 1 (|θ.getD k 0| * y.getD k 0) := by
  have e : (Spec.terms p).map (fun t => Spec.smooth p.alpha t.order (t.resid p.n y)) =
      ((Spec.terms p).map (fun t => t.resid p.n y)).map (Spec.smooth p.alpha 1) := by
    rw [List.map_map]
    refine List.map_congr_left fun t ht => ?_
    simp only [Function.comp_apply, ho t ht]
  rw [e, hres, List.map_map]
  rfl

/-- a matrix all of whose parameters are zero is zero -/
theorem params_allZero {lap : Bool} {n : Nat} {Y : Arr2 ℂ} (hY : Spec.IsSquare n Y) (hadm : Spec.Admissible lap Y)
    (h0 : ∀ k, (Spec.params lap n Y).getD k 0 = 0) {i j : Nat} (hi : i < n) (hj : j < n) : Y.get i j = 0 := by
  obtain ⟨dt, hdt, _⟩ := dt_closed (α := ℂ) lap n
  obtain ⟨e, he, _⟩ := e_closed (α := ℂ) lap n
  obtain ⟨v, _, hvl, hvm⟩ := toParams_ok lap n hdt he hY
  rw [params_of_toMatrix lap n hdt hvl (hvm hadm)] at h0
  rw [toMatrix_entry lap n hdt hvl (hvm hadm) hi hj]
  refine Finset.sum_eq_zero fun k _ => ?_
  rw [h0, h0]
  simp

/-- a scaled admissible matrix -/
theorem scaled_matrix {lap : Bool} {n : Nat} {Y : Arr2 ℂ} (hY : Spec.IsSquare n Y) (hadm : Spec.Admissible lap Y) (c : ℝ) :
    ∃ V, Spec.IsSquare n V ∧ Spec.Admissible lap V ∧ (∀ k, (Spec.params lap n V).getD k 0 = c * (Spec.params lap n Y).getD k 0) ∧
      ∀ i j, i < n → j < n → V.get i j = (c : ℂ) * Y.get i j := by
  obtain ⟨dt, hdt, _⟩ := dt_closed (α := ℂ) lap n
  obtain ⟨e, he, _⟩ := e_closed (α := ℂ) lap n
  obtain ⟨v, _, hvl, hvm⟩ := toParams_ok lap n hdt he hY
  have hvl' : (v.map (fun t => c * t)).length = nReal lap n := by rw [List.length_map, hvl]
  have hget : ∀ k, (v.map (fun t => c * t)).getD k 0 = c * v.getD k 0 := by
    intro k
    simp only [List.getD_eq_getElem?_getD, List.getElem?_map]
    cases v[k]? <;> simp
  obtain ⟨V, _, _, _, _, _, hV⟩ := toMatrix_ok lap n hdt hvl'
  obtain ⟨a1, a2⟩ := toMatrix_admissible lap n hdt hV
  refine ⟨V, a1, a2, ?_, ?_⟩
  · intro k
    rw [params_of_toMatrix lap n hdt hvl' hV, params_of_toMatrix lap n hdt hvl (hvm hadm), hget]
  · intro i j hi hj
    rw [toMatrix_entry lap n hdt hvl' hV hi hj, toMatrix_entry lap n hdt hvl (hvm hadm) hi hj, Finset.mul_sum]
    refine Finset.sum_congr rfl fun k _ => ?_
    rw [hget, hget]
    push_cast
    ring

/-- the matrix that fits the data exactly does not minimise the objective, unless it is zero -/
theorem exact_not_map {lap : Bool} {n : Nat} {p : Prior} {lam : ℝ} {x z Y : Arr2 ℂ} (hlam : 0 < lam) (hα : 0 < p.alpha)
    (hY : Spec.IsSquare n Y) (hadm : Spec.Admissible lap Y) (hdata : x.matmul Y = .ok z)
    (ho : ∀ t ∈ Spec.terms p, t.order = 1)
    (hres : ∀ y, (Spec.terms p).map (fun t => t.resid p.n y) = (List.range (Spec.params lap n Y).length).map
      (fun k => |(Spec.params lap n Y).getD k 0| * y.getD k 0))
    (hne : ∃ i j, i < n ∧ j < n ∧ Y.get i j ≠ 0) : ¬ Spec.IsMap lap n p lam x z Y := by
  rintro ⟨_, _, hmin⟩
  set θ := Spec.params lap n Y with hθ
  obtain ⟨k0, hk0⟩ : ∃ k, θ.getD k 0 ≠ 0 := by
    by_contra hc
    push Not at hc
    obtain ⟨i, j, hi, hj, h0⟩ := hne
    exact h0 (params_allZero hY hadm hc hi hj)
  have hk0l : k0 < θ.length := by
    by_contra hc
    rw [List.getD_eq_getElem?_getD, List.getElem?_eq_none (by omega)] at hk0
    exact hk0 rfl
  set r : ℕ → ℝ := fun k => |θ.getD k 0| * θ.getD k 0 with hr
  set w : ℕ → ℝ := fun k => |r k| ^ ((2 : ℝ) - 1) + p.alpha with hw
  have hwp : ∀ k, 0 < w k := fun k => by rw [hw]; positivity
  set Q := ∑ k ∈ range θ.length, r k ^ 2 / w k with hQ
  have hQ0 : 0 < Q := by
    refine Finset.sum_pos' (fun k _ => div_nonneg (sq_nonneg _) (hwp k).le) ⟨k0, mem_range.2 hk0l, ?_⟩
    exact div_pos (by have := mul_ne_zero (abs_ne_zero.2 hk0) hk0; positivity) (hwp k0)
  set m := Spec.misfit x z (Arr2.ofFn n n fun _ _ => 0) with hm
  have hm0 : 0 ≤ m := Finset.sum_nonneg fun _ _ => Finset.sum_nonneg fun _ _ => Complex.normSq_nonneg _
  have key : ∀ t : ℝ, 0 ≤ t → lam * (t * (2 - t) * Q) ≤ t ^ 2 * m := by
    intro t ht
    obtain ⟨V, v1, v2, v3, v4⟩ := scaled_matrix hY hadm (1 - t)
    have h1 := hmin V v1 v2
    unfold Spec.objective at h1
    rw [lasso_penalty ho hres, lasso_penalty ho hres, misfit_zero hdata, misfit_exact hdata hY] at h1
    have e1 : ∑ j ∈ range n, ∑ i ∈ range x.r, Complex.normSq (∑ k ∈ range n, x.get i k * (Y.get k j - V.get k j)) = t ^ 2 * m := by
      rw [hm, misfit_exact hdata hY, Finset.mul_sum]
      refine Finset.sum_congr rfl fun j hj => ?_
      rw [Finset.mul_sum]
      refine Finset.sum_congr rfl fun i _ => ?_
      have : ∑ k ∈ range n, x.get i k * (Y.get k j - V.get k j) =
          (t : ℂ) * ∑ k ∈ range n, x.get i k * (Y.get k j - (Arr2.ofFn n n fun _ _ => (0 : ℂ)).get k j) := by
        rw [Finset.mul_sum]
        refine Finset.sum_congr rfl fun k hk => ?_
        rw [v4 k j (mem_range.1 hk) (mem_range.1 hj), Arr2.ofFn_get _ (mem_range.1 hk) (mem_range.1 hj)]
        push_cast
        ring
      rw [this, map_mul, Complex.normSq_ofReal, sq]
    rw [e1, zero_add] at h1
    have e2 : ∑ k ∈ range θ.length, Spec.smooth p.alpha 1 (|θ.getD k 0| * (Spec.params lap n V).getD k 0) ≤
        ∑ k ∈ range θ.length, Spec.smooth p.alpha 1 (r k) - t * (2 - t) * Q := by
      rw [hQ, Finset.mul_sum, ← Finset.sum_sub_distrib]
      refine Finset.sum_le_sum fun k _ => ?_
      have := smooth_major (order := 1) hα (Or.inl rfl) (r k) (|θ.getD k 0| * (Spec.params lap n V).getD k 0)
      rw [v3] at this ⊢
      have e3 : ((|θ.getD k 0| * ((1 - t) * θ.getD k 0)) ^ 2 - r k ^ 2) / (|r k| ^ ((2 : ℝ) - 1) + p.alpha) =
          - (t * (2 - t) * (r k ^ 2 / w k)) := by
        rw [hw, hr]
        ring
      rw [e3] at this
      linarith
    have e4 := mul_le_mul_of_nonneg_left e2 hlam.le
    rw [mul_sub] at e4
    linarith
  -- a small step
  have ht : 0 < lam * Q := mul_pos hlam hQ0
  set t := min 1 (lam * Q / (m + 1)) with htd
  have t0 : 0 < t := lt_min one_pos (by positivity)
  have t1 : t ≤ 1 := min_le_left _ _
  have t2 : t * (m + 1) ≤ lam * Q := by
    have := min_le_right 1 (lam * Q / (m + 1))
    rwa [← htd, le_div_iff₀ (by positivity)] at this
  have := key t t0.le
  have h2 : t * (lam * Q) ≤ t * (t * m) := by
    nlinarith [mul_nonneg (mul_nonneg t0.le (sub_nonneg.2 t1)) ht.le]
  have h3 := le_of_mul_le_mul_left h2 t0
  nlinarith

/-! ### C141 -/

namespace Spec

/-- squared size of the real parameters of a matrix -/
def paramSq (lap : Bool) (n : Nat) (Y : Arr2 ℂ) : ℝ := ((params lap n Y).map (fun t => t ^ 2)).sum

/-- every combination of the columns is at least `√c` times as long as its coefficients -/
def ColumnBound (c : ℝ) (x : Arr2 ℂ) : Prop :=
  ∀ u : ℕ → ℂ, c * ∑ k ∈ range x.c, Complex.normSq (u k) ≤ ∑ i ∈ range x.r, Complex.normSq (∑ k ∈ range x.c, x.get i k * u k)

/-- `L` is close to the matrix `Y` of exact data: its error in the currents, hence its distance, is bounded by the weight of the
prior -/
structure NearExact (lap : Bool) (lam : ℝ) (x z Y L : Arr2 ℂ) : Prop where
  square : IsSquare x.c L
  admissible : Admissible lap L
  misfit : misfit x z L ≤ 2 * lam * paramSq lap x.c Y
  close : ∀ c, ColumnBound c x →
    c * ∑ j ∈ range x.c, ∑ k ∈ range x.c, Complex.normSq (Y.get k j - L.get k j) ≤ 2 * lam * paramSq lap x.c Y
  equal : L = Y ↔ lam = 0 ∨ ∀ i j, i < x.c → j < x.c → Y.get i j = 0

end Spec

/-- the estimate with the absolute-value prior on data that an admissible matrix fits exactly -/
theorem lasso_near {cf : IdConf} {lap : Bool} {n : Nat} {x z Y y0 L : Arr2 ℂ} {p : Prior} (hl : 0 ≤ cf.lambdaLasso)
    {solve : Solver} (hex : Spec.Exact solve) (hx : x.c = n) (hsq : Spec.IsSquare n Y) (hadm : Spec.Admissible lap Y)
    (hdata : x.matmul Y = .ok z) (hrank : Spec.FullColumnRank x) {K : Nat} (hK : 0 < K)
    (hp : buildLassoPrior n Y lap = .ok p) (hy0 : halfSum Y = .ok y0)
    (hset : FitSetup lap n (regConfig cf p cf.lambdaLasso lap K) x z y0) {obj : RegObj}
    (hfit : bayesianFit solve (regConfig cf p cf.lambdaLasso lap K) RegObj.fresh x z y0 = (.ok (), obj))
    (hL : obj.admittance = some L) : Spec.NearExact lap cf.lambdaLasso x z Y L := by
  subst hx
  have hsym : Spec.symPart x.c Y = Y := by
    refine Arr2.ext' hsq.1.symm hsq.2.symm fun a b (ha : a < x.c) (hb : b < x.c) => ?_
    unfold Spec.symPart
    rw [Arr2.ofFn_get _ ha hb, hadm.1.2 b a]
    ring
  obtain rfl : Y = y0 := Eq.symm <| by
    have := (halfSum_eq hsq).symm.trans hy0
    exact (Except.ok.inj this).symm.trans hsym
  have hproj : Spec.projection lap x.c Y = Y := by
    have h1 := (C10_fixed_iff lap x.c Y hsq).2 hadm
    rw [C10_projection lap x.c Y hsq] at h1
    exact Except.ok.inj h1
  obtain ⟨p', hp', _, hal, hpn, ho, hres⟩ := C43_computes x.c Y hsq lap
  rw [hp] at hp'; cases hp'
  rw [hsym] at hpn hres
  have hα : 0 < p.alpha := by rw [hal]; norm_num
  obtain ⟨l1, l2, l3, l4⟩ := fit_below hset hl (fun t ht => Or.inl (ho t ht))
    (identifiable_fullColumnRank lap x.c p cf.lambdaLasso x rfl hrank) hex hK hfit hL
  rw [hproj] at l3 l4
  have hmis : Spec.misfit x z L ≤ 2 * cf.lambdaLasso * Spec.paramSq lap x.c Y := by
    unfold Spec.objective at l3
    simp only [regConfig] at l3
    have e1 : 0 ≤ ((Spec.terms p).map (fun t => Spec.smooth p.alpha t.order (t.resid p.n (Spec.params lap x.c L)))).sum := by
      apply List.sum_nonneg
      intro a ha
      obtain ⟨t, _, rfl⟩ := List.mem_map.1 ha
      exact smooth_nonneg hα _
    have e2 : ((Spec.terms p).map (fun t => Spec.smooth p.alpha t.order (t.resid p.n (Spec.params lap x.c Y)))).sum ≤
        2 * Spec.paramSq lap x.c Y := by
      rw [lasso_penalty ho hres]
      have e3 : Spec.paramSq lap x.c Y = ∑ k ∈ range (Spec.params lap x.c Y).length, (Spec.params lap x.c Y).getD k 0 ^ 2 := by
        unfold Spec.paramSq
        rw [← Prior.map_range_getElem (Spec.params lap x.c Y) 0 (fun t => t ^ 2)]
        rfl
      rw [e3, Finset.mul_sum]
      refine Finset.sum_le_sum fun k _ => (smooth_le hα rfl _).trans (le_of_eq ?_)
      rw [abs_mul, abs_abs, ← sq, sq_abs]
    rw [misfit_zero hdata, zero_add] at l3
    have e4 := mul_le_mul_of_nonneg_left e2 hl
    have e5 := mul_nonneg hl e1
    linarith
  have hexact := misfit_exact (V := L) hdata hsq
  refine ⟨l1, l2, hmis, ?_, ?_, ?_⟩
  · intro c hc
    refine le_trans ?_ hmis
    rw [hexact, Finset.mul_sum]
    exact Finset.sum_le_sum fun j _ => hc (fun k => Y.get k j - L.get k j)
  · intro he
    by_contra hcon
    push Not at hcon
    obtain ⟨h0, i, j, hi, hj, hij⟩ := hcon
    have := l4 (exact_not_map (lt_of_le_of_ne hl (Ne.symm h0)) hα hsq hadm hdata ho hres ⟨i, j, hi, hj, hij⟩)
    rw [he] at this
    exact lt_irrefl _ this
  · intro h
    have hz : cf.lambdaLasso * Spec.paramSq lap x.c Y = 0 := by
      rcases h with h | h
      · rw [h, zero_mul]
      · have : Spec.paramSq lap x.c Y = 0 := by
          unfold Spec.paramSq
          apply List.sum_eq_zero
          intro a ha
          obtain ⟨t, ht, rfl⟩ := List.mem_map.1 ha
          rw [params_entries, List.mem_map] at ht
          obtain ⟨e, he, rfl⟩ := ht
          have he' : e.1 ∈ idEntries lap x.c := by
            unfold realEntries at he
            simp only [List.mem_append, List.mem_map] at he
            rcases he with ⟨a, h, rfl⟩ | ⟨a, h, rfl⟩ <;> exact h
          obtain ⟨h1, h2⟩ := (mem_idEntries lap x.c e.1).1 he'
          rw [h _ _ h2 (by omega)]
          cases e.2 <;> simp [Spec.part]
        rw [this, mul_zero]
    have hm0 : Spec.misfit x z L = 0 := le_antisymm (by rw [mul_assoc, hz, mul_zero] at hmis; exact hmis)
      (Finset.sum_nonneg fun _ _ => Finset.sum_nonneg fun _ _ => Complex.normSq_nonneg _)
    rw [hexact] at hm0
    refine Arr2.ext' (l1.1.trans hsq.1.symm) (l1.2.trans hsq.2.symm) fun a b ha hb => ?_
    rw [l1.1] at ha
    rw [l1.2] at hb
    have h1 := (Finset.sum_eq_zero_iff_of_nonneg (fun _ _ => Finset.sum_nonneg fun _ _ => Complex.normSq_nonneg _)).1 hm0 b
      (mem_range.2 hb)
    have h2 := fun i hi => Complex.normSq_eq_zero.1 ((Finset.sum_eq_zero_iff_of_nonneg
      (fun _ _ => Complex.normSq_nonneg _)).1 h1 i (mem_range.2 hi))
    have h3 := hrank (fun k => Y.get k b - L.get k b) (by
      funext i
      exact (Fin.sum_univ_eq_sum_range (fun k => x.get i k * (Y.get k b - L.get k b)) x.c).trans (h2 i i.2))
    exact (sub_eq_zero.1 (congrFun h3 ⟨a, ha⟩)).symm

/-- C141 for the standard methods on data that an admissible matrix fits exactly: the two least squares estimates are that matrix,
the third one is only near it: it is different unless the prior has no weight or the matrix is zero. -/
theorem C141_standard (ext : NumExt) (cf : IdConf) (hl : 0 ≤ cf.lambdaLasso) (hinv : Spec.InvContract ext.inv)
    (hex : Spec.Exact ext.solve) (htot : Spec.Total ext.solve) (hpinv : Spec.PinvContract ext.pinv)
    (hsvd : Spec.SvdContract ext.svdVh) {v i Y : Arr2 ℂ} {lap : Bool} (hadm : Spec.Admissible lap Y)
    (hc : (centreData lap v i).1.matmul Y = .ok (centreData lap v i).2)
    (hrank : Spec.FullColumnRank (centreData lap v i).1) {K : Nat} (hK : 0 < K) :
    ∃ L, standardCompute ext cf v i lap K = .ok (Y, Y, L) ∧
      Spec.NearExact lap cf.lambdaLasso (centreData lap v i).1 (centreData lap v i).2 Y L := by
  obtain ⟨hvc, hir, hic, _⟩ := matmul_entry hc
  have hY := hadm.1.1
  obtain ⟨vh, hs, hvh⟩ := hsvd _
  obtain ⟨L, hL, -⟩ := standard_centred ext cf hl hinv hex htot hpinv hY hc hrank (if_pos hir.symm) hs hvh K
  have hsh : (centreData lap v i).1.c = v.c := by cases lap <;> rfl
  have hsq : Spec.IsSquare v.c Y := ⟨by rw [← hsh, hvc], by rw [← hsh, hvc, hY]⟩
  obtain ⟨pr, y0, h1, h2, h3⟩ := lasso_setup v.c Y (centreData lap v i).1 (centreData lap v i).2 hsq lap cf K hsh
    ⟨hir, by rw [hic]; exact hsq.2⟩
  obtain ⟨obj, L', h4, h5⟩ := C93_no_exception h3 hl
    (identifiable_fullColumnRank lap v.c pr cf.lambdaLasso _ hsh hrank) hex htot
  obtain ⟨pm, hp, hpi⟩ := hpinv (centreData lap v i).1
  have hols := C29_recovery ext.pinv _ _ pm Y hp hpi hrank hc
  have hL' := hL
  simp only [standardCompute, hols, h1, h2, h4, fitted, h5, if_pos hK, Bind.bind, Except.bind, Pure.pure, Except.pure] at hL'
  have : L' = L := by
    split at hL'
    · cases hL'
    · exact (congrArg (fun q => q.2.2) (Except.ok.inj hL'))
  subst this
  exact ⟨L', hL, lasso_near hl hex hsh hsq hadm hc hrank hK h1 h2 h3 h4 h5⟩

/-- C141: simulate_network.py without noise, then identify_network.py with the standard methods and at least one iteration: the
third stored estimate is near the stored reference, which the first two are, and differs from it unless the weight of the prior
or the reference is zero. -/
theorem C141 {w : SimWorld} {cf : SimConf} {a : SimArgs} {st : Store} {d : NetworkData} (hn : Spec.PlainName a.network)
    (h3 : a.threePhased = false) (hseq : a.sequence = false) (h : (simulate w cf a st).res = .ok d)
    (hall : a.loads = a.networkSim ∧ a.networkSim = a.noise) (hsd : cf.vm = 0 ∧ cf.cm = 0 ∧ cf.vp = 0 ∧ cf.cp = 0)
    (hhid : cf.hidden = []) (hpinv : Spec.PinvContract w.pinv) {net : Net} {bs : List BusData}
    (hbs : makeNet w a.network = .ok (net, bs)) (h0 : 0 < bs.length) {y : Arr2 ℂ} (hy : w.yBus net = .ok y)
    (hf : ∀ c res, w.flow net c = .ok res → Spec.PowerFlow bs y res) (hr : Spec.Reducible bs y a.laplacian)
    (hadm : Spec.Admissible a.laplacian d.y)
    {ext : NumExt} {ic : IdConf} (hl : 0 ≤ ic.lambdaLasso) (hinv : Spec.InvContract ext.inv)
    (hex : Spec.Exact ext.solve) (htot : Spec.Total ext.solve) (hpinv' : Spec.PinvContract ext.pinv)
    (hsvd : Spec.SvdContract ext.svdVh) (hrank : Spec.FullColumnRank (centreData a.laplacian d.voltage d.current).1) {sc : SimConf}
    {b : IdArgs} (hb : b.network = a.network ∧ b.threePhased = false ∧ b.laplacian = a.laplacian) (hK : 0 < b.maxIter)
    (hstd : Spec.Redone b.standard [b.standard, b.bayesian])
    {r : (Arr2 ℂ × Arr2 ℂ × Arr2 ℂ) × (Arr2 ℂ × List IterationStatus)}
    (hid : (identify ext ic sc b (simulate w cf a st).store).res = .ok r) :
    Spec.NearExact a.laplacian ic.lambdaLasso (centreData a.laplacian d.voltage d.current).1
        (centreData a.laplacian d.voltage d.current).2 d.y r.1.2.2 ∧
      (identify ext ic sc b (simulate w cf a st).store).store (resultFile .standard a.network) = some (standardNpz (d.y, d.y, r.1.2.2)) := by
  obtain ⟨-, -, -, hfile⟩ := C115 hn h3 hseq h hall hsd hhid hpinv hbs h0 hy hf hr hl hinv hex htot hpinv' hsvd hrank hb hstd hid
  refine ⟨?_, hfile⟩
  obtain ⟨hclean, hids, hsq, heq, hst⟩ := C115_data hn h3 hseq h hall hhid hpinv hbs h0 hy hf hr
  obtain ⟨n1, n2⟩ := hclean hsd.1 hsd.2.1 hsd.2.2.1 hsd.2.2.2
  obtain ⟨d', y0, ⟨all, hload, hsel⟩, -, hs1, -, -, -, -⟩ := C78_identify (by rw [hb.1]; exact hn) hb.2.1 hid
  have hall' : all = d := by
    have := C49_network b.network d (simulate w cf a st).store (h := []) ⟨by rw [hb.1]; exact hn, by simp⟩
    rw [hb.1] at this hload
    have e : (simulate w cf a st).store.savez (resultFile .network a.network) (networkNpz d) = (simulate w cf a st).store := by
      funext f
      by_cases hfn : f = resultFile .network a.network
      · subst hfn; rw [hst]; simp [Store.savez]
      · simp [Store.savez, hfn]
    rw [e] at this
    exact Except.ok.inj (hload.symm.trans this)
  subst hall'
  have hd' : d' = all := by
    unfold selectPhase at hsel
    rw [if_neg] at hsel
    · exact (Except.ok.inj hsel).symm
    · rintro ⟨-, x, hx, hx1⟩
      exact hx1 (hids x hx)
  subst hd'
  obtain ⟨hcomp, -⟩ := hs1 hstd
  rw [← n1, ← n2] at heq hrank ⊢
  obtain ⟨L, hL, hnear⟩ := C141_standard ext ic hl hinv hex htot hpinv' hsvd hadm heq hrank hK
  rw [hb.2.2, hL] at hcomp
  rw [← Except.ok.inj hcomp]
  exact hnear

/-- the hypotheses of C141 are met, with any positive number of iterations -/
theorem demo_C141 (sc : SimConf) (K : Nat) (hK : 0 < K) : ∃ st d r, (simulate demoWorld115 demoConf115 demoArgs115 st).res = .ok d ∧
    (identify demoExt115 demoIdConf sc { demoIdArgs with maxIter := K } (simulate demoWorld115 demoConf115 demoArgs115 st).store).res = .ok r ∧
    Spec.NearExact false 1 (centreData false d.voltage d.current).1 (centreData false d.voltage d.current).2 d.y r.1.2.2 := by
  have hn := templates_plain "ieee_33" (by decide)
  obtain ⟨net, ls', hnd, hm⟩ := demo115_net
  obtain ⟨st, d, r, hd, hid, h1, h2, h4⟩ := demo_C115 sc K
  obtain ⟨hwid, hrank⟩ := demo115_rank hd
  obtain ⟨-, -, hsq, -, -⟩ := C115_data hn rfl rfl hd ⟨rfl, rfl⟩ rfl exactPinv_contract hm (by simp [demoBuses115]) rfl
    (fun c res => demo115_flow net c res) demo115_reducible
  have hadm : Spec.Admissible false d.y := by
    refine ⟨⟨hsq, fun i j => ?_⟩, by simp⟩
    by_cases hij : i < 1 ∧ j < 1
    · rw [show i = j by omega]
    · rw [d.y.oob i j (by rw [← hsq, h4]; exact hij), d.y.oob j i (by rw [← hsq, h4]; tauto)]
  exact ⟨st, d, r, hd, hid, (C141 hn rfl rfl hd ⟨rfl, rfl⟩ ⟨rfl, rfl, rfl, rfl⟩ rfl exactPinv_contract hm (by simp [demoBuses115]) rfl
    (fun c res => demo115_flow net c res) demo115_reducible hadm (ic := demoIdConf) (by simp [demoIdConf]) exactInv_contract
    exactSolve_exact exactSolve_total exactPinv_contract exactSvd_contract hrank (b := { demoIdArgs with maxIter := K })
    ⟨rfl, rfl, rfl⟩ hK (Or.inl rfl) hid).1⟩

/-- one node and two samples: the least squares estimates are exact, and the third one is not -/
theorem demo_C141_standard : ∃ L : Arr2 ℂ, standardCompute demoExt115 demoIdConf demoV demoI false 3 = .ok (demoY, demoY, L) ∧ L ≠ demoY := by
  obtain ⟨_, _, _, _, _, _, _, hvi, hrank, _⟩ := demo_recovery
  obtain ⟨L, h1, h2⟩ := C141_standard demoExt115 demoIdConf (by simp [demoIdConf]) exactInv_contract exactSolve_exact exactSolve_total
    exactPinv_contract exactSvd_contract (Y := demoY) (lap := false) (v := demoV) (i := demoI) ⟨⟨rfl, fun i j => by
      simp only [demoY, Arr2.ofFn_get']
      simp only [and_comm]⟩, by simp⟩ (C47_columns demoV demoY demoI hvi) hrank (K := 3) (by norm_num)
  refine ⟨L, h1, fun he => ?_⟩
  rcases h2.equal.1 he with h | h
  · simp [demoIdConf] at h
  · have := h 0 0 (by decide) (by decide)
    norm_num [demoY, Arr2.ofFn_get'] at this

end
end Verif
