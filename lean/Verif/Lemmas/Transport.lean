/-
Two weighted errors-in-variables problems, or two lasso problems, with corresponding costs: their fits correspond, iteration by
iteration.
-/
import Verif.Props.EivConverge
import Verif.Props.Stop

namespace Verif
open Finset
noncomputable section

/-- a log with every matrix replaced -/
def mapLog (g : Arr2 ℂ → Arr2 ℂ) (log : List IterationStatus) : List IterationStatus :=
  log.map (fun e => ⟨e.iteration, g e.params, e.target⟩)

/-- loops whose steps correspond -/
theorem fitLoop_rel {cfg cfg' : RegConfig} (ha : cfg'.absTol = cfg.absTol) (hr : cfg'.relTol = cfg.relTol)
    {step step' : FitState → Except PyErr (FitState × ℝ)} {R : FitState → FitState → Prop} (g : Arr2 ℂ → Arr2 ℂ)
    (hg : ∀ s s', R s s' → s'.yMat = g s.yMat)
    (hR : ∀ s s', R s s' → ∃ u u' t, step s = .ok (u, t) ∧ step' s' = .ok (u', t) ∧ R u u')
    (k it : Nat) (s s' : FitState) (log : List IterationStatus) (hs : R s s') :
    (∃ e l, fitLoop cfg step k it s log = (.error e, l) ∧ fitLoop cfg' step' k it s' (mapLog g log) = (.error e, mapLog g l)) ∨
    ∃ u u' l, fitLoop cfg step k it s log = (.ok u, l) ∧ fitLoop cfg' step' k it s' (mapLog g log) = (.ok u', mapLog g l) ∧
      R u u' := by
  induction k generalizing it s s' log with
  | zero => exact .inr ⟨s, s', log, rfl, rfl, hs⟩
  | succ k ih =>
    obtain ⟨u, u', t, h1, h2, h3⟩ := hR s s' hs
    have hl : mapLog g log ++ [(⟨it, u'.yMat, t⟩ : IterationStatus)] = mapLog g (log ++ [⟨it, u.yMat, t⟩]) := by
      rw [hg _ _ h3]; simp [mapLog]
    have hst : ∀ p : ℝ, isStationary cfg' t p ↔ isStationary cfg t p := by
      intro p; unfold isStationary; rw [ha, hr]
    have next := ih (it + 1) u u' (log ++ [⟨it, u.yMat, t⟩]) h3
    simp only [fitLoop, h1, h2, hl]
    by_cases hit : it > 0
    · simp only [if_pos hit]
      have hget : (mapLog g (log ++ [⟨it, u.yMat, t⟩]))[it - 1]? =
          ((log ++ [(⟨it, u.yMat, t⟩ : IterationStatus)])[it - 1]?).map (fun e => ⟨e.iteration, g e.params, e.target⟩) := by
        unfold mapLog; rw [List.getElem?_map]
      rw [hget]
      cases hq : (log ++ [(⟨it, u.yMat, t⟩ : IterationStatus)])[it - 1]? with
      | none => exact .inl ⟨_, _, rfl, rfl⟩
      | some prev =>
        simp only [Option.map_some]
        by_cases hp : isStationary cfg t prev.target
        · rw [if_pos hp, if_pos ((hst _).2 hp)]
          exact .inr ⟨u, u', _, rfl, rfl, h3⟩
        · rw [if_neg hp, if_neg (fun h => hp ((hst _).1 h))]
          exact next
    · simp only [if_neg hit]
      exact next

/-- the best correction is unique -/
theorem cost_unique {x z Y D E : Arr2 ℂ} {n : Nat} (hz : z.r = x.r ∧ z.c = n) {xW zW : Arr2 ℝ}
    (hxW : Spec.PosDef (2 * (n * x.r)) xW) (hzW : Spec.IsWeight (2 * (n * x.r)) zW) (hD : D.r = x.r ∧ D.c = n)
    (hE : E.r = x.r ∧ E.c = n)
    (h1 : ∀ F : Arr2 ℂ, F.r = x.r → F.c = n → Spec.eivCost xW zW x z Y D ≤ Spec.eivCost xW zW x z Y F)
    (h2 : ∀ F : Arr2 ℂ, F.r = x.r → F.c = n → Spec.eivCost xW zW x z Y E ≤ Spec.eivCost xW zW x z Y F) : D = E := by
  set d : Fin x.r → Fin n → ℂ := fun i j => D.get i j with hd
  set e : Fin x.r → Fin n → ℂ := fun i j => E.get i j with he
  have eD : arrOf d = D := arrOf_of hD.1 hD.2
  have eE : arrOf e = E := arrOf_of hE.1 hE.2
  by_cases hde : d = e
  · rw [← eD, ← eE, hde]
  exfalso
  have hx0 := correction_pos (m := 2 * (n * x.r)) rfl hxW (d := e - d) (sub_ne_zero.2 (Ne.symm hde))
  have k1 := h1 (arrOf (d + (1 / 2 : ℝ) • (e - d))) rfl rfl
  have k2 := h2 (arrOf (d + (1 / 2 : ℝ) • (e - d))) rfl rfl
  rw [← eD] at k1
  rw [← eE] at k2
  unfold Spec.eivCost at k1 k2
  have h3 := wquad_line hzW (t := 1 / 2) (by norm_num) (by norm_num)
    (stack_line (P := Spec.residual x z Y (arrOf d)) (Q := Spec.residual x z Y (arrOf e))
      (R := Spec.residual x z Y (arrOf (d + (1 / 2 : ℝ) • (e - d)))) hz hz hz (1 / 2) (fun i j hi hj =>
        residual_line_correction _ (arrOf_line d e _) (by rw [hz.1]; exact hi) (by rw [hz.2]; exact hj)))
  have h4 : Spec.wquad xW (Spec.stackReal (arrOf (d + (1 / 2 : ℝ) • (e - d)))) =
      (1 - 1 / 2) * Spec.wquad xW (Spec.stackReal (arrOf d)) + 1 / 2 * Spec.wquad xW (Spec.stackReal (arrOf e)) -
        1 / 2 * (1 - 1 / 2) * Spec.wquad xW (Spec.stackReal (arrOf (e - d))) := by
    have hw : xW.r = 2 * (n * x.r) ∧ xW.c = 2 * (n * x.r) := ⟨hxW.1.rows, hxW.1.cols⟩
    rw [wquad_eq hw, wquad_eq hw, wquad_eq hw, wquad_eq hw, stack_line (P := arrOf d) (Q := arrOf e)
      (R := arrOf (d + (1 / 2 : ℝ) • (e - d))) (r := x.r) (c := n) ⟨rfl, rfl⟩ ⟨rfl, rfl⟩ ⟨rfl, rfl⟩ (1 / 2)
      (fun i j _ _ => arrOf_line d e _ i j), stack_sub (P := arrOf e) (Q := arrOf d) (R := arrOf (e - d)) (r := x.r) (c := n)
      ⟨rfl, rfl⟩ ⟨rfl, rfl⟩ ⟨rfl, rfl⟩ (fun i j hi hj => by rw [arrOf_get _ hi hj, arrOf_get _ hi hj, arrOf_get _ hi hj]; rfl),
      quad_line _ (IsWeight.mat hxW.1).1]
  linarith

/-- a change of admittance matrices that takes the priors and the settings of one fit to those of another -/
structure Carries (lap : Bool) (n : Nat) (cfg cfg' : RegConfig) (g : Arr2 ℂ → Arr2 ℂ) : Prop where
  sym : ∀ Y, Spec.IsSquare n Y → Spec.IsSymm Y → Spec.IsSquare n (g Y) ∧ Spec.IsSymm (g Y)
  adm : ∀ Y, Spec.IsSquare n Y → Spec.Admissible lap Y → Spec.Admissible lap (g Y)
  onto : ∀ V, Spec.IsSquare n V → Spec.Admissible lap V → ∃ Y, Spec.IsSquare n Y ∧ Spec.Admissible lap Y ∧ g Y = V
  projection : ∀ Y, Spec.IsSquare n Y → g (Spec.projection lap n Y) = Spec.projection lap n (g Y)
  model : ∀ V W, Spec.IsSquare n V → Spec.Admissible lap V → Spec.IsSquare n W → Spec.Admissible lap W →
    Spec.model cfg'.prior (nReal lap n) (Spec.params lap n (g V)) (Spec.params lap n (g W)) =
      Spec.model cfg.prior (nReal lap n) (Spec.params lap n V) (Spec.params lap n W)
  scale : ∀ V, Spec.IsSquare n V → Spec.Admissible lap V → Spec.penaltyOf lap n cfg'.prior (g V) = Spec.penaltyOf lap n cfg.prior V
  lam : cfg'.lam = cfg.lam
  absTol : cfg'.absTol = cfg.absTol
  relTol : cfg'.relTol = cfg.relTol
  maxIter : cfg'.maxIter = cfg.maxIter

/-- states whose matrices and models correspond -/
def Twins (lap : Bool) (n : Nat) (cfg cfg' : RegConfig) (g : Arr2 ℂ → Arr2 ℂ) (dt : Arr2 ℂ) (s s' : FitState) : Prop :=
  Spec.IsSquare n s.yMat ∧ Spec.IsSymm s.yMat ∧ s'.yMat = g s.yMat ∧
  ∃ y y' Y, StateAt cfg.prior (nReal lap n) y s ∧ StateAt cfg'.prior (nReal lap n) y' s' ∧ toMatrix n dt y = .ok Y ∧
    toMatrix n dt y' = .ok (g Y)

/-- the iterations of corresponding weighted errors-in-variables problems correspond -/
theorem eiv_twins {lap : Bool} {n : Nat} {cfg cfg' : RegConfig} {x z x' z' yInit yInit' : Arr2 ℂ}
    (hf : FitSetup lap n cfg x z yInit) (hf' : FitSetup lap n cfg' x' z' yInit') {xW zW xW' zW' : Arr2 ℝ} {g h : Arr2 ℂ → Arr2 ℂ}
    (hc : Carries lap n cfg cfg' g) (hl : 0 < cfg.lam) (hsp : Spec.Spanning cfg.prior (nReal lap n))
    (hsp' : Spec.Spanning cfg'.prior (nReal lap n)) (ho' : ∀ t ∈ Spec.terms cfg'.prior, t.order = 1 ∨ t.order = 2)
    (hxW : Spec.PosDef (2 * (n * x.r)) xW) (hzW : Spec.IsWeight (2 * (n * x.r)) zW)
    (hxW' : Spec.PosDef (2 * (n * x'.r)) xW') (hzW' : Spec.IsWeight (2 * (n * x'.r)) zW')
    (hcorr : ∀ D : Arr2 ℂ, D.r = x.r → D.c = n → (h D).r = x'.r ∧ (h D).c = n)
    (honto : ∀ E : Arr2 ℂ, E.r = x'.r → E.c = n → ∃ D : Arr2 ℂ, D.r = x.r ∧ D.c = n ∧ h D = E)
    (hcost : ∀ Y D : Arr2 ℂ, Spec.IsSquare n Y → Spec.IsSymm Y → D.r = x.r → D.c = n →
      Spec.eivCost xW' zW' x' z' (g Y) (h D) = Spec.eivCost xW zW x z Y D)
    {solve : Solver} (hex : Spec.Exact solve) (htot : Spec.Total solve) {dt : Arr2 ℂ} (hdt : dtMatrix ℂ lap n = .ok dt)
    {A A' : Arr2 ℝ} (hA : regressionMatrix n x dt = .ok A) (hA' : regressionMatrix n x' dt = .ok A') (s s' : FitState)
    (hs : Twins lap n cfg cfg' g dt s s') :
    ∃ u u' t, eivWeightedStep solve cfg x dt A (Spec.stackReal x) (Spec.stackReal z) xW zW s = .ok (u, t) ∧
      eivWeightedStep solve cfg' x' dt A' (Spec.stackReal x') (Spec.stackReal z') xW' zW' s' = .ok (u', t) ∧
      Twins lap n cfg cfg' g dt u u' := by
  obtain ⟨hsq, hsym, hyM, y, y', Y, hst, hst', hY, hY'⟩ := hs
  have hsq' : Spec.IsSquare n s'.yMat := by rw [hyM]; exact (hc.sym _ hsq hsym).1
  have hsym' : Spec.IsSymm s'.yMat := by rw [hyM]; exact (hc.sym _ hsq hsym).2
  have hl' : 0 < cfg'.lam := by rw [hc.lam]; exact hl
  obtain ⟨u, t, _, hstep, _⟩ := eivStep_total hf hl hsp hxW hzW hex htot hdt hA hst hsq
  obtain ⟨u', t', _, hstep', _⟩ := eivStep_total hf' hl' hsp' hxW' hzW' hex htot hdt hA' hst' hsq'
  obtain ⟨D, w, hDr, hDc, hDmin, hw, hwm, ht, hmin⟩ := eivStep_at hf hl.le hxW.1 hzW hex hdt hA hst hsq hsym hstep
  obtain ⟨D', w', hDr', hDc', hDmin', hw', hwm', ht', hmin'⟩ := eivStep_at hf' hl'.le hxW'.1 hzW' hex hdt hA' hst' hsq' hsym' hstep'
  obtain ⟨c1, c2⟩ := hcorr D hDr hDc
  have hD : D' = h D := by
    refine cost_unique hf'.zs hxW' hzW' ⟨hDr', hDc'⟩ ⟨c1, c2⟩ hDmin' (fun F hF1 hF2 => ?_)
    obtain ⟨G, g1, g2, rfl⟩ := honto F hF1 hF2
    rw [hyM, hcost _ _ hsq hsym hDr hDc, hcost _ _ hsq hsym g1 g2]
    exact hDmin G g1 g2
  subst hD
  obtain ⟨usq, uadm⟩ := toMatrix_admissible lap n hdt hwm
  obtain ⟨usq', uadm'⟩ := toMatrix_admissible lap n hdt hwm'
  obtain ⟨Ysq, Yadm⟩ := toMatrix_admissible lap n hdt hY
  -- parameters
  have py := params_of_toMatrix lap n hdt hst.1 hY
  have py' := params_of_toMatrix lap n hdt hst'.1 hY'
  have pw := params_of_toMatrix lap n hdt hw.1 hwm
  have pw' := params_of_toMatrix lap n hdt hw'.1 hwm'
  obtain ⟨e, he, _⟩ := e_closed (α := ℂ) lap n
  -- the transported matrix is the next one
  obtain ⟨gsq, gsym⟩ := hc.sym _ usq uadm.1
  have gadm := hc.adm _ usq uadm
  obtain ⟨v, _, hvl, hvm⟩ := toParams_ok lap n hdt he gsq
  have hvm := hvm gadm
  have pv := params_of_toMatrix lap n hdt hvl hvm
  -- and it is at least as good as that of the second problem
  obtain ⟨V, vsq, vadm, hVu⟩ := hc.onto _ usq' uadm'
  obtain ⟨q, _, hql, hqm⟩ := toParams_ok lap n hdt he vsq
  have hqm := hqm vadm
  have pq := params_of_toMatrix lap n hdt hql hqm
  have hle := hmin q V hql hqm
  have m1 := hc.model Y u.yMat Ysq Yadm usq uadm
  have m2 := hc.model Y V Ysq Yadm vsq vadm
  rw [py, py', pw, pv] at m1
  rw [py, py', hVu, pw', pq] at m2
  have hcmp : Spec.eivCost xW' zW' x' z' (g u.yMat) (h D) + cfg'.lam * Spec.model cfg'.prior (nReal lap n) y' v ≤
      Spec.eivCost xW' zW' x' z' u'.yMat (h D) + cfg'.lam * Spec.model cfg'.prior (nReal lap n) y' w' := by
    rw [hcost _ _ usq uadm.1 hDr hDc, m1, hc.lam, m2]
    have := hcost V D vsq vadm.1 hDr hDc
    rw [hVu] at this
    rw [this]
    exact hle
  have hgood := alt_good (lap := lap) (n := n) (p := cfg'.prior) (lam := cfg'.lam) (dt := dt) (xW := xW') (zW := zW') (x := x') (z := z')
    hl' hf'.alpha ho' hsp' hf'.zs hxW' hzW'
  have hnext : (altOf lap n cfg'.prior cfg'.lam dt xW' zW' x' z').Next (toVec (nReal lap n) y') (fun i j => (h D).get i j)
      (toVec (nReal lap n) w') := by
    intro r
    obtain ⟨Q, _, _, _, _, _, hQ⟩ := toMatrix_ok lap n hdt (ofVec_length r)
    have h1 := hmin' (ofVec r) Q (ofVec_length r) hQ
    have h2 := (alt_obj hf' hdt xW' zW' (ofVec_length r) hQ ⟨c1, c2⟩).2
    have h3 := (alt_obj hf' hdt xW' zW' hw'.1 hwm' ⟨c1, c2⟩).2
    have h4 := alt_model (lap := lap) (n := n) (p := cfg'.prior) (lam := cfg'.lam) (dt := dt) (xW := xW') (zW := zW') (x := x') (z := z')
      y' (ofVec r)
    have h5 := alt_model (lap := lap) (n := n) (p := cfg'.prior) (lam := cfg'.lam) (dt := dt) (xW := xW') (zW := zW') (x := x') (z := z')
      y' w'
    rw [toVec_ofVec] at h2 h4
    rw [h2, h3, h4, h5]
    exact h1
  have hu := Alt.next_unique hgood hnext (v := toVec (nReal lap n) v) (by
    rw [(alt_obj hf' hdt xW' zW' hvl hvm ⟨c1, c2⟩).2, (alt_obj hf' hdt xW' zW' hw'.1 hwm' ⟨c1, c2⟩).2, alt_model, alt_model]
    exact hcmp)
  have hvw : v = w' := by
    refine List.ext_getElem (hvl.trans hw'.1.symm) (fun i h1 h2 => ?_)
    have := congrFun hu ⟨i, by rw [← hvl]; exact h1⟩
    simpa [toVec, List.getD_eq_getElem?_getD, List.getElem?_eq_getElem h1, List.getElem?_eq_getElem h2] using this
  subst hvw
  have hgu : u'.yMat = g u.yMat := Except.ok.inj (hwm'.symm.trans hvm)
  have hsc := hc.scale _ usq uadm
  unfold Spec.penaltyOf at hsc
  rw [pv, pw] at hsc
  have htt : t' = t := by rw [ht, ht', hgu, hcost _ _ usq uadm.1 hDr hDc, hsc, hc.lam]
  subst htt
  exact ⟨u, u', t', hstep, hstep', ⟨usq, uadm.1, hgu, w, v, u.yMat, hw, hw', hwm, by rw [← hgu]; exact hwm'⟩⟩

/-- the quadratic function minimised by a step -/
theorem Irls.step_local {N m k : Nat} {P : Irls N m k} (h : P.Good) {y y' : Fin N → ℝ} (hs : P.Step y y') (v : Fin N → ℝ) :
    ∑ j, (P.b j - P.A v j) ^ 2 + P.lam * ∑ i, (P.res v i) ^ 2 / P.w y i =
      ∑ j, (P.b j - P.A y' j) ^ 2 + P.lam * ∑ i, (P.res y' i) ^ 2 / P.w y i +
        (∑ j, (P.A (v - y') j) ^ 2 + P.lam * ∑ i, (P.R (v - y') i) ^ 2 / P.w y i) := by
  have h0 := hs (v - y')
  have e1 : ∑ j, (P.b j - P.A v j) ^ 2 = ∑ j, (P.b j - P.A y' j) ^ 2 + ∑ j, (P.A (v - y') j) ^ 2 +
      2 * ∑ j, (P.A y' j - P.b j) * P.A (v - y') j := by
    rw [Finset.mul_sum, ← Finset.sum_add_distrib, ← Finset.sum_add_distrib]
    refine Finset.sum_congr rfl (fun j _ => ?_)
    rw [map_sub, Pi.sub_apply]; ring
  have e2 : ∑ i, (P.res v i) ^ 2 / P.w y i = ∑ i, (P.res y' i) ^ 2 / P.w y i + ∑ i, (P.R (v - y') i) ^ 2 / P.w y i +
      2 * ∑ i, P.res y' i * P.R (v - y') i / P.w y i := by
    rw [Finset.mul_sum, ← Finset.sum_add_distrib, ← Finset.sum_add_distrib]
    refine Finset.sum_congr rfl (fun i _ => ?_)
    have := (Irls.w_pos h y i).ne'
    rw [map_sub, Pi.sub_apply]
    unfold Irls.res
    field_simp
    ring
  rw [e1, e2]
  linarith

theorem Irls.step_unique {N m k : Nat} {P : Irls N m k} (h : P.Good) {y y' : Fin N → ℝ} (hs : P.Step y y') {v : Fin N → ℝ}
    (hv : ∑ j, (P.b j - P.A v j) ^ 2 + P.lam * ∑ i, (P.res v i) ^ 2 / P.w y i ≤
      ∑ j, (P.b j - P.A y' j) ^ 2 + P.lam * ∑ i, (P.res y' i) ^ 2 / P.w y i) : v = y' := by
  have e := Irls.step_local h hs v
  have p1 : 0 ≤ ∑ j, (P.A (v - y') j) ^ 2 := Finset.sum_nonneg (fun _ _ => sq_nonneg _)
  have p2 : 0 ≤ ∑ i, (P.R (v - y') i) ^ 2 / P.w y i :=
    Finset.sum_nonneg (fun i _ => div_nonneg (sq_nonneg _) (Irls.w_pos h y i).le)
  have p3 := mul_nonneg h.lam p2
  have z1 : ∑ j, (P.A (v - y') j) ^ 2 = 0 := by linarith
  have z2 : P.lam * ∑ i, (P.R (v - y') i) ^ 2 / P.w y i = 0 := by linarith
  refine sub_eq_zero.1 (h.inj _ ?_ (fun hl => ?_))
  · funext j
    have := (Finset.sum_eq_zero_iff_of_nonneg (fun _ _ => sq_nonneg _)).1 z1 j (Finset.mem_univ j)
    exact pow_eq_zero_iff two_ne_zero |>.1 this
  · rcases mul_eq_zero.1 z2 with h0 | h0
    · exact absurd h0 hl.ne'
    · funext i
      have := (Finset.sum_eq_zero_iff_of_nonneg (fun i _ => div_nonneg (sq_nonneg _) (Irls.w_pos h y i).le)).1 h0 i
        (Finset.mem_univ i)
      rcases div_eq_zero_iff.1 this with h1 | h1
      · exact pow_eq_zero_iff two_ne_zero |>.1 h1
      · exact absurd h1 (Irls.w_pos h y i).ne'

/-- that quadratic function in terms of matrices -/
theorem irls_local {lap : Bool} {n : Nat} {cfg : RegConfig} {x z yInit : Arr2 ℂ} (h : FitSetup lap n cfg x z yInit)
    {dt : Arr2 ℂ} (hdt : dtMatrix ℂ lap n = .ok dt) {A : Arr2 ℝ} (hAr : regressionMatrix n x dt = .ok A) (y : List ℝ) {v : List ℝ}
    {V : Arr2 ℂ} (hv : v.length = nReal lap n) (hV : toMatrix n dt v = .ok V) :
    ∑ j, ((irlsOf (nReal lap n) (2 * (n * x.r)) cfg.prior cfg.lam A (makeRealVector (vectorizeMatrix z))).b j -
        (irlsOf (nReal lap n) (2 * (n * x.r)) cfg.prior cfg.lam A (makeRealVector (vectorizeMatrix z))).A (toVec (nReal lap n) v) j) ^ 2 +
      cfg.lam * ∑ i, ((irlsOf (nReal lap n) (2 * (n * x.r)) cfg.prior cfg.lam A (makeRealVector (vectorizeMatrix z))).res
        (toVec (nReal lap n) v) i) ^ 2 /
        (irlsOf (nReal lap n) (2 * (n * x.r)) cfg.prior cfg.lam A (makeRealVector (vectorizeMatrix z))).w (toVec (nReal lap n) y) i =
    Spec.misfit x z V + cfg.lam * Spec.model cfg.prior (nReal lap n) y v := by
  rw [← real_misfit lap n hdt h.xc h.zs hAr hv hV]
  congr 1
  · refine Finset.sum_congr rfl (fun j _ => ?_)
    exact pow_two _
  · congr 1
    unfold Spec.model
    rw [← Fin.sum_univ_fun_getElem]
    refine Finset.sum_congr rfl (fun i _ => ?_)
    rw [irls_res, irls_w]
    rfl

/-- the iterations of corresponding lasso problems correspond -/
theorem lasso_twins {lap : Bool} {n : Nat} {cfg cfg' : RegConfig} {x z x' z' yInit yInit' : Arr2 ℂ}
    (hf : FitSetup lap n cfg x z yInit) (hf' : FitSetup lap n cfg' x' z' yInit') {g : Arr2 ℂ → Arr2 ℂ}
    (hc : Carries lap n cfg cfg' g) (hl : 0 ≤ cfg.lam) (hid : Spec.Identifiable lap n cfg.prior cfg.lam x)
    (hid' : Spec.Identifiable lap n cfg'.prior cfg'.lam x')
    (ho : ∀ t ∈ Spec.terms cfg.prior, t.order = 1 ∨ t.order = 2) (ho' : ∀ t ∈ Spec.terms cfg'.prior, t.order = 1 ∨ t.order = 2)
    (hcost : ∀ Y : Arr2 ℂ, Spec.IsSquare n Y → Spec.Admissible lap Y → Spec.misfit x' z' (g Y) = Spec.misfit x z Y)
    {solve : Solver} (hex : Spec.Exact solve) (htot : Spec.Total solve) {dt : Arr2 ℂ} (hdt : dtMatrix ℂ lap n = .ok dt)
    {A A' : Arr2 ℝ} (hA : regressionMatrix n x dt = .ok A) (hA' : regressionMatrix n x' dt = .ok A') (s s' : FitState)
    (hs : Twins lap n cfg cfg' g dt s s') :
    ∃ u u' t, regStep solve cfg n dt A (makeRealVector (vectorizeMatrix z)) s = .ok (u, t) ∧
      regStep solve cfg' n dt A' (makeRealVector (vectorizeMatrix z')) s' = .ok (u', t) ∧
      Twins lap n cfg cfg' g dt u u' := by
  obtain ⟨hsq, hsym, hyM, y, y', Y, hst, hst', hY, hY'⟩ := hs
  have hl' : 0 ≤ cfg'.lam := by rw [hc.lam]; exact hl
  obtain ⟨_, hA2, har, hac, _⟩ := regressionMatrix_spec lap n hdt x hf.xc
  obtain rfl := Except.ok.inj (hA.symm.trans hA2)
  obtain ⟨_, hA2', har', hac', _⟩ := regressionMatrix_spec lap n hdt x' hf'.xc
  obtain rfl := Except.ok.inj (hA'.symm.trans hA2')
  obtain ⟨u, t, hstep⟩ := step_total hf hl hid hex htot hdt hA ⟨har, hac⟩ hst
  obtain ⟨u', t', hstep'⟩ := step_total hf' hl' hid' hex htot hdt hA' ⟨har', hac'⟩ hst'
  obtain ⟨s1, s2, s3, s4⟩ := trace_step hf hex hdt hA ⟨har, hac⟩ hst hstep
  obtain ⟨s1', s2', s3', s4'⟩ := trace_step hf' hex hdt hA' ⟨har', hac'⟩ hst' hstep'
  obtain ⟨usq, uadm⟩ := toMatrix_admissible lap n hdt s2.2
  obtain ⟨usq', uadm'⟩ := toMatrix_admissible lap n hdt s2'.2
  obtain ⟨Ysq, Yadm⟩ := toMatrix_admissible lap n hdt hY
  have py := params_of_toMatrix lap n hdt hst.1 hY
  have py' := params_of_toMatrix lap n hdt hst'.1 hY'
  obtain ⟨e, he, _⟩ := e_closed (α := ℂ) lap n
  obtain ⟨gsq, gsym⟩ := hc.sym _ usq uadm.1
  have gadm := hc.adm _ usq uadm
  obtain ⟨v, _, hvl, hvm⟩ := toParams_ok lap n hdt he gsq
  have hvm := hvm gadm
  have pv := params_of_toMatrix lap n hdt hvl hvm
  obtain ⟨V, vsq, vadm, hVu⟩ := hc.onto _ usq' uadm'
  obtain ⟨q, _, hql, hqm⟩ := toParams_ok lap n hdt he vsq
  have hqm := hqm vadm
  have pq := params_of_toMatrix lap n hdt hql hqm
  have m1 := hc.model Y u.yMat Ysq Yadm usq uadm
  have m2 := hc.model Y V Ysq Yadm vsq vadm
  rw [py, py', pv] at m1
  rw [py, py', hVu, pq] at m2
  have good := irls_good hf hl ho hid hdt hA (makeRealVector (vectorizeMatrix z))
  have good' := irls_good hf' hl' ho' hid' hdt hA' (makeRealVector (vectorizeMatrix z'))
  -- the transported matrix is at least as good
  have hle : Spec.misfit x z u.yMat + cfg.lam * Spec.model cfg.prior (nReal lap n) y (Spec.params lap n u.yMat) ≤
      Spec.misfit x z V + cfg.lam * Spec.model cfg.prior (nReal lap n) y q := by
    have h1 := Irls.step_local good s3 (toVec (nReal lap n) q)
    have h2 := irls_local hf hdt hA y hql hqm
    have h3 := irls_local hf hdt hA y s2.1 s2.2
    have p1 := Finset.sum_nonneg (s := Finset.univ) (fun j _ => sq_nonneg
      ((irlsOf (nReal lap n) (2 * (n * x.r)) cfg.prior cfg.lam A (makeRealVector (vectorizeMatrix z))).A
        (toVec (nReal lap n) q - toVec (nReal lap n) (Spec.params lap n u.yMat)) j))
    have p2 := mul_nonneg hl (Finset.sum_nonneg (s := Finset.univ) (fun i _ => div_nonneg (sq_nonneg
      ((irlsOf (nReal lap n) (2 * (n * x.r)) cfg.prior cfg.lam A (makeRealVector (vectorizeMatrix z))).R
        (toVec (nReal lap n) q - toVec (nReal lap n) (Spec.params lap n u.yMat)) i)) (Irls.w_pos good (toVec (nReal lap n) y) i).le))
    have hlam : (irlsOf (nReal lap n) (2 * (n * x.r)) cfg.prior cfg.lam A (makeRealVector (vectorizeMatrix z))).lam = cfg.lam := rfl
    rw [hlam, h2, h3] at h1
    linarith
  have hu := Irls.step_unique good' s3' (v := toVec (nReal lap n) v) (by
    have h2 := irls_local hf' hdt hA' y' hvl hvm
    have h3 := irls_local hf' hdt hA' y' s2'.1 s2'.2
    have hlam : (irlsOf (nReal lap n) (2 * (n * x'.r)) cfg'.prior cfg'.lam A' (makeRealVector (vectorizeMatrix z'))).lam = cfg'.lam := rfl
    rw [hlam, h2, h3, hcost _ usq uadm, m1, hc.lam, m2, ← hVu, hcost _ vsq vadm]
    exact hle)
  have hvw : v = Spec.params lap n u'.yMat := by
    refine List.ext_getElem (hvl.trans s2'.1.symm) (fun i h1 h2 => ?_)
    have := congrFun hu ⟨i, by rw [← hvl]; exact h1⟩
    simpa [toVec, List.getD_eq_getElem?_getD, List.getElem?_eq_getElem h1, List.getElem?_eq_getElem h2] using this
  have hgu : u'.yMat = g u.yMat := by
    rw [hvw] at hvm
    exact Except.ok.inj (s2'.2.symm.trans hvm)
  have htt : t' = t := by
    rw [s4, s4', hgu]
    unfold Spec.regTarget
    rw [hcost _ usq uadm, hc.scale _ usq uadm, hc.lam]
  subst htt
  exact ⟨u, u', t', hstep, hstep', ⟨usq, uadm.1, hgu, _, _, u.yMat, s1, s1', s2.2, by rw [← hgu]; exact s2'.2⟩⟩

/-- states from which corresponding fits begin -/
theorem twins_start {lap : Bool} {n : Nat} {cfg cfg' : RegConfig} {g : Arr2 ℂ → Arr2 ℂ} (hc : Carries lap n cfg cfg' g)
    {dt yInit : Arr2 ℂ} (hsq : Spec.IsSquare n yInit) (hsym : Spec.IsSymm yInit) {y y' : List ℝ} {s s' : FitState}
    (h1 : StateAt cfg.prior (nReal lap n) y s) (h2 : s.yMat = yInit) (h3 : toMatrix n dt y = .ok (Spec.projection lap n yInit))
    (h1' : StateAt cfg'.prior (nReal lap n) y' s') (h2' : s'.yMat = g yInit)
    (h3' : toMatrix n dt y' = .ok (Spec.projection lap n (g yInit))) : Twins lap n cfg cfg' g dt s s' :=
  ⟨by rw [h2]; exact hsq, by rw [h2]; exact hsym, by rw [h2', h2], y, y', _, h1, h1', h3, by rw [hc.projection _ hsq]; exact h3'⟩

/-- an object with every matrix replaced -/
def mapObj (g : Arr2 ℂ → Arr2 ℂ) (o : RegObj) : RegObj := ⟨mapLog g o.iterations, o.admittance.map g⟩

/-- corresponding loops finish alike -/
theorem finish_rel {cfg cfg' : RegConfig} {step step' : FitState → Except PyErr (FitState × ℝ)} {lap : Bool} {n : Nat}
    {g : Arr2 ℂ → Arr2 ℂ} {dt : Arr2 ℂ} (hc : Carries lap n cfg cfg' g)
    (hR : ∀ s s', Twins lap n cfg cfg' g dt s s' → ∃ u u' t, step s = .ok (u, t) ∧ step' s' = .ok (u', t) ∧
      Twins lap n cfg cfg' g dt u u') {s s' : FitState} (hs : Twins lap n cfg cfg' g dt s s') :
    finishFit .fresh (fitLoop cfg' step' cfg'.maxIter 0 s' []) =
      ((finishFit .fresh (fitLoop cfg step cfg.maxIter 0 s [])).1,
        mapObj g (finishFit .fresh (fitLoop cfg step cfg.maxIter 0 s [])).2) := by
  rw [hc.maxIter]
  have h := fitLoop_rel hc.absTol hc.relTol g (fun s s' h => h.2.2.1) hR cfg.maxIter 0 s s' [] hs
  rcases h with ⟨e, l, h1, h2⟩ | ⟨u, u', l, h1, h2, h3⟩
  · rw [h1, show ([] : List IterationStatus) = mapLog g [] from rfl, h2]; rfl
  · rw [h1, show ([] : List IterationStatus) = mapLog g [] from rfl, h2]
    simp only [finishFit, mapObj, Option.map_some, h3.2.2.1]

/-- corresponding weighted errors-in-variables problems have corresponding fits -/
theorem eiv_rel {lap : Bool} {n : Nat} {cfg cfg' : RegConfig} {x z x' z' yInit : Arr2 ℂ} {g h : Arr2 ℂ → Arr2 ℂ}
    (hf : FitSetup lap n cfg x z yInit) (hf' : FitSetup lap n cfg' x' z' (g yInit)) (hsym : Spec.IsSymm yInit) {xW zW xW' zW' : Arr2 ℝ}
    (hc : Carries lap n cfg cfg' g) (hl : 0 < cfg.lam) (hsp : Spec.Spanning cfg.prior (nReal lap n))
    (hsp' : Spec.Spanning cfg'.prior (nReal lap n)) (ho' : ∀ t ∈ Spec.terms cfg'.prior, t.order = 1 ∨ t.order = 2)
    (hxW : Spec.PosDef (2 * (n * x.r)) xW) (hzW : Spec.IsWeight (2 * (n * x.r)) zW)
    (hxW' : Spec.PosDef (2 * (n * x'.r)) xW') (hzW' : Spec.IsWeight (2 * (n * x'.r)) zW')
    (hcorr : ∀ D : Arr2 ℂ, D.r = x.r → D.c = n → (h D).r = x'.r ∧ (h D).c = n)
    (honto : ∀ E : Arr2 ℂ, E.r = x'.r → E.c = n → ∃ D : Arr2 ℂ, D.r = x.r ∧ D.c = n ∧ h D = E)
    (hcost : ∀ Y D : Arr2 ℂ, Spec.IsSquare n Y → Spec.IsSymm Y → D.r = x.r → D.c = n →
      Spec.eivCost xW' zW' x' z' (g Y) (h D) = Spec.eivCost xW zW x z Y D)
    {solve : Solver} (hex : Spec.Exact solve) (htot : Spec.Total solve) (inv : Arr2 ℂ → Except PyErr (Arr2 ℂ)) :
    eivBody solve inv cfg' .fresh x' z' (some xW') (some zW') (g yInit) =
      ((eivBody solve inv cfg .fresh x z (some xW) (some zW) yInit).1,
        mapObj g (eivBody solve inv cfg .fresh x z (some xW) (some zW) yInit).2) := by
  obtain ⟨dt, A, y0, s, h1, h2, h3, h4, h5, h6, -⟩ := eivSetup_ok hf solve inv
  obtain ⟨dt', A', y0', s', h1', h2', h3', h4', h5', h6', -⟩ := eivSetup_ok hf' solve inv
  obtain rfl := Except.ok.inj (h1.symm.trans h1')
  rw [h6, h6']
  exact finish_rel hc (fun s s' hs => eiv_twins hf hf' hc hl hsp hsp' ho' hxW hzW hxW' hzW' hcorr honto hcost hex htot h1 h2 h2' s s' hs)
    (twins_start hc hf.init hsym h3 h4 h5 h3' h4' h5')

/-- corresponding lasso problems have corresponding fits -/
theorem lasso_rel {lap : Bool} {n : Nat} {cfg cfg' : RegConfig} {x z x' z' yInit : Arr2 ℂ} {g : Arr2 ℂ → Arr2 ℂ}
    (hf : FitSetup lap n cfg x z yInit) (hf' : FitSetup lap n cfg' x' z' (g yInit)) (hsym : Spec.IsSymm yInit)
    (hc : Carries lap n cfg cfg' g) (hl : 0 ≤ cfg.lam) (hid : Spec.Identifiable lap n cfg.prior cfg.lam x)
    (hid' : Spec.Identifiable lap n cfg'.prior cfg'.lam x')
    (ho : ∀ t ∈ Spec.terms cfg.prior, t.order = 1 ∨ t.order = 2) (ho' : ∀ t ∈ Spec.terms cfg'.prior, t.order = 1 ∨ t.order = 2)
    (hcost : ∀ Y : Arr2 ℂ, Spec.IsSquare n Y → Spec.Admissible lap Y → Spec.misfit x' z' (g Y) = Spec.misfit x z Y)
    {solve : Solver} (hex : Spec.Exact solve) (htot : Spec.Total solve) :
    bayesianFit solve cfg' .fresh x' z' (g yInit) =
      ((bayesianFit solve cfg .fresh x z yInit).1, mapObj g (bayesianFit solve cfg .fresh x z yInit).2) := by
  obtain ⟨dt, A, y0, s, h1, h2, -, h3, h4, h5, h6⟩ := setup_ok hf solve
  obtain ⟨dt', A', y0', s', h1', h2', -, h3', h4', h5', h6'⟩ := setup_ok hf' solve
  obtain rfl := Except.ok.inj (h1.symm.trans h1')
  rw [h6, h6']
  exact finish_rel hc (fun s s' hs => lasso_twins hf hf' hc hl hid hid' ho ho' hcost hex htot h1 h2 h2' s s' hs)
    (twins_start hc hf.init hsym h3 h4 h5 h3' h4' h5')

end
end Verif
