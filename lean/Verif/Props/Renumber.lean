/-
C157: another numbering of the nodes.
-/
import Verif.Lemmas.Renum
import Verif.Props.NoisyGap

namespace Verif
open Finset
noncomputable section

variable {n : Nat} {σ : Equiv.Perm ℕ}

/-! ### weights and data -/

/-- the weights of synchronised measurements for another numbering -/
theorem average_recol (hσ : Spec.Numbering n σ) {M : Arr2 ℂ} (hM : M.c = n)
    {sd : ℝ} {sdp : ℝ} (hsd : Spec.ValidSd (.npScalar sd) n) (hp : 0 < sdp) (hs : 0 < sd) :
    ∃ W W', averageTrueNoiseCovariance M (.npScalar sd) sdp true = .ok W ∧
      averageTrueNoiseCovariance (Spec.recol σ M) (.npScalar sd) sdp true = .ok W' ∧
      Spec.PosDef (2 * (n * M.r)) W ∧ Spec.PosDef (2 * (n * M.r)) W' ∧ Spec.RecolWeight M.r n σ W W' := by
  obtain ⟨W, hW, hpos⟩ := average_posDef M (.npScalar sd) sdp (by rw [hM]; exact hsd) hp (fun _ _ => hs)
  obtain ⟨W', hW', hpos'⟩ := average_posDef (Spec.recol σ M) (.npScalar sd) sdp (by
    show Spec.ValidSd _ M.c; rw [hM]; exact hsd) hp (fun _ _ => hs)
  have hpos' : Spec.PosDef (2 * (M.c * M.r)) W' := hpos'
  rw [hM] at hpos hpos'
  refine ⟨W, W', hW, hW', hpos, hpos', ?_⟩
  obtain ⟨a, b, c, ha, hb, hc, he, hn⟩ := noise_diags averageCov M (.npScalar sd) sdp (by rw [hM]; exact hsd)
  obtain ⟨a', b', c', ha', hb', hc', he', hn'⟩ := noise_diags averageCov (Spec.recol σ M) (.npScalar sd) sdp (by
    show Spec.ValidSd _ M.c; rw [hM]; exact hsd)
  rw [hM] at ha hb hc he
  have ha' : a'.length = n * M.r := by rw [← hM]; exact ha'
  have hb' : b'.length = n * M.r := by rw [← hM]; exact hb'
  have hc' : c'.length = n * M.r := by rw [← hM]; exact hc'
  obtain ⟨l1, l2, l3, hv⟩ := invertDiag_spec ha hb hc
  obtain ⟨l1', l2', l3', hv'⟩ := invertDiag_spec ha' hb' hc'
  have e1 := (hn true).trans (covBlock_closed l1 l2 l3)
  have e1' := (hn' true).trans (covBlock_closed l1' l2' l3')
  obtain rfl := Except.ok.inj (hW.symm.trans e1)
  obtain rfl := Except.ok.inj (hW'.symm.trans e1')
  refine block_recol hσ (fun t j ht hj => ?_)
  have hlt : ∀ j < n, Spec.pos M.r t j < n * M.r := by
    intro j hj
    unfold Spec.pos
    calc j * M.r + t < j * M.r + M.r := by omega
      _ = (j + 1) * M.r := by ring
      _ ≤ n * M.r := Nat.mul_le_mul_right _ hj
  obtain ⟨v1, v2, v3⟩ := hv _ (hlt _ ((hσ j).2 hj))
  obtain ⟨v1', v2', v3'⟩ := hv' _ (hlt j hj)
  obtain ⟨d1, d2, d3⟩ := he _ _ ht ((hσ j).2 hj)
  obtain ⟨d1', d2', d3'⟩ := he' t j ht (by show j < M.c; rw [hM]; exact hj)
  rw [recol_get' hσ hM t hj] at d1' d2' d3'
  have d1' : a'.getD (Spec.pos M.r t j) 0 = _ := d1'
  have d2' : b'.getD (Spec.pos M.r t j) 0 = _ := d2'
  have d3' : c'.getD (Spec.pos M.r t j) 0 = _ := d3'
  rw [v1, v2, v3, v1', v2', v3', d1, d2, d3, d1', d2', d3']
  exact ⟨rfl, rfl, rfl⟩

theorem map_recol (hσ : Spec.Numbering n σ) {M : Arr2 ℂ} (hM : M.c = n) (f : ℂ → ℂ) :
    (Spec.recol σ M).map f = Spec.recol σ (M.map f) := by
  refine Arr2.ext' rfl rfl (fun t j ht hj => ?_)
  have ht : t < M.r := ht
  have hj : j < M.c := hj
  have hs : σ j < M.c := by rw [hM] at hj ⊢; exact (hσ j).2 hj
  rw [recol_get σ _ (show t < (M.map f).r from ht) (show j < (M.map f).c from hj), Arr2.map, Arr2.map,
    Arr2.ofFn_get _ (show t < (Spec.recol σ M).r from ht) (show j < (Spec.recol σ M).c from hj), Arr2.ofFn_get _ ht hs,
    recol_get σ M ht hj]

/-- the weights of magnitudes for another numbering -/
theorem magnitude_recol (hσ : Spec.Numbering n σ) {M : Arr2 ℂ} (hM : M.c = n)
    {sd : ℝ} {sdp : ℝ} (hsd : Spec.ValidSd (.npScalar sd) n) (hp : 0 < sdp) (hs : 0 < sd)
    (hnz : ∀ t j, t < M.r → j < n → M.get t j ≠ 0) :
    ∃ W W', naiveNoiseCovariance (M.map (fun z => ((‖z‖ : ℝ) : ℂ))) (.npScalar sd) sdp false = .ok W ∧
      naiveNoiseCovariance ((Spec.recol σ M).map (fun z => ((‖z‖ : ℝ) : ℂ))) (.npScalar sd) sdp false = .ok W' ∧
      Spec.PosDef (2 * (n * M.r)) (W.map recip) ∧ Spec.PosDef (2 * (n * M.r)) (W'.map recip) ∧
      Spec.RecolWeight M.r n σ (W.map recip) (W'.map recip) := by
  obtain ⟨W, hW, hpos⟩ := magnitude_posDef M (.npScalar sd) sdp (by rw [hM]; exact hsd) hp (fun _ _ => hs) (by rw [hM]; exact hnz)
  obtain ⟨W', hW', hpos'⟩ := magnitude_posDef (Spec.recol σ M) (.npScalar sd) sdp (by
    show Spec.ValidSd _ M.c; rw [hM]; exact hsd) hp (fun _ _ => hs) (by
      intro t j ht hj
      have ht : t < M.r := ht
      have hj : j < n := by rw [← hM]; exact hj
      rw [recol_get' hσ hM t hj]
      exact hnz t _ ht ((hσ j).2 hj))
  have hpos' : Spec.PosDef (2 * (M.c * M.r)) (W'.map recip) := hpos'
  rw [hM] at hpos hpos'
  refine ⟨W, W', hW, hW', hpos, hpos', ?_⟩
  rw [map_recol hσ hM] at hW'
  set B := M.map (fun z => ((‖z‖ : ℝ) : ℂ)) with hB
  have hBc : B.c = n := hM
  have hBr : B.r = M.r := rfl
  obtain ⟨a, b, c, ha, hb, hc, he, hn⟩ := noise_diags naiveAll B (.npScalar sd) sdp (by rw [hBc]; exact hsd)
  obtain ⟨a', b', c', ha', hb', hc', he', hn'⟩ := noise_diags naiveAll (Spec.recol σ B) (.npScalar sd) sdp (by
    show Spec.ValidSd _ B.c; rw [hBc]; exact hsd)
  rw [hBc, hBr] at ha hb hc
  have ha' : a'.length = n * M.r := by rw [← hM]; exact ha'
  have hb' : b'.length = n * M.r := by rw [← hM]; exact hb'
  have hc' : c'.length = n * M.r := by rw [← hM]; exact hc'
  have e1 := (hn false).trans (covBlock_closed ha hb hc)
  have e1' := (hn' false).trans (covBlock_closed ha' hb' hc')
  obtain rfl := Except.ok.inj (hW.symm.trans e1)
  obtain rfl := Except.ok.inj (hW'.symm.trans e1')
  have hr0 : recip 0 = 0 := by simp [recip]
  rw [block_map hr0, block_map hr0]
  refine block_recol hσ (fun t j ht hj => ?_)
  obtain ⟨d1, d2, d3⟩ := he t (σ j) ht (by rw [hBc]; exact (hσ j).2 hj)
  obtain ⟨d1', d2', d3'⟩ := he' t j ht (by show j < B.c; rw [hBc]; exact hj)
  rw [recol_get' hσ hBc t hj] at d1' d2' d3'
  have d1' : a'.getD (Spec.pos M.r t j) 0 = _ := d1'
  have d2' : b'.getD (Spec.pos M.r t j) 0 = _ := d2'
  have d3' : c'.getD (Spec.pos M.r t j) 0 = _ := d3'
  rw [hBr] at d1 d2 d3
  simp only [map_getD_zero hr0]
  rw [d1, d2, d3, d1', d2', d3']
  exact ⟨rfl, rfl, rfl⟩

theorem turned_recol (hσ : Spec.Numbering n σ) {v i : Arr2 ℂ} (hv : v.c = n) (hi : i.r = v.r ∧ i.c = n) :
    ∃ ci, Arr2.zipWith (fun i v => i * (starRingEnd ℂ) v / ((‖v‖ : ℝ) : ℂ)) i v = .ok ci ∧
      Arr2.zipWith (fun i v => i * (starRingEnd ℂ) v / ((‖v‖ : ℝ) : ℂ)) (Spec.recol σ i) (Spec.recol σ v) = .ok (Spec.recol σ ci) ∧
      ci.r = v.r ∧ ci.c = n := by
  have hc : (Spec.recol σ i).r = (Spec.recol σ v).r ∧ (Spec.recol σ i).c = (Spec.recol σ v).c := ⟨hi.1, hi.2.trans hv.symm⟩
  unfold Arr2.zipWith
  rw [if_pos ⟨hi.1, hi.2.trans hv.symm⟩, if_pos hc]
  refine ⟨_, rfl, congrArg Except.ok (Arr2.ext' rfl rfl (fun t j ht hj => ?_)), hi.1, hi.2⟩
  have ht : t < i.r := ht
  have hj : j < i.c := hj
  have hjn : j < n := by rw [← hi.2]; exact hj
  refine (Arr2.ofFn_get _ (show t < (Spec.recol σ i).r from ht) (show j < (Spec.recol σ i).c from hj)).trans ?_
  rw [recol_get' hσ (x := Arr2.ofFn i.r i.c _) hi.2 t hjn, Arr2.ofFn_get _ ht (by rw [hi.2]; exact (hσ j).2 hjn),
    recol_get' hσ hi.2 t hjn, recol_get' hσ hv t hjn]

theorem centre_recol (hσ : Spec.Numbering n σ) (lap : Bool) {v i : Arr2 ℂ} (hv : v.c = n) (hi : i.c = n) :
    centreData lap (Spec.recol σ v) (Spec.recol σ i) = (Spec.recol σ (centreData lap v i).1, Spec.recol σ (centreData lap v i).2) := by
  have col : ∀ {m : Arr2 ℂ}, m.c = n → centreColumns (Spec.recol σ m) = Spec.recol σ (centreColumns m) := by
    intro m hm
    refine Arr2.ext' rfl rfl (fun t j ht hj => ?_)
    have ht : t < m.r := ht
    have hj : j < m.c := hj
    have hjn : j < n := by rw [← hm]; exact hj
    rw [recol_get σ _ (show t < (centreColumns m).r from ht) (show j < (centreColumns m).c from hj), centreColumns, centreColumns,
      Arr2.ofFn_get _ (show t < (Spec.recol σ m).r from ht) (show j < (Spec.recol σ m).c from hj),
      Arr2.ofFn_get _ ht (by rw [hm]; exact (hσ j).2 hjn), recol_get σ m ht hj]
    congr 2
    exact Finset.sum_congr rfl fun s hs => recol_get' hσ hm s hjn
  cases lap with
  | false => exact Prod.ext (col hv) (col hi)
  | true =>
    refine Prod.ext ?_ rfl
    show centreGlobal (Spec.recol σ v) = Spec.recol σ (centreGlobal v)
    refine Arr2.ext' rfl rfl (fun t j ht hj => ?_)
    have ht : t < v.r := ht
    have hj : j < v.c := hj
    have hjn : j < n := by rw [← hv]; exact hj
    rw [recol_get σ _ (show t < (centreGlobal v).r from ht) (show j < (centreGlobal v).c from hj), centreGlobal, centreGlobal,
      Arr2.ofFn_get _ (show t < (Spec.recol σ v).r from ht) (show j < (Spec.recol σ v).c from hj),
      Arr2.ofFn_get _ ht (by rw [hv]; exact (hσ j).2 hjn), recol_get σ v ht hj]
    congr 2
    refine Finset.sum_congr rfl fun s hs => ?_
    show ∑ k ∈ range v.c, _ = _
    rw [hv, ← renum_sum hσ (fun k => v.get s k)]
    exact Finset.sum_congr rfl fun k hk => recol_get' hσ hv s (mem_range.1 hk)

/-! ### fits -/

/-- the unweighted iterations of two numberings correspond -/
theorem unweighted_twins {lap : Bool} (hσ : Spec.Numbering n σ) {cfg cfg' : RegConfig} {x z yInit yInit' : Arr2 ℂ}
    (hf : FitSetup lap n cfg x z yInit) (hf' : FitSetup lap n cfg' (Spec.recol σ x) (Spec.recol σ z) yInit')
    (hc : Carries lap n cfg cfg' (Spec.renum n σ)) (hl : 0 < cfg.lam) (hsp : Spec.Spanning cfg.prior (nReal lap n))
    (hsp' : Spec.Spanning cfg'.prior (nReal lap n)) (ho' : ∀ t ∈ Spec.terms cfg'.prior, t.order = 1 ∨ t.order = 2)
    {solve : Solver} (hex : Spec.Exact solve) (htot : Spec.Total solve) {inv : Arr2 ℂ → Except PyErr (Arr2 ℂ)}
    (hinv : Spec.InvContract inv) {dt : Arr2 ℂ} (hdt : dtMatrix ℂ lap n = .ok dt)
    {A A' : Arr2 ℝ} (hA : regressionMatrix n x dt = .ok A) (hA' : regressionMatrix n (Spec.recol σ x) dt = .ok A') (s s' : FitState)
    (hs : Twins lap n cfg cfg' (Spec.renum n σ) dt s s') :
    ∃ u u' t, eivUnweightedStep solve inv cfg x z dt (Spec.stackReal z) s = .ok (u, t) ∧
      eivUnweightedStep solve inv cfg' (Spec.recol σ x) (Spec.recol σ z) dt (Spec.stackReal (Spec.recol σ z)) s' = .ok (u', t) ∧
      Twins lap n cfg cfg' (Spec.renum n σ) dt u u' := by
  have hcost : ∀ Y D : Arr2 ℂ, D.r = x.r → D.c = n →
      Spec.eivCost (Spec.unitWeights (2 * (n * x.r))) (Spec.unitWeights (2 * (n * x.r))) (Spec.recol σ x) (Spec.recol σ z)
        (Spec.renum n σ Y) (Spec.recol σ D) =
      Spec.eivCost (Spec.unitWeights (2 * (n * x.r))) (Spec.unitWeights (2 * (n * x.r))) x z Y D :=
    fun Y D h1 h2 => cost_recol hσ hf.xc hf.zs ⟨h1, h2⟩ (unit_recol hσ x.r) (unit_recol hσ x.r)
  have hu := unit_posDef (2 * (n * x.r))
  have hsq := hs.1
  have hsym := hs.2.1
  have hyM := hs.2.2.1
  have hsq' : Spec.IsSquare n s'.yMat := by rw [hyM]; exact renum_square _ _
  have hsym' : Spec.IsSymm s'.yMat := by rw [hyM]; exact renum_symm hsym
  obtain ⟨w, w', tw, hw, hw', htw⟩ := eiv_twins (xW := Spec.unitWeights (2 * (n * x.r))) (zW := Spec.unitWeights (2 * (n * x.r)))
    (xW' := Spec.unitWeights (2 * (n * x.r))) (zW' := Spec.unitWeights (2 * (n * x.r))) (h := Spec.recol σ) hf hf' hc hl hsp hsp' ho'
    hu hu.1 hu hu.1 (fun D h1 h2 => ⟨h1, h2⟩) (fun E h1 h2 => ⟨Spec.recol σ.symm E, h1, h2, recol_back hσ h2⟩)
    (fun Y D _ _ h1 h2 => hcost Y D h1 h2) hex htot hdt hA hA' s s' hs
  obtain ⟨-, -, -, y, y', Y, hst, hst', hY, hY'⟩ := hs
  have e := unit_step hf hex htot hinv hdt hA hst hsq hsym
  have e' := unit_step hf' hex htot hinv hdt hA' hst' hsq' hsym'
  have hrr : (Spec.recol σ x).r = x.r := rfl
  rw [hrr] at e'
  rw [hw] at e
  rw [hw'] at e'
  obtain ⟨u1, u2⟩ := unwStep_at hf hex hinv hdt hst hsq
  obtain ⟨u1', u2'⟩ := unwStep_at hf' hex hinv hdt hst' hsq'
  obtain ⟨u, t, hu1⟩ := u2 hl hsp htot
  obtain ⟨u', t', hu1'⟩ := u2' (by rw [hc.lam]; exact hl) hsp' htot
  rw [hu1] at e
  rw [hu1'] at e'
  obtain rfl : u = w := Except.ok.inj e
  obtain rfl : u' = w' := Except.ok.inj e'
  obtain ⟨xh, zh, yn, near, _, _, ht⟩ := u1 u t hu1
  obtain ⟨xh', zh', yn', near', _, _, ht'⟩ := u1' u' t' hu1'
  have m1 := nearest_min hf.xc hf.zs hsq near
  have m2 := nearest_min hf'.xc hf'.zs hsq' near'
  rw [hrr] at m2
  have hd : Spec.diff (Spec.recol σ x) xh' = Spec.recol σ (Spec.diff x xh) := by
    refine unit_unique (x := Spec.recol σ x) (z := Spec.recol σ z) (Y := s'.yMat) (n := n) hf'.xc hf'.zs ⟨rfl, hf.xc⟩ ⟨rfl, hf.xc⟩ ?_ ?_
    · exact m2
    · intro D h1 h2
      obtain ⟨E, e1, e2, rfl⟩ : ∃ E : Arr2 ℂ, E.r = x.r ∧ E.c = n ∧ Spec.recol σ E = D := ⟨Spec.recol σ.symm D, h1, h2, recol_back hσ h2⟩
      rw [hrr, hyM, hcost _ (Spec.diff x xh) rfl hf.xc, hcost _ _ e1 e2]
      exact m1 E e1 e2
  have hxh : xh' = Spec.recol σ xh := by
    refine Arr2.ext' (near'.1.trans near.1.symm) (near'.2.1.trans near.2.1.symm) (fun t j ht hj => ?_)
    rw [near'.1] at ht
    rw [near'.2.1] at hj
    have ht : t < x.r := ht
    have hjx : j < x.c := by rw [hf.xc]; exact hj
    have hjs : σ j < x.c := by rw [hf.xc]; exact (hσ j).2 hj
    have := congrArg (fun M => Arr2.get M t j) hd
    rw [recol_get' hσ (x := Spec.diff x xh) hf.xc t hj, Spec.diff, Spec.diff, Arr2.ofFn_get _ (show t < (Spec.recol σ x).r from ht)
      (show j < (Spec.recol σ x).c from hjx), Arr2.ofFn_get _ ht hjs, recol_get σ x ht hjx] at this
    rw [recol_get' hσ near.2.1 t hj]
    exact sub_right_injective this
  have hgu := htw.2.2.1
  have hadm : Spec.Admissible lap u.yMat := by
    obtain ⟨_, _, _, _, _, hm, _⟩ := u1 u t hu1
    exact (toMatrix_admissible lap n hdt hm).2
  have htt : t' = t := by
    rw [ht, ht', hxh, hgu, misfit_recol hσ near.2.1 hf.zs.2, sumSq_recol hσ near.2.1, hc.scale _ htw.1 hadm, hc.lam]
  subst htt
  exact ⟨u, u', t', hu1, hu1', htw⟩

/-- the unweighted fits of two numberings correspond -/
theorem unweighted_rel {lap : Bool} (hσ : Spec.Numbering n σ) {cfg cfg' : RegConfig} {x z yInit : Arr2 ℂ}
    (hf : FitSetup lap n cfg x z yInit) (hf' : FitSetup lap n cfg' (Spec.recol σ x) (Spec.recol σ z) (Spec.renum n σ yInit))
    (hsym : Spec.IsSymm yInit) (hc : Carries lap n cfg cfg' (Spec.renum n σ)) (hl : 0 < cfg.lam)
    (hsp : Spec.Spanning cfg.prior (nReal lap n))
    (hsp' : Spec.Spanning cfg'.prior (nReal lap n)) (ho' : ∀ t ∈ Spec.terms cfg'.prior, t.order = 1 ∨ t.order = 2)
    {solve : Solver} (hex : Spec.Exact solve) (htot : Spec.Total solve) {inv : Arr2 ℂ → Except PyErr (Arr2 ℂ)}
    (hinv : Spec.InvContract inv) :
    eivBody solve inv cfg' .fresh (Spec.recol σ x) (Spec.recol σ z) none none (Spec.renum n σ yInit) =
      ((eivBody solve inv cfg .fresh x z none none yInit).1,
        mapObj (Spec.renum n σ) (eivBody solve inv cfg .fresh x z none none yInit).2) := by
  obtain ⟨dt, A, y0, s, h1, h2, h3, h4, h5, -, h6⟩ := eivSetup_ok hf solve inv
  obtain ⟨dt', A', y0', s', h1', h2', h3', h4', h5', -, h6'⟩ := eivSetup_ok hf' solve inv
  obtain rfl := Except.ok.inj (h1.symm.trans h1')
  rw [h6 _ _ _ (.inl rfl), h6' _ _ _ (.inl rfl)]
  exact finish_rel hc (fun s s' hs => unweighted_twins hσ hf hf' hc hl hsp hsp' ho' hex htot hinv h1 h2 h2' s s' hs)
    (twins_start hc hf.init hsym h3 h4 h5 h3' h4' h5')

/-! ### runs -/

/-- a permutation of `Fin n` on all numbers -/
def numbering {n : Nat} (τ : Equiv.Perm (Fin n)) : Equiv.Perm ℕ where
  toFun i := if h : i < n then τ ⟨i, h⟩ else i
  invFun i := if h : i < n then τ.symm ⟨i, h⟩ else i
  left_inv i := by by_cases h : i < n <;> simp [h]
  right_inv i := by by_cases h : i < n <;> simp [h]

theorem numbering_val {n : Nat} (τ : Equiv.Perm (Fin n)) (i : Fin n) : numbering τ i = τ i := by
  show (if h : (i : ℕ) < n then (τ ⟨i, h⟩ : ℕ) else i) = τ i
  rw [dif_pos i.2]

theorem numbering_ok {n : Nat} (τ : Equiv.Perm (Fin n)) : Spec.Numbering n (numbering τ) := by
  intro i
  show (if h : i < n then (τ ⟨i, h⟩ : ℕ) else i) < n ↔ i < n
  by_cases h : i < n <;> simp [h]

theorem recol_of {T n : Nat} {τ : Equiv.Perm (Fin n)} {x x' : Arr2 ℂ} (h : Spec.Rewritten x x' 1 (fun _ => 1) (1 : Equiv.Perm (Fin T)) τ) :
    x' = Spec.recol (numbering τ) x := by
  obtain ⟨h1, h2⟩ := h.shape
  obtain ⟨h1', h2'⟩ := h.shape'
  refine Arr2.ext' (h1'.trans h1.symm) (h2'.trans h2.symm) (fun t j ht hj => ?_)
  rw [h1'] at ht
  rw [h2'] at hj
  have := h.entries ⟨t, ht⟩ ⟨j, hj⟩
  rw [recol_get _ x (by rw [h1]; exact ht) (by rw [h2]; exact hj)]
  have hv := numbering_val τ ⟨j, hj⟩
  dsimp only at hv
  rw [hv]
  simpa using this

namespace Spec

/-- `Y'` is the square matrix `Y` with the nodes numbered by `τ` -/
structure Renumbered {n : Nat} (τ : Equiv.Perm (Fin n)) (Y Y' : Arr2 ℂ) : Prop where
  square : IsSquare n Y
  square' : IsSquare n Y'
  entries : ∀ a b : Fin n, Y'.get a b = Y.get (τ a) (τ b)

end Spec

theorem renumbered_iff {n : Nat} {τ : Equiv.Perm (Fin n)} {Y Y' : Arr2 ℂ} :
    Spec.Renumbered τ Y Y' ↔ Spec.IsSquare n Y ∧ Y' = Spec.renum n (numbering τ) Y := by
  constructor
  · intro h
    refine ⟨h.square, Arr2.ext' h.square'.1 h.square'.2 (fun i j hi hj => ?_)⟩
    rw [h.square'.1] at hi
    rw [h.square'.2] at hj
    have := h.entries ⟨i, hi⟩ ⟨j, hj⟩
    rw [renum_get _ _ hi hj]
    have hv := numbering_val τ ⟨i, hi⟩
    have hw := numbering_val τ ⟨j, hj⟩
    dsimp only at hv hw
    rw [hv, hw]
    exact this
  · rintro ⟨h, rfl⟩
    refine ⟨h, renum_square _ _, fun a b => ?_⟩
    rw [renum_get _ _ a.2 b.2, numbering_val, numbering_val]

theorem seen_renum {n : Nat} {σ : Equiv.Perm ℕ} (hσ : Spec.Numbering n σ) {y : Arr2 ℂ} (h : Spec.LinesSeen n y) :
    Spec.LinesSeen n (Spec.renum n σ y) := by
  intro e he im
  obtain ⟨h1, h2⟩ := (mem_offPairs n e).1 he
  rw [renum_symPart hσ, renum_get σ _ h2 (h1.trans h2)]
  have hne : σ e.1 ≠ σ e.2 := fun h => (ne_of_gt h1) (σ.injective h)
  have a1 := (hσ e.1).2 h2
  have a2 := (hσ e.2).2 (h1.trans h2)
  rcases lt_or_gt_of_ne hne with hlt | hlt
  · rw [(symPart_symm n y).2]
    exact h (σ e.2, σ e.1) ((mem_offPairs n _).2 ⟨hlt, a2⟩) im
  · exact h (σ e.1, σ e.2) ((mem_offPairs n _).2 ⟨hlt, a1⟩) im

/-- C157 for `bayesian_eiv` without known lines: if the nodes of the measurements and of a symmetric initial estimate are numbered in
another way, every iteration, with its target, and the stored result are those of the first numbering, numbered in that way. -/
theorem C157_run {ext : NumExt} {cf : IdConf} (hex : Spec.Exact ext.solve) (htot : Spec.Total ext.solve)
    (hinv : Spec.InvContract ext.inv) (hl : 0 < cf.lambdaEiv) {T n : Nat} {τ : Equiv.Perm (Fin n)} {v i v' i' y0 y0' : Arr2 ℂ}
    (hv : Spec.Rewritten v v' 1 (fun _ => 1) (1 : Equiv.Perm (Fin T)) τ)
    (hi : Spec.Rewritten i i' 1 (fun _ => 1) (1 : Equiv.Perm (Fin T)) τ) (hy : Spec.Renumbered τ y0 y0') (hsym : Spec.IsSymm y0)
    (lap weighted pmu : Bool) (h90 : ¬ (lap = true ∧ cf.contrastEachRow = true ∧ cf.regularizeDiag = true))
    (hseen : Spec.LinesSeen n y0)
    (hdet : lap = true ∨ (cf.contrastEachRow = true ∧ cf.regularizeDiag = true ∧ cf.lambdaprime ≠ 0))
    (vsd isd : SdPolar) {ratings ratings' : List ℝ}
    (hw : weighted = true → n ≠ 1 ∧ 0 < vsd.m ∧ 0 < vsd.p ∧ ratings ≠ [] ∧ ratings' ≠ [] ∧
      (pmu = false → ∀ t j, t < T → j < n → v.get t j ≠ 0)) (K : Nat) (hK : 0 < K) (name : String) (st st' : Store) :
    ∃ Y log Y' log',
      bayesianEiv ext cf name (some v) (some i) vsd isd ratings y0 none lap weighted K pmu st =
        (.ok (Y, log), st.savez (resultFile .bayesian name) (bayesianNpz (Y, log))) ∧
      bayesianEiv ext cf name (some v') (some i') vsd isd ratings' y0' none lap weighted K pmu st' =
        (.ok (Y', log'), st'.savez (resultFile .bayesian name) (bayesianNpz (Y', log'))) ∧
      Spec.Renumbered τ Y Y' ∧
      List.Forall₂ (fun e e' : IterationStatus => e'.iteration = e.iteration ∧ e'.target = e.target ∧
        Spec.Renumbered τ e.params e'.params) log log' := by
  obtain ⟨hyq, rfl⟩ := renumbered_iff.1 hy
  obtain rfl := recol_of hv
  obtain rfl := recol_of hi
  obtain ⟨vr, vc⟩ := hv.shape
  obtain ⟨ir, ic⟩ := hi.shape
  have hσ := numbering_ok τ
  set σ := numbering τ
  obtain ⟨p, hp, hpa, hpu, hps, hpo⟩ := eiv_prior cf n y0 hyq none lap (fun _ h => (nomatch h)) h90
  obtain ⟨p', hp', hpa', hpu', hps', hpo'⟩ := eiv_prior cf n (Spec.renum n σ y0) (renum_square _ _) none lap (fun _ h => (nomatch h)) h90
  have hsp := hps hseen hdet
  have hsp' := hps' (seen_renum hσ hseen) hdet
  have hcar := complex_carries hσ cf hyq lap K h90 hp hp'
  have setup : ∀ cv ci : Arr2 ℂ, cv.r = T → cv.c = n → ci.r = T → ci.c = n →
      FitSetup lap n (regConfig cf p cf.lambdaEiv lap K) (centreData lap cv ci).1 (centreData lap cv ci).2 y0 ∧
      FitSetup lap n (regConfig cf p' cf.lambdaEiv lap K) (Spec.recol σ (centreData lap cv ci).1)
        (Spec.recol σ (centreData lap cv ci).2) (Spec.renum n σ y0) ∧ (centreData lap cv ci).1.r = T := by
    intro cv ci c1 c2 c3 c4
    obtain ⟨s1, s2, s3, s4⟩ := centreData_shape lap cv ci
    exact ⟨⟨rfl, rfl, s2.trans c2, ⟨by rw [s3, s1, c1, c3], s4.trans c4⟩, hyq, hpu, hpa⟩,
      ⟨rfl, rfl, s2.trans c2, ⟨by show (centreData lap cv ci).2.r = (centreData lap cv ci).1.r; rw [s3, s1, c1, c3], s4.trans c4⟩,
        renum_square _ _, hpu', hpa'⟩, s1.trans c1⟩
  -- both computations
  have key : ∃ obj Y, eivCompute ext cf p v i vsd isd ratings y0 lap weighted K pmu = fitted (.ok (), obj) ∧
      eivCompute ext cf p' (Spec.recol σ v) (Spec.recol σ i) vsd isd ratings' (Spec.renum n σ y0) lap weighted K pmu =
        fitted (.ok (), mapObj (Spec.renum n σ) obj) ∧ obj.admittance = some Y ∧ Spec.IsSquare n Y ∧
      ∀ e ∈ obj.iterations, Spec.IsSquare n e.params := by
    have fit : ∀ cv ci : Arr2 ℂ, cv.r = T → cv.c = n → ci.r = T → ci.c = n → ∀ W W' wi wi' : Arr2 ℝ,
        Spec.PosDef (2 * (n * T)) W → Spec.PosDef (2 * (n * T)) W' → Spec.RecolWeight T n σ W W' →
        ∃ obj Y, eivFit ext.solve ext.inv (regConfig cf p cf.lambdaEiv lap K) .fresh (centreData lap cv ci).1 (centreData lap cv ci).2
          (some W) (some wi) y0 = (.ok (), obj) ∧
        eivFit ext.solve ext.inv (regConfig cf p' cf.lambdaEiv lap K) .fresh (centreData lap (Spec.recol σ cv) (Spec.recol σ ci)).1
          (centreData lap (Spec.recol σ cv) (Spec.recol σ ci)).2 (some W') (some wi') (Spec.renum n σ y0) =
            (.ok (), mapObj (Spec.renum n σ) obj) ∧ obj.admittance = some Y ∧ Spec.IsSquare n Y ∧
          ∀ e ∈ obj.iterations, Spec.IsSquare n e.params := by
      intro cv ci c1 c2 c3 c4 W W' wi wi' hW hW' hWW
      obtain ⟨f1, f2, f3⟩ := setup cv ci c1 c2 c3 c4
      rw [centre_recol hσ lap c2 c4]
      rw [← f3] at hW hW' hWW
      have h := eiv_rel (xW := W) (zW := W) (xW' := W') (zW' := W') (h := Spec.recol σ) f1 f2 hsym hcar hl hsp hsp'
        (fun t ht => .inl (hpo' t ht)) hW hW.1 hW' hW'.1 (fun D h1 h2 => ⟨h1, h2⟩)
        (fun E h1 h2 => ⟨Spec.recol σ.symm E, h1, h2, recol_back hσ h2⟩)
        (fun Y D _ _ h1 h2 => cost_recol hσ f1.xc f1.zs ⟨h1, h2⟩ hWW hWW) hex htot ext.inv
      obtain ⟨obj, ho⟩ := C88_no_exception f1 hl hsp hW hW.1 hex htot ext.inv .fresh rfl
      rw [ho] at h
      obtain ⟨g1, g2⟩ := C32_eiv ext.solve ext.inv (regConfig cf p cf.lambdaEiv lap K) lap rfl _ _ (some W) (some wi) y0 ho
      obtain ⟨Y, gY, gs, -⟩ := g2 rfl hK
      rw [f1.xc] at gs g1
      exact ⟨obj, Y, ho, h, gY, gs, fun e he => (g1 e he).1⟩
    cases weighted with
    | false =>
      obtain ⟨f1, f2, f3⟩ := setup v i vr vc ir ic
      have h := unweighted_rel hσ f1 f2 hsym hcar hl hsp hsp' (fun t ht => .inl (hpo' t ht)) hex htot hinv
      obtain ⟨obj, ho⟩ := C89_no_exception f1 hl hsp hex htot hinv (xW := none) (zW := none) (.inl rfl) .fresh rfl
      rw [ho] at h
      obtain ⟨g1, g2⟩ := C32_eiv ext.solve ext.inv (regConfig cf p cf.lambdaEiv lap K) lap rfl _ _ none none y0 ho
      obtain ⟨Y, gY, gs, -⟩ := g2 rfl hK
      rw [f1.xc] at gs g1
      refine ⟨obj, Y, ?_, ?_, gY, gs, fun e he => (g1 e he).1⟩
      · simp only [eivCompute, eivWeights, Bool.false_and, Bool.false_eq_true, if_false, bind, Except.bind, pure, Except.pure]
        exact congrArg fitted ho
      · simp only [eivCompute, eivWeights, Bool.false_and, Bool.false_eq_true, if_false, bind, Except.bind, pure, Except.pure]
        rw [centre_recol hσ lap vc ic]
        exact congrArg fitted h
    | true =>
      obtain ⟨hn, hm, hph, hr, hr2, hnz⟩ := hw rfl
      have hq : ratings.map (fun r => isd.m * r) ≠ [] := by simpa using hr
      have hq' : ratings'.map (fun r => isd.m * r) ≠ [] := by simpa using hr2
      cases pmu with
      | true =>
        obtain ⟨W, W', hW, hW', hpos, hpos', hrw⟩ := average_recol hσ vc (sd := vsd.m) (sdp := vsd.p) hn hph hm
        obtain ⟨wi, hwi⟩ := noise_array_ok averageCov i _ isd.p true hq
        obtain ⟨wi', hwi'⟩ := noise_array_ok averageCov (Spec.recol σ i) _ isd.p true hq'
        have hwi : averageTrueNoiseCovariance i (ratedSd isd ratings) isd.p true = .ok wi := hwi
        have hwi' : averageTrueNoiseCovariance (Spec.recol σ i) (ratedSd isd ratings') isd.p true = .ok wi' := hwi'
        rw [vr] at hpos hpos' hrw
        obtain ⟨obj, Y, k1, k2, k3⟩ := fit v i vr vc ir ic W W' wi wi' hpos hpos' hrw
        refine ⟨obj, Y, ?_, ?_, k3⟩
        · simp only [eivCompute, eivWeights, hW, hwi, Bool.and_self, if_true, bind, Except.bind, pure, Except.pure]
          exact congrArg fitted k1
        · simp only [eivCompute, eivWeights, hW', hwi', Bool.and_self, if_true, bind, Except.bind, pure, Except.pure]
          exact congrArg fitted k2
      | false =>
        obtain ⟨W, W', hW, hW', hpos, hpos', hrw⟩ := magnitude_recol hσ vc (sd := vsd.m) (sdp := vsd.p * 100) hn (by positivity) hm
          (by rw [vr]; exact hnz rfl)
        obtain ⟨wi, hwi⟩ := noise_array_ok naiveAll i _ isd.p true hq
        obtain ⟨wi', hwi'⟩ := noise_array_ok naiveAll (Spec.recol σ i) _ isd.p true hq'
        have hwi : naiveNoiseCovariance i (ratedSd isd ratings) isd.p true = .ok wi := hwi
        have hwi' : naiveNoiseCovariance (Spec.recol σ i) (ratedSd isd ratings') isd.p true = .ok wi' := hwi'
        obtain ⟨ci, hci, hci', c1, c2⟩ := turned_recol hσ (v := v) (i := i) vc ⟨ir.trans vr.symm, ic⟩
        rw [vr] at hpos hpos' hrw c1
        obtain ⟨obj, Y, k1, k2, k3⟩ := fit (v.map (fun z => ((‖z‖ : ℝ) : ℂ))) ci vr vc c1 c2 (W.map recip) (W'.map recip) wi wi' hpos
          hpos' hrw
        refine ⟨obj, Y, ?_, ?_, k3⟩
        · simp only [eivCompute, eivWeights, hW, hci, hwi, Bool.and_false, Bool.false_eq_true, if_false, Bool.not_false,
            Bool.and_self, if_true, bind, Except.bind, pure, Except.pure]
          exact congrArg fitted k1
        · simp only [eivCompute, eivWeights, hW', hci', hwi', Bool.and_false, Bool.false_eq_true, if_false, Bool.not_false,
            Bool.and_self, if_true, bind, Except.bind, pure, Except.pure]
          rw [map_recol hσ vc]
          exact congrArg fitted k2
  obtain ⟨obj, Y, k1, k2, k3, k4, k5⟩ := key
  have hK0 : decide (K > 0) = true := by simpa using hK
  refine ⟨Y, obj.iterations, Spec.renum n σ Y, mapLog (Spec.renum n σ) obj.iterations, ?_, ?_, renumbered_iff.2 ⟨k4, rfl⟩, ?_⟩
  · have : eivCompute ext cf p v i vsd isd ratings y0 lap weighted K pmu = .ok (Y, obj.iterations) := by
      rw [k1]; simp only [fitted, k3]
    simp only [bayesianEiv, vc, hp, hK0, this]
  · have : eivCompute ext cf p' (Spec.recol σ v) (Spec.recol σ i) vsd isd ratings' (Spec.renum n σ y0) lap weighted K pmu =
        .ok (Spec.renum n σ Y, mapLog (Spec.renum n σ) obj.iterations) := by
      rw [k2]; simp only [fitted, mapObj, k3, Option.map_some]
    have hc : (Spec.recol σ v).c = n := vc
    simp only [bayesianEiv, hc, hp', hK0, this]
  · unfold mapLog
    rw [List.forall₂_map_right_iff]
    exact List.forall₂_same.2 (fun e he => ⟨rfl, rfl, renumbered_iff.2 ⟨k5 e he, rfl⟩⟩)

theorem rank_recol {σ : Equiv.Perm ℕ} {x : Arr2 ℂ} (hσ : Spec.Numbering x.c σ) (h : Spec.FullColumnRank x) :
    Spec.FullColumnRank (Spec.recol σ x) := by
  intro (v : Fin x.c → ℂ) hv
  let e : Fin x.c ≃ Fin x.c := ⟨fun j => ⟨σ j, (hσ j).2 j.2⟩, fun j => ⟨σ.symm j, (Numbering.symm hσ j).2 j.2⟩,
    fun j => by simp, fun j => by simp⟩
  have hw := h (fun j => v (e.symm j)) (by
    funext (t : Fin x.r)
    have := congrFun hv t
    refine Eq.trans ?_ this
    show ∑ j : Fin x.c, x.get t j * v (e.symm j) = ∑ j : Fin x.c, (Spec.recol σ x).get t j * v j
    rw [← Equiv.sum_comp e]
    refine Finset.sum_congr rfl (fun j _ => ?_)
    rw [recol_get σ x t.2 j.2, Equiv.symm_apply_apply]
    rfl)
  funext j
  have : v (e.symm (e j)) = 0 := congrFun hw (e j)
  rw [Equiv.symm_apply_apply] at this
  exact this

theorem centre_rewritten {T n : Nat} {τ : Equiv.Perm (Fin n)} {v i v' i' : Arr2 ℂ} (lap : Bool)
    (hv : Spec.Rewritten v v' 1 (fun _ => 1) (1 : Equiv.Perm (Fin T)) τ)
    (hi : Spec.Rewritten i i' 1 (fun _ => 1) (1 : Equiv.Perm (Fin T)) τ) :
    Spec.Rewritten (centreData lap v i).1 (centreData lap v' i').1 1 (fun _ => 1) (1 : Equiv.Perm (Fin T)) τ ∧
    Spec.Rewritten (centreData lap v i).2 (centreData lap v' i').2 1 (fun _ => 1) (1 : Equiv.Perm (Fin T)) τ := by
  have hσ := numbering_ok τ
  obtain ⟨s1, s2, s3, s4⟩ := centreData_shape lap v i
  obtain ⟨s1', s2', s3', s4'⟩ := centreData_shape lap v' i'
  obtain ⟨vr, vc⟩ := hv.shape
  obtain ⟨ir, ic⟩ := hi.shape
  refine ⟨⟨⟨s1.trans vr, s2.trans vc⟩, ⟨s1'.trans hv.shape'.1, s2'.trans hv.shape'.2⟩, fun t k => ?_⟩,
    ⟨⟨s3.trans ir, s4.trans ic⟩, ⟨s3'.trans hi.shape'.1, s4'.trans hi.shape'.2⟩, fun t k => ?_⟩⟩
  · rw [recol_of hv, recol_of hi, centre_recol hσ lap vc ic, recol_get' hσ (s2.trans vc) t k.2, numbering_val]
    simp
  · rw [recol_of hv, recol_of hi, centre_recol hσ lap vc ic, recol_get' hσ (s4.trans ic) t k.2, numbering_val]
    simp

theorem renum_halfSum {n : Nat} {σ : Equiv.Perm ℕ} (hσ : Spec.Numbering n σ) {y y0 : Arr2 ℂ} (hy : Spec.IsSquare n y)
    (h : halfSum y = .ok y0) : halfSum (Spec.renum n σ y) = .ok (Spec.renum n σ y0) := by
  rw [halfSum_eq hy] at h
  cases h
  rw [halfSum_eq (renum_square σ y)]
  exact congrArg Except.ok (renum_symPart hσ y)

/-- C157 for `standard_methods`: on data of full rank and with a gap after the first `n` singular values, the least squares, total least
squares and lasso estimates of the data in another numbering are the estimates, numbered in that way. -/
theorem C157_standard {ext : NumExt} {cf : IdConf} (hl : 0 ≤ cf.lambdaLasso) (hinv : Spec.InvContract ext.inv)
    (hsound : Spec.InvSound ext.inv) (hex : Spec.Exact ext.solve) (htot : Spec.Total ext.solve) (hpinv : Spec.PinvContract ext.pinv)
    (hsvd : Spec.SvdContract ext.svdVh) {T n : Nat} {τ : Equiv.Perm (Fin n)} {v i v' i' : Arr2 ℂ}
    (hv : Spec.Rewritten v v' 1 (fun _ => 1) (1 : Equiv.Perm (Fin T)) τ)
    (hi : Spec.Rewritten i i' 1 (fun _ => 1) (1 : Equiv.Perm (Fin T)) τ) (lap : Bool)
    (hrank : Spec.FullColumnRank (centreData lap v i).1) {xz : Arr2 ℂ}
    (hxz : hstack (centreData lap v i).1 (centreData lap v i).2 = .ok xz) (hgap : Spec.SingularGap xz n) (K : Nat) {B S L : Arr2 ℂ}
    (h : standardCompute ext cf v i lap K = .ok (B, S, L)) :
    ∃ B' S' L', standardCompute ext cf v' i' lap K = .ok (B', S', L') ∧ Spec.Renumbered τ B B' ∧ Spec.Renumbered τ S S' ∧
      Spec.Renumbered τ L L' := by
  obtain ⟨c1, c2⟩ := centre_rewritten lap hv hi
  have hσ := numbering_ok τ
  have vc := hv.shape.2
  have vc' := hv.shape'.2
  unfold standardCompute at h
  dsimp only at h
  obtain ⟨B0, hB, h⟩ := Prior.bind_ok h
  obtain ⟨S0, hS, h⟩ := Prior.bind_ok h
  obtain ⟨p, hp, h⟩ := Prior.bind_ok h
  obtain ⟨B', hB', b1, b2⟩ := C144_ols hpinv one_pos (fun _ => by simp) c1 c2 hB
  obtain ⟨S', hS', t1, t2⟩ := C144_tls hsvd hinv hsound one_pos (fun _ => by simp) c1 c2 hS hxz hgap
  have same : ∀ {x : Arr2 ℂ}, (x.r = T ∧ x.c = n) →
      Spec.Rewritten x x 1 (fun _ => 1) (1 : Equiv.Perm (Fin T)) (1 : Equiv.Perm (Fin n)) :=
    fun hx => ⟨hx, hx, fun t k => by simp⟩
  have hBs : Spec.IsSquare n B0 := by
    obtain ⟨B1, h1, h2, -⟩ := C144_ols hpinv one_pos (θ := fun _ => 1) (fun _ => by simp) (same c1.shape) (same c2.shape) hB
    obtain rfl := Except.ok.inj (h1.symm.trans hB)
    exact h2
  have hSs : Spec.IsSquare n S0 := by
    obtain ⟨S1, h1, h2, -⟩ := C144_tls hsvd hinv hsound one_pos (θ := fun _ => 1) (fun _ => by simp) (same c1.shape) (same c2.shape) hS
      hxz hgap
    obtain rfl := Except.ok.inj (h1.symm.trans hS)
    exact h2
  have rB : Spec.Renumbered τ B0 B' := ⟨hBs, b1, fun a b => by rw [b2]; simp⟩
  have rS : Spec.Renumbered τ S0 S' := ⟨hSs, t1, t2⟩
  obtain ⟨-, rfl⟩ := renumbered_iff.1 rB
  rw [vc] at hp
  obtain ⟨_, y0, p1, e1, f1⟩ := lasso_setup n B0 _ _ hBs lap cf K c1.shape.2 ⟨c2.shape.1.trans c1.shape.1.symm, c2.shape.2⟩
  obtain rfl := Except.ok.inj (hp.symm.trans p1)
  obtain ⟨p', y0', p1', e1', f1'⟩ := lasso_setup n (Spec.renum n (numbering τ) B0) _ _ (renum_square _ _) lap cf K c1.shape'.2
    ⟨c2.shape'.1.trans c1.shape'.1.symm, c2.shape'.2⟩
  obtain rfl := Except.ok.inj ((renum_halfSum hσ hBs e1).symm.trans e1')
  by_cases hK : K > 0
  · rw [if_pos hK] at h
    obtain ⟨_, e2, h⟩ := Prior.bind_ok h
    obtain rfl := Except.ok.inj (e1.symm.trans e2)
    have hid := identifiable_fullColumnRank lap n p cf.lambdaLasso _ c1.shape.2 hrank
    have hx' := recol_of c1
    have hz' := recol_of c2
    have hid' : Spec.Identifiable lap n p' cf.lambdaLasso (centreData lap v' i').1 := by
      refine identifiable_fullColumnRank lap n p' cf.lambdaLasso _ c1.shape'.2 ?_
      rw [hx']
      exact rank_recol (by rw [c1.shape.2]; exact hσ) hrank
    obtain ⟨obj, L0, o1, o2⟩ := C93_no_exception f1 hl hid hex htot
    have hor : ∀ {y : Arr2 ℂ}, Spec.IsSquare n y → ∀ {q}, buildLassoPrior n y lap = .ok q → ∀ t ∈ Spec.terms q, t.order = 1 ∨ t.order = 2 := by
      intro y hy q hq t ht
      obtain ⟨_, q1, _, _, _, qo, _⟩ := C43_computes n y hy lap
      obtain rfl := Except.ok.inj (q1.symm.trans hq)
      exact .inl (qo t ht)
    have f2 := f1'
    rw [hx', hz'] at f2
    have hid2 := hid'
    rw [hx'] at hid2
    have hrel := lasso_rel f1 f2 (halfSum_symm hBs e1).2 (lasso_carries hσ cf hBs lap K hp p1') hl hid hid2 (hor hBs hp)
      (hor (renum_square _ _) p1') (fun Y _ _ => misfit_recol hσ c1.shape.2 c2.shape.2) hex htot
    rw [o1, ← hx', ← hz'] at hrel
    obtain ⟨-, g2⟩ := C32_regression ext.solve (regConfig cf p cf.lambdaLasso lap K) lap rfl _ _ _ o1
    obtain ⟨L1, gL, gs, -⟩ := g2 rfl hK
    rw [c1.shape.2] at gs
    obtain rfl := Option.some.inj (o2.symm.trans gL)
    rw [o1] at h
    simp only [fitted, o2, bind, Except.bind, pure, Except.pure] at h
    cases h
    refine ⟨_, S', Spec.renum n (numbering τ) L, ?_, rB, rS, renumbered_iff.2 ⟨gs, rfl⟩⟩
    simp only [standardCompute, hB', hS', vc', p1', e1', hrel, fitted, mapObj, o2, Option.map_some, if_pos hK, bind, Except.bind, pure,
      Except.pure]
  · rw [if_neg hK] at h
    cases h
    refine ⟨_, S', _, ?_, rB, rS, rB⟩
    simp only [standardCompute, hB', hS', vc', p1', if_neg hK, bind, Except.bind, pure, Except.pure]

/-- C157 for `standard_methods` on data with noise below half the excitation: both runs return, and return the same estimates up to the
numbering. -/
theorem C157_noisy {ext : NumExt} {cf : IdConf} (hl : 0 ≤ cf.lambdaLasso) (hinv : Spec.InvContract ext.inv)
    (hsound : Spec.InvSound ext.inv) (hex : Spec.Exact ext.solve) (htot : Spec.Total ext.solve) (hpinv : Spec.PinvContract ext.pinv)
    (hsvd : Spec.SvdContract ext.svdVh) {T n : Nat} {τ : Equiv.Perm (Fin n)} {v i v' i' x0 z0 Y : Arr2 ℂ}
    (hv : Spec.Rewritten v v' 1 (fun _ => 1) (1 : Equiv.Perm (Fin T)) τ)
    (hi : Spec.Rewritten i i' 1 (fun _ => 1) (1 : Equiv.Perm (Fin T)) τ) (lap : Bool) (hY : Y.r = Y.c) {ε σ : ℝ}
    (hN : Spec.Noisy (centreData lap v i).1 (centreData lap v i).2 x0 z0 Y ε) (hσ : Spec.AtLeast x0 σ) (hε : 0 ≤ ε) (hεσ : 2 * ε < σ)
    (K : Nat) :
    ∃ B S L B' S' L', standardCompute ext cf v i lap K = .ok (B, S, L) ∧ standardCompute ext cf v' i' lap K = .ok (B', S', L') ∧
      Spec.Renumbered τ B B' ∧ Spec.Renumbered τ S S' ∧ Spec.Renumbered τ L L' := by
  obtain ⟨B, S, L, h, -⟩ := standard_noisy hl hinv hex htot hpinv hsvd hY hN hσ hε hεσ K
  obtain ⟨c1, c2⟩ := centre_rewritten lap hv hi
  obtain ⟨xz, hxz, -⟩ := hstack_ok (x := (centreData lap v i).1) (z := (centreData lap v i).2) (c1.shape.1.trans c2.shape.1.symm)
  have hgap := noisy_gap hN hσ hε hεσ hY hxz
  rw [c1.shape.2] at hgap
  obtain ⟨B', S', L', r⟩ := C157_standard hl hinv hsound hex htot hpinv hsvd hv hi lap (noisy_fullColumnRank hN hσ (by linarith)) hxz hgap
    K h
  exact ⟨B, S, L, B', S', L', h, r⟩

/-! ### two nodes, exchanged -/

theorem swap_val : ∀ k : Fin 2, ((Equiv.swap (0 : Fin 2) 1 k : Fin 2) : Nat) = 1 - k := by decide

/-- the data of `demo_C126` with the nodes exchanged -/
theorem demo_C157_noisy (cf : IdConf) (hl : 0 ≤ cf.lambdaLasso) (K : Nat) : ∃ v' i' B S L B' S' L', v' ≠ demoX126 ∧
    standardCompute ⟨exactPinv, exactSvd, exactInv, exactSolve⟩ cf demoX126 demoZ126 false K = .ok (B, S, L) ∧
    standardCompute ⟨exactPinv, exactSvd, exactInv, exactSolve⟩ cf v' i' false K = .ok (B', S', L') ∧
    Spec.Renumbered (Equiv.swap (0 : Fin 2) 1) B B' ∧ Spec.Renumbered (Equiv.swap (0 : Fin 2) 1) S S' ∧ Spec.Renumbered (Equiv.swap (0 : Fin 2) 1) L L' := by
  obtain ⟨σ, hσ, hat⟩ := atLeast_of_rank demo126_rank
  have hN : Spec.Noisy (centreData false demoX126 demoZ126).1 (centreData false demoX126 demoZ126).2 demoX126 demoZ126 demoY126 0 := by
    rw [demo126_centred]; exact demo126_noisy
  refine ⟨Arr2.ofFn 4 2 (fun t j => demoX126.get t (1 - j)), Arr2.ofFn 4 2 (fun t j => demoZ126.get t (1 - j)), ?_⟩
  obtain ⟨B, S, L, B', S', L', r⟩ := C157_noisy (ext := ⟨exactPinv, exactSvd, exactInv, exactSolve⟩) (T := 4) (n := 2) (τ := Equiv.swap 0 1) hl
    exactInv_contract exactInv_sound exactSolve_exact exactSolve_total exactPinv_contract exactSvd_contract (v := demoX126) (i := demoZ126)
    (v' := Arr2.ofFn 4 2 (fun t j => demoX126.get t (1 - j))) (i' := Arr2.ofFn 4 2 (fun t j => demoZ126.get t (1 - j)))
    ⟨⟨rfl, rfl⟩, ⟨rfl, rfl⟩, fun t k => by rw [Arr2.ofFn_get _ t.2 k.2, swap_val]; simp⟩
    ⟨⟨rfl, rfl⟩, ⟨rfl, rfl⟩, fun t k => by rw [Arr2.ofFn_get _ t.2 k.2, swap_val]; simp⟩ false rfl hN hat le_rfl (by simpa using hσ) K
  refine ⟨B, S, L, B', S', L', fun h => ?_, r⟩
  have h0 := congrArg (fun A => Arr2.get A 0 0) h
  simp [demoX126, sign126, Arr2.ofFn_get'] at h0

/-- two samples of two nodes with the nodes exchanged, fitted with weights and the prior -/
theorem demo_C157 (st st' : Store) : ∃ Y log Y' log',
    bayesianEiv ⟨exactPinv, exactSvd, exactInv, exactSolve⟩ demoConf126 "a" (some demoV126)
      (some (Arr2.ofFn 2 2 fun t j => if t = 0 then (if j = 0 then 1 else 2) else 3)) ⟨1, 1⟩ ⟨1, 1⟩ [1, 1] demoY126 none false true 5 false
      st = (.ok (Y, log), st.savez (resultFile .bayesian "a") (bayesianNpz (Y, log))) ∧
    bayesianEiv ⟨exactPinv, exactSvd, exactInv, exactSolve⟩ demoConf126 "a" (some (Arr2.ofFn 2 2 fun t j => demoV126.get t (1 - j)))
      (some (Arr2.ofFn 2 2 fun t j => if t = 0 then (if j = 0 then 2 else 1) else 3)) ⟨1, 1⟩ ⟨1, 1⟩ [1, 1] demoY126 none false true 5 false
      st' = (.ok (Y', log'), st'.savez (resultFile .bayesian "a") (bayesianNpz (Y', log'))) ∧
    Spec.Renumbered (Equiv.swap (0 : Fin 2) 1) Y Y' ∧
    List.Forall₂ (fun e e' : IterationStatus => e'.iteration = e.iteration ∧ e'.target = e.target ∧
      Spec.Renumbered (Equiv.swap (0 : Fin 2) 1) e.params e'.params) log log' := by
  refine C157_run (T := 2) (n := 2) exactSolve_exact exactSolve_total exactInv_contract one_pos ⟨⟨rfl, rfl⟩, ⟨rfl, rfl⟩, fun t k => ?_⟩
    ⟨⟨rfl, rfl⟩, ⟨rfl, rfl⟩, fun t k => ?_⟩ ⟨⟨rfl, rfl⟩, ⟨rfl, rfl⟩, fun a b => ?_⟩ demoY126_symm false true false (by simp)
    demoY126_seen (.inr ⟨rfl, rfl, one_ne_zero⟩) _ _ (fun _ => ⟨by decide, one_pos, one_pos, by simp, by simp, fun _ t j ht hj => ?_⟩) 5
    (by norm_num) "a" st st'
  · rw [Arr2.ofFn_get _ t.2 k.2, swap_val]; simp
  · rw [Arr2.ofFn_get _ t.2 k.2, Arr2.ofFn_get _ (Fin.is_lt _) (Fin.is_lt _), swap_val]
    fin_cases t <;> fin_cases k <;> simp
  · rw [demoY126, Arr2.ofFn_get _ a.2 b.2, Arr2.ofFn_get _ (Fin.is_lt _) (Fin.is_lt _), swap_val, swap_val]
    fin_cases a <;> fin_cases b <;> simp
  · rw [demoV126, Arr2.ofFn_get _ ht hj]
    split <;> simp

end
end Verif
