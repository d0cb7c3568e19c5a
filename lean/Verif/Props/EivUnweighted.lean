/-
C40, C41: the unweighted branch of the error-in-variables regression of `src/models/error_in_variable.py`.
-/
import Verif.Lemmas.Projector
import Verif.Props.Eiv

namespace Verif
open Finset Matrix
noncomputable section

/-! ### C40 the projector -/

/-- C40: the matrix inverted by the code is invertible, and the projector is idempotent and Hermitian, for every
admittance matrix. -/
theorem C40_projector {inv : Arr2 ℂ → Except PyErr (Arr2 ℂ)} (hinv : Spec.InvContract inv) (n : Nat) (Y : Arr2 ℂ)
    (hY : Spec.IsSquare n Y) :
    ∃ p, projector inv n Y = .ok p ∧ Spec.IsSquare (n + n) p ∧ p.matmul p = .ok p ∧ conjT p = p := by
  obtain ⟨p, N, hp, hr, hc, _, _, hker, hm⟩ := projector_ok hinv n Y hY
  obtain ⟨_, h2, h3, _⟩ := proj_props N hker _ hm
  refine ⟨p, hp, ⟨hr, hc⟩, ?_, ?_⟩
  · obtain ⟨q, hq, qr, qc, qm⟩ := Arr2.matmul_mat (A := p) (B := p) ⟨hr, hc⟩ ⟨hr, hc⟩
    rw [hq]
    congr 1
    exact Arr2.toMat_inj ⟨qr, qc⟩ ⟨hr, hc⟩ (by rw [qm, h3])
  · exact Arr2.toMat_inj (r := n + n) (c := n + n) ⟨hc, hr⟩ ⟨hr, hc⟩ (by rw [toMat_conjT, h2])

/-- squared distance of two data matrices -/
def Spec.dist2 (x x' : Arr2 ℂ) : ℝ := ∑ i ∈ range x.r, ∑ j ∈ range x.c, Complex.normSq (x.get i j - x'.get i j)

/-- rows of data satisfying the power-flow equation `z' = x' Y` -/
def Spec.Consistent2 (x' z' Y : Arr2 ℂ) : Prop := x'.matmul Y = .ok z'

/-- split a sum over stacked columns -/
theorem dist_split {T n : Nat} {W W' x z x' z' : Arr2 ℂ} (hx : x.r = T ∧ x.c = n) (hz : z.r = T ∧ z.c = n)
    (h1 : ∀ i j, i < T → j < n → W.get i j = x.get i j ∧ W.get i (n + j) = z.get i j)
    (h2 : ∀ i j, i < T → j < n → W'.get i j = x'.get i j ∧ W'.get i (n + j) = z'.get i j) :
    ∑ i : Fin T, ∑ j : Fin (n + n), Complex.normSq ((W.toMat T (n + n) - W'.toMat T (n + n)) i j) =
      Spec.dist2 x x' + Spec.dist2 z z' := by
  unfold Spec.dist2
  rw [hx.1, hx.2, hz.1, hz.2, ← Finset.sum_add_distrib,
    ← Fin.sum_univ_eq_sum_range (fun i => ∑ j ∈ range n, Complex.normSq (x.get i j - x'.get i j) +
      ∑ j ∈ range n, Complex.normSq (z.get i j - z'.get i j)) T]
  apply Finset.sum_congr rfl
  intro i _
  rw [Fin.sum_univ_add, ← Fin.sum_univ_eq_sum_range (fun j => Complex.normSq (x.get i j - x'.get i j)) n,
    ← Fin.sum_univ_eq_sum_range (fun j => Complex.normSq (z.get i j - z'.get i j)) n]
  congr 1
  · apply Finset.sum_congr rfl
    intro j _
    show Complex.normSq (W.get i j - W'.get i j) = _
    rw [(h1 i j i.2 j.2).1, (h2 i j i.2 j.2).1]
  · apply Finset.sum_congr rfl
    intro j _
    show Complex.normSq (W.get i (n + j) - W'.get i (n + j)) = _
    rw [(h1 i j i.2 j.2).2, (h2 i j i.2 j.2).2]

/-- consistent rows are in the kernel of `[Y; -I]`, and conversely -/
theorem kernel_iff {T n : Nat} {Y W x z : Arr2 ℂ} (hY : Spec.IsSquare n Y) (hx : x.r = T ∧ x.c = n)
    (hz : z.r = T ∧ z.c = n)
    (h1 : ∀ i j, i < T → j < n → W.get i j = x.get i j ∧ W.get i (n + j) = z.get i j)
    {N : Matrix (Fin (n + n)) (Fin n) ℂ} (e1 : ∀ i j, N (Fin.castAdd n i) j = Y.get i j)
    (e2 : ∀ i j, N (Fin.natAdd n i) j = if i = j then -1 else 0) :
    W.toMat T (n + n) * N = 0 ↔ Spec.Consistent2 x z Y := by
  have hent : ∀ (i : Fin T) (j : Fin n), (W.toMat T (n + n) * N) i j = x.mulGet Y i j - z.get i j := by
    intro i j
    rw [Matrix.mul_apply, Fin.sum_univ_add]
    simp only [e1, e2, mul_ite, mul_neg, mul_one, mul_zero, Finset.sum_ite_eq', Finset.mem_univ, if_true]
    rw [sub_eq_add_neg]
    congr 1
    · unfold Arr2.mulGet
      rw [hx.2, ← Fin.sum_univ_eq_sum_range (fun k => x.get i k * Y.get k j) n]
      apply Finset.sum_congr rfl
      intro k _
      show W.get i k * _ = _
      rw [(h1 i k i.2 k.2).1]
    · show -W.get i (n + j) = _
      rw [(h1 i j i.2 j.2).2]
  unfold Spec.Consistent2
  rw [Arr2.matmul_ok x Y (by rw [hx.2, hY.1])]
  constructor
  · intro h
    congr 1
    refine Arr2.ext' (A := Arr2.ofFn x.r Y.c (x.mulGet Y)) (B := z) (hx.1.trans hz.1.symm) (hY.2.trans hz.2.symm) ?_
    intro i j hi hj
    have hi' : i < x.r := hi
    have hj' : j < Y.c := hj
    rw [Arr2.ofFn_get _ hi' hj']
    rw [hx.1] at hi'; rw [hY.2] at hj'
    have := congrFun (congrFun h ⟨i, hi'⟩) ⟨j, hj'⟩
    rw [hent] at this
    exact sub_eq_zero.1 this
  · intro h
    have hz' := Except.ok.inj h
    ext i j
    rw [hent, ← hz', Arr2.ofFn_get _ (by rw [hx.1]; exact i.2) (by rw [hY.2]; exact j.2)]
    simp

/-- C40: the projected data satisfy the power-flow equation for the current matrix, and among all consistent data they
are nearest to the measurements. -/
theorem C40_projected_data {inv : Arr2 ℂ → Except PyErr (Arr2 ℂ)} (hinv : Spec.InvContract inv) (n : Nat)
    {Y x z : Arr2 ℂ} (hY : Spec.IsSquare n Y) (hx : x.c = n) (hz : z.r = x.r ∧ z.c = n) :
    ∃ pd xh zh, projectedData inv Y x z = .ok pd ∧ pd.r = x.r ∧ pd.c = n + n ∧
      slice2 pd 0 pd.r 0 n = xh ∧ slice2 pd 0 pd.r n (n + n) = zh ∧ Spec.Consistent2 xh zh Y ∧
      ∀ x' z', x'.r = x.r → x'.c = n → Spec.Consistent2 x' z' Y →
        Spec.dist2 x xh + Spec.dist2 z zh ≤ Spec.dist2 x x' + Spec.dist2 z z' := by
  obtain ⟨p, N, hp, hr, hc, e1, e2, hker, hm⟩ := projector_ok hinv n Y hY
  obtain ⟨W, hW, hWr, hWc, w1, w2⟩ := hstack_ok (x := x) (z := z) hz.1.symm
  rw [hx] at w1 w2 hWc
  rw [hz.2] at w2 hWc
  obtain ⟨pd, hpd, pr, pc, pm⟩ := Arr2.matmul_mat (A := W) (B := p) (m := x.r) (k := n + n) (n := n + n) ⟨hWr, hWc⟩ ⟨hr, hc⟩
  obtain ⟨g1, g2, g3, g4⟩ := proj_props N hker _ hm
  have hsplit : ∀ i j, i < x.r → j < n → pd.get i j = (slice2 pd 0 pd.r 0 n).get i j ∧
      pd.get i (n + j) = (slice2 pd 0 pd.r n (n + n)).get i j := by
    intro i j hi hj
    unfold slice2
    rw [Arr2.ofFn_get _ (by rw [pr]; exact hi) (by omega), Arr2.ofFn_get _ (by rw [pr]; exact hi) (by omega), Nat.zero_add,
      Nat.zero_add]
    exact ⟨rfl, rfl⟩
  have sx : (slice2 pd 0 pd.r 0 n).r = x.r ∧ (slice2 pd 0 pd.r 0 n).c = n := ⟨by show pd.r - 0 = _; omega, rfl⟩
  have sz : (slice2 pd 0 pd.r n (n + n)).r = x.r ∧ (slice2 pd 0 pd.r n (n + n)).c = n :=
    ⟨by show pd.r - 0 = _; omega, by show n + n - n = n; omega⟩
  refine ⟨pd, _, _, ?_, pr, pc, rfl, rfl, ?_, ?_⟩
  · unfold projectedData
    simp only [hx, hp, hW, hpd, bind, Except.bind]
  · rw [← kernel_iff hY sx sz hsplit e1 e2, pm, Matrix.mul_assoc, g1, Matrix.mul_zero]
  · intro x' z' hx'r hx'c hcons
    have hz' := hcons
    unfold Spec.Consistent2 at hz'
    obtain ⟨_, z1, z2, _⟩ := Arr2.matmul_inv hz'
    obtain ⟨W', hW', hWr', hWc', w1', w2'⟩ := hstack_ok (x := x') (z := z') z1.symm
    rw [hx'c, hx'r] at w1' w2'
    rw [z2, hY.2] at w2'
    have hd := fun i j hi hj => And.intro (w1' i j hi hj) (w2' i j hi hj)
    have hk := (kernel_iff (T := x.r) hY ⟨hx'r, hx'c⟩ ⟨z1.trans hx'r, z2.trans hY.2⟩ hd e1 e2).2 hcons
    have hn := proj_nearest N hker _ hm (W.toMat x.r (n + n)) (W'.toMat x.r (n + n)) hk
    rw [← pm] at hn
    have hwd := fun i j hi hj => And.intro (w1 i j hi hj) (w2 i j hi hj)
    rwa [dist_split (x := x) (z := z) ⟨rfl, hx⟩ hz hwd hsplit, dist_split (x := x) (z := z) ⟨rfl, hx⟩ hz hwd hd] at hn

/-- a matrix and an inverse meeting the hypotheses of C40 -/
example : Spec.InvContract exactInv ∧ Spec.IsSquare 2 skewY := ⟨exactInv_contract, rfl, rfl⟩

/-! ### C41 the target of the unweighted branch -/

/-- the linear system of one unweighted iteration -/
theorem unwStep_system (solve : Solver) (inv : Arr2 ℂ → Except PyErr (Arr2 ℂ)) (cfg : RegConfig) (lap : Bool) {x z : Arr2 ℂ}
    {dt : Arr2 ℂ} (hdt : dtMatrix ℂ lap x.c = .ok dt) {pd eqp : Arr2 ℂ} {A : Arr2 ℝ} {m N : Nat} (hN : N = nReal lap x.c)
    {b : List ℝ} (hb : b.length = m) (hp : UsablePrior cfg.prior N) (s : FitState) (hM : s.M.r = N ∧ s.M.c = N)
    (hmu : s.mu.length = N) (hpd : projectedData inv s.yMat x z = .ok pd)
    (heqp : slice2 pd 0 pd.r 0 (min x.c pd.c) = eqp)
    (hAm : regressionMatrix x.c eqp dt = .ok A) (hA : A.r = m ∧ A.c = N) :
    ∃ sys rhs, (sys.r = N ∧ sys.c = N) ∧ rhs.length = N ∧
      sys.toMat N N = (A.toMat m N).transpose * A.toMat m N + cfg.lam • s.M.toMat N N ∧
      (∀ e, solve sys rhs = .error e → eivUnweightedStep solve inv cfg x z dt b s = .error e) ∧
      (∀ y, solve sys rhs = .ok y → y.length = N →
        ∃ ym, toMatrix x.c dt y = .ok ym ∧ eivUnweightedStep solve inv cfg x z dt b s =
          .ok (⟨ym, Prior.quadA N cfg.prior.alpha y (Spec.terms cfg.prior),
              Prior.linB N cfg.prior.alpha y (Spec.terms cfg.prior)⟩,
            ‖(((toVec m b - (A.toMat m N).mulVec (toVec N y)) ⬝ᵥ (toVec m b - (A.toMat m N).mulVec (toVec N y)) : ℝ) : ℂ) +
              ((vectorizeMatrix eqp).map (fun t => t * t)).sum +
              ((cfg.lam * Prior.pen N cfg.prior.alpha y (Spec.terms cfg.prior) : ℝ) : ℂ)‖)) := by
  obtain ⟨ata, hata, har, hac, hag⟩ := Arr2.matmul_mat (A := A.T) (B := A) (m := N) (k := m) (n := N) ⟨hA.2, hA.1⟩ hA
  obtain ⟨sys, hsys, hsr, hsc, hsg⟩ := Arr2.zipWith_mat (fun a b => a + cfg.lam * b) (A := ata) (B := s.M) ⟨har, hac⟩ hM
  obtain ⟨atb, hatb, hal, hat⟩ := Arr2.mulVec_mat (A := A.T) (v := b) (m := N) (k := m) ⟨hA.2, hA.1⟩ hb
  obtain ⟨rhs, hrhs, hrl, hrt⟩ := broadcast1_mat (fun p q => p + cfg.lam * q) (u := atb) (v := s.mu) hal hmu
  refine ⟨sys, rhs, ⟨hsr, hsc⟩, hrl, ?_, ?_, ?_⟩
  · rw [hsg, hag, Arr2.toMat_T]
    ext i j
    simp
  · intro e he
    simp only [eivUnweightedStep, hpd, heqp, hAm, hata, addScaled, hsys, hatb, hrhs, he, bind, Except.bind]
  · intro y hy hyl
    obtain ⟨ym, v, _, _, _, _, hym⟩ := toMatrix_ok lap x.c hdt (y := y) (by omega)
    obtain ⟨ay, hay, hayl, hayt⟩ := Arr2.mulVec_mat (A := A) (v := y) hA hyl
    obtain ⟨db, hdb, hdl, hdt'⟩ := broadcast1_mat (fun p q => p - q) (u := b) (v := ay) hb hayl
    refine ⟨ym, hym, ?_⟩
    have hlog := hp.log hyl (by rw [hN]; exact nReal_ne_one lap x.c)
    simp only [eivUnweightedStep, hpd, heqp, hAm, hata, addScaled, hsys, hatb, hrhs, hy, hym, hlog, hay, hdb, bind,
      Except.bind, pure, Except.pure]
    rw [sqNorm_eq hdl, hdt', hayt]
    rfl

/-- data consistent with `Y` and nearest to the measurements -/
def Spec.NearestConsistent (n : Nat) (x z Y xh zh : Arr2 ℂ) : Prop :=
  xh.r = x.r ∧ xh.c = n ∧ Spec.Consistent2 xh zh Y ∧
  ∀ x' z', x'.r = x.r → x'.c = n → Spec.Consistent2 x' z' Y →
    Spec.dist2 x xh + Spec.dist2 z zh ≤ Spec.dist2 x x' + Spec.dist2 z z'

/-- sum of the squares of the entries, as the code computes it -/
def Spec.sumSq (a : Arr2 ℂ) : ℂ := ∑ j ∈ range a.c, ∑ i ∈ range a.r, a.get i j * a.get i j

/-- penalty of a matrix -/
def Spec.penaltyOf (lap : Bool) (n : Nat) (p : Prior) (Y : Arr2 ℂ) : ℝ :=
  ((Spec.terms p).map (fun q => q.scale (nReal lap n) p.alpha (Spec.params lap n Y))).sum

theorem list_sum_flatMap_range {α : Type} [AddCommMonoid α] (n : Nat) (f : Nat → List α) :
    ((List.range n).flatMap f).sum = ∑ j ∈ range n, (f j).sum := by
  induction n with
  | zero => rfl
  | succ n ih => rw [List.range_succ, List.flatMap_append, List.sum_append, ih, Finset.sum_range_succ]; simp

theorem sumSq_eq (a : Arr2 ℂ) : ((vectorizeMatrix a).map (fun t => t * t)).sum = Spec.sumSq a := by
  unfold vectorizeMatrix Spec.sumSq
  rw [List.map_flatMap, list_sum_flatMap_range]
  apply Finset.sum_congr rfl
  intro j _
  rw [List.map_map, list_sum_map_range]
  rfl

/-- one unweighted iteration: nearest consistent data, then the parameters, and the logged target -/
theorem unwStep_at {lap : Bool} {n : Nat} {cfg : RegConfig} {x z yInit : Arr2 ℂ} (h : FitSetup lap n cfg x z yInit)
    {solve : Solver} (hex : Spec.Exact solve) {inv : Arr2 ℂ → Except PyErr (Arr2 ℂ)} (hinv : Spec.InvContract inv)
    {dt : Arr2 ℂ} (hdt : dtMatrix ℂ lap n = .ok dt) {y : List ℝ} {s : FitState}
    (hs : StateAt cfg.prior (nReal lap n) y s) (hsq : Spec.IsSquare n s.yMat) :
    (∀ s' t, eivUnweightedStep solve inv cfg x z dt (Spec.stackReal z) s = .ok (s', t) →
      ∃ xh zh y', Spec.NearestConsistent n x z s.yMat xh zh ∧
      StateAt cfg.prior (nReal lap n) y' s' ∧ toMatrix n dt y' = .ok s'.yMat ∧
      t = ‖((Spec.misfit xh z s'.yMat : ℝ) : ℂ) + Spec.sumSq xh +
        ((cfg.lam * Spec.penaltyOf lap n cfg.prior s'.yMat : ℝ) : ℂ)‖) ∧
    (0 < cfg.lam → Spec.Spanning cfg.prior (nReal lap n) → Spec.Total solve →
      ∃ s' t, eivUnweightedStep solve inv cfg x z dt (Spec.stackReal z) s = .ok (s', t)) := by
  have hxc := h.xc
  subst hxc
  obtain ⟨hyl, hM, hmu⟩ := hs
  obtain ⟨psym, ppsd, _, _⟩ := prior_matrix h.prior h.alpha hyl (nReal_ne_one lap x.c)
  have hbl : (Spec.stackReal z).length = 2 * (x.c * x.r) := by rw [stackReal_length, h.zs.1, h.zs.2]
  obtain ⟨pd, xh, zh, hpd, pr, pc, e1, e2, hcons, hnear⟩ := C40_projected_data hinv x.c hsq rfl h.zs
  have hmin : min x.c pd.c = x.c := by rw [pc]; omega
  have hxr : xh.r = x.r := by rw [← e1]; show pd.r - 0 = _; rw [pr]; omega
  have hxc : xh.c = x.c := by rw [← e1]; rfl
  have hxh : Spec.NearestConsistent x.c x z s.yMat xh zh := ⟨hxr, hxc, hcons, hnear⟩
  obtain ⟨A, hA, hAr, hAc, _⟩ := regressionMatrix_spec lap x.c hdt xh hxc
  rw [hxr] at hAr
  obtain ⟨sys, rhs, hss, hrl, hsm, herr, hok⟩ := unwStep_system solve inv cfg lap hdt rfl hbl h.prior s
    (by rw [hM]; exact ⟨rfl, rfl⟩) (by rw [hmu]; simp [Prior.linB]) hpd (by rw [hmin]; exact e1) hA ⟨hAr, hAc⟩
  refine ⟨?_, ?_⟩
  · intro s' t hstep
    cases hsol : solve sys rhs with
    | error e => rw [herr e hsol] at hstep; cases hstep
    | ok y' =>
      have hy'l : y'.length = nReal lap x.c := by
        obtain ⟨f1, _⟩ := Arr2.mulVec_inv (hex _ _ _ hsol)
        rw [← f1, hss.2]
      obtain ⟨ym, hym, hst⟩ := hok y' hsol hy'l
      rw [hst] at hstep
      cases hstep
      refine ⟨xh, zh, y', hxh, ⟨hy'l, rfl, rfl⟩, hym, ?_⟩
      have hmis := real_misfit lap x.c hdt (x := xh) (z := z) hxc ⟨h.zs.1.trans hxr.symm, h.zs.2⟩ hA hy'l hym
      rw [hxr, stackReal_eq] at hmis
      rw [hmis, sumSq_eq]
      unfold Spec.penaltyOf
      rw [params_of_toMatrix lap x.c hdt hy'l hym]
      rfl
  · intro hl hsp htot
    obtain ⟨y', hy'⟩ := total_of_pos htot hss hrl (by
      intro v hv
      rw [hsm, gram_quad, hM] at hv
      have h1 := dot_self_nonneg ((A.toMat (2 * (x.c * x.r)) (nReal lap x.c)).mulVec v)
      have h2 := mul_nonneg hl.le (ppsd v)
      have h3 := (mul_eq_zero.1 (le_antisymm (by linarith) h2)).resolve_left hl.ne'
      have h4 := quad_zero h.prior h.alpha hyl (nReal_ne_one lap x.c) (ofVec v) (by rw [toVec_ofVec]; exact h3)
      have h5 := congrArg (toVec (nReal lap x.c)) (hsp (ofVec v) (ofVec_length v) h4)
      rwa [toVec_ofVec, toVec_replicate_zero] at h5)
    have hy'l : y'.length = nReal lap x.c := by
      obtain ⟨f1, _⟩ := Arr2.mulVec_inv (hex _ _ _ hy')
      rw [← f1, hss.2]
    obtain ⟨ym, hym, hst⟩ := hok y' hy' hy'l
    exact ⟨_, _, hst⟩

/-- the consistent data of a log: each entry's data are the nearest data consistent with the previous matrix; the logged
target is the misfit of the currents plus the sum of the squares of the *consistent voltages* plus the penalty -/
def Spec.UnwTrace (lap : Bool) (n : Nat) (cfg : RegConfig) (x z : Arr2 ℂ) :
    Arr2 ℂ → List IterationStatus → List (Arr2 ℂ × Arr2 ℂ) → Prop
  | _, [], [] => True
  | Y, e :: l, D :: Ds =>
    Spec.NearestConsistent n x z Y D.1 D.2 ∧
    e.target = ‖((Spec.misfit D.1 z e.params : ℝ) : ℂ) + Spec.sumSq D.1 +
      ((cfg.lam * Spec.penaltyOf lap n cfg.prior e.params : ℝ) : ℂ)‖ ∧
    Spec.UnwTrace lap n cfg x z e.params l Ds
  | _, _, _ => False

theorem unwTrace_run {lap : Bool} {n : Nat} {cfg : RegConfig} {x z yInit : Arr2 ℂ} (h : FitSetup lap n cfg x z yInit)
    {solve : Solver} (hex : Spec.Exact solve) {inv : Arr2 ℂ → Except PyErr (Arr2 ℂ)} (hinv : Spec.InvContract inv)
    {dt : Arr2 ℂ} (hdt : dtMatrix ℂ lap n = .ok dt) (run : List (FitState × ℝ)) (s : FitState) (it : Nat) (y : List ℝ)
    (hs : StateAt cfg.prior (nReal lap n) y s) (hsq : Spec.IsSquare n s.yMat)
    (hrun : Spec.IsRun (eivUnweightedStep solve inv cfg x z dt (Spec.stackReal z)) s run) :
    ∃ Ds, Spec.UnwTrace lap n cfg x z s.yMat (Spec.entries it run) Ds := by
  induction run generalizing s it y with
  | nil => exact ⟨[], trivial⟩
  | cons q l ih =>
    obtain ⟨h1, h2⟩ := hrun
    obtain ⟨xh, zh, y', hn, hs', hY', ht⟩ := (unwStep_at h hex hinv hdt hs hsq).1 q.1 q.2 h1
    obtain ⟨Ds, hD⟩ := ih q.1 (it + 1) y' hs' (toMatrix_admissible lap n hdt hY').1 h2
    exact ⟨(xh, zh) :: Ds, hn, ht, hD⟩

/-- trace of an unweighted fit on a fresh object: one of the two weights is missing -/
theorem C41_trace {lap : Bool} {n : Nat} {cfg : RegConfig} {x z yInit : Arr2 ℂ} (h : FitSetup lap n cfg x z yInit)
    {solve : Solver} (hex : Spec.Exact solve) {inv : Arr2 ℂ → Except PyErr (Arr2 ℂ)} (hinv : Spec.InvContract inv)
    {xW zW : Option (Arr2 ℝ)} (hw : xW = none ∨ zW = none) {res : Except PyErr Unit} {obj : RegObj}
    (hfit : eivBody solve inv cfg RegObj.fresh x z xW zW yInit = (res, obj)) :
    ∃ Ds, Spec.UnwTrace lap n cfg x z yInit obj.iterations Ds := by
  obtain ⟨dt, A, y0, s, hdt, hA, hst, hsy, hY0, _, hf⟩ := eivSetup_ok h solve inv
  rw [hf _ _ _ hw] at hfit
  generalize hr : fitLoop cfg (eivUnweightedStep solve inv cfg x z dt (Spec.stackReal z)) cfg.maxIter 0 s
    RegObj.fresh.iterations = r at hfit
  obtain ⟨rs, log'⟩ := r
  obtain ⟨run, h1, h2, h3, h4, h5⟩ := fitLoop_spec cfg _ cfg.maxIter 0 s [] log' rs rfl hr
  rw [List.nil_append] at h3
  obtain ⟨Ds, hD⟩ := unwTrace_run h hex hinv hdt run s 0 y0 hst (by rw [hsy]; exact h.init) h1
  refine ⟨Ds, ?_⟩
  rw [hsy] at hD
  cases rs <;> simp only [finishFit, Prod.mk.injEq] at hfit <;> rw [← hfit.2, h3] <;> exact hD

/-- the target C41 asks for: squared misfit of voltages and currents plus penalty -/
def Spec.UnwTarget (lap : Bool) (n : Nat) (cfg : RegConfig) (x z xh : Arr2 ℂ) (e : IterationStatus) : Prop :=
  e.target = |Spec.misfit xh z e.params + Spec.dist2 x xh + cfg.lam * Spec.penaltyOf lap n cfg.prior e.params|

/-- C41 for the entries whose consistent voltages happen to have a sum of squares equal to the squared misfit of the
voltages: then the target is the one asked for. Missing: all other data, where the code adds `Σ x̂²` instead. -/
theorem C41_partial {lap : Bool} {n : Nat} {cfg : RegConfig} {x z yInit : Arr2 ℂ} (h : FitSetup lap n cfg x z yInit)
    {solve : Solver} (hex : Spec.Exact solve) {inv : Arr2 ℂ → Except PyErr (Arr2 ℂ)} (hinv : Spec.InvContract inv)
    {xW zW : Option (Arr2 ℝ)} (hw : xW = none ∨ zW = none) {res : Except PyErr Unit} {obj : RegObj}
    (hfit : eivBody solve inv cfg RegObj.fresh x z xW zW yInit = (res, obj)) :
    ∃ Ds, Spec.UnwTrace lap n cfg x z yInit obj.iterations Ds ∧
      ∀ (i : Nat) (e : IterationStatus) (D : Arr2 ℂ × Arr2 ℂ), obj.iterations[i]? = some e → Ds[i]? = some D →
        Spec.sumSq D.1 = (Spec.dist2 x D.1 : ℝ) →
        Spec.UnwTarget lap n cfg x z D.1 e := by
  obtain ⟨Ds, hD⟩ := C41_trace h hex hinv hw hfit
  refine ⟨Ds, hD, ?_⟩
  clear hfit
  generalize obj.iterations = log at *
  clear h
  induction log generalizing yInit Ds with
  | nil => intro i e D he; simp at he
  | cons q l ih =>
    cases Ds with
    | nil => exact absurd hD id
    | cons D0 Ds =>
      obtain ⟨_, h2, h3⟩ := hD
      intro i e D he hDi hg
      cases i with
      | zero =>
        simp only [List.getElem?_cons_zero, Option.some.injEq] at he hDi
        subst he; subst hDi
        unfold Spec.UnwTarget
        rw [h2, hg, ← Complex.ofReal_add, ← Complex.ofReal_add, Complex.norm_real, Real.norm_eq_abs]
      | succ i =>
        simp only [List.getElem?_cons_succ] at he hDi
        exact ih Ds h3 i e D he hDi hg

/-- C89: with a positive regularisation and a prior leaving no direction free, the unweighted fit never raises. -/
theorem C89_no_exception {lap : Bool} {n : Nat} {cfg : RegConfig} {x z yInit : Arr2 ℂ} (h : FitSetup lap n cfg x z yInit)
    (hl : 0 < cfg.lam) (hsp : Spec.Spanning cfg.prior (nReal lap n)) {solve : Solver}
    (hex : Spec.Exact solve) (htot : Spec.Total solve) {inv : Arr2 ℂ → Except PyErr (Arr2 ℂ)} (hinv : Spec.InvContract inv)
    {xW zW : Option (Arr2 ℝ)} (hw : xW = none ∨ zW = none) (obj : RegObj) (hobj : obj.iterations = []) :
    ∃ obj', eivBody solve inv cfg obj x z xW zW yInit = (.ok (), obj') := by
  obtain ⟨dt, A, y0, s, hdt, hA, hst, hsy, hY0, _, hf⟩ := eivSetup_ok h solve inv
  rw [hf _ _ _ hw, hobj]
  generalize hr : fitLoop cfg (eivUnweightedStep solve inv cfg x z dt (Spec.stackReal z)) cfg.maxIter 0 s [] = r
  obtain ⟨rs, log'⟩ := r
  obtain ⟨run, h1, h2, h3, h4, h5⟩ := fitLoop_spec cfg _ cfg.maxIter 0 s [] log' rs rfl hr
  cases rs with
  | ok s' => exact ⟨_, rfl⟩
  | error e =>
    exfalso
    have hstep : ∀ s, ((∃ y, StateAt cfg.prior (nReal lap n) y s) ∧ Spec.IsSquare n s.yMat) → ∃ s' t,
        eivUnweightedStep solve inv cfg x z dt (Spec.stackReal z) s = .ok (s', t) ∧
        ((∃ y, StateAt cfg.prior (nReal lap n) y s') ∧ Spec.IsSquare n s'.yMat) ∧ True := by
      rintro s ⟨⟨y, hs⟩, hsq⟩
      obtain ⟨k1, k2⟩ := unwStep_at h hex hinv hdt hs hsq
      obtain ⟨s', t, h6⟩ := k2 hl hsp htot
      obtain ⟨_, _, y', _, h7, h8, _⟩ := k1 s' t h6
      exact ⟨s', t, h6, ⟨⟨y', h7⟩, (toMatrix_admissible lap n hdt h8).1⟩, trivial⟩
    obtain ⟨g1, _⟩ := fixed_run hstep run s ⟨⟨y0, hst⟩, by rw [hsy]; exact h.init⟩ h1
    obtain ⟨s', t, h6, _⟩ := hstep _ g1
    rw [h5.2.1] at h6; cases h6

theorem dist2_scalar (a b : ℂ) : Spec.dist2 (scalarArr a) (scalarArr b) = Complex.normSq (a - b) := by
  unfold Spec.dist2
  have h1 : (scalarArr a).r = 1 := rfl
  have h2 : (scalarArr a).c = 1 := rfl
  rw [h1, h2]
  simp only [Finset.sum_range_one, scalarArr_get]

/-- C41 is violated: on the exact data `x = z = 1`, started at the true value `1`, the consistent data are the measurements
themselves, so the voltage misfit is `0`; the logged target exceeds the one asked for by `1`. -/
theorem C41_violated : ∃ cfg x z yInit, FitSetup false 1 cfg x z yInit ∧
    ∀ solve inv, Spec.Exact solve → Spec.Total solve → Spec.InvContract inv → ∃ obj e,
      eivFit solve inv cfg RegObj.fresh x z none none yInit = (.ok (), obj) ∧ obj.iterations[0]? = some e ∧
      ∀ xh zh, Spec.NearestConsistent 1 x z yInit xh zh → ¬ Spec.UnwTarget false 1 cfg x z xh e := by
  have h := one_setup 1 1 1
  refine ⟨oneCfg 1, scalarArr 1, scalarArr 1, scalarArr 1, h, ?_⟩
  intro solve inv hex htot hinv
  obtain ⟨obj, hobj⟩ := C89_no_exception h (show (0 : ℝ) < 1 from one_pos) one_spanning hex htot hinv
    (xW := none) (zW := none) (Or.inl rfl) RegObj.fresh rfl
  obtain ⟨hlen1, hlen2, _, _⟩ := (log_of_isFit (eivBody_isFit solve inv (oneCfg 1) (scalarArr 1) (scalarArr 1)
    none none (scalarArr 1)) hobj).2 Nat.one_pos
  obtain ⟨Ds, hD⟩ := C41_trace h hex hinv (Or.inl rfl) hobj
  cases hlog : obj.iterations with
  | nil => rw [hlog] at hlen1; simp at hlen1
  | cons e l =>
    rw [hlog] at hD
    cases Ds with
    | nil => exact absurd hD id
    | cons D0 Ds =>
      obtain ⟨hn, ht, _⟩ := hD
      refine ⟨obj, e, hobj, by rw [hlog]; rfl, ?_⟩
      have hcons : Spec.Consistent2 (scalarArr 1) (scalarArr 1) (scalarArr 1) := by
        unfold Spec.Consistent2
        rw [Arr2.matmul_ok _ _ rfl]
        congr 1
        refine Arr2.ext' (A := Arr2.ofFn 1 1 _) (B := scalarArr 1) rfl rfl ?_
        intro i j hi hj
        have hi : i < 1 := hi
        have hj : j < 1 := hj
        have : i = 0 := by omega
        have : j = 0 := by omega
        subst i; subst j
        have hc : (scalarArr 1).c = 1 := rfl
        rw [Arr2.ofFn_get _ hi hj, scalarArr_get, Arr2.mulGet, hc, Finset.sum_range_one, scalarArr_get, one_mul]
      have key : ∀ xh zh, Spec.NearestConsistent 1 (scalarArr 1) (scalarArr 1) (scalarArr 1) xh zh → xh = scalarArr 1 := by
        intro xh zh ⟨hr, hc, hco, hne⟩
        have h1 := hne (scalarArr 1) (scalarArr 1) rfl rfl hcons
        rw [dist2_scalar, sub_self, map_zero, add_zero] at h1
        have h2 : 0 ≤ Spec.dist2 (scalarArr 1) zh :=
          Finset.sum_nonneg (fun _ _ => Finset.sum_nonneg (fun _ _ => Complex.normSq_nonneg _))
        have hs := scalar_of_shape hr hc
        rw [hs, dist2_scalar] at h1
        have h3 : Complex.normSq (1 - xh.get 0 0) = 0 := le_antisymm (by linarith) (Complex.normSq_nonneg _)
        rw [hs, ← sub_eq_zero.1 (Complex.normSq_eq_zero.1 h3)]
      intro xh zh hx
      rw [key xh zh hx]
      rw [key D0.1 D0.2 hn] at ht
      unfold Spec.UnwTarget
      rw [ht, dist2_scalar, sub_self, map_zero, add_zero]
      have h1 : Spec.sumSq (scalarArr 1) = ((1 : ℝ) : ℂ) := by
        unfold Spec.sumSq
        have hr : (scalarArr 1).r = 1 := rfl
        have hc : (scalarArr 1).c = 1 := rfl
        rw [hr, hc]
        simp only [Finset.sum_range_one, scalarArr_get]; norm_num
      rw [h1, ← Complex.ofReal_add, ← Complex.ofReal_add, Complex.norm_real, Real.norm_eq_abs]
      have hm : 0 ≤ Spec.misfit (scalarArr 1) (scalarArr 1) e.params :=
        Finset.sum_nonneg (fun _ _ => Finset.sum_nonneg (fun _ _ => Complex.normSq_nonneg _))
      have hp : 0 ≤ (oneCfg 1).lam * Spec.penaltyOf false 1 (oneCfg 1).prior e.params := by
        refine mul_nonneg zero_le_one (List.sum_nonneg ?_)
        intro q hq
        obtain ⟨t, _, rfl⟩ := List.mem_map.1 hq
        exact add_nonneg (Real.rpow_nonneg (abs_nonneg _) _) h.alpha.le
      rw [abs_of_nonneg (by linarith), abs_of_nonneg (by linarith)]
      intro hcon
      linarith

/-- unweighted fits meeting the hypotheses of C41 and C89 -/
example : ∃ obj, eivBody exactSolve exactInv (oneCfg 3) RegObj.fresh (scalarArr 1) (scalarArr 2) none none (scalarArr 1) =
    (.ok (), obj) :=
  C89_no_exception (one_setup 3 2 1) (show (0 : ℝ) < 1 from one_pos) one_spanning exactSolve_exact exactSolve_total
    exactInv_contract (Or.inl rfl) RegObj.fresh rfl

end
end Verif
