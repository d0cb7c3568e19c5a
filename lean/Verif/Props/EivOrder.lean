/-
C147, continued: the unweighted fit, and `bayesian_eiv` on samples in another order.
-/
import Verif.Props.EivSamples
import Verif.Props.BayesWeights
import Verif.Props.Invariance

namespace Verif
open Matrix Finset
noncomputable section

theorem mixed_get (U X : Arr2 ℂ) {i j : Nat} (hi : i < U.r) (hj : j < X.c) :
    (Spec.mixed U X).get i j = ∑ k ∈ range U.c, U.get i k * X.get k j := Arr2.ofFn_get _ hi hj

theorem projectedData_mixed (inv : Arr2 ℂ → Except PyErr (Arr2 ℂ)) (Y : Arr2 ℂ) {T n : Nat} {U x z : Arr2 ℂ} (hU : Spec.UnitaryMix T U)
    (hx : x.r = T ∧ x.c = n) (hz : z.r = T ∧ z.c = n) :
    projectedData inv Y (Spec.mixed U x) (Spec.mixed U z) = (projectedData inv Y x z >>= fun pd => .ok (Spec.mixed U pd)) ∧
      ∀ pd, projectedData inv Y x z = .ok pd → pd.r = T ∧ pd.c = 2 * n := by
  obtain ⟨m, hm, mr, mc, m1, m2⟩ := hstack_ok (x := x) (z := z) (hx.1.trans hz.1.symm)
  have hm' : hstack (Spec.mixed U x) (Spec.mixed U z) = .ok (Spec.mixed U m) := by
    obtain ⟨m', hm', mr', mc', m1', m2'⟩ := hstack_ok (x := Spec.mixed U x) (z := Spec.mixed U z) rfl
    rw [hm']
    refine congrArg Except.ok (Arr2.ext' mr' (mc'.trans mc.symm) fun i j hi hj => ?_)
    have hi' : i < U.r := by rw [mr'] at hi; exact hi
    have hj' : j < x.c + z.c := by rw [mc'] at hj; exact hj
    rw [mixed_get U m hi' (by rw [mc]; exact hj')]
    by_cases hjx : j < x.c
    · rw [m1' i j hi' hjx, mixed_get U x hi' hjx]
      refine Finset.sum_congr rfl fun k hk => ?_
      rw [m1 k j (by rw [hx.1, ← hU.cols]; exact Finset.mem_range.1 hk) hjx]
    · obtain ⟨q, rfl⟩ : ∃ q, j = x.c + q := ⟨j - x.c, by omega⟩
      have hq : q < z.c := by omega
      refine (m2' i q hi' hq).trans ?_
      rw [mixed_get U z hi' hq]
      refine Finset.sum_congr rfl fun k hk => ?_
      rw [m2 k q (by rw [hx.1, ← hU.cols]; exact Finset.mem_range.1 hk) hq]
  have hmx : (Spec.mixed U x).c = n := hx.2
  unfold projectedData
  rw [hm, hm', hmx, hx.2]
  cases hp : projector inv n Y with
  | error e => exact ⟨rfl, fun pd h => (nomatch h)⟩
  | ok p =>
    have hps : p.r = 2 * n ∧ p.c = 2 * n := by
      unfold projector at hp
      obtain ⟨_, -, hp⟩ := Prior.bind_ok hp
      obtain ⟨_, -, hp⟩ := Prior.bind_ok hp
      obtain ⟨_, -, hp⟩ := Prior.bind_ok hp
      obtain ⟨_, -, hp⟩ := Prior.bind_ok hp
      obtain ⟨_, -, hp⟩ := Prior.bind_ok hp
      unfold Arr2.zipWith at hp
      split at hp
      · cases hp; exact ⟨rfl, rfl⟩
      · cases hp
    have hcp : m.c = p.r := by rw [mc, hx.2, hz.2, hps.1, two_mul]
    simp only [bind, Except.bind]
    rw [mixed_mul U m p (by rw [hU.cols, mr, hx.1]) hcp, Arr2.matmul_ok m p hcp]
    refine ⟨rfl, fun pd h => ?_⟩
    cases h
    exact ⟨mr.trans hx.1, hps.2⟩

/-- sums of the squares of all entries do not change under real orthogonal combinations of the samples -/
theorem squares_mixed {T n : Nat} {U D : Arr2 ℂ} (hU : Spec.UnitaryMix T U) (hreal : ∀ i j, (U.get i j).im = 0)
    (hD : D.r = T ∧ D.c = n) :
    ((vectorizeMatrix (Spec.mixed U D)).map (fun t => t * t)).sum = ((vectorizeMatrix D).map (fun t => t * t)).sum := by
  have hsum : ∀ E : Arr2 ℂ, E.r = T → E.c = n →
      ((vectorizeMatrix E).map (fun t => t * t)).sum = ∑ j ∈ range n, ∑ i ∈ range T, E.get i j * E.get i j := by
    intro E h1 h2
    have hl : ∀ l : List ℂ, l.sum = ∑ k ∈ range l.length, l.getD k 0 := by
      intro l
      induction l with
      | nil => simp
      | cons a l ih => rw [List.sum_cons, List.length_cons, Finset.sum_range_succ', ih, add_comm]; rfl
    rw [hl, List.length_map, vec_length, h1, h2, sum_range_mul']
    refine Finset.sum_congr rfl fun j hj => Finset.sum_congr rfl fun i hi => ?_
    have e := vec_getD E (i := i) (j := j) (by rw [h1]; exact Finset.mem_range.1 hi) (by rw [h2]; exact Finset.mem_range.1 hj)
    rw [h1] at e
    have : ((vectorizeMatrix E).map (fun t => t * t)).getD (j * T + i) 0 = (vectorizeMatrix E).getD (j * T + i) 0 * (vectorizeMatrix E).getD (j * T + i) 0 := by
      rw [List.getD_eq_getElem?_getD, List.getElem?_map, List.getD_eq_getElem?_getD]
      cases (vectorizeMatrix E)[j * T + i]? <;> simp
    rw [this, e]
  rw [hsum (Spec.mixed U D) hU.rows hD.2, hsum D hD.1 hD.2]
  refine Finset.sum_congr rfl fun j hj => ?_
  have hj : j < n := Finset.mem_range.1 hj
  have e1 : ∀ i ∈ range T, (Spec.mixed U D).get i j * (Spec.mixed U D).get i j =
      ∑ k ∈ range T, ∑ l ∈ range T, (star (U.get i k) * U.get i l) * (D.get k j * D.get l j) := by
    intro i hi
    rw [mixed_get U D (by rw [hU.rows]; exact Finset.mem_range.1 hi) (by rw [hD.2]; exact hj), hU.cols, Finset.sum_mul_sum]
    refine Finset.sum_congr rfl fun k _ => Finset.sum_congr rfl fun l _ => ?_
    have : star (U.get i k) = U.get i k := Complex.conj_eq_iff_im.2 (hreal i k)
    rw [this]; ring
  rw [Finset.sum_congr rfl e1, Finset.sum_comm]
  refine Finset.sum_congr rfl fun k hk => ?_
  rw [Finset.sum_comm]
  have e2 : ∀ l ∈ range T, ∑ i ∈ range T, (star (U.get i k) * U.get i l) * (D.get k j * D.get l j) =
      if k = l then D.get k j * D.get l j else 0 := by
    intro l hl
    rw [← Finset.sum_mul, hU.unitary k (Finset.mem_range.1 hk) l (Finset.mem_range.1 hl)]
    split <;> simp
  rw [Finset.sum_congr rfl e2, Finset.sum_ite_eq, if_pos hk]

/-- an unweighted step on samples combined by a real orthogonal matrix is the step on the samples -/
theorem unweightedStep_mixed (solve : Solver) (inv : Arr2 ℂ → Except PyErr (Arr2 ℂ)) (cfg : RegConfig) {lap : Bool} {T n : Nat}
    {U x z dt : Arr2 ℂ} (hU : Spec.UnitaryMix T U) (hreal : ∀ i j, (U.get i j).im = 0) (hx : x.r = T ∧ x.c = n) (hz : z.r = T ∧ z.c = n)
    (hdt : dtMatrix ℂ lap n = .ok dt) (s : FitState) :
    eivUnweightedStep solve inv cfg (Spec.mixed U x) (Spec.mixed U z) dt (Spec.stackReal (Spec.mixed U z)) s =
      eivUnweightedStep solve inv cfg x z dt (Spec.stackReal z) s := by
  obtain ⟨R, hRR, hR⟩ := exists_rotation (n := n) hU
  obtain ⟨hpd, hps⟩ := projectedData_mixed inv s.yMat hU hx hz
  have hmx : (Spec.mixed U x).c = n := hx.2
  unfold eivUnweightedStep
  rw [hpd, hmx, hx.2]
  cases hpe : projectedData inv s.yMat x z with
  | error e => rfl
  | ok pd =>
    obtain ⟨pr, pc⟩ := hps pd hpe
    simp only [bind, Except.bind, pure, Except.pure]
    have hmp : (Spec.mixed U pd).c = 2 * n := pc
    have hmpr : (Spec.mixed U pd).r = T := hU.rows
    have hsl : slice2 (Spec.mixed U pd) 0 (Spec.mixed U pd).r 0 (min n (Spec.mixed U pd).c) =
        Spec.mixed U (slice2 pd 0 pd.r 0 (min n pd.c)) := by
      rw [hmp, hmpr, pr, pc]
      refine Arr2.ext' (by show T - 0 = U.r; rw [hU.rows]; rfl) rfl fun i j hi hj => ?_
      have hi' : i < T := hi
      have hj' : j < min n (2 * n) := hj
      have hj'' : j < n := by omega
      rw [mixed_get U _ (by rw [hU.rows]; exact hi') hj', slice2, Arr2.ofFn_get _ (show i < T - 0 from hi') (show j < min n (2 * n) - 0 from hj'),
        mixed_get U _ (by rw [hU.rows]; omega) (by rw [pc]; omega)]
      refine Finset.sum_congr rfl fun k hk => ?_
      have hk' : k < T := by rw [← hU.cols]; exact Finset.mem_range.1 hk
      rw [slice2, Arr2.ofFn_get _ (show k < T - 0 from hk') (show j < min n (2 * n) - 0 from hj')]
      simp only [Nat.zero_add]
    rw [hsl]
    have hmin : min n pd.c = n := by rw [pc]; omega
    rw [hmin]
    have hD : (slice2 pd 0 pd.r 0 n).r = T ∧ (slice2 pd 0 pd.r 0 n).c = n := ⟨by show pd.r - 0 = T; rw [pr]; rfl, rfl⟩
    generalize slice2 pd 0 pd.r 0 n = D at hD
    obtain ⟨am, ham, amr, amc, -⟩ := regressionMatrix_spec lap n hdt D hD.2
    obtain ⟨am', ham', amr', amc', -⟩ := regressionMatrix_spec lap n hdt (Spec.mixed U D) hD.2
    have mA := regressionMatrix_mixed hU hdt hD ham ham' hR
    have lz : (Spec.stackReal z).length = 2 * (n * T) := by rw [stackReal_length, hz.1, hz.2]
    have lz' : (Spec.stackReal (Spec.mixed U z)).length = 2 * (n * T) := by
      rw [stackReal_length, show (Spec.mixed U z).r = T from hU.rows, show (Spec.mixed U z).c = n from hz.2]
    rw [hD.1] at amr
    rw [show (Spec.mixed U D).r = T from hU.rows] at amr'
    obtain ⟨q, hq, qr, qc, qm⟩ := Arr2.matmul_mat (A := am.T) (B := am) (m := nReal lap n) (k := 2 * (n * T)) (n := nReal lap n) ⟨amc, amr⟩ ⟨amr, amc⟩
    obtain ⟨q', hq', qr', qc', qm'⟩ := Arr2.matmul_mat (A := am'.T) (B := am') (m := nReal lap n) (k := 2 * (n * T)) (n := nReal lap n) ⟨amc', amr'⟩
      ⟨amr', amc'⟩
    rw [Arr2.toMat_T] at qm qm'
    obtain rfl : q' = q := Arr2.toMat_inj ⟨qr', qc'⟩ ⟨qr, qc⟩ (by
      rw [qm, qm', mA, transpose_mul, Matrix.mul_assoc, ← Matrix.mul_assoc R.transpose, hRR, Matrix.one_mul])
    obtain ⟨l, hlv, ll, lm⟩ := Arr2.mulVec_mat (A := am.T) (v := Spec.stackReal z) (m := nReal lap n) (k := 2 * (n * T)) ⟨amc, amr⟩ lz
    obtain ⟨l', hlv', ll', lm'⟩ := Arr2.mulVec_mat (A := am'.T) (v := Spec.stackReal (Spec.mixed U z)) (m := nReal lap n) (k := 2 * (n * T))
      ⟨amc', amr'⟩ lz'
    rw [Arr2.toMat_T] at lm lm'
    obtain rfl : l' = l := toVec_inj ll' ll (by
      rw [lm, lm', hR z hz.1 hz.2, mA, transpose_mul, mulVec_mulVec, Matrix.mul_assoc, hRR, Matrix.mul_one])
    simp only [ham, ham', hq, hq', hlv, hlv', squares_mixed hU hreal hD]
    cases addScaled cfg.lam q' s.M with
    | error e => rfl
    | ok sy =>
      dsimp only
      cases broadcast1 (fun p q => p + cfg.lam * q) l' s.mu with
      | error e => rfl
      | ok rh =>
        dsimp only
        cases solve sy rh with
        | error e => rfl
        | ok y =>
          dsimp only
          cases toMatrix n dt y with
          | error e => rfl
          | ok ym =>
            dsimp only
            cases cfg.prior.logDistribution y with
            | error e => rfl
            | ok q =>
              dsimp only
              by_cases hy : y.length = nReal lap n
              · obtain ⟨ay, hay, ayl, aym⟩ := Arr2.mulVec_mat (A := am) (v := y) ⟨amr, amc⟩ hy
                obtain ⟨ay', hay', ayl', aym'⟩ := Arr2.mulVec_mat (A := am') (v := y) ⟨amr', amc'⟩ hy
                obtain ⟨db, hdb, dbl, dbm⟩ := broadcast1_mat (fun p q : ℝ => p - q) (u := Spec.stackReal z) (v := ay) lz ayl
                obtain ⟨db', hdb', dbl', dbm'⟩ := broadcast1_mat (fun p q : ℝ => p - q) (u := Spec.stackReal (Spec.mixed U z)) (v := ay')
                  lz' ayl'
                have hdd : toVec (2 * (n * T)) db' = R.mulVec (toVec (2 * (n * T)) db) := by
                  have d1 : toVec (2 * (n * T)) db = toVec (2 * (n * T)) (Spec.stackReal z) - toVec (2 * (n * T)) ay := by rw [dbm]; rfl
                  have d2 : toVec (2 * (n * T)) db' = toVec (2 * (n * T)) (Spec.stackReal (Spec.mixed U z)) - toVec (2 * (n * T)) ay' := by
                    rw [dbm']; rfl
                  rw [d1, d2, hR z hz.1 hz.2, aym, aym', mA, ← mulVec_mulVec, mulVec_sub]
                have hsq : sqNorm db' = sqNorm db := by
                  rw [sqNorm_eq dbl', sqNorm_eq dbl, hdd, dotProduct_mulVec, ← vecMul_transpose, vecMul_vecMul, hRR, vecMul_one]
                simp only [hay, hay', hdb, hdb', hsq]
              · have e1 : am.mulVec y = .error .valueError := by
                  unfold Arr2.mulVec; rw [if_neg (by rw [amc]; exact fun h => hy h.symm)]
                have e2 : am'.mulVec y = .error .valueError := by
                  unfold Arr2.mulVec; rw [if_neg (by rw [amc']; exact fun h => hy h.symm)]
                simp only [e1, e2]

/-- C147 without weights: the fit of samples combined by a real orthogonal matrix is the fit of the samples. -/
theorem C147_unweighted (solve : Solver) (inv : Arr2 ℂ → Except PyErr (Arr2 ℂ)) (cfg : RegConfig) {lap : Bool} (hdt : cfg.dt = dtMatrix ℂ lap)
    (obj : RegObj) {T n : Nat} {U x z x' z' : Arr2 ℂ} (yInit : Arr2 ℂ) (hU : Spec.UnitaryMix T U) (hreal : ∀ i j, (U.get i j).im = 0)
    (hx : x.r = T ∧ x.c = n) (hz : z.r = T ∧ z.c = n) (hx' : U.matmul x = .ok x') (hz' : U.matmul z = .ok z') :
    eivFit solve inv cfg obj x' z' none none yInit = eivFit solve inv cfg obj x z none none yInit := by
  rw [mixed_matmul (hU.cols.trans hx.1.symm)] at hx'
  rw [mixed_matmul (hU.cols.trans hz.1.symm)] at hz'
  rw [← Except.ok.inj hx', ← Except.ok.inj hz']
  obtain ⟨dt, hdt', -⟩ := dt_closed (α := ℂ) lap n
  obtain ⟨A, hA, -⟩ := regressionMatrix_spec lap n hdt' x hx.2
  obtain ⟨A', hA', -⟩ := regressionMatrix_spec lap n hdt' (Spec.mixed U x) hx.2
  have hmx : (Spec.mixed U x).c = n := hx.2
  unfold eivFit eivBody
  simp only [hdt, hmx, hx.2, hdt', hA, hA', stackReal_eq, bind, Except.bind, pure, Except.pure]
  cases cfg.e n with
  | error e => rfl
  | ok e =>
    dsimp only
    cases toParams e yInit with
    | error e => rfl
    | ok y =>
      dsimp only
      cases cfg.prior.logDistribution y with
      | error e => rfl
      | ok q =>
        dsimp only
        rw [show eivUnweightedStep solve inv cfg (Spec.mixed U x) (Spec.mixed U z) dt (Spec.stackReal (Spec.mixed U z)) = _ from
          funext (unweightedStep_mixed solve inv cfg hU hreal hx hz hdt')]

/-- the change of the order of the samples, as an array -/
def orderArr {T : Nat} (π : Equiv.Perm (Fin T)) : Arr2 ℂ :=
  Arr2.ofFn T T (fun i k => if h : i < T then (if (π ⟨i, h⟩ : Nat) = k then 1 else 0) else 0)

theorem orderArr_mix {T : Nat} (π : Equiv.Perm (Fin T)) : Spec.UnitaryMix T (orderArr π) := by
  refine ⟨rfl, rfl, fun i hi j hj => ?_⟩
  have h := mixing_unitary (θ := fun _ => 1) (fun _ => by simp) π
  have h := congrFun (congrFun h ⟨i, hi⟩) ⟨j, hj⟩
  rw [mul_apply, one_apply] at h
  rw [← Fin.sum_univ_eq_sum_range (fun k => star ((orderArr π).get k i) * (orderArr π).get k j)]
  refine Eq.trans (Finset.sum_congr rfl fun k _ => ?_) (h.trans ?_)
  · rw [orderArr, Arr2.ofFn_get _ k.2 hi, Arr2.ofFn_get _ k.2 hj, dif_pos k.2, dif_pos k.2]
    simp only [mixing, conjTranspose_apply, of_apply, Fin.ext_iff]
  · simp only [Fin.ext_iff]

theorem orderArr_real {T : Nat} (π : Equiv.Perm (Fin T)) (i j : Nat) : ((orderArr π).get i j).im = 0 := by
  unfold orderArr
  rw [Arr2.ofFn_get']
  split
  · split
    · split <;> simp
    · simp
  · simp

/-- samples in another order -/
theorem mixed_order {T n : Nat} {π : Equiv.Perm (Fin T)} {x x' : Arr2 ℂ} (h : Spec.Rewritten (n := n) x x' 1 (fun _ => 1) π 1) :
    x' = Spec.mixed (orderArr π) x := by
  refine Arr2.ext' h.shape'.1 (h.shape'.2.trans h.shape.2.symm) fun i j hi hj => ?_
  rw [h.shape'.1] at hi
  rw [h.shape'.2] at hj
  have e := h.entries ⟨i, hi⟩ ⟨j, hj⟩
  rw [mixed_get _ _ (show i < (orderArr π).r from hi) (by rw [h.shape.2]; exact hj)]
  refine e.trans ?_
  rw [show (orderArr π).c = T from rfl, Finset.sum_eq_single_of_mem (π ⟨i, hi⟩ : Nat) (Finset.mem_range.2 (π ⟨i, hi⟩).2)]
  · rw [orderArr, Arr2.ofFn_get _ hi (π ⟨i, hi⟩).2, dif_pos hi, if_pos rfl]
    simp
  · intro k hk hne
    rw [orderArr, Arr2.ofFn_get _ hi (Finset.mem_range.1 hk), dif_pos hi, if_neg (fun h => hne h.symm), zero_mul]

theorem stack_pos {T n : Nat} {D : Arr2 ℂ} (hD : D.r = T ∧ D.c = n) {t j : Nat} (ht : t < T) (hj : j < n) :
    (Spec.stackReal D).getD (j * T + t) 0 = (D.get t j).re ∧ (Spec.stackReal D).getD (n * T + (j * T + t)) 0 = (D.get t j).im := by
  have hlt : j * T + t < n * T := by
    calc j * T + t < j * T + T := by omega
      _ = (j + 1) * T := by ring
      _ ≤ n * T := Nat.mul_le_mul_right _ hj
  have hm : (j * T + t) % T = t := by rw [Nat.mul_add_mod_self_right]; exact Nat.mod_eq_of_lt ht
  have hd : (j * T + t) / T = j := by
    rw [mul_comm, Nat.mul_add_div (by omega), Nat.div_eq_of_lt ht, add_zero]
  constructor
  · rw [stackReal_getD D _ (by rw [hD.1, hD.2]; omega), hD.1, hD.2, if_pos hlt, hm, hd]
  · rw [stackReal_getD D _ (by rw [hD.1, hD.2]; omega), hD.1, hD.2, if_neg (by omega), Nat.add_sub_cancel_left, hm, hd]

/-- weights made of one block per sample and variable, for the samples in another order -/
theorem order_weight {T n : Nat} (π : Equiv.Perm (Fin T)) {a b c a' b' c' : List ℝ}
    (h : ∀ (t : Fin T) (j : Nat), j < n → a'.getD (Spec.pos T t j) 0 = a.getD (Spec.pos T (π t) j) 0 ∧
      b'.getD (Spec.pos T t j) 0 = b.getD (Spec.pos T (π t) j) 0 ∧ c'.getD (Spec.pos T t j) 0 = c.getD (Spec.pos T (π t) j) 0)
    (hw : Spec.IsWeight (2 * (n * T)) (Arr2.ofFn (n * T + n * T) (n * T + n * T) (blockEntry (n * T) a' b' c'))) :
    Spec.MixedWeight T n (orderArr π) (Arr2.ofFn (n * T + n * T) (n * T + n * T) (blockEntry (n * T) a b c))
      (Arr2.ofFn (n * T + n * T) (n * T + n * T) (blockEntry (n * T) a' b' c')) := by
  refine ⟨hw, fun D h1 h2 => ?_⟩
  rw [block_quad, block_quad, sum_range_mul', sum_range_mul']
  refine Finset.sum_congr rfl fun j hj => ?_
  have hj := Finset.mem_range.1 hj
  have hm : (Spec.mixed (orderArr π) D).r = T ∧ (Spec.mixed (orderArr π) D).c = n := ⟨rfl, h2⟩
  rw [← Fin.sum_univ_eq_sum_range (fun t => a.getD (j * T + t) 0 * (Spec.stackReal D).getD (j * T + t) 0 ^ 2 +
      2 * c.getD (j * T + t) 0 * (Spec.stackReal D).getD (j * T + t) 0 * (Spec.stackReal D).getD (n * T + (j * T + t)) 0 +
      b.getD (j * T + t) 0 * (Spec.stackReal D).getD (n * T + (j * T + t)) 0 ^ 2), ← Equiv.sum_comp π,
    ← Fin.sum_univ_eq_sum_range (fun t => a'.getD (j * T + t) 0 * (Spec.stackReal (Spec.mixed (orderArr π) D)).getD (j * T + t) 0 ^ 2 +
      2 * c'.getD (j * T + t) 0 * (Spec.stackReal (Spec.mixed (orderArr π) D)).getD (j * T + t) 0 *
        (Spec.stackReal (Spec.mixed (orderArr π) D)).getD (n * T + (j * T + t)) 0 +
      b'.getD (j * T + t) 0 * (Spec.stackReal (Spec.mixed (orderArr π) D)).getD (n * T + (j * T + t)) 0 ^ 2)]
  refine Finset.sum_congr rfl fun t _ => ?_
  obtain ⟨e1, e2, e3⟩ := h t j hj
  unfold Spec.pos at e1 e2 e3
  obtain ⟨s1, s2⟩ := stack_pos hm t.2 hj
  obtain ⟨s3, s4⟩ := stack_pos ⟨h1, h2⟩ (π t).2 hj
  have hg : (Spec.mixed (orderArr π) D).get t j = D.get (π t) j := by
    rw [mixed_get _ _ (show (t : Nat) < (orderArr π).r from t.2) (by rw [h2]; exact hj), show (orderArr π).c = T from rfl,
      Finset.sum_eq_single_of_mem (π t : Nat) (Finset.mem_range.2 (π t).2)]
    · rw [orderArr, Arr2.ofFn_get _ t.2 (π t).2, dif_pos t.2, if_pos rfl, one_mul]
    · intro k hk hne
      rw [orderArr, Arr2.ofFn_get _ t.2 (Finset.mem_range.1 hk), dif_pos t.2, if_neg (fun h => hne h.symm), zero_mul]
  rw [e1, e2, e3, s1, s2, s3, s4, hg]

theorem map_getD_zero {f : ℝ → ℝ} (hf : f 0 = 0) (l : List ℝ) (k : Nat) : (l.map f).getD k 0 = f (l.getD k 0) := by
  rw [List.getD_eq_getElem?_getD, List.getElem?_map, List.getD_eq_getElem?_getD]
  cases l[k]? <;> simp [hf]

theorem block_map {f : ℝ → ℝ} (hf : f 0 = 0) (N : Nat) (a b c : List ℝ) :
    (Arr2.ofFn (N + N) (N + N) (blockEntry N a b c)).map f =
      Arr2.ofFn (N + N) (N + N) (blockEntry N (a.map f) (b.map f) (c.map f)) := by
  refine Arr2.ext' rfl rfl fun i j hi hj => ?_
  have hi' : i < N + N := hi
  have hj' : j < N + N := hj
  refine (Arr2.ofFn_get _ hi' hj').trans ?_
  rw [Arr2.ofFn_get _ hi' hj', Arr2.ofFn_get _ hi' hj']
  unfold blockEntry
  simp only [map_getD_zero hf]
  split_ifs <;> simp [hf]

/-- the weights of synchronised measurements in another order -/
theorem average_order {T n : Nat} {π : Equiv.Perm (Fin T)} {M M' : Arr2 ℂ} (h : Spec.Rewritten (n := n) M M' 1 (fun _ => 1) π 1)
    {sd : SdArg} {sdp : ℝ} (hsd : Spec.ValidSd sd n) (hp : 0 < sdp) (hs : ∀ j < n, 0 < Spec.sdAt sd j) :
    ∃ W W', averageTrueNoiseCovariance M sd sdp true = .ok W ∧ averageTrueNoiseCovariance M' sd sdp true = .ok W' ∧
      Spec.PosDef (2 * (n * T)) W ∧ Spec.MixedWeight T n (orderArr π) W W' := by
  obtain ⟨h1, h2⟩ := h.shape
  obtain ⟨h1', h2'⟩ := h.shape'
  obtain ⟨W, hW, hpos⟩ := average_posDef M sd sdp (by rw [h2]; exact hsd) hp (by rw [h2]; exact hs)
  obtain ⟨W', hW', hpos'⟩ := average_posDef M' sd sdp (by rw [h2']; exact hsd) hp (by rw [h2']; exact hs)
  refine ⟨W, W', hW, hW', by rw [← h1, ← h2]; exact hpos, ?_⟩
  obtain ⟨a, b, c, ha, hb, hc, he, hn⟩ := noise_diags averageCov M sd sdp (by rw [h2]; exact hsd)
  obtain ⟨a', b', c', ha', hb', hc', he', hn'⟩ := noise_diags averageCov M' sd sdp (by rw [h2']; exact hsd)
  rw [h1, h2] at ha hb hc he
  rw [h1', h2'] at ha' hb' hc' he' hpos'
  obtain ⟨l1, l2, l3, hv⟩ := invertDiag_spec ha hb hc
  obtain ⟨l1', l2', l3', hv'⟩ := invertDiag_spec ha' hb' hc'
  have e1 := (hn true).trans (covBlock_closed l1 l2 l3)
  have e1' := (hn' true).trans (covBlock_closed l1' l2' l3')
  obtain rfl := Except.ok.inj (hW.symm.trans e1)
  obtain rfl := Except.ok.inj (hW'.symm.trans e1')
  refine order_weight π (fun t j hj => ?_) hpos'.1
  have hlt : ∀ t : Fin T, Spec.pos T t j < n * T := by
    intro t
    unfold Spec.pos
    calc j * T + t < j * T + T := by omega
      _ = (j + 1) * T := by ring
      _ ≤ n * T := Nat.mul_le_mul_right _ hj
  obtain ⟨v1, v2, v3⟩ := hv _ (hlt (π t))
  obtain ⟨v1', v2', v3'⟩ := hv' _ (hlt t)
  obtain ⟨d1, d2, d3⟩ := he _ _ (π t).2 hj
  obtain ⟨d1', d2', d3'⟩ := he' _ _ t.2 hj
  have hg : M'.get t j = M.get (π t) j := by
    have := h.entries t ⟨j, hj⟩
    simpa using this
  rw [v1, v2, v3, v1', v2', v3', d1, d2, d3, d1', d2', d3', hg]
  exact ⟨rfl, rfl, rfl⟩

/-- the weights of magnitudes in another order -/
theorem magnitude_order {T n : Nat} {θ : Nat → ℂ} (hθ : ∀ t, Complex.normSq (θ t) = 1) {π : Equiv.Perm (Fin T)} {M M' : Arr2 ℂ}
    (h : Spec.Rewritten (n := n) M M' 1 θ π 1)
    {sd : SdArg} {sdp : ℝ} (hsd : Spec.ValidSd sd n) (hp : 0 < sdp) (hs : ∀ j < n, 0 < Spec.sdAt sd j)
    (hM : ∀ t j, t < T → j < n → M.get t j ≠ 0) :
    ∃ W W', naiveNoiseCovariance (M.map (fun z => ((‖z‖ : ℝ) : ℂ))) sd sdp false = .ok W ∧
      naiveNoiseCovariance (M'.map (fun z => ((‖z‖ : ℝ) : ℂ))) sd sdp false = .ok W' ∧
      Spec.PosDef (2 * (n * T)) (W.map recip) ∧ Spec.MixedWeight T n (orderArr π) (W.map recip) (W'.map recip) := by
  obtain ⟨h1, h2⟩ := h.shape
  obtain ⟨h1', h2'⟩ := h.shape'
  have hnorm : ∀ t, ‖θ t‖ = 1 := fun t => by
    have := hθ t
    rw [Complex.normSq_eq_norm_sq] at this
    nlinarith [norm_nonneg (θ t)]
  have hg : ∀ (t : Fin T) (j : Nat), j < n → ‖M'.get t j‖ = ‖M.get (π t) j‖ := by
    intro t j hj
    have := h.entries t ⟨j, hj⟩
    rw [show M'.get t j = _ from this, norm_mul, norm_mul, hnorm]
    simp
  have hM' : ∀ t j, t < M'.r → j < M'.c → M'.get t j ≠ 0 := by
    intro t j ht hj
    rw [h1'] at ht
    rw [h2'] at hj
    have := hg ⟨t, ht⟩ j hj
    rw [← norm_ne_zero_iff]
    rw [show ‖M'.get t j‖ = _ from this, norm_ne_zero_iff]
    exact hM _ _ (π ⟨t, ht⟩).2 hj
  obtain ⟨W, hW, hpos⟩ := magnitude_posDef M sd sdp (by rw [h2]; exact hsd) hp (by rw [h2]; exact hs) (by rw [h1, h2]; exact hM)
  obtain ⟨W', hW', hpos'⟩ := magnitude_posDef M' sd sdp (by rw [h2']; exact hsd) hp (by rw [h2']; exact hs) hM'
  refine ⟨W, W', hW, hW', by rw [← h1, ← h2]; exact hpos, ?_⟩
  set B := M.map (fun z => ((‖z‖ : ℝ) : ℂ)) with hB
  set B' := M'.map (fun z => ((‖z‖ : ℝ) : ℂ)) with hB'
  have b1 : B.r = T := h1
  have b2 : B.c = n := h2
  have b1' : B'.r = T := h1'
  have b2' : B'.c = n := h2'
  obtain ⟨a, b, c, ha, hb, hc, he, hn⟩ := noise_diags naiveAll B sd sdp (by rw [b2]; exact hsd)
  obtain ⟨a', b', c', ha', hb', hc', he', hn'⟩ := noise_diags naiveAll B' sd sdp (by rw [b2']; exact hsd)
  rw [b1, b2] at ha hb hc he
  rw [b1', b2'] at ha' hb' hc' he'
  rw [h1', h2'] at hpos'
  have e1 := (hn false).trans (covBlock_closed ha hb hc)
  have e1' := (hn' false).trans (covBlock_closed ha' hb' hc')
  obtain rfl := Except.ok.inj (hW.symm.trans e1)
  obtain rfl := Except.ok.inj (hW'.symm.trans e1')
  have hr0 : recip 0 = 0 := by simp [recip]
  rw [block_map hr0] at hpos' ⊢
  rw [block_map hr0]
  refine order_weight π (fun t j hj => ?_) hpos'.1
  obtain ⟨d1, d2, d3⟩ := he _ _ (π t).2 hj
  obtain ⟨d1', d2', d3'⟩ := he' _ _ t.2 hj
  have hBg : B'.get t j = B.get (π t) j := by
    rw [hB, hB', Arr2.map, Arr2.map, Arr2.ofFn_get _ (by rw [h1']; exact t.2) (by rw [h2']; exact hj),
      Arr2.ofFn_get _ (by rw [h1]; exact (π t).2) (by rw [h2]; exact hj), hg t j hj]
  simp only [map_getD_zero hr0]
  rw [d1, d2, d3, d1', d2', d3', hBg]
  exact ⟨rfl, rfl, rfl⟩

/-- centring does not depend on the order of the samples -/
theorem centreData_order {T n : Nat} {π : Equiv.Perm (Fin T)} {v i v' i' : Arr2 ℂ} (lap : Bool)
    (hv : Spec.Rewritten (n := n) v v' 1 (fun _ => 1) π 1) (hi : Spec.Rewritten (n := n) i i' 1 (fun _ => 1) π 1) :
    Spec.Rewritten (n := n) (centreData lap v i).1 (centreData lap v' i').1 1 (fun _ => 1) π 1 ∧
      Spec.Rewritten (n := n) (centreData lap v i).2 (centreData lap v' i').2 1 (fun _ => 1) π 1 := by
  have get : ∀ {x x' : Arr2 ℂ}, Spec.Rewritten (n := n) x x' 1 (fun _ => 1) π 1 → ∀ (t : Fin T) (j : Nat), j < n →
      x'.get t j = x.get (π t) j := by
    intro x x' h t j hj
    have := h.entries t ⟨j, hj⟩
    simpa using this
  have sum : ∀ {x x' : Arr2 ℂ}, Spec.Rewritten (n := n) x x' 1 (fun _ => 1) π 1 → ∀ j < n,
      ∑ s ∈ range T, x'.get s j = ∑ s ∈ range T, x.get s j := by
    intro x x' h j hj
    rw [← Fin.sum_univ_eq_sum_range (fun s => x'.get s j), ← Fin.sum_univ_eq_sum_range (fun s => x.get s j),
      ← Equiv.sum_comp π (fun s : Fin T => x.get s j)]
    exact Finset.sum_congr rfl fun t _ => get h t j hj
  have col : ∀ {x x' : Arr2 ℂ}, Spec.Rewritten (n := n) x x' 1 (fun _ => 1) π 1 →
      Spec.Rewritten (n := n) (centreColumns x) (centreColumns x') 1 (fun _ => 1) π 1 := by
    intro x x' h
    obtain ⟨h1, h2⟩ := h.shape
    obtain ⟨h1', h2'⟩ := h.shape'
    refine ⟨h.shape, h.shape', fun t k => ?_⟩
    rw [centreColumns, centreColumns, Arr2.ofFn_get _ (by rw [h1']; exact t.2) (by rw [h2']; exact k.2),
      Arr2.ofFn_get _ (by rw [h1]; exact (π t).2) (by rw [h2]; exact k.2), h1, h1', sum h k k.2, get h t k k.2]
    simp
  cases lap with
  | false => exact ⟨col hv, col hi⟩
  | true =>
    refine ⟨?_, hi⟩
    obtain ⟨h1, h2⟩ := hv.shape
    obtain ⟨h1', h2'⟩ := hv.shape'
    refine ⟨hv.shape, hv.shape', fun t k => ?_⟩
    have hs : ∑ s ∈ range T, ∑ k ∈ range n, v'.get s k = ∑ s ∈ range T, ∑ k ∈ range n, v.get s k := by
      rw [Finset.sum_comm, Finset.sum_comm (s := range T)]
      exact Finset.sum_congr rfl fun j hj => sum hv j (Finset.mem_range.1 hj)
    show (centreGlobal v').get t k = _ * (centreGlobal v).get (π t) k
    rw [centreGlobal, centreGlobal, Arr2.ofFn_get _ (by rw [h1']; exact t.2) (by rw [h2']; exact k.2),
      Arr2.ofFn_get _ (by rw [h1]; exact (π t).2) (by rw [h2]; exact k.2), h1, h1', h2, h2', hs, get hv t k k.2]
    simp

/-- unsynchronised measurements in another order and with other reference angles -/
theorem turned_order {T n : Nat} {θ : Nat → ℂ} (hθ : ∀ t, Complex.normSq (θ t) = 1) {π : Equiv.Perm (Fin T)} {v i v' i' : Arr2 ℂ}
    (hv : Spec.Rewritten (n := n) v v' 1 θ π 1) (hi : Spec.Rewritten (n := n) i i' 1 θ π 1) :
    Spec.Rewritten (n := n) (v.map (fun z => ((‖z‖ : ℝ) : ℂ))) (v'.map (fun z => ((‖z‖ : ℝ) : ℂ))) 1 (fun _ => 1) π 1 ∧
    ∃ ci ci', Arr2.zipWith (fun i v => i * (starRingEnd ℂ) v / ((‖v‖ : ℝ) : ℂ)) i v = .ok ci ∧
      Arr2.zipWith (fun i v => i * (starRingEnd ℂ) v / ((‖v‖ : ℝ) : ℂ)) i' v' = .ok ci' ∧
      Spec.Rewritten (n := n) ci ci' 1 (fun _ => 1) π 1 := by
  obtain ⟨h1, h2⟩ := hv.shape
  obtain ⟨h1', h2'⟩ := hv.shape'
  obtain ⟨i1, i2⟩ := hi.shape
  obtain ⟨i1', i2'⟩ := hi.shape'
  have hnorm : ∀ t, ‖θ t‖ = 1 := fun t => by
    have := hθ t
    rw [Complex.normSq_eq_norm_sq] at this
    nlinarith [norm_nonneg (θ t)]
  constructor
  · refine ⟨hv.shape, hv.shape', fun t k => ?_⟩
    rw [Arr2.map, Arr2.map, Arr2.ofFn_get _ (by rw [h1']; exact t.2) (by rw [h2']; exact k.2),
      Arr2.ofFn_get _ (by rw [h1]; exact (π t).2) (by rw [h2]; exact (_ : Fin n).2), hv.entries t k, norm_mul, norm_mul, hnorm]
    simp
  · unfold Arr2.zipWith
    rw [if_pos ⟨i1.trans h1.symm, i2.trans h2.symm⟩, if_pos ⟨i1'.trans h1'.symm, i2'.trans h2'.symm⟩]
    refine ⟨_, _, rfl, rfl, hi.shape, hi.shape', fun t k => ?_⟩
    rw [Arr2.ofFn_get _ (by rw [i1']; exact t.2) (by rw [i2']; exact k.2),
      Arr2.ofFn_get _ (by rw [i1]; exact (π t).2) (by rw [i2]; exact (_ : Fin n).2), hv.entries t k, hi.entries t k]
    dsimp only
    rw [norm_mul, norm_mul, hnorm]
    have h := hθ t
    have hc : θ t * (starRingEnd ℂ) (θ t) = 1 := by rw [Complex.mul_conj, h]; rfl
    simp only [map_mul, Complex.ofReal_one, map_one, one_mul, norm_one, mul_one]
    rw [← one_mul (i.get _ _ * _), ← hc]
    ring

/-- C147 for `bayesian_eiv`: the outcome, with the log and the stored file, does not depend on the order of the samples. For weighted,
unsynchronised measurements it does not depend on the reference angles of the samples either. -/
theorem C147_run {ext : NumExt} (hex : Spec.Exact ext.solve) (htot : Spec.Total ext.solve) (cf : IdConf) (name : String) {T n : Nat}
    {π : Equiv.Perm (Fin T)} {θ : Nat → ℂ} (hθ : ∀ t, Complex.normSq (θ t) = 1) {v i v' i' : Arr2 ℂ}
    (hv : Spec.Rewritten (n := n) v v' 1 θ π 1) (hi : Spec.Rewritten (n := n) i i' 1 θ π 1) (vsd isd : SdPolar) {ratings : List ℝ}
    {y0 : Arr2 ℂ} (hy : Spec.IsSquare n y0) (ye : Option (Arr2 ℂ)) (lap weighted : Bool) (K : Nat) (pmu : Bool) (st : Store)
    (hone : weighted = false ∨ pmu = true → ∀ t, θ t = 1)
    (hw : weighted = true → n ≠ 1 ∧ 0 < vsd.m ∧ 0 < vsd.p ∧ ratings ≠ [] ∧
      (pmu = false → ∀ t j, t < T → j < n → v.get t j ≠ 0)) :
    bayesianEiv ext cf name (some v') (some i') vsd isd ratings y0 ye lap weighted K pmu st =
      bayesianEiv ext cf name (some v) (some i) vsd isd ratings y0 ye lap weighted K pmu st := by
  have key : ∀ prior, eivCompute ext cf prior v' i' vsd isd ratings y0 lap weighted K pmu =
      eivCompute ext cf prior v i vsd isd ratings y0 lap weighted K pmu := by
    intro prior
    have fit : ∀ {cv ci cv' ci' : Arr2 ℂ}, Spec.Rewritten (n := n) cv cv' 1 (fun _ => 1) π 1 →
        Spec.Rewritten (n := n) ci ci' 1 (fun _ => 1) π 1 → ∀ {W W' wi wi' : Arr2 ℝ}, Spec.PosDef (2 * (n * T)) W →
        Spec.MixedWeight T n (orderArr π) W W' →
        eivFit ext.solve ext.inv (regConfig cf prior cf.lambdaEiv lap K) .fresh (centreData lap cv' ci').1 (centreData lap cv' ci').2
          (some W') (some wi') y0 =
        eivFit ext.solve ext.inv (regConfig cf prior cf.lambdaEiv lap K) .fresh (centreData lap cv ci).1 (centreData lap cv ci).2
          (some W) (some wi) y0 := by
      intro cv ci cv' ci' h1 h2 W W' wi wi' hW hW'
      obtain ⟨c1, c2⟩ := centreData_order lap h1 h2
      refine C147_fit hex htot ext.inv _ rfl _ (orderArr_mix π) c1.shape c2.shape ?_ ?_ hy hW hW'
      · rw [mixed_order c1]; exact mixed_matmul c1.shape.1.symm
      · rw [mixed_order c2]; exact mixed_matmul c2.shape.1.symm
    cases weighted with
    | false =>
      have ho : θ = fun _ => 1 := funext (hone (.inl rfl))
      subst ho
      obtain ⟨c1, c2⟩ := centreData_order lap hv hi
      have := C147_unweighted ext.solve ext.inv (regConfig cf prior cf.lambdaEiv lap K) rfl .fresh y0 (orderArr_mix π) (orderArr_real π)
        c1.shape c2.shape (mixed_matmul c1.shape.1.symm) (mixed_matmul c2.shape.1.symm)
      simp only [eivCompute, eivWeights, Bool.false_and, Bool.false_eq_true, if_false, bind, Except.bind, pure, Except.pure]
      rw [← mixed_order c1, ← mixed_order c2] at this
      rw [this]
    | true =>
      obtain ⟨hn, hm, hp, hr, hnz⟩ := hw rfl
      have hr' : ratings.map (fun r => isd.m * r) ≠ [] := by simpa using hr
      cases pmu with
      | true =>
        have ho : θ = fun _ => 1 := funext (hone (.inr rfl))
        subst ho
        obtain ⟨W, W', hW, hW', hpos, hmw⟩ := average_order hv (sd := .npScalar vsd.m) hn hp (fun _ _ => hm)
        obtain ⟨wi, hwi⟩ := noise_array_ok averageCov i _ isd.p true hr'
        obtain ⟨wi', hwi'⟩ := noise_array_ok averageCov i' _ isd.p true hr'
        have hwi : averageTrueNoiseCovariance i (ratedSd isd ratings) isd.p true = .ok wi := hwi
        have hwi' : averageTrueNoiseCovariance i' (ratedSd isd ratings) isd.p true = .ok wi' := hwi'
        simp only [eivCompute, eivWeights, hW, hW', hwi, hwi', Bool.and_self, if_true, bind, Except.bind, pure, Except.pure]
        rw [fit hv hi hpos hmw]
      | false =>
        obtain ⟨W, W', hW, hW', hpos, hmw⟩ := magnitude_order hθ hv (sd := .npScalar vsd.m) (sdp := vsd.p * 100) hn (by positivity)
          (fun _ _ => hm) (hnz rfl)
        obtain ⟨t1, ci, ci', hci, hci', t2⟩ := turned_order hθ hv hi
        obtain ⟨wi, hwi⟩ := noise_array_ok naiveAll i _ isd.p true hr'
        obtain ⟨wi', hwi'⟩ := noise_array_ok naiveAll i' _ isd.p true hr'
        have hwi : naiveNoiseCovariance i (ratedSd isd ratings) isd.p true = .ok wi := hwi
        have hwi' : naiveNoiseCovariance i' (ratedSd isd ratings) isd.p true = .ok wi' := hwi'
        simp only [eivCompute, eivWeights, hW, hW', hci, hci', hwi, hwi', Bool.and_false, Bool.false_eq_true, if_false, Bool.not_false,
          Bool.and_self, if_true, bind, Except.bind, pure, Except.pure]
        exact congrArg fitted (fit t1 t2 hpos hmw)
  unfold bayesianEiv
  dsimp only
  rw [hv.shape.2, hv.shape'.2]
  cases eivPrior cf n y0 ye lap with
  | error e => rfl
  | ok prior =>
    dsimp only
    cases decide (K > 0) with
    | false => rfl
    | true => dsimp only; rw [key]

/-- Two samples of two nodes, exchanged and seen with reference angles turned by a quarter: other data, same outcome. -/
theorem demo_C147 (cf : IdConf) (prior : Option (Arr2 ℂ)) (lap : Bool) (st : Store) :
    ∃ v' i', v' ≠ demoV126 ∧
      bayesianEiv ⟨exactPinv, exactSvd, exactInv, exactSolve⟩ cf "a" (some v') (some i') ⟨1, 1⟩ ⟨1, 1⟩ [1] (Arr2.eye 2) prior lap true 5
        false st =
      bayesianEiv ⟨exactPinv, exactSvd, exactInv, exactSolve⟩ cf "a" (some demoV126) (some demoY126) ⟨1, 1⟩ ⟨1, 1⟩ [1] (Arr2.eye 2) prior
        lap true 5 false st := by
  have hs : ∀ k : Fin 2, ((Equiv.swap (0 : Fin 2) 1 k : Fin 2) : Nat) = 1 - k := by decide
  refine ⟨Arr2.ofFn 2 2 (fun t j => Complex.I * demoV126.get (1 - t) j), Arr2.ofFn 2 2 (fun t j => Complex.I * demoY126.get (1 - t) j), ?_, ?_⟩
  · intro h
    have h0 := congrArg (fun A => (Arr2.get A 0 0).im) h
    simp [demoV126, Arr2.ofFn_get'] at h0
  · refine C147_run (T := 2) (n := 2) (π := Equiv.swap 0 1) (θ := fun _ => Complex.I) exactSolve_exact exactSolve_total cf "a"
      (fun _ => by simp) ⟨⟨rfl, rfl⟩, ⟨rfl, rfl⟩, fun t k => ?_⟩ ⟨⟨rfl, rfl⟩, ⟨rfl, rfl⟩, fun t k => ?_⟩ _ _ ⟨rfl, rfl⟩ _ _ _ _ _ _ (by simp)
      (fun _ => ⟨by decide, one_pos, one_pos, by simp, fun _ t j ht hj => ?_⟩)
    · rw [Arr2.ofFn_get _ t.2 k.2, hs]; simp
    · rw [Arr2.ofFn_get _ t.2 k.2, hs]; simp
    · rw [demoV126, Arr2.ofFn_get _ ht hj]
      split <;> simp

end
end Verif
