/-
When the Bayesian fit completes on the prior that the code builds (used by C118): the unweighted fit on data without exact linear
relations, and both fits when the prior leaves no direction free.
-/
import Verif.Props.EivUnweighted
import Verif.Props.IdPriors
import Verif.Props.Identification
import Verif.Props.Stability

namespace Verif
open Finset Matrix
noncomputable section

/-- no linear relation holds between the columns of `x` and `z` (as soon as noise is present, relations hold by accident only) -/
def Spec.Unrelated (x z : Arr2 ℂ) : Prop :=
  ∀ (a : Fin x.c → ℂ) (b : Fin z.c → ℂ), (x.toMat x.r x.c).mulVec a + (z.toMat x.r z.c).mulVec b = 0 → a = 0 ∧ b = 0

/-- data without linear relations stay linearly independent after the projection on the network equations, whatever the matrix -/
theorem projected_rank {inv : Arr2 ℂ → Except PyErr (Arr2 ℂ)} (hinv : Spec.InvContract inv) (n : Nat)
    {Y x z pd : Arr2 ℂ} (hY : Spec.IsSquare n Y) (hx : x.c = n) (hz : z.r = x.r ∧ z.c = n) (hun : Spec.Unrelated x z)
    (hpd : projectedData inv Y x z = .ok pd) : Spec.FullColumnRank (slice2 pd 0 pd.r 0 n) := by
  obtain ⟨p, N, hp, hr, hc, e1, e2, hker, hm⟩ := projector_ok hinv n Y hY
  obtain ⟨W, hW, hWr, hWc, w1, w2⟩ := hstack_ok (x := x) (z := z) hz.1.symm
  rw [hx] at w1 w2 hWc
  rw [hz.2] at w2 hWc
  obtain ⟨pd', hpd', pr, pc, pm⟩ := Arr2.matmul_mat (A := W) (B := p) (m := x.r) (k := n + n) (n := n + n) ⟨hWr, hWc⟩ ⟨hr, hc⟩
  have : pd = pd' := by
    unfold projectedData at hpd
    simp only [hx, hp, hW, hpd', bind, Except.bind] at hpd
    exact (Except.ok.inj hpd).symm
  subst this
  have hun' : ∀ (a : Fin n → ℂ) (b : Fin n → ℂ), (x.toMat x.r n).mulVec a + (z.toMat x.r n).mulVec b = 0 → a = 0 ∧ b = 0 := by
    have := hun
    unfold Spec.Unrelated at this
    rw [hx, hz.2] at this
    exact this
  have key : ∀ v : Fin n → ℂ, ((slice2 pd 0 pd.r 0 n).toMat x.r n).mulVec v = 0 → v = 0 := by
    intro v hv
    set P := p.toMat (n + n) (n + n) with hP
    set u := P.mulVec (Fin.append v 0) with hu
    have h1 : (W.toMat x.r (n + n)).mulVec u = 0 := by
      rw [hu, mulVec_mulVec, ← pm, ← hv]
      funext i
      show ∑ k, pd.toMat x.r (n + n) i k * Fin.append v 0 k = ∑ k, (slice2 pd 0 pd.r 0 n).toMat x.r n i k * v k
      rw [Fin.sum_univ_add]
      simp only [Fin.append_left, Fin.append_right, Pi.zero_apply, mul_zero, Finset.sum_const_zero, add_zero]
      refine Finset.sum_congr rfl fun k _ => ?_
      congr 1
      show pd.get i k = (slice2 pd 0 pd.r 0 n).get i k
      unfold slice2
      rw [Arr2.ofFn_get _ (by rw [pr]; exact i.2) (by have := k.2; omega), Nat.zero_add, Nat.zero_add]
    have h2 : u = 0 := by
      obtain ⟨a0, b0⟩ := hun' (fun a => u (Fin.castAdd n a)) (fun a => u (Fin.natAdd n a)) (by
        rw [← h1]
        funext i
        show _ = ∑ k, W.toMat x.r (n + n) i k * u k
        rw [Fin.sum_univ_add, Pi.add_apply]
        congr 1
        · show ∑ k : Fin n, x.get i k * u (Fin.castAdd n k) = ∑ k : Fin n, W.get i k * u (Fin.castAdd n k)
          exact Finset.sum_congr rfl fun k _ => by rw [w1 i k i.2 k.2]
        · show ∑ k : Fin n, z.get i k * u (Fin.natAdd n k) = ∑ k : Fin n, W.get i (n + k) * u (Fin.natAdd n k)
          exact Finset.sum_congr rfl fun k _ => by rw [w2 i k i.2 k.2])
      funext i
      refine Fin.addCases (fun a => ?_) (fun a => ?_) i
      · exact congrFun a0 a
      · exact congrFun b0 a
    rw [hu, hm, sub_mulVec, one_mulVec, sub_eq_zero, ← mulVec_mulVec, ← mulVec_mulVec] at h2
    set c := ((Nᴴ * N)⁻¹).mulVec (Nᴴ.mulVec (Fin.append v 0)) with hc'
    have h3 : c = 0 := by
      funext a
      have := congrFun h2 (Fin.natAdd n a)
      rw [Fin.append_right] at this
      have e : N.mulVec c (Fin.natAdd n a) = -c a := by
        show ∑ k, N (Fin.natAdd n a) k * c k = _
        simp only [e2, ite_mul, neg_mul, one_mul, zero_mul, Finset.sum_ite_eq, Finset.mem_univ, if_true]
      rw [e, Pi.zero_apply] at this
      rw [Pi.zero_apply]
      exact neg_eq_zero.1 this.symm
    rw [h3, mulVec_zero] at h2
    funext a
    have := congrFun h2 (Fin.castAdd n a)
    rwa [Fin.append_left] at this
  have hr' : (slice2 pd 0 pd.r 0 n).r = x.r := by show pd.r - 0 = _; omega
  have hc' : (slice2 pd 0 pd.r 0 n).c = n := rfl
  unfold Spec.FullColumnRank
  rw [hr', hc']
  exact key

/-- an unweighted iteration cannot fail on data without linear relations -/
theorem unwStep_data {lap : Bool} {n : Nat} {cfg : RegConfig} {x z yInit : Arr2 ℂ} (h : FitSetup lap n cfg x z yInit)
    (hl : 0 ≤ cfg.lam) (hun : Spec.Unrelated x z) {solve : Solver} (hex : Spec.Exact solve) (htot : Spec.Total solve)
    {inv : Arr2 ℂ → Except PyErr (Arr2 ℂ)} (hinv : Spec.InvContract inv)
    {dt : Arr2 ℂ} (hdt : dtMatrix ℂ lap n = .ok dt) {y : List ℝ} {s : FitState}
    (hs : StateAt cfg.prior (nReal lap n) y s) (hsq : Spec.IsSquare n s.yMat) :
    ∃ s' t, eivUnweightedStep solve inv cfg x z dt (Spec.stackReal z) s = .ok (s', t) := by
  have hxc := h.xc
  subst hxc
  obtain ⟨hyl, hM, hmu⟩ := hs
  have hbl : (Spec.stackReal z).length = 2 * (x.c * x.r) := by rw [stackReal_length, h.zs.1, h.zs.2]
  obtain ⟨pd, xh, zh, hpd, pr, pc, e1, e2, hcons, hnear⟩ := C40_projected_data hinv x.c hsq rfl h.zs
  have hrank := projected_rank hinv x.c hsq rfl h.zs hun hpd
  rw [e1] at hrank
  have hmin : min x.c pd.c = x.c := by rw [pc]; omega
  have hxr : xh.r = x.r := by rw [← e1]; show pd.r - 0 = _; rw [pr]; omega
  have hxc : xh.c = x.c := by rw [← e1]; rfl
  obtain ⟨A, hA, hAr, hAc, _⟩ := regressionMatrix_spec lap x.c hdt xh hxc
  rw [hxr] at hAr
  obtain ⟨sys, rhs, hss, hrl, hsm, herr, hok⟩ := unwStep_system solve inv cfg lap hdt rfl hbl h.prior s
    (by rw [hM]; exact ⟨rfl, rfl⟩) (by rw [hmu]; simp [Prior.linB]) hpd (by rw [hmin]; exact e1) hA ⟨hAr, hAc⟩
  have hset : FitSetup lap x.c cfg xh z yInit := ⟨h.dt, h.e, hxc, ⟨by rw [hxr]; exact h.zs.1, h.zs.2⟩, h.init, h.prior, h.alpha⟩
  have hid := identifiable_fullColumnRank lap x.c cfg.prior cfg.lam xh hxc hrank
  obtain ⟨y', hy'⟩ := htot sys rhs (by rw [hss.1, hrl]) (by rw [hss.2, hrl]) (by
    intro v hv h0
    rw [hrl] at hv h0 ⊢
    obtain ⟨_, _, h3⟩ := Arr2.mulVec_inv h0
    have := h3 (nReal lap x.c)
    rw [hss.2, toVec_replicate_zero, hsm, hM] at this
    refine sys_kernel hset hl hid hdt hA hyl v hv ?_
    rw [hxr]
    exact this.symm)
  have hy'l : y'.length = nReal lap x.c := by
    obtain ⟨f1, _⟩ := Arr2.mulVec_inv (hex _ _ _ hy')
    rw [← f1, hss.2]
  obtain ⟨ym, hym, hst⟩ := hok y' hy' hy'l
  exact ⟨_, _, hst⟩

/-- C89 on data instead of priors: without linear relations between the measured columns the unweighted fit never raises,
whatever the prior and the initial guess. -/
theorem C89_data {lap : Bool} {n : Nat} {cfg : RegConfig} {x z yInit : Arr2 ℂ} (h : FitSetup lap n cfg x z yInit)
    (hl : 0 ≤ cfg.lam) (hun : Spec.Unrelated x z) {solve : Solver} (hex : Spec.Exact solve) (htot : Spec.Total solve)
    {inv : Arr2 ℂ → Except PyErr (Arr2 ℂ)} (hinv : Spec.InvContract inv) {xW zW : Option (Arr2 ℝ)} (hw : xW = none ∨ zW = none)
    (obj : RegObj) (hobj : obj.iterations = []) :
    ∃ obj', eivBody solve inv cfg obj x z xW zW yInit = (.ok (), obj') := by
  obtain ⟨dt, A, y0, s, hdt, hA, hst, hsy, hY0, _, hf⟩ := eivSetup_ok h solve inv
  rw [hf _ _ _ hw, hobj]
  generalize hr : fitLoop cfg (eivUnweightedStep solve inv cfg x z dt (Spec.stackReal z)) cfg.maxIter 0 s [] = r
  obtain ⟨rs, log'⟩ := r
  obtain ⟨run, h1, h2, h3, h4, h5⟩ := fitLoop_spec cfg _ cfg.maxIter 0 s [] log' rs rfl hr
  cases rs with
  | ok s' => exact ⟨_, rfl⟩
  | error e =>
    exfalso
    have hstep : ∀ s, ((∃ y, StateAt cfg.prior (nReal lap n) y s) ∧ Spec.IsSquare n s.yMat) → ∃ s' t,
        eivUnweightedStep solve inv cfg x z dt (Spec.stackReal z) s = .ok (s', t) ∧
        ((∃ y, StateAt cfg.prior (nReal lap n) y s') ∧ Spec.IsSquare n s'.yMat) ∧ True := by
      rintro s ⟨⟨y, hs⟩, hsq⟩
      obtain ⟨k1, -⟩ := unwStep_at h hex hinv hdt hs hsq
      obtain ⟨s', t, h6⟩ := unwStep_data h hl hun hex htot hinv hdt hs hsq
      obtain ⟨_, _, y', _, h7, h8, _⟩ := k1 s' t h6
      exact ⟨s', t, h6, ⟨⟨y', h7⟩, (toMatrix_admissible lap n hdt h8).1⟩, trivial⟩
    obtain ⟨g1, _⟩ := fixed_run hstep run s ⟨⟨y0, hst⟩, by rw [hsy]; exact h.init⟩ h1
    obtain ⟨s', t, h6, _⟩ := hstep _ g1
    rw [h5.2.1] at h6; cases h6

/-- Concrete data without linear relations: voltages and currents excite different samples. -/
example : Spec.Unrelated (Arr2.ofFn 2 1 fun i _ => if i = 0 then 1 else 0) (Arr2.ofFn 2 1 fun i _ => if i = 1 then 1 else 0) := by
  intro (a : Fin 1 → ℂ) (b : Fin 1 → ℂ) h
  have e : ∀ i : Fin 2, ((Arr2.ofFn 2 1 fun i _ => if i = 0 then (1 : ℂ) else 0).toMat 2 1).mulVec a i +
      ((Arr2.ofFn 2 1 fun i _ => if i = 1 then (1 : ℂ) else 0).toMat 2 1).mulVec b i = 0 := fun i => congrFun h i
  have v : ∀ (f : Nat → Nat → ℂ) (c : Fin 1 → ℂ) (i : Fin 2), ((Arr2.ofFn 2 1 f).toMat 2 1).mulVec c i = f i 0 * c 0 := by
    intro f c i
    show ∑ k : Fin 1, (Arr2.ofFn 2 1 f).get i k * c k = _
    rw [Fin.sum_univ_one, Arr2.ofFn_get _ i.2 (Fin.is_lt 0)]
    rfl
  have e0 := e 0
  have e1 := e 1
  rw [v, v] at e0 e1
  refine ⟨funext fun (k : Fin 1) => ?_, funext fun (k : Fin 1) => ?_⟩
  · rw [Subsingleton.elim k 0]; refine Eq.trans ?_ (rfl : (0 : ℂ) = _); simpa using e0
  · rw [Subsingleton.elim k 0]; refine Eq.trans ?_ (rfl : (0 : ℂ) = _); simpa using e1

/-! ### the prior of the code -/

/-- real and imaginary part of every line of the estimate differ from zero -/
def Spec.LinesSeen (n : Nat) (y : Arr2 ℂ) : Prop :=
  ∀ e ∈ Spec.offPairs n, ∀ im, Spec.part im ((Spec.symPart n y).get e.1 e.2) ≠ 0

/-- the parameters of a matrix determine it up to what is not admissible -/
theorem admissible_zero {lap : Bool} {n : Nat} {V : Arr2 ℂ} (hV : Spec.IsSquare n V) (ha : Spec.Admissible lap V)
    (hoff : ∀ e ∈ Spec.offPairs n, ∀ im, Spec.part im (V.get e.1 e.2) = 0)
    (hdiag : lap = false → ∀ i < n, ∀ im, Spec.part im (V.get i i) = 0) : V = Arr2.zeros n n := by
  have hz : ∀ z : ℂ, (∀ im, Spec.part im z = 0) → z = 0 := by
    intro z h
    exact Complex.ext (h false) (h true)
  have hlow : ∀ i j, j < i → i < n → V.get i j = 0 := by
    intro i j hji hi
    refine hz _ fun im => hoff (i, j) ?_ im
    unfold Spec.offPairs
    rw [List.mem_flatMap]
    exact ⟨j, List.mem_range.2 (by omega), List.mem_map.2 ⟨i - j - 1, List.mem_range.2 (by omega), by
      rw [Prod.mk.injEq]; exact ⟨by omega, rfl⟩⟩⟩
  have hne : ∀ i j, i ≠ j → i < n → j < n → V.get i j = 0 := by
    intro i j hij hi hj
    rcases lt_or_gt_of_ne hij with h | h
    · rw [ha.1.2]; exact hlow j i h hj
    · exact hlow i j h hi
  refine Arr2.ext' (A := V) (B := Arr2.zeros n n) hV.1 hV.2 ?_
  intro i j hi hj
  rw [hV.1] at hi
  rw [hV.2] at hj
  refine Eq.trans ?_ (Arr2.ofFn_get _ hi hj).symm
  by_cases hij : i = j
  · subst hij
    cases lap with
    | false => exact hz _ (hdiag rfl i hi)
    | true =>
      have := (ha.2 rfl) i (by rw [hV.1]; exact hi)
      rw [hV.2, Finset.sum_eq_single i] at this
      · exact this
      · intro k hk hki
        exact hne i k (fun h => hki h.symm) hi (Finset.mem_range.1 hk)
      · intro h
        exact absurd (Finset.mem_range.2 hi) h
  · exact hne i j hij hi hj

end
end Verif
