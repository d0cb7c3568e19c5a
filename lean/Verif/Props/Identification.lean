/-
C47, C48, C93: centring of the data, recovery by the standard methods, success of the regularised regression.
-/
import Verif.Model.Identification
import Verif.Props.LeastSquares
import Verif.Props.KnownLines
import Verif.Props.EivUnweighted

namespace Verif
open Finset Matrix
noncomputable section

/-! ### C47 centring -/

theorem matmul_entry {A B C : Arr2 ℂ} (h : A.matmul B = .ok C) :
    A.c = B.r ∧ C.r = A.r ∧ C.c = B.c ∧ ∀ i j, i < A.r → j < B.c → C.get i j = ∑ k ∈ range A.c, A.get i k * B.get k j := by
  have hs : A.c = B.r := by
    by_contra hne
    simp [Arr2.matmul, hne] at h
  rw [Arr2.matmul_ok A B hs] at h
  obtain rfl := Except.ok.inj h
  refine ⟨hs, rfl, rfl, fun i j hi hj => ?_⟩
  rw [Arr2.ofFn_get _ hi hj]; rfl

theorem matmul_of_entries {A B C : Arr2 ℂ} (hs : A.c = B.r) (hr : C.r = A.r) (hc : C.c = B.c)
    (h : ∀ i j, i < A.r → j < B.c → ∑ k ∈ range A.c, A.get i k * B.get k j = C.get i j) : A.matmul B = .ok C := by
  rw [Arr2.matmul_ok A B hs]
  congr 1
  refine Arr2.ext' (A := Arr2.ofFn A.r B.c (A.mulGet B)) (B := C) hr.symm hc.symm ?_
  intro i j hi hj
  refine (Arr2.ofFn_get _ (show i < A.r from hi) (show j < B.c from hj)).trans ?_
  exact h i j hi hj

/-- C47, column centring (no Laplacian constraint): the centred data satisfy the network equation of the raw data. -/
theorem C47_columns (v Y i : Arr2 ℂ) (h : v.matmul Y = .ok i) :
    (centreData false v i).1.matmul Y = .ok (centreData false v i).2 := by
  obtain ⟨hs, hr, hc, he⟩ := matmul_entry h
  show (centreColumns v).matmul Y = .ok (centreColumns i)
  refine matmul_of_entries hs hr hc ?_
  intro t j ht hj
  have ht' : t < v.r := ht
  show ∑ k ∈ range v.c, (centreColumns v).get t k * Y.get k j = _
  unfold centreColumns
  rw [Arr2.ofFn_get _ (by rw [hr]; exact ht') (by rw [hc]; exact hj), he t j ht' hj]
  have h1 : ∀ k ∈ range v.c, (Arr2.ofFn v.r v.c fun t j => v.get t j - (∑ s ∈ range v.r, v.get s j) / ↑v.r).get t k *
      Y.get k j = v.get t k * Y.get k j - (∑ s ∈ range v.r, v.get s k * Y.get k j) / v.r := by
    intro k hk
    rw [Arr2.ofFn_get _ ht' (Finset.mem_range.1 hk), sub_mul, div_mul_eq_mul_div, Finset.sum_mul]
  rw [Finset.sum_congr rfl h1, Finset.sum_sub_distrib, ← Finset.sum_div, Finset.sum_comm, hr]
  congr 2
  apply Finset.sum_congr rfl
  intro s hs'
  rw [he s j (Finset.mem_range.1 hs') hj]

/-- C47, global centring (Laplacian constraint): the network equation survives when the columns of the admittance matrix
sum to zero. -/
theorem C47_global (v Y i : Arr2 ℂ) (h : v.matmul Y = .ok i) (hY : Spec.ZeroColSums Y) :
    (centreData true v i).1.matmul Y = .ok (centreData true v i).2 := by
  obtain ⟨hs, hr, hc, he⟩ := matmul_entry h
  show (centreGlobal v).matmul Y = .ok i
  refine matmul_of_entries hs hr hc ?_
  intro t j ht hj
  have ht' : t < v.r := ht
  show ∑ k ∈ range v.c, (centreGlobal v).get t k * Y.get k j = _
  unfold centreGlobal
  rw [he t j ht' hj]
  have h1 : ∀ k ∈ range v.c, (Arr2.ofFn v.r v.c fun t j => v.get t j - (∑ s ∈ range v.r, ∑ k ∈ range v.c, v.get s k) /
      ((v.r * v.c : Nat) : ℂ)).get t k * Y.get k j = v.get t k * Y.get k j -
        (∑ s ∈ range v.r, ∑ k ∈ range v.c, v.get s k) / ((v.r * v.c : Nat) : ℂ) * Y.get k j := by
    intro k hk
    rw [Arr2.ofFn_get _ ht' (Finset.mem_range.1 hk), sub_mul]
  rw [Finset.sum_congr rfl h1, Finset.sum_sub_distrib, ← Finset.mul_sum, hs, hY j hj, mul_zero, sub_zero]

/-- C47: the condition is necessary unless the mean is zero. -/
theorem C47_global_iff (v Y i : Arr2 ℂ) (h : v.matmul Y = .ok i) (h0 : 0 < v.r) (h1 : 0 < v.c) :
    (centreData true v i).1.matmul Y = .ok (centreData true v i).2 ↔
      (∑ s ∈ range v.r, ∑ k ∈ range v.c, v.get s k = 0) ∨ Spec.ZeroColSums Y := by
  constructor
  · intro hc
    obtain ⟨hs, hr, hcc, he⟩ := matmul_entry h
    obtain ⟨_, _, _, he'⟩ := matmul_entry (show (centreGlobal v).matmul Y = .ok i from hc)
    by_cases hm : ∑ s ∈ range v.r, ∑ k ∈ range v.c, v.get s k = 0
    · exact Or.inl hm
    · right
      intro j hj
      have e1 := he 0 j h0 hj
      have e2 := he' 0 j h0 hj
      rw [e1] at e2
      have e3 : ∀ k ∈ range v.c, (centreGlobal v).get 0 k * Y.get k j = v.get 0 k * Y.get k j -
          (∑ s ∈ range v.r, ∑ k ∈ range v.c, v.get s k) / ((v.r * v.c : Nat) : ℂ) * Y.get k j := by
        intro k hk
        unfold centreGlobal
        rw [Arr2.ofFn_get _ h0 (Finset.mem_range.1 hk), sub_mul]
      rw [show (centreGlobal v).c = v.c from rfl, Finset.sum_congr rfl e3, Finset.sum_sub_distrib, ← Finset.mul_sum] at e2
      have e4 : (∑ s ∈ range v.r, ∑ k ∈ range v.c, v.get s k) / ((v.r * v.c : Nat) : ℂ) ≠ 0 := by
        apply div_ne_zero hm
        have : 0 < v.r * v.c := Nat.mul_pos h0 h1
        exact_mod_cast this.ne'
      rw [← hs]
      exact (mul_eq_zero.1 (by linear_combination e2)).resolve_left e4
  · rintro (hm | hY)
    · have : centreGlobal v = v := by
        refine Arr2.ext' (A := centreGlobal v) (B := v) rfl rfl ?_
        intro a b ha hb
        unfold centreGlobal
        refine (Arr2.ofFn_get _ (show a < v.r from ha) (show b < v.c from hb)).trans ?_
        rw [hm, zero_div, sub_zero]
      show (centreGlobal v).matmul Y = .ok i
      rw [this]; exact h
    · exact C47_global v Y i h hY

/-! ### C93 success of the regularised regression -/

/-- C93: on voltages that determine the matrix, the fit of the regularised regression never raises, whatever the currents,
the initial guess and the number of iterations, and leaves an estimate behind. -/
theorem C93_no_exception {lap : Bool} {n : Nat} {cfg : RegConfig} {x z yInit : Arr2 ℂ} (h : FitSetup lap n cfg x z yInit)
    (hl : 0 ≤ cfg.lam) (hid : Spec.Identifiable lap n cfg.prior cfg.lam x) {solve : Solver}
    (hex : Spec.Exact solve) (htot : Spec.Total solve) :
    ∃ obj Y, bayesianFit solve cfg RegObj.fresh x z yInit = (.ok (), obj) ∧ obj.admittance = some Y := by
  obtain ⟨dt, A, y0, s, hdt, hA, hAs, hst, hsy, hY0, hf⟩ := setup_ok h solve
  have hstep : ∀ s, (∃ y, StateAt cfg.prior (nReal lap n) y s) → ∃ s' t,
      regStep solve cfg n dt A (makeRealVector (vectorizeMatrix z)) s = .ok (s', t) ∧
      (∃ y, StateAt cfg.prior (nReal lap n) y s') ∧ True := by
    rintro s ⟨y, hyl, hM, hmu⟩
    have hb : (makeRealVector (vectorizeMatrix z)).length = 2 * (n * x.r) := by
      rw [makeRealVector_length, vec_length, h.zs.1, h.zs.2]
    obtain ⟨sys, rhs, hsh, hrl, hsm, hrv, herr, hok⟩ := regStep_system solve cfg lap n hdt rfl hAs hb h.prior s
      (by rw [hM]; exact ⟨rfl, rfl⟩) (by rw [hmu]; simp [Prior.linB])
    obtain ⟨y', hy'⟩ := htot sys rhs (by rw [hsh.1, hrl]) (by rw [hsh.2, hrl]) (by
      intro v hv h0
      rw [hrl] at hv h0 ⊢
      obtain ⟨_, _, h3⟩ := Arr2.mulVec_inv h0
      have := h3 (nReal lap n)
      rw [hsh.2, toVec_replicate_zero, hsm, hM] at this
      exact sys_kernel h hl hid hdt hA hyl v hv this.symm)
    obtain ⟨h1, _, _⟩ := Arr2.mulVec_inv (hex _ _ _ hy')
    have hy'l : y'.length = nReal lap n := by rw [← h1, hsh.2]
    obtain ⟨ym, hym, hst⟩ := hok y' hy' hy'l
    exact ⟨_, _, hst, ⟨y', hy'l, rfl, rfl⟩, trivial⟩
  rw [hf]
  generalize hr : fitLoop cfg (regStep solve cfg n dt A (makeRealVector (vectorizeMatrix z))) cfg.maxIter 0 s
    RegObj.fresh.iterations = r
  obtain ⟨rs, log'⟩ := r
  obtain ⟨run, h1, h2, h3, h4, h5⟩ := fitLoop_spec cfg _ cfg.maxIter 0 s [] log' rs rfl hr
  cases rs with
  | ok s' => exact ⟨_, _, rfl, rfl⟩
  | error e =>
    exfalso
    obtain ⟨g1, _⟩ := fixed_run hstep run s ⟨y0, hst⟩ h1
    obtain ⟨s', t, h6, _⟩ := hstep _ g1
    rw [h5.2.1] at h6; cases h6

theorem identifiable_fullColumnRank (lap : Bool) (n : Nat) (p : Prior) (lam : ℝ) (x : Arr2 ℂ) (hx : x.c = n)
    (hrank : Spec.FullColumnRank x) : Spec.Identifiable lap n p lam x := by
  apply identifiable_of_full_rank lap n p lam x hx
  intro v hv h0
  obtain ⟨_, _, h3⟩ := Arr2.mulVec_inv h0
  have h3 := h3 x.r
  subst hx
  have hz : ∀ m, toVec m (List.replicate m (0 : ℂ)) = 0 := by
    intro m
    funext k
    simp [toVec, List.getD_eq_getElem?_getD]
  rw [hz] at h3
  have := hrank (toVec x.c v) h3.symm
  apply toVec_inj hv (by simp)
  rw [this, hz]

/-! ### C48 recovery by the standard methods -/

theorem params_length_nReal (lap : Bool) (n : Nat) (Y : Arr2 ℂ) : (Spec.params lap n Y).length = nReal lap n := by
  have h := offPairs_length n
  have h2 : (n * (n + 1)) % 2 = 0 := Nat.even_iff.1 (Nat.even_mul_succ_self n)
  have h3 : n * (n + 1) = n * (n - 1) + 2 * n := by
    cases n with
    | zero => rfl
    | succ n => simp only [Nat.add_sub_cancel]; ring
  rw [params_length, realEntries_length, idEntries_length]
  unfold nReal nParams
  cases lap <;> simp <;> omega

theorem lasso_setup (n : Nat) (y x z : Arr2 ℂ) (hy : Spec.IsSquare n y) (lap : Bool) (cf : IdConf) (maxIter : Nat)
    (hx : x.c = n) (hz : z.r = x.r ∧ z.c = n) :
    ∃ p y0, buildLassoPrior n y lap = .ok p ∧ halfSum y = .ok y0 ∧
      FitSetup lap n (regConfig cf p cf.lambdaLasso lap maxIter) x z y0 := by
  obtain ⟨p, hp, hcons, ha, hn, ho, hres⟩ := C43_computes n y hy lap
  rw [params_length_nReal] at hn hres
  obtain ⟨y0, hy0, h0r, h0c, _⟩ := Arr2.zipWith_mat (fun a b : ℂ => (a + b) / 2) (A := y) (B := y.T) (m := n) (n := n) hy
    ⟨hy.2, hy.1⟩
  have hlen : p.rows.length = nReal lap n := by
    have := congrArg List.length (hres [])
    have hm := hcons.mu_len
    have hg := hcons.gamma_len
    simp only [Spec.terms, List.length_map, List.length_zip, List.length_range, hm, hg, min_self] at this
    exact this
  refine ⟨p, y0, hp, hy0, rfl, rfl, hx, hz, ⟨h0r, h0c⟩, ⟨hcons, hn, ?_⟩, ?_⟩
  · rintro ⟨_, h1⟩
    exact nReal_ne_one lap n (hlen ▸ h1)
  · show 0 < p.alpha
    rw [ha]; norm_num

/-- C48: on noise-free data with linearly independent centred voltages the standard methods succeed, OLS and TLS return the
true matrix, and the three estimates are stored. The network matrix has zero column sums if the Laplacian constraint is on. -/
theorem C48_recovery (ext : NumExt) (cf : IdConf) (hl : 0 ≤ cf.lambdaLasso) (hinv : Spec.InvContract ext.inv)
    (hex : Spec.Exact ext.solve) (htot : Spec.Total ext.solve) (v i Y p xz vh : Arr2 ℂ) (hY : Y.r = Y.c) (lap : Bool)
    (hLap : lap = true → Spec.ZeroColSums Y) (hvi : v.matmul Y = .ok i)
    (hrank : Spec.FullColumnRank (centreData lap v i).1) (hp : ext.pinv (centreData lap v i).1 = .ok p)
    (hpi : Spec.PseudoInverse (centreData lap v i).1 p)
    (hxz : hstack (centreData lap v i).1 (centreData lap v i).2 = .ok xz) (hs : ext.svdVh xz = .ok vh)
    (hsvd : Spec.IsSvdVh v.r (v.c + i.c) xz vh) (name : String) (maxIter : Nat) (st : Store) :
    ∃ L st', standardMethods ext cf name (some v) (some i) lap maxIter st = (.ok (Y, Y, L), st') ∧
      standardMethods ext cf name none none lap maxIter st' = (.ok (Y, Y, L), st') ∧ (maxIter = 0 → L = Y) := by
  obtain ⟨hvc, hir, hic, _⟩ := matmul_entry hvi
  have hc : (centreData lap v i).1.matmul Y = .ok (centreData lap v i).2 := by
    cases lap with
    | true => exact C47_global v Y i hvi (hLap rfl)
    | false => exact C47_columns v Y i hvi
  have hsh : (centreData lap v i).1.r = v.r ∧ (centreData lap v i).1.c = v.c ∧ (centreData lap v i).2.r = i.r ∧
      (centreData lap v i).2.c = i.c := by cases lap <;> exact ⟨rfl, rfl, rfl, rfl⟩
  obtain ⟨s1, s2, s3, s4⟩ := hsh
  have hols := C29_recovery ext.pinv _ _ p Y hp hpi hrank hc
  have htls := C30_recovery ext.svdVh ext.inv hinv _ _ Y xz vh hrank hc hxz hs (by rw [s1, s2, s4]; exact hsvd)
  obtain ⟨pr, y0, h1, h2, h3⟩ := lasso_setup v.c Y (centreData lap v i).1 (centreData lap v i).2 ⟨hvc.symm, by rw [← hY, hvc]⟩ lap
    cf maxIter s2 ⟨by rw [s3, s1, hir], by rw [s4, hic, ← hY, hvc]⟩
  obtain ⟨obj, L, h4, h5⟩ := C93_no_exception h3 hl
    (identifiable_fullColumnRank lap v.c pr cf.lambdaLasso _ s2 hrank) hex htot
  have hcomp : ∃ L, standardCompute ext cf v i lap maxIter = .ok (Y, Y, L) ∧ (maxIter = 0 → L = Y) := by
    by_cases hm : maxIter > 0
    · refine ⟨L, ?_, fun h => by omega⟩
      simp only [standardCompute, hols, htls, h1, h2, h4, fitted, h5, if_pos hm, bind, Except.bind, pure, Except.pure]
    · refine ⟨Y, ?_, fun _ => rfl⟩
      simp only [standardCompute, hols, htls, h1, if_neg hm, bind, Except.bind, pure, Except.pure]
  obtain ⟨L, hL, hL0⟩ := hcomp
  refine ⟨L, st.savez (resultFile .standard name) (standardNpz (Y, Y, L)), ?_, ?_, hL0⟩
  · simp only [standardMethods, hL]
  · simp [standardMethods, standardLoad, Store.load, Store.savez, standardNpz, npz, Npz.mat, bind, Except.bind,
      pure, Except.pure, List.lookup]

/-- one node, two samples, line admittance 4/3 -/
def demoV : Arr2 ℂ := Arr2.ofFn 2 1 (fun t _ => if t = 0 then 4 else -2)
def demoI : Arr2 ℂ := Arr2.ofFn 2 1 (fun t _ => if t = 0 then 16 / 3 else -8 / 3)
def demoY : Arr2 ℂ := Arr2.ofFn 1 1 (fun _ _ => 4 / 3)
def demoXZ : Arr2 ℂ := Arr2.ofFn 2 2 (fun t j => if t = 0 then (if j = 0 then 3 else 4) else (if j = 0 then -3 else -4))
def demoVh : Arr2 ℂ :=
  Arr2.ofFn 2 2 (fun i j => if i = 0 then (if j = 0 then 3 / 5 else 4 / 5) else (if j = 0 then -4 / 5 else 3 / 5))

theorem demo_svd2 : Spec.IsSvdVh 2 2 demoXZ demoVh := by
  have h2 : ((Real.sqrt 2 : ℝ) : ℂ) * ((Real.sqrt 2 : ℝ) : ℂ) = 2 := by
    rw [← Complex.ofReal_mul, Real.mul_self_sqrt (by norm_num)]; norm_num
  refine ⟨rfl, rfl, rfl, rfl, ?_, !![((Real.sqrt 2 : ℝ) : ℂ) / 2, ((Real.sqrt 2 : ℝ) : ℂ) / 2;
    -(((Real.sqrt 2 : ℝ) : ℂ) / 2), ((Real.sqrt 2 : ℝ) : ℂ) / 2], fun k => if k = 0 then 5 * Real.sqrt 2 else 0, ?_, ?_, ?_, ?_⟩
  · ext i j
    rw [mul_apply, Fin.sum_univ_two]
    simp only [conjTranspose_apply, Arr2.toMat, demoVh, Arr2.ofFn_get']
    fin_cases i <;> fin_cases j <;> simp [Complex.ext_iff] <;> norm_num
  · ext i j
    rw [mul_apply, Fin.sum_univ_two]
    simp only [conjTranspose_apply]
    fin_cases i <;> fin_cases j <;> simp <;> linear_combination h2 / 2
  · intro k
    show 0 ≤ if k = 0 then (5 * Real.sqrt 2 : ℝ) else 0
    split
    · positivity
    · exact le_refl _
  · intro a b hab
    show (if b = 0 then (5 * Real.sqrt 2 : ℝ) else 0) ≤ if a = 0 then 5 * Real.sqrt 2 else 0
    split_ifs
    · exact le_refl _
    · omega
    · positivity
    · exact le_refl _
  · ext i j
    rw [mul_apply, Fin.sum_univ_two, mul_apply, mul_apply, Fin.sum_univ_two, Fin.sum_univ_two]
    simp only [of_apply, Arr2.toMat, demoVh, demoXZ, Arr2.ofFn_get']
    fin_cases i <;> fin_cases j <;> simp <;>
      first | linear_combination (-3 / 2 : ℂ) * h2 | linear_combination (-2 : ℂ) * h2

/-- the hypotheses of C48 are met by one node and two samples -/
theorem demo_recovery : ∃ (ext : NumExt) (cf : IdConf) (p : Arr2 ℂ), 0 ≤ cf.lambdaLasso ∧ Spec.InvContract ext.inv ∧ Spec.Exact ext.solve ∧ Spec.Total ext.solve ∧
    demoV.matmul demoY = .ok demoI ∧ Spec.FullColumnRank (centreData false demoV demoI).1 ∧
    ext.pinv (centreData false demoV demoI).1 = .ok p ∧ Spec.PseudoInverse (centreData false demoV demoI).1 p ∧
    hstack (centreData false demoV demoI).1 (centreData false demoV demoI).2 = .ok demoXZ ∧ ext.svdVh demoXZ = .ok demoVh ∧
    Spec.IsSvdVh demoV.r (demoV.c + demoI.c) demoXZ demoVh := by
  have hrank : Spec.FullColumnRank (centreData false demoV demoI).1 := by
    intro w hw
    have hw' : ∀ w : Fin 1 → ℂ, (Arr2.toMat 2 1 (centreData false demoV demoI).1).mulVec w = 0 → w = 0 := by
      intro w hw
      funext i
      have := congrFun hw 0
      fin_cases i
      have h3 : (centreData false demoV demoI).1.get 0 0 = 3 := by
        show (centreColumns demoV).get 0 0 = 3
        unfold centreColumns
        rw [Arr2.ofFn_get _ (by decide) (by decide)]
        simp [demoV, Finset.sum_range_succ, Arr2.ofFn_get', Arr2.ofFn]
        norm_num
      simpa [mulVec, dotProduct, Arr2.toMat, h3] using this
    exact hw' w hw
  obtain ⟨p, hp⟩ := pseudoInverse_exists _ hrank
  refine ⟨⟨fun _ => .ok p, fun _ => .ok demoVh, exactInv, exactSolve⟩, ⟨1, 1, 1, 1, 1, true, true, false⟩, p, by norm_num,
    exactInv_contract, exactSolve_exact, exactSolve_total, ?_, hrank, rfl, hp, ?_, rfl, demo_svd2⟩
  · refine matmul_of_entries rfl rfl rfl ?_
    intro i j hi hj
    have hi : i < 2 := hi
    have hj : j < 1 := hj
    interval_cases j
    interval_cases i <;> simp [demoV, demoY, demoI, Arr2.ofFn_get', Arr2.ofFn] <;> norm_num
  · unfold hstack
    rw [if_pos (by rfl)]
    congr 1
    refine Arr2.ext' rfl rfl ?_
    intro i j hi hj
    have hi : i < 2 := hi
    have hj : j < 2 := hj
    interval_cases i <;> interval_cases j <;>
      simp [demoV, demoI, demoXZ, centreData, centreColumns, Finset.sum_range_succ, Arr2.ofFn_get', Arr2.ofFn] <;> norm_num

end
end Verif
