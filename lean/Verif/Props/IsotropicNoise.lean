/-
C143: noise of equal size on all measurements, uncorrelated between them and with the data, does not change the total least squares
estimate at all, but makes every column of the ordinary least squares estimate too short.
-/
import Verif.Props.TlsOptimal

namespace Verif
open Matrix Finset
noncomputable section

namespace Spec

/-- measurement `t` of column `a`, the currents following the voltages -/
def column (x z : Arr2 ℂ) (a t : Nat) : ℂ := if a < x.c then x.get t a else z.get t (a - x.c)

/-- empirical (unnormalised) correlation of the measured columns `a` and `b` -/
def correlation (x z : Arr2 ℂ) (a b : Nat) : ℂ := ∑ t ∈ range x.r, star (column x z a t) * column x z b t

/-- the correlations of the measurements `x`, `z` are those of `x0`, `z0`, except that every quantity has the additional power `c`:
the noise is uncorrelated between the quantities and with their values, and equally strong in all of them -/
structure WhiteNoise (x z x0 z0 : Arr2 ℂ) (c : ℝ) : Prop where
  rows : x.r = z.r
  voltages : x.c = x0.c
  currents : z.c = z0.c
  corr : ∀ a < x.c + z.c, ∀ b < x.c + z.c, correlation x z a b = correlation x0 z0 a b + if a = b then (c : ℂ) else 0

end Spec

theorem side_column {T n m : Nat} {x z : Arr2 ℂ} (hx : x.c = n) (t : Fin T) (a : Fin (n + m)) :
    side T n m x z t a = Spec.column x z a t := by
  unfold side Spec.column
  refine Fin.addCases (fun k => ?_) (fun k => ?_) a
  · rw [Fin.append_left, if_pos (by rw [hx]; exact k.2)]; rfl
  · rw [Fin.append_right, if_neg (by rw [hx]; simp), hx]; simp

theorem side_gram {n m : Nat} {x z : Arr2 ℂ} (hx : x.c = n) (a b : Fin (n + m)) :
    ((side x.r n m x z)ᴴ * side x.r n m x z) a b = Spec.correlation x z a b := by
  rw [mul_apply]
  unfold Spec.correlation
  rw [← Fin.sum_univ_eq_sum_range (fun t => star (Spec.column x z a t) * Spec.column x z b t)]
  refine Finset.sum_congr rfl fun t _ => ?_
  rw [conjTranspose_apply, side_column hx, side_column hx]

theorem whiteNoise_gram {x z x0 z0 : Arr2 ℂ} {c : ℝ} (h : Spec.WhiteNoise x z x0 z0 c) :
    (side x.r x0.c z0.c x z)ᴴ * side x.r x0.c z0.c x z =
      (side x0.r x0.c z0.c x0 z0)ᴴ * side x0.r x0.c z0.c x0 z0 + (c : ℂ) • 1 := by
  ext a b
  rw [Matrix.add_apply, side_gram h.voltages, side_gram rfl, h.corr a (by rw [h.voltages, h.currents]; exact a.2) b
    (by rw [h.voltages, h.currents]; exact b.2), Matrix.smul_apply, one_apply]
  congr 1
  by_cases hab : a = b
  · simp [hab]
  · rw [if_neg hab, if_neg (fun h => hab (Fin.ext h))]; simp

/-- a fit whose last singular vectors are annihilated by `[1 Y]` returns `Y` -/
theorem tlsFit_of_null {svdVh inv : Arr2 ℂ → Except PyErr (Arr2 ℂ)} (hinv : Spec.InvContract inv) {x z Y xz vh : Arr2 ℂ}
    (hY : Y.r = x.c ∧ Y.c = z.c) (hxz : hstack x z = .ok xz) (hs : svdVh xz = .ok vh) (hr : vh.r = x.c + z.c) (hc : vh.c = x.c + z.c)
    (hun : vh.toMat (x.c + z.c) (x.c + z.c) * (vh.toMat (x.c + z.c) (x.c + z.c))ᴴ = 1)
    (hnull : ∀ (i : Fin x.c) (j : Fin z.c), (vh.toMat (x.c + z.c) (x.c + z.c))ᴴ (Fin.castAdd z.c i) (Fin.natAdd x.c j) +
      ∑ l : Fin z.c, Y.get i l * (vh.toMat (x.c + z.c) (x.c + z.c))ᴴ (Fin.natAdd x.c l) (Fin.natAdd x.c j) = 0) :
    tlsFit svdVh inv x z = .ok Y := by
  generalize hn : x.c = n at *
  generalize hm : z.c = m at *
  set Q := Y.toMat n m with hQ
  set Vh := vh.toMat (n + m) (n + m) with hVh
  let G : Matrix (Fin n) (Fin (n + m)) ℂ := fun i => Fin.append (fun k => if i = k then 1 else 0) (fun k => Q i k)
  have hG1 : ∀ i k, G i (Fin.castAdd m k) = if i = k then 1 else 0 := fun i k => Fin.append_left _ _ _
  have hG2 : ∀ i k, G i (Fin.natAdd n k) = Q i k := fun i k => Fin.append_right _ _ _
  have hGV : ∀ i (j : Fin (n + m)), n ≤ (j : ℕ) → (G * Vhᴴ) i j = 0 := by
    intro i j
    refine Fin.addCases (fun a ha => ?_) (fun a _ => ?_) j
    · exact absurd ha (by simp)
    · rw [mul_apply, Fin.sum_univ_add]
      simp only [hG1, hG2, ite_mul, one_mul, zero_mul, Finset.sum_ite_eq, Finset.mem_univ, if_true]
      exact hnull i a
  set v := conjT vh with hv
  have hvm : v.toMat (n + m) (n + m) = Vhᴴ := toMat_conjT _ _ _
  have hvr' : v.r = n + m := hc
  have hvc' : v.c = n + m := hr
  obtain ⟨sxy, syy, gxy', gyy'⟩ := slice2_blocks v n m hvr' hvc'
  generalize hvxy : slice2 v 0 (min n v.r) (min n v.c) v.c = vxy at *
  generalize hvyy : slice2 v (min n v.r) v.r (min n v.c) v.c = vyy at *
  have gxy : ∀ i j, vxy.toMat n m i j = Vhᴴ (Fin.castAdd m i) (Fin.natAdd n j) := by
    intro i j
    rw [← hvm]
    exact gxy' i j i.2 j.2
  have gyy : ∀ i j, vyy.toMat m m i j = Vhᴴ (Fin.natAdd n i) (Fin.natAdd n j) := by
    intro i j
    rw [← hvm]
    exact gyy' i j i.2 j.2
  obtain ⟨hb1, hb2⟩ := svd_blocks Q Vhᴴ Vh hun G hG1 hG2 hGV _ gxy _ gyy
  have hvi := exists_inverse _ hb2
  have hinvok : inv vyy = .ok (Arr2.ofMat (vyy.toMat m m)⁻¹) :=
    hinv m vyy _ syy ⟨rfl, rfl⟩ (by rw [Arr2.toMat_ofMat]; exact hvi)
  obtain ⟨B, hB, hBr, hBc, hBm⟩ := Arr2.matmul_mat (A := vxy.map (fun t => -t)) (B := Arr2.ofMat (vyy.toMat m m)⁻¹)
    (m := n) (k := m) (n := m) sxy ⟨rfl, rfl⟩
  have hBY : B = Y := by
    refine Arr2.toMat_inj (r := n) (c := m) ⟨hBr, hBc⟩ hY ?_
    rw [hBm, Arr2.toMat_ofMat]
    have : (vxy.map (fun t => -t)).toMat n m = -vxy.toMat n m := by
      ext i j
      exact Arr2.ofFn_get _ (by rw [sxy.1]; exact i.2) (by rw [sxy.2]; exact j.2)
    rw [this, hb1, neg_neg, Matrix.mul_assoc, hvi, Matrix.mul_one]
  subst hn
  simp only [tlsFit, hxz, hs, bind, Except.bind, pure, Except.pure]
  rw [← hv, hvxy, hvyy, hinvok]
  simp only [hB, hBY]

/-- C143, total least squares: white noise on noise-free data of full rank leaves the estimate exactly at the true matrix, for every
noise power and singular value decomposition. -/
theorem C143_tls {svdVh inv : Arr2 ℂ → Except PyErr (Arr2 ℂ)} (hsvd : Spec.SvdContract svdVh) (hinv : Spec.InvContract inv)
    {x z x0 z0 Y : Arr2 ℂ} {c : ℝ} (h : Spec.WhiteNoise x z x0 z0 c) (hx0 : Spec.FullColumnRank x0) (hz0 : x0.matmul Y = .ok z0) :
    tlsFit svdVh inv x z = .ok Y := by
  have hgram := whiteNoise_gram h
  obtain ⟨hxY, hzr, hzc, hzm⟩ := Arr2.matmul_inv hz0
  obtain ⟨xz, hxz, e1, e2, e3, e4⟩ := hstack_ok h.rows
  obtain ⟨vh, hvh, hsv⟩ := hsvd xz
  rw [e1, e2] at hsv
  obtain ⟨h1, h2, h3, h4, hun, u, s, hu, hs0, hanti, heq⟩ := hsv
  have hM : side x.r x.c z.c x z = xz.toMat x.r (x.c + z.c) := by
    ext t i
    refine Fin.addCases (fun a => ?_) (fun a => ?_) i
    · simp only [side, Fin.append_left]
      exact (e3 t a t.2 a.2).symm
    · simp only [side, Fin.append_right]
      exact (e4 t a t.2 a.2).symm
  refine tlsFit_of_null hinv ⟨by rw [h.voltages, hxY], by rw [h.currents, hzc]⟩ hxz hvh h3 h4 hun ?_
  rw [← h.voltages, ← h.currents] at hgram
  have hker : side x0.r x.c z.c x0 z0 * overNegOne (Y.toMat x.c z.c) = 0 := by
    ext t j
    rw [side_mul, h.voltages]
    have := congrFun (congrFun (hzm x0.r z0.c) t) ⟨j, h.currents ▸ j.2⟩
    rw [mul_apply] at this
    exact sub_eq_zero.2 this.symm
  have htail := gram_tail hgram hu hun hs0 hanti (hM.trans heq) (overNegOne_inj _) hker
  set Vh := vh.toMat (x.c + z.c) (x.c + z.c) with hVh
  intro i j
  -- the exact voltages annihilate the combination of the singular vector
  set w : Fin x.c → ℂ := fun i => Vhᴴ (Fin.castAdd z.c i) (Fin.natAdd x.c j) + ∑ l : Fin z.c, Y.get i l * Vhᴴ (Fin.natAdd x.c l) (Fin.natAdd x.c j) with hw
  have hx0' : ∀ v, (x0.toMat x0.r x.c).mulVec v = 0 → v = 0 := by rw [h.voltages]; exact hx0
  have hw0 : (x0.toMat x0.r x.c).mulVec w = 0 := by
    funext t
    have h5 := htail t j
    rw [mul_apply, Fin.sum_univ_add] at h5
    simp only [side, Fin.append_left, Fin.append_right] at h5
    have h6 : ∀ l : Fin z.c, z0.get t l = ∑ k : Fin x.c, x0.get t k * Y.get k l := by
      intro l
      have h7 := congrFun (congrFun hker t) l
      rw [side_mul] at h7
      exact (sub_eq_zero.1 h7).symm
    simp only [mulVec, dotProduct, hw, mul_add, Finset.sum_add_distrib, Pi.zero_apply]
    rw [← h5]
    congr 1
    simp only [h6, Finset.sum_mul, Finset.mul_sum]
    rw [Finset.sum_comm]
    refine Finset.sum_congr rfl fun l _ => Finset.sum_congr rfl fun k _ => ?_
    show x0.get t k * _ = _
    ring
  exact congrFun (hx0' w hw0) i

/-- C143, ordinary least squares: the estimate satisfies the normal equations with the noise power on the left side only -/
theorem ols_whiteNoise {pinv : Arr2 ℂ → Except PyErr (Arr2 ℂ)} (hpinv : Spec.PinvContract pinv) {x z x0 z0 Y : Arr2 ℂ} {c : ℝ}
    (h : Spec.WhiteNoise x z x0 z0 c) (hz0 : x0.matmul Y = .ok z0) :
    ∃ B, complexRegressionFit pinv x z = .ok B ∧ (B.r = Y.r ∧ B.c = Y.c) ∧
      ((x0.toMat x0.r x0.c)ᴴ * x0.toMat x0.r x0.c + (c : ℂ) • 1) * B.toMat x0.c z0.c =
        (x0.toMat x0.r x0.c)ᴴ * x0.toMat x0.r x0.c * Y.toMat x0.c z0.c := by
  have hgram := whiteNoise_gram h
  obtain ⟨hxY, hzr, hzc, hzm⟩ := Arr2.matmul_inv hz0
  obtain ⟨p, hp, hpi⟩ := hpinv x
  obtain ⟨B, hB, hBr, hBc, hBm⟩ := Arr2.matmul_mat (A := p) (B := z) (m := x.c) (k := x.r) (n := z.c) ⟨hpi.rows, hpi.cols⟩
    ⟨h.rows.symm, rfl⟩
  refine ⟨B, by simp only [complexRegressionFit, hp, bind, Except.bind]; exact hB,
    ⟨by rw [hBr, h.voltages, hxY], by rw [hBc, h.currents, hzc]⟩, ?_⟩
  have e5 := hpi.xpx
  have e7 := hpi.herm_xp
  rw [h.voltages] at e5 e7
  rw [h.voltages, h.currents] at hBm
  have hxx : (x.toMat x.r x0.c)ᴴ * x.toMat x.r x0.c = (x0.toMat x0.r x0.c)ᴴ * x0.toMat x0.r x0.c + (c : ℂ) • 1 := by
    ext a b
    have := congrFun (congrFun hgram (Fin.castAdd z0.c a)) (Fin.castAdd z0.c b)
    simp only [mul_apply, Matrix.add_apply, conjTranspose_apply, side, Fin.append_left, Matrix.smul_apply, one_apply,
      Fin.castAdd_inj] at this
    rw [Matrix.add_apply, mul_apply, mul_apply, Matrix.smul_apply, one_apply]
    exact this
  have hxz : (x.toMat x.r x0.c)ᴴ * z.toMat x.r z0.c = (x0.toMat x0.r x0.c)ᴴ * z0.toMat x0.r z0.c := by
    ext a b
    have := congrFun (congrFun hgram (Fin.castAdd z0.c a)) (Fin.natAdd x0.c b)
    have hne : Fin.castAdd z0.c a ≠ Fin.natAdd x0.c b := by
      intro h
      have := congrArg Fin.val h
      simp at this
      omega
    simp only [mul_apply, Matrix.add_apply, conjTranspose_apply, side, Fin.append_left, Fin.append_right, Matrix.smul_apply, one_apply,
      if_neg hne, smul_zero, add_zero] at this
    rw [mul_apply, mul_apply]
    exact this
  have e8 : (x.toMat x.r x0.c)ᴴ * (x.toMat x.r x0.c * p.toMat x0.c x.r) = (x.toMat x.r x0.c)ᴴ := by
    have := congrArg conjTranspose e5
    rwa [conjTranspose_mul, e7] at this
  rw [← hxx, hBm, Matrix.mul_assoc, ← Matrix.mul_assoc (x.toMat x.r x0.c), ← Matrix.mul_assoc, e8, hxz, hzm x0.r z0.c, Matrix.mul_assoc]

/-- C143, ordinary least squares: with white noise every column of the estimate is shorter than the one of the true matrix. -/
theorem C143_ols {pinv : Arr2 ℂ → Except PyErr (Arr2 ℂ)} (hpinv : Spec.PinvContract pinv) {x z x0 z0 Y : Arr2 ℂ} {c : ℝ} (hc : 0 < c)
    (h : Spec.WhiteNoise x z x0 z0 c) (hz0 : x0.matmul Y = .ok z0) :
    ∃ B, complexRegressionFit pinv x z = .ok B ∧ (B.r = Y.r ∧ B.c = Y.c) ∧ ∀ j < Y.c, (∃ k < Y.r, Y.get k j ≠ 0) →
      ∑ k ∈ range Y.r, Complex.normSq (B.get k j) < ∑ k ∈ range Y.r, Complex.normSq (Y.get k j) := by
  obtain ⟨B, hB, hshape, heq⟩ := ols_whiteNoise hpinv h hz0
  obtain ⟨hxY, hzr, hzc, hzm⟩ := Arr2.matmul_inv hz0
  refine ⟨B, hB, hshape, fun j hj hne => ?_⟩
  rw [← hxY] at hne ⊢
  rw [← hzc] at hj
  set X := x0.toMat x0.r x0.c with hX
  set b : Fin x0.c → ℂ := fun k => B.get k j with hb
  set y : Fin x0.c → ℂ := fun k => Y.get k j with hy
  have h1 : (c : ℂ) • b = Xᴴ.mulVec (X.mulVec (y - b)) := by
    have h2 : ∀ (C : Matrix (Fin x0.c) (Fin z0.c) ℂ) (A : Matrix (Fin x0.c) (Fin x0.c) ℂ), A.mulVec (fun k => C k ⟨j, hj⟩) = fun k => (A * C) k ⟨j, hj⟩ :=
      fun C A => rfl
    have h3 : (Xᴴ * X + (c : ℂ) • 1).mulVec b = (Xᴴ * X).mulVec y := by
      refine (h2 (B.toMat x0.c z0.c) _).trans ?_
      rw [heq]
      exact (h2 (Y.toMat x0.c z0.c) _).symm
    rw [add_mulVec, smul_mulVec, one_mulVec] at h3
    rw [mulVec_mulVec, mulVec_sub, ← h3]
    abel
  set d := y - b with hd
  have hrange : ∀ f : Nat → ℂ, ∑ k ∈ range x0.c, Complex.normSq (f k) = ∑ k : Fin x0.c, Complex.normSq (f k) :=
    fun f => (Fin.sum_univ_eq_sum_range (fun k => Complex.normSq (f k)) x0.c).symm
  rw [hrange (fun k => B.get k j), hrange (fun k => Y.get k j)]
  -- |y|² = |b|² + |d|² + 2 Re <d, b>
  have hsplit : ∑ k, Complex.normSq (y k) = ∑ k, Complex.normSq (b k) + ∑ k, Complex.normSq (d k) + 2 * (star d ⬝ᵥ b).re := by
    rw [dotProduct, Complex.re_sum, Finset.mul_sum, ← Finset.sum_add_distrib, ← Finset.sum_add_distrib]
    refine Finset.sum_congr rfl fun k _ => ?_
    simp only [hd, Pi.sub_apply, Pi.star_apply, Complex.normSq_apply, Complex.sub_re, Complex.sub_im, Complex.mul_re, Complex.star_def,
      Complex.conj_re, Complex.conj_im]
    ring
  have hpos : 0 ≤ (star d ⬝ᵥ b).re := by
    have h4 : (c : ℂ) * (star d ⬝ᵥ b) = star (X.mulVec d) ⬝ᵥ X.mulVec d := by
      rw [← smul_eq_mul, ← dotProduct_smul, h1, dotProduct_mulVec, star_mulVec]
    have h5 : 0 ≤ (star (X.mulVec d) ⬝ᵥ X.mulVec d).re := by
      rw [dotProduct, Complex.re_sum]
      refine Finset.sum_nonneg fun k _ => ?_
      simp only [Pi.star_apply, Complex.star_def, Complex.mul_re, Complex.conj_re, Complex.conj_im]
      nlinarith [mul_self_nonneg (X.mulVec d k).re, mul_self_nonneg (X.mulVec d k).im]
    rw [← h4, Complex.re_ofReal_mul] at h5
    exact nonneg_of_mul_nonneg_right h5 hc
  have hdpos : 0 < ∑ k, Complex.normSq (d k) := by
    refine lt_of_le_of_ne (Finset.sum_nonneg fun k _ => Complex.normSq_nonneg _) fun h0 => ?_
    have hd0 : d = 0 := by
      funext k
      exact Complex.normSq_eq_zero.1 ((Finset.sum_eq_zero_iff_of_nonneg (fun k _ => Complex.normSq_nonneg (d k))).1 h0.symm k (Finset.mem_univ k))
    rw [hd0, mulVec_zero, mulVec_zero] at h1
    have hb0 : b = 0 := (smul_eq_zero.1 h1).resolve_left (by exact_mod_cast hc.ne')
    have hy0 : y = 0 := by
      have : y = d + b := by rw [hd]; abel
      rw [this, hd0, hb0, add_zero]
    obtain ⟨k, hk, hk0⟩ := hne
    exact hk0 (congrFun hy0 ⟨k, hk⟩)
  show ∑ k, Complex.normSq (b k) < ∑ k, Complex.normSq (y k)
  rw [hsplit]
  linarith

/-- C143 for `standard_methods`: if the centred measurements are noise-free data of full rank with white noise, the returned total least
squares estimate is the true matrix, and every nonzero column of it is longer than that of the ordinary least squares estimate. -/
theorem C143_standard {ext : NumExt} (hsvd : Spec.SvdContract ext.svdVh) (hinv : Spec.InvContract ext.inv) (hpinv : Spec.PinvContract ext.pinv)
    {cf : IdConf} {name : String} {v i : Arr2 ℂ} {lap : Bool} {K : Nat} {st : Store} {o t l x0 z0 Y : Arr2 ℂ} {c : ℝ} (hc : 0 < c)
    (h : (standardMethods ext cf name (some v) (some i) lap K st).1 = .ok (o, t, l))
    (hn : Spec.WhiteNoise (centreData lap v i).1 (centreData lap v i).2 x0 z0 c) (hx0 : Spec.FullColumnRank x0)
    (hz0 : x0.matmul Y = .ok z0) :
    t = Y ∧ (o.r = Y.r ∧ o.c = Y.c) ∧ ∀ j < Y.c, (∃ k < Y.r, Y.get k j ≠ 0) →
      ∑ k ∈ range Y.r, Complex.normSq (o.get k j) < ∑ k ∈ range Y.r, Complex.normSq (Y.get k j) := by
  unfold standardMethods at h
  cases hs : standardCompute ext cf v i lap K with
  | error e => simp only [hs] at h; cases h
  | ok r =>
    simp only [hs] at h
    obtain rfl : r = (o, t, l) := Except.ok.inj h
    unfold standardCompute at hs
    dsimp only at hs
    obtain ⟨yo, ho, hs⟩ := Prior.bind_ok hs
    obtain ⟨yt, ht, hs⟩ := Prior.bind_ok hs
    obtain ⟨p, -, hs⟩ := Prior.bind_ok hs
    have he : yo = o ∧ yt = t := by
      split at hs
      · obtain ⟨y0, -, hs⟩ := Prior.bind_ok hs
        obtain ⟨⟨_, _⟩, -, hs⟩ := Prior.bind_ok hs
        exact ⟨congrArg (fun q => q.1) (Except.ok.inj hs), congrArg (fun q => q.2.1) (Except.ok.inj hs)⟩
      · exact ⟨congrArg (fun q => q.1) (Except.ok.inj hs), congrArg (fun q => q.2.1) (Except.ok.inj hs)⟩
    obtain ⟨rfl, rfl⟩ := he
    refine ⟨Except.ok.inj (ht.symm.trans (C143_tls hsvd hinv hn hx0 hz0)), ?_⟩
    obtain ⟨B, hB, hrest⟩ := C143_ols hpinv hc hn hz0
    obtain rfl : yo = B := Except.ok.inj (ho.symm.trans hB)
    exact hrest

/-- Concrete data meeting the hypotheses: voltages 2, 0, 0 and currents 2, 0, 0, measured with noise as 2, 1, 0 and 2, 0, 1. -/
theorem demo_C143 :
    Spec.WhiteNoise (Arr2.ofFn 3 1 fun i _ => if i = 0 then 2 else if i = 1 then 1 else 0)
      (Arr2.ofFn 3 1 fun i _ => if i = 0 then 2 else if i = 1 then 0 else 1)
      (Arr2.ofFn 3 1 fun i _ => if i = 0 then 2 else 0) (Arr2.ofFn 3 1 fun i _ => if i = 0 then 2 else 0) 1 ∧
    Spec.FullColumnRank (Arr2.ofFn 3 1 fun i _ => if i = 0 then 2 else 0) ∧
    (Arr2.ofFn 3 1 fun i _ => if i = 0 then (2 : ℂ) else 0).matmul (Arr2.ofFn 1 1 fun _ _ => 1) =
      .ok (Arr2.ofFn 3 1 fun i _ => if i = 0 then 2 else 0) := by
  refine ⟨⟨rfl, rfl, rfl, fun a ha b hb => ?_⟩, fun v hv => ?_, ?_⟩
  · have ha' : a = 0 ∨ a = 1 := by
      simp only [Arr2.ofFn_c] at ha; omega
    have hb' : b = 0 ∨ b = 1 := by
      simp only [Arr2.ofFn_c] at hb; omega
    rcases ha' with rfl | rfl <;> rcases hb' with rfl | rfl <;>
      simp [Spec.correlation, Spec.column, Finset.sum_range_succ, Arr2.ofFn_get'] <;> norm_num
  · funext k
    have h0 := congrFun hv (0 : Fin 3)
    obtain rfl : k = (0 : Fin 1) := Subsingleton.elim (α := Fin 1) _ _
    have e : ∀ w : Fin 1 → ℂ, ((Arr2.ofFn 3 1 fun i _ => if i = 0 then (2 : ℂ) else 0).toMat 3 1).mulVec w 0 = 2 * w 0 := by
      intro w
      simp [mulVec, dotProduct, Arr2.toMat, Arr2.ofFn_get']
    have h1 : 2 * v (0 : Fin 1) = 0 := (e v).symm.trans h0
    exact (mul_eq_zero.1 h1).resolve_left two_ne_zero
  · refine (if_pos rfl).trans (congrArg Except.ok (Arr2.ext' rfl rfl fun i j hi hj => ?_))
    have hi' : i < 3 := hi
    have hj' : j < 1 := hj
    simp [Arr2.ofFn_get', Arr2.mulGet, hi', hj']

end
end Verif
