/-
C142: the result of `TotalLeastSquares.fit` solves the total least squares problem: it is the matrix for which the smallest correction
of voltages and currents makes the data consistent.
-/
import Verif.Lemmas.EckartYoung
import Verif.Props.Stability
import Verif.Model.Identification

namespace Verif
open Matrix Finset
noncomputable section

namespace Spec

/-- the measurements `x`, `z`, corrected by `dx`, `dz`, satisfy `z = x Y` -/
def Corrects (x z dx dz Y : Arr2 ℂ) : Prop :=
  ∀ t < x.r, ∀ j < z.c, ∑ k ∈ range x.c, (x.get t k + dx.get t k) * Y.get k j = z.get t j + dz.get t j

/-- sum of the squared moduli of the corrections of all measurements -/
def correctionSize (x z dx dz : Arr2 ℂ) : ℝ :=
  ∑ t ∈ range x.r, (∑ k ∈ range x.c, Complex.normSq (dx.get t k) + ∑ j ∈ range z.c, Complex.normSq (dz.get t j))

/-- `Y` solves the total least squares problem: some correction makes the data satisfy `z = x Y`, and no smaller one makes them satisfy
`z = x Y'` for any `Y'` -/
def SolvesTls (x z Y : Arr2 ℂ) : Prop := ∃ dx dz, Corrects x z dx dz Y ∧
  ∀ dx' dz' Y', Corrects x z dx' dz' Y' → correctionSize x z dx dz ≤ correctionSize x z dx' dz'

/-- `inv` returns inverses only -/
def InvSound (inv : Arr2 ℂ → Except PyErr (Arr2 ℂ)) : Prop := ∀ n (A B : Arr2 ℂ), A.r = n ∧ A.c = n → inv A = .ok B →
  (B.r = n ∧ B.c = n) ∧ A.toMat n n * B.toMat n n = 1

/-- the `n`-th singular value of the matrix, counted from 0 and zero beyond the rows, is smaller than the ones before -/
def SingularGap (m : Arr2 ℂ) (n : Nat) : Prop :=
  ∃ (u : Matrix (Fin m.r) (Fin m.r) ℂ) (vh : Matrix (Fin m.c) (Fin m.c) ℂ) (s : ℕ → ℝ), uᴴ * u = 1 ∧ vh * vhᴴ = 1 ∧ (∀ k, 0 ≤ s k) ∧
    Antitone s ∧ m.toMat m.r m.c = u * (Matrix.of fun (i : Fin m.r) (j : Fin m.c) => if (i : ℕ) = j then (s i : ℂ) else 0) * vh ∧
    ∀ i < n, (if n < m.r then s n else 0) < if i < m.r then s i else 0

end Spec

theorem exactInv_sound : Spec.InvSound exactInv := by
  intro n A B hA h
  obtain ⟨hr, hc⟩ := hA
  unfold exactInv at h
  split at h
  · rename_i hu
    rw [← Except.ok.inj h]
    subst hr
    refine ⟨⟨rfl, rfl⟩, ?_⟩
    rw [Arr2.toMat_ofMat]
    exact Matrix.mul_nonsing_inv _ hu.2
  · cases h

/-- two arrays side by side -/
def side (T n m : Nat) (x z : Arr2 ℂ) : Matrix (Fin T) (Fin (n + m)) ℂ :=
  fun t => Fin.append (fun k : Fin n => x.get t k) (fun j : Fin m => z.get t j)

/-- the matrix over minus the identity: a vector of data is consistent if this annihilates it -/
def overNegOne {n m : Nat} (Y : Matrix (Fin n) (Fin m) ℂ) : Matrix (Fin (n + m)) (Fin m) ℂ :=
  fun i j => Fin.append (fun k => Y k j) (fun l => if l = j then -1 else 0) i

theorem side_mul {T n m : Nat} (x z : Arr2 ℂ) (Y : Matrix (Fin n) (Fin m) ℂ) (t : Fin T) (j : Fin m) :
    (side T n m x z * overNegOne Y) t j = ∑ k : Fin n, x.get t k * Y k j - z.get t j := by
  rw [mul_apply, Fin.sum_univ_add]
  simp [side, overNegOne, sub_eq_add_neg]

theorem overNegOne_inj {n m : Nat} (Y : Matrix (Fin n) (Fin m) ℂ) (v : Fin m → ℂ) (h : (overNegOne Y).mulVec v = 0) : v = 0 := by
  funext l
  have := congrFun h (Fin.natAdd n l)
  simpa [mulVec, dotProduct, overNegOne] using this

theorem corrects_iff {x z dx dz Y : Arr2 ℂ} : Spec.Corrects x z dx dz Y ↔
    (side x.r x.c z.c x z + side x.r x.c z.c dx dz) * overNegOne (Y.toMat x.c z.c) = 0 := by
  have e : ∀ (t : Fin x.r) (j : Fin z.c),
      ((side x.r x.c z.c x z + side x.r x.c z.c dx dz) * overNegOne (Y.toMat x.c z.c)) t j =
        ∑ k ∈ range x.c, (x.get t k + dx.get t k) * Y.get k j - (z.get t j + dz.get t j) := by
    intro t j
    rw [Matrix.add_mul, Matrix.add_apply, side_mul, side_mul,
      ← Fin.sum_univ_eq_sum_range (fun k => (x.get t k + dx.get t k) * Y.get k j) x.c]
    simp only [add_mul, Finset.sum_add_distrib]
    show (∑ k : Fin x.c, x.get t k * Y.get k j - z.get t j) + (∑ k : Fin x.c, dx.get t k * Y.get k j - dz.get t j) = _
    ring
  constructor
  · intro h
    ext t j
    rw [e, h t t.2 j j.2, sub_self]; rfl
  · intro h t ht j hj
    have := congrFun (congrFun h ⟨t, ht⟩) ⟨j, hj⟩
    rw [e] at this
    exact sub_eq_zero.1 this

theorem correctionSize_eq {x z dx dz : Arr2 ℂ} : Spec.correctionSize x z dx dz = frob (side x.r x.c z.c dx dz) := by
  unfold Spec.correctionSize frob
  rw [← Fin.sum_univ_eq_sum_range (fun t => ∑ k ∈ range x.c, Complex.normSq (dx.get t k) + ∑ j ∈ range z.c, Complex.normSq (dz.get t j))]
  refine Finset.sum_congr rfl fun t _ => ?_
  rw [Fin.sum_univ_add, ← Fin.sum_univ_eq_sum_range (fun k => Complex.normSq (dx.get t k)),
    ← Fin.sum_univ_eq_sum_range (fun k => Complex.normSq (dz.get t k))]
  simp [side]

/-- every matrix of this width is two arrays side by side -/
theorem side_surj {T n m : Nat} (D : Matrix (Fin T) (Fin (n + m)) ℂ) : ∃ dx dz, side T n m dx dz = D := by
  refine ⟨Arr2.ofMat (fun t (k : Fin n) => D t (Fin.castAdd m k)), Arr2.ofMat (fun t (k : Fin m) => D t (Fin.natAdd n k)), ?_⟩
  ext t i
  refine Fin.addCases (fun a => ?_) (fun a => ?_) i
  · simp only [side, Fin.append_left]
    exact congrFun (congrFun (Arr2.toMat_ofMat (fun t (k : Fin n) => D t (Fin.castAdd m k))) t) a
  · simp only [side, Fin.append_right]
    exact congrFun (congrFun (Arr2.toMat_ofMat (fun t (k : Fin m) => D t (Fin.natAdd n k))) t) a

/-- what a fit computes: the data have a singular value decomposition whose last vectors span the columns of `Y` over `-1` -/
theorem tlsFit_vectors {svdVh inv : Arr2 ℂ → Except PyErr (Arr2 ℂ)} (hsvd : Spec.SvdContract svdVh) (hinv : Spec.InvSound inv)
    {x z Y : Arr2 ℂ} (h : tlsFit svdVh inv x z = .ok Y) :
    x.r = z.r ∧ (Y.r = x.c ∧ Y.c = z.c) ∧
    ∃ (u : Matrix (Fin x.r) (Fin x.r) ℂ) (Vh : Matrix (Fin (x.c + z.c)) (Fin (x.c + z.c)) ℂ) (s : ℕ → ℝ), uᴴ * u = 1 ∧ Vh * Vhᴴ = 1 ∧
      (∀ k, 0 ≤ s k) ∧ Antitone s ∧
      side x.r x.c z.c x z = u * (Matrix.of fun (i : Fin x.r) (j : Fin (x.c + z.c)) => if (i : ℕ) = j then (s i : ℂ) else 0) * Vh ∧
      ∀ (i : Fin x.c) (j : Fin z.c), (Vh * overNegOne (Y.toMat x.c z.c)) (Fin.castAdd z.c i) j = 0 := by
  unfold tlsFit at h
  obtain ⟨xz, hxz, h⟩ := Prior.bind_ok h
  obtain ⟨vh, hvh, h⟩ := Prior.bind_ok h
  obtain ⟨vi, hvi, h⟩ := Prior.bind_ok h
  have hB := h
  have hr : x.r = z.r := by
    unfold hstack at hxz
    split at hxz
    · assumption
    · cases hxz
  obtain ⟨xz', hxz', e1, e2, e3, e4⟩ := hstack_ok hr
  obtain rfl : xz = xz' := Except.ok.inj (hxz.symm.trans hxz')
  have hsv := hsvd xz
  rw [e1, e2] at hsv
  obtain ⟨vh', hvh', h1, h2, h3, h4, hun, u, s, hu, hs0, hanti, heq⟩ := hsv
  obtain rfl : vh = vh' := Except.ok.inj (hvh.symm.trans hvh')
  have hM : side x.r x.c z.c x z = xz.toMat x.r (x.c + z.c) := by
    ext t i
    refine Fin.addCases (fun a => ?_) (fun a => ?_) i
    · simp only [side, Fin.append_left]
      exact (e3 t a t.2 a.2).symm
    · simp only [side, Fin.append_right]
      exact (e4 t a t.2 a.2).symm
  set Vh := vh.toMat (x.c + z.c) (x.c + z.c) with hVh
  have hvr' : (conjT vh).r = x.c + z.c := h4
  have hvc' : (conjT vh).c = x.c + z.c := h3
  obtain ⟨sxy, syy, gxy', gyy'⟩ := slice2_blocks (conjT vh) x.c z.c hvr' hvc'
  generalize slice2 (conjT vh) 0 (min x.c (conjT vh).r) (min x.c (conjT vh).c) (conjT vh).c = vxy at *
  generalize slice2 (conjT vh) (min x.c (conjT vh).r) (conjT vh).r (min x.c (conjT vh).c) (conjT vh).c = vyy at *
  obtain ⟨⟨i1, i2⟩, i3⟩ := hinv z.c vyy vi syy hvi
  obtain ⟨B', hB', b1, b2, b3⟩ := Arr2.matmul_mat (A := vxy.map (fun t => -t)) (B := vi) (m := x.c) (k := z.c) (n := z.c) sxy ⟨i1, i2⟩
  obtain rfl : Y = B' := Except.ok.inj (hB.symm.trans hB')
  have hvm : (conjT vh).toMat (x.c + z.c) (x.c + z.c) = Vhᴴ := toMat_conjT _ _ _
  set V2 : Matrix (Fin (x.c + z.c)) (Fin z.c) ℂ := fun i j => Vhᴴ i (Fin.natAdd x.c j) with hV2
  have hneg : (vxy.map (fun t => -t)).toMat x.c z.c = -vxy.toMat x.c z.c := by
    ext i j
    exact Arr2.ofFn_get _ (by rw [sxy.1]; exact i.2) (by rw [sxy.2]; exact j.2)
  have hW : overNegOne (Y.toMat x.c z.c) = -(V2 * vi.toMat z.c z.c) := by
    ext i j
    refine Fin.addCases (fun a => ?_) (fun a => ?_) i
    · simp only [overNegOne, Fin.append_left]
      rw [b3, hneg, Matrix.neg_mul, Matrix.neg_apply, Matrix.neg_apply, mul_apply, mul_apply]
      congr 1
      refine Finset.sum_congr rfl fun k _ => ?_
      congr 1
      simp only [hV2]
      rw [← hvm]
      exact gxy' a k a.2 k.2
    · simp only [overNegOne, Fin.append_right]
      rw [Matrix.neg_apply, mul_apply]
      have h5 : ∑ k, V2 (Fin.natAdd x.c a) k * vi.toMat z.c z.c k j = (vyy.toMat z.c z.c * vi.toMat z.c z.c) a j := by
        rw [mul_apply]
        refine Finset.sum_congr rfl fun k _ => ?_
        congr 1
        simp only [hV2]
        rw [← hvm]
        exact (gyy' a k a.2 k.2).symm
      rw [h5, i3, one_apply]
      split <;> simp
  refine ⟨hr, ⟨b1, b2⟩, u, Vh, s, hu, hun, hs0, hanti, hM.trans heq, fun i j => ?_⟩
  rw [hW, Matrix.mul_neg, Matrix.neg_apply, ← Matrix.mul_assoc, mul_apply, neg_eq_zero]
  refine Finset.sum_eq_zero fun k _ => ?_
  have h6 : (Vh * V2) (Fin.castAdd z.c i) k = (Vh * Vhᴴ) (Fin.castAdd z.c i) (Fin.natAdd x.c k) := rfl
  rw [h6, hun, one_apply, if_neg, zero_mul]
  intro h
  have := congrArg Fin.val h
  simp at this
  omega

/-- C142: whenever the fit returns, its result solves the total least squares problem, for every singular value decomposition. -/
theorem C142 {svdVh inv : Arr2 ℂ → Except PyErr (Arr2 ℂ)} (hsvd : Spec.SvdContract svdVh) (hinv : Spec.InvSound inv) {x z Y : Arr2 ℂ}
    (h : tlsFit svdVh inv x z = .ok Y) : (Y.r = x.c ∧ Y.c = z.c) ∧ Spec.SolvesTls x z Y := by
  obtain ⟨-, hshape, u, Vh, s, hu, hV, h0, hs, hM, htop⟩ := tlsFit_vectors hsvd hinv h
  obtain ⟨D, hD, hsize⟩ := correction_attained hu hV hM htop
  obtain ⟨dx, dz, rfl⟩ := side_surj D
  refine ⟨hshape, dx, dz, corrects_iff.2 hD, fun dx' dz' Y' h' => ?_⟩
  rw [correctionSize_eq, correctionSize_eq, hsize]
  exact (correction_bound hu hV h0 hs hM (overNegOne_inj _) (corrects_iff.1 h')).1

/-- C142, uniqueness: if the singular value of the data after the first `n` is smaller than those, no other matrix solves the problem. -/
theorem C142_unique {svdVh inv : Arr2 ℂ → Except PyErr (Arr2 ℂ)} (hsvd : Spec.SvdContract svdVh) (hinv : Spec.InvSound inv)
    {x z xz Y Y' : Arr2 ℂ} (h : tlsFit svdVh inv x z = .ok Y) (hxz : hstack x z = .ok xz) (hgap : Spec.SingularGap xz x.c)
    (hs' : Y'.r = x.c ∧ Y'.c = z.c) (hY' : Spec.SolvesTls x z Y') : Y' = Y := by
  obtain ⟨hr, hshape, u1, Vh1, s1, hu1, hV1, h01, hanti1, hM1, htop1⟩ := tlsFit_vectors hsvd hinv h
  obtain ⟨D1, hD1, hsize1⟩ := correction_attained hu1 hV1 hM1 htop1
  obtain ⟨xz', hxz', e1, e2, e3, e4⟩ := hstack_ok hr
  obtain rfl : xz = xz' := Except.ok.inj (hxz.symm.trans hxz')
  have hM : side x.r x.c z.c x z = xz.toMat x.r (x.c + z.c) := by
    ext t i
    refine Fin.addCases (fun a => ?_) (fun a => ?_) i
    · simp only [side, Fin.append_left]
      exact (e3 t a t.2 a.2).symm
    · simp only [side, Fin.append_right]
      exact (e4 t a t.2 a.2).symm
  unfold Spec.SingularGap at hgap
  rw [e1, e2] at hgap
  obtain ⟨u, Vh, s, hu, hV, h0, hs1, heq, hgap⟩ := hgap
  rw [← hM] at heq
  have hV' : Vhᴴ * Vh = 1 := mul_eq_one_comm.1 hV
  have hgap' : ∀ (i : Fin x.c) (j : Fin z.c), sqValue x.r s (x.c + j) < sqValue x.r s i := by
    intro i j
    have h1 := hgap i i.2
    have h2 : sqValue x.r s (x.c + j) ≤ sqValue x.r s x.c := sqValue_antitone x.r h0 hs1 (by omega)
    refine lt_of_le_of_lt h2 ?_
    have h3 : ∀ k, sqValue x.r s k = (if k < x.r then s k else 0) ^ 2 := by
      intro k; unfold sqValue; split <;> simp
    rw [h3, h3]
    refine pow_lt_pow_left₀ h1 ?_ two_ne_zero
    split
    · exact h0 _
    · exact le_rfl
  -- the last singular values of both decompositions have the same sum of squares
  have htail : ∑ k : Fin z.c, sqValue x.r s1 (x.c + k) = ∑ k : Fin z.c, sqValue x.r s (x.c + k) := by
    refine le_antisymm ?_ ?_
    · set W : Matrix (Fin (x.c + z.c)) (Fin z.c) ℂ := fun i j => Vhᴴ i (Fin.natAdd x.c j) with hW
      have hVW : ∀ i j, (Vh * W) i j = if i = Fin.natAdd x.c j then 1 else 0 := by
        intro i j
        have h6 : (Vh * W) i j = (Vh * Vhᴴ) i (Fin.natAdd x.c j) := rfl
        rw [h6, hV, one_apply]
      have hne : ∀ (i : Fin x.c) (j : Fin z.c), Fin.castAdd z.c i ≠ Fin.natAdd x.c j := by
        intro i j h
        have := congrArg Fin.val h
        simp at this
        omega
      obtain ⟨D, hD, hsize⟩ := correction_attained (W := W) hu hV heq (fun i j => by rw [hVW, if_neg (hne i j)])
      rw [← hsize]
      refine (correction_bound hu1 hV1 h01 hanti1 hM1 (W := W) (fun v hv => ?_) hD).1
      have h7 : (Vh * W).mulVec v = 0 := by rw [← mulVec_mulVec, hv, mulVec_zero]
      funext l
      have h8 := congrFun h7 (Fin.natAdd x.c l)
      simp only [mulVec, dotProduct, hVW, Fin.natAdd_inj] at h8
      simpa using h8
    · rw [← hsize1]
      exact (correction_bound hu hV h0 hs1 heq (overNegOne_inj _) hD1).1
  -- both solutions lie along the last singular vectors
  have top : (∀ (i : Fin x.c) (j : Fin z.c), (Vh * overNegOne (Y.toMat x.c z.c)) (Fin.castAdd z.c i) j = 0) ∧
      ∀ (i : Fin x.c) (j : Fin z.c), (Vh * overNegOne (Y'.toMat x.c z.c)) (Fin.castAdd z.c i) j = 0 := by
    refine ⟨(correction_bound hu hV h0 hs1 heq (overNegOne_inj _) hD1).2 hgap' (hsize1.trans htail), ?_⟩
    obtain ⟨dx, dz, hc, hmin⟩ := hY'
    have hc' := corrects_iff.1 hc
    obtain ⟨b1, b2⟩ := correction_bound hu hV h0 hs1 heq (overNegOne_inj _) hc'
    refine b2 hgap' (le_antisymm ?_ b1)
    obtain ⟨dx1, dz1, rfl⟩ := side_surj D1
    have h9 := hmin dx1 dz1 Y (corrects_iff.2 hD1)
    rwa [correctionSize_eq, correctionSize_eq, hsize1, htail] at h9
  -- the lower blocks agree, so the coefficients do
  set K : Matrix (Fin z.c) (Fin z.c) ℂ := fun i j => Vhᴴ (Fin.natAdd x.c i) (Fin.natAdd x.c j) with hK
  have coeff : ∀ Q : Matrix (Fin x.c) (Fin z.c) ℂ, (∀ (i : Fin x.c) (j : Fin z.c), (Vh * overNegOne Q) (Fin.castAdd z.c i) j = 0) →
      ∀ i j, overNegOne Q i j = ∑ k : Fin z.c, Vhᴴ i (Fin.natAdd x.c k) * (Vh * overNegOne Q) (Fin.natAdd x.c k) j := by
    intro Q hQ i j
    have h10 : overNegOne Q = Vhᴴ * (Vh * overNegOne Q) := by rw [← Matrix.mul_assoc, hV', Matrix.one_mul]
    conv_lhs => rw [h10, mul_apply, Fin.sum_univ_add]
    rw [Finset.sum_eq_zero (fun k _ => by rw [hQ k j, mul_zero]), zero_add]
  have lower : ∀ Q : Matrix (Fin x.c) (Fin z.c) ℂ, (∀ (i : Fin x.c) (j : Fin z.c), (Vh * overNegOne Q) (Fin.castAdd z.c i) j = 0) →
      K * Matrix.of (fun k j => (Vh * overNegOne Q) (Fin.natAdd x.c k) j) = -1 := by
    intro Q hQ
    ext i j
    have h11 := coeff Q hQ (Fin.natAdd x.c i) j
    rw [mul_apply, Matrix.neg_apply, one_apply]
    refine h11.symm.trans ?_
    simp only [overNegOne, Fin.append_right]
    split <;> simp
  have hG : (Matrix.of fun k j => (Vh * overNegOne (Y'.toMat x.c z.c)) (Fin.natAdd x.c k) j) =
      Matrix.of fun k j => (Vh * overNegOne (Y.toMat x.c z.c)) (Fin.natAdd x.c k) j := by
    have l1 := lower _ top.1
    have l2 := lower _ top.2
    set G : Matrix (Fin z.c) (Fin z.c) ℂ := Matrix.of fun k j => (Vh * overNegOne (Y.toMat x.c z.c)) (Fin.natAdd x.c k) j
    set G' : Matrix (Fin z.c) (Fin z.c) ℂ := Matrix.of fun k j => (Vh * overNegOne (Y'.toMat x.c z.c)) (Fin.natAdd x.c k) j
    have h12 : K * (-G) = 1 := by rw [Matrix.mul_neg, l1, neg_neg]
    have h13 : (-G) * K = 1 := mul_eq_one_comm.1 h12
    calc G' = (-G) * K * G' := by rw [h13, Matrix.one_mul]
      _ = G := by rw [Matrix.mul_assoc, l2]; simp
  refine Arr2.toMat_inj hs' hshape ?_
  ext i j
  have c1 := coeff _ top.1 (Fin.castAdd z.c i) j
  have c2 := coeff _ top.2 (Fin.castAdd z.c i) j
  simp only [overNegOne, Fin.append_left] at c1 c2
  rw [c1, c2]
  refine Finset.sum_congr rfl fun k _ => ?_
  congr 1
  exact congrFun (congrFun hG k) j

/-- C142 for `standard_methods`: the returned (and saved) total least squares estimate solves the problem for the centred measurements. -/
theorem C142_standard {ext : NumExt} (hsvd : Spec.SvdContract ext.svdVh) (hinv : Spec.InvSound ext.inv) {cf : IdConf} {name : String}
    {v i : Arr2 ℂ} {lap : Bool} {K : Nat} {st : Store} {o t l : Arr2 ℂ}
    (h : (standardMethods ext cf name (some v) (some i) lap K st).1 = .ok (o, t, l)) :
    Spec.SolvesTls (centreData lap v i).1 (centreData lap v i).2 t ∧
      ∃ d, (standardMethods ext cf name (some v) (some i) lap K st).2 (resultFile .standard name) = some d ∧ d.mat "t" = .ok t := by
  unfold standardMethods at h ⊢
  cases hc : standardCompute ext cf v i lap K with
  | error e => simp only [hc] at h; cases h
  | ok r =>
    simp only [hc] at h ⊢
    obtain rfl : r = (o, t, l) := Except.ok.inj h
    refine ⟨?_, standardNpz (o, t, l), if_pos rfl, rfl⟩
    unfold standardCompute at hc
    dsimp only at hc
    obtain ⟨yo, -, hc⟩ := Prior.bind_ok hc
    obtain ⟨yt, ht, hc⟩ := Prior.bind_ok hc
    obtain ⟨p, -, hc⟩ := Prior.bind_ok hc
    have : yt = t := by
      split at hc
      · obtain ⟨y0, -, hc⟩ := Prior.bind_ok hc
        obtain ⟨⟨_, _⟩, -, hc⟩ := Prior.bind_ok hc
        exact congrArg (fun q => q.2.1) (Except.ok.inj hc)
      · exact congrArg (fun q => q.2.1) (Except.ok.inj hc)
    subst this
    exact (C142 hsvd hinv ht).2

/-- Concrete data: voltages 3, 1 and currents 6, 0 satisfy no linear law; the fit returns, and every correction is positive. -/
theorem demo_C142 : ∃ x z Y, tlsFit exactSvd exactInv x z = .ok Y ∧ (x.r = 2 ∧ x.c = 1) ∧ Spec.SolvesTls x z Y ∧
    ∀ dx dz Q, Spec.Corrects x z dx dz Q → 0 < Spec.correctionSize x z dx dz := by
  obtain ⟨h1, h2, h3⟩ := demo_C117
  obtain ⟨Y, hY, -, -⟩ := C117_tls exactSvd_contract exactInv_contract h1 h2 zero_le_one h3
  refine ⟨_, _, Y, hY, ⟨rfl, rfl⟩, (C142 exactSvd_contract exactInv_sound hY).2, fun dx dz Q hc => ?_⟩
  have hx : ∀ i < 2, (Arr2.ofFn 2 1 fun i _ => if i = 0 then (3 : ℂ) else 1).get i 0 = if i = 0 then 3 else 1 :=
    fun i hi => Arr2.ofFn_get _ hi (by norm_num)
  have hz : ∀ i < 2, (Arr2.ofFn 2 1 fun i _ => if i = 0 then (6 : ℂ) else 0).get i 0 = if i = 0 then 6 else 0 :=
    fun i hi => Arr2.ofFn_get _ hi (by norm_num)
  have c0 := hc 0 (by decide) 0 (by decide)
  have c1 := hc 1 (by decide) 0 (by decide)
  simp only [Arr2.ofFn_c, Finset.sum_range_one, hx 0 (by norm_num), hx 1 (by norm_num), hz 0 (by norm_num), hz 1 (by norm_num)] at c0 c1
  simp only [if_true, one_ne_zero, if_false] at c0 c1
  have hsz : Spec.correctionSize (Arr2.ofFn 2 1 fun i _ => if i = 0 then (3 : ℂ) else 1)
      (Arr2.ofFn 2 1 fun i _ => if i = 0 then (6 : ℂ) else 0) dx dz = Complex.normSq (dx.get 0 0) + Complex.normSq (dz.get 0 0) +
        (Complex.normSq (dx.get 1 0) + Complex.normSq (dz.get 1 0)) := by
    simp [Spec.correctionSize, Finset.sum_range_succ]
  rw [hsz]
  by_contra hneg
  have n1 := Complex.normSq_nonneg (dx.get 0 0)
  have n2 := Complex.normSq_nonneg (dz.get 0 0)
  have n3 := Complex.normSq_nonneg (dx.get 1 0)
  have n4 := Complex.normSq_nonneg (dz.get 1 0)
  have z1 : dx.get 0 0 = 0 := Complex.normSq_eq_zero.1 (by linarith)
  have z2 : dz.get 0 0 = 0 := Complex.normSq_eq_zero.1 (by linarith)
  have z3 : dx.get 1 0 = 0 := Complex.normSq_eq_zero.1 (by linarith)
  have z4 : dz.get 1 0 = 0 := Complex.normSq_eq_zero.1 (by linarith)
  rw [z1, z2] at c0
  rw [z3, z4] at c1
  have q0 : Q.get 0 0 = 0 := by simpa using c1
  rw [q0] at c0
  norm_num at c0

/-- Concrete data with a gap: voltages 6, -4 and currents 8, 3 have the singular values 10 and 5. -/
theorem demo_C142_unique : ∃ xz, hstack (Arr2.ofFn 2 1 fun i _ => if i = 0 then 6 else -4) (Arr2.ofFn 2 1 fun i _ => if i = 0 then 8 else 3) = .ok xz ∧
    Spec.SingularGap xz 1 := by
  refine ⟨_, if_pos rfl, ?_⟩
  refine ⟨1, Matrix.of fun (i j : Fin 2) => if i = 0 then (if j = 0 then 3 / 5 else 4 / 5) else (if j = 0 then -4 / 5 else 3 / 5),
    fun k => if k = 0 then 10 else 5, ?_, ?_, ?_, ?_, ?_, ?_⟩
  · rw [conjTranspose_one, Matrix.one_mul]
  · show (Matrix.of fun (i j : Fin 2) => if i = 0 then (if j = 0 then (3 / 5 : ℂ) else 4 / 5) else (if j = 0 then -4 / 5 else 3 / 5)) *
      (Matrix.of fun (i j : Fin 2) => if i = 0 then (if j = 0 then (3 / 5 : ℂ) else 4 / 5) else (if j = 0 then -4 / 5 else 3 / 5))ᴴ = 1
    ext i j
    rw [mul_apply, Fin.sum_univ_two]
    fin_cases i <;> fin_cases j <;> simp [Complex.ext_iff] <;> norm_num
  · intro k
    show 0 ≤ if k = 0 then (10 : ℝ) else 5
    split <;> norm_num
  · intro a b hab
    show (if b = 0 then (10 : ℝ) else 5) ≤ if a = 0 then 10 else 5
    split_ifs <;> first | omega | norm_num
  · have e : ∀ f : Nat → Nat → ℂ, f 0 0 = 6 → f 0 1 = 8 → f 1 0 = -4 → f 1 1 = 3 → (Arr2.ofFn 2 2 f).toMat 2 2 =
        (1 : Matrix (Fin 2) (Fin 2) ℂ) * (Matrix.of fun (i j : Fin 2) => if (i : ℕ) = j then ((if (i : ℕ) = 0 then (10 : ℝ) else 5 : ℝ) : ℂ) else 0) *
        (Matrix.of fun (i j : Fin 2) => if i = 0 then (if j = 0 then 3 / 5 else 4 / 5) else (if j = 0 then -4 / 5 else 3 / 5)) := by
      intro f h1 h2 h3 h4
      ext i j
      rw [Matrix.one_mul, mul_apply, Fin.sum_univ_two]
      simp only [Arr2.toMat, Arr2.ofFn_get', of_apply]
      fin_cases i <;> fin_cases j <;> simp [h1, h2, h3, h4] <;> norm_num
    refine e _ ?_ ?_ ?_ ?_ <;> simp [Arr2.ofFn_get']
  · intro i hi
    obtain rfl : i = 0 := by omega
    show (if 1 < 2 then (if 1 = 0 then (10 : ℝ) else 5) else 0) < if 0 < 2 then (if 0 = 0 then 10 else 5) else 0
    norm_num

end
end Verif
