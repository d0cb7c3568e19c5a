/-
C42: the Fisher information of `src/models/error_in_variable.py`.
-/
import Verif.Model.Fisher
import Verif.Lemmas.ToMat
import Verif.Lemmas.Elimination
import Verif.Lemmas.Regression
import Verif.Props.Eiv

namespace Verif
open Finset
noncomputable section

theorem fisherIdxs_getD {T n k ii : Nat} (hk : k < T) (hi : ii < 2 * n) :
    (fisherIdxs T n).getD (k * (2 * n) + ii) 0 = ii * T + k := by
  unfold fisherIdxs
  have := getD_flatMap_range T (fun _ => 2 * n) (fun k ii => ii * T + k) k ii hk hi
  rwa [Finset.sum_const, Finset.card_range, smul_eq_mul] at this

/-- every position is `k * (2n) + ii` -/
theorem split_pos {T m p : Nat} (h : p < T * m) : ∃ k i, k < T ∧ i < m ∧ p = k * m + i := by
  have hm : 0 < m := Nat.pos_of_ne_zero (by rintro rfl; simp at h)
  refine ⟨p / m, p % m, Nat.div_lt_of_lt_mul (by rwa [Nat.mul_comm] at h), Nat.mod_lt _ hm, ?_⟩
  rw [Nat.mul_comm]; exact (Nat.div_add_mod p m).symm

theorem pair_inj {m a b a' b' : Nat} (hb : b < m) (hb' : b' < m) (h : a * m + b = a' * m + b') : a = a' ∧ b = b' := by
  have h1 := congrArg (· / m) h
  have h2 := congrArg (· % m) h
  simp only [mul_add_div hb, mul_add_div hb', mul_add_mod' hb, mul_add_mod' hb'] at h1 h2
  exact ⟨h1, h2⟩

theorem Arr2.matmul_ent {α : Type} [NonUnitalNonAssocSemiring α] {A B : Arr2 α} {m k n : Nat} (hA : A.r = m ∧ A.c = k)
    (hB : B.r = k ∧ B.c = n) : ∃ C, A.matmul B = .ok C ∧ C.r = m ∧ C.c = n ∧
      ∀ i j, i < m → j < n → C.get i j = ∑ q ∈ range k, A.get i q * B.get q j := by
  obtain ⟨rfl, rfl⟩ := hA
  obtain ⟨h, rfl⟩ := hB
  exact ⟨_, Arr2.matmul_ok A B h.symm, rfl, rfl, fun i j hi hj => Arr2.ofFn_get _ hi hj⟩

theorem perm_get {T n : Nat} {perm : Arr2 ℝ} (h : fisherPerm T n = .ok perm) :
    perm.r = 2 * n * T ∧ perm.c = 2 * n * T ∧ ∀ k ii q, k < T → ii < 2 * n → q < 2 * n * T →
      perm.get (k * (2 * n) + ii) q = if q = ii * T + k then 1 else 0 := by
  unfold fisherPerm at h
  by_cases h0 : 2 * n * T = 0
  · rw [if_pos h0] at h; cases h
  · rw [if_neg h0] at h
    cases h
    refine ⟨rfl, rfl, fun k ii q hk hi hq => ?_⟩
    rw [Arr2.ofFn_get _ (by rw [Nat.mul_comm (2 * n) T]; exact mul_add_lt hk hi) hq, fisherIdxs_getD hk hi]
    simp only [eq_comm]

/-- conjugation by the permutation: `perm @ C @ perm.T` -/
theorem perm_conj {T n : Nat} {perm C : Arr2 ℝ} (h : fisherPerm T n = .ok perm) (hC : C.r = 2 * n * T ∧ C.c = 2 * n * T) :
    ∃ pc pcp, perm.matmul C = .ok pc ∧ pc.matmul perm.T = .ok pcp ∧ pcp.r = T * (2 * n) ∧ pcp.c = T * (2 * n) ∧
      ∀ k ii l jj, k < T → ii < 2 * n → l < T → jj < 2 * n →
        pcp.get (k * (2 * n) + ii) (l * (2 * n) + jj) = C.get (ii * T + k) (jj * T + l) := by
  obtain ⟨pr, pc, pg⟩ := perm_get h
  obtain ⟨P, h1, r1, c1, g1⟩ := Arr2.matmul_ent ⟨pr, pc⟩ hC
  obtain ⟨Q, h2, r2, c2, g2⟩ := Arr2.matmul_ent (A := P) (B := perm.T) ⟨r1, c1⟩ ⟨pc, pr⟩
  refine ⟨P, Q, h1, h2, by rw [r2, Nat.mul_comm], by rw [c2, Nat.mul_comm], ?_⟩
  intro k ii l jj hk hi hl hj
  have b1 : k * (2 * n) + ii < 2 * n * T := by rw [Nat.mul_comm (2 * n) T]; exact mul_add_lt hk hi
  have b2 : l * (2 * n) + jj < 2 * n * T := by rw [Nat.mul_comm (2 * n) T]; exact mul_add_lt hl hj
  have b3 : ii * T + k < 2 * n * T := mul_add_lt hi hk
  have b4 : jj * T + l < 2 * n * T := mul_add_lt hj hl
  rw [g2 _ _ b1 b2, Finset.sum_eq_single_of_mem (jj * T + l) (Finset.mem_range.2 b4)]
  · rw [Arr2.T_get, pg l jj _ hl hj b4, if_pos rfl, mul_one, g1 _ _ b1 b4,
      Finset.sum_eq_single_of_mem (ii * T + k) (Finset.mem_range.2 b3)]
    · rw [pg k ii _ hk hi b3, if_pos rfl, one_mul]
    · intro q hq hne
      rw [pg k ii _ hk hi (Finset.mem_range.1 hq), if_neg hne, zero_mul]
  · intro q hq hne
    rw [Arr2.T_get, pg l jj _ hl hj (Finset.mem_range.1 hq), if_neg hne, mul_zero]

/-- conjugation by the transpose: `perm.T @ M @ perm` -/
theorem perm_conjT {T n : Nat} {perm M : Arr2 ℝ} (h : fisherPerm T n = .ok perm) (hM : M.r = 2 * n * T ∧ M.c = 2 * n * T) :
    ∃ l m, perm.T.matmul M = .ok l ∧ l.matmul perm = .ok m ∧ m.r = 2 * n * T ∧ m.c = 2 * n * T ∧
      ∀ k ii l jj, k < T → ii < 2 * n → l < T → jj < 2 * n →
        m.get (ii * T + k) (jj * T + l) = M.get (k * (2 * n) + ii) (l * (2 * n) + jj) := by
  obtain ⟨pr, pc, pg⟩ := perm_get h
  obtain ⟨P, h1, r1, c1, g1⟩ := Arr2.matmul_ent (A := perm.T) (B := M) ⟨pc, pr⟩ hM
  obtain ⟨Q, h2, r2, c2, g2⟩ := Arr2.matmul_ent (A := P) (B := perm) ⟨r1, c1⟩ ⟨pr, pc⟩
  refine ⟨P, Q, h1, h2, r2, c2, ?_⟩
  have hone : ∀ k ii p, k < T → ii < 2 * n → p < 2 * n * T →
      perm.get p (ii * T + k) = if p = k * (2 * n) + ii then 1 else 0 := by
    intro k ii p hk hi hp
    obtain ⟨k', i', hk', hi', rfl⟩ := split_pos (T := T) (m := 2 * n) (by rw [Nat.mul_comm]; exact hp)
    rw [pg k' i' _ hk' hi' (mul_add_lt hi hk)]
    by_cases he : k' = k ∧ i' = ii
    · rw [if_pos (by rw [he.1, he.2]), if_pos (by rw [he.1, he.2])]
    · rw [if_neg (fun hc => he (by have := pair_inj hk hk' hc; exact ⟨this.2.symm, this.1.symm⟩)),
        if_neg (fun hc => he (by have := pair_inj hi' hi hc; exact ⟨this.1, this.2⟩))]
  intro k ii l jj hk hi hl hj
  have b1 : k * (2 * n) + ii < 2 * n * T := by rw [Nat.mul_comm (2 * n) T]; exact mul_add_lt hk hi
  have b2 : l * (2 * n) + jj < 2 * n * T := by rw [Nat.mul_comm (2 * n) T]; exact mul_add_lt hl hj
  have b3 : ii * T + k < 2 * n * T := mul_add_lt hi hk
  have b4 : jj * T + l < 2 * n * T := mul_add_lt hj hl
  rw [g2 _ _ b3 b4, Finset.sum_eq_single_of_mem (l * (2 * n) + jj) (Finset.mem_range.2 b2)]
  · rw [hone l jj _ hl hj b2, if_pos rfl, mul_one, g1 _ _ b3 b2,
      Finset.sum_eq_single_of_mem (k * (2 * n) + ii) (Finset.mem_range.2 b1)]
    · rw [Arr2.T_get, hone k ii _ hk hi b1, if_pos rfl, one_mul]
    · intro q hq hne
      rw [Arr2.T_get, hone k ii _ hk hi (Finset.mem_range.1 hq), if_neg hne, zero_mul]
  · intro q hq hne
    rw [hone l jj _ hl hj (Finset.mem_range.1 hq), if_neg hne, mul_zero]

/-- covariance of two samples: `yᵀ (C ⊗ I) y` restricted to them, `a / n` being the component and `a % n` the equation -/
def Spec.sampleCov (T n : Nat) (xCov : Arr2 ℝ) (y : List ℝ) (k l : Nat) : ℝ :=
  ∑ c ∈ range (2 * n), ∑ e ∈ range n, ∑ d ∈ range (2 * n),
    y.getD (c * n + e) 0 * xCov.get (c * T + k) (d * T + l) * y.getD (d * n + e) 0

theorem samples_ok {T n : Nat} {perm xCov : Arr2 ℝ} (h : fisherPerm T n = .ok perm)
    (hC : xCov.r = 2 * n * T ∧ xCov.c = 2 * n * T) {y : List ℝ} (hy : y.length = 2 * n * n) :
    ∃ ws, fisherSamples T n perm xCov y = .ok ws ∧ ws.r = T ∧ ws.c = T ∧
      ∀ k l, k < T → l < T → ws.get k l = Spec.sampleCov T n xCov y k l := by
  obtain ⟨pc, pcp, h1, h2, hr, hc, hg⟩ := perm_conj h hC
  generalize hb : (Arr2.eye T).kron (Arr2.ofFn y.length 1 (fun i _ => y.getD i 0)) = bigy
  have hbr : bigy.r = T * (2 * n * n) := by rw [← hb, ← hy]; rfl
  have hbc : bigy.c = T := by rw [← hb]; show T * 1 = T; omega
  have hbg : ∀ k a l, k < T → a < 2 * n * n → l < T → bigy.get (k * (2 * n * n) + a) l = if l = k then y.getD a 0 else 0 := by
    intro k a l hk ha hl
    rw [← hb, ← hy]
    have := Arr2.kron_get (Arr2.eye T) (Arr2.ofFn y.length 1 (fun i _ => y.getD i 0)) (i := k) (j := l) (i' := a) (j' := 0) hk hl
      (by show a < y.length; omega) Nat.one_pos
    simp only [show (Arr2.ofFn y.length 1 (fun i (_ : Nat) => y.getD i 0)).r = y.length from rfl,
      show (Arr2.ofFn y.length 1 (fun i (_ : Nat) => y.getD i 0)).c = 1 from rfl, Nat.mul_one, Nat.add_zero] at this
    rw [this, Arr2.ofFn_get _ (by omega) Nat.one_pos]
    unfold Arr2.eye
    rw [Arr2.ofFn_get _ hk hl]
    by_cases e : l = k
    · rw [if_pos e, if_pos e.symm, one_mul]
    · rw [if_neg e, if_neg (Ne.symm e), zero_mul]
  generalize hK : pcp.kron (Arr2.eye n) = K
  have hKr : K.r = T * (2 * n * n) := by rw [← hK]; show pcp.r * n = _; rw [hr, Nat.mul_assoc]
  have hKc : K.c = T * (2 * n * n) := by rw [← hK]; show pcp.c * n = _; rw [hc, Nat.mul_assoc]
  have hKg : ∀ k c e l d f, k < T → c < 2 * n → e < n → l < T → d < 2 * n → f < n →
      K.get (k * (2 * n * n) + (c * n + e)) (l * (2 * n * n) + (d * n + f)) =
        xCov.get (c * T + k) (d * T + l) * (if e = f then 1 else 0) := by
    intro k c e l d f hk hc' he hl hd hf
    have b1 : k * (2 * n) + c < pcp.r := by rw [hr]; exact mul_add_lt hk hc'
    have b2 : l * (2 * n) + d < pcp.c := by rw [hc]; exact mul_add_lt hl hd
    have := Arr2.kron_get pcp (Arr2.eye n) b1 b2 (i' := e) (j' := f) he hf
    simp only [show (Arr2.eye n : Arr2 ℝ).r = n from rfl, show (Arr2.eye n : Arr2 ℝ).c = n from rfl] at this
    rw [show k * (2 * n * n) + (c * n + e) = (k * (2 * n) + c) * n + e by ring,
      show l * (2 * n * n) + (d * n + f) = (l * (2 * n) + d) * n + f by ring, ← hK, this, hg k c l d hk hc' hl hd]
    unfold Arr2.eye
    rw [Arr2.ofFn_get _ he hf]
  obtain ⟨P, m1, r1, c1, g1⟩ := Arr2.matmul_ent (A := bigy.T) (B := K) ⟨hbc, hbr⟩ ⟨hKr, hKc⟩
  obtain ⟨Q, m2, r2, c2, g2⟩ := Arr2.matmul_ent (A := P) (B := bigy) ⟨r1, c1⟩ ⟨hbr, hbc⟩
  refine ⟨Q, ?_, r2, c2, ?_⟩
  · unfold fisherSamples
    simp only [h1, h2, hb, hK, m1, bind, Except.bind]
    exact m2
  · intro k l hk hl
    rw [g2 k l hk hl, sum_range_mul', Finset.sum_eq_single_of_mem l (Finset.mem_range.2 hl)]
    · have hL : ∀ b, b < 2 * n * n → P.get k (l * (2 * n * n) + b) =
          ∑ a ∈ range (2 * n * n), y.getD a 0 * K.get (k * (2 * n * n) + a) (l * (2 * n * n) + b) := by
        intro b hb'
        rw [g1 _ _ hk (mul_add_lt hl hb'), sum_range_mul', Finset.sum_eq_single_of_mem k (Finset.mem_range.2 hk)]
        · apply Finset.sum_congr rfl
          intro a ha
          rw [Arr2.T_get, hbg k a k hk (Finset.mem_range.1 ha) hk, if_pos rfl]
        · intro k' hk' hne
          apply Finset.sum_eq_zero
          intro a ha
          rw [Arr2.T_get, hbg k' a k (Finset.mem_range.1 hk') (Finset.mem_range.1 ha) hk, if_neg (Ne.symm hne), zero_mul]
      have step : ∀ b ∈ range (2 * n * n), P.get k (l * (2 * n * n) + b) * bigy.get (l * (2 * n * n) + b) l =
          ∑ a ∈ range (2 * n * n), y.getD a 0 * K.get (k * (2 * n * n) + a) (l * (2 * n * n) + b) * y.getD b 0 := by
        intro b hb'
        rw [hL b (Finset.mem_range.1 hb'), hbg l b l hl (Finset.mem_range.1 hb') hl, if_pos rfl, Finset.sum_mul]
      rw [Finset.sum_congr rfl step, Finset.sum_comm, sum_range_mul']
      unfold Spec.sampleCov
      apply Finset.sum_congr rfl
      intro c hc'
      apply Finset.sum_congr rfl
      intro e he
      rw [sum_range_mul']
      apply Finset.sum_congr rfl
      intro d hd
      rw [Finset.sum_eq_single_of_mem e he]
      · rw [hKg k c e l d e hk (Finset.mem_range.1 hc') (Finset.mem_range.1 he) hl (Finset.mem_range.1 hd) (Finset.mem_range.1 he),
          if_pos rfl, mul_one]
      · intro f hf hne
        rw [hKg k c e l d f hk (Finset.mem_range.1 hc') (Finset.mem_range.1 he) hl (Finset.mem_range.1 hd) (Finset.mem_range.1 hf),
          if_neg (Ne.symm hne), mul_zero, mul_zero, zero_mul]
    · intro l' hl' hne
      apply Finset.sum_eq_zero
      intro b hb'
      rw [hbg l' b l (Finset.mem_range.1 hl') (Finset.mem_range.1 hb') hl, if_neg (Ne.symm hne), mul_zero]

/-- C42 (what the code computes as covariance of the residuals): the block of component `ii` of sample `k` is the
covariance of sample `(2n k + ii) mod T`. -/
theorem residual_cov {x : Arr2 ℂ} {xCov zCov : Arr2 ℝ} {yMat : Arr2 ℂ} (hx : 0 < x.r ∧ 0 < x.c)
    (hC : xCov.r = 2 * x.c * x.r ∧ xCov.c = 2 * x.c * x.r) (hZ : zCov.r = 2 * x.c * x.r ∧ zCov.c = 2 * x.c * x.r)
    (hY : Spec.IsSquare x.c yMat) :
    ∃ W, fisherW x xCov zCov yMat = .ok W ∧ W.r = 2 * x.c * x.r ∧ W.c = 2 * x.c * x.r ∧
      ∀ k ii l jj, k < x.r → ii < 2 * x.c → l < x.r → jj < 2 * x.c →
        W.get (ii * x.r + k) (jj * x.r + l) = (if (k * (2 * x.c) + ii) / x.r = (l * (2 * x.c) + jj) / x.r then
            Spec.sampleCov x.r x.c xCov (makeRealVector (vectorizeMatrix yMat)) ((k * (2 * x.c) + ii) % x.r)
              ((l * (2 * x.c) + jj) % x.r) else 0) + zCov.get (ii * x.r + k) (jj * x.r + l) := by
  have hp : fisherPerm x.r x.c = .ok (Arr2.ofFn (2 * x.c * x.r) (2 * x.c * x.r)
      (fun p q => if (fisherIdxs x.r x.c).getD p 0 = q then 1 else 0)) := by
    unfold fisherPerm
    rw [if_neg (Nat.mul_pos (by omega) hx.1).ne']
  generalize (Arr2.ofFn (2 * x.c * x.r) (2 * x.c * x.r) (fun p q => if (fisherIdxs x.r x.c).getD p 0 = q then (1 : ℝ) else 0)) =
    perm at hp
  have hyl : (makeRealVector (vectorizeMatrix yMat)).length = 2 * x.c * x.c := by
    rw [makeRealVector_length, vec_length, hY.1, hY.2, ← Nat.mul_assoc]
  obtain ⟨ws, hws, wr, wc, wg⟩ := samples_ok hp hC hyl
  obtain ⟨l, m, h1, h2, mr, mc, mg⟩ := perm_conjT hp (M := (Arr2.eye (2 * x.c)).kron ws)
    ⟨by show 2 * x.c * ws.r = _; rw [wr], by show 2 * x.c * ws.c = _; rw [wc]⟩
  have hz : Arr2.zipWith (fun a b => a + b) m zCov = .ok (Arr2.ofFn m.r m.c (fun i j => m.get i j + zCov.get i j)) := by
    unfold Arr2.zipWith
    rw [if_pos ⟨by rw [mr, hZ.1], by rw [mc, hZ.2]⟩]
  refine ⟨Arr2.ofFn m.r m.c (fun i j => m.get i j + zCov.get i j), ?_, mr, mc, ?_⟩
  · unfold fisherW
    simp only [hp, hws, h1, h2, bind, Except.bind]
    exact hz
  · intro k ii l jj hk hi hl hj
    rw [Arr2.ofFn_get _ (by rw [mr]; exact mul_add_lt hi hk) (by rw [mc]; exact mul_add_lt hj hl), mg k ii l jj hk hi hl hj]
    congr 1
    have hq : ∀ k ii, k < x.r → ii < 2 * x.c → (k * (2 * x.c) + ii) / x.r < 2 * x.c := by
      intro k ii hk hi
      apply Nat.div_lt_of_lt_mul
      exact mul_add_lt hk hi
    have hr : ∀ p, p % x.r < x.r := fun p => Nat.mod_lt _ hx.1
    have hs : ∀ p, p = p / x.r * x.r + p % x.r := fun p => by rw [Nat.mul_comm]; exact (Nat.div_add_mod p x.r).symm
    have := Arr2.kron_get (Arr2.eye (2 * x.c)) ws (i := (k * (2 * x.c) + ii) / x.r) (j := (l * (2 * x.c) + jj) / x.r)
      (i' := (k * (2 * x.c) + ii) % x.r) (j' := (l * (2 * x.c) + jj) % x.r) (hq k ii hk hi) (hq l jj hl hj)
      (by rw [wr]; exact hr _) (by rw [wc]; exact hr _)
    rw [wr, wc, ← hs, ← hs] at this
    rw [this, wg _ _ (hr _) (hr _)]
    unfold Arr2.eye
    rw [Arr2.ofFn_get _ (hq k ii hk hi) (hq l jj hl hj)]
    by_cases e : (k * (2 * x.c) + ii) / x.r = (l * (2 * x.c) + jj) / x.r
    · rw [if_pos e, if_pos e, one_mul]
    · rw [if_neg e, if_neg e, zero_mul]

theorem sandwich_ok {P Q : Arr2 ℝ} {w : List ℝ} {m a b : Nat} (hP : P.r = m ∧ P.c = a) (hw : w.length = m)
    (hQ : Q.r = m ∧ Q.c = b) : ∃ F, sandwich P w Q = .ok F ∧ F.r = a ∧ F.c = b ∧
      ∀ i j, i < a → j < b → F.get i j = ∑ p ∈ range m, P.get p i * w.getD p 0 * Q.get p j := by
  obtain ⟨L, h1, r1, c1, g1⟩ := Arr2.matmul_ent (A := P.T) (B := Arr2.diag w) ⟨hP.2, hP.1⟩ ⟨hw, hw⟩
  obtain ⟨F, h2, r2, c2, g2⟩ := Arr2.matmul_ent (A := L) (B := Q) ⟨r1, c1⟩ hQ
  refine ⟨F, ?_, r2, c2, ?_⟩
  · unfold sandwich
    simp only [h1, bind, Except.bind]
    exact h2
  · intro i j hi hj
    rw [g2 i j hi hj]
    apply Finset.sum_congr rfl
    intro p hp
    have hp' : p < m := Finset.mem_range.1 hp
    rw [g1 i p hi hp', Finset.sum_eq_single_of_mem p hp]
    · rw [Arr2.T_get, Arr2.diag, Arr2.ofFn_get _ (by rw [hw]; exact hp') (by rw [hw]; exact hp'), if_pos rfl]
    · intro q hq hne
      rw [Arr2.diag, Arr2.ofFn_get _ (by rw [hw]; exact Finset.mem_range.1 hq) (by rw [hw]; exact hp'), if_neg hne, mul_zero]

/-- real and imaginary parts of `I ⊗ x` -/
def Spec.kronRe (x : Arr2 ℂ) (p a : Nat) : ℝ := if p / x.r = a / x.c then (x.get (p % x.r) (a % x.c)).re else 0
def Spec.kronIm (x : Arr2 ℂ) (p a : Nat) : ℝ := if p / x.r = a / x.c then (x.get (p % x.r) (a % x.c)).im else 0

theorem kron_part (x : Arr2 ℂ) (f : ℂ → ℝ) {p a : Nat} (hp : p < x.c * x.r) (ha : a < x.c * x.c) :
    ((Arr2.eye x.c).kron (x.map f)).get p a = if p / x.r = a / x.c then f (x.get (p % x.r) (a % x.c)) else 0 := by
  have hr : 0 < x.r := Nat.pos_of_ne_zero (by intro h; rw [h] at hp; simp at hp)
  have hc : 0 < x.c := Nat.pos_of_ne_zero (by intro h; rw [h] at ha; simp at ha)
  have b1 : p / x.r < x.c := Nat.div_lt_of_lt_mul (by rwa [Nat.mul_comm] at hp)
  have b2 : a / x.c < x.c := Nat.div_lt_of_lt_mul ha
  unfold Arr2.kron
  refine (Arr2.ofFn_get (r := x.c * x.r) (c := x.c * x.c) _ hp ha).trans ?_
  show (Arr2.eye x.c).get (p / x.r) (a / x.c) * (x.map f).get (p % x.r) (a % x.c) = _
  unfold Arr2.eye Arr2.map
  rw [Arr2.ofFn_get _ b1 b2, Arr2.ofFn_get _ (Nat.mod_lt _ hr) (Nat.mod_lt _ hc)]
  by_cases e : p / x.r = a / x.c
  · rw [if_pos e, if_pos e, one_mul]
  · rw [if_neg e, if_neg e, zero_mul]

/-- the four blocks of the matrix returned by the code: `[[Arᵀ V₁ Ar, Arᵀ V₂ Ai], [Aiᵀ V₂ Ar, Aiᵀ V₃ Ai]]` -/
theorem fisherF_form (x : Arr2 ℂ) (W : Arr2 ℝ) :
    ∃ F, fisherF x W = .ok F ∧ F.r = x.c * x.c + x.c * x.c ∧ F.c = x.c * x.c + x.c * x.c ∧
      ∀ a b, a < x.c * x.c → b < x.c * x.c →
        F.get a b = ∑ p ∈ range (x.c * x.r), Spec.kronRe x p a * (fisherWeights (x.c * x.r) W).1.getD p 0 * Spec.kronRe x p b ∧
        F.get a (x.c * x.c + b) =
          ∑ p ∈ range (x.c * x.r), Spec.kronRe x p a * (fisherWeights (x.c * x.r) W).2.1.getD p 0 * Spec.kronIm x p b ∧
        F.get (x.c * x.c + a) b =
          ∑ p ∈ range (x.c * x.r), Spec.kronIm x p a * (fisherWeights (x.c * x.r) W).2.1.getD p 0 * Spec.kronRe x p b ∧
        F.get (x.c * x.c + a) (x.c * x.c + b) =
          ∑ p ∈ range (x.c * x.r), Spec.kronIm x p a * (fisherWeights (x.c * x.r) W).2.2.getD p 0 * Spec.kronIm x p b := by
  generalize hw : fisherWeights (x.c * x.r) W = w
  have hl : w.1.length = x.c * x.r ∧ w.2.1.length = x.c * x.r ∧ w.2.2.length = x.c * x.r := by
    rw [← hw]; simp [fisherWeights]
  obtain ⟨f1, e1, r1, c1, g1⟩ := sandwich_ok (P := (Arr2.eye x.c).kron (x.map Complex.re))
    (Q := (Arr2.eye x.c).kron (x.map Complex.re)) (m := x.c * x.r) (a := x.c * x.c) (b := x.c * x.c) ⟨rfl, rfl⟩ hl.1 ⟨rfl, rfl⟩
  obtain ⟨f2, e2, r2, c2, g2⟩ := sandwich_ok (P := (Arr2.eye x.c).kron (x.map Complex.re))
    (Q := (Arr2.eye x.c).kron (x.map Complex.im)) (m := x.c * x.r) (a := x.c * x.c) (b := x.c * x.c) ⟨rfl, rfl⟩ hl.2.1 ⟨rfl, rfl⟩
  obtain ⟨f3, e3, r3, c3, g3⟩ := sandwich_ok (P := (Arr2.eye x.c).kron (x.map Complex.im))
    (Q := (Arr2.eye x.c).kron (x.map Complex.re)) (m := x.c * x.r) (a := x.c * x.c) (b := x.c * x.c) ⟨rfl, rfl⟩ hl.2.1 ⟨rfl, rfl⟩
  obtain ⟨f4, e4, r4, c4, g4⟩ := sandwich_ok (P := (Arr2.eye x.c).kron (x.map Complex.im))
    (Q := (Arr2.eye x.c).kron (x.map Complex.im)) (m := x.c * x.r) (a := x.c * x.c) (b := x.c * x.c) ⟨rfl, rfl⟩ hl.2.2 ⟨rfl, rfl⟩
  have hb : Arr2.block f1 f2 f3 f4 = .ok (Arr2.ofFn (f1.r + f3.r) (f1.c + f2.c) (fun i j =>
      if i < f1.r then (if j < f1.c then f1.get i j else f2.get i (j - f1.c))
      else (if j < f3.c then f3.get (i - f1.r) j else f4.get (i - f1.r) (j - f3.c)))) := by
    unfold Arr2.block
    rw [if_pos ⟨by rw [r1, r2], by rw [r3, r4], by rw [c1, c2, c3, c4]⟩]
  rw [r1, c1, r3, c3, c2] at hb
  obtain ⟨F, hF, Fr, Fc, Fg⟩ : ∃ F, Arr2.block f1 f2 f3 f4 = .ok F ∧ F.r = x.c * x.c + x.c * x.c ∧
      F.c = x.c * x.c + x.c * x.c ∧ ∀ i j, i < x.c * x.c + x.c * x.c → j < x.c * x.c + x.c * x.c → F.get i j =
        if i < x.c * x.c then (if j < x.c * x.c then f1.get i j else f2.get i (j - x.c * x.c))
        else (if j < x.c * x.c then f3.get (i - x.c * x.c) j else f4.get (i - x.c * x.c) (j - x.c * x.c)) :=
    ⟨_, hb, rfl, rfl, fun i j hi hj => Arr2.ofFn_get _ hi hj⟩
  refine ⟨F, ?_, Fr, Fc, ?_⟩
  · unfold fisherF
    simp only [hw, e1, e2, e3, e4, bind, Except.bind]
    exact hF
  · intro a b ha hb'
    have k : ∀ p, p ∈ range (x.c * x.r) → ∀ a, a < x.c * x.c →
        ((Arr2.eye x.c).kron (x.map Complex.re)).get p a = Spec.kronRe x p a ∧
        ((Arr2.eye x.c).kron (x.map Complex.im)).get p a = Spec.kronIm x p a := fun p hp a ha =>
      ⟨kron_part x Complex.re (Finset.mem_range.1 hp) ha, kron_part x Complex.im (Finset.mem_range.1 hp) ha⟩
    refine ⟨?_, ?_, ?_, ?_⟩
    · rw [Fg _ _ (by omega) (by omega), if_pos ha, if_pos hb', g1 a b ha hb']
      exact Finset.sum_congr rfl (fun p hp => by rw [(k p hp a ha).1, (k p hp b hb').1])
    · rw [Fg _ _ (by omega) (by omega), if_pos ha, if_neg (by omega), Nat.add_sub_cancel_left, g2 a b ha hb']
      exact Finset.sum_congr rfl (fun p hp => by rw [(k p hp a ha).1, (k p hp b hb').2])
    · rw [Fg _ _ (by omega) (by omega), if_neg (by omega), if_pos hb', Nat.add_sub_cancel_left, g3 a b ha hb']
      exact Finset.sum_congr rfl (fun p hp => by rw [(k p hp a ha).2, (k p hp b hb').1])
    · rw [Fg _ _ (by omega) (by omega), if_neg (by omega), if_neg (by omega), Nat.add_sub_cancel_left,
        Nat.add_sub_cancel_left, g4 a b ha hb']
      exact Finset.sum_congr rfl (fun p hp => by rw [(k p hp a ha).2, (k p hp b hb').2])

theorem weights_inverse {m : Nat} {W : Arr2 ℝ} {k : Nat} (hk : k < m) (h1 : W.get (m + k) (m + k) ≠ 0) (h3 : W.get k k ≠ 0)
    (hd : W.get (m + k) (m + k) * W.get k k ≠ W.get k (m + k) * W.get k (m + k)) :
    W.get (m + k) (m + k) * (fisherWeights m W).1.getD k 0 + W.get k (m + k) * (fisherWeights m W).2.1.getD k 0 = 1 ∧
    W.get k (m + k) * (fisherWeights m W).1.getD k 0 + W.get k k * (fisherWeights m W).2.1.getD k 0 = 0 ∧
    W.get (m + k) (m + k) * (fisherWeights m W).2.1.getD k 0 + W.get k (m + k) * (fisherWeights m W).2.2.getD k 0 = 0 ∧
    W.get k (m + k) * (fisherWeights m W).2.1.getD k 0 + W.get k k * (fisherWeights m W).2.2.getD k 0 = 1 := by
  have g : ∀ f : Nat → ℝ, ((List.range m).map f).getD k 0 = f k := by
    intro f
    rw [List.getD_eq_getElem?_getD, List.getElem?_map, List.getElem?_range hk]; rfl
  simp only [fisherWeights, g]
  generalize W.get (m + k) (m + k) = a at *
  generalize W.get k (m + k) = b at *
  generalize W.get k k = c at *
  have d1 : a - b * (b / c) ≠ 0 := by
    intro h; apply hd; field_simp at h; linarith
  have d3 : c - b * (b / a) ≠ 0 := by
    intro h; apply hd; field_simp at h; linarith
  have d1' : a * c - b ^ 2 ≠ 0 := by intro h; apply hd; linarith
  have d3' : c * a - b ^ 2 ≠ 0 := by intro h; apply hd; linarith
  have e1 : a - b * (b / c) = (a * c - b ^ 2) / c := by field_simp
  have e3 : c - b * (b / a) = (a * c - b ^ 2) / a := by field_simp
  rw [e1, e3]
  refine ⟨?_, ?_, ?_, ?_⟩ <;> field_simp <;> ring

/-! ### C42 -/

/-- valid arguments -/
structure Spec.FisherArgs (x : Arr2 ℂ) (xCov zCov : Arr2 ℝ) (yMat : Arr2 ℂ) : Prop where
  samples : 0 < x.r
  nodes : 0 < x.c
  xShape : xCov.r = 2 * x.c * x.r ∧ xCov.c = 2 * x.c * x.r
  zShape : zCov.r = 2 * x.c * x.r ∧ zCov.c = 2 * x.c * x.r
  square : Spec.IsSquare x.c yMat

/-- real block form `[[Re, -Im], [Im, Re]]` of `I ⊗ x` -/
def Spec.realBlock (x : Arr2 ℂ) (p a : Nat) : ℝ :=
  if p < x.c * x.r then (if a < x.c * x.c then Spec.kronRe x p a else -Spec.kronIm x p (a - x.c * x.c))
  else (if a < x.c * x.c then Spec.kronIm x (p - x.c * x.r) a else Spec.kronRe x (p - x.c * x.r) (a - x.c * x.c))

/-- `V` is a left inverse of `W` -/
def Spec.LeftInv (N : Nat) (V W : Arr2 ℝ) : Prop :=
  ∀ i j, i < N → j < N → ∑ k ∈ range N, V.get i k * W.get k j = if i = j then 1 else 0

/-- entry of `AᵀVA` -/
def Spec.fisherEntry (x : Arr2 ℂ) (V : Arr2 ℝ) (a b : Nat) : ℝ :=
  ∑ p ∈ range (2 * x.c * x.r), ∑ q ∈ range (2 * x.c * x.r), Spec.realBlock x p a * V.get p q * Spec.realBlock x q b

theorem fisherInfo_eq {x : Arr2 ℂ} {xCov zCov : Arr2 ℝ} {yMat : Arr2 ℂ} {W F : Arr2 ℝ}
    (hW : fisherW x xCov zCov yMat = .ok W) (hF : fisherF x W = .ok F) (inv : Arr2 ℝ → Except PyErr (Arr2 ℝ)) (c : Arr2 ℝ)
    (hc : inv F = .ok c) : fisherInfo inv x (some xCov) (some zCov) yMat = .ok (F, c) := by
  simp only [fisherInfo, hW, hF, hc, bind, Except.bind, pure, Except.pure]

/-- C42, what is proved: the function returns `F = BᵀVB` with `B` block-diagonal in the real and imaginary parts of `I ⊗ x`,
and `V` the inverse of the pairs `[[w₁, w₂], [w₂, w₃]]` taken from the covariance of the residuals in the order *imaginary,
real*. Missing with respect to C42: `A` should be the real block form, the order of the pairs is exchanged, and the
covariance of the residuals exchanges the samples (`C42_samples_partial`). -/
theorem C42_partial {x : Arr2 ℂ} {xCov zCov : Arr2 ℝ} {yMat : Arr2 ℂ} (h : Spec.FisherArgs x xCov zCov yMat) :
    ∃ W F V1 V2 V3, fisherW x xCov zCov yMat = .ok W ∧ V1 = (fisherWeights (x.c * x.r) W).1 ∧
      V2 = (fisherWeights (x.c * x.r) W).2.1 ∧ V3 = (fisherWeights (x.c * x.r) W).2.2 ∧
      (∀ inv c, inv F = .ok c → fisherInfo inv x (some xCov) (some zCov) yMat = .ok (F, c)) ∧
      (∀ a b, a < x.c * x.c → b < x.c * x.c →
        F.get a b = ∑ p ∈ range (x.c * x.r), Spec.kronRe x p a * V1.getD p 0 * Spec.kronRe x p b ∧
        F.get a (x.c * x.c + b) = ∑ p ∈ range (x.c * x.r), Spec.kronRe x p a * V2.getD p 0 * Spec.kronIm x p b ∧
        F.get (x.c * x.c + a) b = ∑ p ∈ range (x.c * x.r), Spec.kronIm x p a * V2.getD p 0 * Spec.kronRe x p b ∧
        F.get (x.c * x.c + a) (x.c * x.c + b) =
          ∑ p ∈ range (x.c * x.r), Spec.kronIm x p a * V3.getD p 0 * Spec.kronIm x p b) ∧
      ∀ k, k < x.c * x.r → ∀ w1 w2 w3, w1 = W.get (x.c * x.r + k) (x.c * x.r + k) → w2 = W.get k (x.c * x.r + k) →
        w3 = W.get k k → w1 ≠ 0 → w3 ≠ 0 → w1 * w3 ≠ w2 * w2 →
        w1 * V1.getD k 0 + w2 * V2.getD k 0 = 1 ∧ w2 * V1.getD k 0 + w3 * V2.getD k 0 = 0 ∧
        w1 * V2.getD k 0 + w2 * V3.getD k 0 = 0 ∧ w2 * V2.getD k 0 + w3 * V3.getD k 0 = 1 := by
  obtain ⟨W, hW, _, _, _⟩ := residual_cov ⟨h.samples, h.nodes⟩ h.xShape h.zShape h.square
  obtain ⟨F, hF, _, _, hf⟩ := fisherF_form x W
  refine ⟨W, F, _, _, _, hW, rfl, rfl, rfl, fun inv c hc => fisherInfo_eq hW hF inv c hc, hf, ?_⟩
  rintro k hk w1 w2 w3 rfl rfl rfl h1 h3 hd
  exact weights_inverse hk h1 h3 hd

/-- C42, the samples: component `ii` of sample `k` gets the covariance of sample `(2n k + ii) mod T`; this is sample `k`
for all of them exactly when there is a single sample. -/
theorem C42_samples_partial {x : Arr2 ℂ} {xCov zCov : Arr2 ℝ} {yMat : Arr2 ℂ} (h : Spec.FisherArgs x xCov zCov yMat) :
    (∃ W, fisherW x xCov zCov yMat = .ok W ∧ ∀ k ii, k < x.r → ii < 2 * x.c →
      W.get (ii * x.r + k) (ii * x.r + k) = zCov.get (ii * x.r + k) (ii * x.r + k) +
        Spec.sampleCov x.r x.c xCov (makeRealVector (vectorizeMatrix yMat)) ((k * (2 * x.c) + ii) % x.r)
          ((k * (2 * x.c) + ii) % x.r)) ∧
    ((∀ k ii, k < x.r → ii < 2 * x.c → (k * (2 * x.c) + ii) % x.r = k) ↔ x.r = 1) := by
  obtain ⟨W, hW, _, _, hg⟩ := residual_cov ⟨h.samples, h.nodes⟩ h.xShape h.zShape h.square
  refine ⟨⟨W, hW, fun k ii hk hi => ?_⟩, ?_, ?_⟩
  · rw [hg k ii k ii hk hi hk hi, if_pos rfl, add_comm]
  · intro hs
    have h1 := h.samples
    have h2 := h.nodes
    by_contra hne
    have := hs 0 1 h1 (by omega)
    rw [Nat.zero_mul, Nat.zero_add, Nat.mod_eq_of_lt (by omega)] at this
    omega
  · intro h1 k ii hk _
    rw [h1, Nat.mod_one]; omega

/-- diagonal matrix of size 2 -/
def diag2 (a b : ℝ) : Arr2 ℝ := Arr2.diag [a, b]

theorem sampleCov_zero (T n N : Nat) (y : List ℝ) (k l : Nat) : Spec.sampleCov T n (Arr2.zeros N N) y k l = 0 := by
  unfold Spec.sampleCov
  have : ∀ i j, (Arr2.zeros N N : Arr2 ℝ).get i j = 0 := by
    intro i j; unfold Arr2.zeros; rw [Arr2.ofFn_get']; split <;> rfl
  simp [this]

/-- C42 is violated already for one sample of one node, exact voltages and residual covariance `diag(1, 2)`: the first
entry of the returned matrix is `1/2`, that of `AᵀW⁻¹A` is `3/2`. -/
theorem C42_violated : ∃ x xCov zCov yMat, Spec.FisherArgs x xCov zCov yMat ∧ x.r = 1 ∧
    ∃ W F, fisherW x xCov zCov yMat = .ok W ∧ W = zCov ∧
      (∀ inv c, inv F = .ok c → fisherInfo inv x (some xCov) (some zCov) yMat = .ok (F, c)) ∧
      ∀ V, Spec.LeftInv 2 V W → F.get 0 0 ≠ Spec.fisherEntry x V 0 0 := by
  have hargs : Spec.FisherArgs (scalarArr (1 + Complex.I)) (Arr2.zeros 2 2) (diag2 1 2) (scalarArr 1) :=
    ⟨Nat.one_pos, Nat.one_pos, ⟨rfl, rfl⟩, ⟨rfl, rfl⟩, ⟨rfl, rfl⟩⟩
  refine ⟨_, _, _, _, hargs, rfl, ?_⟩
  obtain ⟨W, hW, hr, hc, hg⟩ := residual_cov ⟨hargs.samples, hargs.nodes⟩ hargs.xShape hargs.zShape hargs.square
  have hWe : W = diag2 1 2 := by
    refine Arr2.ext' hr hc ?_
    intro i j hi hj
    have hi : i < 2 := by rw [hr] at hi; exact hi
    have hj : j < 2 := by rw [hc] at hj; exact hj
    have := hg 0 i 0 j Nat.one_pos hi Nat.one_pos hj
    rw [sampleCov_zero, ite_self, zero_add] at this
    have hr1 : (scalarArr (1 + Complex.I)).r = 1 := rfl
    rw [hr1, Nat.mul_one, Nat.mul_one, Nat.add_zero, Nat.add_zero] at this
    exact this
  subst hWe
  obtain ⟨F, hF, _, _, hf⟩ := fisherF_form (scalarArr (1 + Complex.I)) (diag2 1 2)
  refine ⟨_, F, hW, rfl, fun inv c hcc => fisherInfo_eq hW hF inv c hcc, ?_⟩
  intro V hV
  have h00 := (hf 0 0 Nat.one_pos Nat.one_pos).1
  have hr1 : (scalarArr (1 + Complex.I)).r = 1 := rfl
  have hc1 : (scalarArr (1 + Complex.I)).c = 1 := rfl
  have kr : Spec.kronRe (scalarArr (1 + Complex.I)) 0 0 = 1 := by
    simp [Spec.kronRe, hr1, hc1, scalarArr_get]
  have ki : Spec.kronIm (scalarArr (1 + Complex.I)) 0 0 = 1 := by
    simp [Spec.kronIm, hr1, hc1, scalarArr_get]
  have d00 : (diag2 1 2).get 0 0 = 1 := by unfold diag2 Arr2.diag; rw [Arr2.ofFn_get _ (by simp) (by simp)]; simp
  have d01 : (diag2 1 2).get 0 1 = 0 := by unfold diag2 Arr2.diag; rw [Arr2.ofFn_get _ (by simp) (by simp)]; simp
  have d10 : (diag2 1 2).get 1 0 = 0 := by unfold diag2 Arr2.diag; rw [Arr2.ofFn_get _ (by simp) (by simp)]; simp
  have d11 : (diag2 1 2).get 1 1 = 2 := by unfold diag2 Arr2.diag; rw [Arr2.ofFn_get _ (by simp) (by simp)]; simp
  have hF0 : F.get 0 0 = 1 / 2 := by
    rw [h00]
    simp [hr1, hc1, kr, fisherWeights, d00, d01, d11]
  have v00 := hV 0 0 (by norm_num) (by norm_num)
  have v01 := hV 0 1 (by norm_num) (by norm_num)
  have v10 := hV 1 0 (by norm_num) (by norm_num)
  have v11 := hV 1 1 (by norm_num) (by norm_num)
  simp [Finset.sum_range_succ, d00, d01, d10, d11] at v00 v01 v10 v11
  have hE : Spec.fisherEntry (scalarArr (1 + Complex.I)) V 0 0 = V.get 0 0 + V.get 0 1 + V.get 1 0 + V.get 1 1 := by
    unfold Spec.fisherEntry
    simp [hr1, hc1, Finset.sum_range_succ, Spec.realBlock, kr, ki]
    ring
  rw [hF0, hE, v00, v01, v10]
  intro hcon
  linarith

/-- two samples of one node, the first with zero voltage -/
def twoSamples : Arr2 ℂ := Arr2.ofFn 2 1 (fun i _ => if i = 0 then 0 else 1 + Complex.I)

/-- C42 is violated for more than one sample: two voltage covariances that differ for sample 0 only, whose voltage is zero,
give different information matrices, as sample 1 is weighted with the covariance of sample 0. -/
theorem C42_samples_violated : ∃ x xCov xCov' zCov yMat, Spec.FisherArgs x xCov zCov yMat ∧
    Spec.FisherArgs x xCov' zCov yMat ∧ x.get 0 0 = 0 ∧
    (∀ ii jj k l, ii < 2 → jj < 2 → k < 2 → l < 2 → ¬ (k = 0 ∧ l = 0) →
      xCov.get (ii * 2 + k) (jj * 2 + l) = xCov'.get (ii * 2 + k) (jj * 2 + l)) ∧
    ∃ F F', (∀ inv c, inv F = .ok c → fisherInfo inv x (some xCov) (some zCov) yMat = .ok (F, c)) ∧
      (∀ inv c, inv F' = .ok c → fisherInfo inv x (some xCov') (some zCov) yMat = .ok (F', c)) ∧
      F.get 1 1 ≠ F'.get 1 1 := by
  have hr1 : twoSamples.r = 2 := rfl
  have hc1 : twoSamples.c = 1 := rfl
  have h1 : Spec.FisherArgs twoSamples (Arr2.zeros 4 4) (Arr2.eye 4) (scalarArr 1) :=
    ⟨by decide, by decide, ⟨rfl, rfl⟩, ⟨rfl, rfl⟩, ⟨rfl, rfl⟩⟩
  have h2 : Spec.FisherArgs twoSamples (Arr2.diag [1, 0, 0, 0]) (Arr2.eye 4) (scalarArr 1) :=
    ⟨by decide, by decide, ⟨rfl, rfl⟩, ⟨rfl, rfl⟩, ⟨rfl, rfl⟩⟩
  have t0 : twoSamples.get 0 0 = 0 := by unfold twoSamples; rw [Arr2.ofFn_get _ (by norm_num) (by norm_num)]; simp
  have t1 : twoSamples.get 1 0 = 1 + Complex.I := by unfold twoSamples; rw [Arr2.ofFn_get _ (by norm_num) (by norm_num)]; simp
  have hy : makeRealVector (vectorizeMatrix (scalarArr 1)) = [1, 0] := by
    have := stackReal_scalar 1
    rw [← stackReal_eq] at this
    simpa using this
  obtain ⟨W, hW, hr, hc, hg⟩ := residual_cov ⟨h1.samples, h1.nodes⟩ h1.xShape h1.zShape h1.square
  obtain ⟨W', hW', hr', hc', hg'⟩ := residual_cov ⟨h2.samples, h2.nodes⟩ h2.xShape h2.zShape h2.square
  obtain ⟨F, hF, _, _, hf⟩ := fisherF_form twoSamples W
  obtain ⟨F', hF', _, _, hf'⟩ := fisherF_form twoSamples W'
  refine ⟨_, _, _, _, _, h1, h2, t0, ?_, F, F', fun inv c hcc => fisherInfo_eq hW hF inv c hcc,
    fun inv c hcc => fisherInfo_eq hW' hF' inv c hcc, ?_⟩
  · intro ii jj k l hi hj hk hl hne
    unfold Arr2.zeros Arr2.diag
    have b1 : ii * 2 + k < 4 := by omega
    have b2 : jj * 2 + l < 4 := by omega
    rw [Arr2.ofFn_get _ b1 b2, Arr2.ofFn_get _ (by exact b1) (by exact b2)]
    have : ii = 0 ∨ ii = 1 := by omega
    have : k = 0 ∨ k = 1 := by omega
    have : jj = 0 ∨ jj = 1 := by omega
    have : l = 0 ∨ l = 1 := by omega
    rcases ‹ii = 0 ∨ ii = 1› with rfl | rfl <;> rcases ‹k = 0 ∨ k = 1› with rfl | rfl <;>
      rcases ‹jj = 0 ∨ jj = 1› with rfl | rfl <;> rcases ‹l = 0 ∨ l = 1› with rfl | rfl <;> simp at hne ⊢
  · have e11 := (hf 0 0 (by decide) (by decide)).2.2.2
    have e11' := (hf' 0 0 (by decide) (by decide)).2.2.2
    have k0 : Spec.kronIm twoSamples 0 0 = 0 := by simp [Spec.kronIm, hr1, hc1, t0]
    have k1 : Spec.kronIm twoSamples 1 0 = 1 := by simp [Spec.kronIm, hr1, hc1, t1]
    have z11 : (Arr2.eye 4 : Arr2 ℝ).get 1 1 = 1 := by unfold Arr2.eye; rw [Arr2.ofFn_get _ (by norm_num) (by norm_num)]; simp
    have z13 : (Arr2.eye 4 : Arr2 ℝ).get 1 3 = 0 := by unfold Arr2.eye; rw [Arr2.ofFn_get _ (by norm_num) (by norm_num)]; simp
    have z33 : (Arr2.eye 4 : Arr2 ℝ).get 3 3 = 1 := by unfold Arr2.eye; rw [Arr2.ofFn_get _ (by norm_num) (by norm_num)]; simp
    have w11 := hg 1 0 1 0 (by decide) (by decide) (by decide) (by decide)
    have w13 := hg 1 0 1 1 (by decide) (by decide) (by decide) (by decide)
    have w33 := hg 1 1 1 1 (by decide) (by decide) (by decide) (by decide)
    have w11' := hg' 1 0 1 0 (by decide) (by decide) (by decide) (by decide)
    have w13' := hg' 1 0 1 1 (by decide) (by decide) (by decide) (by decide)
    have w33' := hg' 1 1 1 1 (by decide) (by decide) (by decide) (by decide)
    simp only [hr1, hc1, sampleCov_zero, ite_self, zero_add] at w11 w13 w33
    norm_num at w11 w13 w33
    rw [z11] at w11; rw [z13] at w13; rw [z33] at w33
    have g00 : (Arr2.diag [(1 : ℝ), 0, 0, 0]).get 0 0 = 1 := by
      unfold Arr2.diag; rw [Arr2.ofFn_get _ (by simp) (by simp)]; simp
    have g01 : ∀ i j, (i, j) ≠ (0, 0) → (Arr2.diag [(1 : ℝ), 0, 0, 0]).get i j = 0 := by
      intro i j hne
      unfold Arr2.diag
      rw [Arr2.ofFn_get']
      split
      · split
        · rename_i e; subst e
          rcases i with _ | _ | _ | _ | _ <;> simp at hne ⊢
        · rfl
      · rfl
    have s00 : Spec.sampleCov 2 1 (Arr2.diag [1, 0, 0, 0]) [1, 0] 0 0 = 1 := by
      simp [Spec.sampleCov, Finset.sum_range_succ, g00]
    have s01 : Spec.sampleCov 2 1 (Arr2.diag [1, 0, 0, 0]) [1, 0] 0 1 = 0 := by
      simp [Spec.sampleCov, Finset.sum_range_succ, g01]
    have s11 : Spec.sampleCov 2 1 (Arr2.diag [1, 0, 0, 0]) [1, 0] 1 1 = 0 := by
      simp [Spec.sampleCov, Finset.sum_range_succ, g01]
    simp only [hr1, hc1, hy] at w11' w13' w33'
    norm_num at w11' w13' w33'
    rw [z11, s00] at w11'; rw [z13, s01] at w13'; rw [z33, s11] at w33'
    have v : F.get 1 1 = 1 := by
      have := e11
      simp only [hc1, hr1] at this
      norm_num [Finset.sum_range_succ, k0, k1, fisherWeights, List.range_succ, w11, w13, w33] at this
      exact this
    have v' : F'.get 1 1 = 1 / 2 := by
      have := e11'
      simp only [hc1, hr1] at this
      norm_num [Finset.sum_range_succ, k0, k1, fisherWeights, List.range_succ, w11', w13', w33'] at this
      exact this
    rw [v, v']; norm_num

end
end Verif
