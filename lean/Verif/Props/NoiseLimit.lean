/-
Property C175: the errors of the stored measurements and of the estimates are at most proportional to the noise level.
-/
import Verif.Props.NoiseSweep
import Verif.Props.Reference

namespace Verif
noncomputable section
open Prog hiding pure bind read save call ofExcept
open Finset
open Spec (Redone Requested PlainName Rerun SameGrid noiseOnly sweep)

/-- two arrays of the same shape, every entry of the first one within `b` of the same entry of the second one -/
def Spec.Within (b : ℝ) (m m' : Arr2 ℂ) : Prop := (m.r = m'.r ∧ m.c = m'.c) ∧ ∀ t j, ‖m.get t j - m'.get t j‖ ≤ b

/-- none of the four standard deviations of a later run is above `ν` -/
def Spec.Rerun.UpTo (r : Rerun) (ν : ℝ) : Prop := r.vm ≤ ν ∧ r.cm ≤ ν ∧ r.vp ≤ ν ∧ r.cp ≤ ν

open Spec (Within)

/-! ### one series -/

theorem polar_near (x : ℂ) (a b : ℝ) : ‖polarNoisy x a b - x‖ ≤ ‖x‖ * (|a| + Real.pi * |b|) := by
  have h1 : polarNoisy x a b - x = x * ((a : ℂ) * Complex.exp (Complex.I * ((b * x.arg : ℝ) : ℂ)) +
      (Complex.exp (Complex.I * ((b * x.arg : ℝ) : ℂ)) - 1)) := by
    have h2 : x = (‖x‖ : ℂ) * Complex.exp (Complex.I * (x.arg : ℂ)) := by
      rw [mul_comm Complex.I]; exact (Complex.norm_mul_exp_arg_mul_I x).symm
    have h3 : polarNoisy x a b = (‖x‖ : ℂ) * Complex.exp (Complex.I * (x.arg : ℂ)) * ((1 + a) * Complex.exp (Complex.I * ((b * x.arg : ℝ) : ℂ))) := by
      unfold polarNoisy
      have : Complex.I * ((x.arg + b * x.arg : ℝ) : ℂ) = Complex.I * (x.arg : ℂ) + Complex.I * ((b * x.arg : ℝ) : ℂ) := by
        push_cast; ring
      rw [this, Complex.exp_add]
      push_cast; ring
    rw [h3, ← h2]; ring
  rw [h1, norm_mul]
  refine mul_le_mul_of_nonneg_left ?_ (norm_nonneg _)
  refine (norm_add_le _ _).trans (add_le_add ?_ ?_)
  · rw [norm_mul, mul_comm Complex.I, Complex.norm_exp_ofReal_mul_I, mul_one, Complex.norm_real, Real.norm_eq_abs]
  · refine Real.norm_exp_I_mul_ofReal_sub_one_le.trans ?_
    rw [Real.norm_eq_abs, abs_mul, mul_comm]
    exact mul_le_mul_of_nonneg_right (Complex.abs_arg_le_pi x) (abs_nonneg _)

theorem mean_near {f : Nat} (hf : f ≠ 0) {x y : List ℂ} (hl : x.length = y.length) {b : ℝ} (h : ∀ k, ‖x.getD k 0 - y.getD k 0‖ ≤ b)
    {t : Nat} (ht : t < x.length / f) : ‖blockMean f x t - blockMean f y t‖ ≤ b := by
  have hb : (t + 1) * f ≤ x.length := (Nat.le_div_iff_mul_le (Nat.pos_of_ne_zero hf)).1 ht
  have hf' : (0 : ℝ) < f := by exact_mod_cast Nat.pos_of_ne_zero hf
  rw [blockMean_eq _ _ _ hb, blockMean_eq _ _ _ (hl ▸ hb), ← sub_div, ← Finset.sum_sub_distrib, norm_div, Complex.norm_natCast,
    div_le_iff₀ hf']
  refine (norm_sum_le _ _).trans ((Finset.sum_le_sum fun k _ => h _).trans ?_)
  simp [mul_comm]

theorem interp_length {old new : List ℝ} {y t : List ℂ} (h : interp1d old y new = .ok t) : t.length = new.length := by
  unfold interp1d at h
  split at h
  · cases h
  · split at h
    · cases h
    · cases h; simp

theorem filter_noise {a : Arr2 ℂ} {old new : List ℝ} {f : Nat} {noise : Nat → List ℂ → Except PyErr (List ℂ)} {o : Arr2 ℂ}
    (h : filterAndResample a old new f noise = .ok o) :
    ∀ i, i < a.c → ∀ t, interp1d old (a.col i) new = .ok t → ∃ q, noise i t = .ok q := by
  unfold filterAndResample at h
  split at h
  · cases h
  · dsimp only at h
    obtain ⟨-, h2⟩ := forRange_visits (s0 := Arr2.zeros (new.length / f) a.c) (s := o)
      (f := fun filtered i => do
        let tmp ← interp1d old (a.col i) new
        let res ← noise i tmp
        Except.ok (Arr2.ofFn (new.length / f) a.c fun t j => if j = i then blockMean f res t else filtered.get t j))
      (fun _ : Arr2 ℂ => True) (fun _ _ _ _ _ => trivial) a.c trivial h
    intro i hi t ht
    obtain ⟨s, s', -, hk⟩ := h2 i hi
    rw [ht] at hk
    obtain ⟨x, hx, hk⟩ := Prior.bind_ok hk
    cases hx
    obtain ⟨q, hq, hk⟩ := Prior.bind_ok hk
    exact ⟨q, hq⟩

/-- what the noise can do to the series, per unit of noise -/
def noiseGain (z : Nat → ℝ) (r : List ℝ) (tmp : Nat → List ℂ) (c N : Nat) : ℝ :=
  ∑ j ∈ range c, ∑ k ∈ range N, ‖(tmp j).getD k 0‖ * ((1 + r.sum) * |z (j * (2 * N) + k)| + Real.pi * |z (j * (2 * N) + N + k)|)

theorem noiseGain_term {z : Nat → ℝ} {r : List ℝ} (r2 : ∀ x ∈ r, 0 ≤ x) (tmp : Nat → List ℂ) (c N : Nat) :
    0 ≤ noiseGain z r tmp c N ∧ ∀ j k, j < c → k < N →
      ‖(tmp j).getD k 0‖ * ((1 + r.sum) * |z (j * (2 * N) + k)| + Real.pi * |z (j * (2 * N) + N + k)|) ≤ noiseGain z r tmp c N := by
  have h0 : 0 ≤ r.sum := List.sum_nonneg r2
  have hp : ∀ j k, 0 ≤ ‖(tmp j).getD k 0‖ * ((1 + r.sum) * |z (j * (2 * N) + k)| + Real.pi * |z (j * (2 * N) + N + k)|) := by
    intro j k
    have := Real.pi_pos.le
    positivity
  refine ⟨Finset.sum_nonneg fun j _ => Finset.sum_nonneg fun k _ => hp j k, fun j k hj hk => ?_⟩
  unfold noiseGain
  refine le_trans ?_ (Finset.single_le_sum (f := fun j => ∑ k ∈ range N, ‖(tmp j).getD k 0‖ * ((1 + r.sum) * |z (j * (2 * N) + k)| +
    Real.pi * |z (j * (2 * N) + N + k)|)) (fun j _ => Finset.sum_nonneg fun k _ => hp j k) (Finset.mem_range.2 hj))
  exact Finset.single_le_sum (f := fun k => ‖(tmp j).getD k 0‖ * ((1 + r.sum) * |z (j * (2 * N) + k)| + Real.pi * |z (j * (2 * N) + N + k)|))
    (fun k _ => hp j k) (Finset.mem_range.2 hk)

theorem stdAt_upTo {r : List ℝ} (r2 : ∀ x ∈ r, 0 ≤ x) {g g' : ℝ → ℝ} {b : ℝ} (h1 : ∀ x ∈ r, 0 ≤ g x ∧ g x ≤ b) (h2 : ∀ x ∈ r, 0 ≤ g' x ∧ g' x ≤ b)
    {k : Nat} {q : ℝ} (h : stdAt (r.map g ++ r.map g') k = .ok q) : 0 ≤ q ∧ q ≤ b := by
  unfold stdAt at h
  split at h
  · rename_i hk
    rw [← Except.ok.inj h, List.getD_eq_getElem _ _ hk]
    have := List.getElem_mem hk
    rcases List.mem_append.1 this with hm | hm
    · obtain ⟨y, hy, he⟩ := List.mem_map.1 hm
      rw [← he]; exact h1 y hy
    · obtain ⟨y, hy, he⟩ := List.mem_map.1 hm
      rw [← he]; exact h2 y hy
  · cases h

theorem split2_near {a a' : Arr2 ℂ} (hs : a.r = a'.r ∧ a.c = a'.c) {b : ℝ} (hb : 0 ≤ b) (h : ∀ t j, t < a.r → j < a.c → ‖a.get t j - a'.get t j‖ ≤ b)
    {x x' : Arr2 ℂ × Arr2 ℂ} (h1 : a.split2 = .ok x) (h2 : a'.split2 = .ok x') : Within b x.1 x'.1 ∧ Within b x.2 x'.2 := by
  unfold Arr2.split2 at h1 h2
  split at h1
  · split at h2
    · rw [← Except.ok.inj h1, ← Except.ok.inj h2, ← hs.1, ← hs.2]
      refine ⟨⟨⟨rfl, rfl⟩, ?_⟩, ⟨rfl, rfl⟩, ?_⟩
      all_goals
        intro t j
        by_cases hc : t < a.r ∧ j < a.c / 2
        · rw [Arr2.ofFn_get _ hc.1 hc.2, Arr2.ofFn_get _ hc.1 hc.2]
          exact h _ _ hc.1 (by omega)
        · rw [Arr2.ofFn_get', Arr2.ofFn_get', if_neg hc, if_neg hc, sub_zero, norm_zero]
          exact hb
    · cases h2
  · cases h1

/-- the series with noise are near those without -/
theorem series_near (z' : Nat → ℝ) {z : Nat → ℝ} {r : List ℝ} (r2 : ∀ x ∈ r, 0 ≤ x) {voltage current : Arr2 ℂ} {times ts : List ℝ} {f : Nat}
    {vm cm vp cp : ℝ} {x : Arr2 ℂ × Arr2 ℂ × Arr2 ℂ × Arr2 ℂ} (h : noiseSeries z r voltage current times ts f vm cm vp cp = .ok x) :
    ∃ K, 0 ≤ K ∧ ∀ {ν vm' cm' vp' cp' : ℝ}, (0 ≤ vm' ∧ vm' ≤ ν) → (0 ≤ cm' ∧ cm' ≤ ν) → (0 ≤ vp' ∧ vp' ≤ ν) → (0 ≤ cp' ∧ cp' ≤ ν) →
      ∀ {y}, noiseSeries z' r voltage current times ts f vm' cm' vp' cp' = .ok y → Within (K * ν) y.1 y.2.2.1 ∧ Within (K * ν) y.2.1 y.2.2.2 := by
  unfold noiseSeries at h
  obtain ⟨vi, h1, h⟩ := Prior.bind_ok h
  obtain ⟨noisy0, h2, h⟩ := Prior.bind_ok h
  obtain ⟨⟨nv0, ni0⟩, h3, h⟩ := Prior.bind_ok h
  obtain ⟨clean, h4, h⟩ := Prior.bind_ok h
  have hi := filter_interp h4
  choose! tmp htmp using hi
  obtain ⟨f0, n1, n2, -⟩ := filter_shape h4
  have hlen : ∀ j, j < vi.c → (tmp j).length = ts.length := fun j hj => interp_length (htmp j hj)
  obtain ⟨g0, g1⟩ := noiseGain_term (z := z') r2 tmp vi.c ts.length
  have hrs : 0 ≤ r.sum := List.sum_nonneg r2
  refine ⟨noiseGain z' r tmp vi.c ts.length, g0, ?_⟩
  intro ν vm' cm' vp' cp' e1 e2 e3 e4 y hy
  have hν : 0 ≤ ν := e1.1.trans e1.2
  unfold noiseSeries at hy
  rw [h1] at hy
  obtain ⟨vi', h1', hy⟩ := Prior.bind_ok hy
  cases h1'
  obtain ⟨noisy, k2, hy⟩ := Prior.bind_ok hy
  obtain ⟨⟨nv, ni⟩, k3, hy⟩ := Prior.bind_ok hy
  rw [h4] at hy
  obtain ⟨clean', h4', hy⟩ := Prior.bind_ok hy
  cases h4'
  obtain ⟨⟨v, i⟩, k5, hy⟩ := Prior.bind_ok hy
  cases hy
  obtain ⟨-, m1, m2, -⟩ := filter_shape k2
  have hb1 : ∀ x ∈ r, 0 ≤ cm' * x ∧ cm' * x ≤ ν * (1 + r.sum) := fun x hx =>
    ⟨mul_nonneg e2.1 (r2 x hx), mul_le_mul e2.2 ((List.single_le_sum r2 x hx).trans (by linarith)) (r2 x hx) hν⟩
  have hb0 : ν ≤ ν * (1 + r.sum) := by nlinarith
  obtain ⟨res, hres⟩ : ∃ res : Nat → List ℂ, ∀ j, j < vi.c → polarNoise z' (r.map (fun _ => vm') ++ r.map (fun r => cm' * r))
      (r.map (fun _ => vp') ++ r.map (fun _ => cp')) j (tmp j) = .ok (res j) ∧ (res j).length = ts.length ∧
      ∀ k, ‖(res j).getD k 0 - (tmp j).getD k 0‖ ≤ noiseGain z' r tmp vi.c ts.length * ν := by
    have : ∀ j, j < vi.c → ∃ q, polarNoise z' (r.map (fun _ => vm') ++ r.map (fun r => cm' * r))
      (r.map (fun _ => vp') ++ r.map (fun _ => cp')) j (tmp j) = .ok q ∧ q.length = ts.length ∧
      ∀ k, ‖q.getD k 0 - (tmp j).getD k 0‖ ≤ noiseGain z' r tmp vi.c ts.length * ν := by
      intro j hj
      have hq : ∃ q, polarNoise z' (r.map (fun _ => vm') ++ r.map (fun r => cm' * r))
          (r.map (fun _ => vp') ++ r.map (fun _ => cp')) j (tmp j) = .ok q := by
        exact filter_noise k2 j hj (tmp j) (htmp j hj)
      obtain ⟨q, hq⟩ := hq
      refine ⟨q, hq, ?_⟩
      unfold polarNoise at hq
      obtain ⟨s1, q1, hq⟩ := Prior.bind_ok hq
      obtain ⟨s2, q2, hq⟩ := Prior.bind_ok hq
      obtain ⟨a1, a2⟩ := stdAt_upTo r2 (b := ν * (1 + r.sum)) (fun _ _ => ⟨e1.1, e1.2.trans hb0⟩) hb1 q1
      obtain ⟨a3, a4⟩ := stdAt_upTo r2 (b := ν) (fun _ _ => e3) (fun _ _ => e4) q2
      rw [addPolarNoise1_ok _ _ _ a1 a3, hlen j hj] at hq
      rw [← Except.ok.inj hq]
      refine ⟨by simp, fun k => ?_⟩
      by_cases hk : k < ts.length
      · rw [List.getD_eq_getElem _ _ (by simpa using hk), List.getElem_map, List.getElem_range]
        refine (polar_near _ _ _).trans (le_trans ?_ (mul_le_mul_of_nonneg_right (g1 j k hj hk) hν))
        rw [mul_assoc]
        refine mul_le_mul_of_nonneg_left ?_ (norm_nonneg _)
        rw [abs_mul, abs_mul, abs_of_nonneg a1, abs_of_nonneg a3]
        have := mul_le_mul_of_nonneg_right a2 (abs_nonneg (z' (j * (2 * ts.length) + k)))
        have := mul_le_mul_of_nonneg_left (mul_le_mul_of_nonneg_right a4 (abs_nonneg (z' (j * (2 * ts.length) + ts.length + k)))) Real.pi_pos.le
        nlinarith
      · rw [List.getD_eq_default _ _ (by simpa using hk), List.getD_eq_default _ _ (by rw [hlen j hj]; omega), sub_zero, norm_zero]
        exact mul_nonneg g0 hν
    choose! res hres using this
    exact ⟨res, hres⟩
  obtain ⟨o, ho, or, oc, og⟩ := filter_ok vi times ts f f0 _ _ _ htmp (fun j hj => (hres j hj).1)
  obtain ⟨o', ho', or', oc', og'⟩ := filter_ok vi times ts f f0 noNoise tmp tmp htmp (fun _ _ => rfl)
  rw [ho] at k2
  cases k2
  rw [ho'] at h4
  cases h4
  refine split2_near ⟨or.trans or'.symm, oc.trans oc'.symm⟩ (mul_nonneg g0 hν) (fun t j ht hj => ?_) k3 k5
  rw [or] at ht
  rw [oc] at hj
  rw [og t j ht hj, og' t j ht hj]
  exact mean_near f0 ((hres j hj).2.1.trans (hlen j hj).symm) (hres j hj).2.2 (by rw [(hres j hj).2.1]; exact ht)

/-- the noise stage -/
def NearExact (b : ℝ) (n : NoiseResult) : Prop := Within b n.noisyVoltage n.voltage ∧ Within b n.noisyCurrent n.current

/-- no standard deviation is negative or above the level -/
def ParamsUpTo (ν : ℝ) (p : NoiseParams) : Prop := (0 ≤ p.vm ∧ p.vm ≤ ν) ∧ (0 ≤ p.cm ∧ p.cm ≤ ν) ∧ (0 ≤ p.vp ∧ p.vp ≤ ν) ∧ (0 ≤ p.cp ∧ p.cp ≤ ν)

theorem root_upTo {x ν : ℝ} (h : 0 ≤ x ∧ x ≤ ν) (f : Nat) : 0 ≤ x / Real.sqrt f ∧ x / Real.sqrt f ≤ ν := by
  refine ⟨div_nonneg h.1 (Real.sqrt_nonneg _), ?_⟩
  rcases Nat.eq_zero_or_pos f with h0 | h0
  · subst h0; simp; exact h.1.trans h.2
  · have : (1 : ℝ) ≤ Real.sqrt f := by rw [Real.one_le_sqrt]; exact_mod_cast h0
    exact (div_le_self h.1 this).trans h.2

theorem noise_near (z' : Nat → ℝ) {z : Nat → ℝ} {net : Net} {voltage current : Arr2 ℂ} {times : List ℝ} {fmeas : ℝ} {steps : Nat}
    {p : NoiseParams} {safety : ℝ} (hsf : 0 ≤ safety) {n : NoiseResult}
    (h : addNoiseAndFilter z net voltage current times fmeas steps p safety = .ok n) :
    ∃ K, 0 ≤ K ∧ ∀ {ν : ℝ} {p' : NoiseParams} {n' : NoiseResult}, ParamsUpTo ν p' → p'.equivalent = p.equivalent →
      addNoiseAndFilter z' net voltage current times fmeas steps p' safety = .ok n' → NearExact (K * ν) n' := by
  have r2 := (ratings_spec safety hsf net).2
  unfold addNoiseAndFilter at h ⊢
  obtain ⟨⟨m, ts⟩, h1, h⟩ := Prior.bind_ok h
  obtain ⟨f, h2, h⟩ := Prior.bind_ok h
  dsimp only at h h2
  simp only [h1, h2, bind, Except.bind]
  split at h
  · rename_i hq
    obtain ⟨ts', h3, h⟩ := Prior.bind_ok h
    obtain ⟨x, h4, h⟩ := Prior.bind_ok h
    obtain ⟨K, k1, k2⟩ := series_near z' r2 h4
    refine ⟨K, k1, fun {ν p' n'} hp he hn => ?_⟩
    rw [he, if_pos hq, h3] at hn
    obtain ⟨y, hy, hn⟩ := Prior.bind_ok hn
    cases hn
    exact k2 (root_upTo hp.1 f) (root_upTo hp.2.1 f) (root_upTo hp.2.2.1 f) (root_upTo hp.2.2.2 f) hy
  · rename_i hq
    obtain ⟨x, h4, h⟩ := Prior.bind_ok h
    obtain ⟨K, k1, k2⟩ := series_near z' r2 h4
    refine ⟨K, k1, fun {ν p' n'} hp he hn => ?_⟩
    rw [he, if_neg hq] at hn
    obtain ⟨y, hy, hn⟩ := Prior.bind_ok hn
    cases hn
    exact k2 hp.1 hp.2.1 hp.2.2.1 hp.2.2.2 hy

theorem noise_near3 (z' : Nat → ℝ) {z : Nat → ℝ} {net : Net} {voltage current : Arr2 ℂ} {times : List ℝ} {fmeas : ℝ} {steps : Nat}
    {p : NoiseParams} {safety : ℝ} (hsf : 0 ≤ safety) {n : NoiseResult}
    (h : addNoiseAndFilter3 z net voltage current times fmeas steps p (List.replicate 3 safety) = .ok n) :
    ∃ K, 0 ≤ K ∧ ∀ {ν : ℝ} {p' : NoiseParams} {n' : NoiseResult}, ParamsUpTo ν p' → p'.equivalent = p.equivalent →
      addNoiseAndFilter3 z' net voltage current times fmeas steps p' (List.replicate 3 safety) = .ok n' → NearExact (K * ν) n' := by
  unfold addNoiseAndFilter3 at h ⊢
  obtain ⟨r, hr, h⟩ := Prior.bind_ok h
  have r2 := ratings3_nonneg hsf hr
  obtain ⟨⟨m, ts⟩, h1, h⟩ := Prior.bind_ok h
  obtain ⟨f, h2, h⟩ := Prior.bind_ok h
  dsimp only at h h2
  simp only [hr, h1, h2, bind, Except.bind]
  split at h
  · rename_i hq
    obtain ⟨ts', h3, h⟩ := Prior.bind_ok h
    obtain ⟨x, h4, h⟩ := Prior.bind_ok h
    obtain ⟨K, k1, k2⟩ := series_near z' r2 h4
    refine ⟨K, k1, fun {ν p' n'} hp he hn => ?_⟩
    rw [he, if_pos hq, h3] at hn
    obtain ⟨y, hy, hn⟩ := Prior.bind_ok hn
    cases hn
    exact k2 (root_upTo hp.1 f) (root_upTo hp.2.1 f) (root_upTo hp.2.2.1 f) (root_upTo hp.2.2.2 f) hy
  · rename_i hq
    obtain ⟨x, h4, h⟩ := Prior.bind_ok h
    obtain ⟨K, k1, k2⟩ := series_near z' r2 h4
    refine ⟨K, k1, fun {ν p' n'} hp he hn => ?_⟩
    rw [he, if_neg hq] at hn
    obtain ⟨y, hy, hn⟩ := Prior.bind_ok hn
    cases hn
    exact k2 hp.1 hp.2.1 hp.2.2.1 hp.2.2.2 hy

/-! ### the stored data -/

/-- the noisy measurements are near the exact ones -/
def Spec.NearData (b : ℝ) (d : NetworkData) : Prop := Within b d.noisyVoltage d.voltage ∧ Within b d.noisyCurrent d.current

open Spec (NearData)

theorem within_nonneg {b : ℝ} {m m' : Arr2 ℂ} (h : Within b m m') : 0 ≤ b := (norm_nonneg _).trans (h.2 0 0)

theorem deleteCols_near {m m' q q' : Arr2 ℂ} {idx : List Nat} {b : ℝ} (hw : Within b m m')
    (h : m.deleteCols idx = .ok q) (h' : m'.deleteCols idx = .ok q') : Within b q q' := by
  have hs := hw.1
  unfold Arr2.deleteCols at h h'
  split at h
  · split at h'
    · rw [← Except.ok.inj h, ← Except.ok.inj h', ← hs.1, ← hs.2]
      refine ⟨⟨rfl, rfl⟩, fun t j => ?_⟩
      rw [Arr2.ofFn_get', Arr2.ofFn_get']
      split
      · exact hw.2 _ _
      · rw [sub_zero, norm_zero]; exact within_nonneg hw
    · cases h'
  · cases h

/-- sum of the moduli of the entries of the transformation of `c` columns -/
def seqGain (c : Nat) : ℝ := ∑ k ∈ range c, ∑ j ∈ range (tMatrix c seqBlock).c, ‖(tMatrix c seqBlock).get k j‖

theorem seqGain_nonneg (c : Nat) : 0 ≤ seqGain c := Finset.sum_nonneg fun _ _ => Finset.sum_nonneg fun _ _ => norm_nonneg _

theorem toSeq_near {m m' q q' : Arr2 ℂ} {b : ℝ} (hw : Within b m m')
    (h : measurementPhaseToSequence m = .ok q) (h' : measurementPhaseToSequence m' = .ok q') : Within (seqGain m'.c * b) q q' := by
  have hs := hw.1
  rw [← hs.2]
  unfold measurementPhaseToSequence at h h'
  rw [← hs.2] at h'
  obtain ⟨-, a1, a2, a3⟩ := matmul_entry h
  obtain ⟨-, b1, b2, b3⟩ := matmul_entry h'
  have hb := within_nonneg hw
  refine ⟨⟨by rw [a1, b1, hs.1], by rw [a2, b2]⟩, fun t j => ?_⟩
  by_cases hc : t < m.r ∧ j < (tMatrix m.c seqBlock).c
  · rw [a3 t j hc.1 hc.2, b3 t j (hs.1 ▸ hc.1) hc.2, ← hs.2, ← Finset.sum_sub_distrib]
    refine (norm_sum_le _ _).trans ?_
    unfold seqGain
    rw [Finset.sum_mul]
    refine Finset.sum_le_sum fun k _ => ?_
    rw [← sub_mul, norm_mul, mul_comm]
    exact mul_le_mul (Finset.single_le_sum (f := fun j => ‖(tMatrix m.c seqBlock).get k j‖) (fun _ _ => norm_nonneg _) (Finset.mem_range.2 hc.2))
      (hw.2 t k) (norm_nonneg _) (Finset.sum_nonneg fun _ _ => norm_nonneg _)
  · have e1 : q.get t j = 0 := q.oob t j (by rw [a1, a2]; omega)
    have e2 : q'.get t j = 0 := q'.oob t j (by rw [b1, b2, ← hs.1]; omega)
    rw [e1, e2, sub_zero, norm_zero]
    exact mul_nonneg (seqGain_nonneg _) hb

theorem drop_near {b3 : Bool} {net : Net} {n : NoiseResult} {idx : List Nat} {y : Arr2 ℂ} {d : NetworkData} {b : ℝ} (hw : NearExact b n)
    (h : dropReduced b3 net n idx y = .ok d) : NearData b d := by
  unfold dropReduced at h
  obtain ⟨nv, h1, h⟩ := Prior.bind_ok h
  obtain ⟨ni, h2, h⟩ := Prior.bind_ok h
  obtain ⟨v, h3, h⟩ := Prior.bind_ok h
  obtain ⟨i, h4, h⟩ := Prior.bind_ok h
  obtain ⟨r, h5, h⟩ := Prior.bind_ok h
  obtain ⟨q, h6, h⟩ := Prior.bind_ok h
  cases h
  exact ⟨deleteCols_near hw.1 h1 h3, deleteCols_near hw.2 h2 h4⟩

theorem within_mono {b b' : ℝ} (hb : b ≤ b') {m m' : Arr2 ℂ} (h : Within b m m') : Within b' m m' := ⟨h.1, fun t j => (h.2 t j).trans hb⟩

theorem sequence_near {d q : NetworkData} {b : ℝ} (hw : NearData b d) (h : toSequence d = .ok q) :
    NearData ((seqGain d.voltage.c + seqGain d.current.c) * b) q := by
  have hb := within_nonneg hw.1
  unfold toSequence at h
  obtain ⟨nv, h1, h⟩ := Prior.bind_ok h
  obtain ⟨ni, h2, h⟩ := Prior.bind_ok h
  obtain ⟨v, h3, h⟩ := Prior.bind_ok h
  obtain ⟨i, h4, h⟩ := Prior.bind_ok h
  obtain ⟨y, h5, h⟩ := Prior.bind_ok h
  cases h
  have g1 := seqGain_nonneg d.voltage.c
  have g2 := seqGain_nonneg d.current.c
  exact ⟨within_mono (by nlinarith) (toSeq_near hw.1 h1 h3), within_mono (by nlinarith) (toSeq_near hw.2 h2 h4)⟩

theorem data_near {w : SimWorld} {a : SimArgs} {net : Net} {hidden : List Int} {n : NoiseResult} {d : NetworkData}
    (h : networkData w a net hidden n = .ok d) : ∃ C, 0 ≤ C ∧ ∀ {r : Rerun} {n' : NoiseResult} {b : ℝ} {d' : NetworkData}, SameExact n n' →
      NearExact b n' → networkData (r.world w) (noiseOnly a) net hidden n' = .ok d' → NearData (C * b) d' := by
  unfold networkData at h ⊢
  obtain ⟨⟨idx, y⟩, h1, h⟩ := Prior.bind_ok h
  obtain ⟨d0, h2, h⟩ := Prior.bind_ok h
  have g1 := seqGain_nonneg d0.voltage.c
  have g2 := seqGain_nonneg d0.current.c
  refine ⟨1 + seqGain d0.voltage.c + seqGain d0.current.c, by positivity, fun {r n' b d'} e hw hd => ?_⟩
  have hb := within_nonneg hw.1
  have h1' : reduction (r.world w) (noiseOnly a) net hidden n' = .ok (idx, y) := by
    unfold reduction at h1 ⊢
    rw [e.voltage, e.current]
    exact h1
  obtain ⟨d1, k2, e2⟩ := drop_again e h2
  have k2' : dropReduced (noiseOnly a).threePhased net n' idx y = .ok d1 := k2
  simp only [h1', k2', bind, Except.bind] at hd
  have hq : (noiseOnly a).sequence = a.sequence := rfl
  rw [hq] at hd
  have hn1 := drop_near hw k2
  split at hd
  · have := sequence_near hn1 hd
    rw [e2.voltage, e2.current] at this
    exact ⟨within_mono (by nlinarith) this.1, within_mono (by nlinarith) this.2⟩
  · cases hd
    exact ⟨within_mono (by nlinarith) hn1.1, within_mono (by nlinarith) hn1.2⟩

theorem near_step (z' : Nat → ℝ) {w : SimWorld} {cf : SimConf} {a : SimArgs} {st : Store} {d : NetworkData} (hn : PlainName a.network)
    (hsf : 0 ≤ cf.safety) (hr : Redone a.noise [a.loads, a.networkSim, a.noise]) (h : (simulate w cf a st).res = .ok d) :
    ∃ K, 0 ≤ K ∧ ∀ {st' : Store} {r : Rerun} {ν : ℝ} {d' : NetworkData}, KeptFiles a.network (simulate w cf a st).store st' → r.Valid →
      r.z = z' → r.UpTo ν → (simulate (r.world w) (r.conf cf) (noiseOnly a) st').res = .ok d' → NearData (K * ν) d' := by
  cases h3 : a.threePhased with
  | false =>
    obtain ⟨net, bs, l, s, n, c1, c2, c3, c4, c5, c6, -, c8, -⟩ := C78_simulate hn h3 h
    have c6 := (c6 hr).1
    obtain ⟨K, hK, k⟩ := noise_near (p := ⟨cf.vm, cf.cm, cf.vp, cf.cp, a.equivalent⟩) z' hsf c6
    obtain ⟨C, hC, q⟩ := data_near c8
    refine ⟨C * K, mul_nonneg hC hK, fun {st' r ν d'} hk hv hz hu hd => ?_⟩
    obtain ⟨v1, v2, v3, v4⟩ := hv
    obtain ⟨u1, u2, u3, u4⟩ := hu
    have hl : loadsLoad st' a.network = .ok l := by
      by_cases hc : Redone a.loads [a.loads, a.networkSim, a.noise]
      · exact loadsLoad_stored (hk.1.trans (c2 hc).2)
      · have := (c3 hc).1
        unfold loadsLoad at this ⊢
        rw [load_congr (hk.1.trans (c3 hc).2)]
        exact this
    have hs : simLoad st' a.network = .ok s := by
      by_cases hc : Redone a.networkSim [a.loads, a.networkSim, a.noise]
      · exact simLoad_stored (hk.2.trans (c4 hc).2)
      · have := (c5 hc).1
        unfold simLoad at this ⊢
        rw [load_congr (hk.2.trans (c5 hc).2)]
        exact this
    obtain ⟨n', k1, k2⟩ := noise_again (z' := r.z) (p := ⟨cf.vm, cf.cm, cf.vp, cf.cp, a.equivalent⟩) (p' := noiseParams (r.conf cf) (noiseOnly a)) hsf v1 v2 v3 v4 rfl c6
    obtain ⟨d'', k3, k4⟩ := data_again r k2 c8
    have := again_run1 (w := r.world w) (cf := r.conf cf) h3 c1 hl hs k1 k3
    rw [hd] at this
    cases this
    rw [mul_assoc]
    exact q k2 (k (p' := noiseParams (r.conf cf) (noiseOnly a)) ⟨⟨v1, u1⟩, ⟨v2, u2⟩, ⟨v3, u3⟩, ⟨v4, u4⟩⟩ rfl (hz ▸ k1)) k3
  | true =>
    obtain ⟨net, bs, l, s, n, c1, c2, c3, c4, c5, c6, -, c8, -⟩ := C78_simulate3 hn h3 h
    have c6 := (c6 hr).1
    obtain ⟨K, hK, k⟩ := noise_near3 (p := ⟨cf.vm, cf.cm, cf.vp, cf.cp, a.equivalent⟩) z' hsf c6
    obtain ⟨C, hC, q⟩ := data_near c8
    refine ⟨C * K, mul_nonneg hC hK, fun {st' r ν d'} hk hv hz hu hd => ?_⟩
    obtain ⟨v1, v2, v3, v4⟩ := hv
    obtain ⟨u1, u2, u3, u4⟩ := hu
    have hl : loadsLoad3 st' a.network = .ok l := by
      by_cases hc : Redone a.loads [a.loads, a.networkSim, a.noise]
      · exact loadsLoad3_stored (hk.1.trans (c2 hc).2)
      · have := (c3 hc).1
        unfold loadsLoad3 at this ⊢
        rw [load_congr (hk.1.trans (c3 hc).2)]
        exact this
    have hs : simLoad st' a.network = .ok s := by
      by_cases hc : Redone a.networkSim [a.loads, a.networkSim, a.noise]
      · exact simLoad_stored (hk.2.trans (c4 hc).2)
      · have := (c5 hc).1
        unfold simLoad at this ⊢
        rw [load_congr (hk.2.trans (c5 hc).2)]
        exact this
    obtain ⟨n', k1, k2⟩ := noise_again3 (z' := r.z) (p := ⟨cf.vm, cf.cm, cf.vp, cf.cp, a.equivalent⟩) (p' := noiseParams (r.conf cf) (noiseOnly a)) hsf v1 v2 v3 v4 rfl c6
    obtain ⟨d'', k3, k4⟩ := data_again r k2 c8
    have := again_run3 (w := r.world w) (cf := r.conf cf) h3 c1 hl hs k1 k3
    rw [hd] at this
    cases this
    rw [mul_assoc]
    exact q k2 (k (p' := noiseParams (r.conf cf) (noiseOnly a)) ⟨⟨v1, u1⟩, ⟨v2, u2⟩, ⟨v3, u3⟩, ⟨v4, u4⟩⟩ rfl (hz ▸ k1)) k3

/-- C175, measurements: for a given stream of random numbers there is a constant such that, whatever noise runs came before, a noise run
with standard deviations up to `ν` stores measurements each of which is within that constant times `ν` of the exact ones, which are
those of the first run -/
theorem C175_data (z' : Nat → ℝ) {w : SimWorld} {cf : SimConf} {a : SimArgs} {st : Store} {d : NetworkData} (hn : PlainName a.network)
    (hsf : 0 ≤ cf.safety) (hr : Redone a.noise [a.loads, a.networkSim, a.noise]) (h : (simulate w cf a st).res = .ok d) :
    ∃ K, 0 ≤ K ∧ ∀ {rs : List Rerun} {r : Rerun} {ν : ℝ}, (∀ r ∈ rs, r.Valid) → r.Valid → r.z = z' → r.UpTo ν →
      ∃ d', (simulate (r.world w) (r.conf cf) (noiseOnly a) (sweep w cf a rs (simulate w cf a st).store)).res = .ok d' ∧
        Within (K * ν) d'.noisyVoltage d.voltage ∧ Within (K * ν) d'.noisyCurrent d.current := by
  obtain ⟨K, hK, k⟩ := near_step z' hn hsf hr h
  refine ⟨K, hK, fun {rs r ν} hrs hv hz hu => ?_⟩
  obtain ⟨d', k1, k2, -⟩ := C174 hn hsf hr h hrs hv
  have hk := sweep_kept hn hsf hr h rs _ hrs ⟨rfl, rfl⟩
  obtain ⟨m1, m2⟩ := k hk hv hz hu k1
  rw [k2.voltage] at m1
  rw [k2.current] at m2
  exact ⟨d', k1, m1, m2⟩

/-! ### the estimates -/

theorem centre_near {m m' : Arr2 ℂ} {b : ℝ} (h : Within b m m') : Within (2 * b) (centreColumns m) (centreColumns m') := by
  have hb := within_nonneg h
  refine ⟨h.1, fun t j => ?_⟩
  unfold centreColumns
  rw [Arr2.ofFn_get', Arr2.ofFn_get', ← h.1.1, ← h.1.2]
  split
  · rename_i hc
    have hr : (0 : ℝ) < m.r := by exact_mod_cast (by omega : 0 < m.r)
    have h1 : ‖(∑ s ∈ range m.r, m.get s j) / (m.r : ℂ) - (∑ s ∈ range m.r, m'.get s j) / (m.r : ℂ)‖ ≤ b := by
      rw [← sub_div, ← Finset.sum_sub_distrib, norm_div, Complex.norm_natCast, div_le_iff₀ hr]
      refine (norm_sum_le _ _).trans ((Finset.sum_le_sum fun k _ => h.2 _ _).trans ?_)
      simp [mul_comm]
    rw [sub_sub_sub_comm]
    exact (norm_sub_le _ _).trans (by linarith [h.2 t j])
  · rw [sub_zero, norm_zero]; positivity

theorem centreAll_near {m m' : Arr2 ℂ} {b : ℝ} (h : Within b m m') : Within (2 * b) (centreGlobal m) (centreGlobal m') := by
  have hb := within_nonneg h
  refine ⟨h.1, fun t j => ?_⟩
  unfold centreGlobal
  rw [Arr2.ofFn_get', Arr2.ofFn_get', ← h.1.1, ← h.1.2]
  split
  · rename_i hc
    have hr : (0 : ℝ) < ((m.r * m.c : Nat) : ℝ) := by exact_mod_cast Nat.mul_pos (by omega : 0 < m.r) (by omega : 0 < m.c)
    have h1 : ‖(∑ s ∈ range m.r, ∑ k ∈ range m.c, m.get s k) / ((m.r * m.c : Nat) : ℂ) -
        (∑ s ∈ range m.r, ∑ k ∈ range m.c, m'.get s k) / ((m.r * m.c : Nat) : ℂ)‖ ≤ b := by
      rw [← sub_div, ← Finset.sum_sub_distrib, norm_div, Complex.norm_natCast, div_le_iff₀ hr]
      refine (norm_sum_le _ _).trans ((Finset.sum_le_sum fun s _ => ?_).trans (b := ∑ _s ∈ range m.r, m.c * b) ?_)
      · rw [← Finset.sum_sub_distrib]
        refine (norm_sum_le _ _).trans ((Finset.sum_le_sum fun k _ => h.2 _ _).trans ?_)
        simp
      · simp only [Finset.sum_const, Finset.card_range, nsmul_eq_mul]
        push_cast
        linarith
    rw [sub_sub_sub_comm]
    exact (norm_sub_le _ _).trans (by linarith [h.2 t j])
  · rw [sub_zero, norm_zero]; positivity

theorem centreData_near {v v' i i' : Arr2 ℂ} {b : ℝ} (hv : Within b v v') (hi : Within b i i') (lap : Bool) :
    Within (2 * b) (centreData lap v i).1 (centreData lap v' i').1 ∧ Within (2 * b) (centreData lap v i).2 (centreData lap v' i').2 := by
  have hb := within_nonneg hv
  unfold centreData
  split
  · exact ⟨centreAll_near hv, within_mono (by linarith) hi⟩
  · exact ⟨centre_near hv, centre_near hi⟩

theorem size_near {m m' : Arr2 ℂ} {b : ℝ} (h : Within b m m') : Spec.size (Spec.diff m m') ^ 2 ≤ m'.r * m'.c * b ^ 2 := by
  unfold Spec.size Spec.diff
  rw [Real.sq_sqrt (Finset.sum_nonneg fun _ _ => Finset.sum_nonneg fun _ _ => sq_nonneg _), ← h.1.1, ← h.1.2]
  refine (Finset.sum_le_sum fun i _ => ?_).trans (b := ∑ _i ∈ range m.r, m.c * b ^ 2) ?_
  · refine (Finset.sum_le_sum fun j _ => ?_).trans (b := ∑ _j ∈ range m.c, b ^ 2) (by simp)
    rw [Arr2.ofFn_get']
    split
    · exact pow_le_pow_left₀ (norm_nonneg _) (h.2 _ _) 2
    · rw [norm_zero, zero_pow two_ne_zero]; positivity
  · simp [mul_assoc]

theorem entry_size (A : Arr2 ℂ) (i j : Nat) : ‖A.get i j‖ ≤ Spec.size A := by
  by_cases hc : i < A.r ∧ j < A.c
  · refine Real.le_sqrt_of_sq_le ?_
    refine le_trans ?_ (Finset.single_le_sum (f := fun i => ∑ j ∈ range A.c, ‖A.get i j‖ ^ 2)
      (fun _ _ => Finset.sum_nonneg fun _ _ => sq_nonneg _) (Finset.mem_range.2 hc.1))
    exact Finset.single_le_sum (f := fun j => ‖A.get i j‖ ^ 2) (fun _ _ => sq_nonneg _) (Finset.mem_range.2 hc.2)
  · rw [A.oob i j (by omega), norm_zero]
    exact Real.sqrt_nonneg _

theorem bound_within {n : Nat} {B Y : Arr2 ℂ} (hB : Spec.IsSquare n B) (hY : Spec.IsSquare n Y) {c d : ℝ} (hc : 0 < c) (hd : 0 ≤ d)
    (h : Spec.ErrorBound B Y c d) : Within (d / c * Real.sqrt (Spec.size Y ^ 2 + n)) B Y := by
  refine ⟨⟨hB.1.trans hY.1.symm, hB.2.trans hY.2.symm⟩, fun i j => ?_⟩
  refine le_trans ?_ (errorBound_size hB hY hc hd h)
  rw [← diff_get (hY.1.trans hB.1.symm) (hY.2.trans hB.2.symm)]
  exact entry_size _ i j

/-- the two least squares estimates from measurements near exact data that determine the matrix -/
theorem estimates_near {v i Y : Arr2 ℂ} {lap : Bool} (hsq : Y.r = Y.c) (heq : (centreData lap v i).1.matmul Y = .ok (centreData lap v i).2)
    (hrank : Spec.FullColumnRank (centreData lap v i).1) {K : ℝ} (hK : 0 ≤ K) :
    ∃ K' ν₀, 0 ≤ K' ∧ 0 < ν₀ ∧ ∀ {ν : ℝ} {nv ni : Arr2 ℂ}, ν ≤ ν₀ → Within (K * ν) nv v → Within (K * ν) ni i → 0 ≤ ν →
      ∀ {ext : NumExt} {ic : IdConf}, 0 ≤ ic.lambdaLasso → Spec.InvContract ext.inv → Spec.Exact ext.solve → Spec.Total ext.solve →
        Spec.PinvContract ext.pinv → Spec.SvdContract ext.svdVh → ∀ maxIter, ∃ B T L,
          standardCompute ext ic nv ni lap maxIter = .ok (B, T, L) ∧ Within (K' * ν) B Y ∧ Within (K' * ν) T Y := by
  obtain ⟨σ, hσ0, hσ⟩ := atLeast_of_rank hrank
  set x0 := (centreData lap v i).1 with hx0
  set z0 := (centreData lap v i).2 with hz0
  obtain ⟨s, hs⟩ : ∃ s : ℝ, s = x0.r * x0.c + z0.r * z0.c := ⟨_, rfl⟩
  have hs0 : 0 ≤ s := by rw [hs]; positivity
  obtain ⟨E, hE⟩ : ∃ E : ℝ, E = 2 * K * (1 + s) := ⟨_, rfl⟩
  have hE0 : 0 ≤ E := by rw [hE]; positivity
  obtain ⟨S, hS⟩ : ∃ S : ℝ, S = Real.sqrt (Spec.size Y ^ 2 + v.c) := ⟨_, rfl⟩
  have hS0 : 0 ≤ S := by rw [hS]; exact Real.sqrt_nonneg _
  refine ⟨4 * E / σ * S, σ / (4 * E + 1), by positivity, by positivity, ?_⟩
  intro ν nv ni hνb hv hi hν ext ic hl hinv hex htot hpinv hsvd maxIter
  have hεσ : 4 * (E * ν) ≤ σ := by
    rw [le_div_iff₀ (by positivity)] at hνb
    nlinarith
  have hε0 : 0 ≤ E * ν := mul_nonneg hE0 hν
  obtain ⟨n1, n2⟩ := centreData_near hv hi lap
  have hN : Spec.Noisy (centreData lap nv ni).1 (centreData lap nv ni).2 x0 z0 Y (E * ν) := by
    refine noisy_of_size heq n1.1 n2.1 hε0 ?_
    refine (add_le_add (size_near n1) (size_near n2)).trans ?_
    rw [← hx0, ← hz0, ← add_mul, ← hs, hE]
    have : 0 ≤ (K * ν) ^ 2 := sq_nonneg _
    nlinarith
  obtain ⟨B, T, L, c1, c2, c3, c4, -, -, -, c5, c6⟩ := standard_noisy hl hinv hex htot hpinv hsvd hsq hN hσ hε0 (by linarith) maxIter
  have hnc : nv.c = v.c := hv.1.2
  rw [hnc] at c2 c3 c4
  refine ⟨B, T, L, c1, within_mono ?_ (bound_within c3 c2 (by linarith) hε0 c5),
    within_mono ?_ (bound_within c4 c2 (by linarith) (by linarith) c6)⟩
  · rw [← hS, mul_right_comm]
    refine mul_le_mul_of_nonneg_right ?_ hS0
    rw [div_le_iff₀ (by linarith), div_mul_eq_mul_div, div_mul_eq_mul_div, le_div_iff₀ hσ0]
    nlinarith
  · rw [← hS, mul_right_comm]
    refine mul_le_mul_of_nonneg_right ?_ hS0
    rw [div_le_iff₀ (by linarith), div_mul_eq_mul_div, div_mul_eq_mul_div, le_div_iff₀ hσ0]
    nlinarith

theorem redone_of_all {a : SimArgs} (h : a.loads = a.networkSim ∧ a.networkSim = a.noise) : Redone a.noise [a.loads, a.networkSim, a.noise] := by
  rw [h.1, h.2]
  cases a.noise
  · exact .inr (by simp)
  · exact .inl rfl

/-- the files after a list of noise runs and one more -/
theorem sweep_last {w : SimWorld} {cf : SimConf} {a : SimArgs} {st : Store} {d : NetworkData} (hn : PlainName a.network)
    (hsf : 0 ≤ cf.safety) (hr : Redone a.noise [a.loads, a.networkSim, a.noise]) (h : (simulate w cf a st).res = .ok d) {rs : List Rerun}
    (hrs : ∀ r ∈ rs, r.Valid) {r : Rerun} (hv : r.Valid) {d' : NetworkData}
    (hd : (simulate (r.world w) (r.conf cf) (noiseOnly a) (sweep w cf a rs (simulate w cf a st).store)).res = .ok d') :
    SameGrid d d' ∧ networkLoad (sweep w cf a (rs ++ [r]) (simulate w cf a st).store) a.network = .ok d' := by
  obtain ⟨d1, k1, k2, -, k4⟩ := C174 hn hsf hr h hrs hv
  rw [hd] at k1
  cases k1
  refine ⟨k2, ?_⟩
  obtain ⟨-, -, hst⟩ := k4 _ rfl
  have := C49_network a.network d' (sweep w cf a (rs ++ [r]) (simulate w cf a st).store) (h := []) ⟨hn, by simp⟩
  have e : (sweep w cf a (rs ++ [r]) (simulate w cf a st).store).savez (resultFile .network a.network) (networkNpz d') =
      sweep w cf a (rs ++ [r]) (simulate w cf a st).store := by
    funext f
    by_cases hfn : f = resultFile .network a.network
    · subst hfn; rw [hst]; simp [Store.savez]
    · simp [Store.savez, hfn]
  rw [e] at this
  exact this

/-- noise runs after a simulation whose exact data determine a matrix `E`: the least squares estimates are near `E` -/
theorem limit_near (z' : Nat → ℝ) {w : SimWorld} {cf : SimConf} {a : SimArgs} {st : Store} {d : NetworkData} (hn : PlainName a.network)
    (hsf : 0 ≤ cf.safety) (h : (simulate w cf a st).res = .ok d) (hredo : Redone a.noise [a.loads, a.networkSim, a.noise])
    (hids : ∀ x ∈ d.ids, x = 1) {E : Arr2 ℂ} (hsq : E.r = E.c)
    (heq : (centreData a.laplacian d.voltage d.current).1.matmul E = .ok (centreData a.laplacian d.voltage d.current).2)
    (hrank : Spec.FullColumnRank (centreData a.laplacian d.voltage d.current).1) :
    ∃ K ν₀, 0 ≤ K ∧ 0 < ν₀ ∧ ∀ {rs : List Rerun} {r : Rerun} {ν : ℝ}, (∀ r ∈ rs, r.Valid) → r.Valid → r.z = z' → r.UpTo ν → ν ≤ ν₀ →
      ∃ d', (simulate (r.world w) (r.conf cf) (noiseOnly a) (sweep w cf a rs (simulate w cf a st).store)).res = .ok d' ∧ d'.y = d.y ∧
      ∀ {ext : NumExt} {ic : IdConf}, 0 ≤ ic.lambdaLasso → Spec.InvContract ext.inv → Spec.Exact ext.solve → Spec.Total ext.solve →
        Spec.PinvContract ext.pinv → Spec.SvdContract ext.svdVh →
        (∀ maxIter, ∃ B T L, standardCompute ext ic d'.noisyVoltage d'.noisyCurrent a.laplacian maxIter = .ok (B, T, L) ∧
          Within (K * ν) B E ∧ Within (K * ν) T E) ∧
        ∀ {sc : SimConf} {b : IdArgs} {o : (Arr2 ℂ × Arr2 ℂ × Arr2 ℂ) × (Arr2 ℂ × List IterationStatus)},
          (b.network = a.network ∧ b.laplacian = a.laplacian ∧ b.threePhased = false) → Redone b.standard [b.standard, b.bayesian] →
          (identify ext ic sc b (sweep w cf a (rs ++ [r]) (simulate w cf a st).store)).res = .ok o →
          Within (K * ν) o.1.1 E ∧ Within (K * ν) o.1.2.1 E := by
  obtain ⟨K, hK, k⟩ := near_step z' hn hsf hredo h
  obtain ⟨K', ν₀, hK', hν₀, q⟩ := estimates_near hsq heq hrank hK
  refine ⟨K', ν₀, hK', hν₀, fun {rs r ν} hrs hv hz hu hν => ?_⟩
  obtain ⟨d', k1, k2, -⟩ := C174 hn hsf hredo h hrs hv
  have hk := sweep_kept hn hsf hredo h rs _ hrs ⟨rfl, rfl⟩
  obtain ⟨m1, m2⟩ := k hk hv hz hu k1
  rw [k2.voltage] at m1
  rw [k2.current] at m2
  obtain ⟨-, hload⟩ := sweep_last hn hsf hredo h hrs hv k1
  have hν0 : 0 ≤ ν := hv.1.trans hu.1
  refine ⟨d', k1, k2.y, fun {ext ic} hl hinv hex htot hpinv' hsvd => ⟨q hν m1 m2 hν0 hl hinv hex htot hpinv' hsvd, ?_⟩⟩
  intro sc b o hb hstd ho
  obtain ⟨hb1, hb2, hb3⟩ := hb
  obtain ⟨d1, y0, ⟨all, l1, l2⟩, -, c, -⟩ := C78_identify (by rw [hb1]; exact hn) hb3 ho
  have c := (c hstd).1
  rw [hb1, hload] at l1
  cases l1
  have hsel : selectPhase b d' = .ok d' := by
    unfold selectPhase
    rw [if_neg]
    · rfl
    · rintro ⟨-, x, hx, hx1⟩
      rw [k2.ids] at hx
      exact hx1 (hids x hx)
  rw [hsel] at l2
  cases l2
  obtain ⟨B, T, L, g1, g2, g3⟩ := q hν m1 m2 hν0 hl hinv hex htot hpinv' hsvd b.maxIter
  rw [hb2, g1] at c
  rw [← Except.ok.inj c]
  exact ⟨g2, g3⟩

/-- C175: a simulation of a single-phase network that recomputed everything, and whose exact centred voltages determine the admittance
matrix. For a given stream of random numbers there are a constant and a level such that after any noise runs, one more with standard
deviations up to `ν` below that level gives measurements on which the standard methods complete, with an ordinary and a total least
squares estimate each entry of which is within the constant times `ν` of the stored reference; identify_network.py, if it completes
on the files, returns such estimates. -/
theorem C175 (z' : Nat → ℝ) {w : SimWorld} {cf : SimConf} {a : SimArgs} {st : Store} {d : NetworkData} (hn : PlainName a.network)
    (hsf : 0 ≤ cf.safety) (h3 : a.threePhased = false) (hseq : a.sequence = false) (h : (simulate w cf a st).res = .ok d)
    (hall : a.loads = a.networkSim ∧ a.networkSim = a.noise) (hhid : cf.hidden = []) (hpinv : Spec.PinvContract w.pinv)
    {net : Net} {bs : List BusData} (hbs : makeNet w a.network = .ok (net, bs)) (h0 : 0 < bs.length) {y : Arr2 ℂ}
    (hy : w.yBus net = .ok y) (hf : ∀ c res, w.flow net c = .ok res → Spec.PowerFlow bs y res)
    (hr : Spec.Reducible bs y a.laplacian) (hrank : Spec.FullColumnRank (centreData a.laplacian d.voltage d.current).1) :
    ∃ K ν₀, 0 ≤ K ∧ 0 < ν₀ ∧ ∀ {rs : List Rerun} {r : Rerun} {ν : ℝ}, (∀ r ∈ rs, r.Valid) → r.Valid → r.z = z' → r.UpTo ν → ν ≤ ν₀ →
      ∃ d', (simulate (r.world w) (r.conf cf) (noiseOnly a) (sweep w cf a rs (simulate w cf a st).store)).res = .ok d' ∧ d'.y = d.y ∧
      ∀ {ext : NumExt} {ic : IdConf}, 0 ≤ ic.lambdaLasso → Spec.InvContract ext.inv → Spec.Exact ext.solve → Spec.Total ext.solve →
        Spec.PinvContract ext.pinv → Spec.SvdContract ext.svdVh →
        (∀ maxIter, ∃ B T L, standardCompute ext ic d'.noisyVoltage d'.noisyCurrent a.laplacian maxIter = .ok (B, T, L) ∧
          Within (K * ν) B d.y ∧ Within (K * ν) T d.y) ∧
        ∀ {sc : SimConf} {b : IdArgs} {o : (Arr2 ℂ × Arr2 ℂ × Arr2 ℂ) × (Arr2 ℂ × List IterationStatus)},
          (b.network = a.network ∧ b.laplacian = a.laplacian ∧ b.threePhased = false) → Redone b.standard [b.standard, b.bayesian] →
          (identify ext ic sc b (sweep w cf a (rs ++ [r]) (simulate w cf a st).store)).res = .ok o →
          Within (K * ν) o.1.1 d.y ∧ Within (K * ν) o.1.2.1 d.y := by
  obtain ⟨-, hids, hsq, heq, -⟩ := C115_data hn h3 hseq h hall hhid hpinv hbs h0 hy hf hr
  exact limit_near z' hn hsf h (redone_of_all hall) hids hsq heq hrank

/-- C175: the small network with its exact data, and one run with noise of any small enough level -/
example (st : Store) (z : Nat → ℝ) : ∃ d K ν₀, (simulate demoWorld115 demoConf115 demoArgs115 st).res = .ok d ∧ 0 ≤ K ∧ 0 < ν₀ ∧
    ∀ ν, 0 < ν → ν ≤ ν₀ → ∃ d', (simulate { demoWorld115 with z := z } { demoConf115 with vm := ν, cm := ν, vp := ν, cp := ν }
        (noiseOnly demoArgs115) (simulate demoWorld115 demoConf115 demoArgs115 st).store).res = .ok d' ∧
      ∃ B T L, standardCompute demoExt115 demoIdConf d'.noisyVoltage d'.noisyCurrent false 1 = .ok (B, T, L) ∧
        Within (K * ν) B d.y ∧ Within (K * ν) T d.y := by
  have hn := templates_plain "ieee_33" (by decide)
  obtain ⟨net, ls', hnd, hm⟩ := demo115_net
  obtain ⟨d, hd⟩ := demo_C116 st
  obtain ⟨hwid, hrank⟩ := demo115_rank hd
  obtain ⟨K, ν₀, hK, hν₀, q⟩ := C175 z hn (by norm_num [demoConf115]) rfl rfl hd ⟨rfl, rfl⟩ rfl exactPinv_contract hm
    (by simp [demoBuses115]) rfl (fun c res => demo115_flow net c res) demo115_reducible hrank
  refine ⟨d, K, ν₀, hd, hK, hν₀, fun ν h0 h1 => ?_⟩
  obtain ⟨d', k1, -, k2⟩ := q (rs := []) (r := ⟨demoWorld115.rng, z, demoWorld115.files, ν, ν, ν, ν⟩) (by simp)
    ⟨h0.le, h0.le, h0.le, h0.le⟩ rfl ⟨le_rfl, le_rfl, le_rfl, le_rfl⟩ h1
  exact ⟨d', k1, (k2 (ext := demoExt115) (ic := demoIdConf) (by simp [demoIdConf]) exactInv_contract exactSolve_exact exactSolve_total
    exactPinv_contract exactSvd_contract).1 1⟩

end
end Verif
