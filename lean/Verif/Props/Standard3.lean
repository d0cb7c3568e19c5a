/-
C126, C142 and C143 for three-phase networks in sequence values: what the blocks of the estimates are.
-/
import Verif.Props.BayesWeights
import Verif.Props.TlsOptimal
import Verif.Props.IsotropicNoise
import Verif.Props.IdentifyRun3
import Verif.Props.EivCritical3
import Verif.Props.Renumber3

namespace Verif
open Finset
noncomputable section

/-- C142 for `standard_methods` of run3ph.py: every block of the returned (and saved) total least squares estimate solves the total least
squares problem of the centred measurements of its sequence, and the other entries are zero -/
theorem C142_three {ext : NumExt} (hsh : Spec.Shapes ext) (hsvd : Spec.SvdContract ext.svdVh) (hinv : Spec.InvSound ext.inv) {cf : IdConf}
    {name : String} {v c : Arr2 ℂ} {ids : List Int} {lap : Bool} {K : Nat} {st : Store} {o t l : Arr2 ℂ} (hv : ids.length = v.c)
    (hc : ids.length = c.c) {m : Fin 3 → Nat} {f : Fin 3 → Nat → Nat} (hp : ∀ s : Fin 3, Spec.LabelPos ids (s.val : Int) (m s) (f s))
    (h : (standardMethods3 ext cf name (some v) (some c) (some ids) lap K st).res = .ok (o, t, l)) :
    (standardMethods3 ext cf name (some v) (some c) (some ids) lap K st).store (resultFile .standard name) = some (standardNpz (o, t, l)) ∧
    ∃ T : Fin 3 → Arr2 ℂ, Spec.Assembled ids m f T t ∧
      ∀ s, Spec.SolvesTls (centreData lap (Spec.columnsAt v (m s) (f s)) (Spec.columnsAt c (m s) (f s))).1
        (centreData lap (Spec.columnsAt v (m s) (f s)) (Spec.columnsAt c (m s) (f s))).2 (T s) := by
  obtain ⟨rs, hr, -, a2, -⟩ := (C52_standard hsh hv hc hp st _).1 h
  exact ⟨standardMethods3_stored h, _, a2, fun s => (C142_standard hsvd hinv (hr s st)).1⟩

/-- C143 for `standard_methods` of run3ph.py: white noise within a sequence leaves the block of the total least squares estimate at the true
matrix of the sequence and shortens the columns of the block of the ordinary least squares estimate, for any noise powers of the
sequences -/
theorem C143_three {ext : NumExt} (hsh : Spec.Shapes ext) (hsvd : Spec.SvdContract ext.svdVh) (hinv : Spec.InvContract ext.inv)
    (hpinv : Spec.PinvContract ext.pinv) {cf : IdConf} {name : String} {v i : Arr2 ℂ} {ids : List Int} {lap : Bool} {K : Nat} {st : Store}
    {o t l : Arr2 ℂ} (hv : ids.length = v.c) (hi : ids.length = i.c) {m : Fin 3 → Nat} {f : Fin 3 → Nat → Nat}
    (hp : ∀ s : Fin 3, Spec.LabelPos ids (s.val : Int) (m s) (f s))
    (h : (standardMethods3 ext cf name (some v) (some i) (some ids) lap K st).res = .ok (o, t, l)) {x0 z0 Y : Fin 3 → Arr2 ℂ}
    {c : Fin 3 → ℝ} (hc : ∀ s, 0 < c s)
    (hn : ∀ s, Spec.WhiteNoise (centreData lap (Spec.columnsAt v (m s) (f s)) (Spec.columnsAt i (m s) (f s))).1
      (centreData lap (Spec.columnsAt v (m s) (f s)) (Spec.columnsAt i (m s) (f s))).2 (x0 s) (z0 s) (c s))
    (hx0 : ∀ s, Spec.FullColumnRank (x0 s)) (hz0 : ∀ s, (x0 s).matmul (Y s) = .ok (z0 s)) :
    Spec.Assembled ids m f Y t ∧ ∃ B : Fin 3 → Arr2 ℂ, Spec.Assembled ids m f B o ∧
      ∀ s, ∀ j < (Y s).c, (∃ k < (Y s).r, (Y s).get k j ≠ 0) →
        ∑ k ∈ range (Y s).r, Complex.normSq ((B s).get k j) < ∑ k ∈ range (Y s).r, Complex.normSq ((Y s).get k j) := by
  obtain ⟨rs, hr, a1, a2, -⟩ := (C52_standard hsh hv hi hp st _).1 h
  have key := fun s => C143_standard hsvd hinv hpinv (hc s) (hr s st) (hn s) (hx0 s) (hz0 s)
  have e : (fun s => (rs s).2.1) = Y := funext fun s => (key s).1
  exact ⟨e ▸ a2, _, a1, fun s => (key s).2.2⟩

/-- C126 for `bayesian_eiv` of run3ph.py: with weights, every block of the result and of the log belongs to the alternating minimisation on
the centred measurements of its sequence, weighted by the inverse covariance of its voltages. Missing: as for one phase, the same
weights serve for the currents (`C126_violated`). -/
theorem C126_three_partial {ext : NumExt} {cf : IdConf} {name : String} {v c y0 : Arr2 ℂ} {ids : List Int} {vsd isd : SdPolar}
    {ratings : List ℝ} {ye : Option (Arr2 ℂ)} {lap pmu : Bool} {iters : Nat} {st : Store} {r : Arr2 ℂ × List IterationStatus}
    (hex : Spec.Exact ext.solve) (hi : 0 < iters) (h0 : 0 ∈ ids) (hd : Spec.PhaseData ids v c ratings y0 ye) (hsym : Spec.IsSymm y0)
    {m : Fin 3 → Nat} {f : Fin 3 → Nat → Nat} (hp : ∀ s : Fin 3, Spec.LabelPos ids (s.val : Int) (m s) (f s)) (hm : ∀ s, 2 ≤ m s)
    (hye : ye ≠ none → (∀ s, 29 ≤ m s) ∧ lap = false)
    (h90 : ¬ (lap = true ∧ cf.contrastEachRow = true ∧ cf.regularizeDiag = true)) (hl : 0 ≤ cf.lambdaEiv)
    (hsd : 0 < vsd.m ∧ 0 < vsd.p) (hrows : c.r = v.r) (hv : pmu = false → ∀ t j, t < v.r → j < v.c → v.get t j ≠ 0)
    (h : (bayesianEiv3 ext cf name v c ids vsd isd ratings y0 ye lap true iters pmu st).res = .ok r) :
    ∃ rs : Fin 3 → Arr2 ℂ × List IterationStatus, Spec.Assembled ids m f (fun s => (rs s).1) r.1 ∧
      Spec.Merged ids m f (fun s => (rs s).2) r.2 ∧
      ∀ s, ∃ p cv ci x z S W Ds, eivPrior cf (m s) (Spec.blockAt y0 (m s) (f s)) (ye.map (fun y => Spec.blockAt y (m s) (f s))) lap = .ok p ∧
        (pmu = true → cv = Spec.columnsAt v (m s) (f s) ∧ ci = Spec.columnsAt c (m s) (f s)) ∧
        (pmu = false → Spec.Turned (Spec.columnsAt v (m s) (f s)) (Spec.columnsAt c (m s) (f s)) cv ci) ∧
        Spec.Centred lap cv x ∧ (lap = true → z = ci) ∧ (lap = false → Spec.Centred false ci z) ∧
        (pmu = true → averageTrueNoiseCovariance (Spec.columnsAt v (m s) (f s)) (.pyFloat vsd.m) vsd.p false = .ok S) ∧
        (pmu = false → naiveNoiseCovariance cv (.pyFloat vsd.m) (100 * vsd.p) false = .ok S) ∧
        Spec.Inverses (2 * (m s * v.r)) W S ∧
        Spec.EivTrace lap (m s) (regConfig cf p cf.lambdaEiv lap iters) W W x z (Spec.blockAt y0 (m s) (f s)) (rs s).2 Ds ∧
        Spec.EivDescends lap (m s) (regConfig cf p cf.lambdaEiv lap iters) W W x z (rs s).2 Ds ∧
        ∃ e, (rs s).2.getLast? = some e ∧ (rs s).1 = e.params := by
  obtain ⟨rs, hrs, hA, hM⟩ := (C52_bayesian hi h0 hd hp st r).1.1 h
  refine ⟨rs, hA, hM, fun s => ?_⟩
  refine C126_partial (v := Spec.columnsAt v (m s) (f s)) (c := Spec.columnsAt c (m s) (f s)) hex hi ⟨rfl, rfl⟩ ⟨rfl, fun i j => ?_⟩
    (fun y hy => ?_) h90 hl ⟨?_, hsd⟩ ?_ ⟨hrows, rfl⟩ (fun hpm t j ht hj => ?_) (hrs s st)
  · by_cases hij : i < m s ∧ j < m s
    · unfold Spec.blockAt
      rw [Arr2.ofFn_get _ hij.1 hij.2, Arr2.ofFn_get _ hij.2 hij.1]
      exact hsym.2 _ _
    · unfold Spec.blockAt
      rw [Arr2.ofFn_get', Arr2.ofFn_get', if_neg hij, if_neg fun h => hij ⟨h.2, h.1⟩]
  · have hn : ye ≠ none := by rintro rfl; cases hy
    obtain ⟨y', -, rfl⟩ := Option.map_eq_some_iff.1 hy
    exact ⟨(hye hn).1 s, ⟨rfl, rfl⟩, (hye hn).2⟩
  · have := hm s; show m s ≠ 1; omega
  · intro e
    have := congrArg List.length e
    simp only [Spec.entriesAt, List.length_map, List.length_range, List.length_nil] at this
    have := hm s
    omega
  · have ht : t < v.r := ht
    have hj : j < m s := hj
    unfold Spec.columnsAt
    rw [Arr2.ofFn_get _ ht hj]
    exact hv hpm t _ ht (by rw [← hd.v]; exact (hp s).lt j hj)

/-- Concrete case of C126: five weighted iterations for two nodes on each sequence. -/
example (st : Store) : ∃ r : Arr2 ℂ × List IterationStatus, (bayesianEiv3 ⟨exactPinv, exactSvd, exactInv, exactSolve⟩
      ⟨1, 1, 1, 0, 0, true, true, true⟩ "a" demoV150 demoV150 [0, 1, 2, 0, 1, 2] ⟨1, 1⟩ ⟨1, 1⟩ [1, 1, 1, 1, 1, 1] demoY150 none false true 5
      false st).res = .ok r ∧
    ∃ rs : Fin 3 → Arr2 ℂ × List IterationStatus,
      Spec.Assembled [0, 1, 2, 0, 1, 2] (fun _ => 2) (fun l k => 3 * k + l.val) (fun s => (rs s).1) r.1 := by
  have hv : ∀ t j, t < demoV150.r → j < demoV150.c → demoV150.get t j ≠ 0 := fun t j (ht : t < 2) (hj : j < 6) => by
    unfold demoV150 demoV126
    rw [Arr2.ofFn_get _ ht hj, Arr2.ofFn_get _ ht (by omega)]
    split <;> norm_num
  have hw : Spec.Rewritten demoV150 demoV150 1 (fun _ => 1) (1 : Equiv.Perm (Fin 2)) (1 : Equiv.Perm (Fin 6)) :=
    ⟨⟨rfl, rfl⟩, ⟨rfl, rfl⟩, fun t k => by simp⟩
  obtain ⟨r, -, h1, -⟩ := C157_three (ext := ⟨exactPinv, exactSvd, exactInv, exactSolve⟩)
    (cf := ⟨1, 1, 1, 0, 0, true, true, true⟩) exactSolve_exact exactSolve_total exactInv_contract one_pos hw hw
    (y0 := demoY150) (y0' := demoY150)
    ⟨⟨rfl, rfl⟩, ⟨rfl, rfl⟩, fun a b => rfl⟩ demoY150_symm
    (ids := [0, 1, 2, 0, 1, 2]) (ids' := [0, 1, 2, 0, 1, 2]) rfl rfl (fun _ => rfl) (by simp) demo150_labels demo150_labels
    (ratings := [1, 1, 1, 1, 1, 1]) (ratings' := [1, 1, 1, 1, 1, 1]) rfl rfl false true false (by simp) demo150_seen
    (.inr ⟨rfl, rfl, one_ne_zero⟩) ⟨1, 1⟩ ⟨1, 1⟩ (fun _ => ⟨fun _ => le_rfl, one_pos, one_pos, fun _ t j ht hj => hv t j ht hj⟩) 5
    (by norm_num) "a" st st
  obtain ⟨rs, h2, -⟩ := C126_three_partial exactSolve_exact (by norm_num) (by simp) demo150_data demoY150_symm demo150_labels (fun _ => le_rfl)
    (fun h => absurd rfl h) (fun h => by cases h.1) zero_le_one ⟨one_pos, one_pos⟩ rfl (fun _ => hv) h1
  exact ⟨r, h1, rs, h2⟩

/-- Concrete case of C142: four samples of two nodes on each sequence. -/
example (cf : IdConf) (hl : 0 ≤ cf.lambdaLasso) (K : Nat) (st : Store) : ∃ r,
    (standardMethods3 demoExt115 cf "a" (some (spread157 demoX126)) (some (spread157 demoZ126)) (some [0, 1, 2, 0, 1, 2]) false K st).res =
      .ok r ∧ ∃ T : Fin 3 → Arr2 ℂ, Spec.Assembled [0, 1, 2, 0, 1, 2] (fun _ => 2) (fun l k => 3 * k + l.val) T r.2.1 ∧
        ∀ s, Spec.SolvesTls demoX126 demoZ126 (T s) := by
  obtain ⟨σ, hσ, hat⟩ := atLeast_of_rank demo126_rank
  have hv : ∀ x, Spec.Rewritten (spread157 x) (spread157 x) 1 (fun _ => 1) (1 : Equiv.Perm (Fin 4)) (1 : Equiv.Perm (Fin 6)) := fun x =>
    ⟨⟨rfl, rfl⟩, ⟨rfl, rfl⟩, fun t k => by simp⟩
  obtain ⟨r, -, h, -⟩ := C157_noisy3 (ext := demoExt115) hl demoExt_shapes exactInv_contract exactInv_sound exactSolve_exact exactSolve_total
    exactPinv_contract exactSvd_contract (hv demoX126) (hv demoZ126) (ids := [0, 1, 2, 0, 1, 2]) (ids' := [0, 1, 2, 0, 1, 2]) rfl rfl
    (fun _ => rfl) demo150_labels demo150_labels false (x0 := fun _ => demoX126) (z0 := fun _ => demoZ126) (Y := fun _ => demoY126)
    (fun _ => rfl) (ε := fun _ => 0) (σ := fun _ => σ) (fun l => by
      rw [spread157_columns rfl rfl l, spread157_columns rfl rfl l, demo126_centred]
      exact demo126_noisy) (fun _ => hat) (fun _ => le_rfl) (fun _ => by simpa using hσ) K "a" st st
  obtain ⟨-, T, h1, h2⟩ := C142_three (o := r.1) (t := r.2.1) (l := r.2.2) demoExt_shapes exactSvd_contract exactInv_sound rfl rfl demo150_labels h
  refine ⟨r, h, T, h1, fun s => ?_⟩
  have := h2 s
  rwa [spread157_columns rfl rfl s, spread157_columns rfl rfl s, demo126_centred] at this

/-- one node on each sequence: the voltages 2, -2 and the noise 1, -1 in the next two of six samples -/
def demoV143 : Arr2 ℂ := Arr2.ofFn 6 3 fun t _ => if t = 0 then 2 else if t = 1 then -2 else if t = 2 then 1 else if t = 3 then -1 else 0

/-- the currents with the noise in the last two samples -/
def demoI143 : Arr2 ℂ := Arr2.ofFn 6 3 fun t _ => if t = 0 then 2 else if t = 1 then -2 else if t = 4 then 1 else if t = 5 then -1 else 0

/-- the data without noise -/
def demoX143 : Arr2 ℂ := Arr2.ofFn 6 1 fun t _ => if t = 0 then 2 else if t = 1 then -2 else 0

theorem demo143_labels (s : Fin 3) : Spec.LabelPos [0, 1, 2] (s.val : Int) 1 (fun _ => s.val) := by
  refine ⟨fun a b _ _ => by omega, fun a _ => s.isLt, fun a _ => ?_, fun p hp he => ⟨0, one_pos, ?_⟩⟩
  · fin_cases s <;> rfl
  · have hp : p < 3 := hp
    have hs := s.isLt
    have : p = 0 ∨ p = 1 ∨ p = 2 := by omega
    rcases this with rfl | rfl | rfl <;> simp at he <;> omega

theorem demo143_centred (s : Fin 3) : centreData false (Spec.columnsAt demoV143 1 fun _ => s.val) (Spec.columnsAt demoI143 1 fun _ => s.val) =
    (Spec.columnsAt demoV143 1 fun _ => s.val, Spec.columnsAt demoI143 1 fun _ => s.val) := by
  have hs := s.isLt
  show (centreColumns _, centreColumns _) = _
  rw [centreColumns_zero, centreColumns_zero]
  · intro j (hj : j < 1)
    show ∑ t ∈ range 6, (Arr2.ofFn 6 1 _).get t j = 0
    simp [Finset.sum_range_succ, Arr2.ofFn_get', hj, demoI143, hs]
  · intro j (hj : j < 1)
    show ∑ t ∈ range 6, (Arr2.ofFn 6 1 _).get t j = 0
    simp [Finset.sum_range_succ, Arr2.ofFn_get', hj, demoV143, hs]

/-- Concrete case of C143: what any run on these data returns. -/
example (cf : IdConf) (K : Nat) (st : Store) (o t l : Arr2 ℂ)
    (h : (standardMethods3 demoExt115 cf "a" (some demoV143) (some demoI143) (some [0, 1, 2]) false K st).res = .ok (o, t, l)) :
    Spec.Assembled [0, 1, 2] (fun _ => 1) (fun s _ => s.val) (fun _ => Arr2.ofFn 1 1 fun _ _ => 1) t := by
  refine (C143_three (c := fun _ => 2) (x0 := fun _ => demoX143) (z0 := fun _ => demoX143) demoExt_shapes exactSvd_contract exactInv_contract
    exactPinv_contract rfl rfl demo143_labels h (fun _ => two_pos) (fun s => ?_) (fun _ => ?_) (fun _ => ?_)).1
  · rw [demo143_centred]
    have hs := s.isLt
    refine ⟨rfl, rfl, rfl, fun a ha b hb => ?_⟩
    have ha' : a = 0 ∨ a = 1 := by
      have : a < 2 := ha
      omega
    have hb' : b = 0 ∨ b = 1 := by
      have : b < 2 := hb
      omega
    rcases ha' with rfl | rfl <;> rcases hb' with rfl | rfl <;>
      simp [Spec.correlation, Spec.column, Spec.columnsAt, demoV143, demoI143, demoX143, Finset.sum_range_succ, Arr2.ofFn_get', hs, map_ofNat] <;> norm_num
  · intro v hv
    funext k
    have h0 := congrFun hv (0 : Fin 6)
    obtain rfl : k = (0 : Fin 1) := Subsingleton.elim (α := Fin 1) _ _
    have e : ∀ w : Fin 1 → ℂ, (demoX143.toMat 6 1).mulVec w 0 = 2 * w 0 := by
      intro w
      simp [Matrix.mulVec, dotProduct, Arr2.toMat, Arr2.ofFn_get', demoX143]
    have h1 : 2 * v (0 : Fin 1) = 0 := (e v).symm.trans h0
    exact (mul_eq_zero.1 h1).resolve_left two_ne_zero
  · refine (if_pos rfl).trans (congrArg Except.ok (Arr2.ext' rfl rfl fun i j hi hj => ?_))
    have hi' : i < 6 := hi
    have hj' : j < 1 := hj
    simp [Arr2.ofFn_get', Arr2.mulGet, hi', hj', demoX143]

end
end Verif
