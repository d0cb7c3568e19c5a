/-
C157 for three-phase networks in sequence values: another numbering of the columns.
-/
import Verif.Props.Renumber
import Verif.Props.EivCritical3
import Verif.Props.PipelineDemo3

namespace Verif
noncomputable section
open Spec (LabelPos Assembled Merged columnsAt blockAt entriesAt IsSquare IsSymm Renumbered Rewritten)

/-- the columns of one label are renumbered among themselves -/
theorem label_perm {ids ids' : List Int} {N : Nat} (hN : ids.length = N) (hN' : ids'.length = N) {π : Equiv.Perm (Fin N)}
    (hids : ∀ k : Fin N, ids'.getD k 0 = ids.getD (π k) 0) {l : Int} {m : Nat} {f f' : Nat → Nat} (hp : LabelPos ids l m f)
    (hp' : LabelPos ids' l m f') :
    ∃ τ : Equiv.Perm (Fin m), ∀ (k : Fin m) (h : f' k < N), f (τ k) = ((π ⟨f' k, h⟩ : Fin N) : Nat) := by
  have hlt : ∀ k : Fin m, f' k < N := fun k => hN' ▸ hp'.lt k k.2
  have hex : ∀ k : Fin m, ∃ a : Fin m, f a = ((π ⟨f' k, hlt k⟩ : Fin N) : Nat) := by
    intro k
    obtain ⟨a, ha, e⟩ := hp.all ((π ⟨f' k, hlt k⟩ : Fin N) : Nat) (by rw [hN]; exact Fin.isLt _) (by
      rw [← hids]
      exact hp'.label k k.2)
    exact ⟨⟨a, ha⟩, e⟩
  choose g hg using hex
  have hinj : Function.Injective g := by
    intro a b hab
    have h1 := hg a
    rw [hab, hg b] at h1
    have h2 := congrArg Fin.val (π.injective (Fin.ext h1))
    have h2 : f' b = f' a := h2
    rcases lt_trichotomy a.val b.val with h | h | h
    · have := hp'.mono a b h b.2
      omega
    · exact Fin.ext h
    · have := hp'.mono b a h a.2
      omega
  exact ⟨Equiv.ofBijective g (Finite.injective_iff_bijective.1 hinj), fun k h => hg k⟩

section
variable {ids ids' : List Int} {N : Nat} {π : Equiv.Perm (Fin N)} {m : Fin 3 → Nat} {f f' : Fin 3 → Nat → Nat}
  {τ : ∀ l, Equiv.Perm (Fin (m l))}

/-- matrices assembled from renumbered blocks -/
theorem assembled_renumbered (hN : ids.length = N) (hN' : ids'.length = N) (hids : ∀ k : Fin N, ids'.getD k 0 = ids.getD (π k) 0)
    (hp' : ∀ l : Fin 3, LabelPos ids' (l.val : Int) (m l) (f' l))
    (hτ : ∀ l (k : Fin (m l)) (h : f' l k < N), f l (τ l k) = ((π ⟨f' l k, h⟩ : Fin N) : Nat)) {E E' : Fin 3 → Arr2 ℂ} {y y' : Arr2 ℂ}
    (hA : Assembled ids m f E y) (hA' : Assembled ids' m f' E' y') (hE : ∀ l, Renumbered (τ l) (E l) (E' l)) : Renumbered π y y' := by
  refine ⟨hN ▸ hA.square, hN' ▸ hA'.square, fun p q => ?_⟩
  have hlp : p.val < ids'.length := by rw [hN']; exact p.2
  have hlq : q.val < ids'.length := by rw [hN']; exact q.2
  have hpp : (π p).val < ids.length := by rw [hN]; exact (π p).2
  have hqq : (π q).val < ids.length := by rw [hN]; exact (π q).2
  by_cases he : ids'.getD p 0 = ids'.getD q 0
  · by_cases hl : ∃ l : Fin 3, ids'.getD p 0 = (l.val : Int)
    · obtain ⟨l, hl⟩ := hl
      obtain ⟨s, hs, es⟩ := (hp' l).all p hlp hl
      obtain ⟨t, ht, et⟩ := (hp' l).all q hlq (he.symm.trans hl)
      have h1 := hτ l ⟨s, hs⟩ (by show f' l s < N; rw [es]; exact p.2)
      have h2 := hτ l ⟨t, ht⟩ (by show f' l t < N; rw [et]; exact q.2)
      have e1 : (⟨f' l s, by rw [es]; exact p.2⟩ : Fin N) = p := Fin.ext es
      have e2 : (⟨f' l t, by rw [et]; exact q.2⟩ : Fin N) = q := Fin.ext et
      change _ = ((π ⟨f' l s, _⟩ : Fin N) : Nat) at h1
      change _ = ((π ⟨f' l t, _⟩ : Fin N) : Nat) at h2
      rw [e1] at h1
      rw [e2] at h2
      rw [← es, ← et, hA'.block l s t hs ht, ← h1, ← h2, hA.block l _ _ (Fin.isLt _) (Fin.isLt _)]
      exact (hE l).entries ⟨s, hs⟩ ⟨t, ht⟩
    · push Not at hl
      rw [hA'.other p q hlp hlq hl, hA.other _ _ hpp hqq (fun l => by rw [← hids]; exact hl l)]
  · rw [hA'.cross p q hlp hlq he, hA.cross _ _ hpp hqq (by rw [← hids, ← hids]; exact he)]

/-- the columns of a label, in both numberings -/
theorem columns_rewritten {T : Nat} {v v' : Arr2 ℂ} (hv : Rewritten v v' 1 (fun _ => 1) (1 : Equiv.Perm (Fin T)) π)
    (hN' : ids'.length = N)
    (hp' : ∀ l : Fin 3, LabelPos ids' (l.val : Int) (m l) (f' l))
    (hτ : ∀ l (k : Fin (m l)) (h : f' l k < N), f l (τ l k) = ((π ⟨f' l k, h⟩ : Fin N) : Nat)) (l : Fin 3) :
    Rewritten (columnsAt v (m l) (f l)) (columnsAt v' (m l) (f' l)) 1 (fun _ => 1) (1 : Equiv.Perm (Fin T)) (τ l) := by
  refine ⟨⟨hv.shape.1, rfl⟩, ⟨hv.shape'.1, rfl⟩, fun t k => ?_⟩
  have ht : t.val < v.r := by rw [hv.shape.1]; exact t.2
  have ht' : t.val < v'.r := by rw [hv.shape'.1]; exact t.2
  have hk : f' l k < N := hN' ▸ (hp' l).lt k k.2
  unfold columnsAt
  rw [Arr2.ofFn_get _ ht' k.2, Arr2.ofFn_get _ (by simpa using ht) (Fin.isLt _), hτ l k hk]
  exact hv.entries t ⟨f' l k, hk⟩

/-- the blocks of a label, in both numberings -/
theorem blocks_renumbered {y y' : Arr2 ℂ} (hy : Renumbered π y y') (hN' : ids'.length = N)
    (hp' : ∀ l : Fin 3, LabelPos ids' (l.val : Int) (m l) (f' l))
    (hτ : ∀ l (k : Fin (m l)) (h : f' l k < N), f l (τ l k) = ((π ⟨f' l k, h⟩ : Fin N) : Nat)) (l : Fin 3) :
    Renumbered (τ l) (blockAt y (m l) (f l)) (blockAt y' (m l) (f' l)) := by
  refine ⟨⟨rfl, rfl⟩, ⟨rfl, rfl⟩, fun a b => ?_⟩
  have ha : f' l a < N := hN' ▸ (hp' l).lt a a.2
  have hb : f' l b < N := hN' ▸ (hp' l).lt b b.2
  unfold blockAt
  rw [Arr2.ofFn_get _ a.2 b.2, Arr2.ofFn_get _ (Fin.isLt _) (Fin.isLt _), hτ l a ha, hτ l b hb]
  exact hy.entries ⟨f' l a, ha⟩ ⟨f' l b, hb⟩

/-- merged logs of renumbered logs -/
theorem merged_renumbered (hN : ids.length = N) (hN' : ids'.length = N) (hids : ∀ k : Fin N, ids'.getD k 0 = ids.getD (π k) 0)
    (hp' : ∀ l : Fin 3, LabelPos ids' (l.val : Int) (m l) (f' l))
    (hτ : ∀ l (k : Fin (m l)) (h : f' l k < N), f l (τ l k) = ((π ⟨f' l k, h⟩ : Fin N) : Nat)) {logs logs' : Fin 3 → List IterationStatus}
    {log log' : List IterationStatus} (hM : Merged ids m f logs log) (hM' : Merged ids' m f' logs' log')
    (h : ∀ l, List.Forall₂ (fun e e' : IterationStatus => e'.iteration = e.iteration ∧ e'.target = e.target ∧
      Renumbered (τ l) e.params e'.params) (logs l) (logs' l)) :
    List.Forall₂ (fun e e' : IterationStatus => e'.iteration = e.iteration ∧ e'.target = e.target ∧
      Renumbered π e.params e'.params) log log' := by
  have hlen : log.length = log'.length := by
    obtain ⟨h1, l1, e1⟩ := hM.shortest
    obtain ⟨h2, l2, e2⟩ := hM'.shortest
    refine le_antisymm ?_ ?_
    · rw [e2, ← (h l2).length_eq]; exact h1 l2
    · rw [e1, (h l1).length_eq]; exact h2 l1
  rw [List.forall₂_iff_get]
  refine ⟨hlen, fun k hk hk' => ?_⟩
  obtain ⟨es, g1, g2, g3, g4⟩ := hM.entry k (log.get ⟨k, hk⟩) (List.getElem?_eq_getElem hk)
  obtain ⟨es', j1, j2, j3, j4⟩ := hM'.entry k (log'.get ⟨k, hk'⟩) (List.getElem?_eq_getElem hk')
  have hrel : ∀ l, (es' l).iteration = (es l).iteration ∧ (es' l).target = (es l).target ∧ Renumbered (τ l) (es l).params (es' l).params := by
    intro l
    obtain ⟨b1, e1⟩ := List.getElem?_eq_some_iff.1 (g1 l)
    obtain ⟨b2, e2⟩ := List.getElem?_eq_some_iff.1 (j1 l)
    have := (List.forall₂_iff_get.1 (h l)).2 k b1 b2
    rw [List.get_eq_getElem, List.get_eq_getElem, e1, e2] at this
    exact this
  refine ⟨j2.trans g2.symm, ?_, assembled_renumbered hN hN' hids hp' hτ g4 j4 fun l => (hrel l).2.2⟩
  rw [g3, j3, (hrel 0).2.1, (hrel 1).2.1, (hrel 2).2.1]

end

/-- C157 for `bayesian_eiv` of run3ph.py: if the columns of the measurements, their labels and a symmetric initial estimate are numbered
in another way, both runs succeed, with the same targets in the same iterations, and the matrices of the second one, logged and stored,
are those of the first one numbered in that way -/
theorem C157_three {ext : NumExt} {cf : IdConf} (hex : Spec.Exact ext.solve) (htot : Spec.Total ext.solve)
    (hinv : Spec.InvContract ext.inv) (hl : 0 < cf.lambdaEiv) {T N : Nat} {π : Equiv.Perm (Fin N)} {v c v' c' y0 y0' : Arr2 ℂ}
    (hv : Rewritten v v' 1 (fun _ => 1) (1 : Equiv.Perm (Fin T)) π)
    (hc : Rewritten c c' 1 (fun _ => 1) (1 : Equiv.Perm (Fin T)) π) (hy : Renumbered π y0 y0') (hsym : IsSymm y0)
    {ids ids' : List Int} (hN : ids.length = N) (hN' : ids'.length = N) (hids : ∀ k : Fin N, ids'.getD k 0 = ids.getD (π k) 0)
    (h0 : 0 ∈ ids) {m : Fin 3 → Nat} {f f' : Fin 3 → Nat → Nat} (hp : ∀ l : Fin 3, LabelPos ids (l.val : Int) (m l) (f l))
    (hp' : ∀ l : Fin 3, LabelPos ids' (l.val : Int) (m l) (f' l)) {ratings ratings' : List ℝ} (hrt : ratings.length = N)
    (hrt' : ratings'.length = N)
    (lap weighted pmu : Bool) (h90 : ¬ (lap = true ∧ cf.contrastEachRow = true ∧ cf.regularizeDiag = true))
    (hseen : ∀ l, Spec.LinesSeen (m l) (blockAt y0 (m l) (f l)))
    (hdet : lap = true ∨ (cf.contrastEachRow = true ∧ cf.regularizeDiag = true ∧ cf.lambdaprime ≠ 0))
    (vsd isd : SdPolar) (hw : weighted = true → (∀ l, 2 ≤ m l) ∧ 0 < vsd.m ∧ 0 < vsd.p ∧
      (pmu = false → ∀ t j, t < T → j < N → v.get t j ≠ 0)) (K : Nat) (hK : 0 < K) (name : String) (st st' : Store) :
    ∃ r r', (bayesianEiv3 ext cf name v c ids vsd isd ratings y0 none lap weighted K pmu st).res = .ok r ∧
      (bayesianEiv3 ext cf name v' c' ids' vsd isd ratings' y0' none lap weighted K pmu st').res = .ok r' ∧
      Renumbered π r.1 r'.1 ∧
      List.Forall₂ (fun e e' : IterationStatus => e'.iteration = e.iteration ∧ e'.target = e.target ∧
        Renumbered π e.params e'.params) r.2 r'.2 := by
  have hd : Spec.PhaseData ids v c ratings y0 none :=
    ⟨hN.trans hv.shape.2.symm, hN.trans hc.shape.2.symm, hN.trans hrt.symm, hN ▸ hy.square, fun _ h => (nomatch h)⟩
  have hd' : Spec.PhaseData ids' v' c' ratings' y0' none :=
    ⟨hN'.trans hv.shape'.2.symm, hN'.trans hc.shape'.2.symm, hN'.trans hrt'.symm, hN' ▸ hy.square', fun _ h => (nomatch h)⟩
  choose τ hτ using fun l => label_perm hN hN' hids (hp l) (hp' l)
  have hne : ∀ (rt : List ℝ) (g : Nat → Nat) (l : Fin 3), 2 ≤ m l → entriesAt rt (m l) g ≠ [] := by
    intro rt g l h2 e
    have := congrArg List.length e
    simp only [entriesAt, List.length_map, List.length_range, List.length_nil] at this
    omega
  have hrun := fun l => C157_run hex htot hinv hl (columns_rewritten hv hN' hp' hτ l) (columns_rewritten hc hN' hp' hτ l)
    (blocks_renumbered hy hN' hp' hτ l) (by
      refine ⟨rfl, fun a b => ?_⟩
      unfold blockAt
      simp only [Arr2.ofFn_get', and_comm (a := a < m l), hsym.2 (f l a) (f l b)]) lap weighted pmu h90 (hseen l) hdet vsd isd
    (ratings := entriesAt ratings (m l) (f l)) (ratings' := entriesAt ratings' (m l) (f' l)) (by
      intro hwt
      obtain ⟨w1, w2, w3, w4⟩ := hw hwt
      refine ⟨by have := w1 l; omega, w2, w3, hne _ _ l (w1 l), hne _ _ l (w1 l), fun hpm t j ht hj => ?_⟩
      unfold columnsAt
      rw [Arr2.ofFn_get _ (by rw [hv.shape.1]; exact ht) hj]
      exact w4 hpm t _ ht (hN ▸ (hp l).lt j hj)) K hK name st st'
  choose Y log Y' log' g1 g2 g3 g4 using hrun
  have r1 : ∀ l s, labelRun ext cf name v c vsd isd ratings y0 none lap weighted K pmu (m l) (f l) s = .ok (Y l, log l) := fun l s => by
    rw [labelRun_const hK _ _ s st]
    unfold labelRun
    rw [Option.map_none, g1 l]
  have r2 : ∀ l s, labelRun ext cf name v' c' vsd isd ratings' y0' none lap weighted K pmu (m l) (f' l) s = .ok (Y' l, log' l) :=
    fun l s => by
      rw [labelRun_const hK _ _ s st']
      unfold labelRun
      rw [Option.map_none, g2 l]
  have h0' : 0 ∈ ids' := by
    obtain ⟨k, hk, e⟩ := List.mem_iff_getElem.1 h0
    have hkN : k < N := hN ▸ hk
    have h1 := hids (π.symm ⟨k, hkN⟩)
    rw [Equiv.apply_symm_apply] at h1
    have h2 : ids.getD k 0 = 0 := by rw [List.getD_eq_getElem _ _ hk, e]
    have h3 : ((π.symm ⟨k, hkN⟩ : Fin N) : Nat) < ids'.length := by rw [hN']; exact Fin.isLt _
    change ids'.getD _ 0 = ids.getD k 0 at h1
    rw [h2, List.getD_eq_getElem _ _ h3] at h1
    rw [← h1]
    exact List.getElem_mem h3
  have run : ∀ {v c : Arr2 ℂ} {ids : List Int} {ratings : List ℝ} {y0 : Arr2 ℂ} {f : Fin 3 → Nat → Nat}, 0 ∈ ids →
      Spec.PhaseData ids v c ratings y0 none → (∀ l : Fin 3, LabelPos ids (l.val : Int) (m l) (f l)) →
      ∀ {rs : Fin 3 → Arr2 ℂ × List IterationStatus} (st : Store),
      (∀ l s, labelRun ext cf name v c vsd isd ratings y0 none lap weighted K pmu (m l) (f l) s = .ok (rs l)) →
      ∃ r, (bayesianEiv3 ext cf name v c ids vsd isd ratings y0 none lap weighted K pmu st).res = .ok r ∧
        Assembled ids m f (fun l => (rs l).1) r.1 ∧ Merged ids m f (fun l => (rs l).2) r.2 := by
    intro v c ids ratings y0 f h0 hd hp rs st hrs
    have hq := fun l => labelRun_square hK (hrs l st)
    obtain ⟨-, -, a, -, -, -, -, -, hA⟩ := assemble hp (fun l => (hq l).1) rfl
    obtain ⟨lg, -, hM⟩ := mergedLog_ok hp (logs := fun l => (rs l).2) fun l e he => ((hq l).2.2 e he).1
    exact ⟨(a, lg), (C52_bayesian hK h0 hd hp st (a, lg)).1.2 ⟨rs, hrs, hA, hM⟩, hA, hM⟩
  obtain ⟨r, e1, e2, e3⟩ := run h0 hd hp st (rs := fun l => (Y l, log l)) r1
  obtain ⟨r', k1, k2, k3⟩ := run h0' hd' hp' st' (rs := fun l => (Y' l, log' l)) r2
  exact ⟨r, r', e1, k1, assembled_renumbered hN hN' hids hp' hτ e2 k2 g3, merged_renumbered hN hN' hids hp' hτ e3 k3 g4⟩

/-- C157 for `standard_methods` of run3ph.py: on data each sequence of which has full rank and a gap after its singular values, the three
estimates of the data in another numbering are the estimates, numbered in that way -/
theorem C157_standard3 {ext : NumExt} {cf : IdConf} (hl : 0 ≤ cf.lambdaLasso) (hs : Spec.Shapes ext) (hinv : Spec.InvContract ext.inv)
    (hsound : Spec.InvSound ext.inv) (hex : Spec.Exact ext.solve) (htot : Spec.Total ext.solve) (hpinv : Spec.PinvContract ext.pinv)
    (hsvd : Spec.SvdContract ext.svdVh) {T N : Nat} {π : Equiv.Perm (Fin N)} {v c v' c' : Arr2 ℂ}
    (hv : Rewritten v v' 1 (fun _ => 1) (1 : Equiv.Perm (Fin T)) π)
    (hc : Rewritten c c' 1 (fun _ => 1) (1 : Equiv.Perm (Fin T)) π)
    {ids ids' : List Int} (hN : ids.length = N) (hN' : ids'.length = N) (hids : ∀ k : Fin N, ids'.getD k 0 = ids.getD (π k) 0)
    {m : Fin 3 → Nat} {f f' : Fin 3 → Nat → Nat} (hp : ∀ l : Fin 3, LabelPos ids (l.val : Int) (m l) (f l))
    (hp' : ∀ l : Fin 3, LabelPos ids' (l.val : Int) (m l) (f' l)) (lap : Bool)
    (hrank : ∀ l, Spec.FullColumnRank (centreData lap (columnsAt v (m l) (f l)) (columnsAt c (m l) (f l))).1) {xz : Fin 3 → Arr2 ℂ}
    (hxz : ∀ l, hstack (centreData lap (columnsAt v (m l) (f l)) (columnsAt c (m l) (f l))).1
      (centreData lap (columnsAt v (m l) (f l)) (columnsAt c (m l) (f l))).2 = .ok (xz l)) (hgap : ∀ l, Spec.SingularGap (xz l) (m l))
    (K : Nat) (name : String) (st st' : Store) {r : Arr2 ℂ × Arr2 ℂ × Arr2 ℂ}
    (h : (standardMethods3 ext cf name (some v) (some c) (some ids) lap K st).res = .ok r) :
    ∃ r', (standardMethods3 ext cf name (some v') (some c') (some ids') lap K st').res = .ok r' ∧
      Renumbered π r.1 r'.1 ∧ Renumbered π r.2.1 r'.2.1 ∧ Renumbered π r.2.2 r'.2.2 := by
  choose τ hτ using fun l => label_perm hN hN' hids (hp l) (hp' l)
  obtain ⟨rs, hrs, a1, a2, a3⟩ := (C52_standard hs (hN.trans hv.shape.2.symm) (hN.trans hc.shape.2.symm) hp st r).1 h
  have hrs : ∀ l, standardCompute ext cf (columnsAt v (m l) (f l)) (columnsAt c (m l) (f l)) lap K = .ok ((rs l).1, (rs l).2.1, (rs l).2.2) :=
    fun l => by rw [← standardMethods_fst ext cf name _ _ lap K st, hrs l st]
  have hrun := fun l => C157_standard hl hinv hsound hex htot hpinv hsvd (columns_rewritten hv hN' hp' hτ l)
    (columns_rewritten hc hN' hp' hτ l) lap (hrank l) (hxz l) (hgap l) K (hrs l)
  choose B S L g1 g2 g3 g4 using hrun
  obtain ⟨-, -, b1, -, -, -, -, -, hA1⟩ := assemble hp' (fun l => (g2 l).square') rfl
  obtain ⟨-, -, b2, -, -, -, -, -, hA2⟩ := assemble hp' (fun l => (g3 l).square') rfl
  obtain ⟨-, -, b3, -, -, -, -, -, hA3⟩ := assemble hp' (fun l => (g4 l).square') rfl
  refine ⟨(b1, b2, b3), (C52_standard hs (hN'.trans hv.shape'.2.symm) (hN'.trans hc.shape'.2.symm) hp' st' (b1, b2, b3)).2
    ⟨fun l => (B l, S l, L l), fun l s => by rw [standardMethods_fst, g1 l], hA1, hA2, hA3⟩,
    assembled_renumbered hN hN' hids hp' hτ a1 hA1 g2, assembled_renumbered hN hN' hids hp' hτ a2 hA2 g3,
    assembled_renumbered hN hN' hids hp' hτ a3 hA3 g4⟩

/-- C157 for `standard_methods` of run3ph.py on sequences with noise below half the excitation: both runs return, and return the same
estimates up to the numbering -/
theorem C157_noisy3 {ext : NumExt} {cf : IdConf} (hl : 0 ≤ cf.lambdaLasso) (hs : Spec.Shapes ext) (hinv : Spec.InvContract ext.inv)
    (hsound : Spec.InvSound ext.inv) (hex : Spec.Exact ext.solve) (htot : Spec.Total ext.solve) (hpinv : Spec.PinvContract ext.pinv)
    (hsvd : Spec.SvdContract ext.svdVh) {T N : Nat} {π : Equiv.Perm (Fin N)} {v c v' c' : Arr2 ℂ}
    (hv : Rewritten v v' 1 (fun _ => 1) (1 : Equiv.Perm (Fin T)) π)
    (hc : Rewritten c c' 1 (fun _ => 1) (1 : Equiv.Perm (Fin T)) π)
    {ids ids' : List Int} (hN : ids.length = N) (hN' : ids'.length = N) (hids : ∀ k : Fin N, ids'.getD k 0 = ids.getD (π k) 0)
    {m : Fin 3 → Nat} {f f' : Fin 3 → Nat → Nat} (hp : ∀ l : Fin 3, LabelPos ids (l.val : Int) (m l) (f l))
    (hp' : ∀ l : Fin 3, LabelPos ids' (l.val : Int) (m l) (f' l)) (lap : Bool) {x0 z0 Y : Fin 3 → Arr2 ℂ} (hY : ∀ l, (Y l).r = (Y l).c)
    {ε σ : Fin 3 → ℝ} (hn : ∀ l, Spec.Noisy (centreData lap (columnsAt v (m l) (f l)) (columnsAt c (m l) (f l))).1
      (centreData lap (columnsAt v (m l) (f l)) (columnsAt c (m l) (f l))).2 (x0 l) (z0 l) (Y l) (ε l))
    (hσ : ∀ l, Spec.AtLeast (x0 l) (σ l)) (hε : ∀ l, 0 ≤ ε l) (hεσ : ∀ l, 2 * ε l < σ l) (K : Nat) (name : String) (st st' : Store) :
    ∃ r r', (standardMethods3 ext cf name (some v) (some c) (some ids) lap K st).res = .ok r ∧
      (standardMethods3 ext cf name (some v') (some c') (some ids') lap K st').res = .ok r' ∧
      Renumbered π r.1 r'.1 ∧ Renumbered π r.2.1 r'.2.1 ∧ Renumbered π r.2.2 r'.2.2 := by
  choose τ hτ using fun l => label_perm hN hN' hids (hp l) (hp' l)
  have hrun := fun l => C157_noisy hl hinv hsound hex htot hpinv hsvd (columns_rewritten hv hN' hp' hτ l)
    (columns_rewritten hc hN' hp' hτ l) lap (hY l) (hn l) (hσ l) (hε l) (hεσ l) K
  choose B S L B' S' L' g g' g2 g3 g4 using hrun
  obtain ⟨-, -, a1, -, -, -, -, -, hB1⟩ := assemble hp (fun l => (g2 l).square) rfl
  obtain ⟨-, -, a2, -, -, -, -, -, hB2⟩ := assemble hp (fun l => (g3 l).square) rfl
  obtain ⟨-, -, a3, -, -, -, -, -, hB3⟩ := assemble hp (fun l => (g4 l).square) rfl
  obtain ⟨-, -, b1, -, -, -, -, -, hA1⟩ := assemble hp' (fun l => (g2 l).square') rfl
  obtain ⟨-, -, b2, -, -, -, -, -, hA2⟩ := assemble hp' (fun l => (g3 l).square') rfl
  obtain ⟨-, -, b3, -, -, -, -, -, hA3⟩ := assemble hp' (fun l => (g4 l).square') rfl
  exact ⟨(a1, a2, a3), (b1, b2, b3),
    (C52_standard hs (hN.trans hv.shape.2.symm) (hN.trans hc.shape.2.symm) hp st (a1, a2, a3)).2
      ⟨fun l => (B l, S l, L l), fun l s => by rw [standardMethods_fst, g l], hB1, hB2, hB3⟩,
    (C52_standard hs (hN'.trans hv.shape'.2.symm) (hN'.trans hc.shape'.2.symm) hp' st' (b1, b2, b3)).2
      ⟨fun l => (B' l, S' l, L' l), fun l s => by rw [standardMethods_fst, g' l], hA1, hA2, hA3⟩,
    assembled_renumbered hN hN' hids hp' hτ hB1 hA1 g2, assembled_renumbered hN hN' hids hp' hτ hB2 hA2 g3,
    assembled_renumbered hN hN' hids hp' hτ hB3 hA3 g4⟩

/-! ### two nodes on each sequence, the first two columns exchanged -/

/-- the exchange of the first two columns -/
def swap01 (k : Nat) : Nat := if k = 0 then 1 else if k = 1 then 0 else k

theorem swap01_val : ∀ k : Fin 6, ((Equiv.swap (0 : Fin 6) 1 k : Fin 6) : Nat) = swap01 k := by decide

/-- the positions of the labels after the exchange -/
def demoF157 (l : Fin 3) (k : Nat) : Nat := if k = 0 then swap01 l.val else 3 * k + l.val

theorem demo157_labels (l : Fin 3) : LabelPos [1, 0, 2, 0, 1, 2] (l.val : Int) 2 (demoF157 l) := by
  have key : ∀ l : Fin 3, (∀ a < 2, demoF157 l a < 6 ∧ ([1, 0, 2, 0, 1, 2] : List Int).getD (demoF157 l a) 0 = (l.val : Int)) ∧
      demoF157 l 0 < demoF157 l 1 ∧
      (∀ p < 6, ([1, 0, 2, 0, 1, 2] : List Int).getD p 0 = (l.val : Int) → p = demoF157 l 0 ∨ p = demoF157 l 1) := by decide
  obtain ⟨k1, k2, k3⟩ := key l
  refine ⟨fun a b hab hb => ?_, fun a ha => (k1 a ha).1, fun a ha => (k1 a ha).2, fun p hp he => ?_⟩
  · obtain rfl : a = 0 := by omega
    obtain rfl : b = 1 := by omega
    exact k2
  · rcases k3 p hp he with h | h
    · exact ⟨0, by norm_num, h.symm⟩
    · exact ⟨1, by norm_num, h.symm⟩

theorem demoY150_symm : IsSymm demoY150 := by
  refine ⟨rfl, fun a b => ?_⟩
  unfold demoY150
  simp only [Arr2.ofFn_get', and_comm (a := a < 6), eq_comm (a := a % 3), demoY126_symm.2 (a / 3) (b / 3)]

/-- `C157_three` applies when the first columns of two sequences are exchanged -/
example (st st' : Store) : ∃ r r', (bayesianEiv3 ⟨exactPinv, exactSvd, exactInv, exactSolve⟩
      ⟨1, 1, 1, 0, 0, true, true, true⟩ "a" demoV150 demoV150 [0, 1, 2, 0, 1, 2] ⟨1, 1⟩ ⟨1, 1⟩ [1, 1, 1, 1, 1, 1] demoY150 none false true 5
      false st).res = .ok r ∧ (bayesianEiv3 ⟨exactPinv, exactSvd, exactInv, exactSolve⟩
      ⟨1, 1, 1, 0, 0, true, true, true⟩ "a" (Arr2.ofFn 2 6 fun t j => demoV150.get t (swap01 j))
      (Arr2.ofFn 2 6 fun t j => demoV150.get t (swap01 j)) [1, 0, 2, 0, 1, 2] ⟨1, 1⟩ ⟨1, 1⟩ [1, 1, 1, 1, 1, 1]
      (Arr2.ofFn 6 6 fun a b => demoY150.get (swap01 a) (swap01 b)) none false true 5 false st').res = .ok r' ∧
    Renumbered (Equiv.swap (0 : Fin 6) 1) r.1 r'.1 := by
  have hv : Rewritten demoV150 (Arr2.ofFn 2 6 fun t j => demoV150.get t (swap01 j)) 1 (fun _ => 1) (1 : Equiv.Perm (Fin 2))
      (Equiv.swap (0 : Fin 6) 1) :=
    ⟨⟨rfl, rfl⟩, ⟨rfl, rfl⟩, fun t k => by rw [Arr2.ofFn_get _ t.2 k.2, swap01_val]; simp⟩
  obtain ⟨r, r', h1, h2, h3, -⟩ := C157_three (ext := ⟨exactPinv, exactSvd, exactInv, exactSolve⟩)
    (cf := ⟨1, 1, 1, 0, 0, true, true, true⟩) exactSolve_exact exactSolve_total exactInv_contract one_pos hv hv
    (y0 := demoY150) (y0' := Arr2.ofFn 6 6 fun a b => demoY150.get (swap01 a) (swap01 b))
    ⟨⟨rfl, rfl⟩, ⟨rfl, rfl⟩, fun a b => by rw [Arr2.ofFn_get _ a.2 b.2, swap01_val, swap01_val]⟩ demoY150_symm
    (ids := [0, 1, 2, 0, 1, 2]) (ids' := [1, 0, 2, 0, 1, 2]) rfl rfl (by decide) (by simp) demo150_labels demo157_labels
    (ratings := [1, 1, 1, 1, 1, 1]) (ratings' := [1, 1, 1, 1, 1, 1]) rfl rfl false true false (by simp) demo150_seen
    (.inr ⟨rfl, rfl, one_ne_zero⟩) ⟨1, 1⟩ ⟨1, 1⟩ (fun _ => ⟨fun _ => le_rfl, one_pos, one_pos, fun _ t j ht hj => by
      unfold demoV150 demoV126
      rw [Arr2.ofFn_get _ ht hj, Arr2.ofFn_get _ ht (by omega)]
      split <;> norm_num⟩) 5 (by norm_num) "a" st st'
  exact ⟨r, r', h1, h2, h3⟩

/-- the data of one sequence on each of them -/
def spread157 (x : Arr2 ℂ) : Arr2 ℂ := Arr2.ofFn 4 6 (fun t j => x.get t (j / 3))

theorem spread157_columns {x : Arr2 ℂ} (hr : x.r = 4) (hc : x.c = 2) (l : Fin 3) :
    columnsAt (spread157 x) 2 (fun k => 3 * k + l.val) = x := by
  refine Arr2.ext' hr.symm hc.symm fun a b ha hb => ?_
  have ha : a < 4 := ha
  have hb : b < 2 := hb
  have hl := l.isLt
  unfold columnsAt spread157
  rw [Arr2.ofFn_get _ (by exact ha) hb]
  dsimp only
  rw [Arr2.ofFn_get _ ha (by omega), show (3 * b + l.val) / 3 = b by omega]

/-- `C157_noisy3` applies to four samples of two nodes on each sequence -/
example (cf : IdConf) (hl : 0 ≤ cf.lambdaLasso) (K : Nat) (st st' : Store) : ∃ r r',
    (standardMethods3 demoExt115 cf "a" (some (spread157 demoX126)) (some (spread157 demoZ126)) (some [0, 1, 2, 0, 1, 2]) false K st).res =
      .ok r ∧
    (standardMethods3 demoExt115 cf "a" (some (Arr2.ofFn 4 6 fun t j => (spread157 demoX126).get t (swap01 j)))
      (some (Arr2.ofFn 4 6 fun t j => (spread157 demoZ126).get t (swap01 j))) (some [1, 0, 2, 0, 1, 2]) false K st').res = .ok r' ∧
    Renumbered (Equiv.swap (0 : Fin 6) 1) r.1 r'.1 ∧ Renumbered (Equiv.swap (0 : Fin 6) 1) r.2.1 r'.2.1 ∧
    Renumbered (Equiv.swap (0 : Fin 6) 1) r.2.2 r'.2.2 := by
  obtain ⟨σ, hσ, hat⟩ := atLeast_of_rank demo126_rank
  have hv : ∀ x, Rewritten (spread157 x) (Arr2.ofFn 4 6 fun t j => (spread157 x).get t (swap01 j)) 1 (fun _ => 1)
      (1 : Equiv.Perm (Fin 4)) (Equiv.swap (0 : Fin 6) 1) := fun x =>
    ⟨⟨rfl, rfl⟩, ⟨rfl, rfl⟩, fun t k => by rw [Arr2.ofFn_get _ t.2 k.2, swap01_val]; simp⟩
  exact C157_noisy3 (ext := demoExt115) hl demoExt_shapes exactInv_contract exactInv_sound exactSolve_exact exactSolve_total
    exactPinv_contract exactSvd_contract (hv demoX126) (hv demoZ126) (ids := [0, 1, 2, 0, 1, 2]) (ids' := [1, 0, 2, 0, 1, 2]) rfl rfl
    (by decide) demo150_labels demo157_labels false (x0 := fun _ => demoX126) (z0 := fun _ => demoZ126) (Y := fun _ => demoY126)
    (fun _ => rfl) (ε := fun _ => 0) (σ := fun _ => σ) (fun l => by
      rw [spread157_columns rfl rfl l, spread157_columns rfl rfl l, demo126_centred]
      exact demo126_noisy) (fun _ => hat) (fun _ => le_rfl) (fun _ => by simpa using hσ) K "a" st st'

end
end Verif
