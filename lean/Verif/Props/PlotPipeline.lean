/-
C111: the report after an identification.
-/
import Verif.Props.PlotLog
import Verif.Props.Programs2

namespace Verif
open Prog hiding pure bind read save call ofExcept
open Spec (Redone PlainName LabelPos columnsAt blockAt entriesAt IsSquare Digit Selected Columns)
noncomputable section

theorem standardLoad_inv {st : Store} {name : String} {s : Arr2 ℂ × Arr2 ℂ × Arr2 ℂ} (h : standardLoad st name = .ok s) :
    ∃ d, st (resultFile .standard name) = some d ∧ d "o" = some (.mat s.1) ∧ d "t" = some (.mat s.2.1) ∧ d "l" = some (.mat s.2.2) := by
  unfold standardLoad Store.load at h
  cases hd : st (resultFile .standard name) with
  | none => rw [hd] at h; exact nomatch h
  | some d =>
    rw [hd] at h
    obtain ⟨d', hd', h⟩ := Prior.bind_ok h
    cases hd'
    obtain ⟨o, ho, h⟩ := Prior.bind_ok h
    obtain ⟨t, ht, h⟩ := Prior.bind_ok h
    obtain ⟨l, hl, h⟩ := Prior.bind_ok h
    cases h
    unfold Npz.mat at ho ht hl
    refine ⟨d, rfl, ?_, ?_, ?_⟩
    · split at ho <;> simp_all
    · split at ht <;> simp_all
    · split at hl <;> simp_all

theorem bayesianLoad_inv {st : Store} {name : String} {b : Arr2 ℂ × List IterationStatus} (h : bayesianLoad st name = .ok b) :
    ∃ d, st (resultFile .bayesian name) = some d ∧ d "y" = some (.mat b.1) ∧ d "i" = some (.log b.2) := by
  unfold bayesianLoad Store.load at h
  cases hd : st (resultFile .bayesian name) with
  | none => rw [hd] at h; exact nomatch h
  | some d =>
    rw [hd] at h
    obtain ⟨d', hd', h⟩ := Prior.bind_ok h
    cases hd'
    obtain ⟨y, hy, h⟩ := Prior.bind_ok h
    obtain ⟨i, hi, h⟩ := Prior.bind_ok h
    cases h
    unfold Npz.mat at hy
    unfold Npz.log at hi
    refine ⟨d, rfl, ?_, ?_⟩
    · split at hy <;> simp_all
    · split at hi <;> simp_all

theorem networkLoad_inv {st : Store} {name : String} {d : NetworkData} (h : networkLoad st name = .ok d) :
    ∃ z, st (resultFile .network name) = some z ∧ z "w" = some (.mat d.voltage) ∧ z "h" = some (.ints d.ids) := by
  unfold networkLoad Store.load at h
  cases hd : st (resultFile .network name) with
  | none => rw [hd] at h; exact nomatch h
  | some z =>
    rw [hd] at h
    obtain ⟨z', hz, h⟩ := Prior.bind_ok h
    cases hz
    obtain ⟨i, -, h⟩ := Prior.bind_ok h
    obtain ⟨v, -, h⟩ := Prior.bind_ok h
    obtain ⟨j, -, h⟩ := Prior.bind_ok h
    obtain ⟨w, hw, h⟩ := Prior.bind_ok h
    obtain ⟨y, -, h⟩ := Prior.bind_ok h
    obtain ⟨p, -, h⟩ := Prior.bind_ok h
    obtain ⟨f, -, h⟩ := Prior.bind_ok h
    obtain ⟨hh, hhh, h⟩ := Prior.bind_ok h
    cases h
    unfold Npz.mat at hw
    unfold Npz.ints at hhh
    refine ⟨z, rfl, ?_, ?_⟩
    · split at hw <;> simp_all
    · split at hhh <;> simp_all

/-- what the report finds after a run: the selected admittance matrix, the options, the voltages of all phases, the estimates of the run -/
def Spec.reported (a : IdArgs) (d d' : NetworkData) (r : (Arr2 ℂ × Arr2 ℂ × Arr2 ℂ) × (Arr2 ℂ × List IterationStatus)) : Spec.StoredResults :=
  ⟨d'.y, a.phases, a.laplacian, d.voltage, d.ids, some r.1, some r.2⟩

/-- C111: after a run of `identify` that completed, whatever it recomputed, the files hold its estimates, the selected reference and the
voltages of all phases. -/
theorem C111_stored {ext : NumExt} {cf : IdConf} {sc : SimConf} {a : IdArgs} {st : Store}
    {r : (Arr2 ℂ × Arr2 ℂ × Arr2 ℂ) × (Arr2 ℂ × List IterationStatus)} (hn : PlainName a.network)
    (h : (identify ext cf sc a st).res = .ok r) (hu : st (resultFile .uncertainty a.network) = none) :
    ∃ d d', networkLoad st a.network = .ok d ∧ selectPhase a d = .ok d' ∧
      Spec.Stored (identify ext cf sc a st).store a.network (Spec.reported a d d' r) := by
  have hfu : (identify ext cf sc a st).store (resultFile .uncertainty a.network) = none := by
    rw [(identify_frame (file := resultFile .uncertainty a.network) (fun s hs => file_ne hn (by rintro rfl; simp at hs)) st).1, hu]
  have hfn : (identify ext cf sc a st).store (resultFile .network a.network) = st (resultFile .network a.network) :=
    (identify_frame (fun s hs => file_ne hn (by rintro rfl; simp at hs)) st).1
  have key : ∃ d d', networkLoad st a.network = .ok d ∧ selectPhase a d = .ok d' ∧
      (identify ext cf sc a st).store (resultFile .reference a.network) = some (referenceNpz d'.y a.phases a.laplacian) ∧
      (∃ z, (identify ext cf sc a st).store (resultFile .standard a.network) = some z ∧ z "o" = some (.mat r.1.1) ∧
        z "t" = some (.mat r.1.2.1) ∧ z "l" = some (.mat r.1.2.2)) ∧
      ∃ z, (identify ext cf sc a st).store (resultFile .bayesian a.network) = some z ∧ z "y" = some (.mat r.2.1) ∧
        z "i" = some (.log r.2.2) := by
    cases h3 : a.threePhased with
    | false =>
      obtain ⟨d', y0, ⟨d, h1, h2⟩, -, hs1, hs2, hb1, hb2, href⟩ := C78_identify hn h3 h
      refine ⟨d, d', h1, h2, href, ?_, ?_⟩
      · by_cases hr : Redone a.standard [a.standard, a.bayesian]
        · exact ⟨_, (hs1 hr).2, rfl, rfl, rfl⟩
        · rw [(hs2 hr).2]
          exact standardLoad_inv (hs2 hr).1
      · by_cases hr : Redone a.bayesian [a.standard, a.bayesian] ∧ 0 < a.maxIter
        · exact ⟨_, (hb1 hr).2, rfl, rfl⟩
        · rw [(hb2 hr).2]
          exact bayesianLoad_inv (hb2 hr).1
    | true =>
      obtain ⟨d, y0, h1, -, hs1, hs2, -, -, hb, href⟩ := C78_identify3 hn h3 h
      have h2 : selectPhase a d = .ok d := by
        unfold selectPhase
        rw [if_neg (fun hx => by rw [h3] at hx; cases hx.1)]
        rfl
      refine ⟨d, d, h1, h2, href, ?_, ⟨_, hb, rfl, rfl⟩⟩
      by_cases hr : Redone a.standard [a.standard, a.bayesian]
      · exact ⟨_, (hs1 hr).2, rfl, rfl, rfl⟩
      · rw [(hs2 hr).2]
        exact standardLoad_inv (hs2 hr).1
  obtain ⟨d, d', h1, h2, href, hstd, hbay⟩ := key
  refine ⟨d, d', h1, h2, ⟨_, href, rfl, rfl, rfl⟩, ?_, fun hx => (nomatch hx), fun s hs => ?_, fun hx => (nomatch hx), fun b hb => ?_, hfu⟩
  · rw [hfn]
    exact networkLoad_inv h1
  · cases hs
    exact hstd
  · cases hb
    exact hbay

/-- C111: a complete report after `identify`, with or without `--sequence`, states the errors of the estimates that the run returned with
respect to the reference it was run for. -/
theorem C111_states {ext : NumExt} {cf : IdConf} {sc : SimConf} {a : IdArgs} {st : Store}
    {r : (Arr2 ℂ × Arr2 ℂ × Arr2 ℂ) × (Arr2 ℂ × List IterationStatus)} (hn : PlainName a.network)
    (h : (identify ext cf sc a st).res = .ok r) (hu : st (resultFile .uncertainty a.network) = none) (pe : PlotExt) (seq : Bool)
    (hp : (plotResults pe ⟨a.network, seq⟩ (identify ext cf sc a st).store).1 = .ok ()) :
    ∃ d d' m1 m2 m3 m4, networkLoad st a.network = .ok d ∧ selectPhase a d = .ok d' ∧ Spec.States d'.y r.1.1 m1 ∧
      Spec.States d'.y r.1.2.1 m2 ∧ Spec.States d'.y r.1.2.2 m3 ∧ Spec.States d'.y r.2.1 m4 ∧
      [.text "ols_error_metrics.txt" [m1], .text "tls_error_metrics.txt" [m2], .text "lasso_error_metrics.txt" [m3],
        .text "sparse_tls_error_metrics.txt" [m4]] ⊆ (plotResults pe ⟨a.network, seq⟩ (identify ext cf sc a st).store).2 := by
  obtain ⟨d, d', h1, h2, hst⟩ := C111_stored hn h hu
  obtain ⟨hs, hb⟩ := C104_stated pe hst hp
  obtain ⟨m1, m2, m3, e1, e2, e3, i1⟩ := hs r.1 rfl
  obtain ⟨m4, e4, i2⟩ := hb r.2 rfl
  refine ⟨d, d', m1, m2, m3, m4, h1, h2, e1, e2, e3, e4, ?_⟩
  intro x hx
  simp only [List.mem_cons, List.not_mem_nil, or_false] at hx
  rcases hx with rfl | rfl | rfl | rfl
  · exact i1 (by simp)
  · exact i1 (by simp)
  · exact i1 (by simp)
  · exact i2 (by simp)

/-- C111: after an identification of phase `l` of data with the label, the report completes exactly when as many columns have label 1 as
have label `l` and, for a Laplacian, two of the nodes are not connected. -/
theorem C111_completes {ext : NumExt} (hsh : Spec.Shapes ext) {cf : IdConf} {sc : SimConf} {a : IdArgs} {st : Store}
    {r : (Arr2 ℂ × Arr2 ℂ × Arr2 ℂ) × (Arr2 ℂ × List IterationStatus)} (hn : PlainName a.network)
    (h : (identify ext cf sc a st).res = .ok r) (hu : st (resultFile .uncertainty a.network) = none) {d : NetworkData}
    (hd : networkLoad st a.network = .ok d) {n : Nat} (hc : Columns n d) {l : Int} (hl : Digit a.phases l)
    (hor : (∃ x ∈ d.ids, x ≠ 1) ∨ l = 1) (hmem : l ∈ d.ids)
    (hs : Redone a.standard [a.standard, a.bayesian] ∨
      (IsSquare (d.ids.count l) r.1.1 ∧ IsSquare (d.ids.count l) r.1.2.1 ∧ IsSquare (d.ids.count l) r.1.2.2))
    (hb : (Redone a.bayesian [a.standard, a.bayesian] ∧ 0 < a.maxIter) ∨
      (IsSquare (d.ids.count l) r.2.1 ∧ ∀ e ∈ r.2.2, IsSquare (d.ids.count l) e.params)) (pe : PlotExt) (seq : Bool) :
    ∃ d', Selected l d d' ∧ ((plotResults pe ⟨a.network, seq⟩ (identify ext cf sc a st).store).1 = .ok () ↔
      d.ids.count 1 = d.ids.count l ∧ (a.laplacian = true → Spec.AbsentLine (d.ids.count l) d'.y)) := by
  obtain ⟨d0, d', h1, h2, hst⟩ := C111_stored hn h hu
  rw [hd] at h1
  cases h1
  obtain ⟨d'', e, hsel⟩ := (C79_partial hl hc).1 hor hmem
  rw [h2] at e
  cases e
  refine ⟨d', hsel, ?_⟩
  obtain ⟨m, f, hp, hnv, hni, hv, hi, hy, hrat, hfp⟩ := hsel
  have hm : m = d.ids.count l := (count_eq hp).symm
  subst hm
  have hpos : 0 < d.ids.count l := List.count_pos_iff.2 hmem
  obtain ⟨e0, y0, ⟨all, g1, g2⟩, -, hs1, -, hb1, -, -⟩ := C78_identify hn (digit_single hl) h
  rw [hd] at g1
  cases g1
  rw [h2] at g2
  cases g2
  have hcv : d'.noisyVoltage.c = d.ids.count l := by rw [hnv]; rfl
  have hci : d'.noisyCurrent.c = d.ids.count l := by rw [hni]; rfl
  have hsp : a.phases ≠ "012" ∧ a.phases ≠ "123" := by
    unfold Digit at hl
    simp only [List.mem_cons, List.not_mem_nil, or_false, Prod.mk.injEq] at hl
    rcases hl with ⟨h, -⟩ | ⟨h, -⟩ | ⟨h, -⟩ | ⟨h, -⟩ <;> rw [h] <;> decide
  have hshapes : Spec.ResultShapes (d.ids.count l) (Spec.reported a d d' r) := by
    refine ⟨?_, fun s hx => ?_, fun b hx => ?_, hc.ids.trans hc.voltage.symm, fun hx => absurd hsp hx⟩
    · show IsSquare _ d'.y
      rw [hy]
      exact ⟨rfl, rfl⟩
    · cases hx
      rcases hs with hs | hs
      · exact standardCompute_square hsh hcv hci (hs1 hs).1
      · exact hs
    · cases hx
      rcases hb with hb | hb
      · obtain ⟨⟨prior, -, hq⟩, -⟩ := hb1 hb
        have := eivCompute_square hb.2 hq
        rw [hcv] at this
        exact ⟨this.1, fun e he => (this.2.2 e he).1⟩
      · exact hb
  rw [C105_partial pe hst hpos hshapes (y := d'.y) (Or.inr (Or.inr ⟨fun h => hsp.1 h.1, fun h => hsp.2 h.1, rfl⟩))]
  constructor
  · rintro (hx | ⟨-, hx, hz⟩)
    · exact nomatch hx
    · exact ⟨hx.1 hsp, hz⟩
  · rintro ⟨hx, hz⟩
    exact Or.inr ⟨fun h => (nomatch h), ⟨fun _ => hx, fun h => absurd hsp h⟩, hz⟩

/-- a run of `identify` and the report after it -/
theorem demo_report (sc : SimConf) (pe : PlotExt) (seq : Bool) : ∃ r, (identify shapedExt demoIdConf sc demoIdArgs demoStore).res = .ok r ∧
    demoStore (resultFile .uncertainty "ieee_33") = none ∧
    (plotResults pe ⟨"ieee_33", seq⟩ (identify shapedExt demoIdConf sc demoIdArgs demoStore).store).1 = .ok () := by
  have hn := templates_plain "ieee_33" (by decide)
  obtain ⟨r, h⟩ := demo_identify sc
  have hu : demoStore (resultFile .uncertainty "ieee_33") = none := by
    unfold demoStore
    rw [savez_other (file_ne hn (by simp)), savez_other (file_ne hn (by simp))]
  have hld : networkLoad demoStore "ieee_33" = .ok demoNetwork := by
    have : demoStore (resultFile .network "ieee_33") = some (networkNpz demoNetwork) := by
      unfold demoStore
      rw [savez_other (file_ne hn (by simp)), savez_same]
    simp [networkLoad, Store.load, this, bind, Except.bind, networkNpz, npz, Npz.mat, Npz.vec, Npz.num, Npz.ints, List.lookup, pure,
      Except.pure]
  have hb : bayesianLoad demoStore "ieee_33" = .ok r.2 := by
    obtain ⟨-, -, -, -, -, -, -, hb2, -⟩ := C78_identify hn rfl h
    exact (hb2 (fun hx => absurd hx.2 (by show ¬0 < 0; decide))).1
  have hr2 : r.2 = (Arr2.eye 2, []) := by
    have : demoStore (resultFile .bayesian "ieee_33") = some (bayesianNpz (Arr2.eye 2, [])) := savez_same ..
    have e : bayesianLoad demoStore "ieee_33" = .ok (Arr2.eye 2, []) := by
      simp [bayesianLoad, Store.load, this, bind, Except.bind, bayesianNpz, npz, Npz.mat, Npz.log, List.lookup, pure, Except.pure]
    rw [e] at hb
    exact (Except.ok.inj hb).symm
  refine ⟨r, h, hu, ?_⟩
  obtain ⟨d', -, hiff⟩ := C111_completes shapedExt_shapes hn h hu hld (n := 2) ⟨rfl, rfl, rfl, rfl, ⟨rfl, rfl⟩, rfl, rfl⟩ (l := 1)
    (by show ("1", (1 : Int)) ∈ _; simp) (Or.inr rfl) (by show (1 : Int) ∈ [1, 1]; simp) (Or.inl (Or.inl rfl))
    (Or.inr (by rw [hr2]; exact ⟨⟨rfl, rfl⟩, fun e he => absurd he (by simp)⟩)) pe seq
  exact hiff.2 ⟨rfl, fun h => (nomatch h)⟩

end
end Verif
