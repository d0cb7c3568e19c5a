/-
C107 for three phases: the voltages whose correlations the report shows.
-/
import Verif.Props.PlotReport
import Verif.Props.Simulation
import Verif.Props.PlotSpectrum

namespace Verif
noncomputable section
open Finset Matrix

namespace Spec

/-- phase values of sequence values `v`: phase b lags by a third of a turn in the positive sequence -/
def PhaseValues (v p : Arr2 ℂ) : Prop :=
  p.r = v.r ∧ p.c = v.c ∧ ∀ t i, t < v.r → 3 * i + 2 < v.c →
    p.get t (3 * i) = v.get t (3 * i) + v.get t (3 * i + 1) + v.get t (3 * i + 2) ∧
    p.get t (3 * i + 1) = v.get t (3 * i) + alpha ^ 2 * v.get t (3 * i + 1) + alpha * v.get t (3 * i + 2) ∧
    p.get t (3 * i + 2) = v.get t (3 * i) + alpha * v.get t (3 * i + 1) + alpha ^ 2 * v.get t (3 * i + 2)

/-- symmetrical components of phase values `v` -/
def SequenceValues (v s : Arr2 ℂ) : Prop :=
  s.r = v.r ∧ s.c = v.c ∧ ∀ t i, t < v.r → 3 * i + 2 < v.c →
    s.get t (3 * i) = (v.get t (3 * i) + v.get t (3 * i + 1) + v.get t (3 * i + 2)) / 3 ∧
    s.get t (3 * i + 1) = (v.get t (3 * i) + alpha * v.get t (3 * i + 1) + alpha ^ 2 * v.get t (3 * i + 2)) / 3 ∧
    s.get t (3 * i + 2) = (v.get t (3 * i) + alpha ^ 2 * v.get t (3 * i + 1) + alpha * v.get t (3 * i + 2)) / 3

/-- the voltages in the coordinates of the report -/
def ShownVoltage (R : StoredResults) (sequence : Bool) (v : Arr2 ℂ) : Prop :=
  (R.phases = "012" → sequence = true → v = R.voltage) ∧ (R.phases = "012" → sequence = false → PhaseValues R.voltage v) ∧
  (R.phases = "123" → sequence = false → v = R.voltage) ∧ (R.phases = "123" → sequence = true → SequenceValues R.voltage v)

end Spec

theorem block_entry {m p : Arr2 ℂ} {k : ℕ} (hr : p.r = m.r) (hc : p.c = k * 3) {b : ℕ → ℕ → ℂ}
    (h : p.toMat m.r (k * 3) = m.toMat m.r (k * 3) * blockMat k b) {t i q : ℕ} (ht : t < m.r) (hi : i < k) (hq : q < 3) :
    p.get t (3 * i + q) = m.get t (3 * i) * b 0 q + m.get t (3 * i + 1) * b 1 q + m.get t (3 * i + 2) * b 2 q := by
  have hj : 3 * i + q < k * 3 := by omega
  have h1 := congrFun (congrFun h ⟨t, ht⟩) ⟨3 * i + q, hj⟩
  rw [mul_blockMat, Fin.sum_univ_three] at h1
  have e1 : (3 * i + q) / 3 * 3 = 3 * i := by omega
  have e2 : (3 * i + q) % 3 = q := by omega
  simp only [Arr2.toMat, e1, e2] at h1
  exact h1

theorem toPhase_values {v : Arr2 ℂ} {k : ℕ} (hk : v.c = k * 3) : ∃ p, measurementSequenceToPhase v = .ok p ∧ Spec.PhaseValues v p := by
  obtain ⟨⟨p, hp, pr, pc, pm⟩, -⟩ := measurement_mat k v hk
  refine ⟨p, hp, pr, pc.trans hk.symm, fun t i ht hi => ?_⟩
  have hi' : i < k := by omega
  have e := fun q (hq : q < 3) => block_entry pr pc pm ht hi' hq
  have e0 := e 0 (by omega)
  have e1 := e 1 (by omega)
  have e2 := e 2 (by omega)
  rw [← rot_neg, ← rot_pos]
  refine ⟨e0.trans ?_, e1.trans ?_, e2.trans ?_⟩ <;> simp [abcBlock, Arr2.ofFn_get'] <;> ring

theorem toSequence_values {v : Arr2 ℂ} {k : ℕ} (hk : v.c = k * 3) :
    ∃ p, measurementPhaseToSequence v = .ok p ∧ Spec.SequenceValues v p := by
  obtain ⟨-, p, hp, pr, pc, pm⟩ := measurement_mat k v hk
  refine ⟨p, hp, pr, pc.trans hk.symm, fun t i ht hi => ?_⟩
  have hi' : i < k := by omega
  have e := fun q (hq : q < 3) => block_entry pr pc pm ht hi' hq
  have e0 := e 0 (by omega)
  have e1 := e 1 (by omega)
  have e2 := e 2 (by omega)
  rw [← rot_neg, ← rot_pos]
  refine ⟨e0.trans ?_, e1.trans ?_, e2.trans ?_⟩ <;> simp [seqBlock, Arr2.ofFn_get'] <;> ring

/-- C107 for three phases: the report starts with the spectrum of the correlations of all stored voltages, in the coordinates that
were asked for -/
theorem C107_three (ext : PlotExt) {st : Store} {name : String} {R : Spec.StoredResults} (hst : Spec.Stored st name R) {n : Nat}
    (hsh : Spec.ResultShapes n R) {seq : Bool} (hp : R.phases = "012" ∨ R.phases = "123") :
    ∃ v, Spec.ShownVoltage R seq v ∧ (plotResults ext ⟨name, seq⟩ st).2.head? = some (.plot "correlations" (column (ext.spectrum v))) := by
  have hsp : ¬Spec.SinglePhase R := by
    rintro ⟨h1, h2⟩
    rcases hp with h | h
    · exact h1 h
    · exact h2 h
  obtain ⟨h3, hn3⟩ := hsh.three hsp
  obtain ⟨k, hk⟩ : ∃ k, R.voltage.c = k * 3 := ⟨R.voltage.c / 3, by omega⟩
  obtain ⟨kn, hkn⟩ : ∃ k, n = k * 3 := ⟨n / 3, by omega⟩
  have hr : referenceLoad st name = .ok (R.y, R.phases, R.laplacian) := by
    obtain ⟨d, hd, h1, h2, h3⟩ := hst.reference
    unfold referenceLoad Store.load Npz.mat Npz.str Npz.bool
    simp only [hd, h1, h2, h3, bind, Except.bind, pure, Except.pure]
  have hw : plotDataLoad st name = .ok (R.voltage, R.labels) := by
    obtain ⟨d, hd, h1, h2⟩ := hst.network
    unfold plotDataLoad Store.load Npz.mat Npz.ints
    simp only [hd, h1, h2, bind, Except.bind, pure, Except.pure]
  have hy := hsh.y
  rw [hkn] at hy
  obtain ⟨⟨y1, hy1, -⟩, y2, hy2, -⟩ := admittance_mat kn R.y hy
  have h1' : ("012" : String) ≠ "123" := by decide
  have key : ∃ v y, plotVoltage R.phases seq R.voltage R.labels = .ok v ∧ correctComponent R.phases seq R.y = .ok y ∧
      Spec.ShownVoltage R seq v := by
    unfold plotVoltage correctComponent Spec.ShownVoltage
    rcases hp with h | h
    · cases seq
      · obtain ⟨p, hp, hpv⟩ := toPhase_values hk
        exact ⟨p, y1, by simpa [h] using hp, by simpa [h] using hy1, by simp, fun _ _ => hpv, by simp [h], by simp⟩
      · exact ⟨R.voltage, R.y, by simp [h], by simp [h], by simp, by simp, by simp, by simp [h]⟩
    · cases seq
      · exact ⟨R.voltage, R.y, by simp [h], by simp [h], by simp, by simp [h], by simp, by simp⟩
      · obtain ⟨p, hp, hpv⟩ := toSequence_values hk
        exact ⟨p, y2, by simpa [h] using hp, by simpa [h] using hy2, by simp [h], by simp, by simp, fun _ _ => hpv⟩
  obtain ⟨v, y, hv, hc, hsv⟩ := key
  refine ⟨v, hsv, ?_⟩
  unfold plotResults
  dsimp only
  rw [hr, Rep.ofExcept_ok, hw, Rep.ofExcept_ok]
  dsimp only
  rw [hv, Rep.ofExcept_ok, hc, Rep.ofExcept_ok, Rep.write_bind]
  rfl

/-- C153 for three phases: if the shown voltages of every node deviate from their averages along one common line of the complex plane,
the plotted correlations are the logarithms of the singular values of the deviations. Missing: other voltages. -/
theorem C153_three_partial {ext : PlotExt} (he : Spec.EigvalsContract ext.eigvals) {st : Store} {name : String} {R : Spec.StoredResults}
    (hst : Spec.Stored st name R) {n : ℕ} (hsh : Spec.ResultShapes n R) {seq : Bool} (hp : R.phases = "012" ∨ R.phases = "123") :
    ∃ v, Spec.ShownVoltage R seq v ∧ (Spec.OnLine (Spec.deviation v) → ∀ σ : Fin v.c → ℝ, Spec.SingularValues (Spec.deviation v) σ →
      ∃ l, (plotResults ext ⟨name, seq⟩ st).2.head? = some (.plot "correlations" (column l)) ∧
        l.Perm (List.ofFn (fun i => Real.logb 10 (σ i)))) := by
  obtain ⟨v, h1, h2⟩ := C107_three ext hst hsh (seq := seq) hp
  exact ⟨v, h1, fun hl σ hσ => ⟨_, h2, spectrum_line he hl hσ⟩⟩

/-- C107_three: one node on three phases, results in sequence values, shown in phase values -/
example (ext : PlotExt) : ∃ (R : Spec.StoredResults) (v : Arr2 ℂ), R.phases = "012" ∧ R.voltage.get 0 1 = 1 ∧ v.get 0 1 = Spec.alpha ^ 2 ∧
    (plotResults ext ⟨"x", false⟩ (storeOf "x" R)).2.head? = some (.plot "correlations" (column (ext.spectrum v))) := by
  let R : Spec.StoredResults :=
    { y := Arr2.eye 3, phases := "012", laplacian := false, voltage := Arr2.ofFn 1 3 (fun _ j => if j = 1 then 1 else 0),
      labels := [0, 1, 2], standard := none, bayesian := none }
  obtain ⟨v, h1, h2⟩ := C107_three ext (storeOf_stored "x" R) (n := 3) (seq := false)
    ⟨⟨rfl, rfl⟩, fun s hs => (nomatch hs), fun s hs => (nomatch hs), rfl, fun _ => ⟨show 3 % 3 = 0 from rfl, rfl⟩⟩ (.inl rfl)
  refine ⟨R, v, rfl, Arr2.ofFn_get _ (by norm_num) (by norm_num), ?_, h2⟩
  have := ((h1.2.1 rfl rfl).2.2 0 0 (by show 0 < 1; norm_num) (by show 2 < 3; norm_num)).2.1
  rw [show (3 * 0 + 1) = 1 from rfl] at this
  rw [this]
  simp [R, Arr2.ofFn_get']

end
end Verif
