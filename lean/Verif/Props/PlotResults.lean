/-
C104: the errors stated by plot_results.py do not depend on `--sequence`.
-/
import Verif.Props.PlotNorm
import Verif.Spec.PlotResults

namespace Verif
open Finset
noncomputable section

/-! ### runs of the report -/

namespace Rep
variable {α β : Type}

theorem ofExcept_ok (a : α) (f : α → Rep β) : (Rep.ofExcept (.ok a) >>= f) = f a := rfl

theorem ofExcept_error (e : PyErr) (f : α → Rep β) : (Rep.ofExcept (.error e) >>= f) = (.error e, []) := rfl

theorem write_bind (o : Output) (f : Unit → Rep β) : (Rep.write o >>= f) = ((f ()).1, o :: (f ()).2) := rfl

theorem ofExcept_inv {e : Except PyErr α} {f : α → Rep β} {b : β} (h : (Rep.ofExcept e >>= f).1 = .ok b) :
    ∃ a, e = .ok a ∧ (Rep.ofExcept e >>= f) = f a := by
  cases e with
  | error e => exact nomatch h
  | ok a => exact ⟨a, rfl, rfl⟩

theorem bind_inv {p : Rep α} {f : α → Rep β} {b : β} (h : (p >>= f).1 = .ok b) :
    ∃ a, p.1 = .ok a ∧ (f a).1 = .ok b ∧ (p >>= f).2 = p.2 ++ (f a).2 := by
  obtain ⟨e, out⟩ := p
  cases e with
  | error e => exact nomatch h
  | ok a => exact ⟨a, rfl, h, rfl⟩

theorem bind_fst {p : Rep α} {a : α} (h : p.1 = .ok a) (f : α → Rep β) : (p >>= f).1 = (f a).1 := by
  obtain ⟨e, out⟩ := p
  change e = _ at h
  subst h
  rfl

theorem bind_unit {p : Rep Unit} {f : Unit → Rep Unit} (h : f () = (.ok (), [])) : (p >>= f).1 = p.1 := by
  obtain ⟨e, out⟩ := p
  cases e with
  | error e => rfl
  | ok u => show (f u).1 = _; rw [show f u = _ from h]

end Rep

theorem plotStandard_inv {cc : Arr2 ℂ → Except PyErr (Arr2 ℂ)} {st : Store} {name : String} {yb : Arr2 ℂ}
    {s : Option (Arr2 ℂ × Arr2 ℂ × Arr2 ℂ)} (h : (plotStandard cc st name yb).1 = .ok s) :
    (st (resultFile .standard name) = none ∧ s = none ∧ (plotStandard cc st name yb).2 = []) ∨
    ∃ d o t l mo mt ml, st (resultFile .standard name) = some d ∧ (d.mat "o" >>= cc) = .ok o ∧ (d.mat "t" >>= cc) = .ok t ∧
      (d.mat "l" >>= cc) = .ok l ∧ errorMetrics yb o = .ok mo ∧ errorMetrics yb t = .ok mt ∧ errorMetrics yb l = .ok ml ∧
      s = some (o, t, l) ∧ (plotStandard cc st name yb).2 =
        [.text "ols_error_metrics.txt" [mo], .plot "y_ols" (absArr o), .text "tls_error_metrics.txt" [mt], .plot "y_tls" (absArr t),
          .text "lasso_error_metrics.txt" [ml], .plot "y_lasso" (absArr l)] := by
  unfold plotStandard at h ⊢
  cases hd : st (resultFile .standard name) with
  | none =>
    rw [hd] at h
    refine Or.inl ⟨rfl, ?_, rfl⟩
    exact (Except.ok.inj h).symm
  | some d =>
    rw [hd] at h
    refine Or.inr ?_
    dsimp only at h ⊢
    obtain ⟨o, ho, e⟩ := Rep.ofExcept_inv h
    rw [e] at h ⊢
    clear e
    obtain ⟨t, ht, e⟩ := Rep.ofExcept_inv h
    rw [e] at h ⊢
    clear e
    obtain ⟨l, hl, e⟩ := Rep.ofExcept_inv h
    rw [e] at h ⊢
    clear e
    obtain ⟨mo, hmo, e⟩ := Rep.ofExcept_inv h
    rw [e] at h ⊢
    clear e
    rw [Rep.write_bind, Rep.write_bind] at h ⊢
    dsimp only at h ⊢
    obtain ⟨mt, hmt, e⟩ := Rep.ofExcept_inv h
    rw [e] at h ⊢
    clear e
    rw [Rep.write_bind, Rep.write_bind] at h ⊢
    dsimp only at h ⊢
    obtain ⟨ml, hml, e⟩ := Rep.ofExcept_inv h
    rw [e] at h ⊢
    clear e
    rw [Rep.write_bind, Rep.write_bind] at h ⊢
    exact ⟨d, o, t, l, mo, mt, ml, rfl, ho, ht, hl, hmo, hmt, hml, (Except.ok.inj h).symm, rfl⟩

theorem plotBayesian_inv {cc : Arr2 ℂ → Except PyErr (Arr2 ℂ)} {st : Store} {name : String} {n : Nat} {lap : Bool} {yb : Arr2 ℂ}
    {std : Option (Arr2 ℂ × Arr2 ℂ × Arr2 ℂ)} (h : (plotBayesian cc st name n lap yb std).1 = .ok ()) :
    (st (resultFile .bayesian name) = none ∧ (plotBayesian cc st name n lap yb std).2 = []) ∨
    ∃ d y its errors m df E off mask s co ct cl cy cb mo mt ml my, st (resultFile .bayesian name) = some d ∧
      (d.mat "y" >>= cc) = .ok y ∧ d.log "i" = .ok its ∧ its.mapM (fun i => cc i.params >>= rrmsError yb) = .ok errors ∧
      errorMetrics yb y = .ok m ∧ Arr2.zipWith (fun a b => a - b) y yb = .ok df ∧ comparisonMatrix lap n = .ok E ∧
      offDiagonal yb = .ok off ∧ E.mulVec (vectorizeMatrix off) = .ok mask ∧ std = some s ∧
      E.mulVec (vectorizeMatrix s.1) = .ok co ∧ E.mulVec (vectorizeMatrix s.2.1) = .ok ct ∧
      E.mulVec (vectorizeMatrix s.2.2) = .ok cl ∧ E.mulVec (vectorizeMatrix y) = .ok cy ∧ E.mulVec (vectorizeMatrix yb) = .ok cb ∧
      sparsityMetrics mask co cb = .ok mo ∧ sparsityMetrics mask ct cb = .ok mt ∧ sparsityMetrics mask cl cb = .ok ml ∧
      sparsityMetrics mask cy cb = .ok my ∧ (plotBayesian cc st name n lap yb std).2 =
        [.text "sparse_tls_error_metrics.txt" [m], .plot "y_sparse_tls_cov" (absArr y), .plot "y_sparse_tls_cov_errors" (absArr df),
          .plot "errors" (column errors), .plot "targets" (column ((its.map (fun i => i.target)).drop 1)),
          .plot "comparison" (Arr2.ofFn (masked mask true cb).length 5
            (fun i j => ‖(([co, ct, cl, cy, cb].map (masked mask true)).getD j []).getD i 0‖)),
          .text "sparsity_metrics.txt" [mo, mt, ml, my]] := by
  unfold plotBayesian at h ⊢
  cases hd : st (resultFile .bayesian name) with
  | none => exact Or.inl ⟨rfl, rfl⟩
  | some d =>
    rw [hd] at h
    refine Or.inr ?_
    dsimp only at h ⊢
    obtain ⟨y, hy, e⟩ := Rep.ofExcept_inv h
    rw [e] at h ⊢; clear e
    obtain ⟨its, hi, e⟩ := Rep.ofExcept_inv h
    rw [e] at h ⊢; clear e
    obtain ⟨er, her, e⟩ := Rep.ofExcept_inv h
    rw [e] at h ⊢; clear e
    obtain ⟨m, hm, e⟩ := Rep.ofExcept_inv h
    rw [e] at h ⊢; clear e
    rw [Rep.write_bind, Rep.write_bind] at h ⊢
    dsimp only at h ⊢
    obtain ⟨df, hdf, e⟩ := Rep.ofExcept_inv h
    rw [e] at h ⊢; clear e
    rw [Rep.write_bind, Rep.write_bind, Rep.write_bind] at h ⊢
    dsimp only at h ⊢
    obtain ⟨E, hE, e⟩ := Rep.ofExcept_inv h
    rw [e] at h ⊢; clear e
    obtain ⟨off, hoff, e⟩ := Rep.ofExcept_inv h
    rw [e] at h ⊢; clear e
    obtain ⟨mask, hmask, e⟩ := Rep.ofExcept_inv h
    rw [e] at h ⊢; clear e
    obtain ⟨s, hs, e⟩ := Rep.ofExcept_inv h
    rw [e] at h ⊢; clear e
    obtain ⟨co, hco, e⟩ := Rep.ofExcept_inv h
    rw [e] at h ⊢; clear e
    obtain ⟨ct, hct, e⟩ := Rep.ofExcept_inv h
    rw [e] at h ⊢; clear e
    obtain ⟨cl, hcl, e⟩ := Rep.ofExcept_inv h
    rw [e] at h ⊢; clear e
    obtain ⟨cy, hcy, e⟩ := Rep.ofExcept_inv h
    rw [e] at h ⊢; clear e
    obtain ⟨cb, hcb, e⟩ := Rep.ofExcept_inv h
    rw [e] at h ⊢; clear e
    rw [Rep.write_bind] at h ⊢
    dsimp only at h ⊢
    obtain ⟨mo, hmo, e⟩ := Rep.ofExcept_inv h
    rw [e] at h ⊢; clear e
    obtain ⟨mt, hmt, e⟩ := Rep.ofExcept_inv h
    rw [e] at h ⊢; clear e
    obtain ⟨ml, hml, e⟩ := Rep.ofExcept_inv h
    rw [e] at h ⊢; clear e
    obtain ⟨my, hmy, e⟩ := Rep.ofExcept_inv h
    rw [e]
    have hs' : std = some s := by
      unfold unboundLocal at hs
      cases std with
      | none => exact nomatch hs
      | some x => exact congrArg some (Except.ok.inj hs)
    exact ⟨d, y, its, er, m, df, E, off, mask, s, co, ct, cl, cy, cb, mo, mt, ml, my, rfl, hy, hi, her, hm, hdf, hE, hoff, hmask, hs',
      hco, hct, hcl, hcy, hcb, hmo, hmt, hml, hmy, rfl⟩

theorem plotUncertainty_values {ext : PlotExt} {st : Store} {name : String} {n : Nat} {yb : Arr2 ℂ}
    {std : Option (Arr2 ℂ × Arr2 ℂ × Arr2 ℂ)} (h : (plotUncertainty ext st name n yb std).1 = .ok ()) :
    (st (resultFile .uncertainty name) = none ∧ (plotUncertainty ext st name n yb std).2 = []) ∨
    ∃ d e b cw ce s df, st (resultFile .uncertainty name) = some d ∧ d.rmat "e" = .ok e ∧ d.rmat "b" = .ok b ∧
      deviations ext.eig e n = .ok cw ∧ deviations ext.eig b n = .ok ce ∧ std = some s ∧
      Arr2.zipWith (fun a b => a - b) s.2.1 yb = .ok df ∧ (∃ m, errorMetrics df cw = .ok m) ∧ (plotUncertainty ext st name n yb std).2 =
      [.plot "tls_errors" (absArr df), .plot "tls_cov" (absArr cw), .plot "tls_cov_est" (absArr ce)] := by
  unfold plotUncertainty at h ⊢
  cases hd : st (resultFile .uncertainty name) with
  | none => exact Or.inl ⟨rfl, rfl⟩
  | some d =>
    rw [hd] at h
    refine Or.inr ?_
    dsimp only at h ⊢
    obtain ⟨x1, h1, e⟩ := Rep.ofExcept_inv h
    rw [e] at h ⊢; clear e
    obtain ⟨x2, h2, e⟩ := Rep.ofExcept_inv h
    rw [e] at h ⊢; clear e
    obtain ⟨x3, h3, e⟩ := Rep.ofExcept_inv h
    rw [e] at h ⊢; clear e
    obtain ⟨x4, h4, e⟩ := Rep.ofExcept_inv h
    rw [e] at h ⊢; clear e
    obtain ⟨x5, h5, e⟩ := Rep.ofExcept_inv h
    rw [e] at h ⊢; clear e
    obtain ⟨s, hs, e⟩ := Rep.ofExcept_inv h
    rw [e] at h ⊢; clear e
    obtain ⟨x7, h7, e⟩ := Rep.ofExcept_inv h
    rw [e] at h ⊢; clear e
    rw [Rep.write_bind] at h ⊢
    dsimp only at h ⊢
    obtain ⟨x8, h8, e⟩ := Rep.ofExcept_inv h
    rw [e] at h ⊢; clear e
    rw [Rep.write_bind] at h ⊢
    dsimp only at h ⊢
    obtain ⟨x9, h9, e⟩ := Rep.ofExcept_inv h
    rw [e] at h ⊢; clear e
    have hs' : std = some s := by
      unfold unboundLocal at hs
      cases std with
      | none => exact nomatch hs
      | some x => exact congrArg some (Except.ok.inj hs)
    exact ⟨d, x1, x3, x2, x4, s, x7, rfl, h1, h3, h2, h4, hs', h7, ⟨x8, h8⟩, rfl⟩

theorem plotUncertainty_inv {ext : PlotExt} {st : Store} {name : String} {n : Nat} {yb : Arr2 ℂ}
    {std : Option (Arr2 ℂ × Arr2 ℂ × Arr2 ℂ)} (h : (plotUncertainty ext st name n yb std).1 = .ok ()) :
    (st (resultFile .uncertainty name) = none ∧ (plotUncertainty ext st name n yb std).2 = []) ∨
    ∃ d a b c, st (resultFile .uncertainty name) = some d ∧ (plotUncertainty ext st name n yb std).2 =
      [.plot "tls_errors" a, .plot "tls_cov" b, .plot "tls_cov_est" c] := by
  rcases plotUncertainty_values h with h | ⟨d, e, b, cw, ce, s, df, hd, -, -, -, -, -, -, -, h⟩
  · exact Or.inl h
  · exact Or.inr ⟨d, _, _, _, hd, h⟩

theorem plotResults_inv {ext : PlotExt} {a : PlotArgs} {st : Store} (h : (plotResults ext a st).1 = .ok ()) :
    ∃ r w v yb s, referenceLoad st a.network = .ok r ∧ plotDataLoad st a.network = .ok w ∧
      plotVoltage r.2.1 a.sequence w.1 w.2 = .ok v ∧ correctComponent r.2.1 a.sequence r.1 = .ok yb ∧
      (plotStandard (correctComponent r.2.1 a.sequence) st a.network yb).1 = .ok s ∧
      (plotBayesian (correctComponent r.2.1 a.sequence) st a.network v.c r.2.2 yb s).1 = .ok () ∧
      (plotUncertainty ext st a.network v.c yb s).1 = .ok () ∧
      (plotResults ext a st).2 = .plot "correlations" (column (ext.spectrum v)) :: .plot "y_bus" (absArr yb) ::
        ((plotStandard (correctComponent r.2.1 a.sequence) st a.network yb).2 ++
        ((plotBayesian (correctComponent r.2.1 a.sequence) st a.network v.c r.2.2 yb s).2 ++
        (plotUncertainty ext st a.network v.c yb s).2)) := by
  unfold plotResults at h ⊢
  obtain ⟨r, hr, e⟩ := Rep.ofExcept_inv h
  rw [e] at h ⊢; clear e
  obtain ⟨w, hw, e⟩ := Rep.ofExcept_inv h
  rw [e] at h ⊢; clear e
  obtain ⟨v, hv, e⟩ := Rep.ofExcept_inv h
  rw [e] at h ⊢; clear e
  obtain ⟨yb, hyb, e⟩ := Rep.ofExcept_inv h
  rw [e] at h ⊢; clear e
  rw [Rep.write_bind, Rep.write_bind] at h ⊢
  dsimp only at h ⊢
  obtain ⟨s, hs, h1, e⟩ := Rep.bind_inv h
  rw [e]; clear e
  obtain ⟨u, hu, h2, e⟩ := Rep.bind_inv h1
  rw [e]
  exact ⟨r, w, v, yb, s, hr, hw, hv, hyb, hs, hu, h2, rfl⟩

/-! ### C104 -/

theorem errorMetrics_inv {y z : Arr2 ℂ} {m : ErrorMetrics} (h : errorMetrics y z = .ok m) :
    y.r = z.r ∧ y.c = z.c ∧ m.fro = normFro (diff y z) ∧ m.rrms = normFro (diff y z) / normFro y * 100 := by
  unfold errorMetrics at h
  obtain ⟨f, hf, h⟩ := Prior.bind_ok h
  obtain ⟨x, hx, h⟩ := Prior.bind_ok h
  obtain ⟨r, hr, h⟩ := Prior.bind_ok h
  obtain ⟨p, hp, h⟩ := Prior.bind_ok h
  have hs : y.r = z.r ∧ y.c = z.c := by
    by_contra hn
    unfold froError Arr2.zipWith at hf
    rw [if_neg hn] at hf
    exact nomatch hf
  have e := froError_eq hs.1 hs.2
  rw [e] at hf
  unfold rrmsError at hr
  rw [e] at hr
  cases hf
  cases hr
  cases h
  exact ⟨hs.1, hs.2, rfl, rfl⟩

theorem rrmsError_inv {y z : Arr2 ℂ} {m : ℝ} (h : rrmsError y z = .ok m) :
    y.r = z.r ∧ y.c = z.c ∧ m = normFro (diff y z) / normFro y * 100 := by
  unfold rrmsError at h
  obtain ⟨f, hf, h⟩ := Prior.bind_ok h
  have hs : y.r = z.r ∧ y.c = z.c := by
    by_contra hn
    unfold froError Arr2.zipWith at hf
    rw [if_neg hn] at hf
    exact nomatch hf
  rw [froError_eq hs.1 hs.2] at hf
  cases hf
  cases h
  exact ⟨hs.1, hs.2, rfl⟩

/-- metrics of an estimate under two conversions of the same stored matrices -/
theorem metrics_same {f g : Arr2 ℂ → Except PyErr (Arr2 ℂ)} (hf : KeepsNorm f) (hg : KeepsNorm g) {y0 y1 y2 : Arr2 ℂ} (d : Npz)
    (k : String) {z1 z2 : Arr2 ℂ} (h1 : f y0 = .ok y1) (h2 : g y0 = .ok y2) (k1 : (d.mat k >>= f) = .ok z1) (k2 : (d.mat k >>= g) = .ok z2)
    {m m' : ErrorMetrics} (e1 : errorMetrics y1 z1 = .ok m) (e2 : errorMetrics y2 z2 = .ok m') :
    m.fro = m'.fro ∧ m.rrms = m'.rrms := by
  obtain ⟨z0, hz, k1⟩ := Prior.bind_ok k1
  obtain ⟨z0', hz', k2⟩ := Prior.bind_ok k2
  rw [hz] at hz'
  cases hz'
  obtain ⟨a1, a2, a3, a4⟩ := errorMetrics_inv e1
  obtain ⟨b1, b2, b3, b4⟩ := errorMetrics_inv e2
  have s1 := hf.shape h1
  have s2 := hf.shape k1
  have hr : y0.r = z0.r := by omega
  have hc : y0.c = z0.c := by omega
  rw [hf.dist h1 k1 hr hc] at a3 a4
  rw [hg.dist h2 k2 hr hc] at b3 b4
  rw [hf.norm h1] at a4
  rw [hg.norm h2] at b4
  exact ⟨a3.trans b3.symm, a4.trans b4.symm⟩

theorem rrms_same {f g : Arr2 ℂ → Except PyErr (Arr2 ℂ)} (hf : KeepsNorm f) (hg : KeepsNorm g) {y0 y1 y2 : Arr2 ℂ}
    (h1 : f y0 = .ok y1) (h2 : g y0 = .ok y2) {its : List IterationStatus} {e1 e2 : List ℝ}
    (k1 : its.mapM (fun i => f i.params >>= rrmsError y1) = .ok e1) (k2 : its.mapM (fun i => g i.params >>= rrmsError y2) = .ok e2) :
    e1 = e2 := by
  induction its generalizing e1 e2 with
  | nil =>
    rw [List.mapM_nil] at k1 k2
    cases k1; cases k2; rfl
  | cons i its ih =>
    rw [List.mapM_cons] at k1 k2
    obtain ⟨x1, hx1, k1⟩ := Prior.bind_ok k1
    obtain ⟨l1, hl1, k1⟩ := Prior.bind_ok k1
    obtain ⟨x2, hx2, k2⟩ := Prior.bind_ok k2
    obtain ⟨l2, hl2, k2⟩ := Prior.bind_ok k2
    cases k1
    cases k2
    rw [ih hl1 hl2]
    obtain ⟨z1, hz1, hx1⟩ := Prior.bind_ok hx1
    obtain ⟨z2, hz2, hx2⟩ := Prior.bind_ok hx2
    obtain ⟨a1, a2, a3⟩ := rrmsError_inv hx1
    obtain ⟨b1, b2, b3⟩ := rrmsError_inv hx2
    have s1 := hf.shape h1
    have s2 := hf.shape hz1
    have hr : y0.r = i.params.r := by omega
    have hc : y0.c = i.params.c := by omega
    rw [a3, b3, hf.dist h1 hz1 hr hc, hg.dist h2 hz2 hr hc, hf.norm h1, hg.norm h2]

/-- C104: two complete reports on the same results, with and without `--sequence`, state the same errors. -/
theorem C104 (ext ext' : PlotExt) (st : Store) (name : String) (h1 : (plotResults ext ⟨name, false⟩ st).1 = .ok ())
    (h2 : (plotResults ext' ⟨name, true⟩ st).1 = .ok ()) :
    List.Forall₂ Spec.SameErrors (plotResults ext ⟨name, false⟩ st).2 (plotResults ext' ⟨name, true⟩ st).2 := by
  obtain ⟨r, w, v, y1, s1, hr, hw, hv, hy1, hs1, hb1, hu1, e1⟩ := plotResults_inv h1
  obtain ⟨r', w', v', y2, s2, hr', hw', hv', hy2, hs2, hb2, hu2, e2⟩ := plotResults_inv h2
  rw [e1, e2]
  clear e1 e2 h1 h2
  dsimp only at *
  rw [hr] at hr'
  cases hr'
  have kf := keepsNorm_correct r.2.1 false
  have kg := keepsNorm_correct r.2.1 true
  refine .cons (.plot _ (by simp)) (.cons (.plot _ (by simp)) (List.rel_append ?_ (List.rel_append ?_ ?_)))
  · rcases plotStandard_inv hs1 with ⟨a1, a2, a3⟩ | ⟨d, o, t, l, mo, mt, ml, hd, ho, ht, hl, hmo, hmt, hml, hs, e⟩
    · rcases plotStandard_inv hs2 with ⟨b1, b2, b3⟩ | ⟨d', o', t', l', mo', mt', ml', hd', _⟩
      · rw [a3, b3]; exact .nil
      · rw [a1] at hd'; exact nomatch hd'
    · rcases plotStandard_inv hs2 with ⟨b1, b2, b3⟩ | ⟨d', o', t', l', mo', mt', ml', hd', ho', ht', hl', hmo', hmt', hml', hs', e'⟩
      · rw [hd] at b1; exact nomatch b1
      · rw [hd] at hd'
        cases hd'
        rw [e, e']
        exact .cons (.text _ fun _ => .cons (metrics_same kf kg d "o" hy1 hy2 ho ho' hmo hmo') .nil) (.cons (.plot _ (by simp))
          (.cons (.text _ fun _ => .cons (metrics_same kf kg d "t" hy1 hy2 ht ht' hmt hmt') .nil) (.cons (.plot _ (by simp))
          (.cons (.text _ fun _ => .cons (metrics_same kf kg d "l" hy1 hy2 hl hl' hml hml') .nil) (.cons (.plot _ (by simp)) .nil)))))
  · rcases plotBayesian_inv hb1 with ⟨a1, a3⟩ | ⟨d, y, its, er, m, df, E, off, mask, s, co, ct, cl, cy, cb, mo, mt, ml, my, hd, hy, hi,
        her, hm, _, _, _, _, _, _, _, _, _, _, _, _, _, _, e⟩
    · rcases plotBayesian_inv hb2 with ⟨b1, b3⟩ | ⟨d', y', its', er', m', df', E', off', mask', s', co', ct', cl', cy', cb', mo', mt', ml',
        my', hd', _⟩
      · rw [a3, b3]; exact .nil
      · rw [a1] at hd'; exact nomatch hd'
    · rcases plotBayesian_inv hb2 with ⟨b1, b3⟩ | ⟨d', y', its', er', m', df', E', off', mask', s', co', ct', cl', cy', cb', mo', mt', ml',
        my', hd', hy', hi', her', hm', _, _, _, _, _, _, _, _, _, _, _, _, _, _, e'⟩
      · rw [hd] at b1; exact nomatch b1
      · rw [hd] at hd'
        cases hd'
        rw [hi] at hi'
        cases hi'
        rw [e, e']
        exact .cons (.text _ fun _ => .cons (metrics_same kf kg d "y" hy1 hy2 hy hy' hm hm') .nil) (.cons (.plot _ (by simp))
          (.cons (.plot _ (by simp)) (.cons (.plot _ fun _ => by rw [rrms_same kf kg hy1 hy2 her her']) (.cons (.plot _ fun _ => rfl)
          (.cons (.plot _ (by simp)) (.cons (.text _ (by simp)) .nil))))))
  · rcases plotUncertainty_inv hu1 with ⟨a1, a3⟩ | ⟨d, a, b, c, hd, e⟩
    · rcases plotUncertainty_inv hu2 with ⟨b1, b3⟩ | ⟨d', a', b', c', hd', e'⟩
      · rw [a3, b3]; exact .nil
      · rw [a1] at hd'; exact nomatch hd'
    · rcases plotUncertainty_inv hu2 with ⟨b1, b3⟩ | ⟨d', a', b', c', hd', e'⟩
      · rw [hd] at b1; exact nomatch b1
      · rw [e, e']
        exact .cons (.plot _ (by simp)) (.cons (.plot _ (by simp)) (.cons (.plot _ (by simp)) .nil))

end
end Verif
