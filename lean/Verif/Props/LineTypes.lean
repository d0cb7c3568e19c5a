/-
C181: the line types of the three-phase networks. C136 and C152 for the shipped three-phase networks.
-/
import Verif.Model.LineTypes
import Verif.Props.Energy3
import Verif.Props.Shipped
import Verif.Props.HiddenRun3

namespace Verif
open Finset Spec
noncomputable section

namespace Spec

/-- impedance (or admittance) matrix of three wires with `zs` in each and `zm` between two of them -/
def wires (zs zm : ℂ) : Arr2 ℂ := Arr2.ofFn 3 3 fun i j => if i = j then zs else zm

/-- impedance per kilometre of a type, positive sequence -/
def positive (t : LineType) : ℂ := ⟨t.r, t.x⟩

/-- impedance per kilometre of a type, zero sequence -/
def zero (t : LineType) : ℂ := ⟨t.r0, t.x0⟩

/-- the wires have, per thousand feet of 0.3 kilometres, impedances `zs` and between them `zm` -/
def HasWires (t : LineType) (zs zm : ℂ) : Prop :=
  admittanceSequenceToPhase (Arr2.diag [zero t, positive t, positive t]) = .ok (wires (zs / ((0.3 : ℝ) : ℂ)) (zm / ((0.3 : ℝ) : ℂ)))

/-- the lines of a sequence network: each has the impedance of its type times its length -/
def sequenceLines (imp : LineType → ℂ) (ls : List LineData) : List LineData :=
  ls.map fun l => { l with
    R := l.length * (((l.typ.bind lineType).map imp).getD 0).re
    X := l.length * (((l.typ.bind lineType).map imp).getD 0).im }

/-- the admittance matrix of the lines; the row and column of the connection may contain the impedance of the grid -/
def GridBesides (sn : ℝ) (bs : List BusData) (ls : List LineData) (y : Arr2 ℂ) : Prop :=
  IsSquare bs.length y ∧ ∃ g, IsGridMatrix sn bs ls g ∧
    ∀ i < bs.length, ∀ j < bs.length, i ∉ connections bs → j ∉ connections bs → y.get i j = g.get i j

end Spec

/-! ### C181 -/

theorem diag_makeYBus3 (z0 z1 z2 : ℂ) :
    makeYBus3 (Arr2.ofFn 1 1 fun _ _ => z0) (Arr2.ofFn 1 1 fun _ _ => z1) (Arr2.ofFn 1 1 fun _ _ => z2) =
      admittanceSequenceToPhase (Arr2.diag [z0, z1, z2]) := by
  have e : sequenceBus (Arr2.ofFn 1 1 fun _ _ => z0) (Arr2.ofFn 1 1 fun _ _ => z1) (Arr2.ofFn 1 1 fun _ _ => z2) =
      .ok (Arr2.diag [z0, z1, z2]) := by
    have key : ∀ A B : Arr2 ℂ, A.r = B.r ∧ A.c = B.c → A.zipWith (· + ·) B = .ok (Arr2.ofFn A.r A.c fun i j => A.get i j + B.get i j) :=
      fun A B h => if_pos h
    unfold sequenceBus
    rw [key ((Arr2.ofFn 1 1 fun _ _ => z0).kron (Arr2.diag [1, 0, 0])) ((Arr2.ofFn 1 1 fun _ _ => z1).kron (Arr2.diag [0, 1, 0])) ⟨rfl, rfl⟩]
    refine (key (Arr2.ofFn 3 3 fun i j => ((Arr2.ofFn 1 1 fun _ _ => z0).kron (Arr2.diag [1, 0, 0])).get i j +
      ((Arr2.ofFn 1 1 fun _ _ => z1).kron (Arr2.diag [0, 1, 0])).get i j) ((Arr2.ofFn 1 1 fun _ _ => z2).kron (Arr2.diag [0, 0, 1]))
      ⟨rfl, rfl⟩).trans ?_
    refine congrArg Except.ok (Arr2.ext' rfl rfl ?_)
    intro a b ha hb
    have ha' : a < 3 := ha
    have hb' : b < 3 := hb
    interval_cases a <;> interval_cases b <;> simp [Arr2.diag, Arr2.kron, Arr2.ofFn]
  unfold makeYBus3
  rw [e]
  rfl

/-- entries of the phase form of one line -/
theorem line_phases (z0 z1 : ℂ) : ∃ Y, admittanceSequenceToPhase (Arr2.diag [z0, z1, z1]) = .ok Y ∧ Y = Spec.wires ((z0 + 2 * z1) / 3) ((z0 - z1) / 3) := by
  obtain ⟨Y, hY, hF⟩ := phaseForm_entries 1 (y0 := Arr2.ofFn 1 1 fun _ _ => z0) (y1 := Arr2.ofFn 1 1 fun _ _ => z1)
    (y2 := Arr2.ofFn 1 1 fun _ _ => z1) ⟨rfl, rfl⟩ ⟨rfl, rfl⟩ ⟨rfl, rfl⟩
  rw [diag_makeYBus3] at hY
  refine ⟨Y, hY, Arr2.ext' hF.1.1 hF.1.2 ?_⟩
  intro p q hp hq
  have hp' : p < 3 := by rw [hF.1.1] at hp; exact hp
  have hq' : q < 3 := by rw [hF.1.2] at hq; exact hq
  have := hF.2 0 0 p q (by norm_num) (by norm_num) hp' hq'
  simp only [zero_mul, zero_add] at this
  rw [this, Finset.sum_range_succ, Finset.sum_range_succ, Finset.sum_range_one, Spec.wires, Arr2.ofFn_get _ hp' hq']
  simp only [(block_powers hp' (by norm_num : 0 < 3)).1, (block_powers hp' (by norm_num : 1 < 3)).1, (block_powers hp' (by norm_num : 2 < 3)).1,
    (block_powers (by norm_num : 0 < 3) hq').2, (block_powers (by norm_num : 1 < 3) hq').2, (block_powers (by norm_num : 2 < 3) hq').2]
  have g : ∀ z : ℂ, (Arr2.ofFn 1 1 fun _ _ => z).get 0 0 = z := fun z => rfl
  rw [show three (Arr2.ofFn 1 1 fun _ _ => z0) (Arr2.ofFn 1 1 fun _ _ => z1) (Arr2.ofFn 1 1 fun _ _ => z1) 0 = Arr2.ofFn 1 1 fun _ _ => z0 from rfl,
    show three (Arr2.ofFn 1 1 fun _ _ => z0) (Arr2.ofFn 1 1 fun _ _ => z1) (Arr2.ofFn 1 1 fun _ _ => z1) 1 = Arr2.ofFn 1 1 fun _ _ => z1 from rfl,
    show three (Arr2.ofFn 1 1 fun _ _ => z0) (Arr2.ofFn 1 1 fun _ _ => z1) (Arr2.ofFn 1 1 fun _ _ => z1) 2 = Arr2.ofFn 1 1 fun _ _ => z1 from rfl,
    g, g]
  clear this hF g
  have h3 := alpha_cube
  have hs' := alpha_sum
  generalize Spec.alpha = α at *
  interval_cases p <;> interval_cases q <;> simp <;> grind

/-- C181, general: three equal wires are the same as a zero sequence with `zs + 2 zm` and two sequences with `zs - zm` -/
theorem C181_wires (z0 z1 zs zm : ℂ) :
    admittanceSequenceToPhase (Arr2.diag [z0, z1, z1]) = .ok (Spec.wires zs zm) ↔ z0 = zs + 2 * zm ∧ z1 = zs - zm := by
  obtain ⟨Y, hY, rfl⟩ := line_phases z0 z1
  rw [hY]
  constructor
  · intro h
    have h := Except.ok.inj h
    have a := congrArg (fun A : Arr2 ℂ => A.get 0 0) h
    have b := congrArg (fun A : Arr2 ℂ => A.get 0 1) h
    simp only [Spec.wires, Arr2.ofFn_get _ (show 0 < 3 by norm_num) (show 0 < 3 by norm_num),
      Arr2.ofFn_get _ (show 0 < 3 by norm_num) (show 1 < 3 by norm_num), if_true, if_neg (show ¬ (0 = 1) by norm_num)] at a b
    constructor
    · rw [← a, ← b]; ring
    · rw [← a, ← b]; ring
  · rintro ⟨rfl, rfl⟩
    congr 2 <;> ring

theorem types_values : z31og = ⟨0.058 / 0.3, 0.12 / 0.3⟩ ∧ z30og = ⟨0.145 / 0.3, 0.36 / 0.3⟩ ∧ z31ug = ⟨0.195 / 0.3, 0.09 / 0.3⟩ ∧
    z30ug = ⟨0.48 / 0.3, 0.24 / 0.3⟩ ∧ z11og = ⟨0.25 / 0.3, 0.25 / 0.3⟩ ∧ z10og = ⟨0.25 / 0.3 / 0.3, 0.25 / 0.3 / 0.3⟩ := by
  refine ⟨?_, ?_, ?_, ?_, ?_, ?_⟩ <;> apply Complex.ext <;>
    simp only [z31og, z30og, z31ug, z30ug, z11og, z10og, Complex.div_ofReal_re, Complex.div_ofReal_im, Complex.sub_re, Complex.sub_im,
      Complex.add_re, Complex.add_im, Complex.mul_re, Complex.mul_im, Complex.re_ofNat, Complex.im_ofNat] <;> norm_num

theorem cdec (a b : ℝ) : (⟨a / 0.3, b / 0.3⟩ : ℂ) = ⟨a, b⟩ / ((0.3 : ℝ) : ℂ) :=
  Complex.ext (by rw [Complex.div_ofReal_re]) (by rw [Complex.div_ofReal_im])

/-- C181, what holds: the types of lines with three wires are those of the impedances given in the comment of the source, every type has
a resistance in both sequences, and the types are the known ones. -/
theorem C181_partial : (∃ t, lineType "OG3" = some t ∧ Spec.HasWires t ⟨0.087, 0.20⟩ ⟨0.029, 0.08⟩) ∧
    (∃ t, lineType "UG3" = some t ∧ Spec.HasWires t ⟨0.29, 0.14⟩ ⟨0.095, 0.05⟩) ∧
    (∀ name, name ∈ shippedTypes ↔ ∃ t, lineType name = some t) ∧
    ∀ name t, lineType name = some t → 0 < (Spec.positive t).re ∧ 0 < (Spec.zero t).re := by
  obtain ⟨e1, e2, e3, e4, e5, e6⟩ := types_values
  refine ⟨⟨_, if_pos rfl, ?_⟩, ⟨_, by unfold lineType; rw [if_neg (by decide), if_pos rfl], ?_⟩, ?_, ?_⟩
  · refine (C181_wires _ _ _ _).2 ⟨?_, ?_⟩ <;> simp only [Spec.zero, Spec.positive, Complex.eta, z30og, z31og] <;> ring
  · refine (C181_wires _ _ _ _).2 ⟨?_, ?_⟩ <;> simp only [Spec.zero, Spec.positive, Complex.eta, z30ug, z31ug] <;> ring
  · intro name
    unfold lineType shippedTypes
    constructor
    · intro h
      simp only [List.mem_cons, List.not_mem_nil, or_false] at h
      rcases h with rfl | rfl | rfl | rfl <;> simp
    · rintro ⟨t, h⟩
      split_ifs at h with c1 c2 c3 c4 <;> simp [*]
  · intro name t h
    unfold lineType at h
    split_ifs at h <;> cases h <;> simp only [Spec.zero, Spec.positive, e1, e2, e3, e4, e5, e6] <;> norm_num

/-- C181 violated: for lines with a single wire the comment gives the same impedance in all sequences, that is, none between wires. The
zero sequence of the type is divided by 0.3 twice, so there is one between wires, and no three equal wires have the impedance given. -/
theorem C181_violated : ∃ t, lineType "OG1" = some t ∧ Spec.positive t = ⟨0.25, 0.25⟩ / ((0.3 : ℝ) : ℂ) ∧
    Spec.zero t = Spec.positive t / ((0.3 : ℝ) : ℂ) ∧ Spec.zero t ≠ Spec.positive t ∧ (∀ zs, ¬ Spec.HasWires t zs 0) ∧
    ∀ zm, ¬ Spec.HasWires t ⟨0.25, 0.25⟩ zm := by
  have hz : Spec.zero ⟨z11og.re, z11og.im, z10og.re, z10og.im⟩ = z10og := Complex.eta _
  have hp : Spec.positive ⟨z11og.re, z11og.im, z10og.re, z10og.im⟩ = z11og := Complex.eta _
  obtain ⟨-, -, -, -, e5, e6⟩ := types_values
  have hne : z10og ≠ z11og := by
    rw [e5, e6]
    intro h
    have := congrArg Complex.re h
    norm_num at this
  refine ⟨_, by unfold lineType; rw [if_neg (by decide), if_neg (by decide), if_pos rfl], ?_, ?_, ?_, ?_, ?_⟩
  · rw [hp, z11og]
  · rw [hp, hz, z10og]
  · rw [hp, hz]; exact hne
  · intro zs h
    obtain ⟨a, b⟩ := (C181_wires _ _ _ _).1 h
    rw [hz] at a
    rw [hp] at b
    apply hne
    rw [a, b]
    ring
  · intro zm h
    obtain ⟨a, b⟩ := (C181_wires _ _ _ _).1 h
    rw [hz, e6] at a
    rw [hp, e5, cdec] at b
    have hzm : zm / ((0.3 : ℝ) : ℂ) = 0 := by linear_combination b
    rw [hzm] at a
    have := congrArg Complex.re a
    rw [mul_zero, add_zero, Complex.div_ofReal_re] at this
    norm_num at this

/-- C181: the fourth type has the impedances of "UG3" except the resistance of the positive sequence, which is a third -/
theorem C181_cigre : ∃ u t, lineType "UG3" = some u ∧ lineType "UG3CIGRE" = some t ∧ Spec.zero t = Spec.zero u ∧
    (Spec.positive t).im = (Spec.positive u).im ∧ 3 * (Spec.positive t).re = (Spec.positive u).re := by
  refine ⟨_, _, by unfold lineType; rw [if_neg (by decide), if_pos rfl],
    by unfold lineType; rw [if_neg (by decide), if_neg (by decide), if_neg (by decide), if_pos rfl], ?_, ?_, ?_⟩
  · apply Complex.ext <;> simp only [Spec.zero] <;> ring
  · simp only [Spec.positive]; ring
  · simp only [Spec.positive]; ring

/-! ### the shipped three-phase networks -/

/-- buses of a single-phase network with the same numbers and voltages -/
def singleBuses (bs : List BusData) : List BusData := bs.map fun b => { b with demand := .sym 0 0 }

theorem singleBuses_id {bs : List BusData} {i : ℕ} (hi : i < (singleBuses bs).length) (hi' : i < bs.length) :
    (singleBuses bs)[i].id = bs[i].id := by
  simp [singleBuses]

theorem singleBuses_kv (bs : List BusData) (k : Int) : Spec.kvLabel (singleBuses bs) k = Spec.kvLabel bs k := by
  unfold Spec.kvLabel singleBuses
  induction bs with
  | nil => rfl
  | cons b bs ih =>
    simp only [List.map_cons, List.find?_cons]
    by_cases h : b.id = k
    · simp [h]
    · simpa [h] using ih

theorem singleBuses_grid {sn : ℝ} {bs : List BusData} {ls : List LineData} {y : Arr2 ℂ} :
    Spec.IsGridMatrix sn bs ls y ↔ Spec.IsGridMatrix sn (singleBuses bs) ls y := by
  have hl : (singleBuses bs).length = bs.length := by simp [singleBuses]
  have hbr : Spec.branch sn (singleBuses bs) = Spec.branch sn bs := by
    funext l
    unfold Spec.branch
    rw [singleBuses_kv]
  constructor
  · intro h
    refine ⟨by rw [hl]; exact h.square, ?_, by rw [hl]; exact h.rows⟩
    intro i j hi hj hij
    rw [h.off i j (hl ▸ hi) (hl ▸ hj) hij, hbr, singleBuses_id hi (hl ▸ hi), singleBuses_id hj (hl ▸ hj)]
  · intro h
    refine ⟨by rw [← hl]; exact h.square, ?_, by rw [← hl]; exact h.rows⟩
    intro i j hi hj hij
    rw [h.off i j (hl.symm ▸ hi) (hl.symm ▸ hj) hij, hbr, singleBuses_id (hl.symm ▸ hi) hi, singleBuses_id (hl.symm ▸ hj) hj]

theorem singleBuses_connected {bs : List BusData} {ls ls' : List LineData} (f : LineData → LineData) (hls : ls' = ls.map f)
    (hf : ∀ l, (f l).startBus = l.startBus ∧ (f l).endBus = l.endBus ∧ (f l).status = l.status) {i j : ℕ}
    (h : Spec.Connected bs ls i j) : Spec.Connected (singleBuses bs) ls' i j := by
  subst hls
  have hl : (singleBuses bs).length = bs.length := by simp [singleBuses]
  unfold Spec.Connected at h ⊢
  refine Relation.ReflTransGen.mono (fun a b => ?_) _ _ h
  rintro ⟨ha, hb, l, hl', hs, he⟩
  refine ⟨hl ▸ ha, hl ▸ hb, f l, List.mem_map_of_mem hl', by rw [(hf l).2.2]; exact hs, ?_⟩
  rw [(hf l).1, (hf l).2.1, singleBuses_id (hl ▸ ha) ha, singleBuses_id (hl ▸ hb) hb]
  exact he

/-- a network that consumes power as soon as a node besides the connections has a voltage: nodes besides them can be eliminated -/
theorem dissipates_regular {C S : Finset ℕ} {y : Arr2 ℂ} (h : Spec.Dissipates C y) (hS : ∀ k ∈ S, k < y.r ∧ k ∉ C) : Spec.BlockNonsingular y S := by
  intro u hu i hi
  by_contra hne
  have := h (fun k => if k ∈ S then u k else 0) (fun c hc => if_neg fun hcS => (hS c hcS).2 hc) ⟨i, (hS i hi).1, by simpa [hi] using hne⟩
  have hz : Spec.power y.r (fun k => if k ∈ S then u k else 0) (Spec.currents y fun k => if k ∈ S then u k else 0) = 0 := by
    unfold Spec.power
    refine Finset.sum_eq_zero fun k _ => ?_
    by_cases hk : k ∈ S
    · have e : Spec.currents y (fun k => if k ∈ S then u k else 0) k = ∑ a ∈ S, u a * y.get a k := by
        unfold Spec.currents
        have hsub : S ⊆ range y.r := fun a ha => Finset.mem_range.2 (hS a ha).1
        rw [← Finset.sum_subset hsub]
        · exact Finset.sum_congr rfl fun a ha => by simp only [if_pos ha]
        · intro a _ ha
          simp only [if_neg ha, zero_mul]
      rw [e, hu k hk, map_zero, mul_zero]
    · simp only [if_neg hk, zero_mul]
  rw [hz] at this
  simp at this

/-- the impedance of the grid does not matter for this -/
theorem dissipates_besides {C : Finset ℕ} {y g : Arr2 ℂ} (hr : y.r = g.r) (h : Spec.Dissipates C g)
    (he : ∀ i < g.r, ∀ j < g.r, i ∉ C → j ∉ C → y.get i j = g.get i j) : Spec.Dissipates C y := by
  intro v hv hne
  rw [hr] at hne
  have := h v hv hne
  rw [hr]
  have e : Spec.power g.r v (Spec.currents y v) = Spec.power g.r v (Spec.currents g v) := by
    unfold Spec.power
    refine Finset.sum_congr rfl fun k hk => ?_
    by_cases hkC : k ∈ C
    · rw [hv k hkC, zero_mul, zero_mul]
    · congr 2
      unfold Spec.currents
      rw [hr]
      refine Finset.sum_congr rfl fun i hi => ?_
      by_cases hiC : i ∈ C
      · rw [hv i hiC, zero_mul, zero_mul]
      · rw [he i (Finset.mem_range.1 hi) k (Finset.mem_range.1 hk) hiC hkC]
  rw [e]
  exact this

/-- what holds for each of the three-phase networks -/
structure Spec.Template3 (bs : List BusData) (ls : List LineData) (n : ℕ) (kv : ℝ) (passive : List Int) : Prop where
  feeder : Spec.OneFeeder bs ls n kv (n - 1)
  ends : ∀ l ∈ ls, ((1 ≤ l.startBus ∧ l.startBus ≤ n) ∧ 1 ≤ l.endBus ∧ l.endBus ≤ n) ∧ ∃ s ∈ shippedTypes, l.typ = some s
  params : ∀ l ∈ ls, 0 < l.length
  load : ∀ b ∈ bs, Spec.Passive b 0 → Spec.Passive b 1 → Spec.Passive b 2 → b.id ∈ passive
  kv : 0 < kv
  few : n - 1 ≤ 8 ∨ 3 * (n - 1) ≤ 5 * (n - (passive.length + 1))

theorem cigreFeeder3_template : Spec.Template3 cigreFeeder3Bus cigreFeeder3Net 10 20 [] := by
  refine ⟨cigreFeeder3_feeder, cigreFeeder3_ends, ?_, ?_, by norm_num, by decide⟩
  · unfold cigreFeeder3Net
    simp only [List.forall_mem_cons]
    norm_num
  · unfold cigreFeeder3Bus
    simp only [List.forall_mem_cons, Spec.Passive, Spec.demandOn]
    norm_num

theorem test3Phase_template : Spec.Template3 test3PhaseBus test3PhaseNet 5 4.16 [] := by
  refine ⟨test3Phase_feeder, test3Phase_ends, ?_, ?_, by norm_num, by decide⟩
  · unfold test3PhaseNet
    simp only [List.forall_mem_cons]
    norm_num
  · unfold test3PhaseBus
    simp only [List.forall_mem_cons, Spec.Passive, Spec.demandOn]
    norm_num

theorem ieee123Center_template : Spec.Template3 ieee123CenterBus ieee123CenterNet 56 4.16 [7, 21, 33] := by
  refine ⟨ieee123Center_feeder, ieee123Center_ends, ?_, ?_, by norm_num, by decide⟩
  · unfold ieee123CenterNet
    simp only [List.forall_mem_cons]
    norm_num
  · unfold ieee123CenterBus
    simp only [List.forall_mem_cons, Spec.Passive, Spec.demandOn]
    norm_num [Matrix.cons_val_two, Matrix.tail_cons, Matrix.head_cons]

theorem shipped3_cases {name : String} {bs : List BusData} (h : shippedBuses3 name = some bs) :
    ∃ ls n kv passive, shippedLines3 name = some ls ∧ Spec.Template3 bs ls n kv passive := by
  unfold shippedBuses3 at h
  split_ifs at h with c1 c2 c3
  all_goals
    simp only [Option.some.injEq] at h
    subst h
  · exact ⟨_, _, _, _, by unfold shippedLines3; rw [if_pos c1], cigreFeeder3_template⟩
  · exact ⟨_, _, _, _, by unfold shippedLines3; rw [if_neg c1, if_pos c2], test3Phase_template⟩
  · exact ⟨_, _, _, _, by unfold shippedLines3; rw [if_neg c1, if_neg c2, if_pos c3], ieee123Center_template⟩

theorem Spec.Template3.buildable {bs : List BusData} {ls : List LineData} {n : ℕ} {kv : ℝ} {passive : List Int}
    (h : Spec.Template3 bs ls n kv passive) (imp : LineType → ℂ) : Spec.Buildable (singleBuses bs) (Spec.sequenceLines imp ls) := by
  have hids : (singleBuses bs).map BusData.id = bs.map BusData.id := by simp [singleBuses, Function.comp_def]
  refine ⟨?_, ?_, ?_⟩
  · rw [hids, h.feeder.ids]
    exact List.Nodup.map (fun a b hab => by simpa using hab) List.nodup_range
  · intro b hb
    obtain ⟨b', -, rfl⟩ := List.mem_map.1 hb
    exact ⟨0, 0, rfl⟩
  · intro l hl _
    obtain ⟨l', hl', rfl⟩ := List.mem_map.1 hl
    obtain ⟨⟨h1, h2⟩, -⟩ := h.ends l' hl'
    obtain ⟨e1, e2⟩ := linesOk h.feeder.ids h1 h2
    rw [hids]
    exact ⟨e1, e2, (h.params l' hl').ne'⟩

open Classical in
theorem Spec.Template3.passive_card {bs : List BusData} {ls : List LineData} {n : ℕ} {kv : ℝ} {passive : List Int}
    (h : Spec.Template3 bs ls n kv passive) : (Spec.passive3 bs).card ≤ passive.length := by
  have hsub : Spec.passive3 bs ⊆ (passive.map (fun k => (k - 1).toNat)).toFinset := by
    intro k hk
    obtain ⟨a0, a12⟩ := Finset.mem_inter.1 hk
    obtain ⟨a1, a2⟩ := Finset.mem_inter.1 a12
    obtain ⟨-, b, hb, hp⟩ := Finset.mem_filter.1 a0
    obtain ⟨-, b1, hb1, hp1⟩ := Finset.mem_filter.1 a1
    obtain ⟨-, b2, hb2, hp2⟩ := Finset.mem_filter.1 a2
    rw [hb] at hb1 hb2
    cases hb1
    cases hb2
    obtain ⟨hk, rfl⟩ := List.getElem?_eq_some_iff.1 hb
    have hid := h.load _ (List.getElem_mem hk) hp hp1 hp2
    rw [ids_get h.feeder.ids k hk] at hid
    exact List.mem_toFinset.2 (List.mem_map.2 ⟨_, hid, by omega⟩)
  calc _ ≤ _ := Finset.card_le_card hsub
    _ ≤ _ := List.toFinset_card_le _
    _ = _ := List.length_map ..

open Classical in
theorem Spec.Template3.root_notMem {bs : List BusData} {ls : List LineData} {n : ℕ} {kv : ℝ} {passive : List Int}
    (h : Spec.Template3 bs ls n kv passive) : n - 1 ∉ Spec.passive3 bs := by
  intro hk
  obtain ⟨hk, b, hb, hp⟩ := Finset.mem_filter.1 (Finset.mem_inter.1 hk).1
  obtain ⟨hk, rfl⟩ := List.getElem?_eq_some_iff.1 hb
  exact hp.1 (by rw [h.feeder.types (n - 1) hk, if_pos rfl])

theorem Spec.Template3.dissipates {bs : List BusData} {ls : List LineData} {n : ℕ} {kv : ℝ} {passive : List Int}
    (h : Spec.Template3 bs ls n kv passive) {sn : ℝ} (hsn : 0 < sn) {imp : LineType → ℂ} (himp : ∀ name t, lineType name = some t → 0 < (imp t).re)
    {y : Arr2 ℂ} (hy : Spec.GridBesides sn bs (Spec.sequenceLines imp ls) y) : Spec.Dissipates (connections bs) y := by
  obtain ⟨hsq, g, hg, he⟩ := hy
  have hl : (singleBuses bs).length = bs.length := by simp [singleBuses]
  have hids : (singleBuses bs).map BusData.id = bs.map BusData.id := by simp [singleBuses, Function.comp_def]
  have hends : ∀ l ∈ Spec.sequenceLines imp ls, 0 < l.status → (l.startBus ∈ bs.map BusData.id ∧ l.endBus ∈ bs.map BusData.id) ∧
      l.length ≠ 0 ∧ 0 < l.R := by
    intro l hl _
    obtain ⟨l', hl', rfl⟩ := List.mem_map.1 hl
    obtain ⟨⟨h1, h2⟩, s, hs, ht⟩ := h.ends l' hl'
    obtain ⟨t, ht'⟩ := (C181_partial.2.2.1 s).1 hs
    refine ⟨linesOk h.feeder.ids h1 h2, (h.params l' hl').ne', ?_⟩
    show 0 < l'.length * _
    rw [ht, Option.bind_some, ht', Option.map_some, Option.getD_some]
    exact mul_pos (h.params l' hl') (himp s t ht')
  have hb := h.buildable imp
  have hres : Spec.Resistive (singleBuses bs) (Spec.sequenceLines imp ls) := by
    intro l hl hs
    obtain ⟨⟨h1, h2⟩, -, h3⟩ := hends l hl hs
    refine ⟨h3, ?_⟩
    rw [singleBuses_kv, kvLabel_feeder h.feeder]
    · exact h.kv.ne'
    · rcases min_choice l.startBus l.endBus with e | e <;> rw [e] <;> assumption
  have hconn : ∀ k < (singleBuses bs).length, ∃ c ∈ connections bs, Spec.Connected (singleBuses bs) (Spec.sequenceLines imp ls) k c := by
    intro k hk
    refine ⟨n - 1, by rw [h.feeder.connections]; simp, ?_⟩
    refine singleBuses_connected _ rfl ?_ (h.feeder.connected k (by rw [← h.feeder.length, ← hl]; exact hk))
    intro l
    exact ⟨rfl, rfl, rfl⟩
  have := (grid_dissipates hsn hb (singleBuses_grid.1 hg) hres hconn).2
  exact dissipates_besides (hsq.1.trans hg.square.1.symm) this (by rw [hg.square.1]; exact he)

open Classical in
/-- C136, three phases: if the sequence networks have the lines of the types, each consumes power as soon as a node besides the connection
has a voltage, every set of nodes without the connection can be eliminated from each, and the network is reduced in order. -/
theorem C136_three_matrices {name : String} {bs : List BusData} {ls : List LineData} (hb : shippedBuses3 name = some bs)
    (hl : shippedLines3 name = some ls) {sn : ℝ} (hsn : 0 < sn) {y0 y1 y2 : Arr2 ℂ}
    (g0 : Spec.GridBesides sn bs (Spec.sequenceLines Spec.zero ls) y0) (g1 : Spec.GridBesides sn bs (Spec.sequenceLines Spec.positive ls) y1)
    (g2 : Spec.GridBesides sn bs (Spec.sequenceLines Spec.positive ls) y2) :
    (∀ y, (y = y0 ∨ y = y1 ∨ y = y2) → Spec.Dissipates (connections bs) y ∧
      ∀ S ⊆ range bs.length, Disjoint S (connections bs) → Spec.BlockNonsingular y S) ∧ Spec.Reducible3 bs y0 y1 y2 := by
  obtain ⟨ls', n, kv, passive, hl', hT⟩ := shipped3_cases hb
  rw [hl] at hl'
  obtain rfl := Option.some.inj hl'
  have hd : ∀ y, (y = y0 ∨ y = y1 ∨ y = y2) → Spec.Dissipates (connections bs) y ∧ y.r = bs.length := by
    rintro y (rfl | rfl | rfl)
    · exact ⟨hT.dissipates hsn (fun name t h => (C181_partial.2.2.2 name t h).2) g0, g0.1.1⟩
    · exact ⟨hT.dissipates hsn (fun name t h => (C181_partial.2.2.2 name t h).1) g1, g1.1.1⟩
    · exact ⟨hT.dissipates hsn (fun name t h => (C181_partial.2.2.2 name t h).1) g2, g2.1.1⟩
  have hns : ∀ y, (y = y0 ∨ y = y1 ∨ y = y2) → ∀ S ⊆ range bs.length, Disjoint S (connections bs) → Spec.BlockNonsingular y S := by
    intro y hy S hS hdis
    refine dissipates_regular (hd y hy).1 fun k hk => ⟨?_, Finset.disjoint_left.1 hdis hk⟩
    rw [(hd y hy).2]
    exact Finset.mem_range.1 (hS hk)
  refine ⟨fun y hy => ⟨(hd y hy).1, hns y hy⟩, ?_, ?_, ?_⟩
  · rw [hT.feeder.connections, hT.feeder.length]
  · rw [hT.feeder.connections, hT.feeder.length]
    rcases hT.few with h | h
    · exact Or.inl h
    · refine Or.inr (h.trans ?_)
      have hcard : (Spec.passive3 bs ∪ {n - 1}).card ≤ passive.length + 1 := by
        refine (Finset.card_union_le _ _).trans ?_
        have := hT.passive_card
        rw [Finset.card_singleton]
        omega
      omega
  · intro y hy
    refine hns y hy _ ?_ ?_
    · exact fun k hk => (Finset.mem_filter.1 (Finset.mem_inter.1 hk).1).1
    · rw [hT.feeder.connections, Finset.disjoint_singleton_right]
      exact hT.root_notMem

/-- C152 partial, shipped three-phase networks in sequence coordinates without hidden nodes, with any noise: the stored matrix consumes power
at all voltages, and its currents determine the voltages. -/
theorem C152_three_shipped_partial {w : SimWorld} (hw : w.Shipped) {cf : SimConf} {a : SimArgs} {st : Store} {d : NetworkData} (hn : Spec.PlainName a.network)
    (h3 : a.threePhased = true) (hseq : a.sequence = true) (h : (simulate w cf a st).res = .ok d)
    (hall : a.loads = a.networkSim ∧ a.networkSim = a.noise) (hhid : cf.hidden = []) (hpinv : Spec.PinvContract w.pinv)
    {net : Net} {bs : List BusData} (hbs : makeNet3 w a.network = .ok (net, bs)) {ls : List LineData} (hls : shippedLines3 a.network = some ls)
    {y0 y1 y2 y : Arr2 ℂ} {sn : ℝ} (hsn : 0 < sn)
    (g0 : Spec.GridBesides sn bs (Spec.sequenceLines Spec.zero ls) y0) (g1 : Spec.GridBesides sn bs (Spec.sequenceLines Spec.positive ls) y1)
    (g2 : Spec.GridBesides sn bs (Spec.sequenceLines Spec.positive ls) y2) (hyy : makeYBus3 y0 y1 y2 = .ok y) (hy : w.yBus3 net = .ok y)
    (hf : ∀ c res, w.flow3 net c = .ok res → Spec.PowerFlow3 bs y res) :
    Spec.NoSource d.y ∧ Spec.Dissipative d.y ∧
      ∀ u v : ℕ → ℂ, (∀ k < d.y.r, Spec.currents d.y u k = Spec.currents d.y v k) → ∀ k < d.y.r, u k = v k := by
  obtain ⟨ls', e1, -⟩ := C133_three hbs
  rw [hw.buses3] at e1
  obtain ⟨hd, hr⟩ := C136_three_matrices e1 hls hsn g0 g1 g2
  have key := (C152_three_partial hn h3 hseq h hall hhid hpinv hbs g0.1 g1.1 g2.1 hyy hy hf hr).2 (hd _ (Or.inl rfl)).1
    (hd _ (Or.inr (Or.inl rfl))).1 (hd _ (Or.inr (Or.inr rfl))).1
  refine ⟨fun v => ?_, key, fun u v he => dissipative_injective key u v he⟩
  by_cases hv : ∃ k < d.y.r, v k ≠ 0
  · exact (key v hv).le
  · push Not at hv
    have : Spec.power d.y.r v (Spec.currents d.y v) = 0 := Finset.sum_eq_zero fun k hk => by rw [hv k (Finset.mem_range.1 hk), zero_mul]
    rw [this, Complex.zero_re]

/-- the hypotheses of C136_three_matrices: there are such matrices for each network -/
theorem sequence_matrices {name : String} {bs : List BusData} {ls : List LineData} (hb : shippedBuses3 name = some bs)
    (hl : shippedLines3 name = some ls) {sn : ℝ} : ∃ y0 y1 y2 y, Spec.GridBesides sn bs (Spec.sequenceLines Spec.zero ls) y0 ∧
      Spec.GridBesides sn bs (Spec.sequenceLines Spec.positive ls) y1 ∧ Spec.GridBesides sn bs (Spec.sequenceLines Spec.positive ls) y2 ∧
      makeYBus3 y0 y1 y2 = .ok y := by
  obtain ⟨ls', n, kv, passive, hl', hT⟩ := shipped3_cases hb
  rw [hl] at hl'
  obtain rfl := Option.some.inj hl'
  have key : ∀ imp, ∃ y, Spec.GridBesides sn bs (Spec.sequenceLines imp ls) y := by
    intro imp
    obtain ⟨⟨net, bs'⟩, hm⟩ := (C133_builds { shippedWorld with
      buses := fun _ => some (singleBuses bs), lines := fun _ => some (Spec.sequenceLines imp ls) } name).2
      ⟨singleBuses bs, Spec.sequenceLines imp ls, rfl, rfl, hT.buildable imp⟩
    obtain ⟨ls2, e1, e2, -⟩ := C133_single hm
    cases e1
    obtain ⟨ls3, e3, hg⟩ := C133_ybus hm sn
    cases e3
    have hg := singleBuses_grid.2 hg
    exact ⟨_, hg.square, _, hg, fun i _ j _ _ _ => rfl⟩
  obtain ⟨y0, g0⟩ := key Spec.zero
  obtain ⟨y1, g1⟩ := key Spec.positive
  obtain ⟨y, hy, -⟩ := phaseForm_entries bs.length g0.1 g1.1 g1.1
  exact ⟨y0, y1, y1, y, g0, g1, g1, hy⟩

example : ∃ y0 y1 y2, Spec.Reducible3 test3PhaseBus y0 y1 y2 ∧ Spec.GridBesides 1 test3PhaseBus (Spec.sequenceLines Spec.zero test3PhaseNet) y0 := by
  obtain ⟨y0, y1, y2, y, g0, g1, g2, -⟩ := sequence_matrices (name := "test_3phase") rfl rfl (sn := 1)
  exact ⟨y0, y1, y2, (C136_three_matrices (name := "test_3phase") rfl rfl one_pos g0 g1 g2).2, g0⟩

end
end Verif
