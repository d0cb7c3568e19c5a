/-
Properties C52 and C53: assembly of the results of three phases or sequences, and of their logs.
-/
import Verif.Spec.Phases
import Verif.Props.Store
import Verif.Props.Identification
import Verif.Lemmas.PySet

namespace Verif
open Prog hiding pure bind read save call ofExcept
open Spec (LabelPos Assembled Merged columnsAt blockAt entriesAt IsSquare IsSymm)

/-! ### positions of a label -/

theorem labelPos_range {ids : List Int} {l : Int} {m : Nat} {f : Nat → Nat} (h : LabelPos ids l m f) {p a : Nat} (hp : p ≤ ids.length)
    (ha : a ≤ m) (hpa : ∀ b, b < m → (f b < p ↔ b < a)) :
    (List.range p).filter (fun k => decide (ids.getD k 0 = l)) = (List.range a).map f := by
  have hs : ((List.range a).map f).Pairwise (· < ·) := by
    rw [List.pairwise_map]
    refine List.Pairwise.imp_of_mem ?_ (List.pairwise_lt_range (n := a))
    intro x y hx hy hxy
    exact h.mono x y hxy (by have := List.mem_range.1 hy; omega)
  have hs' : ((List.range p).filter (fun k => decide (ids.getD k 0 = l))).Pairwise (· < ·) := (List.pairwise_lt_range).filter _
  refine PySet.eq_of_perm_sorted ?_ hs' hs
  refine (List.perm_ext_iff_of_nodup (hs'.imp (fun h => by omega)) (hs.imp (fun h => by omega))).2 fun x => ?_
  simp only [List.mem_filter, List.mem_range, decide_eq_true_eq, List.mem_map]
  constructor
  · rintro ⟨h1, h2⟩
    obtain ⟨b, hb, rfl⟩ := h.all x (by omega) h2
    exact ⟨b, (hpa b hb).1 h1, rfl⟩
  · rintro ⟨b, hb, rfl⟩
    exact ⟨(hpa b (by omega)).2 hb, h.label b (by omega)⟩

theorem labelled_eq {ids : List Int} {l : Int} {m : Nat} {f : Nat → Nat} (h : LabelPos ids l m f) : labelled ids l = (List.range m).map f :=
  labelPos_range h le_rfl le_rfl fun b hb => ⟨fun _ => hb, fun _ => h.lt b hb⟩

theorem take_count (ids : List Int) (l : Int) : ∀ p, p ≤ ids.length →
    (ids.take p).count l = ((List.range p).filter (fun k => decide (ids.getD k 0 = l))).length
  | 0, _ => rfl
  | p + 1, hp => by
    rw [List.take_succ_eq_append_getElem (by omega), List.count_append, take_count ids l p (by omega), List.range_succ, List.filter_append,
      List.length_append]
    congr 1
    have hg : ids.getD p 0 = ids[p] := by simp [List.getD, List.getElem?_eq_getElem (show p < ids.length by omega)]
    by_cases he : ids[p] = l
    · rw [List.filter_cons_of_pos (by rw [hg]; exact decide_eq_true he)]
      simp [he]
    · rw [List.filter_cons_of_neg (by rw [hg]; simpa using he)]
      simp [he]

theorem count_eq {ids : List Int} {l : Int} {m : Nat} {f : Nat → Nat} (h : LabelPos ids l m f) : ids.count l = m := by
  have := take_count ids l ids.length le_rfl
  rw [List.take_length] at this
  rw [this]
  have e := labelled_eq h
  unfold labelled at e
  rw [e]
  simp

theorem labelRank_eq {ids : List Int} {l : Int} {m : Nat} {f : Nat → Nat} (h : LabelPos ids l m f) {a : Nat} (ha : a < m) :
    labelRank ids l (f a) = a := by
  have hf := h.lt a ha
  have hm : ∀ b, b < m → (f b < f a ↔ b < a) := fun b hb => by
    constructor
    · intro h1
      by_contra h2
      rcases Nat.lt_or_ge a b with h3 | h3
      · have := h.mono a b h3 hb; omega
      · have : a = b := by omega
        subst this; omega
    · intro h1
      exact h.mono b a h1 ha
  unfold labelRank
  rw [take_count ids l (f a) (by omega), labelPos_range h (by omega) (by omega) hm]
  simp

/-- every label has such positions -/
theorem exists_labelPos (ids : List Int) (l : Int) : ∃ m f, LabelPos ids l m f := by
  have hs : (labelled ids l).Pairwise (· < ·) := (List.pairwise_lt_range).filter _
  have hmem : ∀ a, a < (labelled ids l).length → (labelled ids l).getD a 0 ∈ labelled ids l := fun a ha => by
    simp [List.getD, List.getElem?_eq_getElem ha]
  refine ⟨(labelled ids l).length, fun a => (labelled ids l).getD a 0, ⟨?_, ?_, ?_, ?_⟩⟩
  · intro a b hab hb
    rw [List.pairwise_iff_getElem] at hs
    have := hs a b (by omega) hb hab
    simpa [List.getD, List.getElem?_eq_getElem hb, List.getElem?_eq_getElem (show a < (labelled ids l).length by omega)] using this
  · intro a ha
    have := hmem a ha
    simp only [labelled, List.mem_filter, List.mem_range] at this
    exact this.1
  · intro a ha
    have := hmem a ha
    simp only [labelled, List.mem_filter, List.mem_range, decide_eq_true_eq] at this
    exact this.2
  · intro p hp hl
    have : p ∈ labelled ids l := by
      simp only [labelled, List.mem_filter, List.mem_range, decide_eq_true_eq]
      exact ⟨hp, hl⟩
    obtain ⟨a, ha, he⟩ := List.getElem_of_mem this
    exact ⟨a, ha, by simp [List.getD, List.getElem?_eq_getElem ha, he]⟩

theorem labelCols_eq {ids : List Int} {l : Int} {m : Nat} {f : Nat → Nat} (h : LabelPos ids l m f) {a : Arr2 ℂ} (hc : ids.length = a.c) :
    a.labelCols ids l = .ok (columnsAt a m f) := by
  refine (if_pos hc).trans (congrArg Except.ok ?_)
  rw [labelled_eq h]
  refine Arr2.ext' rfl (by simp [columnsAt]) fun t j ht hj => ?_
  have hj' : j < m := by simpa using hj
  have ht' : t < a.r := ht
  rw [Arr2.ofFn_get _ ht' (by simpa using hj'), columnsAt, Arr2.ofFn_get _ ht' hj', getD_map_range _ _ _ hj']

theorem labelBlock_eq {ids : List Int} {l : Int} {m : Nat} {f : Nat → Nat} (h : LabelPos ids l m f) {y : Arr2 ℂ}
    (hy : IsSquare ids.length y) : labelBlock y ids l = .ok (blockAt y m f) := by
  have h1 : y.labelRows ids l = .ok (Arr2.ofFn m y.c (fun k j => y.get (f k) j)) := by
    refine (if_pos hy.1.symm).trans (congrArg Except.ok ?_)
    rw [labelled_eq h]
    refine Arr2.ext' (by simp) rfl fun t j ht hj => ?_
    have ht' : t < m := by simpa using ht
    have hj' : j < y.c := hj
    rw [Arr2.ofFn_get _ (by simpa using ht') hj', Arr2.ofFn_get _ ht' hj', getD_map_range _ _ _ ht']
  unfold labelBlock
  rw [h1]
  refine (labelCols_eq (a := Arr2.ofFn m y.c (fun k j => y.get (f k) j)) h hy.2.symm).trans (congrArg Except.ok ?_)
  refine Arr2.ext' rfl rfl fun a b ha hb => ?_
  have ha' : a < m := ha
  have hb' : b < m := hb
  rw [columnsAt, blockAt, Arr2.ofFn_get _ (show a < (Arr2.ofFn m y.c (fun k j => y.get (f k) j)).r from ha') hb', Arr2.ofFn_get _ ha' hb', Arr2.ofFn_get _ ha' (by rw [hy.2]; exact h.lt b hb')]

theorem labelEntries_eq {ids : List Int} {l : Int} {m : Nat} {f : Nat → Nat} (h : LabelPos ids l m f) {v : List ℝ}
    (hv : ids.length = v.length) : labelEntries v ids l = .ok (entriesAt v m f) := by
  refine (if_pos hv).trans (congrArg Except.ok ?_)
  rw [labelled_eq h, entriesAt, List.map_map]
  rfl

/-! ### assembly -/

theorem scatter_step {ids : List Int} {l : Int} {m : Nat} {f : Nat → Nat} (h : LabelPos ids l m f) {a b : Arr2 ℂ}
    (ha : IsSquare ids.length a) (hb : IsSquare m b) : ∃ a', a.scatter ids l b = .ok a' ∧ IsSquare ids.length a' ∧
    (∀ s t, s < m → t < m → a'.get (f s) (f t) = b.get s t) ∧
    ∀ p q, p < ids.length → q < ids.length → ¬(ids.getD p 0 = l ∧ ids.getD q 0 = l) → a'.get p q = a.get p q := by
  unfold Arr2.scatter
  rw [if_pos ⟨ha.1.symm, ha.2.symm⟩]
  dsimp only
  rw [count_eq h, if_pos (by rw [hb.1, hb.2])]
  refine ⟨_, rfl, ⟨ha.1, ha.2⟩, ?_, ?_⟩
  · intro s t hs ht
    rw [Arr2.ofFn_get _ (by rw [ha.1]; exact h.lt s hs) (by rw [ha.2]; exact h.lt t ht), if_pos ⟨h.label s hs, h.label t ht⟩,
      labelRank_eq h hs, labelRank_eq h ht]
    unfold Arr2.flatAt
    rw [hb.2, Nat.mul_comm s m, Nat.mul_add_div (by omega), Nat.div_eq_of_lt ht, Nat.mul_add_mod, Nat.mod_eq_of_lt ht, Nat.add_zero]
  · intro p q hp hq hn
    rw [Arr2.ofFn_get _ (by rw [ha.1]; exact hp) (by rw [ha.2]; exact hq), if_neg hn]

/-- the three assignments give an assembled matrix -/
theorem assemble {ids : List Int} {m : Fin 3 → Nat} {f : Fin 3 → Nat → Nat} (h : ∀ l : Fin 3, LabelPos ids (l.val : Int) (m l) (f l))
    {ys : Fin 3 → Arr2 ℂ} (hy : ∀ l, IsSquare (m l) (ys l)) {n : Nat} (hn : n = ids.length) :
    ∃ a1 a2 a3, (Arr2.zeros n n).scatter ids 0 (ys 0) = .ok a1 ∧ a1.scatter ids 1 (ys 1) = .ok a2 ∧
      a2.scatter ids 2 (ys 2) = .ok a3 ∧ IsSquare n a1 ∧ IsSquare n a2 ∧ Assembled ids m f ys a3 := by
  subst hn
  obtain ⟨a1, e1, s1, b1, r1⟩ := scatter_step (l := 0) (h 0) (a := Arr2.zeros ids.length ids.length) ⟨rfl, rfl⟩ (hy 0)
  obtain ⟨a2, e2, s2, b2, r2⟩ := scatter_step (l := 1) (h 1) s1 (hy 1)
  obtain ⟨a3, e3, s3, b3, r3⟩ := scatter_step (l := 2) (h 2) s2 (hy 2)
  have hz : ∀ p q, (Arr2.zeros ids.length ids.length : Arr2 ℂ).get p q = 0 := fun p q => by
    unfold Arr2.zeros
    rw [Arr2.ofFn_get']
    split <;> rfl
  have hall : ∀ p q, p < ids.length → q < ids.length → (∀ l : Fin 3, ¬(ids.getD p 0 = (l.val : Int) ∧ ids.getD q 0 = (l.val : Int))) →
      a3.get p q = 0 := fun p q hp hq hh => by
    rw [r3 p q hp hq (hh 2), r2 p q hp hq (hh 1), r1 p q hp hq (hh 0), hz]
  refine ⟨a1, a2, a3, e1, e2, e3, s1, s2, s3, ?_, ?_, ?_⟩
  · intro l s t hs ht
    have hb : ∀ l' : Int, l' ≠ (l.val : Int) → ¬(ids.getD (f l s) 0 = l' ∧ ids.getD (f l t) 0 = l') := fun l' hl' hh =>
      hl' (hh.1.symm.trans ((h l).label s hs))
    have p1 := (h l).lt s hs
    have p2 := (h l).lt t ht
    fin_cases l
    · rw [r3 _ _ p1 p2 (hb 2 (by decide)), r2 _ _ p1 p2 (hb 1 (by decide))]
      exact b1 s t hs ht
    · rw [r3 _ _ p1 p2 (hb 2 (by decide))]
      exact b2 s t hs ht
    · exact b3 s t hs ht
  · intro p q hp hq hne
    exact hall p q hp hq fun l hh => hne (hh.1.trans hh.2.symm)
  · intro p q hp hq hne
    exact hall p q hp hq fun l hh => hne l hh.1

/-- an assembly of symmetric matrices is symmetric -/
theorem Spec.Assembled.symm {ids : List Int} {m : Fin 3 → Nat} {f : Fin 3 → Nat → Nat}
    (h : ∀ l : Fin 3, LabelPos ids (l.val : Int) (m l) (f l)) {ys : Fin 3 → Arr2 ℂ} {y : Arr2 ℂ} (ha : Assembled ids m f ys y)
    (hy : ∀ l, IsSymm (ys l)) : IsSymm y := by
  refine ⟨ha.square.1.trans ha.square.2.symm, fun p q => ?_⟩
  by_cases hpq : p < ids.length ∧ q < ids.length
  · obtain ⟨hp, hq⟩ := hpq
    by_cases he : ids.getD p 0 = ids.getD q 0
    · by_cases hl : ∃ l : Fin 3, ids.getD p 0 = (l.val : Int)
      · obtain ⟨l, hl⟩ := hl
        obtain ⟨s, hs, rfl⟩ := (h l).all p hp hl
        obtain ⟨t, ht, rfl⟩ := (h l).all q hq (he.symm.trans hl)
        rw [ha.block l s t hs ht, ha.block l t s ht hs]
        exact (hy l).2 s t
      · push Not at hl
        rw [ha.other p q hp hq hl, ha.other q p hq hp fun l => by rw [← he]; exact hl l]
    · rw [ha.cross p q hp hq he, ha.cross q p hq hp fun e => he e.symm]
  · have h1 := ha.square.1
    have h2 := ha.square.2
    rw [y.oob p q (by rw [h1, h2]; exact hpq), y.oob q p (by rw [h1, h2]; tauto)]

/-- an assembly is determined by its blocks -/
theorem Spec.Assembled.unique {ids : List Int} {m : Fin 3 → Nat} {f : Fin 3 → Nat → Nat}
    (h : ∀ l : Fin 3, LabelPos ids (l.val : Int) (m l) (f l)) {ys : Fin 3 → Arr2 ℂ} {y y' : Arr2 ℂ} (ha : Assembled ids m f ys y)
    (ha' : Assembled ids m f ys y') : y = y' := by
  refine Arr2.ext' (ha.square.1.trans ha'.square.1.symm) (ha.square.2.trans ha'.square.2.symm) fun p q hp hq => ?_
  rw [ha.square.1] at hp
  rw [ha.square.2] at hq
  by_cases he : ids.getD p 0 = ids.getD q 0
  · by_cases hl : ∃ l : Fin 3, ids.getD p 0 = (l.val : Int)
    · obtain ⟨l, hl⟩ := hl
      obtain ⟨s, hs, rfl⟩ := (h l).all p hp hl
      obtain ⟨t, ht, rfl⟩ := (h l).all q hq (he.symm.trans hl)
      rw [ha.block l s t hs ht, ha'.block l s t hs ht]
    · push Not at hl
      rw [ha.other p q hp hq hl, ha'.other p q hp hq hl]
  · rw [ha.cross p q hp hq he, ha'.cross p q hp hq he]

/-! ### shapes -/

/-- shapes of the results of the numerical routines -/
structure Spec.Shapes (ext : NumExt) : Prop where
  pinv : ∀ a b, ext.pinv a = .ok b → b.r = a.c ∧ b.c = a.r
  svd : ∀ a b, ext.svdVh a = .ok b → b.r = a.c ∧ b.c = a.c
  inv : ∀ a b, ext.inv a = .ok b → b.r = a.r ∧ b.c = a.c

theorem centreData_shape (lap : Bool) (v i : Arr2 ℂ) : (centreData lap v i).1.r = v.r ∧ (centreData lap v i).1.c = v.c ∧
    (centreData lap v i).2.r = i.r ∧ (centreData lap v i).2.c = i.c := by
  unfold centreData
  split
  · exact ⟨rfl, rfl, rfl, rfl⟩
  · exact ⟨rfl, rfl, rfl, rfl⟩

theorem fitted_ok {r : Except PyErr Unit × RegObj} {y : Arr2 ℂ} {log : List IterationStatus} (h : fitted r = .ok (y, log)) :
    r.1 = .ok () ∧ r.2.admittance = some y ∧ r.2.iterations = log := by
  obtain ⟨e, o⟩ := r
  unfold fitted at h
  cases e with
  | error e => cases h
  | ok u =>
    dsimp only at h
    split at h
    · rename_i y' hy'
      cases h
      exact ⟨rfl, hy', rfl⟩
    · cases h

theorem standardCompute_square {ext : NumExt} (hs : Spec.Shapes ext) {cf : IdConf} {v c : Arr2 ℂ} {lap : Bool} {iters m : Nat}
    (hv : v.c = m) (hc : c.c = m) {r : Arr2 ℂ × Arr2 ℂ × Arr2 ℂ} (h : standardCompute ext cf v c lap iters = .ok r) :
    IsSquare m r.1 ∧ IsSquare m r.2.1 ∧ IsSquare m r.2.2 := by
  obtain ⟨s1, s2, s3, s4⟩ := centreData_shape lap v c
  unfold standardCompute at h
  generalize centreData lap v c = d at h s1 s2 s3 s4
  obtain ⟨x, z⟩ := d
  dsimp only at h s1 s2 s3 s4
  obtain ⟨yo, ho, h⟩ := Prior.bind_ok h
  obtain ⟨yt, ht, h⟩ := Prior.bind_ok h
  obtain ⟨pr, hp, h⟩ := Prior.bind_ok h
  have hyo : IsSquare m yo := by
    unfold complexRegressionFit at ho
    obtain ⟨p, h1, h2⟩ := Prior.bind_ok ho
    have := hs.pinv _ _ h1
    unfold Arr2.matmul at h2
    split at h2
    · cases h2
      exact ⟨by show p.r = m; omega, by show z.c = m; omega⟩
    · cases h2
  have hyt : IsSquare m yt := by
    unfold tlsFit at ht
    dsimp only at ht
    obtain ⟨xy, h1, ht⟩ := Prior.bind_ok ht
    obtain ⟨vh, h2, ht⟩ := Prior.bind_ok ht
    obtain ⟨vi, h3, ht⟩ := Prior.bind_ok ht
    rename' ht => h4
    have e2 := hs.svd _ _ h2
    have e3 := hs.inv _ _ h3
    unfold hstack at h1
    split at h1
    · cases h1
      have e2' : vh.r = x.c + z.c ∧ vh.c = x.c + z.c := e2
      unfold Arr2.matmul at h4
      split at h4
      · cases h4
        constructor
        · show min x.c vh.c - 0 = m
          omega
        · show vi.c = m
          rw [e3.2]
          show vh.r - min x.c vh.r = m
          omega
      · cases h4
    · cases h1
  split at h
  · rename_i hi
    obtain ⟨y0, h0, h⟩ := Prior.bind_ok h
    obtain ⟨⟨yl, log⟩, hl, h⟩ := Prior.bind_ok h
    cases h
    refine ⟨hyo, hyt, ?_⟩
    generalize hfit : bayesianFit ext.solve (regConfig cf pr cf.lambdaLasso lap iters) .fresh x z y0 = q at hl
    obtain ⟨res, obj⟩ := q
    obtain ⟨f1, f2, -⟩ := fitted_ok hl
    obtain ⟨Y, g1, g2, -⟩ := (C32_regression ext.solve _ lap rfl x z y0 hfit).2 f1 hi
    rw [show obj.admittance = some yl from f2] at g1
    cases g1
    rw [← hv, ← s2]
    exact g2
  · cases h
    exact ⟨hyo, hyt, hyo⟩

theorem eivWeights_shape {v c : Arr2 ℂ} {vsd isd : SdPolar} {ratings : List ℝ} {weighted pmu : Bool} {cv ci : Arr2 ℂ}
    {wv wi : Option (Arr2 ℝ)} (h : eivWeights v c vsd isd ratings weighted pmu = .ok (cv, ci, wv, wi)) : cv.c = v.c := by
  unfold eivWeights at h
  split at h
  · obtain ⟨_, -, h⟩ := Prior.bind_ok h
    obtain ⟨_, -, h⟩ := Prior.bind_ok h
    cases h
    rfl
  · split at h
    · obtain ⟨_, -, h⟩ := Prior.bind_ok h
      obtain ⟨_, -, h⟩ := Prior.bind_ok h
      obtain ⟨_, -, h⟩ := Prior.bind_ok h
      cases h
      rfl
    · cases h
      rfl

/-- what the Bayesian method computes is square and symmetric, as are its iterates -/
theorem eivCompute_square {ext : NumExt} {cf : IdConf} {prior : Prior} {v c : Arr2 ℂ} {vsd isd : SdPolar} {ratings : List ℝ}
    {y0 : Arr2 ℂ} {lap weighted : Bool} {iters : Nat} {pmu : Bool} (hi : 0 < iters) {r : Arr2 ℂ × List IterationStatus}
    (h : eivCompute ext cf prior v c vsd isd ratings y0 lap weighted iters pmu = .ok r) :
    IsSquare v.c r.1 ∧ IsSymm r.1 ∧ ∀ e ∈ r.2, IsSquare v.c e.params ∧ IsSymm e.params := by
  unfold eivCompute at h
  obtain ⟨⟨cv, ci, wv, wi⟩, h1, h⟩ := Prior.bind_ok h
  have hw := eivWeights_shape h1
  dsimp only at h
  obtain ⟨-, s2, -, -⟩ := centreData_shape lap cv ci
  generalize centreData lap cv ci = d at h s2
  obtain ⟨x, z⟩ := d
  dsimp only at h s2
  generalize hfit : eivFit ext.solve ext.inv (regConfig cf prior cf.lambdaEiv lap iters) .fresh x z wv wi y0 = q at h
  obtain ⟨res, obj⟩ := q
  obtain ⟨y, log⟩ := r
  obtain ⟨f1, f2, f3⟩ := fitted_ok h
  obtain ⟨g1, g2⟩ := C32_eiv ext.solve ext.inv _ lap rfl x z wv wi y0 hfit
  obtain ⟨Y, g2, g3, g4⟩ := g2 f1 hi
  rw [show obj.admittance = some y from f2] at g2
  cases g2
  rw [← hw, ← s2]
  refine ⟨g3, g4.1, ?_⟩
  rw [show obj.iterations = log from f3] at g1
  exact fun e he => ⟨(g1 e he).1, (g1 e he).2.1⟩

/-! ### C52, standard methods -/

theorem standardMethods_fst (ext : NumExt) (cf : IdConf) (name : String) (v c : Arr2 ℂ) (lap : Bool) (iters : Nat) (st : Store) :
    (standardMethods ext cf name (some v) (some c) lap iters st).1 = standardCompute ext cf v c lap iters := by
  unfold standardMethods
  dsimp only
  split
  · rename_i h; exact h.symm
  · rename_i h; exact h.symm

variable {ext : NumExt} {cf : IdConf} {name : String} {v c : Arr2 ℂ} {ids : List Int} {lap : Bool} {iters : Nat}

theorem standardStep_ok (hv : ids.length = v.c) (hc : ids.length = c.c) {i : Int} {m : Nat} {f : Nat → Nat} (hp : LabelPos ids i m f)
    {r : Arr2 ℂ × Arr2 ℂ × Arr2 ℂ} (hr : standardCompute ext cf (columnsAt v m f) (columnsAt c m f) lap iters = .ok r)
    {y : Arr2 ℂ × Arr2 ℂ × Arr2 ℂ} {o t l : Arr2 ℂ} (ho : y.1.scatter ids i r.1 = .ok o) (ht : y.2.1.scatter ids i r.2.1 = .ok t)
    (hl : y.2.2.scatter ids i r.2.2 = .ok l) (st : Store) :
    (standardStep ext cf name v c ids lap iters y i st).res = .ok (o, t, l) := by
  have hm := standardMethods_fst ext cf name (columnsAt v m f) (columnsAt c m f) lap iters st
  rw [hr] at hm
  unfold standardStep
  simp [bind_def, Prog.bind, labelCols_eq hp hv, labelCols_eq hp hc, hm, ho, ht, hl]

theorem standardStep_inv (hv : ids.length = v.c) (hc : ids.length = c.c) {i : Int} {m : Nat} {f : Nat → Nat} (hp : LabelPos ids i m f)
    {y y' : Arr2 ℂ × Arr2 ℂ × Arr2 ℂ} {st : Store} (h : (standardStep ext cf name v c ids lap iters y i st).res = .ok y') :
    ∃ r, standardCompute ext cf (columnsAt v m f) (columnsAt c m f) lap iters = .ok r := by
  unfold standardStep at h
  obtain ⟨v', h1, h, -, -⟩ := bind_res_ok h
  obtain ⟨c', h2, h, -, -⟩ := bind_res_ok h
  obtain ⟨r, h3, -, -, -⟩ := bind_res_ok h
  simp only [ofExcept_run, call_run] at h1 h2 h3
  rw [labelCols_eq hp hv] at h1
  rw [labelCols_eq hp hc] at h2
  cases h1
  cases h2
  rw [standardMethods_fst] at h3
  exact ⟨r, h3⟩

/-- what the run returns, from the runs for each label -/
theorem standardMethods3_ok (hs : Spec.Shapes ext) (hv : ids.length = v.c) (hc : ids.length = c.c) {m : Fin 3 → Nat}
    {f : Fin 3 → Nat → Nat} (hp : ∀ l : Fin 3, LabelPos ids (l.val : Int) (m l) (f l)) {rs : Fin 3 → Arr2 ℂ × Arr2 ℂ × Arr2 ℂ}
    (hr : ∀ l, standardCompute ext cf (columnsAt v (m l) (f l)) (columnsAt c (m l) (f l)) lap iters = .ok (rs l)) (st : Store) :
    ∃ r, (standardMethods3 ext cf name (some v) (some c) (some ids) lap iters st).res = .ok r ∧
      Assembled ids m f (fun l => (rs l).1) r.1 ∧ Assembled ids m f (fun l => (rs l).2.1) r.2.1 ∧
      Assembled ids m f (fun l => (rs l).2.2) r.2.2 := by
  have hq := fun l => standardCompute_square hs (v := columnsAt v (m l) (f l)) (c := columnsAt c (m l) (f l)) (m := m l) rfl rfl (hr l)
  obtain ⟨o1, o2, o3, ho1, ho2, ho3, -, -, hoA⟩ := assemble hp (fun l => (hq l).1) hv.symm
  obtain ⟨t1, t2, t3, ht1, ht2, ht3, -, -, htA⟩ := assemble hp (fun l => (hq l).2.1) hv.symm
  obtain ⟨l1, l2, l3, hl1, hl2, hl3, -, -, hlA⟩ := assemble hp (fun l => (hq l).2.2) hv.symm
  refine ⟨(o3, t3, l3), ?_, hoA, htA, hlA⟩
  have hloop : (standardLoop ext cf name v c ids lap iters st).res = .ok (o3, t3, l3) := by
    unfold standardLoop
    have e0 := standardStep_ok (i := 0) (name := name) hv hc (hp 0) (hr 0)
      (y := (Arr2.zeros v.c v.c, Arr2.zeros v.c v.c, Arr2.zeros v.c v.c)) ho1 ht1 hl1 st
    rw [Prog.bind_ok e0]
    dsimp only
    generalize (standardStep ext cf name v c ids lap iters _ _ st).store = st1
    have e1 := standardStep_ok (i := 1) (name := name) hv hc (hp 1) (hr 1) (y := (o1, t1, l1)) ho2 ht2 hl2 st1
    rw [Prog.bind_ok e1]
    dsimp only
    exact standardStep_ok (i := 2) (name := name) hv hc (hp 2) (hr 2) (y := (o2, t2, l2)) ho3 ht3 hl3 _
  unfold standardMethods3
  dsimp only
  rw [Prog.bind_ok hloop]
  rfl

/-- C52, standard methods: the run succeeds exactly when the runs for the data of each label do, and the results are those of the
labels in their blocks and zeros elsewhere -/
theorem C52_standard (hs : Spec.Shapes ext) (hv : ids.length = v.c) (hc : ids.length = c.c) {m : Fin 3 → Nat}
    {f : Fin 3 → Nat → Nat} (hp : ∀ l : Fin 3, LabelPos ids (l.val : Int) (m l) (f l)) (st : Store) (r : Arr2 ℂ × Arr2 ℂ × Arr2 ℂ) :
    (standardMethods3 ext cf name (some v) (some c) (some ids) lap iters st).res = .ok r ↔
    ∃ rs : Fin 3 → Arr2 ℂ × Arr2 ℂ × Arr2 ℂ,
      (∀ l st', (standardMethods ext cf name (some (columnsAt v (m l) (f l))) (some (columnsAt c (m l) (f l))) lap iters st').1 =
        .ok (rs l)) ∧
      Assembled ids m f (fun l => (rs l).1) r.1 ∧ Assembled ids m f (fun l => (rs l).2.1) r.2.1 ∧
      Assembled ids m f (fun l => (rs l).2.2) r.2.2 := by
  simp only [standardMethods_fst, forall_const]
  constructor
  · intro h
    have hex : ∀ l : Fin 3, ∃ r, standardCompute ext cf (columnsAt v (m l) (f l)) (columnsAt c (m l) (f l)) lap iters = .ok r := by
      unfold standardMethods3 at h
      dsimp only at h
      obtain ⟨y, h, -, -, -⟩ := bind_res_ok h
      unfold standardLoop at h
      obtain ⟨y0, h0, h, -, -⟩ := bind_res_ok h
      obtain ⟨y1, h1, h2, -, -⟩ := bind_res_ok h
      intro l
      fin_cases l
      · exact standardStep_inv hv hc (hp 0) h0
      · exact standardStep_inv hv hc (hp 1) h1
      · exact standardStep_inv hv hc (hp 2) h2
    choose rs hrs using hex
    obtain ⟨r', h1, h2⟩ := standardMethods3_ok (name := name) hs hv hc hp hrs st
    rw [h1] at h
    cases h
    exact ⟨rs, hrs, h2⟩
  · rintro ⟨rs, hrs, h1, h2, h3⟩
    obtain ⟨r', g, g1, g2, g3⟩ := standardMethods3_ok (name := name) hs hv hc hp hrs st
    rw [g]
    congr 1
    exact Prod.ext (g1.unique hp h1) (Prod.ext (g2.unique hp h2) (g3.unique hp h3))

/-! ### C53 -/

theorem Spec.Merged.unique {m : Fin 3 → Nat} {f : Fin 3 → Nat → Nat} (hp : ∀ l : Fin 3, LabelPos ids (l.val : Int) (m l) (f l))
    {logs : Fin 3 → List IterationStatus} {log log' : List IterationStatus} (h : Merged ids m f logs log)
    (h' : Merged ids m f logs log') : log = log' := by
  have hlen : log.length = log'.length := by
    obtain ⟨l, hl⟩ := h.shortest.2
    obtain ⟨l', hl'⟩ := h'.shortest.2
    have := h.shortest.1 l'
    have := h'.shortest.1 l
    omega
  refine List.ext_getElem hlen fun k hk hk' => ?_
  obtain ⟨es, a1, a2, a3, a4⟩ := h.entry k _ (List.getElem?_eq_getElem hk)
  obtain ⟨es', b1, b2, b3, b4⟩ := h'.entry k _ (List.getElem?_eq_getElem hk')
  have he : es = es' := funext fun l => by
    exact Option.some.inj ((a1 l).symm.trans (b1 l))
  subst he
  have hpar := a4.unique hp b4
  generalize log[k] = e at a2 a3 hpar
  generalize log'[k] = e' at b2 b3 hpar
  obtain ⟨i, y, t⟩ := e
  obtain ⟨i', y', t'⟩ := e'
  dsimp only at a2 a3 b2 b3 hpar
  subst a2 b2 hpar
  rw [a3, b3]

theorem mergedLog_ok {m : Fin 3 → Nat} {f : Fin 3 → Nat → Nat} (hp : ∀ l : Fin 3, LabelPos ids (l.val : Int) (m l) (f l))
    {logs : Fin 3 → List IterationStatus} (hl : ∀ l, ∀ e ∈ logs l, IsSquare (m l) e.params) :
    ∃ log, mergedLog ids.length ids logs = .ok log ∧ Merged ids m f logs log := by
  have hN : ∀ N, N = min (min (logs 0).length (logs 1).length) (logs 2).length → ∃ log, forRange N [] (fun acc k => do
      let e ← mergedEntry ids.length ids logs k
      pure (acc ++ [e])) = .ok log ∧ log.length = N ∧ ∀ (k : Nat) (e : IterationStatus), log[k]? = some e →
        ∃ es : Fin 3 → IterationStatus, (∀ l, (logs l)[k]? = some (es l)) ∧ e.iteration = k ∧
          e.target = (es 0).target + (es 1).target + (es 2).target ∧ Assembled ids m f (fun l => (es l).params) e.params := by
    intro N hN
    refine forRange_inv (fun n (log : List IterationStatus) => log.length = n ∧ ∀ (k : Nat) (e : IterationStatus), log[k]? = some e →
        ∃ es : Fin 3 → IterationStatus, (∀ l, (logs l)[k]? = some (es l)) ∧ e.iteration = k ∧
          e.target = (es 0).target + (es 1).target + (es 2).target ∧ Assembled ids m f (fun l => (es l).params) e.params) N [] _
      ⟨rfl, by simp⟩ ?_
    rintro k hk log ⟨h1, h2⟩
    have g0 : k < (logs 0).length := by omega
    have g1 : k < (logs 1).length := by omega
    have g2 : k < (logs 2).length := by omega
    have gl : ∀ l, k < (logs l).length := by
      intro l
      fin_cases l
      · exact g0
      · exact g1
      · exact g2
    obtain ⟨y1, y2, y3, e1, e2, e3, -, -, hA⟩ := assemble hp (ys := fun l => ((logs l)[k]'(gl l)).params)
      (fun l => hl l _ (List.getElem_mem (gl l))) rfl
    refine ⟨log ++ [⟨k, y3, 0 + ((logs 0)[k]).target + ((logs 1)[k]).target + ((logs 2)[k]).target⟩], ?_, by simp [h1], ?_⟩
    · unfold mergedEntry
      rw [List.getElem?_eq_getElem g0, List.getElem?_eq_getElem g1, List.getElem?_eq_getElem g2]
      dsimp only at e1 e2 e3 ⊢
      simp [e1, e2, e3, bind, Except.bind, pure, Except.pure]
    · intro k' e' he'
      rw [List.getElem?_append] at he'
      split at he'
      · exact h2 k' e' he'
      · rename_i hlt
        have : k' = k := by
          by_contra hne
          rw [List.getElem?_eq_none (by simp; omega)] at he'
          cases he'
        subst this
        rw [h1, Nat.sub_self] at he'
        cases he'
        exact ⟨fun l => (logs l)[k']'(gl l), fun l => List.getElem?_eq_getElem (gl l), rfl, by simp, hA⟩
  obtain ⟨log, h1, h2, h3⟩ := hN _ rfl
  refine ⟨log, h1, ⟨⟨?_, ?_⟩, h3⟩⟩
  · intro l
    fin_cases l
    · show _ ≤ (logs 0).length; omega
    · show _ ≤ (logs 1).length; omega
    · show _ ≤ (logs 2).length; omega
  · rcases Nat.le_total (logs 0).length (logs 1).length with h01 | h01
    · rcases Nat.le_total (logs 0).length (logs 2).length with h02 | h02
      · exact ⟨0, by omega⟩
      · exact ⟨2, by omega⟩
    · rcases Nat.le_total (logs 1).length (logs 2).length with h12 | h12
      · exact ⟨1, by omega⟩
      · exact ⟨2, by omega⟩

/-- C53: the merged log exists and is the one specified -/
theorem C53 {m : Fin 3 → Nat} {f : Fin 3 → Nat → Nat} (hp : ∀ l : Fin 3, LabelPos ids (l.val : Int) (m l) (f l))
    {logs : Fin 3 → List IterationStatus} (hl : ∀ l, ∀ e ∈ logs l, IsSquare (m l) e.params) (log : List IterationStatus) :
    mergedLog ids.length ids logs = .ok log ↔ Merged ids m f logs log := by
  obtain ⟨log', h1, h2⟩ := mergedLog_ok hp hl
  rw [h1]
  constructor
  · intro h
    cases h
    exact h2
  · intro h
    rw [h2.unique hp h]

/-! ### C52, Bayesian method -/

variable {vsd isd : SdPolar} {ratings : List ℝ} {y0 : Arr2 ℂ} {ye : Option (Arr2 ℂ)} {weighted pmu : Bool}

theorem bayesianEiv_fst (hi : 0 < iters) (st : Store) :
    (bayesianEiv ext cf name (some v) (some c) vsd isd ratings y0 ye lap weighted iters pmu st).1 =
      (eivPrior cf v.c y0 ye lap >>= fun prior => eivCompute ext cf prior v c vsd isd ratings y0 lap weighted iters pmu) := by
  unfold bayesianEiv
  dsimp only
  split
  · rename_i h; rw [h]; rfl
  · rename_i h
    rw [h, decide_eq_true hi]
    dsimp only
    split
    · rename_i h; exact h.symm
    · rename_i h; exact h.symm

/-- the single-phase run on the data of one label -/
noncomputable def labelRun (ext : NumExt) (cf : IdConf) (name : String) (v c : Arr2 ℂ) (vsd isd : SdPolar) (ratings : List ℝ)
    (y0 : Arr2 ℂ) (ye : Option (Arr2 ℂ)) (lap weighted : Bool) (iters : Nat) (pmu : Bool) (m : Nat) (f : Nat → Nat) (st : Store) :
    Except PyErr (Arr2 ℂ × List IterationStatus) :=
  (bayesianEiv ext cf name (some (columnsAt v m f)) (some (columnsAt c m f)) vsd isd (entriesAt ratings m f) (blockAt y0 m f)
    (ye.map (fun y => blockAt y m f)) lap weighted iters pmu st).1

theorem labelRun_const (hi : 0 < iters) (m : Nat) (f : Nat → Nat) (st st' : Store) :
    labelRun ext cf name v c vsd isd ratings y0 ye lap weighted iters pmu m f st =
      labelRun ext cf name v c vsd isd ratings y0 ye lap weighted iters pmu m f st' := by
  unfold labelRun
  rw [bayesianEiv_fst hi, bayesianEiv_fst hi]

theorem labelRun_square (hi : 0 < iters) {m : Nat} {f : Nat → Nat} {st : Store} {r : Arr2 ℂ × List IterationStatus}
    (h : labelRun ext cf name v c vsd isd ratings y0 ye lap weighted iters pmu m f st = .ok r) :
    IsSquare m r.1 ∧ IsSymm r.1 ∧ ∀ e ∈ r.2, IsSquare m e.params ∧ IsSymm e.params := by
  unfold labelRun at h
  rw [bayesianEiv_fst hi] at h
  obtain ⟨pr, -, h⟩ := Prior.bind_ok h
  exact eivCompute_square hi h

/-- shapes of the arguments -/
structure Spec.PhaseData (ids : List Int) (v c : Arr2 ℂ) (ratings : List ℝ) (y0 : Arr2 ℂ) (ye : Option (Arr2 ℂ)) : Prop where
  v : ids.length = v.c
  c : ids.length = c.c
  ratings : ids.length = ratings.length
  init : IsSquare ids.length y0
  exact : ∀ y, ye = some y → IsSquare ids.length y

theorem bayesianStep_run (hd : Spec.PhaseData ids v c ratings y0 ye) {i : Int} {m : Nat} {f : Nat → Nat} (hp : LabelPos ids i m f)
    (y : Arr2 ℂ) (st : Store) :
    (bayesianStep ext cf name v c ids vsd isd ratings y0 ye lap weighted iters pmu y i st).res =
      (labelRun ext cf name v c vsd isd ratings y0 ye lap weighted iters pmu m f st >>= fun r =>
        y.scatter ids i r.1 >>= fun y' => Except.ok (y', r.2)) := by
  have he : labelExact ye ids i = .ok (ye.map (fun y => blockAt y m f)) := by
    unfold labelExact
    cases ye with
    | none => rfl
    | some y =>
      dsimp only
      rw [labelBlock_eq hp (hd.exact y rfl)]
      rfl
  unfold bayesianStep labelRun
  simp only [bind_def, Prog.bind, ofExcept_run, labelCols_eq hp hd.v, labelCols_eq hp hd.c, labelEntries_eq hp hd.ratings,
    labelBlock_eq hp hd.init, he, call_run]
  generalize (bayesianEiv ext cf name _ _ _ _ _ _ _ _ _ _ _ st) = q
  obtain ⟨q, st'⟩ := q
  dsimp only
  cases q with
  | error e => rfl
  | ok r =>
    dsimp only [bind, Except.bind]
    cases y.scatter ids i r.1 with
    | error e => rfl
    | ok y' => rfl

/-- C52 and C53, Bayesian method: with at least one entry of sequence zero, the run succeeds exactly when the runs for the data of
each label do; the result is assembled from theirs, the log is the merged log, and all matrices are symmetric -/
theorem C52_bayesian (hi : 0 < iters) (h0 : 0 ∈ ids) (hd : Spec.PhaseData ids v c ratings y0 ye) {m : Fin 3 → Nat}
    {f : Fin 3 → Nat → Nat} (hp : ∀ l : Fin 3, LabelPos ids (l.val : Int) (m l) (f l)) (st : Store)
    (r : Arr2 ℂ × List IterationStatus) :
    ((bayesianEiv3 ext cf name v c ids vsd isd ratings y0 ye lap weighted iters pmu st).res = .ok r ↔
      ∃ rs : Fin 3 → Arr2 ℂ × List IterationStatus,
        (∀ l st', labelRun ext cf name v c vsd isd ratings y0 ye lap weighted iters pmu (m l) (f l) st' = .ok (rs l)) ∧
        Assembled ids m f (fun l => (rs l).1) r.1 ∧ Merged ids m f (fun l => (rs l).2) r.2) ∧
    ((bayesianEiv3 ext cf name v c ids vsd isd ratings y0 ye lap weighted iters pmu st).res = .ok r →
      IsSymm r.1 ∧ ∀ e ∈ r.2, IsSymm e.params) := by
  have key : ∀ rs : Fin 3 → Arr2 ℂ × List IterationStatus,
      (∀ l st', labelRun ext cf name v c vsd isd ratings y0 ye lap weighted iters pmu (m l) (f l) st' = .ok (rs l)) →
      ∃ r, (bayesianEiv3 ext cf name v c ids vsd isd ratings y0 ye lap weighted iters pmu st).res = .ok r ∧
        Assembled ids m f (fun l => (rs l).1) r.1 ∧ Merged ids m f (fun l => (rs l).2) r.2 := by
    intro rs hrs
    have hq := fun l => labelRun_square hi (hrs l st)
    obtain ⟨a1, a2, a3, e1, e2, e3, -, -, hA⟩ := assemble hp (fun l => (hq l).1) rfl
    obtain ⟨log, hlog, hM⟩ := mergedLog_ok hp (logs := fun l => (rs l).2) fun l e he => ((hq l).2.2 e he).1
    refine ⟨(a3, log), ?_, hA, hM⟩
    have s0 : ∀ st, (bayesianStep ext cf name v c ids vsd isd ratings y0 ye lap weighted iters pmu (Arr2.zeros y0.r y0.c) 0 st).res =
        .ok (a1, (rs 0).2) := fun st => by
      rw [bayesianStep_run (i := 0) hd (hp 0), hrs 0 st, hd.init.1, hd.init.2]
      dsimp only [bind, Except.bind]
      rw [e1]
    have s1 : ∀ st, (bayesianStep ext cf name v c ids vsd isd ratings y0 ye lap weighted iters pmu a1 1 st).res =
        .ok (a2, (rs 1).2) := fun st => by
      rw [bayesianStep_run (i := 1) hd (hp 1), hrs 1 st]
      dsimp only [bind, Except.bind]
      rw [e2]
    have s2 : ∀ st, (bayesianStep ext cf name v c ids vsd isd ratings y0 ye lap weighted iters pmu a2 2 st).res =
        .ok (a3, (rs 2).2) := fun st => by
      rw [bayesianStep_run (i := 2) hd (hp 2), hrs 2 st]
      dsimp only [bind, Except.bind]
      rw [e3]
    have hlogs : (![(rs 0).2, (rs 1).2, (rs 2).2] : Fin 3 → List IterationStatus) = fun l => (rs l).2 := by
      funext l
      fin_cases l <;> rfl
    unfold bayesianEiv3
    rw [if_pos h0]
    rw [Prog.bind_ok (s0 st)]
    dsimp only
    rw [Prog.bind_ok (s1 _)]
    dsimp only
    rw [Prog.bind_ok (s2 _)]
    dsimp only
    rw [hlogs, hd.init.1, hlog]
    rfl
  have hex : (bayesianEiv3 ext cf name v c ids vsd isd ratings y0 ye lap weighted iters pmu st).res = .ok r →
      ∃ rs : Fin 3 → Arr2 ℂ × List IterationStatus,
        (∀ l st', labelRun ext cf name v c vsd isd ratings y0 ye lap weighted iters pmu (m l) (f l) st' = .ok (rs l)) ∧
        Assembled ids m f (fun l => (rs l).1) r.1 ∧ Merged ids m f (fun l => (rs l).2) r.2 := by
    intro h
    have hl : ∀ l : Fin 3, ∃ q, ∀ st', labelRun ext cf name v c vsd isd ratings y0 ye lap weighted iters pmu (m l) (f l) st' = .ok q := by
      have h' := h
      unfold bayesianEiv3 at h'
      rw [if_pos h0] at h'
      obtain ⟨q0, g0, h', -, -⟩ := bind_res_ok h'
      obtain ⟨q1, g1, h', -, -⟩ := bind_res_ok h'
      obtain ⟨q2, g2, -, -, -⟩ := bind_res_ok h'
      intro l
      fin_cases l
      · rw [bayesianStep_run (i := 0) hd (hp 0)] at g0
        obtain ⟨q, g, -⟩ := Prior.bind_ok g0
        exact ⟨q, fun st' => (labelRun_const hi _ _ _ _).trans g⟩
      · rw [bayesianStep_run (i := 1) hd (hp 1)] at g1
        obtain ⟨q, g, -⟩ := Prior.bind_ok g1
        exact ⟨q, fun st' => (labelRun_const hi _ _ _ _).trans g⟩
      · rw [bayesianStep_run (i := 2) hd (hp 2)] at g2
        obtain ⟨q, g, -⟩ := Prior.bind_ok g2
        exact ⟨q, fun st' => (labelRun_const hi _ _ _ _).trans g⟩
    choose rs hrs using hl
    obtain ⟨r', h1, h2⟩ := key rs hrs
    rw [h1] at h
    cases h
    exact ⟨rs, hrs, h2⟩
  refine ⟨⟨hex, ?_⟩, ?_⟩
  · rintro ⟨rs, hrs, h1, h2⟩
    obtain ⟨r', g, g1, g2⟩ := key rs hrs
    rw [g]
    congr 1
    exact Prod.ext (g1.unique hp h1) (g2.unique hp h2)
  · intro h
    obtain ⟨rs, hrs, h1, h2⟩ := hex h
    have hq := fun l => labelRun_square hi (hrs l st)
    refine ⟨h1.symm hp fun l => (hq l).2.1, fun e he => ?_⟩
    obtain ⟨k, hk⟩ := List.mem_iff_getElem?.1 he
    obtain ⟨es, g1, -, -, g2⟩ := h2.entry k e hk
    exact g2.symm hp fun l => ((hq l).2.2 _ (List.mem_of_getElem? (g1 l))).2

end Verif
