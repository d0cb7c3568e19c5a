/-
C169: command lines.
-/
import Verif.Model.Cli
import Verif.Model.Script
import Verif.Props.Shipped
import Mathlib.Data.List.Perm.Basic

namespace Verif
namespace Cli

/-- declared options: names and letters are different, names are not empty and have no `=`, no letter is a dash -/
structure Spec.Declared (os : List Opt) : Prop where
  names : (os.map Opt.name).Nodup
  plain : ∀ o ∈ os, o.name ≠ [] ∧ '=' ∉ o.name
  letters : ∀ o ∈ os, ∀ p ∈ os, ∀ c, o.short = some c → p.short = some c → o = p
  dash : ∀ o ∈ os, o.short ≠ some '-'

/-- some flags and their letters -/
def Spec.Flags (os : List Opt) (fs : List (Opt × Char)) : Prop := ∀ f ∈ fs, f.1 ∈ os ∧ f.1.kind = .flag ∧ f.1.short = some f.2

/-- the command lines of the manual: each setting in one of its spellings -/
inductive Spec.Spells (os : List Opt) : List (List Char) → List Setting → Prop
  | nil : Spells os [] []
  | stop : Spells os ["--".toList] []
  | longFlag {o args st} : o ∈ os → o.kind = .flag → Spells os args st → Spells os (("--".toList ++ o.name) :: args) ((o, none) :: st)
  | longNext {o v args st} : o ∈ os → o.kind ≠ .flag → Spells os args st →
      Spells os (("--".toList ++ o.name) :: v :: args) ((o, some v) :: st)
  | longEq {o v args st} : o ∈ os → o.kind ≠ .flag → Spells os args st →
      Spells os (("--".toList ++ o.name ++ "=".toList ++ v) :: args) ((o, some v) :: st)
  | flags {fs args st} : fs ≠ [] → Spec.Flags os fs → Spells os args st →
      Spells os (('-' :: fs.map Prod.snd) :: args) (fs.map (fun f => (f.1, none)) ++ st)
  | flagsNext {fs o c v args st} : Spec.Flags os fs → o ∈ os → o.kind ≠ .flag → o.short = some c → Spells os args st →
      Spells os (('-' :: fs.map Prod.snd ++ [c]) :: v :: args) (fs.map (fun f => (f.1, none)) ++ (o, some v) :: st)
  | flagsValue {fs o c v args st} : Spec.Flags os fs → o ∈ os → o.kind ≠ .flag → o.short = some c → v ≠ [] → Spells os args st →
      Spells os (('-' :: fs.map Prod.snd ++ c :: v) :: args) (fs.map (fun f => (f.1, none)) ++ (o, some v) :: st)

theorem splitEq_none {a : List Char} (h : '=' ∉ a) : splitEq a = (a, none) := by
  induction a with
  | nil => rfl
  | cons c t ih =>
    have hc : c ≠ '=' := fun e => h (by simp [e])
    have ht : '=' ∉ t := fun e => h (by simp [e])
    simp [splitEq, hc, ih ht]

theorem splitEq_some {a v : List Char} (h : '=' ∉ a) : splitEq (a ++ '=' :: v) = (a, some v) := by
  induction a with
  | nil => simp [splitEq]
  | cons c t ih =>
    have hc : c ≠ '=' := fun e => h (by simp [e])
    have ht : '=' ∉ t := fun e => h (by simp [e])
    simp [splitEq, hc, ih ht]

/-- a word is put together from its parts -/
theorem splitEq_join (a : List Char) : (∀ v, (splitEq a).2 = some v → a = (splitEq a).1 ++ '=' :: v) ∧
    ((splitEq a).2 = none → a = (splitEq a).1) := by
  induction a with
  | nil => simp [splitEq]
  | cons c t ih =>
    by_cases hc : c = '='
    · simp [splitEq, hc]
    · simp only [splitEq, hc, if_false]
      exact ⟨fun v hv => by rw [List.cons_append, ← ih.1 v hv], fun hv => by rw [← ih.2 hv]⟩

section
variable {os : List Opt}

theorem byLong_mem (h : Spec.Declared os) {o : Opt} (ho : o ∈ os) : byLong os o.long = some o := by
  have hex : ∃ p, byLong os o.long = some p := by
    cases hb : byLong os o.long with
    | some p => exact ⟨p, rfl⟩
    | none =>
      have := List.find?_eq_none.mp hb o ho
      simp at this
  obtain ⟨p, hp⟩ := hex
  have h1 := List.find?_some hp
  have h2 := List.mem_of_find?_eq_some hp
  have hn : p.name = o.name := by simpa [Opt.long] using h1
  rw [hp, List.inj_on_of_nodup_map h.names h2 ho hn]

theorem byLong_none {a : List Char} (h : a.take 2 ≠ ['-', '-']) : byLong os a = none := by
  refine List.find?_eq_none.mpr fun o _ => ?_
  simp only [decide_eq_true_eq]
  rintro rfl
  exact h rfl

theorem byLong_some {a : List Char} {o : Opt} (h : byLong os a = some o) : o ∈ os ∧ a = '-' :: '-' :: o.name := by
  have h1 := List.find?_some h
  exact ⟨List.mem_of_find?_eq_some h, by simpa [Opt.long] using (of_decide_eq_true h1).symm⟩

theorem byShort_mem (h : Spec.Declared os) {o : Opt} {c : Char} (ho : o ∈ os) (hc : o.short = some c) : byShort os c = some o := by
  cases hb : byShort os c with
  | none =>
    have := List.find?_eq_none.mp hb o ho
    simp [hc] at this
  | some p =>
    have h1 := List.find?_some hb
    have h2 := List.mem_of_find?_eq_some hb
    rw [h.letters p h2 o ho c (by simpa using h1) hc]

theorem byShort_some {c : Char} {o : Opt} (h : byShort os c = some o) : o ∈ os ∧ o.short = some c := by
  have h1 := List.find?_some h
  exact ⟨List.mem_of_find?_eq_some h, by simpa using h1⟩

theorem takes_flag {o : Opt} (h : o.kind = .flag) : o.takes = false := by simp [Opt.takes, h]
theorem takes_value {o : Opt} (h : o.kind ≠ .flag) : o.takes = true := by simp [Opt.takes, h]

theorem cluster_flags (h : Spec.Declared os) {fs : List (Opt × Char)} (hf : Spec.Flags os fs) (t : List Char) :
    cluster os (fs.map Prod.snd ++ t) = (cluster os t).map (fun w => ⟨fs.map (fun f => (f.1, none)) ++ w.settings, w.pending⟩) := by
  induction fs with
  | nil => cases h0 : cluster os t <;> simp [h0]
  | cons f fs ih =>
    obtain ⟨h1, h2, h3⟩ := hf f (by simp)
    have hr := ih (fun g hg => hf g (by simp [hg]))
    simp only [List.map_cons, List.cons_append, cluster, byShort_mem h h1 h3, takes_flag h2, hr]
    cases cluster os t <;> simp

/-- the word of a cluster is not read as a long option -/
theorem word_cluster {c : Char} {t : List Char} (hc : c ≠ '-') : word os ('-' :: c :: t) = cluster os (c :: t) := by
  have h1 : (splitEq ('-' :: c :: t)).1.take 2 ≠ ['-', '-'] := by
    by_cases he : c = '='
    · simp [splitEq, he]
    · simp [splitEq, he, hc]
  unfold word
  rw [byLong_none h1]
  simp [hc]

/-- the letters of a cluster are the declared ones -/
theorem cluster_inv {s : List Char} {w : Word} (hw : cluster os s = some w) :
    ∃ fs, Spec.Flags os fs ∧
      ((w = ⟨fs.map (fun f => (f.1, none)), none⟩ ∧ s = fs.map Prod.snd) ∨
       (∃ o c, o ∈ os ∧ o.kind ≠ .flag ∧ o.short = some c ∧
         ((w = ⟨fs.map (fun f => (f.1, none)), some o⟩ ∧ s = fs.map Prod.snd ++ [c]) ∨
          ∃ v, v ≠ [] ∧ w = ⟨fs.map (fun f => (f.1, none)) ++ [(o, some v)], none⟩ ∧ s = fs.map Prod.snd ++ c :: v))) := by
  induction s generalizing w with
  | nil =>
    refine ⟨[], fun f hf => absurd hf (by simp), .inl ⟨?_, rfl⟩⟩
    simpa [cluster] using hw.symm
  | cons c t ih =>
    unfold cluster at hw
    cases hb : byShort os c with
    | none => simp [hb] at hw
    | some o =>
      obtain ⟨h1, h2⟩ := byShort_some hb
      simp only [hb] at hw
      by_cases hk : o.kind = .flag
      · simp only [takes_flag hk, Bool.false_eq_true, if_false] at hw
        cases hc : cluster os t with
        | none => simp [hc] at hw
        | some w' =>
          simp only [hc, Option.map_some, Option.some.injEq] at hw
          obtain ⟨fs, hf, hr⟩ := ih hc
          refine ⟨(o, c) :: fs, ?_, ?_⟩
          · intro f hf'
            rcases List.mem_cons.mp hf' with rfl | hf'
            · exact ⟨h1, hk, h2⟩
            · exact hf f hf'
          · rcases hr with ⟨rfl, rfl⟩ | ⟨o', c', h3, h4, h5, ⟨rfl, rfl⟩ | ⟨v, hv, rfl, rfl⟩⟩
            · exact .inl ⟨hw.symm, rfl⟩
            · exact .inr ⟨o', c', h3, h4, h5, .inl ⟨hw.symm, rfl⟩⟩
            · exact .inr ⟨o', c', h3, h4, h5, .inr ⟨v, hv, hw.symm, rfl⟩⟩
      · simp only [takes_value hk, if_true] at hw
        refine ⟨[], fun f hf => absurd hf (by simp), .inr ⟨o, c, h1, hk, h2, ?_⟩⟩
        by_cases ht : t = []
        · simp only [ht, if_true, Option.some.injEq] at hw
          exact .inl ⟨hw.symm, by simp [ht]⟩
        · simp only [ht, if_false, Option.some.injEq] at hw
          exact .inr ⟨t, ht, hw.symm, rfl⟩

theorem word_long (h : Spec.Declared os) {o : Opt} (ho : o ∈ os) :
    word os o.long = if o.takes then some ⟨[], some o⟩ else some ⟨[(o, none)], none⟩ := by
  have hs : splitEq o.long = (o.long, none) := splitEq_none (by simpa [Opt.long] using (h.plain o ho).2)
  unfold word
  rw [hs]
  simp only [byLong_mem h ho]

theorem word_longEq (h : Spec.Declared os) {o : Opt} (ho : o ∈ os) (v : List Char) :
    word os (o.long ++ '=' :: v) = if o.takes then some ⟨[(o, some v)], none⟩ else none := by
  have hs : splitEq (o.long ++ '=' :: v) = (o.long, some v) := splitEq_some (by simpa [Opt.long] using (h.plain o ho).2)
  unfold word
  rw [hs]
  simp only [byLong_mem h ho]

/-- a word that is read as an option -/
theorem parse_word {a : List Char} {rest : List (List Char)} (h1 : a ≠ ['-', '-']) (h2 : a.head? = some '-') (h3 : a ≠ ['-']) {w : Word}
    (hw : word os a = some w) (hp : w.pending = none) :
    parse os (a :: rest) = (parse os rest).map (fun p => (w.settings ++ p.1, p.2)) := by
  rw [parse, if_neg h1, if_pos ⟨h2, h3⟩]
  simp only [hw, hp]

theorem parse_word_next {a v : List Char} {rest : List (List Char)} (h1 : a ≠ ['-', '-']) (h2 : a.head? = some '-') (h3 : a ≠ ['-']) {w : Word}
    (hw : word os a = some w) {o : Opt} (hp : w.pending = some o) :
    parse os (a :: v :: rest) = (parse os rest).map (fun p => (w.settings ++ (o, some v) :: p.1, p.2)) := by
  rw [parse, if_neg h1, if_pos ⟨h2, h3⟩]
  simp only [hw, hp]

/-- C169: what the manual allows is read as it is meant -/
theorem parse_of_spells (h : Spec.Declared os) {args : List (List Char)} {st : List Setting} (hs : Spec.Spells os args st) :
    parse os args = some (st, []) := by
  induction hs with
  | nil => rfl
  | stop => simp [parse]
  | @longFlag o args st ho hk _ ih =>
    have hne := (h.plain o ho).1
    have hw := word_long h ho
    rw [takes_flag hk] at hw
    have := parse_word (os := os) (rest := args) (a := o.long) (by simp [Opt.long, hne]) rfl (by simp [Opt.long]) hw rfl
    refine (this : parse os (o.long :: args) = _).trans ?_
    simp [ih]
  | @longNext o v args st ho hk _ ih =>
    have hne := (h.plain o ho).1
    have hw := word_long h ho
    rw [takes_value hk] at hw
    have := parse_word_next (os := os) (rest := args) (v := v) (a := o.long) (by simp [Opt.long, hne]) rfl (by simp [Opt.long]) hw rfl
    refine (this : parse os (o.long :: v :: args) = _).trans ?_
    simp [ih]
  | @longEq o v args st ho hk _ ih =>
    have hw := word_longEq h ho v
    rw [takes_value hk] at hw
    have := parse_word (os := os) (rest := args) (a := o.long ++ '=' :: v) (by simp [Opt.long]) rfl (by simp [Opt.long]) hw rfl
    have e : "--".toList ++ o.name ++ "=".toList ++ v = o.long ++ '=' :: v := by simp [Opt.long]
    rw [e, this]
    simp [ih]
  | @flags fs args st hne hf _ ih =>
    obtain ⟨f, fs, rfl⟩ := List.exists_cons_of_ne_nil hne
    have hd : f.2 ≠ '-' := fun e => h.dash f.1 (hf f (by simp)).1 (by rw [(hf f (by simp)).2.2, e])
    have hc := cluster_flags h hf []
    rw [List.append_nil] at hc
    have hw : word os ('-' :: (f :: fs).map Prod.snd) = some ⟨(f :: fs).map (fun f => (f.1, none)), none⟩ := by
      refine (word_cluster hd).trans (hc.trans ?_)
      simp [cluster]
    have := parse_word (os := os) (rest := args) (a := '-' :: (f :: fs).map Prod.snd) (by simp [hd]) rfl (by simp) hw rfl
    rw [this, ih]
    simp
  | @flagsNext fs o c v args st hf ho hk hc _ ih =>
    have hcl := cluster_flags h hf [c]
    have h1 : cluster os [c] = some ⟨[], some o⟩ := by simp [cluster, byShort_mem h ho hc, takes_value hk]
    rw [h1] at hcl
    have hd : ∀ x ∈ fs.map Prod.snd ++ [c], x ≠ '-' := by
      intro x hx
      rcases List.mem_append.mp hx with hx | hx
      · obtain ⟨f, hf', rfl⟩ := List.mem_map.mp hx
        exact fun e => h.dash f.1 (hf f hf').1 (by rw [(hf f hf').2.2, e])
      · rw [List.mem_singleton] at hx
        exact fun e => h.dash o ho (by rw [hc, ← hx, e])
    have hw : word os ('-' :: (fs.map Prod.snd ++ [c])) = some ⟨fs.map (fun f => (f.1, none)), some o⟩ := by
      obtain ⟨y, t, hyt⟩ := List.exists_cons_of_ne_nil (show fs.map Prod.snd ++ [c] ≠ [] by simp)
      rw [hyt, word_cluster (hd y (by simp [hyt])), ← hyt, hcl]
      simp
    have := parse_word_next (os := os) (rest := args) (v := v) (a := '-' :: (fs.map Prod.snd ++ [c]))
      (fun e => hd '-' (by have := congrArg List.tail e; simp only [List.tail_cons] at this; rw [this]; simp) rfl)
      rfl (by simp) hw rfl
    refine (this : parse os (('-' :: fs.map Prod.snd ++ [c]) :: v :: args) = _).trans ?_
    rw [ih]
    simp
  | @flagsValue fs o c v args st hf ho hk hc hv _ ih =>
    have hcl := cluster_flags h hf (c :: v)
    have h1 : cluster os (c :: v) = some ⟨[(o, some v)], none⟩ := by simp [cluster, byShort_mem h ho hc, takes_value hk, hv]
    rw [h1] at hcl
    have hd : ∀ x t, fs.map Prod.snd ++ c :: v = x :: t → x ≠ '-' := by
      intro x t hx
      cases fs with
      | nil =>
        simp only [List.map_nil, List.nil_append, List.cons.injEq] at hx
        exact fun e => h.dash o ho (by rw [hc, hx.1, e])
      | cons f fs =>
        simp only [List.map_cons, List.cons_append, List.cons.injEq] at hx
        exact fun e => h.dash f.1 (hf f (by simp)).1 (by rw [(hf f (by simp)).2.2, hx.1, e])
    obtain ⟨y, t, hyt⟩ := List.exists_cons_of_ne_nil (show fs.map Prod.snd ++ c :: v ≠ [] by simp)
    have hw : word os ('-' :: (fs.map Prod.snd ++ c :: v)) = some ⟨fs.map (fun f => (f.1, none)) ++ [(o, some v)], none⟩ := by
      rw [hyt, word_cluster (hd y t hyt), ← hyt, hcl]
      simp
    have := parse_word (os := os) (rest := args) (a := '-' :: (fs.map Prod.snd ++ c :: v))
      (fun e => hd y t hyt (by have := congrArg List.tail e; simp only [List.tail_cons, hyt, List.cons.injEq] at this; exact this.1))
      rfl (by simp) hw rfl
    refine (this : parse os (('-' :: fs.map Prod.snd ++ c :: v) :: args) = _).trans ?_
    rw [ih]
    simp

/-- only what the manual allows is accepted -/
theorem spells_of_parse (h : Spec.Declared os) : ∀ (n : ℕ) {args : List (List Char)} {st : List Setting}, args.length ≤ n →
    parse os args = some (st, []) → Spec.Spells os args st := by
  intro n
  induction n with
  | zero =>
    intro args st hl hp
    have : args = [] := List.length_eq_zero_iff.mp (by omega)
    subst this
    simp only [parse, Option.some.injEq, Prod.mk.injEq, and_true] at hp
    rw [← hp]; exact .nil
  | succ n ih =>
    intro args st hl hp
    cases args with
    | nil =>
      simp only [parse, Option.some.injEq, Prod.mk.injEq, and_true] at hp
      rw [← hp]; exact .nil
    | cons a rest =>
      by_cases h1 : a = ['-', '-']
      · rw [parse, if_pos h1] at hp
        simp only [Option.some.injEq, Prod.mk.injEq] at hp
        rw [← hp.1, hp.2, h1]; exact .stop
      · by_cases h2 : a.head? = some '-' ∧ a ≠ ['-']
        · rw [parse, if_neg h1, if_pos h2] at hp
          cases hw : word os a with
          | none => simp [hw] at hp
          | some w =>
            simp only [hw] at hp
            -- the rest of the line, after a word that is complete
            have step : ∀ ss, w = ⟨ss, none⟩ → ∃ st', st = ss ++ st' ∧ Spec.Spells os rest st' := by
              rintro ss rfl
              simp only at hp
              cases hr : parse os rest with
              | none => simp [hr] at hp
              | some p =>
                simp only [hr, Option.map_some, Option.some.injEq, Prod.mk.injEq] at hp
                exact ⟨p.1, hp.1.symm, ih (by simp at hl; omega) (by rw [hr, ← hp.2])⟩
            have next : ∀ ss o, w = ⟨ss, some o⟩ → ∃ v rest' st', rest = v :: rest' ∧ st = ss ++ (o, some v) :: st' ∧
                Spec.Spells os rest' st' := by
              rintro ss o rfl
              cases rest with
              | nil => simp at hp
              | cons v rest' =>
                simp only at hp
                cases hr : parse os rest' with
                | none => simp [hr] at hp
                | some p =>
                  simp only [hr, Option.map_some, Option.some.injEq, Prod.mk.injEq] at hp
                  exact ⟨v, rest', p.1, rfl, hp.1.symm, ih (by simp at hl; omega) (by rw [hr, ← hp.2])⟩
            unfold word at hw
            cases hb : byLong os (splitEq a).1 with
            | some o =>
              obtain ⟨ho, hn⟩ := byLong_some hb
              cases hv : (splitEq a).2 with
              | some v =>
                have ha := (splitEq_join a).1 v hv
                simp only [hb, hv] at hw
                by_cases hk : o.kind = .flag
                · simp [takes_flag hk] at hw
                · simp only [takes_value hk, if_true, Option.some.injEq] at hw
                  obtain ⟨st', rfl, hs⟩ := step _ hw.symm
                  have e : a = "--".toList ++ o.name ++ "=".toList ++ v := by rw [ha, hn]; simp
                  rw [e]
                  exact .longEq ho hk hs
              | none =>
                have ha := (splitEq_join a).2 hv
                have e : a = "--".toList ++ o.name := by rw [ha, hn]; simp
                simp only [hb, hv] at hw
                by_cases hk : o.kind = .flag
                · simp only [takes_flag hk, Bool.false_eq_true, if_false, Option.some.injEq] at hw
                  obtain ⟨st', rfl, hs⟩ := step _ hw.symm
                  rw [e]
                  exact .longFlag ho hk hs
                · simp only [takes_value hk, if_true, Option.some.injEq] at hw
                  obtain ⟨v, rest', st', rfl, rfl, hs⟩ := next _ _ hw.symm
                  rw [e]
                  exact .longNext ho hk hs
            | none =>
              simp only [hb] at hw
              by_cases hd : a.take 2 = ['-', '-']
              · simp [hd] at hw
              · simp only [hd, if_false] at hw
                obtain ⟨c, t, rfl⟩ : ∃ c t, a = '-' :: c :: t := by
                  match a, h2 with
                  | [x], h2 => exact absurd (by simpa using h2.1) (fun e : x = '-' => h2.2 (by rw [e]))
                  | x :: c :: t, h2 => exact ⟨c, t, by simpa using h2.1⟩
                rw [List.tail_cons] at hw
                obtain ⟨fs, hf, ⟨hw', hs'⟩ | ⟨o, c', ho, hk, hc, ⟨hw', hs'⟩ | ⟨v, hv, hw', hs'⟩⟩⟩ := cluster_inv hw
                · obtain ⟨st', rfl, hs⟩ := step _ hw'
                  rw [hs']
                  exact .flags (by rintro rfl; simp at hs') hf hs
                · obtain ⟨v, rest', st', rfl, rfl, hs⟩ := next _ _ hw'
                  rw [hs']
                  exact .flagsNext hf ho hk hc hs
                · obtain ⟨st', rfl, hs⟩ := step _ hw'
                  rw [hs', List.append_assoc]
                  exact .flagsValue hf ho hk hc hv hs
        · rw [parse, if_neg h1, if_neg h2] at hp
          cases hr : parse os rest with
          | none => simp [hr] at hp
          | some p => simp [hr] at hp

/-- a line is accepted exactly if it spells settings, and then it is read as these -/
theorem parse_iff (h : Spec.Declared os) {args : List (List Char)} {st : List Setting} :
    parse os args = some (st, []) ↔ Spec.Spells os args st :=
  ⟨spells_of_parse h args.length le_rfl, parse_of_spells h⟩

end

/-! ### Numbers -/

theorem natOf_chars : ∀ (s : List Char) (n m : ℕ), natOf s n = some m → ∀ c ∈ s, c.isDigit = true ∨ c = '_' := by
  intro s n
  induction s, n using natOf.induct with
  | case1 n => intro m _ c hc; simp at hc
  | case2 n c t hd ih =>
    intro m h d hm
    rw [natOf, if_pos hd] at h
    rcases List.mem_cons.mp hm with rfl | hm
    · exact .inr rfl
    · rcases List.mem_cons.mp hm with rfl | hm
      · exact .inl hd
      · exact ih m h d hm
  | case3 n c t hd =>
    intro m h
    rw [natOf, if_neg hd] at h
    cases h
  | case4 n c t hx hd ih =>
    intro m h d hm
    rw [natOf, if_pos hd] at h
    · rcases List.mem_cons.mp hm with rfl | hm
      · exact .inl hd
      · exact ih m h d hm
    · exact hx
  | case5 n c t hx hd =>
    intro m h
    rw [natOf, if_neg hd] at h
    · cases h
    · exact hx

theorem unsigned_chars {s : List Char} {n : ℕ} (h : unsigned s = some n) : ∀ c ∈ s, c.isDigit = true ∨ c = '_' := by
  cases s with
  | nil => cases h
  | cons c t =>
    by_cases hd : c.isDigit = true
    · rw [unsigned, if_pos hd] at h
      exact natOf_chars _ _ _ h
    · rw [unsigned, if_neg hd] at h
      cases h

/-- trimming keeps what is no blank -/
theorem mem_trim {s : List Char} {c : Char} (hc : c.isWhitespace = false) (h : c ∈ s) :
    c ∈ ((s.dropWhile Char.isWhitespace).reverse.dropWhile Char.isWhitespace).reverse := by
  have key : ∀ t : List Char, c ∈ t → c ∈ t.dropWhile Char.isWhitespace := by
    intro t ht
    rw [← List.takeWhile_append_dropWhile (p := Char.isWhitespace) (l := t)] at ht
    rcases List.mem_append.mp ht with ht | ht
    · have := List.all_eq_true.mp (List.all_takeWhile (p := Char.isWhitespace) (l := t)) c ht
      rw [hc] at this
      cases this
    · exact ht
  exact List.mem_reverse.mpr (key _ (List.mem_reverse.mpr (key _ h)))

theorem intOf_point {s : List Char} (h : '.' ∈ s) : intOf s = none := by
  have hm := mem_trim (c := '.') (by decide) h
  have hu : ∀ t : List Char, '.' ∈ t → unsigned t = none := by
    intro t ht
    cases hx : unsigned t with
    | none => rfl
    | some n => rcases unsigned_chars hx '.' ht with h | h <;> simp at h
  unfold intOf
  split
  · rename_i t ht
    rw [ht] at hm
    rw [hu t (by simpa using hm)]; rfl
  · rename_i t ht
    rw [ht] at hm
    rw [hu t (by simpa using hm)]; rfl
  · rw [hu _ hm]; rfl

/-- a digit as a character -/
def Spec.digit (d : ℕ) : Char := Char.ofNat (48 + d)

theorem digit_val {d : ℕ} (hd : d < 10) : (Spec.digit d).isDigit = true ∧ (Spec.digit d).toNat - '0'.toNat = d ∧
    Spec.digit d ≠ '_' ∧ Spec.digit d ≠ '-' ∧ Spec.digit d ≠ '+' ∧ (Spec.digit d).isWhitespace = false := by
  interval_cases d <;> decide

theorem natOf_digits (ds : List ℕ) (h : ∀ d ∈ ds, d < 10) (n : ℕ) :
    natOf (ds.map Spec.digit) n = some (ds.foldl (fun a d => 10 * a + d) n) := by
  induction ds generalizing n with
  | nil => rfl
  | cons d ds ih =>
    obtain ⟨h1, h2, h3, _⟩ := digit_val (h d (by simp))
    rw [List.map_cons, natOf, if_pos h1, h2, ih (fun x hx => h x (by simp [hx]))]
    · rfl
    · rintro c t e
      exact absurd e h3

/-- a decimal number is read as what it denotes -/
theorem intOf_digits {ds : List ℕ} (hne : ds ≠ []) (h : ∀ d ∈ ds, d < 10) :
    intOf (ds.map Spec.digit) = some ((ds.foldl (fun a d => 10 * a + d) 0 : ℕ) : ℤ) := by
  have hw : ∀ t : List ℕ, (∀ d ∈ t, d < 10) → (t.map Spec.digit).dropWhile Char.isWhitespace = t.map Spec.digit := by
    intro t ht
    cases t with
    | nil => rfl
    | cons d t =>
      rw [List.map_cons, List.dropWhile_cons, (digit_val (ht d (by simp))).2.2.2.2.2]
      rfl
  have hr : (ds.map Spec.digit).reverse = ds.reverse.map Spec.digit := by rw [List.map_reverse]
  have e : (((ds.map Spec.digit).dropWhile Char.isWhitespace).reverse.dropWhile Char.isWhitespace).reverse = ds.map Spec.digit := by
    rw [hw ds h, hr, hw ds.reverse (fun d hd => h d (List.mem_reverse.mp hd)), ← hr, List.reverse_reverse]
  obtain ⟨d, ds, rfl⟩ := List.exists_cons_of_ne_nil hne
  obtain ⟨h1, h2, h3, h4, h5, _⟩ := digit_val (h d (by simp))
  unfold intOf
  rw [e]
  have hu : unsigned ((d :: ds).map Spec.digit) = some ((d :: ds).foldl (fun a d => 10 * a + d) 0) := by
    rw [List.map_cons, unsigned, if_pos h1, ← List.map_cons, natOf_digits _ h]
  split
  · rename_i t ht
    rw [List.map_cons, List.cons.injEq] at ht
    exact absurd ht.1 h4
  · rename_i t ht
    rw [List.map_cons, List.cons.injEq] at ht
    exact absurd ht.1 h5
  · rw [hu]; rfl

/-- digits, each but the first possibly after an underscore -/
def Spec.cells (cs : List (Bool × ℕ)) : List Char := cs.flatMap (fun c => if c.1 then ['_', Spec.digit c.2] else [Spec.digit c.2])

/-- the number that digits denote -/
def Spec.value (ds : List ℕ) : ℕ := ds.foldl (fun a d => 10 * a + d) 0

/-- texts that `int` accepts, and what they denote: blanks, a sign, digits with single underscores between them, blanks -/
def Spec.Decimal (s : List Char) (z : ℤ) : Prop :=
  ∃ pre sgn d cs post, s = pre ++ sgn ++ Spec.digit d :: Spec.cells cs ++ post ∧ (∀ c ∈ pre ++ post, c.isWhitespace = true) ∧ d < 10 ∧
    (∀ c ∈ cs, c.2 < 10) ∧
    ((sgn = [] ∨ sgn = ['+']) ∧ z = Spec.value (d :: cs.map Prod.snd) ∨ sgn = ['-'] ∧ z = -(Spec.value (d :: cs.map Prod.snd) : ℤ))

theorem digit_of {c : Char} (h : c.isDigit = true) : ∃ d < 10, c = Spec.digit d ∧ c.toNat - '0'.toNat = d := by
  have h' : 48 ≤ c.toNat ∧ c.toNat ≤ 57 := by
    rw [Char.isDigit, Bool.and_eq_true, decide_eq_true_eq, decide_eq_true_eq] at h
    exact ⟨UInt32.le_iff_toNat_le.mp h.1, UInt32.le_iff_toNat_le.mp h.2⟩
  refine ⟨c.toNat - 48, by omega, ?_, rfl⟩
  unfold Spec.digit
  rw [show 48 + (c.toNat - 48) = c.toNat by omega, Char.ofNat_toNat]

theorem natOf_cells (cs : List (Bool × ℕ)) (h : ∀ c ∈ cs, c.2 < 10) (n : ℕ) :
    natOf (Spec.cells cs) n = some ((cs.map Prod.snd).foldl (fun a d => 10 * a + d) n) := by
  induction cs generalizing n with
  | nil => rfl
  | cons c cs ih =>
    obtain ⟨h1, h2, h3, _⟩ := digit_val (h c (by simp))
    have ih := fun n => ih (fun x hx => h x (by simp [hx])) n
    unfold Spec.cells at ih ⊢
    rw [List.flatMap_cons]
    by_cases hb : c.1 = true
    · simp only [hb, if_true, List.cons_append, List.nil_append, natOf, h1, h2, ih, List.map_cons, List.foldl_cons]
    · simp only [hb, Bool.false_eq_true, if_false, List.cons_append, List.nil_append, List.map_cons, List.foldl_cons]
      rw [natOf, if_pos h1, h2, ih]
      rintro c t e
      exact absurd e h3

theorem natOf_inv : ∀ (s : List Char) (n m : ℕ), natOf s n = some m → ∃ cs : List (Bool × ℕ), s = Spec.cells cs ∧ (∀ c ∈ cs, c.2 < 10) ∧
    m = (cs.map Prod.snd).foldl (fun a d => 10 * a + d) n := by
  intro s n
  induction s, n using natOf.induct with
  | case1 n =>
    intro m h
    exact ⟨[], rfl, by simp, by simpa [natOf] using h.symm⟩
  | case2 n c t hd ih =>
    intro m h
    rw [natOf, if_pos hd] at h
    obtain ⟨d, hd10, rfl, hv⟩ := digit_of hd
    obtain ⟨cs, rfl, h1, h2⟩ := ih m h
    refine ⟨(true, d) :: cs, by simp [Spec.cells], ?_, ?_⟩
    · intro c hc
      rcases List.mem_cons.mp hc with rfl | hc
      · exact hd10
      · exact h1 c hc
    · rw [h2, hv]; rfl
  | case3 n c t hd =>
    intro m h
    rw [natOf, if_neg hd] at h
    cases h
  | case4 n c t hx hd ih =>
    intro m h
    rw [natOf, if_pos hd] at h
    · obtain ⟨d, hd10, rfl, hv⟩ := digit_of hd
      obtain ⟨cs, rfl, h1, h2⟩ := ih m h
      refine ⟨(false, d) :: cs, by simp [Spec.cells], ?_, ?_⟩
      · intro c hc
        rcases List.mem_cons.mp hc with rfl | hc
        · exact hd10
        · exact h1 c hc
      · rw [h2, hv]; rfl
    · exact hx
  | case5 n c t hx hd =>
    intro m h
    rw [natOf, if_neg hd] at h
    · cases h
    · exact hx

theorem unsigned_iff {s : List Char} {m : ℕ} : unsigned s = some m ↔ ∃ d cs, s = Spec.digit d :: Spec.cells cs ∧ d < 10 ∧ (∀ c ∈ cs, c.2 < 10) ∧
    m = Spec.value (d :: cs.map Prod.snd) := by
  constructor
  · intro h
    cases s with
    | nil => cases h
    | cons c t =>
      by_cases hd : c.isDigit = true
      · rw [unsigned, if_pos hd] at h
        obtain ⟨d, hd10, rfl, hv⟩ := digit_of hd
        obtain ⟨h1, h2, h3, _⟩ := digit_val hd10
        rw [natOf, if_pos h1] at h
        · obtain ⟨cs, rfl, h4, h5⟩ := natOf_inv _ _ _ h
          exact ⟨d, cs, rfl, hd10, h4, by rw [h5, h2]; rfl⟩
        · rintro c t e
          exact absurd e h3
      · rw [unsigned, if_neg hd] at h
        cases h
  · rintro ⟨d, cs, rfl, hd, hcs, rfl⟩
    obtain ⟨h1, h2, h3, _⟩ := digit_val hd
    have := natOf_cells ((false, d) :: cs) (by
      intro c hc
      rcases List.mem_cons.mp hc with rfl | hc
      · exact hd
      · exact hcs c hc) 0
    rw [unsigned, if_pos h1]
    exact this

/-- the text without blanks around it -/
def trimmed (s : List Char) : List Char := ((s.dropWhile Char.isWhitespace).reverse.dropWhile Char.isWhitespace).reverse

theorem trimmed_split (s : List Char) : ∃ pre post, s = pre ++ trimmed s ++ post ∧ ∀ c ∈ pre ++ post, c.isWhitespace = true := by
  refine ⟨s.takeWhile Char.isWhitespace, ((s.dropWhile Char.isWhitespace).reverse.takeWhile Char.isWhitespace).reverse, ?_, ?_⟩
  · unfold trimmed
    rw [List.append_assoc, ← List.reverse_append, List.takeWhile_append_dropWhile, List.reverse_reverse, List.takeWhile_append_dropWhile]
  · intro c hc
    rcases List.mem_append.mp hc with hc | hc
    · exact List.all_eq_true.mp (List.all_takeWhile (p := Char.isWhitespace) (l := s)) c hc
    · exact List.all_eq_true.mp (List.all_takeWhile (p := Char.isWhitespace) (l := (s.dropWhile Char.isWhitespace).reverse)) c
        (List.mem_reverse.mp hc)

theorem dropWhile_blanks {pre t : List Char} (h : ∀ c ∈ pre, c.isWhitespace = true) (ht : ∀ c, t.head? = some c → c.isWhitespace = false) :
    (pre ++ t).dropWhile Char.isWhitespace = t := by
  induction pre with
  | nil =>
    cases t with
    | nil => rfl
    | cons c t => rw [List.nil_append, List.dropWhile_cons, ht c rfl]; rfl
  | cons c pre ih =>
    rw [List.cons_append, List.dropWhile_cons, h c (by simp)]
    exact ih (fun x hx => h x (by simp [hx]))

theorem trimmed_eq {pre t post : List Char} (h : ∀ c ∈ pre ++ post, c.isWhitespace = true) (hh : ∀ c, t.head? = some c → c.isWhitespace = false)
    (hl : ∀ c, t.getLast? = some c → c.isWhitespace = false) (hne : t ≠ []) : trimmed (pre ++ t ++ post) = t := by
  unfold trimmed
  rw [List.append_assoc, dropWhile_blanks (fun c hc => h c (by simp [hc])), List.reverse_append,
    dropWhile_blanks (fun c hc => h c (by simp at hc; simp [hc])), List.reverse_reverse]
  · intro c hc
    exact hl c (by rwa [List.head?_reverse] at hc)
  · intro c hc
    cases t with
    | nil => exact absurd rfl hne
    | cons x t => exact hh c (by simpa using hc)

theorem cells_last {cs : List (Bool × ℕ)} (h : ∀ c ∈ cs, c.2 < 10) {d : ℕ} (hd : d < 10) {c : Char}
    (hc : c ∈ Spec.digit d :: Spec.cells cs) : c.isWhitespace = false := by
  rcases List.mem_cons.mp hc with rfl | hc
  · exact (digit_val hd).2.2.2.2.2
  · obtain ⟨x, hx, hcx⟩ := List.mem_flatMap.mp hc
    by_cases hb : x.1 = true
    · simp only [hb, if_true, List.mem_cons, List.not_mem_nil, or_false] at hcx
      rcases hcx with rfl | rfl
      · decide
      · exact (digit_val (h x hx)).2.2.2.2.2
    · simp only [hb, Bool.false_eq_true, if_false, List.mem_cons, List.not_mem_nil, or_false] at hcx
      rw [hcx]
      exact (digit_val (h x hx)).2.2.2.2.2

/-- `int` accepts exactly the decimal texts and gives what they denote -/
theorem intOf_iff {s : List Char} {z : ℤ} : intOf s = some z ↔ Spec.Decimal s z := by
  constructor
  · intro h
    obtain ⟨pre, post, hs, hb⟩ := trimmed_split s
    have key : ∀ t (g : ℕ → ℤ), (unsigned t).map g = some z → ∃ d cs, t = Spec.digit d :: Spec.cells cs ∧ d < 10 ∧ (∀ c ∈ cs, c.2 < 10) ∧
        z = g (Spec.value (d :: cs.map Prod.snd)) := by
      intro t g hg
      obtain ⟨m, hm, hz⟩ := Option.map_eq_some_iff.mp hg
      obtain ⟨d, cs, h1, h2, h3, h4⟩ := unsigned_iff.mp hm
      exact ⟨d, cs, h1, h2, h3, by rw [← h4, hz]⟩
    have e : intOf s = (match trimmed s with
      | '-' :: t => (unsigned t).map (fun n : ℕ => -(n : ℤ))
      | '+' :: t => (unsigned t).map (fun n : ℕ => (n : ℤ))
      | t => (unsigned t).map (fun n : ℕ => (n : ℤ))) := rfl
    rw [e] at h
    split at h
    · rename_i t ht
      obtain ⟨d, cs, rfl, h2, h3, h4⟩ := key _ _ h
      exact ⟨pre, ['-'], d, cs, post, by rw [hs, ht]; simp, hb, h2, h3, .inr ⟨rfl, h4⟩⟩
    · rename_i t ht
      obtain ⟨d, cs, rfl, h2, h3, h4⟩ := key _ _ h
      exact ⟨pre, ['+'], d, cs, post, by rw [hs, ht]; simp, hb, h2, h3, .inl ⟨.inr rfl, h4⟩⟩
    · obtain ⟨d, cs, ht, h2, h3, h4⟩ := key _ _ h
      exact ⟨pre, [], d, cs, post, by rw [hs, ht]; simp, hb, h2, h3, .inl ⟨.inl rfl, h4⟩⟩
  · rintro ⟨pre, sgn, d, cs, post, rfl, hb, hd, hcs, hz⟩
    have hu := unsigned_iff.mpr ⟨d, cs, rfl, hd, hcs, rfl⟩
    have hsg : ∀ c ∈ sgn, c.isWhitespace = false := by
      rcases hz with ⟨rfl | rfl, _⟩ | ⟨rfl, _⟩
      · simp
      · simp
      · simp
    have hall : ∀ c ∈ sgn ++ Spec.digit d :: Spec.cells cs, c.isWhitespace = false := by
      intro c hc
      rcases List.mem_append.mp hc with hc | hc
      · exact hsg c hc
      · exact cells_last hcs hd hc
    have ht : trimmed (pre ++ sgn ++ Spec.digit d :: Spec.cells cs ++ post) = sgn ++ Spec.digit d :: Spec.cells cs := by
      rw [List.append_assoc pre]
      exact trimmed_eq hb (fun c hc => hall c (List.mem_of_head? hc)) (fun c hc => hall c (List.mem_of_getLast? hc)) (by simp)
    have e : intOf (pre ++ sgn ++ Spec.digit d :: Spec.cells cs ++ post) = (match trimmed (pre ++ sgn ++ Spec.digit d :: Spec.cells cs ++ post) with
      | '-' :: t => (unsigned t).map (fun n : ℕ => -(n : ℤ))
      | '+' :: t => (unsigned t).map (fun n : ℕ => (n : ℤ))
      | t => (unsigned t).map (fun n : ℕ => (n : ℤ))) := rfl
    rw [e, ht]
    rcases hz with ⟨rfl | rfl, rfl⟩ | ⟨rfl, rfl⟩
    · obtain ⟨_, _, _, h4, h5, _⟩ := digit_val hd
      rw [List.nil_append]
      split
      · rename_i t ht'
        exact absurd (List.cons.inj ht').1 h4
      · rename_i t ht'
        exact absurd (List.cons.inj ht').1 h5
      · rw [hu]; rfl
    · show (unsigned (Spec.digit d :: Spec.cells cs)).map _ = _
      rw [hu]; rfl
    · show (unsigned (Spec.digit d :: Spec.cells cs)).map _ = _
      rw [hu]; rfl

/-! ### Parameters of the programs -/

/-- an option of the manual: name, letter and kind -/
abbrev Spec.Entry := String × Char × Kind

/-- the options a program has according to its manual, and `--help` -/
def Spec.options (t : List Spec.Entry) : List Opt := t.map (fun e => ⟨e.1.toList, some e.2.1, e.2.2⟩) ++ [⟨"help".toList, none, .flag⟩]

def Spec.simManual : List Spec.Entry := [("network", 'n', .str), ("active-profiles", 'a', .str), ("reactive-profiles", 'r', .str),
  ("gaussian-loads", 'g', .float), ("loads", 'p', .flag), ("network-sim", 's', .flag), ("noise", 'd', .flag), ("three-phased", 't', .flag),
  ("sequence", 'q', .flag), ("equivalent-noise", 'e', .flag), ("laplacian", 'l', .flag), ("verbose", 'v', .flag)]

def Spec.idManual : List Spec.Entry := [("network", 'n', .str), ("max-iterations", 'i', .int), ("standard", 's', .flag),
  ("bayesian-eiv", 'b', .flag), ("continue-id", 'c', .flag), ("phases", 'p', .str), ("sequence", 'q', .flag), ("exact", 'e', .flag),
  ("laplacian", 'l', .flag), ("weighted", 'w', .flag), ("uncertainty", 'u', .flag), ("unsynchronized", 'r', .flag), ("verbose", 'v', .flag)]

def Spec.plotManual : List Spec.Entry := [("network", 'n', .str), ("max-plot-y", 'm', .int), ("max-plot-err", 'e', .int),
  ("color-scale", 'c', .float), ("sequence", 'q', .flag), ("verbose", 'v', .flag)]

/-- the line says nothing about an option -/
def Spec.Unset (st : List Setting) (n : String) : Prop := ∀ s ∈ st, s.1.name ≠ n.toList

/-- the last thing the line says about an option -/
def Spec.Last (st : List Setting) (n : String) (v : Option (List Char)) : Prop :=
  ∃ l o r, st = l ++ (o, v) :: r ∧ o.name = n.toList ∧ Spec.Unset r n

/-- a flag is on exactly if the line has it -/
def Spec.IsFlag (st : List Setting) (n : String) (b : Bool) : Prop := b = true ↔ ¬ Spec.Unset st n

/-- a text is the last one given, or the default -/
def Spec.IsText (st : List Setting) (n d s : String) : Prop :=
  (Spec.Unset st n ∧ s = d) ∨ ∃ v, Spec.Last st n (some v) ∧ s = String.ofList v

/-- a number is the one of the last text given, or the default -/
def Spec.IsNum {α : Type} (means : List Char → α → Prop) (st : List Setting) (n : String) (d x : α) : Prop :=
  (Spec.Unset st n ∧ x = d) ∨ ∃ v, Spec.Last st n (some v) ∧ means v x

theorem given_none {st : List Setting} {o : Opt} : given st o = none ↔ ∀ s ∈ st, s.1 ≠ o := by
  unfold given
  rw [Option.map_eq_none_iff, List.find?_eq_none]
  simp

theorem given_some {st : List Setting} {o : Opt} {v : Option (List Char)} :
    given st o = some v ↔ ∃ l r, st = l ++ (o, v) :: r ∧ ∀ s ∈ r, s.1 ≠ o := by
  unfold given
  rw [Option.map_eq_some_iff]
  constructor
  · rintro ⟨⟨o', v'⟩, hf, rfl⟩
    obtain ⟨hp, as, bs, hab, hn⟩ := List.find?_eq_some_iff_append.mp hf
    have ho : o' = o := by simpa using hp
    subst ho
    refine ⟨bs.reverse, as.reverse, ?_, fun s hs => by simpa using hn s (List.mem_reverse.mp hs)⟩
    rw [← List.reverse_reverse st, hab]
    simp
  · rintro ⟨l, r, rfl, hr⟩
    refine ⟨(o, v), List.find?_eq_some_iff_append.mpr ⟨by simp, r.reverse, l.reverse, by simp, ?_⟩, rfl⟩
    intro a ha
    simpa using hr a (List.mem_reverse.mp ha)

/-- settings of declared options, with a text exactly if the option takes one -/
theorem spells_sound {os : List Opt} {args : List (List Char)} {st : List Setting} (hs : Spec.Spells os args st) :
    ∀ s ∈ st, s.1 ∈ os ∧ (s.2 = none ↔ s.1.kind = .flag) := by
  have hfl : ∀ {fs : List (Opt × Char)}, Spec.Flags os fs → ∀ s ∈ fs.map (fun f => ((f.1, none) : Setting)), s.1 ∈ os ∧ (s.2 = none ↔ s.1.kind = .flag) := by
    intro fs hf s hs
    obtain ⟨f, hf', rfl⟩ := List.mem_map.mp hs
    exact ⟨(hf f hf').1, by simp [(hf f hf').2.1]⟩
  induction hs with
  | nil => simp
  | stop => simp
  | longFlag ho hk _ ih =>
    intro s hs
    rcases List.mem_cons.mp hs with rfl | hs
    · exact ⟨ho, by simp [hk]⟩
    · exact ih s hs
  | longNext ho hk _ ih =>
    intro s hs
    rcases List.mem_cons.mp hs with rfl | hs
    · exact ⟨ho, by simp [hk]⟩
    · exact ih s hs
  | longEq ho hk _ ih =>
    intro s hs
    rcases List.mem_cons.mp hs with rfl | hs
    · exact ⟨ho, by simp [hk]⟩
    · exact ih s hs
  | flags _ hf _ ih =>
    intro s hs
    rcases List.mem_append.mp hs with hs | hs
    · exact hfl hf s hs
    · exact ih s hs
  | flagsNext hf ho hk _ _ ih =>
    intro s hs
    rcases List.mem_append.mp hs with hs | hs
    · exact hfl hf s hs
    · rcases List.mem_cons.mp hs with rfl | hs
      · exact ⟨ho, by simp [hk]⟩
      · exact ih s hs
  | flagsValue hf ho hk _ _ _ ih =>
    intro s hs
    rcases List.mem_append.mp hs with hs | hs
    · exact hfl hf s hs
    · rcases List.mem_cons.mp hs with rfl | hs
      · exact ⟨ho, by simp [hk]⟩
      · exact ih s hs

section
variable {os : List Opt} {st : List Setting} {o : Opt} {n : String}

/-- options are told apart by their names -/
theorem name_iff (h : Spec.Declared os) (hs : ∀ s ∈ st, s.1 ∈ os ∧ (s.2 = none ↔ s.1.kind = .flag)) (ho : o ∈ os) (hn : o.name = n.toList) :
    ∀ s ∈ st, (s.1 = o ↔ s.1.name = n.toList) := by
  intro s hs'
  exact ⟨fun e => by rw [e, hn], fun e => List.inj_on_of_nodup_map h.names (hs s hs').1 ho (e.trans hn.symm)⟩

theorem unset_iff (h : Spec.Declared os) (hs : ∀ s ∈ st, s.1 ∈ os ∧ (s.2 = none ↔ s.1.kind = .flag)) (ho : o ∈ os) (hn : o.name = n.toList) :
    given st o = none ↔ Spec.Unset st n := by
  rw [given_none]
  exact forall₂_congr fun s hs' => not_congr (name_iff h hs ho hn s hs')

theorem last_iff (h : Spec.Declared os) (hs : ∀ s ∈ st, s.1 ∈ os ∧ (s.2 = none ↔ s.1.kind = .flag)) (ho : o ∈ os) (hn : o.name = n.toList)
    {v : Option (List Char)} : given st o = some v ↔ Spec.Last st n v := by
  rw [given_some]
  constructor
  · rintro ⟨l, r, rfl, hr⟩
    exact ⟨l, o, r, rfl, hn, fun s hs' => fun e => hr s hs' ((name_iff h hs ho hn s (by simp [hs'])).mpr e)⟩
  · rintro ⟨l, o', r, rfl, ho', hr⟩
    have : o' = o := (name_iff h hs ho hn (o', v) (by simp)).mpr ho'
    subst this
    exact ⟨l, r, rfl, fun s hs' => fun e => hr s hs' ((name_iff h hs ho hn s (by simp [hs'])).mp e)⟩

theorem flag_iff (h : Spec.Declared os) (hs : ∀ s ∈ st, s.1 ∈ os ∧ (s.2 = none ↔ s.1.kind = .flag)) (ho : o ∈ os) (hn : o.name = n.toList)
    {b : Bool} : Spec.IsFlag st n b ↔ b = flag st o := by
  unfold Spec.IsFlag flag
  rw [← unset_iff h hs ho hn]
  cases given st o <;> cases b <;> simp

/-- an option with a value has a text whenever it is given -/
theorem text_cases (h : Spec.Declared os) (hs : ∀ s ∈ st, s.1 ∈ os ∧ (s.2 = none ↔ s.1.kind = .flag)) (ho : o ∈ os) (hn : o.name = n.toList)
    (hk : o.kind ≠ .flag) : (text st o = none ∧ Spec.Unset st n ∧ ∀ v, ¬ Spec.Last st n v) ∨
      ∃ v, text st o = some v ∧ ¬ Spec.Unset st n ∧ ∀ v', Spec.Last st n v' ↔ v' = some v := by
  unfold text
  cases hg : given st o with
  | none =>
    refine .inl ⟨rfl, (unset_iff h hs ho hn).mp hg, fun v hv => ?_⟩
    rw [← last_iff h hs ho hn, hg] at hv
    cases hv
  | some w =>
    have hu : ¬ Spec.Unset st n := by rw [← unset_iff h hs ho hn, hg]; simp
    cases w with
    | none =>
      exfalso
      obtain ⟨l, r, hst, _⟩ := given_some.mp hg
      exact hk ((hs (o, none) (by rw [hst]; simp)).2.mp rfl)
    | some v =>
      refine .inr ⟨v, rfl, hu, fun v' => ?_⟩
      rw [← last_iff h hs ho hn, hg]
      exact ⟨fun e => (Option.some.inj e).symm, fun e => by rw [e]⟩

theorem str_iff (h : Spec.Declared os) (hs : ∀ s ∈ st, s.1 ∈ os ∧ (s.2 = none ↔ s.1.kind = .flag)) (ho : o ∈ os) (hn : o.name = n.toList)
    (hk : o.kind ≠ .flag) {d s : String} : Spec.IsText st n d s ↔ s = str st o d := by
  unfold Spec.IsText str
  rcases text_cases h hs ho hn hk with ⟨h1, h2, h3⟩ | ⟨v, h1, h2, h3⟩
  · rw [h1]
    simp [h2, h3]
  · rw [h1]
    simp [h2, h3]

theorem num_iff {α : Type} {conv : List Char → Option α} {means : List Char → α → Prop} (hm : ∀ v x, conv v = some x ↔ means v x) (h : Spec.Declared os) (hs : ∀ s ∈ st, s.1 ∈ os ∧ (s.2 = none ↔ s.1.kind = .flag))
    (ho : o ∈ os) (hn : o.name = n.toList) (hk : o.kind ≠ .flag) {d x : α} : Spec.IsNum means st n d x ↔ num conv st o d = some x := by
  unfold Spec.IsNum num
  rcases text_cases h hs ho hn hk with ⟨h1, h2, h3⟩ | ⟨v, h1, h2, h3⟩
  · rw [h1]
    simp only [h2, h3, true_and, false_and, exists_false, or_false, Option.some.injEq]
    exact eq_comm
  · rw [h1]
    simp [h2, h3, hm]

/-- `float(text)` is `x` -/
def Spec.Float (env : Env) (v : List Char) (x : ℝ) : Prop := env.toFloat v = some x

end

/-- a program runs exactly for the lines of its manual without `--help` whose numbers are numbers -/
theorem command_run {α : Type} {os : List Opt} (h : Spec.Declared (os ++ [helpOpt])) {convert : List Setting → Option α}
    {args : List (List Char)} {a : α} :
    command os convert args = .run a ↔ ∃ st, Spec.Spells (os ++ [helpOpt]) args st ∧ Spec.Unset st "help" ∧ convert st = some a := by
  unfold command
  constructor
  · intro hr
    cases hp : parse (os ++ [helpOpt]) args with
    | none => simp [hp] at hr
    | some p =>
      obtain ⟨st, extra⟩ := p
      simp only [hp] at hr
      by_cases hf : flag st helpOpt = true
      · simp [hf] at hr
      · simp only [hf] at hr
        cases hc : convert st with
        | none => simp [hc] at hr
        | some a' =>
          simp only [hc] at hr
          by_cases he : extra = []
          · simp only [he, if_true, Outcome.run.injEq, Bool.false_eq_true, if_false] at hr
            subst he hr
            have hs := (parse_iff h).mp hp
            refine ⟨st, hs, ?_, hc⟩
            rw [← unset_iff (o := helpOpt) h (spells_sound hs) (by simp) rfl]
            simpa [flag] using hf
          · simp [he] at hr
  · rintro ⟨st, hs, hu, hc⟩
    rw [(parse_iff h).mpr hs]
    have hf : flag st helpOpt = false := by
      rw [← unset_iff (o := helpOpt) h (spells_sound hs) (by simp) rfl] at hu
      simp [flag, hu]
    simp [hf, hc]

theorem declared_of {os : List Opt} (h1 : (os.map Opt.name).Nodup) (h2 : ∀ o ∈ os, o.name ≠ [] ∧ '=' ∉ o.name)
    (h3 : (os.filterMap Opt.short).Nodup) (h4 : ∀ o ∈ os, o.short ≠ some '-') : Spec.Declared os := by
  refine ⟨h1, h2, ?_, h4⟩
  intro o ho p hp c hoc hpc
  induction os with
  | nil => simp at ho
  | cons q os ih =>
    have hin : ∀ x ∈ os, x.short = some c → c ∈ os.filterMap Opt.short := fun x hx hc => List.mem_filterMap.mpr ⟨x, hx, hc⟩
    have hq : q.short = some c → c ∉ os.filterMap Opt.short := by
      intro hc hm
      rw [List.filterMap_cons, hc] at h3
      exact (List.nodup_cons.mp h3).1 hm
    rcases List.mem_cons.mp ho with rfl | ho' <;> rcases List.mem_cons.mp hp with rfl | hp'
    · rfl
    · exact absurd (hin p hp' hpc) (hq hoc)
    · exact absurd (hin o ho' hoc) (hq hpc)
    · refine ih (List.nodup_cons.mp h1).2 (fun x hx => h2 x (by simp [hx])) ?_ (fun x hx => h4 x (by simp [hx])) ho' hp'
      cases hs : q.short with
      | none => rwa [List.filterMap_cons, hs] at h3
      | some d => rw [List.filterMap_cons, hs] at h3; exact (List.nodup_cons.mp h3).2

theorem sim_declared : Spec.Declared (simOpts ++ [helpOpt]) := declared_of (by decide) (by decide) (by decide) (by decide)
theorem id_declared : Spec.Declared (idOpts ++ [helpOpt]) := declared_of (by decide) (by decide) (by decide) (by decide)
theorem plot_declared : Spec.Declared (plotOpts ++ [helpOpt]) := declared_of (by decide) (by decide) (by decide) (by decide)

theorem sim_manual : simOpts ++ [helpOpt] = Spec.options Spec.simManual := rfl
theorem id_manual : idOpts ++ [helpOpt] = Spec.options Spec.idManual := rfl
theorem plot_manual : plotOpts ++ [helpOpt] = Spec.options Spec.plotManual := rfl

/-- C169: `simulate` is run with some parameters exactly if the line spells settings that mean them -/
theorem C169_simulate (env : Env) (args : List (List Char)) (a : SimArgs) :
    simCommand env args = .run a ↔ ∃ st, Spec.Spells (Spec.options Spec.simManual) args st ∧ Spec.Unset st "help" ∧
      Spec.IsText st "network" "bolognani56" a.network ∧
      Spec.IsText st "active-profiles" (env.dataDir ++ "/profiles/Electricity_Profile_RNEplus_small.npy") a.active ∧
      Spec.IsText st "reactive-profiles" (env.dataDir ++ "/profiles/Reactive_Electricity_Profile_RNEplus_small.npy") a.reactive ∧
      Spec.IsNum (Spec.Float env) st "gaussian-loads" 0 a.gaussian ∧
      Spec.IsFlag st "loads" a.loads ∧ Spec.IsFlag st "network-sim" a.networkSim ∧ Spec.IsFlag st "noise" a.noise ∧
      Spec.IsFlag st "three-phased" a.threePhased ∧ Spec.IsFlag st "sequence" a.sequence ∧
      Spec.IsFlag st "equivalent-noise" a.equivalent ∧ Spec.IsFlag st "laplacian" a.laplacian := by
  unfold simCommand
  rw [command_run sim_declared, sim_manual]
  refine exists_congr fun st => and_congr_right fun hs => and_congr_right fun _ => ?_
  rw [← sim_manual] at hs
  have hd := sim_declared
  have so := spells_sound hs
  rw [str_iff hd so (o := sNetwork) (by decide) rfl (by decide), str_iff hd so (o := sActive) (by decide) rfl (by decide),
    str_iff hd so (o := sReactive) (by decide) rfl (by decide), num_iff (means := Spec.Float env) (conv := env.toFloat) (fun _ _ => Iff.rfl) hd so (o := sGaussian) (by decide) rfl (by decide),
    flag_iff hd so (o := sLoads) (by decide) rfl, flag_iff hd so (o := sNetworkSim) (by decide) rfl, flag_iff hd so (o := sNoise) (by decide) rfl,
    flag_iff hd so (o := sThreePhased) (by decide) rfl, flag_iff hd so (o := sSequence) (by decide) rfl,
    flag_iff hd so (o := sEquivalent) (by decide) rfl, flag_iff hd so (o := sLaplacian) (by decide) rfl]
  unfold simConvert
  rw [Option.map_eq_some_iff]
  constructor
  · rintro ⟨g, hg, rfl⟩
    exact ⟨rfl, rfl, rfl, hg, rfl, rfl, rfl, rfl, rfl, rfl, rfl⟩
  · rintro ⟨h1, h2, h3, h4, h5, h6, h7, h8, h9, h10, h11⟩
    refine ⟨a.gaussian, h4, ?_⟩
    rw [← h1, ← h2, ← h3, ← h5, ← h6, ← h7, ← h8, ← h9, ← h10, ← h11]

/-- C169: the same for `identify`; a negative number of iterations counts as none -/
theorem C169_identify (args : List (List Char)) (a : IdArgs) :
    idCommand args = .run a ↔ ∃ st, Spec.Spells (Spec.options Spec.idManual) args st ∧ Spec.Unset st "help" ∧
      Spec.IsText st "network" "bolognani56" a.network ∧
      (∃ m : ℤ, Spec.IsNum Spec.Decimal st "max-iterations" 50 m ∧ (a.maxIter : ℤ) = max m 0) ∧
      Spec.IsFlag st "standard" a.standard ∧ Spec.IsFlag st "bayesian-eiv" a.bayesian ∧ Spec.IsFlag st "continue-id" a.continueId ∧
      Spec.IsText st "phases" "1" a.phases ∧ Spec.IsFlag st "sequence" a.sequence ∧ Spec.IsFlag st "exact" a.exact ∧
      Spec.IsFlag st "laplacian" a.laplacian ∧ Spec.IsFlag st "weighted" a.weighted ∧ Spec.IsFlag st "uncertainty" a.uncertainty ∧
      Spec.IsFlag st "unsynchronized" a.unsynchronized := by
  unfold idCommand
  rw [command_run id_declared, id_manual]
  refine exists_congr fun st => and_congr_right fun hs => and_congr_right fun _ => ?_
  rw [← id_manual] at hs
  have hd := id_declared
  have so := spells_sound hs
  simp only [num_iff (fun _ _ => intOf_iff) hd so (o := iMaxIter) (by decide) rfl (by decide)]
  rw [str_iff hd so (o := iNetwork) (by decide) rfl (by decide), str_iff hd so (o := iPhases) (by decide) rfl (by decide),
    flag_iff hd so (o := iStandard) (by decide) rfl, flag_iff hd so (o := iBayesian) (by decide) rfl,
    flag_iff hd so (o := iContinue) (by decide) rfl, flag_iff hd so (o := iSequence) (by decide) rfl,
    flag_iff hd so (o := iExact) (by decide) rfl, flag_iff hd so (o := iLaplacian) (by decide) rfl,
    flag_iff hd so (o := iWeighted) (by decide) rfl, flag_iff hd so (o := iUncertainty) (by decide) rfl,
    flag_iff hd so (o := iUnsync) (by decide) rfl]
  unfold idConvert
  rw [Option.map_eq_some_iff]
  constructor
  · rintro ⟨g, hg, rfl⟩
    exact ⟨rfl, ⟨g, hg, Int.toNat_eq_max g⟩, rfl, rfl, rfl, rfl, rfl, rfl, rfl, rfl, rfl, rfl⟩
  · rintro ⟨h1, ⟨m, h4, hm⟩, h5, h6, h7, h8, h9, h10, h11, h12, h13, h14⟩
    refine ⟨m, h4, ?_⟩
    have hm' : m.toNat = a.maxIter := by
      have := Int.toNat_eq_max m
      omega
    rw [← h1, ← h5, ← h6, ← h7, ← h8, ← h9, ← h10, ← h11, ← h12, ← h13, ← h14, hm']

/-- C169: the same for `plot_results`; a limit of 0 is no limit -/
theorem C169_plot (env : Env) (args : List (List Char)) (a : PlotParams) :
    plotCommand env args = .run a ↔ ∃ st, Spec.Spells (Spec.options Spec.plotManual) args st ∧ Spec.Unset st "help" ∧
      Spec.IsText st "network" "bolognani56" a.args.network ∧ Spec.IsFlag st "sequence" a.args.sequence ∧
      (∃ y : ℤ, Spec.IsNum Spec.Decimal st "max-plot-y" 0 y ∧ a.maxY = if y = 0 then none else some y) ∧
      (∃ e : ℤ, Spec.IsNum Spec.Decimal st "max-plot-err" 0 e ∧ a.maxErr = if e = 0 then none else some e) ∧
      Spec.IsNum (Spec.Float env) st "color-scale" (1 / 2) a.color := by
  unfold plotCommand
  rw [command_run plot_declared, plot_manual]
  refine exists_congr fun st => and_congr_right fun hs => and_congr_right fun _ => ?_
  rw [← plot_manual] at hs
  have hd := plot_declared
  have so := spells_sound hs
  simp only [num_iff (fun _ _ => intOf_iff) hd so (o := pMaxY) (by decide) rfl (by decide), num_iff (fun _ _ => intOf_iff) hd so (o := pMaxErr) (by decide) rfl (by decide),
    num_iff (means := Spec.Float env) (conv := env.toFloat) (fun _ _ => Iff.rfl) hd so (o := pColor) (by decide) rfl (by decide)]
  rw [str_iff hd so (o := pNetwork) (by decide) rfl (by decide), flag_iff hd so (o := pSequence) (by decide) rfl]
  unfold plotConvert
  rw [Option.bind_eq_some_iff]
  simp only [Option.bind_eq_some_iff, Option.map_eq_some_iff]
  constructor
  · rintro ⟨y, hy, e, he, c, hc, rfl⟩
    exact ⟨rfl, rfl, ⟨y, hy, by simp [ite_not]⟩, ⟨e, he, by simp [ite_not]⟩, hc⟩
  · rintro ⟨h1, h2, ⟨y, hy, h3⟩, ⟨e, he, h4⟩, h5⟩
    refine ⟨y, hy, e, he, a.color, h5, ?_⟩
    obtain ⟨⟨nw, sq⟩, my, me, co⟩ := a
    simp only at h1 h2 h3 h4
    subst h1 h2 h3 h4
    simp [ite_not]

/-- the order of the settings does not matter if no option is set twice -/
theorem command_order {α : Type} {os : List Opt} (h : Spec.Declared (os ++ [helpOpt])) {convert : List Setting → Option α}
    (hc : ∀ s t, (∀ o, given s o = given t o) → convert s = convert t) {args args' : List (List Char)} {st st' : List Setting}
    (hs : Spec.Spells (os ++ [helpOpt]) args st) (hs' : Spec.Spells (os ++ [helpOpt]) args' st') (hp : st.Perm st')
    (hn : (st.map Prod.fst).Nodup) : command os convert args = command os convert args' := by
  have hg : ∀ o, given st o = given st' o := by
    intro o
    have hn' : (st'.map Prod.fst).Nodup := (hp.map _).nodup_iff.mp hn
    cases hv : given st o with
    | none => exact (given_none.mpr fun s hs => given_none.mp hv s (hp.mem_iff.mpr hs)).symm
    | some v =>
      obtain ⟨l, r, hst, _⟩ := given_some.mp hv
      have hm : (o, v) ∈ st' := hp.mem_iff.mp (by rw [hst]; simp)
      obtain ⟨l', r', hst'⟩ := List.append_of_mem hm
      refine (given_some.mpr ⟨l', r', hst', fun s hs e => ?_⟩).symm
      rw [hst', List.map_append, List.map_cons] at hn'
      exact (List.nodup_cons.mp (List.nodup_append.mp hn').2.1).1 (List.mem_map.mpr ⟨s, hs, e⟩)
  unfold command
  rw [(parse_iff h).mpr hs, (parse_iff h).mpr hs']
  simp only [flag, hg, hc st st' hg]

/-- C169: the order of the settings and their spelling do not matter if no option is set twice -/
theorem C169_order (env : Env) {args args' : List (List Char)} {st st' : List Setting} (hp : st.Perm st') (hn : (st.map Prod.fst).Nodup) :
    (Spec.Spells (Spec.options Spec.simManual) args st → Spec.Spells (Spec.options Spec.simManual) args' st' →
      simCommand env args = simCommand env args') ∧
    (Spec.Spells (Spec.options Spec.idManual) args st → Spec.Spells (Spec.options Spec.idManual) args' st' →
      idCommand args = idCommand args') ∧
    (Spec.Spells (Spec.options Spec.plotManual) args st → Spec.Spells (Spec.options Spec.plotManual) args' st' →
      plotCommand env args = plotCommand env args') := by
  refine ⟨fun h h' => command_order sim_declared ?_ h h' hp hn, fun h h' => command_order id_declared ?_ h h' hp hn,
    fun h h' => command_order plot_declared ?_ h h' hp hn⟩
  · intro s t hg
    simp only [simConvert, num, str, text, flag, hg]
  · intro s t hg
    simp only [idConvert, num, str, text, flag, hg]
  · intro s t hg
    simp only [plotConvert, num, str, text, flag, hg]

/-! ### Limits of the plots -/

/-- C170 violated: a limit with a decimal point is refused, in every spelling and with any other options that make sense -/
theorem C170_violated (env : Env) {args : List (List Char)} {st : List Setting} (hs : Spec.Spells (Spec.options Spec.plotManual) args st)
    {n : String} (hn : n = "max-plot-y" ∨ n = "max-plot-err") {v : List Char} (hv : Spec.Last st n (some v)) (hp : '.' ∈ v) (a : PlotParams) :
    plotCommand env args ≠ .run a := by
  rw [Ne, C169_plot]
  rintro ⟨st', hs', _, _, _, ⟨y, hy, _⟩, ⟨e, he, _⟩, _⟩
  have hst : st' = st := by
    have h1 := parse_of_spells plot_declared (plot_manual ▸ hs)
    have h2 := parse_of_spells plot_declared (plot_manual ▸ hs')
    rw [h1] at h2
    simpa using (Option.some.inj h2).symm
  subst hst
  have hd := plot_declared
  have so := spells_sound (plot_manual ▸ hs)
  have key : ∀ {o : Opt} {m : String} {z : ℤ}, o ∈ plotOpts ++ [helpOpt] → o.name = m.toList → o.kind ≠ .flag → Spec.Last st' m (some v) →
      Spec.IsNum Spec.Decimal st' m 0 z → False := by
    intro o m z ho hm hk hl hz
    rcases text_cases hd so ho hm hk with ⟨_, _, h3⟩ | ⟨w, _, h2, h3⟩
    · exact h3 _ hl
    · have hw : v = w := Option.some.inj ((h3 _).mp hl)
      rcases hz with ⟨hu, _⟩ | ⟨v', hl', hc⟩
      · exact h2 hu
      · have : v' = w := Option.some.inj ((h3 _).mp hl')
        rw [this, ← hw, ← intOf_iff, intOf_point hp] at hc
        cases hc
  rcases hn with rfl | rfl
  · exact key (o := pMaxY) (by decide) rfl (by decide) hv hy
  · exact key (o := pMaxErr) (by decide) rfl (by decide) hv he

/-- C170 partial: limits that are whole decimal numbers are accepted as what they denote, except that 0 means no limit -/
theorem C170_partial (env : Env) {ds es : List ℕ} (hd : ds ≠ [] ∧ ∀ d ∈ ds, d < 10) (he : es ≠ [] ∧ ∀ d ∈ es, d < 10) :
    ∃ a, plotCommand env ["-m".toList, ds.map Spec.digit, "-e".toList, es.map Spec.digit] = .run a ∧
      (∀ y : ℕ, y = ds.foldl (fun a d => 10 * a + d) 0 → a.maxY = if y = 0 then none else some (y : ℤ)) ∧
      (∀ y : ℕ, y = es.foldl (fun a d => 10 * a + d) 0 → a.maxErr = if y = 0 then none else some (y : ℤ)) := by
  have hs : Spec.Spells (plotOpts ++ [helpOpt]) ["-m".toList, ds.map Spec.digit, "-e".toList, es.map Spec.digit]
      [(pMaxY, some (ds.map Spec.digit)), (pMaxErr, some (es.map Spec.digit))] :=
    .flagsNext (fs := []) (o := pMaxY) (c := 'm') (by intro f hf; simp at hf) (by decide) (by decide) rfl
      (.flagsNext (fs := []) (o := pMaxErr) (c := 'e') (by intro f hf; simp at hf) (by decide) (by decide) rfl .nil)
  have t1 : num intOf [(pMaxY, some (ds.map Spec.digit)), (pMaxErr, some (es.map Spec.digit))] pMaxY 0 = intOf (ds.map Spec.digit) := rfl
  have t2 : num intOf [(pMaxY, some (ds.map Spec.digit)), (pMaxErr, some (es.map Spec.digit))] pMaxErr 0 = intOf (es.map Spec.digit) := rfl
  have t3 : num env.toFloat [(pMaxY, some (ds.map Spec.digit)), (pMaxErr, some (es.map Spec.digit))] pColor (1 / 2) = some (1 / 2) := rfl
  rw [intOf_digits hd.1 hd.2] at t1
  rw [intOf_digits he.1 he.2] at t2
  have hc : ∃ a, plotConvert env [(pMaxY, some (ds.map Spec.digit)), (pMaxErr, some (es.map Spec.digit))] = some a ∧
      (∀ y : ℕ, y = ds.foldl (fun a d => 10 * a + d) 0 → a.maxY = if y = 0 then none else some (y : ℤ)) ∧
      (∀ y : ℕ, y = es.foldl (fun a d => 10 * a + d) 0 → a.maxErr = if y = 0 then none else some (y : ℤ)) := by
    unfold plotConvert
    rw [t1, t2, t3]
    refine ⟨_, rfl, ?_, ?_⟩
    · rintro y rfl
      simp only [ne_eq, ite_not, Int.natCast_eq_zero]
    · rintro y rfl
      simp only [ne_eq, ite_not, Int.natCast_eq_zero]
  obtain ⟨a, ha, h1, h2⟩ := hc
  refine ⟨a, (command_run plot_declared).mpr ⟨_, hs, ?_, ha⟩, h1, h2⟩
  intro s hs
  simp only [List.mem_cons, List.not_mem_nil, or_false] at hs
  rcases hs with rfl | rfl
  · exact (by decide : pMaxY.name ≠ "help".toList)
  · exact (by decide : pMaxErr.name ≠ "help".toList)

/-! ### The script and the README -/

/-- `-qte --network ieee123center`: everything is computed -/
def Spec.fullRun (env : Env) : SimArgs where
  network := "ieee123center"
  active := env.dataDir ++ "/profiles/Electricity_Profile_RNEplus_small.npy"
  reactive := env.dataDir ++ "/profiles/Reactive_Electricity_Profile_RNEplus_small.npy"
  gaussian := 0
  loads := false
  networkSim := false
  noise := false
  threePhased := true
  sequence := true
  equivalent := true
  laplacian := false

/-- `-qtde`: only the noise -/
def Spec.noiseRun (env : Env) : SimArgs := { Spec.fullRun env with noise := true }

/-- `-q --max-iterations 20 --phases 012` -/
def Spec.sequenceId : IdArgs where
  network := "ieee123center"
  maxIter := 20
  standard := false
  bayesian := false
  continueId := false
  phases := "012"
  sequence := true
  exact := false
  laplacian := false
  weighted := false
  uncertainty := false
  unsynchronized := false

noncomputable def Spec.phasePlot : PlotParams where
  args := { network := "ieee123center", sequence := false }
  maxY := none
  maxErr := none
  color := 1 / 2

open Script

theorem simConvert_of (env : Env) {st : List Setting} (nw : String) (b1 b2 b3 b4 b5 b6 b7 : Bool)
    (h0 : text st sActive = none ∧ text st sReactive = none ∧ text st sGaussian = none) (hn : str st sNetwork "bolognani56" = nw)
    (h : flag st sLoads = b1 ∧ flag st sNetworkSim = b2 ∧ flag st sNoise = b3 ∧ flag st sThreePhased = b4 ∧
      flag st sSequence = b5 ∧ flag st sEquivalent = b6 ∧ flag st sLaplacian = b7) :
    simConvert env st = some ⟨nw, env.dataDir ++ "/profiles/Electricity_Profile_RNEplus_small.npy",
      env.dataDir ++ "/profiles/Reactive_Electricity_Profile_RNEplus_small.npy", 0, b1, b2, b3, b4, b5, b6, b7⟩ := by
  obtain ⟨h1, h2, h3⟩ := h0
  obtain ⟨k1, k2, k3, k4, k5, k6, k7⟩ := h
  unfold simConvert num
  rw [h3, hn, k1, k2, k3, k4, k5, k6, k7]
  unfold str
  rw [h1, h2]
  rfl

theorem runLine_sim (env : Env) {line : String} {args : List (List Char)} {st : List Setting} {a : SimArgs}
    (hw : wordsOf line.toList = "simulate_network.py".toList :: args) (hp : parse (simOpts ++ [helpOpt]) args = some (st, []))
    (hh : flag st helpOpt = false) (hc : simConvert env st = some a) : runLine env line = .simulate (.run a) := by
  unfold runLine
  rw [hw]
  simp only [if_true, simCommand, command, hp, hh, hc, Bool.false_eq_true, if_false]

theorem runLine_id (env : Env) {line : String} {args : List (List Char)} {st : List Setting} {a : IdArgs}
    (hw : wordsOf line.toList = "identify_network.py".toList :: args) (hp : parse (idOpts ++ [helpOpt]) args = some (st, []))
    (hh : flag st helpOpt = false) (hc : idConvert st = some a) : runLine env line = .identify (.run a) := by
  have hne : "identify_network.py".toList ≠ "simulate_network.py".toList := by decide +kernel
  unfold runLine
  rw [hw]
  simp only [if_neg hne, if_true, idCommand, command, hp, hh, hc, Bool.false_eq_true, if_false]

theorem runLine_plot (env : Env) {line : String} {args : List (List Char)} {st : List Setting} {a : PlotParams}
    (hw : wordsOf line.toList = "plot_results.py".toList :: args) (hp : parse (plotOpts ++ [helpOpt]) args = some (st, []))
    (hh : flag st helpOpt = false) (hc : plotConvert env st = some a) : runLine env line = .plot (.run a) := by
  have hne : "plot_results.py".toList ≠ "simulate_network.py".toList := by decide +kernel
  have hne' : "plot_results.py".toList ≠ "identify_network.py".toList := by decide +kernel
  unfold runLine
  rw [hw]
  simp only [if_neg hne, if_neg hne', if_true, plotCommand, command, hp, hh, hc, Bool.false_eq_true, if_false]

theorem line_full (env : Env) : runLine env "simulate_network.py -qte --network ieee123center" = .simulate (.run (Spec.fullRun env)) :=
  runLine_sim env (args := ["-qte".toList, "--network".toList, "ieee123center".toList])
    (st := [(sSequence, none), (sThreePhased, none), (sEquivalent, none), (sNetwork, some "ieee123center".toList)])
    (by decide +kernel) (by decide +kernel) (by decide +kernel)
    (simConvert_of env "ieee123center" false false false true true true false (by decide +kernel) (by decide +kernel) (by decide +kernel))

theorem line_full_v (env : Env) : runLine env "simulate_network.py -vqte --network ieee123center" = .simulate (.run (Spec.fullRun env)) :=
  runLine_sim env (args := ["-vqte".toList, "--network".toList, "ieee123center".toList])
    (st := [(sVerbose, none), (sSequence, none), (sThreePhased, none), (sEquivalent, none), (sNetwork, some "ieee123center".toList)])
    (by decide +kernel) (by decide +kernel) (by decide +kernel)
    (simConvert_of env "ieee123center" false false false true true true false (by decide +kernel) (by decide +kernel) (by decide +kernel))

theorem line_noise (env : Env) : runLine env "simulate_network.py -qtde --network ieee123center" = .simulate (.run (Spec.noiseRun env)) :=
  runLine_sim env (args := ["-qtde".toList, "--network".toList, "ieee123center".toList])
    (st := [(sSequence, none), (sThreePhased, none), (sNoise, none), (sEquivalent, none), (sNetwork, some "ieee123center".toList)])
    (by decide +kernel) (by decide +kernel) (by decide +kernel)
    (simConvert_of env "ieee123center" false false true true true true false (by decide +kernel) (by decide +kernel) (by decide +kernel))

theorem idConvert_of {st : List Setting} {a : IdArgs} {m : ℤ} (hm : num intOf st iMaxIter 50 = some m) (hm' : m.toNat = a.maxIter)
    (hn : str st iNetwork "bolognani56" = a.network) (hp : str st iPhases "1" = a.phases)
    (h : flag st iStandard = a.standard ∧ flag st iBayesian = a.bayesian ∧ flag st iContinue = a.continueId ∧ flag st iSequence = a.sequence ∧
      flag st iExact = a.exact ∧ flag st iLaplacian = a.laplacian ∧ flag st iWeighted = a.weighted ∧ flag st iUncertainty = a.uncertainty ∧
      flag st iUnsync = a.unsynchronized) : idConvert st = some a := by
  obtain ⟨k1, k2, k3, k4, k5, k6, k7, k8, k9⟩ := h
  unfold idConvert
  rw [hm, Option.map_some, hm', hn, hp, k1, k2, k3, k4, k5, k6, k7, k8, k9]

theorem line_id (env : Env) : runLine env identifyLine = .identify (.run Spec.sequenceId) :=
  runLine_id env (args := ["-q".toList, "--max-iterations".toList, "20".toList, "--network".toList, "ieee123center".toList, "--phases".toList, "012".toList])
    (st := [(iSequence, none), (iMaxIter, some "20".toList), (iNetwork, some "ieee123center".toList), (iPhases, some "012".toList)])
    (by decide +kernel) (by decide +kernel) (by decide +kernel)
    (idConvert_of (m := 20) (by decide +kernel) rfl (by decide +kernel) (by decide +kernel) (by decide +kernel))

theorem plotConvert_of (env : Env) {st : List Setting} (h0 : text st pMaxY = none ∧ text st pMaxErr = none)
    {c : ℝ} (hc : num env.toFloat st pColor (1 / 2) = some c) : plotConvert env st =
      some { args := { network := str st pNetwork "bolognani56", sequence := flag st pSequence }, maxY := none, maxErr := none, color := c } := by
  obtain ⟨h1, h2⟩ := h0
  have e1 : num intOf st pMaxY 0 = some 0 := by unfold num; rw [h1]
  have e2 : num intOf st pMaxErr 0 = some 0 := by unfold num; rw [h2]
  unfold plotConvert
  rw [e1, e2, hc]
  rfl

theorem line_plot (env : Env) : runLine env plotLine = .plot (.run Spec.phasePlot) := by
  refine runLine_plot env (args := ["-v".toList, "--network".toList, "ieee123center".toList])
    (st := [(pVerbose, none), (pNetwork, some "ieee123center".toList)])
    (by decide +kernel) (by decide +kernel) (by decide +kernel) ((plotConvert_of env (c := 1 / 2) (by decide +kernel) ?_).trans ?_)
  · have : text [(pVerbose, none), (pNetwork, some "ieee123center".toList)] pColor = none := by decide +kernel
    unfold num
    rw [this]
  · have h1 : str [(pVerbose, none), (pNetwork, some "ieee123center".toList)] pNetwork "bolognani56" = "ieee123center" := by decide +kernel
    have h2 : flag [(pVerbose, none), (pNetwork, some "ieee123center".toList)] pSequence = false := by decide +kernel
    rw [h1, h2]
    rfl

/-- the runs the script is meant to make: for noise levels everything once per seed and then only the noise, for sample sizes everything -/
noncomputable def Spec.meant (env : Env) (ls : Lists) (n s : Bool) : List Run :=
  (if n then ls.noiseSeeds.flatMap (fun _ => .simulate (.run (Spec.fullRun env)) ::
      ls.noises.flatMap (fun _ => [.simulate (.run (Spec.noiseRun env)), .identify (.run Spec.sequenceId), .plot (.run Spec.phasePlot)])) else []) ++
  (if s then ls.daysSeeds.flatMap (fun _ =>
      ls.days.flatMap (fun _ => [.simulate (.run (Spec.fullRun env)), .identify (.run Spec.sequenceId), .plot (.run Spec.phasePlot)])) else [])

/-- the lines of the programs among commands -/
def Spec.lines : List Cmd → List String
  | [] => []
  | .python l :: cs => l :: Spec.lines cs
  | .sed _ _ _ :: cs => Spec.lines cs

theorem lines_append (a b : List Cmd) : Spec.lines (a ++ b) = Spec.lines a ++ Spec.lines b := by
  induction a with
  | nil => rfl
  | cons c a ih => cases c <;> simp [Spec.lines, ih]

theorem lines_flatMap {α : Type} (l : List α) (f : α → List Cmd) : Spec.lines (l.flatMap f) = l.flatMap (fun x => Spec.lines (f x)) := by
  induction l with
  | nil => rfl
  | cons x l ih => rw [List.flatMap_cons, List.flatMap_cons, lines_append, ih]

theorem runs_lines (t : Texts) (cs : List Cmd) : (runs t cs).map Prod.fst = Spec.lines cs := by
  induction cs generalizing t with
  | nil => rfl
  | cons c cs ih => cases c <;> simp [runs, Spec.lines, ih]

/-- C169: every program started by the script gets the parameters it is meant to have, for every choice of its lists and flags -/
theorem C169_script (env : Env) (t : Texts) (ls : Lists) {letters : List Char} {n s : Bool} (hf : flags letters = some (n, s)) :
    (runs t (script ls letters)).map (fun r => runLine env r.1) = Spec.meant env ls n s := by
  have e : (runs t (script ls letters)).map (fun r => runLine env r.1) = ((runs t (script ls letters)).map Prod.fst).map (runLine env) := by
    rw [List.map_map]; rfl
  rw [e, runs_lines]
  unfold script Spec.meant
  rw [hf]
  simp only [lines_append, List.map_append]
  congr 1
  · cases n
    · rfl
    · simp only [if_true, lines_flatMap, noiseSeed, List.cons_append, Spec.lines, lines_append, noiseRound, List.append_nil,
        List.map_flatMap, List.map_cons, List.map_nil, line_full_v, line_noise, line_id, line_plot]
  · cases s
    · rfl
    · simp only [if_true, lines_flatMap, daysSeed, List.cons_append, Spec.lines, lines_append, daysRound, List.append_nil,
        List.map_flatMap, List.map_cons, List.map_nil, line_full, line_id, line_plot]

end Cli
end Verif
