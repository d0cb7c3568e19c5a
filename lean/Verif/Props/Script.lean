/-
C85, C101, C102: what the script that varies the configuration leaves behind, and what its runs find.
-/
import Verif.Model.Script
import Verif.Spec.Script

namespace Verif
open Script

theorem key_split {V : Char → Prop} {key x : List Char} (hk : ∀ c ∈ key, ¬ V c) (hx : ∀ c ∈ x, V c) (hx0 : x ≠ []) (hk0 : key ≠ [])
    {a b l r : List Char} (h : a ++ key ++ b = l ++ x ++ r) :
    (∃ b', l = a ++ key ++ b' ∧ b = b' ++ x ++ r) ∨ ∃ a', r = a' ++ key ++ b ∧ a = l ++ x ++ a' := by
  rw [List.append_assoc l x r] at h
  rcases List.append_eq_append_iff.mp h with ⟨c, h1, h2⟩ | ⟨c, h1, h2⟩
  · exact .inl ⟨c, h1, by rw [h2, List.append_assoc]⟩
  · rcases List.append_eq_append_iff.mp h1 with ⟨e, h3, h4⟩ | ⟨e, h3, h4⟩
    · match c, h2, h4 with
      | [], h2, h4 =>
        refine .inl ⟨[], ?_, ?_⟩
        · rw [h3, h4]; simp
        · simpa using h2.symm
      | d :: c, h2, h4 =>
        match x, hx0, h2 with
        | y :: x, _, h2 =>
          have : y = d := by simpa using (List.cons.inj h2).1
          exact absurd (this ▸ hx y (by simp)) (hk d (by rw [h4]; simp))
    · subst h3 h4
      rw [List.append_assoc] at h2
      rcases List.append_eq_append_iff.mp h2 with ⟨f, h5, h6⟩ | ⟨f, h5, h6⟩
      · subst h5
        exact .inr ⟨f, by simpa using h6, by simp⟩
      · match f, h5, h6 with
        | [], h5, h6 =>
          refine .inr ⟨[], ?_, ?_⟩
          · simpa using h6.symm
          · rw [h5]; simp
        | d :: f, h5, h6 =>
          match key, hk0, h6 with
          | k :: key, _, h6 =>
            have : k = d := by simpa using (List.cons.inj h6).1
            exact absurd (hx d (by rw [h5]; simp)) (this ▸ hk k (by simp))

/-- no other place of the text holds the words -/
def OnlyAt (key pre y : List Char) : Prop := ∀ a b, pre ++ key ++ y = a ++ key ++ b → a = pre

theorem matchPat_key {key : List Char} (hk : '.' ∉ key) (v y : List Char) : matchPat (key ++ v) (key ++ y) = matchPat v y := by
  induction key with
  | nil => rfl
  | cons k ks ih =>
    simp only [List.mem_cons, not_or] at hk
    simp only [List.cons_append, matchPat, hits, if_neg (Ne.symm hk.1), decide_true, if_true]
    exact ih hk.2

theorem matchPat_starts {key : List Char} (hk : '.' ∉ key) {v t r : List Char} (h : matchPat (key ++ v) t = some r) :
    ∃ t', t = key ++ t' := by
  induction key generalizing t with
  | nil => exact ⟨t, rfl⟩
  | cons k ks ih =>
    simp only [List.mem_cons, not_or] at hk
    match t with
    | [] => simp [matchPat] at h
    | c :: t =>
      simp only [List.cons_append, matchPat, hits, if_neg (Ne.symm hk.1)] at h
      by_cases hc : k = c
      · simp only [hc, decide_true, if_true] at h
        obtain ⟨t', ht⟩ := ih hk.2 h
        exact ⟨t', by rw [ht, hc]; rfl⟩
      · simp [hc] at h

theorem matchPat_split {v t r : List Char} (h : matchPat v t = some r) : ∃ m, t = m ++ r ∧ m.length = v.length := by
  induction v generalizing t with
  | nil => exact ⟨[], by simpa [matchPat] using h, rfl⟩
  | cons p ps ih =>
    match t with
    | [] => simp [matchPat] at h
    | c :: t =>
      simp only [matchPat] at h
      split at h
      · obtain ⟨m, h1, h2⟩ := ih h
        exact ⟨c :: m, by rw [h1]; rfl, by simp [h2]⟩
      · exact nomatch h

theorem sedGo_copy {pat rep l r : List Char} (h : ∀ a b, l = a ++ b → b ≠ [] → matchPat pat (b ++ r) = none) :
    sedGo pat rep 0 (l ++ r) = l ++ sedGo pat rep 0 r := by
  induction l with
  | nil => rfl
  | cons c l ih =>
    have h0 := h [] (c :: l) rfl (by simp)
    rw [List.cons_append] at h0
    simp only [List.cons_append, sedGo, h0]
    rw [ih (fun a b hab hb => h (c :: a) b (by rw [hab]; rfl) hb)]

theorem sedGo_skip {pat rep l r : List Char} : sedGo pat rep l.length (l ++ r) = sedGo pat rep 0 r := by
  induction l with
  | nil => rfl
  | cons c l ih => simpa [sedGo] using ih

/-- the effect of the command on a text that holds the words once -/
theorem sed_only {key pre y : List Char} (hk0 : key ≠ []) (hk : '.' ∉ key) (h : OnlyAt key pre y) (v w : List Char) :
    sed (key ++ v) (key ++ w) (pre ++ key ++ y) = pre ++ key ++ (match matchPat v y with | some r => w ++ r | none => y) := by
  have hfind : ∀ a b, pre ++ key ++ y = a ++ b → matchPat (key ++ v) b ≠ none → a = pre ∧ b = key ++ y := by
    intro a b hab hm
    obtain ⟨r, hr⟩ := Option.ne_none_iff_exists'.mp hm
    obtain ⟨t', rfl⟩ := matchPat_starts hk hr
    have ha := h a t' (by rw [hab, List.append_assoc])
    subst ha
    exact ⟨rfl, by rw [List.append_assoc] at hab; exact (List.append_cancel_left hab).symm⟩
  unfold sed
  cases hm : matchPat v y with
  | none =>
    have := sedGo_copy (pat := key ++ v) (rep := key ++ w) (l := pre ++ key ++ y) (r := []) (by
      intro a b hab _
      by_contra hne
      rw [List.append_nil] at hne
      have := (hfind a b hab hne).2
      rw [this, matchPat_key hk, hm] at hne
      exact hne rfl)
    simpa [sedGo] using this
  | some r =>
    obtain ⟨m, rfl, hl⟩ := matchPat_split hm
    have h1 : sedGo (key ++ v) (key ++ w) 0 (pre ++ (key ++ (m ++ r))) = pre ++ sedGo (key ++ v) (key ++ w) 0 (key ++ (m ++ r)) := by
      refine sedGo_copy ?_
      intro a b hab hb
      by_contra hne
      have := (hfind a (b ++ (key ++ (m ++ r))) (by rw [hab]; simp) hne).1
      subst this
      exact hb (by simpa using hab)
    have h2 : sedGo (key ++ v) (key ++ w) 0 (key ++ (m ++ r)) = (key ++ w) ++ sedGo (key ++ v) (key ++ w) 0 r := by
      have hkm : matchPat (key ++ v) (key ++ (m ++ r)) = some r := by rw [matchPat_key hk, hm]
      match key, hk0, hkm with
      | k :: ks, _, hkm =>
        simp only [List.cons_append] at hkm ⊢
        simp only [sedGo, hkm]
        have : (k :: (ks ++ v)).length - 1 = (ks ++ m).length := by simp [hl]
        rw [this, ← List.append_assoc, sedGo_skip]
        rfl
    have h3 : sedGo (key ++ v) (key ++ w) 0 (r ++ []) = r ++ sedGo (key ++ v) (key ++ w) 0 [] := by
      refine sedGo_copy ?_
      intro a b hab hb
      by_contra hne
      rw [List.append_nil] at hne
      have := (hfind (pre ++ key ++ m ++ a) b (by rw [hab]; simp) hne).1
      have hlen := congrArg List.length this
      simp only [List.length_append] at hlen
      have := List.length_pos_iff.mpr hk0
      omega
    rw [List.append_nil] at h3
    rw [List.append_assoc, h1, h2, h3]
    simp [sedGo]

/-- a character of a number -/
def numChar (c : Char) : Prop := c.isDigit = true ∨ c = '.'

/-- words of which no character can stand in a number -/
def Words (key : List Char) : Prop := key ≠ [] ∧ ∀ c ∈ key, ¬ numChar c

theorem seedKey_words : Words seedKey := ⟨by decide, by unfold numChar; decide⟩
theorem noiseKey_words : Words noiseKey := ⟨by decide, by unfold numChar; decide⟩
theorem daysKey_words : Words daysKey := ⟨by decide, by unfold numChar; decide⟩

theorem Words.no_dot {key : List Char} (h : Words key) : '.' ∉ key := fun hd => h.2 _ hd (.inr rfl)

theorem matchPat_self {v : List Char} (hv : ∀ c ∈ v, numChar c) (r : List Char) : matchPat v (v ++ r) = some r := by
  induction v with
  | nil => rfl
  | cons c v ih =>
    have hh : hits c c = true := by
      unfold hits
      by_cases h : c = '.'
      · subst h; decide
      · rw [if_neg h]; simp
    simp only [List.cons_append, matchPat, hh, if_true]
    exact ih (fun d hd => hv d (by simp [hd]))

/-- changing a number next to nothing but the words keeps the place of the words unique -/
theorem OnlyAt.value {key pre post x x' : List Char} (hk : Words key) (hx : Spec.Value x) (hx' : Spec.Value x')
    (h : OnlyAt key pre (x ++ post)) : OnlyAt key pre (x' ++ post) := by
  intro a b hab
  rw [← List.append_assoc] at hab
  rcases key_split hk.2 hx'.2 hx'.1 hk.1 hab.symm with ⟨b', h1, h2⟩ | ⟨a', h1, h2⟩
  · exact h a (b' ++ x ++ post) (by rw [← List.append_assoc, h1]; simp)
  · have := h (pre ++ key ++ x ++ a') b (by rw [h1]; simp)
    have hl := congrArg List.length this
    simp only [List.length_append] at hl
    have := List.length_pos_iff.mpr hk.1
    omega

/-- a number elsewhere, after the words -/
theorem OnlyAt.after {key pre m x x' post : List Char} (hk : Words key) (hx : Spec.Value x) (hx' : Spec.Value x')
    (h : OnlyAt key pre (m ++ x ++ post)) : OnlyAt key pre (m ++ x' ++ post) := by
  intro a b hab
  have e : ∀ z, pre ++ key ++ (m ++ z ++ post) = (pre ++ key ++ m) ++ z ++ post := fun z => by simp
  rw [e] at hab
  rcases key_split hk.2 hx'.2 hx'.1 hk.1 hab.symm with ⟨b', h1, h2⟩ | ⟨a', h1, h2⟩
  · exact h a (b' ++ x ++ post) (by rw [e, h1]; simp)
  · have := h (pre ++ key ++ m ++ x ++ a') b (by rw [e, h1]; simp)
    have hl := congrArg List.length this
    simp only [List.length_append] at hl
    have := List.length_pos_iff.mpr hk.1
    omega

/-- a number elsewhere, before the words -/
theorem OnlyAt.before {key pre m x x' y : List Char} (hk : Words key) (hx : Spec.Value x) (hx' : Spec.Value x')
    (h : OnlyAt key (pre ++ x ++ m) y) : OnlyAt key (pre ++ x' ++ m) y := by
  intro a b hab
  have e : ∀ z, pre ++ z ++ m ++ key ++ y = pre ++ z ++ (m ++ key ++ y) := fun z => by simp
  rw [e] at hab
  rcases key_split hk.2 hx'.2 hx'.1 hk.1 hab.symm with ⟨b', h1, h2⟩ | ⟨a', h1, h2⟩
  · have := h a (b' ++ x ++ (m ++ key ++ y)) (by rw [e, h1]; simp)
    have hl := congrArg List.length this
    have hl' := congrArg List.length h1
    simp only [List.length_append] at hl hl'
    have := List.length_pos_iff.mpr hk.1
    omega
  · have := h (pre ++ x ++ a') b (by rw [e, h1]; simp)
    rw [List.append_assoc, List.append_assoc] at this
    have := List.append_cancel_left (List.append_cancel_left this)
    rw [h2, this]

/-- a text as a function of the value of one setting -/
def Field (key : List Char) (F : List Char → List Char) : Prop :=
  ∃ pre post, (∀ x, Spec.Value x → OnlyAt key pre (x ++ post)) ∧ ∀ x, F x = pre ++ key ++ (x ++ post)

theorem Field.sed {key : List Char} (hk : Words key) {F : List Char → List Char} (hF : Field key F) {v w : List Char}
    (hv : Spec.Value v) : Script.sed (key ++ v) (key ++ w) (F v) = F w := by
  obtain ⟨pre, post, h, hF⟩ := hF
  rw [hF, hF, sed_only hk.1 hk.no_dot (h v hv), matchPat_self hv.2]

theorem Field.edited {key : List Char} {F : List Char → List Char} (hF : Field key F) (v w : List Char) :
    Spec.Edited key v w (F v) (F w) := by
  obtain ⟨pre, post, -, hF⟩ := hF
  exact ⟨pre, post, by rw [hF]; simp, by rw [hF]; simp⟩

theorem onlyAt_of_once {key v t : List Char} (h : Spec.Sets key v t) :
    ∃ pre post, t = pre ++ key ++ (v ++ post) ∧ OnlyAt key pre (v ++ post) := by
  obtain ⟨⟨a0, -, hu⟩, a, b, rfl⟩ := h
  have ha : a = a0 := hu a ⟨v ++ b, by simp⟩
  refine ⟨a, b, by simp, fun a' b' hab => ?_⟩
  have := hu a' ⟨b', by rw [← hab]; simp⟩
  rw [this, ha]

/-- a text with one setting -/
theorem field_of_sets {key v t : List Char} (hk : Words key) (hv : Spec.Value v) (h : Spec.Sets key v t) :
    ∃ F, Field key F ∧ F v = t := by
  obtain ⟨pre, post, rfl, ho⟩ := onlyAt_of_once h
  exact ⟨fun x => pre ++ key ++ (x ++ post), ⟨pre, post, fun x hx => ho.value hk hv hx, fun _ => rfl⟩, rfl⟩

/-- a text with two settings, neither of whose words end with those of the other -/
theorem fields_of_sets {k1 k2 v1 v2 t : List Char} (hk1 : Words k1) (hk2 : Words k2) (hne : ∀ a b, a ++ k1 ≠ b ++ k2)
    (hv1 : Spec.Value v1) (hv2 : Spec.Value v2) (h1 : Spec.Sets k1 v1 t) (h2 : Spec.Sets k2 v2 t) :
    ∃ T : List Char → List Char → List Char, (∀ y, Spec.Value y → Field k1 (fun x => T x y)) ∧ (∀ x, Spec.Value x → Field k2 (T x)) ∧
      T v1 v2 = t := by
  obtain ⟨p1, q1, e1, o1⟩ := onlyAt_of_once h1
  obtain ⟨p2, q2, e2, o2⟩ := onlyAt_of_once h2
  have hb1 : p2 ++ k2 ++ (v2 ++ q2) = (p1 ++ k1) ++ v1 ++ q1 := by rw [← e2, e1]; simp
  have hb2 : p1 ++ k1 ++ (v1 ++ q1) = (p2 ++ k2) ++ v2 ++ q2 := by rw [← e1, e2]; simp
  rcases key_split hk2.2 hv1.2 hv1.1 hk2.1 hb1 with ⟨b', h3, h4⟩ | ⟨a', h3, h4⟩
  · rcases key_split hk1.2 hv2.2 hv2.1 hk1.1 hb2 with ⟨b'', h5, h6⟩ | ⟨a', h5, h6⟩
    · have l3 := congrArg List.length h3
      have l5 := congrArg List.length h5
      simp only [List.length_append] at l3 l5
      have : b' = [] := List.length_eq_zero_iff.mp (by omega)
      subst this
      exact absurd (by simpa using h3) (hne p1 p2)
    · -- the second setting stands first
      subst h5 h6
      refine ⟨fun x y => p2 ++ k2 ++ (y ++ (a' ++ k1 ++ (x ++ q1))), fun y hy => ⟨p2 ++ k2 ++ y ++ a', q1, ?_, ?_⟩,
        fun x hx => ⟨p2, a' ++ k1 ++ (x ++ q1), ?_, fun _ => rfl⟩, ?_⟩
      · exact fun x hx => OnlyAt.before hk1 hv2 hy (o1.value hk1 hv1 hx)
      · intro x; simp
      · intro y hy
        have o := o2.value hk2 hv2 hy
        have e : ∀ z, y ++ (a' ++ k1 ++ (z ++ q1)) = (y ++ a' ++ k1) ++ z ++ q1 := fun z => by simp
        rw [e] at o ⊢
        exact o.after hk2 hv1 hx
      · exact e2.symm
  · subst h3 h4
    refine ⟨fun x y => p1 ++ k1 ++ (x ++ (a' ++ k2 ++ (y ++ q2))), fun y hy => ⟨p1, a' ++ k2 ++ (y ++ q2), ?_, fun _ => rfl⟩,
      fun x hx => ⟨p1 ++ k1 ++ x ++ a', q2, ?_, ?_⟩, ?_⟩
    · intro x hx
      have o := o1.value hk1 hv1 hx
      have e : ∀ z, x ++ (a' ++ k2 ++ (z ++ q2)) = (x ++ a' ++ k2) ++ z ++ q2 := fun z => by simp
      rw [e] at o ⊢
      exact o.after hk1 hv2 hy
    · exact fun y hy => OnlyAt.before hk2 hv1 hx (o2.value hk2 hv2 hy)
    · intro x; simp
    · exact e1.symm

theorem exec_append (t : Texts) (a b : List Cmd) : exec t (a ++ b) = exec (exec t a) b := List.foldl_append

/-- all texts met on the way satisfy `I` -/
def Safe (I : Texts → Prop) (t : Texts) (cs : List Cmd) : Prop := ∀ p, p <+: cs → I (exec t p)

theorem safe_nil {I : Texts → Prop} {t : Texts} (h : I t) : Safe I t [] := fun p hp => by
  rw [List.prefix_nil.mp hp]
  exact h

theorem safe_cons {I : Texts → Prop} {t : Texts} {c : Cmd} {cs : List Cmd} (h : I t) (hs : Safe I (c.exec t) cs) : Safe I t (c :: cs) := by
  intro p hp
  rcases List.prefix_cons_iff.mp hp with rfl | ⟨q, rfl, hq⟩
  · exact h
  · exact hs q hq

theorem safe_append {I : Texts → Prop} {t : Texts} {a b : List Cmd} (ha : Safe I t a) (hb : Safe I (exec t a) b) : Safe I t (a ++ b) := by
  induction a generalizing t with
  | nil => exact hb
  | cons c a ih =>
    have h0 : I t := ha [] (List.nil_prefix)
    refine safe_cons h0 (ih (fun p hp => ?_) hb)
    exact ha (c :: p) (List.prefix_cons_iff.mpr (.inr ⟨p, rfl, hp⟩))

theorem runs_append (t : Texts) (a b : List Cmd) : runs t (a ++ b) = runs t a ++ runs (exec t a) b := by
  induction a generalizing t with
  | nil => rfl
  | cons c a ih =>
    cases c with
    | python l => simp only [List.cons_append, runs, ih]; rfl
    | sed f p r => simp only [List.cons_append, runs, ih]; rfl

/-- a loop whose body leaves the texts as they were -/
theorem loop {I : Texts → Prop} {t : Texts} (ht : I t) {α : Type} (xs : List α) (body : α → List Cmd) (seen : α → List (String × Texts))
    (h : ∀ x ∈ xs, exec t (body x) = t ∧ Safe I t (body x) ∧ runs t (body x) = seen x) :
    exec t (xs.flatMap body) = t ∧ Safe I t (xs.flatMap body) ∧ runs t (xs.flatMap body) = xs.flatMap seen := by
  induction xs with
  | nil => exact ⟨rfl, safe_nil ht, rfl⟩
  | cons x xs ih =>
    obtain ⟨h1, h2, h3⟩ := h x (by simp)
    obtain ⟨i1, i2, i3⟩ := ih (fun y hy => h y (by simp [hy]))
    simp only [List.flatMap_cons]
    refine ⟨by rw [exec_append, h1, i1], safe_append h2 (by rw [h1]; exact i2), ?_⟩
    rw [runs_append, h1, h3, i3]

theorem seed_ne_noise (a b : List Char) : a ++ seedKey ≠ b ++ noiseKey := by
  intro h
  have h := congrArg List.reverse h
  rw [List.reverse_append, List.reverse_append, show seedKey.reverse = [' ', '=', ' ', 'd', 'e', 'e', 's'] from by decide,
    show noiseKey.reverse = [' ', '=', ' ', 'l', 'e', 'v', 'e', 'l', '_', 'e', 's', 'i', 'o', 'n'] from by decide] at h
  simp at h

theorem value_131 : Spec.Value "131".toList := ⟨by decide, by decide⟩
theorem value_1 : Spec.Value "1".toList := ⟨by decide, by decide⟩
theorem value_7 : Spec.Value "7".toList := ⟨by decide, by decide⟩

/-- everything about a run of the script, for texts as functions of the settings -/
theorem script_run {ls : Lists} (hl : Spec.Numbers ls) {t : Texts} {T : List Char → List Char → List Char} {S : List Char → List Char}
    (h1 : ∀ y, Spec.Value y → Field seedKey (fun x => T x y)) (h2 : ∀ x, Spec.Value x → Field noiseKey (T x))
    (h3 : T "131".toList "1".toList = t.conf) (h4 : Field daysKey S) (h5 : S "7".toList = t.simulation) (letters : List Char) :
    exec t (script ls letters) = t ∧
      (∀ p, p <+: script ls letters → ∃ x y z, x ∈ "131".toList :: (ls.noiseSeeds ++ ls.daysSeeds) ∧ y ∈ "1".toList :: ls.noises ∧
        z ∈ "7".toList :: ls.days ∧ exec t p = ⟨T x y, S z⟩) ∧
      ∀ n s, flags letters = some (n, s) → runs t (script ls letters) = Spec.intended ls n s t T S := by
  have hseed : ∀ {v w y : List Char}, Spec.Value v → Spec.Value y → sed (seedKey ++ v) (seedKey ++ w) (T v y) = T w y :=
    fun hv hy => (h1 _ hy).sed seedKey_words hv
  have hnoise : ∀ {v w x : List Char}, Spec.Value v → Spec.Value x → sed (noiseKey ++ v) (noiseKey ++ w) (T x v) = T x w :=
    fun hv hx => (h2 _ hx).sed noiseKey_words hv
  have hdays : ∀ {v w : List Char}, Spec.Value v → sed (daysKey ++ v) (daysKey ++ w) (S v) = S w :=
    fun hv => h4.sed daysKey_words hv
  have e1 : (['1'] : List Char) = "1".toList := by decide
  have e7 : (['7'] : List Char) = "7".toList := by decide
  let I : Texts → Prop := fun u => ∃ x y z, x ∈ "131".toList :: (ls.noiseSeeds ++ ls.daysSeeds) ∧ y ∈ "1".toList :: ls.noises ∧
        z ∈ "7".toList :: ls.days ∧ u = ⟨T x y, S z⟩
  have ht0 : t = ⟨T "131".toList "1".toList, S "7".toList⟩ := by rw [h3, h5]
  have hI0 : ∀ x ∈ "131".toList :: (ls.noiseSeeds ++ ls.daysSeeds), ∀ y ∈ "1".toList :: ls.noises, ∀ z ∈ "7".toList :: ls.days,
      I ⟨T x y, S z⟩ := fun x hx y hy z hz => ⟨x, y, z, hx, hy, hz, rfl⟩
  have m131 : "131".toList ∈ "131".toList :: (ls.noiseSeeds ++ ls.daysSeeds) := by simp
  have m1 : "1".toList ∈ "1".toList :: ls.noises := by simp
  have m7 : "7".toList ∈ "7".toList :: ls.days := by simp
  -- the two inner loops
  have hN : ∀ x ∈ ls.noiseSeeds, ∀ y ∈ ls.noises, let u : Texts := ⟨T x "1".toList, S "7".toList⟩
      exec u (noiseRound y) = u ∧ Safe I u (noiseRound y) ∧ runs u (noiseRound y) =
        ["simulate_network.py -qtde --network ieee123center", identifyLine, plotLine].map (fun l => (l, ⟨T x y, S "7".toList⟩)) := by
    intro x hx y hy u
    have vx := hl.noiseSeeds x hx
    have vy := hl.noises y hy
    have mx : x ∈ "131".toList :: (ls.noiseSeeds ++ ls.daysSeeds) := by simp [hx]
    have my : y ∈ "1".toList :: ls.noises := by simp [hy]
    have a1 := hnoise (w := y) value_1 vx
    have a2 := hnoise (w := "1".toList) vy vx
    have s1 := hI0 x mx _ m1 _ m7
    have s2 := hI0 x mx y my _ m7
    refine ⟨?_, ?_, ?_⟩
    · simp only [u, exec, noiseRound, List.foldl_cons, List.foldl_nil, Cmd.exec, e1, a1, a2]
    · refine safe_cons s1 ?_
      simp only [u, Cmd.exec, e1, a1]
      refine safe_cons s2 (safe_cons s2 (safe_cons s2 (safe_cons s2 ?_)))
      simp only [Cmd.exec, e1, a2]
      exact safe_nil s1
    · simp only [u, runs, noiseRound, Cmd.exec, e1, a1, a2, List.map_cons, List.map_nil]
  have hD : ∀ x ∈ ls.daysSeeds, ∀ y ∈ ls.days, let u : Texts := ⟨T x "1".toList, S "7".toList⟩
      exec u (daysRound y) = u ∧ Safe I u (daysRound y) ∧ runs u (daysRound y) =
        ["simulate_network.py -qte --network ieee123center", identifyLine, plotLine].map (fun l => (l, ⟨T x "1".toList, S y⟩)) := by
    intro x hx y hy u
    have vx := hl.daysSeeds x hx
    have vy := hl.days y hy
    have mx : x ∈ "131".toList :: (ls.noiseSeeds ++ ls.daysSeeds) := by simp [hx]
    have my : y ∈ "7".toList :: ls.days := by simp [hy]
    have a1 := hdays (w := y) value_7
    have a2 := hdays (w := "7".toList) vy
    have s1 := hI0 x mx _ m1 _ m7
    have s2 := hI0 x mx _ m1 y my
    refine ⟨?_, ?_, ?_⟩
    · simp only [u, exec, daysRound, List.foldl_cons, List.foldl_nil, Cmd.exec, e7, a1, a2]
    · refine safe_cons s1 ?_
      simp only [u, Cmd.exec, e7, a1]
      refine safe_cons s2 (safe_cons s2 (safe_cons s2 (safe_cons s2 ?_)))
      simp only [Cmd.exec, e7, a2]
      exact safe_nil s1
    · simp only [u, runs, daysRound, Cmd.exec, e7, a1, a2, List.map_cons, List.map_nil]
  -- the two outer loops
  have hNS : ∀ x ∈ ls.noiseSeeds, exec t (noiseSeed ls.noises x) = t ∧ Safe I t (noiseSeed ls.noises x) ∧
      runs t (noiseSeed ls.noises x) = ("simulate_network.py -vqte --network ieee123center", ⟨T x "1".toList, t.simulation⟩) ::
        ls.noises.flatMap (fun y => ["simulate_network.py -qtde --network ieee123center", identifyLine, plotLine].map
          (fun l => (l, ⟨T x y, t.simulation⟩))) := by
    intro x hx
    have vx := hl.noiseSeeds x hx
    have mx : x ∈ "131".toList :: (ls.noiseSeeds ++ ls.daysSeeds) := by simp [hx]
    have a1 := hseed (w := x) value_131 value_1
    have a2 := hseed (w := "131".toList) vx value_1
    have s0 := hI0 _ m131 _ m1 _ m7
    have s1 := hI0 x mx _ m1 _ m7
    obtain ⟨l1, l2, l3⟩ := loop s1 ls.noises noiseRound _ (fun y hy => hN x hx y hy)
    rw [ht0]
    refine ⟨?_, ?_, ?_⟩
    · unfold noiseSeed
      rw [List.cons_append, List.cons_append]
      show exec (Cmd.exec (Cmd.exec _ _) _) _ = _
      simp only [Cmd.exec, a1]
      rw [exec_append, l1]
      simp only [exec, List.foldl_cons, List.foldl_nil, Cmd.exec, a2]
    · refine safe_cons s0 ?_
      simp only [Cmd.exec, a1]
      refine safe_cons s1 (safe_append l2 ?_)
      simp only [Cmd.exec, l1]
      refine safe_cons s1 ?_
      simp only [Cmd.exec, a2]
      exact safe_nil s0
    · unfold noiseSeed
      rw [List.cons_append, List.cons_append]
      simp only [runs, Cmd.exec, a1]
      rw [runs_append, l1, l3]
      simp only [runs, List.append_nil]
  have hDS : ∀ x ∈ ls.daysSeeds, exec t (daysSeed ls.days x) = t ∧ Safe I t (daysSeed ls.days x) ∧
      runs t (daysSeed ls.days x) = ls.days.flatMap (fun y =>
        ["simulate_network.py -qte --network ieee123center", identifyLine, plotLine].map (fun l => (l, ⟨T x "1".toList, S y⟩))) := by
    intro x hx
    have vx := hl.daysSeeds x hx
    have mx : x ∈ "131".toList :: (ls.noiseSeeds ++ ls.daysSeeds) := by simp [hx]
    have a1 := hseed (w := x) value_131 value_1
    have a2 := hseed (w := "131".toList) vx value_1
    have s0 := hI0 _ m131 _ m1 _ m7
    have s1 := hI0 x mx _ m1 _ m7
    obtain ⟨l1, l2, l3⟩ := loop s1 ls.days daysRound _ (fun y hy => hD x hx y hy)
    rw [ht0]
    refine ⟨?_, ?_, ?_⟩
    · unfold daysSeed
      rw [List.cons_append]
      show exec (Cmd.exec _ _) _ = _
      simp only [Cmd.exec, a1]
      rw [exec_append, l1]
      simp only [exec, List.foldl_cons, List.foldl_nil, Cmd.exec, a2]
    · refine safe_cons s0 ?_
      simp only [Cmd.exec, a1]
      refine safe_append l2 ?_
      rw [l1]
      refine safe_cons s1 ?_
      simp only [Cmd.exec, a2]
      exact safe_nil s0
    · unfold daysSeed
      rw [List.cons_append]
      simp only [runs, Cmd.exec, a1]
      rw [runs_append, l1, l3]
      simp only [runs, List.append_nil]
  have hIt : I t := ht0 ▸ hI0 _ m131 _ m1 _ m7
  obtain ⟨n1, n2, n3⟩ := loop hIt ls.noiseSeeds (noiseSeed ls.noises) _ hNS
  obtain ⟨d1, d2, d3⟩ := loop hIt ls.daysSeeds (daysSeed ls.days) _ hDS
  unfold script
  cases hf : flags letters with
  | none => exact ⟨rfl, safe_nil hIt, fun n s h => nomatch h⟩
  | some f =>
    obtain ⟨n, s⟩ := f
    have key : exec t ((if n = true then ls.noiseSeeds.flatMap (noiseSeed ls.noises) else []) ++
        (if s = true then ls.daysSeeds.flatMap (daysSeed ls.days) else [])) = t ∧
        Safe I t ((if n = true then ls.noiseSeeds.flatMap (noiseSeed ls.noises) else []) ++
        (if s = true then ls.daysSeeds.flatMap (daysSeed ls.days) else [])) ∧
        runs t ((if n = true then ls.noiseSeeds.flatMap (noiseSeed ls.noises) else []) ++
        (if s = true then ls.daysSeeds.flatMap (daysSeed ls.days) else [])) = Spec.intended ls n s t T S := by
      unfold Spec.intended
      cases n <;> cases s
      · exact ⟨rfl, safe_nil hIt, rfl⟩
      · exact ⟨d1, d2, d3⟩
      · simp only [if_true, Bool.false_eq_true, if_false, List.append_nil]
        exact ⟨n1, n2, n3⟩
      · simp only [if_true]
        refine ⟨by rw [exec_append, n1, d1], safe_append n2 (by rw [n1]; exact d2), ?_⟩
        rw [runs_append, n1, n3, d3]; rfl
    refine ⟨key.1, key.2.1, fun n' s' h => ?_⟩
    obtain ⟨rfl, rfl⟩ := Prod.mk.inj (Option.some.inj h)
    exact key.2.2

theorem defaults_fields {t : Texts} (ht : Spec.Defaults t) : ∃ (T : List Char → List Char → List Char) (S : List Char → List Char),
    (∀ y, Spec.Value y → Field seedKey (fun x => T x y)) ∧ (∀ x, Spec.Value x → Field noiseKey (T x)) ∧
    T "131".toList "1".toList = t.conf ∧ Field daysKey S ∧ S "7".toList = t.simulation := by
  obtain ⟨T, h1, h2, h3⟩ := fields_of_sets seedKey_words noiseKey_words seed_ne_noise value_131 value_1 ht.seed ht.noise
  obtain ⟨S, h4, h5⟩ := field_of_sets daysKey_words value_7 ht.days
  exact ⟨T, S, h1, h2, h3, h4, h5⟩

/-- everything about a run of the script, for texts with the default settings each at one place -/
theorem script_all {ls : Lists} (hl : Spec.Numbers ls) {t : Texts} (ht : Spec.Defaults t) (letters : List Char) :
    ∃ c d, Spec.Settings t c d ∧ exec t (script ls letters) = t ∧
      (∀ p, p <+: script ls letters → ∃ x y z, x ∈ "131".toList :: (ls.noiseSeeds ++ ls.daysSeeds) ∧ y ∈ "1".toList :: ls.noises ∧
        z ∈ "7".toList :: ls.days ∧ exec t p = ⟨c x y, d z⟩) ∧
      ∀ n s, flags letters = some (n, s) → runs t (script ls letters) = Spec.intended ls n s t c d := by
  obtain ⟨T, S, h1, h2, h3, h4, h5⟩ := defaults_fields ht
  exact ⟨T, S, ⟨h3, h5, fun x y hx hy => (h1 y hy).edited _ _, fun x y hx hy => (h2 x hx).edited _ _,
    fun x hx => h5 ▸ h4.edited _ _⟩, script_run hl h1 h2 h3 h4 h5 letters⟩

/-- C85 where it holds: the settings stand at one place each, whatever numbers are in the lists and whichever flags are given -/
theorem C85_partial {ls : Lists} (hl : Spec.Numbers ls) {t : Texts} (ht : Spec.Defaults t) (letters : List Char) :
    exec t (script ls letters) = t ∧
    ∀ p, p <+: script ls letters → ∃ x y z u, x ∈ "131".toList :: (ls.noiseSeeds ++ ls.daysSeeds) ∧ y ∈ "1".toList :: ls.noises ∧
      z ∈ "7".toList :: ls.days ∧ Spec.Edited seedKey "131".toList x t.conf u ∧ Spec.Edited noiseKey "1".toList y u (exec t p).conf ∧
      Spec.Edited daysKey "7".toList z t.simulation (exec t p).simulation := by
  obtain ⟨c, d, hS, h1, h2, -⟩ := script_all hl ht letters
  refine ⟨h1, fun p hp => ?_⟩
  obtain ⟨x, y, z, hx, hy, hz, he⟩ := h2 p hp
  have vx : Spec.Value x := by
    rcases List.mem_cons.mp hx with rfl | hx
    · exact value_131
    · exact (List.mem_append.mp hx).elim (hl.noiseSeeds x) (hl.daysSeeds x)
  have vy : Spec.Value y := by
    rcases List.mem_cons.mp hy with rfl | hy
    · exact value_1
    · exact hl.noises y hy
  have vz : Spec.Value z := by
    rcases List.mem_cons.mp hz with rfl | hz
    · exact value_7
    · exact hl.days z hz
  refine ⟨x, y, z, c x "1".toList, hx, hy, hz, hS.conf ▸ hS.seed x _ vx value_1, ?_, ?_⟩
  · rw [he]; exact hS.noise x y vx vy
  · rw [he]; exact hS.days z vz

/-- C102: every run finds exactly the seed and the noise level or sample size it is meant for, and the other settings at their
defaults -/
theorem C102 {ls : Lists} (hl : Spec.Numbers ls) {t : Texts} (ht : Spec.Defaults t) {letters : List Char} {n s : Bool}
    (hf : flags letters = some (n, s)) :
    ∃ c d, Spec.Settings t c d ∧ runs t (script ls letters) = Spec.intended ls n s t c d := by
  obtain ⟨c, d, hS, -, -, h⟩ := script_all hl ht letters
  exact ⟨c, d, hS, h n s hf⟩

end Verif
