/-
C85 violated, and C101: running the script again after an interruption.
-/
import Verif.Props.Script

namespace Verif
open Script

/-- C85 violated: a comment that mentions another value of the list is rewritten -/
theorem C85_violated :
    let t : Texts := ⟨"seed = 131\nnoise_level = 1\n# best with seed = 11\n".toList, "days = 7\n".toList⟩
    (exec t (script lists ['s'])).conf = "seed = 131\nnoise_level = 1\n# best with seed = 131\n".toList ∧
    (exec t (script lists ['n'])).conf = "seed = 131\nnoise_level = 1\n# best with seed = 131\n".toList := by
  decide +kernel

theorem exec_cons (t : Texts) (c : Cmd) (cs : List Cmd) : exec t (c :: cs) = exec (c.exec t) cs := rfl

theorem matchPat_apart {v x : List Char} (h : Spec.Apart v x) (post : List Char) : matchPat v (x ++ post) = none := by
  obtain ⟨i, a, b, ha, hb, hab, hd⟩ := h
  induction i generalizing v x with
  | zero =>
    match v, x, ha, hb with
    | p :: v, c :: x, ha, hb =>
      simp only [List.getElem?_cons_zero, Option.some.injEq] at ha hb
      subst ha hb
      simp [matchPat, hits, hd, hab]
  | succ i ih =>
    match v, x, ha, hb with
    | p :: v, c :: x, ha, hb =>
      simp only [List.getElem?_cons_succ] at ha hb
      simp only [List.cons_append, matchPat]
      split
      · exact ih ha hb
      · rfl

/-- the command on a value that begins with the one it looks for -/
theorem Field.sed_begins {key : List Char} (hk : Words key) {F : List Char → List Char} (hF : Field key F) {v r w : List Char}
    (hv : Spec.Value v) (hr : Spec.Value (v ++ r)) : Script.sed (key ++ v) (key ++ w) (F (v ++ r)) = F (w ++ r) := by
  obtain ⟨pre, post, h, hF⟩ := hF
  rw [hF, hF, sed_only hk.1 hk.no_dot (h _ hr), List.append_assoc v, matchPat_self hv.2]
  simp

/-- the command on a value that differs from the one it looks for -/
theorem Field.sed_apart {key : List Char} (hk : Words key) {F : List Char → List Char} (hF : Field key F) {v x w : List Char}
    (hx : Spec.Value x) (ha : Spec.Apart v x) : Script.sed (key ++ v) (key ++ w) (F x) = F x := by
  obtain ⟨pre, post, h, hF⟩ := hF
  rw [hF, sed_only hk.1 hk.no_dot (h _ hx), matchPat_apart ha]

theorem Field.sed_free {key : List Char} (hk : Words key) {F : List Char → List Char} (hF : Field key F) {vs : List (List Char)}
    (hvs : ∀ v ∈ vs, Spec.Value v) (hp : Spec.PrefixFree vs) {v x : List Char} (hv : v ∈ vs) (hx : x ∈ vs) (w : List Char) :
    Script.sed (key ++ v) (key ++ w) (F x) = F (if x = v then w else x) := by
  by_cases h : x = v
  · subst h
    rw [if_pos rfl, hF.sed hk (hvs _ hx)]
  · rw [if_neg h, hF.sed_apart hk (hvs _ hx) (hp v hv x hx (Ne.symm h))]

/-- a loop that puts each value back to the default -/
theorem loop_default {P : List Char → Texts} {d : List Char} {X : List (List Char)} (hd : d ∈ X) {body : List Char → List Cmd}
    (l : List (List Char)) (hl : ∀ v ∈ l, v ∈ X) (h : ∀ v ∈ l, ∀ x ∈ X, exec (P x) (body v) = P (if x = v then d else x)) :
    ∀ x ∈ X, exec (P x) (l.flatMap body) = P (if x ∈ l then d else x) := by
  induction l with
  | nil => intro x _; rfl
  | cons v l ih =>
    intro x hx
    rw [List.flatMap_cons, exec_append, h v (by simp) x hx,
      ih (fun u hu => hl u (by simp [hu])) (fun u hu => h u (by simp [hu]))]
    · by_cases h1 : x = v
      · simp [h1]
      · simp [h1]
    · split
      · exact hd
      · exact hx

theorem there_and_back {α : Type} [DecidableEq α] (x v d : α) :
    (if (if x = d then v else x) = v then d else (if x = d then v else x)) = if x = v then d else x := by
  by_cases h1 : x = d <;> by_cases h2 : x = v <;> simp_all

section rerun
variable {ls : Lists} {T : List Char → List Char → List Char} {S : List Char → List Char}

theorem noise_part (hl : Spec.Unambiguous ls) (h1 : ∀ y, Spec.Value y → Field seedKey (fun x => T x y))
    (h2 : ∀ x, Spec.Value x → Field noiseKey (T x)) {x y : List Char} (hx : x ∈ "131".toList :: (ls.noiseSeeds ++ ls.daysSeeds))
    (hy : y ∈ "1".toList :: ls.noises) (h0 : ls.noiseSeeds = [] → y = "1".toList) (s : List Char) :
    exec ⟨T x y, s⟩ (ls.noiseSeeds.flatMap (noiseSeed ls.noises)) =
      ⟨T (if x ∈ ls.noiseSeeds then "131".toList else x) "1".toList, s⟩ := by
  have vX : ∀ v ∈ "131".toList :: (ls.noiseSeeds ++ ls.daysSeeds), Spec.Value v := by
    intro v hv
    rcases List.mem_cons.mp hv with rfl | hv
    · exact value_131
    · exact (List.mem_append.mp hv).elim (hl.noiseSeeds v) (hl.daysSeeds v)
  have vY : ∀ v ∈ "1".toList :: ls.noises, Spec.Value v := by
    intro v hv
    rcases List.mem_cons.mp hv with rfl | hv
    · exact value_1
    · exact hl.noises v hv
  have m131 : "131".toList ∈ "131".toList :: (ls.noiseSeeds ++ ls.daysSeeds) := by simp
  have m1 : "1".toList ∈ "1".toList :: ls.noises := by simp
  have e1 : (['1'] : List Char) = "1".toList := by decide
  -- the inner loop
  have inner : ∀ x ∈ "131".toList :: (ls.noiseSeeds ++ ls.daysSeeds), ∀ y ∈ "1".toList :: ls.noises,
      exec ⟨T x y, s⟩ (ls.noises.flatMap noiseRound) = ⟨T x "1".toList, s⟩ := by
    intro x hx y hy
    have := loop_default (P := fun y => ⟨T x y, s⟩) m1 ls.noises (body := noiseRound) (fun v hv => by simp [hv]) (by
      intro v hv z hz
      have hv' : v ∈ "1".toList :: ls.noises := by simp [hv]
      simp only [exec, noiseRound, List.foldl_cons, List.foldl_nil, Cmd.exec, e1]
      rw [(h2 x (vX x hx)).sed_free noiseKey_words vY hl.noisesFree m1 hz,
        (h2 x (vX x hx)).sed_free noiseKey_words vY hl.noisesFree hv' (by split <;> assumption), there_and_back]) y hy
    rw [this]
    rcases List.mem_cons.mp hy with rfl | hy
    · split <;> rfl
    · rw [if_pos hy]
  have body : ∀ v ∈ ls.noiseSeeds, ∀ x ∈ "131".toList :: (ls.noiseSeeds ++ ls.daysSeeds), ∀ y ∈ "1".toList :: ls.noises,
      exec ⟨T x y, s⟩ (noiseSeed ls.noises v) = ⟨T (if x = v then "131".toList else x) "1".toList, s⟩ := by
    intro v hv x hx y hy
    have hv' : v ∈ "131".toList :: (ls.noiseSeeds ++ ls.daysSeeds) := by simp [hv]
    unfold noiseSeed
    rw [List.cons_append, List.cons_append]
    rw [exec_cons, exec_cons]
    have hx' : (if x = "131".toList then v else x) ∈ "131".toList :: (ls.noiseSeeds ++ ls.daysSeeds) := by split <;> assumption
    simp only [Cmd.exec]
    rw [(h1 y (vY y hy)).sed_free seedKey_words vX hl.seedsFree m131 hx, exec_append, inner _ hx' y hy]
    simp only [exec, List.foldl_cons, List.foldl_nil, Cmd.exec]
    rw [(h1 _ value_1).sed_free seedKey_words vX hl.seedsFree hv' hx', there_and_back]
  have outer := fun l hl' h => loop_default (P := fun x => ⟨T x "1".toList, s⟩) m131 (body := noiseSeed ls.noises) l hl' h
  generalize hN : ls.noiseSeeds = N at *
  match N, h0, body, outer, vX, hN, hx, m131 with
  | [], h0, _, _, _, _, _, _ => rw [h0 rfl]; rfl
  | v :: l, _, body, outer, vX, _, hx, m131 =>
    rw [List.flatMap_cons, exec_append, body v (by simp) x hx y hy, outer l (fun u hu => by simp [hu])
      (fun u hu z hz => body u (by simp [hu]) z hz _ m1) _ (by split <;> assumption)]
    by_cases hxv : x = v
    · simp [hxv]
    · simp [hxv]

theorem days_part (hl : Spec.Unambiguous ls) (h1 : ∀ y, Spec.Value y → Field seedKey (fun x => T x y)) (h4 : Field daysKey S)
    {x z : List Char} (hx : x ∈ "131".toList :: (ls.noiseSeeds ++ ls.daysSeeds))
    (hz : z ∈ "7".toList :: ls.days) (h0 : ls.daysSeeds = [] → z = "7".toList) :
    exec ⟨T x "1".toList, S z⟩ (ls.daysSeeds.flatMap (daysSeed ls.days)) =
      ⟨T (if x ∈ ls.daysSeeds then "131".toList else x) "1".toList, S "7".toList⟩ := by
  have vX : ∀ v ∈ "131".toList :: (ls.noiseSeeds ++ ls.daysSeeds), Spec.Value v := by
    intro v hv
    rcases List.mem_cons.mp hv with rfl | hv
    · exact value_131
    · exact (List.mem_append.mp hv).elim (hl.noiseSeeds v) (hl.daysSeeds v)
  have vZ : ∀ v ∈ "7".toList :: ls.days, Spec.Value v := by
    intro v hv
    rcases List.mem_cons.mp hv with rfl | hv
    · exact value_7
    · exact hl.days v hv
  have m131 : "131".toList ∈ "131".toList :: (ls.noiseSeeds ++ ls.daysSeeds) := by simp
  have m7 : "7".toList ∈ "7".toList :: ls.days := by simp
  have e7 : (['7'] : List Char) = "7".toList := by decide
  have inner : ∀ c, ∀ z ∈ "7".toList :: ls.days, exec ⟨c, S z⟩ (ls.days.flatMap daysRound) = ⟨c, S "7".toList⟩ := by
    intro c y hy
    have := loop_default (P := fun y => ⟨c, S y⟩) m7 ls.days (body := daysRound) (fun v hv => by simp [hv]) (by
      intro v hv z hz
      have hv' : v ∈ "7".toList :: ls.days := by simp [hv]
      simp only [exec, daysRound, List.foldl_cons, List.foldl_nil, Cmd.exec, e7]
      rw [h4.sed_free daysKey_words vZ hl.daysFree m7 hz,
        h4.sed_free daysKey_words vZ hl.daysFree hv' (by split <;> assumption), there_and_back]) y hy
    rw [this]
    rcases List.mem_cons.mp hy with rfl | hy
    · split <;> rfl
    · rw [if_pos hy]
  have body : ∀ v ∈ ls.daysSeeds, ∀ x ∈ "131".toList :: (ls.noiseSeeds ++ ls.daysSeeds), ∀ z ∈ "7".toList :: ls.days,
      exec ⟨T x "1".toList, S z⟩ (daysSeed ls.days v) = ⟨T (if x = v then "131".toList else x) "1".toList, S "7".toList⟩ := by
    intro v hv x hx y hy
    have hv' : v ∈ "131".toList :: (ls.noiseSeeds ++ ls.daysSeeds) := by simp [hv]
    unfold daysSeed
    rw [List.cons_append]
    rw [exec_cons]
    have hx' : (if x = "131".toList then v else x) ∈ "131".toList :: (ls.noiseSeeds ++ ls.daysSeeds) := by split <;> assumption
    simp only [Cmd.exec]
    rw [(h1 _ value_1).sed_free seedKey_words vX hl.seedsFree m131 hx, exec_append, inner _ y hy]
    simp only [exec, List.foldl_cons, List.foldl_nil, Cmd.exec]
    rw [(h1 _ value_1).sed_free seedKey_words vX hl.seedsFree hv' hx', there_and_back]
  have outer := fun l hl' h => loop_default (P := fun x => ⟨T x "1".toList, S "7".toList⟩) m131 (body := daysSeed ls.days) l hl' h
  generalize hN : ls.daysSeeds = N at *
  match N, h0, body, outer, vX, hN, hx, m131 with
  | [], h0, _, _, _, _, _, _ => rw [h0 rfl]; rfl
  | v :: l, _, body, outer, vX, _, hx, m131 =>
    rw [List.flatMap_cons, exec_append, body v (by simp) x hx z hz, outer l (fun u hu => by simp [hu])
      (fun u hu w hw => body u (by simp [hu]) w hw _ m7) _ (by split <;> assumption)]
    by_cases hxv : x = v
    · simp [hxv]
    · simp [hxv]

end rerun

theorem PrefixFree.mono {a b : List (List Char)} (h : Spec.PrefixFree b) (hs : ∀ x ∈ a, x ∈ b) : Spec.PrefixFree a :=
  fun v hv x hx => h v (hs v hv) x (hs x hx)

/-- the lists without the values the flags leave out -/
def used (ls : Lists) (n s : Bool) : Lists where
  noiseSeeds := if n then ls.noiseSeeds else []
  noises := if n ∧ ls.noiseSeeds ≠ [] then ls.noises else []
  daysSeeds := if s then ls.daysSeeds else []
  days := if s ∧ ls.daysSeeds ≠ [] then ls.days else []

theorem mem_if {α : Type} {p : Prop} [Decidable p] {l : List α} {x : α} (h : x ∈ if p then l else []) : x ∈ l := by
  split at h
  · exact h
  · exact nomatch h

theorem used_unambiguous {ls : Lists} (hl : Spec.Unambiguous ls) (n s : Bool) : Spec.Unambiguous (used ls n s) where
  noiseSeeds x hx := hl.noiseSeeds x (mem_if hx)
  noises x hx := hl.noises x (mem_if hx)
  daysSeeds x hx := hl.daysSeeds x (mem_if hx)
  days x hx := hl.days x (mem_if hx)
  seedsFree := PrefixFree.mono hl.seedsFree (fun x hx => by
    rcases List.mem_cons.mp hx with rfl | hx
    · simp
    · refine List.mem_cons_of_mem _ (List.mem_append.mpr ((List.mem_append.mp hx).imp mem_if mem_if)))
  noisesFree := PrefixFree.mono hl.noisesFree (fun x hx => by
    rcases List.mem_cons.mp hx with rfl | hx
    · simp
    · exact List.mem_cons_of_mem _ (mem_if hx))
  daysFree := PrefixFree.mono hl.daysFree (fun x hx => by
    rcases List.mem_cons.mp hx with rfl | hx
    · simp
    · exact List.mem_cons_of_mem _ (mem_if hx))

theorem script_used (ls : Lists) {letters : List Char} {n s : Bool} (hf : flags letters = some (n, s)) :
    script ls letters = (used ls n s).noiseSeeds.flatMap (noiseSeed (used ls n s).noises) ++
      (used ls n s).daysSeeds.flatMap (daysSeed (used ls n s).days) := by
  unfold script
  rw [hf]
  simp only [used]
  congr 1
  · cases n
    · rfl
    · by_cases h : ls.noiseSeeds = [] <;> simp [h]
  · cases s
    · rfl
    · by_cases h : ls.daysSeeds = [] <;> simp [h]

/-- C101 where it holds: if no value of a list begins another value of the same setting or its default, then running the script again
with the same flags after any interruption restores both files -/
theorem C101_partial {ls : Lists} (hl : Spec.Unambiguous ls) {t : Texts} (ht : Spec.Defaults t) (letters : List Char) {p : List Cmd}
    (hp : p <+: script ls letters) : exec (exec t p) (script ls letters) = t := by
  obtain ⟨T, S, h1, h2, h3, h4, h5⟩ := defaults_fields ht
  cases hf : flags letters with
  | none =>
    have : script ls letters = [] := by unfold script; rw [hf]
    rw [this] at hp ⊢
    rw [List.prefix_nil.mp hp]
    rfl
  | some f =>
    obtain ⟨n, s⟩ := f
    have hu := used_unambiguous hl n s
    have hsame : script (used ls n s) letters = script ls letters := by
      rw [script_used ls hf, script_used (used ls n s) hf]
      unfold used
      cases n <;> cases s <;> by_cases hN : ls.noiseSeeds = [] <;> by_cases hD : ls.daysSeeds = [] <;> simp [hN, hD]
    obtain ⟨x, y, z, hx, hy, hz, he⟩ := (script_run hu.toNumbers h1 h2 h3 h4 h5 letters).2.1 p (hsame ▸ hp)
    rw [he, script_used ls hf, exec_append, noise_part hu h1 h2 hx hy ?_, days_part hu h1 h4 ?_ hz ?_]
    · have : (if (if x ∈ (used ls n s).noiseSeeds then "131".toList else x) ∈ (used ls n s).daysSeeds then "131".toList
          else (if x ∈ (used ls n s).noiseSeeds then "131".toList else x)) = "131".toList := by
        rcases List.mem_cons.mp hx with rfl | hx
        · simp only [ite_self]
        · rcases List.mem_append.mp hx with hx | hx
          · rw [if_pos hx]; split <;> rfl
          · by_cases hxn : x ∈ (used ls n s).noiseSeeds
            · rw [if_pos hxn]; split <;> rfl
            · rw [if_neg hxn, if_pos hx]
      rw [this, h3, h5]
    · split
      · simp
      · exact hx
    · intro h0
      have : (used ls n s).days = [] := by
        simp only [used] at h0 ⊢
        cases s
        · simp
        · simp only [if_true] at h0; simp [h0]
      rw [this] at hz
      simpa using hz
    · intro h0
      have : (used ls n s).noises = [] := by
        simp only [used] at h0 ⊢
        cases n
        · simp
        · simp only [if_true] at h0; simp [h0]
      rw [this] at hy
      simpa using hy

/-- C101 holds for the lists of the script with `-n` -/
theorem lists_n : Spec.Unambiguous { lists with daysSeeds := [], days := [] } where
  noiseSeeds := by simp only [lists, Spec.Value]; decide
  noises := by simp only [lists, Spec.Value]; decide
  daysSeeds := by simp
  days := by simp
  seedsFree := by
    intro v hv x hx hne
    simp only [lists, List.append_nil, List.mem_cons, List.not_mem_nil, or_false] at hv hx
    rcases hv with rfl | rfl <;> rcases hx with rfl | rfl
    · exact absurd rfl hne
    · exact ⟨1, '3', '1', by decide, by decide, by decide, by decide⟩
    · exact ⟨1, '1', '3', by decide, by decide, by decide, by decide⟩
    · exact absurd rfl hne
  noisesFree := by
    intro v hv x hx hne
    simp only [lists, List.mem_cons, List.not_mem_nil, or_false] at hv hx
    rcases hv with rfl | rfl <;> rcases hx with rfl | rfl
    · exact absurd rfl hne
    · exact ⟨0, '1', '0', by decide, by decide, by decide, by decide⟩
    · exact ⟨0, '0', '1', by decide, by decide, by decide, by decide⟩
    · exact absurd rfl hne
  daysFree := by
    intro v hv x hx hne
    simp only [List.mem_cons, List.not_mem_nil, or_false] at hv hx
    exact absurd (hv.trans hx.symm) hne

section violated
variable {T : List Char → List Char → List Char} {S : List Char → List Char}

theorem loop_fixed {t : Texts} {α : Type} (xs : List α) (body : α → List Cmd) (h : ∀ x ∈ xs, exec t (body x) = t) :
    exec t (xs.flatMap body) = t :=
  (loop (I := fun _ => True) trivial xs body (fun x => runs t (body x)) (fun x hx => ⟨h x hx, fun _ _ => trivial, rfl⟩)).1

/-- a sample size that begins with the default stays -/
theorem days_begin (h4 : Field daysKey S) (c : List Char) {r : List Char} (hr : ∀ d ∈ r, numChar d) {l : List (List Char)}
    (hl : ∀ v ∈ l, Spec.Value v) : exec ⟨c, S ("7".toList ++ r)⟩ (l.flatMap daysRound) = ⟨c, S ("7".toList ++ r)⟩ := by
  refine loop_fixed _ _ (fun v hv => ?_)
  have hvr : ∀ v, Spec.Value v → Spec.Value (v ++ r) := fun v hv =>
    ⟨by simp [hv.1], fun d hd => (List.mem_append.mp hd).elim (hv.2 d) (hr d)⟩
  have e7 : (['7'] : List Char) = "7".toList := by decide
  simp only [exec, daysRound, List.foldl_cons, List.foldl_nil, Cmd.exec, e7]
  rw [h4.sed_begins daysKey_words value_7 (hvr _ value_7), h4.sed_begins daysKey_words (hl v hv) (hvr _ (hl v hv))]

/-- a seed that begins with the default stays, if the inner loop changes nothing -/
theorem seeds_begin (h1 : Field seedKey (fun x => T x "1".toList)) {r s : List Char} (hr : ∀ d ∈ r, numChar d)
    {days l : List (List Char)} (hl : ∀ v ∈ l, Spec.Value v)
    (hi : ∀ c, exec ⟨c, s⟩ (days.flatMap daysRound) = ⟨c, s⟩) :
    exec ⟨T ("131".toList ++ r) "1".toList, s⟩ (l.flatMap (daysSeed days)) = ⟨T ("131".toList ++ r) "1".toList, s⟩ := by
  refine loop_fixed _ _ (fun v hv => ?_)
  have hvr : ∀ v, Spec.Value v → Spec.Value (v ++ r) := fun v hv =>
    ⟨by simp [hv.1], fun d hd => (List.mem_append.mp hd).elim (hv.2 d) (hr d)⟩
  unfold daysSeed
  rw [List.cons_append]
  rw [exec_cons]
  simp only [Cmd.exec]
  rw [h1.sed_begins seedKey_words value_131 (hvr _ value_131), exec_append, hi]
  simp only [exec, List.foldl_cons, List.foldl_nil, Cmd.exec]
  rw [h1.sed_begins seedKey_words (hl v hv) (hvr _ (hl v hv))]

end violated

theorem days_head (early later seeds : List (List Char)) (a x : List Char) :
    ∃ tail, (x :: seeds).flatMap (daysSeed (early ++ a :: later)) =
      (.sed .conf (seedKey ++ "131".toList) (seedKey ++ x) :: early.flatMap daysRound ++
        [.sed .simulation (daysKey ++ ['7']) (daysKey ++ a)]) ++ tail := by
  refine ⟨(daysRound a).tail ++ later.flatMap daysRound ++ [.sed .conf (seedKey ++ x) (seedKey ++ "131".toList)] ++
    seeds.flatMap (daysSeed (early ++ a :: later)), ?_⟩
  simp [daysSeed, daysRound]

theorem lists_numbers : Spec.Numbers lists := by
  constructor <;> simp only [lists, Spec.Value] <;> decide

/-- C101 violated for every configuration: interrupted with the seed 111, running the script again to the end leaves the seed 1311;
interrupted with 10 days, it leaves 70 -/
theorem C101_violated {t : Texts} (ht : Spec.Defaults t) :
    (∃ p, p <+: script lists ['s'] ∧ Spec.Edited seedKey "131".toList "111".toList t.conf (exec t p).conf ∧
      Spec.Edited seedKey "131".toList "1311".toList t.conf (exec (exec t p) (script lists ['s'])).conf) ∧
    ∃ p, p <+: script lists ['s'] ∧ Spec.Edited daysKey "7".toList "10".toList t.simulation (exec t p).simulation ∧
      Spec.Edited daysKey "7".toList "70".toList t.simulation (exec (exec t p) (script lists ['s'])).simulation := by
  obtain ⟨T, S, h1, h2, h3, h4, h5⟩ := defaults_fields ht
  have hs : Field seedKey (fun x => T x "1".toList) := h1 _ value_1
  have vd := lists_numbers.days
  have vs := lists_numbers.daysSeeds
  have hscript : script lists ['s'] = lists.daysSeeds.flatMap (daysSeed lists.days) := by
    simp [script, flags]
  have ht0 : t = ⟨T "131".toList "1".toList, S "7".toList⟩ := by rw [h3, h5]
  have hin : ∀ c, exec ⟨c, S "7".toList⟩ (lists.days.flatMap daysRound) = ⟨c, S "7".toList⟩ := by
    intro c
    have := days_begin h4 c (r := []) (by simp) vd
    simpa using this
  have hfix : ∀ l : List (List Char), (∀ v ∈ l, Spec.Value v) → exec t (l.flatMap (daysSeed lists.days)) = t := by
    intro l hl
    have := seeds_begin hs (r := []) (s := S "7".toList) (by simp) hl hin
    rw [List.append_nil] at this
    rw [ht0]; exact this
  rw [hscript]
  constructor
  · -- the seed
    let tail : List Cmd := lists.days.flatMap daysRound ++
      [.sed .conf (seedKey ++ "111".toList) (seedKey ++ "131".toList)] ++ daysSeed lists.days "131".toList
    have hsplit : lists.daysSeeds.flatMap (daysSeed lists.days) =
        (["11".toList, "13".toList].flatMap (daysSeed lists.days) ++ [.sed .conf (seedKey ++ "131".toList) (seedKey ++ "111".toList)]) ++
          tail := by
      simp [lists, daysSeed, tail]
    have h111 : exec t (["11".toList, "13".toList].flatMap (daysSeed lists.days) ++
        [.sed .conf (seedKey ++ "131".toList) (seedKey ++ "111".toList)]) = ⟨T "111".toList "1".toList, S "7".toList⟩ := by
      rw [exec_append, hfix _ (fun v hv => vs v (by simp only [lists]; simp at hv ⊢; tauto)), ht0]
      simp only [exec, List.foldl_cons, List.foldl_nil, Cmd.exec]
      rw [hs.sed seedKey_words value_131]
    refine ⟨_, ⟨tail, hsplit.symm⟩, ?_, ?_⟩
    · rw [h111, ← h3]
      exact hs.edited _ _
    · rw [h111]
      have hfirst : exec ⟨T "111".toList "1".toList, S "7".toList⟩ (daysSeed lists.days "11".toList) =
          ⟨T ("131".toList ++ ['1']) "1".toList, S "7".toList⟩ := by
        unfold daysSeed
        rw [List.cons_append]
        rw [exec_cons]
        simp only [Cmd.exec]
        rw [hs.sed_apart seedKey_words ⟨by decide, by decide⟩ ⟨1, '3', '1', by decide, by decide, by decide, by decide⟩, exec_append, hin]
        simp only [exec, List.foldl_cons, List.foldl_nil, Cmd.exec]
        have := hs.sed_begins seedKey_words (v := "11".toList) (r := ['1']) (w := "131".toList) ⟨by decide, by decide⟩ ⟨by decide, by decide⟩
        rw [show "111".toList = "11".toList ++ ['1'] by decide]
        rw [this]
      have hrest := seeds_begin hs (r := ['1']) (s := S "7".toList) (by unfold numChar; decide)
        (l := ["13".toList, "111".toList, "131".toList]) (fun v hv => vs v (by simp only [lists]; simp at hv ⊢; tauto)) hin
      have : lists.daysSeeds.flatMap (daysSeed lists.days) = daysSeed lists.days "11".toList ++
          ["13".toList, "111".toList, "131".toList].flatMap (daysSeed lists.days) := by simp [lists]
      rw [this, exec_append, hfirst, hrest, ← h3, show "1311".toList = "131".toList ++ ['1'] by decide]
      exact hs.edited _ _
  · -- the sample size
    have v11 : Spec.Value "11".toList := ⟨by decide, by decide⟩
    let early : List (List Char) := ["1".toList, "2".toList, "3".toList, "5".toList, "7".toList]
    have vearly : ∀ v ∈ early, Spec.Value v := fun v hv => vd v (by simp only [lists, early] at *; simp at hv ⊢; tauto)
    let head : List Cmd := .sed .conf (seedKey ++ "131".toList) (seedKey ++ "11".toList) :: early.flatMap daysRound ++
      [.sed .simulation (daysKey ++ ['7']) (daysKey ++ "10".toList)]
    have hsplit : ∃ tail, lists.daysSeeds.flatMap (daysSeed lists.days) = head ++ tail :=
      days_head early ["15".toList, "21".toList, "30".toList, "45".toList, "60".toList] ["13".toList, "111".toList, "131".toList]
        "10".toList "11".toList
    obtain ⟨tail, hsplit⟩ := hsplit
    have e7 : (['7'] : List Char) = "7".toList := by decide
    have h10 : exec t head = ⟨T "11".toList "1".toList, S "10".toList⟩ := by
      simp only [head]
      rw [List.cons_append]
      rw [exec_cons]
      rw [ht0]
      simp only [Cmd.exec]
      rw [hs.sed seedKey_words value_131, exec_append]
      have := days_begin h4 (T "11".toList "1".toList) (r := []) (by simp) vearly
      rw [List.append_nil] at this
      rw [this]
      simp only [exec, List.foldl_cons, List.foldl_nil, Cmd.exec, e7]
      rw [h4.sed daysKey_words value_7]
    refine ⟨head, ⟨tail, hsplit.symm⟩, ?_, ?_⟩
    · rw [h10, ← h5]
      exact h4.edited _ _
    · rw [h10]
      have v10 : Spec.Value "10".toList := ⟨by decide, by decide⟩
      have hone : ∀ c, exec ⟨c, S "10".toList⟩ (lists.days.flatMap daysRound) = ⟨c, S ("7".toList ++ ['0'])⟩ := by
        intro c
        have hd : lists.days = "1".toList :: lists.days.tail := rfl
        rw [hd, List.flatMap_cons, exec_append]
        have h0 : exec ⟨c, S "10".toList⟩ (daysRound "1".toList) = ⟨c, S ("7".toList ++ ['0'])⟩ := by
          simp only [exec, daysRound, List.foldl_cons, List.foldl_nil, Cmd.exec, e7]
          rw [h4.sed_apart daysKey_words v10 ⟨0, '7', '1', by decide, by decide, by decide, by decide⟩,
            show "10".toList = "1".toList ++ ['0'] by decide,
            h4.sed_begins daysKey_words value_1 ⟨by decide, by decide⟩]
        rw [h0]
        exact days_begin h4 c (by unfold numChar; decide) (fun v hv => vd v (List.mem_of_mem_tail hv))
      have hstay : ∀ c, exec ⟨c, S ("7".toList ++ ['0'])⟩ (lists.days.flatMap daysRound) = ⟨c, S ("7".toList ++ ['0'])⟩ :=
        fun c => days_begin h4 c (by unfold numChar; decide) vd
      have hfirst : exec ⟨T "11".toList "1".toList, S "10".toList⟩ (daysSeed lists.days "11".toList) =
          ⟨T "131".toList "1".toList, S ("7".toList ++ ['0'])⟩ := by
        unfold daysSeed
        rw [List.cons_append]
        rw [exec_cons]
        simp only [Cmd.exec]
        rw [hs.sed_apart seedKey_words v11 ⟨1, '3', '1', by decide, by decide, by decide, by decide⟩, exec_append, hone]
        simp only [exec, List.foldl_cons, List.foldl_nil, Cmd.exec]
        rw [hs.sed seedKey_words v11]
      have hrest := seeds_begin hs (r := []) (s := S ("7".toList ++ ['0'])) (by simp)
        (l := ["13".toList, "111".toList, "131".toList]) (fun v hv => vs v (by simp only [lists]; simp at hv ⊢; tauto)) hstay
      rw [List.append_nil] at hrest
      have : lists.daysSeeds.flatMap (daysSeed lists.days) = daysSeed lists.days "11".toList ++
          ["13".toList, "111".toList, "131".toList].flatMap (daysSeed lists.days) := by simp [lists]
      rw [this, exec_append, hfirst, hrest, ← h5, show "70".toList = "7".toList ++ ['0'] by decide]
      exact h4.edited _ _

end Verif
