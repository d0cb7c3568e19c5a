/-
C85, C101 and C102 for the configuration files of the repository.
-/
import Verif.Props.Script3

namespace Verif
open Script

/-- number of places of the words -/
def occurrences (key : List Char) : List Char → Nat
  | [] => 0
  | c :: t => (if key.isPrefixOf (c :: t) then 1 else 0) + occurrences key t

theorem occurrences_append (key a t : List Char) : occurrences key t ≤ occurrences key (a ++ t) := by
  induction a with
  | nil => exact Nat.le_refl _
  | cons c a ih => rw [List.cons_append, occurrences]; omega

theorem occurrences_here {key : List Char} (hk : key ≠ []) (b : List Char) : 1 ≤ occurrences key (key ++ b) := by
  match key, hk with
  | k :: ks, _ =>
    rw [List.cons_append, occurrences, ← List.cons_append, if_pos]
    · omega
    · exact List.isPrefixOf_iff_prefix.mpr (List.prefix_append _ _)

theorem sets_of_occurrences {key v t a b : List Char} (hk : key ≠ []) (ht : t = a ++ (key ++ v) ++ b) (h1 : occurrences key t = 1) :
    Spec.Sets key v t := by
  have two : ∀ a a' b b' : List Char, t = a ++ key ++ b → t = a' ++ key ++ b' → ¬ a.length < a'.length := by
    intro a a' b b' h h' hl
    obtain ⟨m, hm⟩ : ∃ m, a' = a ++ m := by
      rw [h, List.append_assoc, List.append_assoc] at h'
      rcases List.append_eq_append_iff.mp h' with ⟨c, hc, -⟩ | ⟨c, hc, -⟩
      · exact ⟨c, hc⟩
      · rw [hc] at hl; simp at hl; omega
    subst hm
    have hm0 : m ≠ [] := by rintro rfl; simp at hl
    have e : key ++ b = m ++ (key ++ b') := by
      rw [h, List.append_assoc, List.append_assoc, List.append_assoc] at h'
      exact List.append_cancel_left h'
    have h2 : 2 ≤ occurrences key (key ++ b) := by
      match m, hm0, e with
      | c :: m, _, e =>
        have hp : key.isPrefixOf (c :: (m ++ (key ++ b'))) = true :=
          List.isPrefixOf_iff_prefix.mpr ⟨b, by rw [e]; rfl⟩
        rw [e, List.cons_append, occurrences, if_pos hp]
        have := Nat.le_trans (occurrences_here hk b') (occurrences_append key m (key ++ b'))
        omega
    have := occurrences_append key a (key ++ b)
    rw [← List.append_assoc, ← h, h1] at this
    omega
  refine ⟨⟨a, ⟨v ++ b, by rw [ht]; simp⟩, ?_⟩, a, b, ht⟩
  rintro a' ⟨b', h'⟩
  have h0 : t = a ++ key ++ (v ++ b) := by rw [ht]; simp
  have hl : a'.length = a.length := by
    have := two a' a _ _ h' h0
    have := two a a' _ _ h0 h'
    omega
  rw [h0, List.append_assoc, List.append_assoc] at h'
  exact (List.append_inj h' hl.symm).1.symm

theorem repo_seed : confText = confText.take 114 ++ (seedKey ++ "131".toList) ++ confText.drop 124 := by decide +kernel
theorem repo_noise : confText = confText.take 125 ++ (noiseKey ++ "1".toList) ++ confText.drop 140 := by decide +kernel
theorem repo_days : simText = simText.take 991 ++ (daysKey ++ "7".toList) ++ simText.drop 999 := by decide +kernel
theorem repo_seed_once : occurrences seedKey confText = 1 := by decide +kernel
theorem repo_noise_once : occurrences noiseKey confText = 1 := by decide +kernel
theorem repo_days_once : occurrences daysKey simText = 1 := by decide +kernel

/-- the configuration of the repository has the defaults, each at one place -/
theorem repo_defaults : Spec.Defaults ⟨confText, simText⟩ :=
  ⟨sets_of_occurrences seedKey_words.1 repo_seed repo_seed_once, sets_of_occurrences noiseKey_words.1 repo_noise repo_noise_once,
    sets_of_occurrences daysKey_words.1 repo_days repo_days_once⟩

/-- C85 and C102 for the repository: all hypotheses are met -/
example (letters : List Char) : exec ⟨confText, simText⟩ (script lists letters) = ⟨confText, simText⟩ :=
  (C85_partial lists_numbers repo_defaults letters).1

example : ∃ c d, Spec.Settings ⟨confText, simText⟩ c d ∧
    runs ⟨confText, simText⟩ (script lists ['s', 'n']) = Spec.intended lists true true ⟨confText, simText⟩ c d :=
  C102 lists_numbers repo_defaults (by decide)

/-- C101 for the repository and `-n` -/
example {p : List Cmd} (hp : p <+: script lists ['n']) :
    exec (exec ⟨confText, simText⟩ p) (script lists ['n']) = ⟨confText, simText⟩ := by
  have e : script lists ['n'] = script { lists with daysSeeds := [], days := [] } ['n'] := by simp [script, flags]
  rw [e] at hp ⊢
  exact C101_partial lists_n repo_defaults ['n'] hp

/-- C101 fails for the repository and `-s` -/
example : ∃ p, p <+: script lists ['s'] ∧ Spec.Edited seedKey "131".toList "1311".toList confText
    (exec (exec ⟨confText, simText⟩ p) (script lists ['s'])).conf := by
  obtain ⟨⟨p, hp, -, h⟩, -⟩ := C101_violated repo_defaults
  exact ⟨p, hp, h⟩

end Verif
