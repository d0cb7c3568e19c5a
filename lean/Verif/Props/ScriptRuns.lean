/-
C102: the letters of run_multiple_sims.sh, and the programs it starts with the lists of the repository.
-/
import Verif.Props.Script2

namespace Verif
open Script

/-- C102: the script goes on exactly if no letter other than n and s is given, and each of them counts wherever and however often it is
given -/
theorem C102_flags (letters : List Char) (n s : Bool) :
    flags letters = some (n, s) ↔ (∀ c ∈ letters, c = 'n' ∨ c = 's') ∧ n = decide ('n' ∈ letters) ∧ s = decide ('s' ∈ letters) := by
  induction letters generalizing n s with
  | nil => cases n <;> cases s <;> simp [flags]
  | cons c t ih =>
    unfold flags
    by_cases hn : c = 'n'
    · subst hn
      rw [if_pos rfl]
      constructor
      · intro h
        obtain ⟨⟨n', s'⟩, h1, h2⟩ := Option.map_eq_some_iff.1 h
        obtain ⟨g1, g2, g3⟩ := (ih n' s').1 h1
        simp only [Prod.mk.injEq] at h2
        obtain ⟨rfl, rfl⟩ := h2
        exact ⟨List.forall_mem_cons.2 ⟨Or.inl rfl, g1⟩, by simp, by rw [g3]; simp⟩
      · rintro ⟨g1, g2, g3⟩
        rw [(ih (decide ('n' ∈ t)) (decide ('s' ∈ t))).2 ⟨(List.forall_mem_cons.1 g1).2, rfl, rfl⟩]
        simp [g2, g3]
    · rw [if_neg hn]
      by_cases hs : c = 's'
      · subst hs
        rw [if_pos rfl]
        constructor
        · intro h
          obtain ⟨⟨n', s'⟩, h1, h2⟩ := Option.map_eq_some_iff.1 h
          obtain ⟨g1, g2, g3⟩ := (ih n' s').1 h1
          simp only [Prod.mk.injEq] at h2
          obtain ⟨rfl, rfl⟩ := h2
          exact ⟨List.forall_mem_cons.2 ⟨Or.inr rfl, g1⟩, by rw [g2]; simp, by simp⟩
        · rintro ⟨g1, g2, g3⟩
          rw [(ih (decide ('n' ∈ t)) (decide ('s' ∈ t))).2 ⟨(List.forall_mem_cons.1 g1).2, rfl, rfl⟩]
          simp [g2, g3]
      · rw [if_neg hs]
        constructor
        · intro h
          cases h
        · rintro ⟨g1, -⟩
          rcases (List.forall_mem_cons.1 g1).1 with h | h
          · exact absurd h hn
          · exact absurd h hs

/-- C102: an unknown letter starts nothing and leaves the files alone -/
theorem C102_refused (ls : Lists) {letters : List Char} {c : Char} (hc : c ∈ letters) (hn : c ≠ 'n') (hs : c ≠ 's') (t : Texts) :
    exec t (script ls letters) = t ∧ runs t (script ls letters) = [] := by
  have hf : flags letters = none := by
    cases h : flags letters with
    | none => rfl
    | some f =>
      obtain ⟨n, s⟩ := f
      rcases ((C102_flags letters n s).1 h).1 c hc with e | e
      · exact absurd e hn
      · exact absurd e hs
  have : script ls letters = [] := by unfold script; rw [hf]
  rw [this]
  exact ⟨rfl, rfl⟩

/-- C102 for the repository, noise levels: one seed, 11, and one level, 0.1 -/
theorem C102_noises : ∃ c d, Spec.Settings ⟨confText, simText⟩ c d ∧ runs ⟨confText, simText⟩ (script lists ['n']) =
    [("simulate_network.py -vqte --network ieee123center", ⟨c "11".toList "1".toList, simText⟩),
      ("simulate_network.py -qtde --network ieee123center", ⟨c "11".toList "0.1".toList, simText⟩),
      (Spec.identifyCommand, ⟨c "11".toList "0.1".toList, simText⟩), (Spec.plotCommand, ⟨c "11".toList "0.1".toList, simText⟩)] := by
  obtain ⟨c, d, h, hr⟩ := C102 lists_numbers repo_defaults (letters := ['n']) (n := true) (s := false) (by decide)
  refine ⟨c, d, h, hr.trans ?_⟩
  simp [Spec.intended, lists]

/-- C102 for the repository, sample sizes: 11 numbers of days from 1 to 60 for each of four seeds -/
theorem C102_days : ∃ c d, Spec.Settings ⟨confText, simText⟩ c d ∧ runs ⟨confText, simText⟩ (script lists ['s']) =
    [11, 13, 111, 131].flatMap (fun x : ℕ => [1, 2, 3, 5, 7, 10, 15, 21, 30, 45, 60].flatMap (fun y : ℕ =>
      ["simulate_network.py -qte --network ieee123center", Spec.identifyCommand, Spec.plotCommand].map
        (fun l => (l, (⟨c (Nat.repr x).toList "1".toList, d (Nat.repr y).toList⟩ : Texts))))) := by
  obtain ⟨c, d, h, hr⟩ := C102 lists_numbers repo_defaults (letters := ['s']) (n := false) (s := true) (by decide)
  refine ⟨c, d, h, hr.trans ?_⟩
  have hx : lists.daysSeeds = [11, 13, 111, 131].map (fun x : ℕ => (Nat.repr x).toList) := by decide +kernel
  have hy : lists.days = [1, 2, 3, 5, 7, 10, 15, 21, 30, 45, 60].map (fun x : ℕ => (Nat.repr x).toList) := by decide +kernel
  unfold Spec.intended
  rw [hx, hy]
  simp only [Bool.false_eq_true, if_false, if_true, List.nil_append, List.flatMap_map]

/-- letters in any order, repeated -/
example : flags "nsn".toList = some (true, true) ∧ flags "ss".toList = some (false, true) ∧ flags "nx".toList = none := by decide

end Verif
