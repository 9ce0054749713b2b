import Verif.Lemmas.TestCase
/-!
# C146: failed comparisons are collected, and the verdict is that of an ordinary test
-/
namespace Sureal.Props
open Sureal Sureal.Spec Sureal.TestCase

/-- **C146.** A test passes exactly if nothing is wrong with any of its steps. -/
theorem C146_verdict (body : List Step) : (run body).passed = true ↔ ∀ s ∈ body, Holds s := by
  obtain ⟨b, a, fs, rfl, hf, h1, h2⟩ := steps_spec body []
  rw [List.nil_append] at h1
  have hp : (run (b ++ a)).passed = true ↔ (steps [] (b ++ a)).2 = none ∧ fs = [] := by
    unfold run Report.passed
    rw [h1]
    simp
  rw [hp]
  rcases h2 with ⟨rfl, h2⟩ | ⟨s, l, e, rfl, hr, h2⟩
  · rw [h2, List.append_nil, failuresOf_nil hf]
    simp
  · rw [h2]
    exact ⟨fun h => (by cases h.1), fun h => absurd hr ((h s (by simp)).1 e)⟩

/-- **C146.** The verdict is that of the same test without collecting. -/
theorem C146_plain (body : List Step) : (run body).passed = (runPlain body).passed := by
  rw [Bool.eq_iff_iff, C146_verdict, plain_passed]

/-- **C146.** What is reported: every failed comparison up to the first step that raises an exception, in order, and that exception. -/
theorem C146_report (body : List Step) : ∃ before after, body = before ++ after ∧ FailuresOf before (run body).collected ∧
    ((after = [] ∧ (run body).raised = none) ∨ ∃ s l e, after = s :: l ∧ Raises s e ∧ (run body).raised = some e) := by
  obtain ⟨b, a, fs, h, hf, h1, h2⟩ := steps_spec body []
  refine ⟨b, a, h, ?_, h2⟩
  rw [List.nil_append] at h1
  unfold run
  rw [h1]
  exact hf

/-- two comparisons that fail: both are reported, where an ordinary test stops at the first -/
example : (run [.almost (.fin 1) (.fin 2) none none, .almost (.fin 1) (.fin (1 + 1 / 10 ^ 8)) none none, .almost .nan .nan (some 2) none]).collected =
      [(.fin 1, .fin 2), (.nan, .nan)] ∧
    (runPlain [.almost (.fin 1) (.fin 2) none none, .almost .nan .nan (some 2) none]).raised = some .assertion := by
  have h1 : almostEqual (.fin 1) (.fin 2) none none = .error .assertion :=
    (almostEqual_single (Or.inl rfl)).2 (by norm_num [Close, allowed])
  have h2 : almostEqual (.fin 1) (.fin (1 + 1 / 10 ^ 8)) none none = .ok () :=
    (almostEqual_single (Or.inl rfl)).1 (by right; norm_num [allowed])
  have h3 : almostEqual .nan .nan (some 2) none = .error .assertion := (almostEqual_single (Or.inr rfl)).2 (fun h => h)
  constructor
  · simp only [run, steps, step, h1, h2, h3, List.nil_append, List.cons_append]
  · simp only [runPlain, h1]

end Sureal.Props
