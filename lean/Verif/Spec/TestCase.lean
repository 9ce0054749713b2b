import Verif.Model.TestCase
/-!
# When a test should pass
-/
namespace Sureal.Spec
open Sureal.TestCase

/-- two numbers are at most `tol` apart, or equal; NaN is near nothing -/
def Close (tol : ℝ) : Fl ℝ → Fl ℝ → Prop
  | .fin x, .fin y => x = y ∨ |x - y| ≤ tol
  | .pinf, .pinf => True
  | .ninf, .ninf => True
  | _, _ => False

/-- the distance a comparison allows: `delta`, or half a unit in decimal place number `places`, 7 if nothing is said -/
noncomputable def allowed : Option ℤ → Option ℝ → ℝ
  | _, some delta => delta
  | some places, none => 10 ^ (-places) / 2
  | none, none => 10 ^ (-7 : ℤ) / 2

/-- a step raises an exception that is not a failed comparison; both kinds of tolerance together are refused unless the numbers are equal -/
def Raises : Step → PyErr → Prop
  | .almost x y (some _) (some _), e => e = .type ∧ ¬ Close 0 x y
  | .almost _ _ _ _, _ => False
  | .other raises, e => raises = some e

/-- a step is a comparison of numbers that are further apart than allowed -/
def Fails : Step → Fl ℝ × Fl ℝ → Prop
  | .almost _ _ (some _) (some _), _ => False
  | .almost x y p d, f => f = (x, y) ∧ ¬ Close (allowed p d) x y
  | .other _, _ => False

/-- nothing is wrong with a step -/
def Holds (s : Step) : Prop := (∀ e, ¬ Raises s e) ∧ ∀ f, ¬ Fails s f

/-- the failures of some steps, in their order: none is left out, none is invented -/
inductive FailuresOf : List Step → List (Fl ℝ × Fl ℝ) → Prop
  | nil : FailuresOf [] []
  | fails {s f l fs} : Fails s f → FailuresOf l fs → FailuresOf (s :: l) (f :: fs)
  | holds {s l fs} : Holds s → FailuresOf l fs → FailuresOf (s :: l) fs

end Sureal.Spec
