import Verif.Model.Fl
import Mathlib.Data.Real.Archimedean
import Mathlib.Algebra.Order.Round
/-!
# Collected test failures (`sureal/tools/misc.py` lines 267-283)

`MyTestCase` and what it inherits from `unittest.TestCase` of Python: `assertAlmostEqual` and the order in which `run` calls `setUp`, the test and
`tearDown`.  Arithmetic is exact.  A test is a list of steps; it does not branch on the outcome of an assertion.  `delta` is a finite number.  Not modelled: sub-tests,
skipped tests and clean-up functions, which the tests of the project do not use.
-/
namespace Sureal.TestCase
open Sureal

/-- the integer nearest to `x`, the even one of two, as `round` takes it -/
noncomputable def roundEven (x : ℝ) : ℤ :=
  if x - ⌊x⌋ < 1 / 2 then ⌊x⌋ else if 1 / 2 < x - ⌊x⌋ then ⌊x⌋ + 1 else if ⌊x⌋ % 2 = 0 then ⌊x⌋ else ⌊x⌋ + 1

/-- `round(x, places)` of a float -/
noncomputable def roundTo (places : ℤ) : Fl ℝ → Fl ℝ
  | .fin x => .fin (roundEven (x * 10 ^ places) / 10 ^ places)
  | x => x

/-- `first == second` -/
noncomputable def same (x y : Fl ℝ) : Bool := Fl.le x y && Fl.le y x

/-- `unittest.TestCase.assertAlmostEqual` -/
noncomputable def almostEqual (first second : Fl ℝ) (places : Option ℤ) (delta : Option ℝ) : Py Unit :=
  if same first second then .ok ()
  else if delta.isSome && places.isSome then .error .type
  else
    let diff := (first - second).abs
    match delta with
    | some d => if Fl.le diff (.fin d) then .ok () else .error .assertion
    | none => if same (roundTo (places.getD 7) diff) (.fin 0) then .ok () else .error .assertion

/-- a step of a test: `self.assertAlmostEqual(...)`, or another statement, which may raise an exception -/
inductive Step where
  | almost (first second : Fl ℝ) (places : Option ℤ) (delta : Option ℝ)
  | other (raises : Option PyErr)

/-- what ends up in `verificationErrors`: the two numbers of the message -/
abbrev Failure := Fl ℝ × Fl ℝ

/-- a step of a test derived from `MyTestCase`, misc.py:276-280: failed comparisons are put on the list -/
noncomputable def step (errors : List Failure) : Step → Except PyErr (List Failure)
  | .almost x y p d =>
    match almostEqual x y p d with
    | .ok () => .ok errors
    | .error .assertion => .ok (errors ++ [(x, y)])
    | .error e => .error e
  | .other none => .ok errors
  | .other (some e) => .error e

/-- the steps one after the other, until one raises an exception -/
noncomputable def steps (errors : List Failure) : List Step → List Failure × Option PyErr
  | [] => (errors, none)
  | s :: l =>
    match step errors s with
    | .ok errors' => steps errors' l
    | .error e => (errors, some e)

/-- what a test reports: the exception it raised, and the list that `tearDown` found not to be empty -/
structure Report where
  raised : Option PyErr
  collected : List Failure

/-- a test has passed if it reports nothing -/
def Report.passed (r : Report) : Bool := r.raised.isNone && r.collected.isEmpty

/-- `TestCase.run`: `setUp` (misc.py:269-271), the test, and `tearDown` (misc.py:273-274) also after an exception -/
noncomputable def run (body : List Step) : Report := ⟨(steps [] body).2, (steps [] body).1⟩

/-- the same test derived from `unittest.TestCase`: the first failure ends it -/
noncomputable def runPlain : List Step → Report
  | [] => ⟨none, []⟩
  | .almost x y p d :: l =>
    match almostEqual x y p d with
    | .ok () => runPlain l
    | .error e => ⟨some e, []⟩
  | .other none :: l => runPlain l
  | .other (some e) :: _ => ⟨some e, []⟩

end Sureal.TestCase
