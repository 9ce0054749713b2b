import Verif.Model.Fl
/-!
# Specification vocabulary: elementary statistics of lists of numbers

These definitions are used to *state* properties.  They are ordinary mathematics on lists of numbers in
a field and do not mention NaN, arrays or any function of the modelled program.
-/
namespace Sureal.Spec
variable {K : Type} [Field K]

/-- arithmetic mean -/
def mean (l : List K) : K := l.sum / l.length

/-- sum of squared deviations from the mean -/
def sqDev (l : List K) : K := (l.map fun x => (x - mean l) ^ 2).sum

/-- population variance -/
def popVar (l : List K) : K := sqDev l / l.length

/-- sample variance (denominator `n - 1`) -/
def sampleVar (l : List K) : K := sqDev l / ((l.length : K) - 1)

/-- fourth central moment -/
def moment4 (l : List K) : K := (l.map fun x => (x - mean l) ^ 4).sum / l.length

/-- the numbers present in a list of floats that may contain NaN -/
def present (l : List (Fl K)) : List K := l.filterMap Fl.val?

/-- a float that is a number or NaN, i.e. not an infinity -/
def NumOrNan (x : Fl K) : Prop := x = .nan ∨ ∃ v, x = .fin v

/-- the mean of the numbers present, NaN if there are none -/
def meanOrNan (l : List (Fl K)) : Fl K :=
  match present l with
  | [] => .nan
  | x :: xs => .fin (mean (x :: xs))

/-- the sample standard deviation of the numbers present, NaN if there are fewer than two -/
noncomputable def sampleStdOrNan (l : List (Fl ℝ)) : Fl ℝ :=
  match present l with
  | x :: y :: xs => .fin (Real.sqrt (sampleVar (x :: y :: xs)))
  | _ => .nan

/-- `a * x + b` on numbers, NaN stays NaN -/
def affine (a b : K) : Fl K → Fl K
  | .fin x => .fin (a * x + b)
  | y => y

end Sureal.Spec
