import Verif.Spec.Perf
import Mathlib.Analysis.SpecialFunctions.Log.Basic
/-! Specification of the fitted sigmoid mapping. -/
namespace Sureal.Spec

/-- sum of squared residuals of the line `a + b z` through points `(z, x)` -/
noncomputable def squaredResiduals (l : List (ℝ × ℝ)) (a b : ℝ) : ℝ := (l.map fun p => (p.2 - a - b * p.1) ^ 2).sum

/-- the contract of `numpy.linalg.lstsq` for a line: where the abscissas are not all equal, it returns an intercept and a slope
with the least sum of squared residuals -/
def LeastSquares (fit : List (Fl ℝ) → List (Fl ℝ) → Fl ℝ × Fl ℝ) : Prop :=
  ∀ l : List (ℝ × ℝ), (∃ p ∈ l, ∃ q ∈ l, p.1 ≠ q.1) →
    ∃ a b, fit (l.map fun p => .fin p.1) (l.map fun p => .fin p.2) = (.fin a, .fin b) ∧ ∀ a' b', squaredResiduals l a b ≤ squaredResiduals l a' b'

/-- the logistic curve from `lo` to `hi` with midpoint `a` and scale `b` -/
noncomputable def logistic (lo hi a b x : ℝ) : ℝ := lo + (hi - lo) / (1 + Real.exp (-((x - a) / b)))

/-- where a value lies between `lo` and `hi`, in logits -/
noncomputable def logit (lo hi y : ℝ) : ℝ := Real.log ((y - lo) / (hi - y))

end Sureal.Spec
