import Mathlib.Probability.Distributions.Gaussian.Real
import Mathlib.Probability.Independence.Basic
/-! # Specification vocabulary: the chi-square distribution and its quantiles -/
namespace Sureal.Spec
open MeasureTheory ProbabilityTheory

/-- law of the sum of the squares of `n` independent standard normal numbers -/
noncomputable def chiSq (n : ℕ) : Measure ℝ := (Measure.pi fun _ : Fin n => gaussianReal 0 1).map fun z => ∑ k, z k ^ 2

/-- `c` is the quantile of order `p` -/
def IsQuantile (μ : Measure ℝ) (p c : ℝ) : Prop := μ (Set.Iic c) = ENNReal.ofReal p

end Sureal.Spec
