import Mathlib.MeasureTheory.Integral.Bochner.Basic
import Mathlib.MeasureTheory.Measure.Lebesgue.Basic
/-! The density of the sum of two independent uniform random variables. -/
namespace Sureal.Spec
open MeasureTheory

/-- density of the uniform distribution on the interval of width `s` around `loc` -/
noncomputable def uniformPdf (loc s : ℝ) : ℝ → ℝ := Set.indicator (Set.Icc (loc - s / 2) (loc + s / 2)) (fun _ => 1 / s)

/-- density at `x` of the sum of two independent uniform random variables -/
noncomputable def sumOfUniforms (loc1 s1 loc2 s2 x : ℝ) : ℝ := ∫ t, uniformPdf loc1 s1 t * uniformPdf loc2 s2 (x - t)

end Sureal.Spec
