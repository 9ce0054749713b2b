import Verif.Spec.Stats
import Verif.Spec.Mock
import Mathlib.MeasureTheory.Function.L2Space
import Mathlib.MeasureTheory.Integral.Bochner.Basic
/-! Specification of random draws. -/
namespace Sureal.Spec
open MeasureTheory
variable {Ω : Type} [MeasurableSpace Ω]

/-- draws with mean 0 and variance 1, any two of them uncorrelated (as independent standard normal draws are) -/
structure Standard (P : Measure Ω) (g : ℕ → Ω → ℝ) : Prop where
  sq : ∀ i, MemLp (g i) 2 P
  mean : ∀ i, ∫ ω, g i ω ∂P = 0
  cov : ∀ i j, ∫ ω, g i ω * g j ω ∂P = if i = j then 1 else 0

/-- the ambiguity of a video, 0 if none is given -/
def ambiguityOf (phi : Option (List ℝ)) (e : ℕ) : ℝ := (phi.map fun l => l.getD e 0).getD 0

end Sureal.Spec
