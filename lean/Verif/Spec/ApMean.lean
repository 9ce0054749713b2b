import Verif.Spec.Ap
import Mathlib.Probability.IdentDistrib
/-!
# Specification vocabulary: votes with additive effects and noise
-/
namespace Sureal.Spec
open MeasureTheory ProbabilityTheory
variable {J I R : ℕ}

/-- votes with additive effects of the video and the observer -/
def plus (N : Fin J → Fin I → Fin R → ℝ) (q : Fin J → ℝ) (b : Fin I → ℝ) : Fin J → Fin I → Fin R → ℝ := fun j i r => q j + b i + N j i r

/-- on every video the voters have the same mean bias `t` (e.g. everyone votes on every video, or all biases are equal) -/
def SamePanels (P : Fin J → Fin I → Fin R → Bool) (b : Fin I → ℝ) (t : ℝ) : Prop :=
  ∀ j, avg (votesOnVideo P j) (fun c => b c.1) = t

/-- the noise and its negative have the same joint distribution -/
def SignSymmetric {Ω : Type} [MeasurableSpace Ω] (μ : Measure Ω) {E : Type} [MeasurableSpace E] [Neg E] (N : Ω → E) : Prop :=
  IdentDistrib N (fun ω => - N ω) μ μ

end Sureal.Spec
