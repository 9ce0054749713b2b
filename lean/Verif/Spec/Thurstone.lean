import Verif.Spec.Bt
import Mathlib.MeasureTheory.Integral.Bochner.Set
import Mathlib.MeasureTheory.Measure.Lebesgue.Basic
/-!
# Specification: the Thurstone model

`A i j` is the number of times `i` beat `j`; `Φ` is the distribution function of the difference of two scores.
-/
namespace Sureal.Spec.Thurstone
variable {M : ℕ}

/-- the negative log-likelihood with probabilities raised by `eps` -/
noncomputable def nll (Φ : ℝ → ℝ) (eps : ℝ) (A : Fin M → Fin M → ℝ) (v : Fin M → ℝ) : ℝ :=
  -∑ i, ∑ j, A i j * Real.log (Φ (v i - v j) + eps)

/-- a distribution function with positive values whose density `φ` has derivative `-x φ`, as the standard normal one -/
structure NormalLike (Φ φ : ℝ → ℝ) : Prop where
  pos : ∀ x, 0 < Φ x
  cdf : ∀ x, HasDerivAt Φ (φ x) x
  pdf : ∀ x, HasDerivAt φ (-x * φ x) x

/-- density of the standard normal distribution -/
noncomputable def normalPdf (x : ℝ) : ℝ := (Real.sqrt (2 * Real.pi))⁻¹ * Real.exp (-(1 / 2) * x ^ 2)

/-- distribution function of the standard normal distribution -/
noncomputable def normalCdf (x : ℝ) : ℝ := ∫ t in Set.Iic x, normalPdf t

/-- second derivative of `log Φ` -/
noncomputable def curvature (Φ φ : ℝ → ℝ) (x : ℝ) : ℝ := (-x * φ x * Φ x - φ x ^ 2) / Φ x ^ 2

/-- a real function on floating-point numbers, NaN off the finite ones -/
def lift (f : ℝ → ℝ) : Fl ℝ → Fl ℝ
  | .fin x => .fin (f x)
  | _ => .nan

end Sureal.Spec.Thurstone
