import Mathlib.Data.Real.Basic
import Mathlib.Data.Fintype.Card
/-!
# Specification vocabulary: a panel of two camps
-/
namespace Sureal.Spec
variable {J n R : ℕ}

/-- Two camps without noise: everybody votes quality plus bias, but to the observers in `D` the videos look different by `d`. -/
noncomputable def twoCamps (q : Fin J → ℝ) (b : Fin n → ℝ) (d : Fin J → ℝ) (D : Finset (Fin n)) : Fin J → Fin n → Fin R → ℝ :=
  fun j i _ => q j + b i + if i ∈ D then d j else 0

end Sureal.Spec
