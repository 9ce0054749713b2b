import Mathlib.Algebra.Order.Field.Basic
/-!
# What is asked of a rounding
-/
namespace Sureal.Spec
variable {F : Type} [Field F] [LinearOrder F]

/-- a rounding that keeps the order and does not change whole numbers up to `N` (for doubles `2^53`) -/
structure Rounds (ρ : F → F) (N : ℕ) : Prop where
  mono : Monotone ρ
  whole : ∀ n : ℤ, |n| ≤ N → ρ n = n

/-- a rounding with relative error at most `u` (for doubles `2^-53`) -/
def RelErr (ρ : F → F) (u : F) : Prop := ∀ x, |ρ x - x| ≤ u * |x|

end Sureal.Spec
