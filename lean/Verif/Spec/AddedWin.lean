import Mathlib.Data.Real.Basic
/-!
# Specification vocabulary: a table of wins with additional wins
-/
namespace Sureal.Spec.BT
variable {M : ℕ}

/-- the wins `A` and `w` additional wins of `i` over `j` -/
noncomputable def withWins (A : Fin M → Fin M → ℝ) (i j : Fin M) (w : ℝ) : Fin M → Fin M → ℝ :=
  fun k l => A k l + if k = i ∧ l = j then w else 0

end Sureal.Spec.BT
