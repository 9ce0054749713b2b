import Mathlib.Data.Real.Basic
/-!
# Specification vocabulary: a table of wins with additional ties
-/
namespace Sureal.Spec.BT
variable {M : ℕ}

/-- the wins `A` and `t` additional ties of `i` and `j`, each of which counts as half a win for both -/
noncomputable def withTies (A : Fin M → Fin M → ℝ) (i j : Fin M) (t : ℝ) : Fin M → Fin M → ℝ :=
  fun k l => A k l + if k = i ∧ l = j ∨ k = j ∧ l = i then t / 2 else 0

end Sureal.Spec.BT
