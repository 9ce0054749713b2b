import Mathlib.Data.Real.Basic
import Mathlib.Algebra.BigOperators.Group.Finset.Basic
import Mathlib.Data.Fintype.BigOperators
/-!
# Specification vocabulary: complete panels

`X j i r` is the vote of observer `i` on video `j` in repetition `r`; nothing is missing.
-/
namespace Sureal.Spec
variable {J I R : ℕ}

/-- the mean of all votes of an observer -/
noncomputable def observerMean (X : Fin J → Fin I → Fin R → ℝ) (i : Fin I) : ℝ := (∑ j, ∑ r, X j i r) / (J * R)

/-- the mean of all votes -/
noncomputable def grandMean (X : Fin J → Fin I → Fin R → ℝ) : ℝ := (∑ j, ∑ i, ∑ r, X j i r) / (J * I * R)

/-- the mean of the votes of an observer on a video -/
noncomputable def cellMean (X : Fin J → Fin I → Fin R → ℝ) (j : Fin J) (i : Fin I) : ℝ := (∑ r, X j i r) / R

/-- the mean of the votes on a video -/
noncomputable def videoMean (X : Fin J → Fin I → Fin R → ℝ) (j : Fin J) : ℝ := (∑ i, ∑ r, X j i r) / (I * R)

/-- how much an observer counts: the inverse of the squared inconsistency, kept away from division by zero -/
noncomputable def precision (v : ℝ) : ℝ := 1 / (v ^ 2 + 1 / 10 ^ 8)

end Sureal.Spec
