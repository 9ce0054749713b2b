import Verif.Model.Fl
import Mathlib.Data.Real.Basic
/-!
# Specification vocabulary: a dataset in which one vote is changed
-/
namespace Sureal.Spec
variable {E S R : ℕ}

/-- the votes `a`, but in the cell of video `e`, observer `s` and repetition `r` the vote is `v` -/
noncomputable def withVote (a : Fin E → Fin S → Fin R → Fl ℝ) (e : Fin E) (s : Fin S) (r : Fin R) (v : ℝ) : Fin E → Fin S → Fin R → Fl ℝ :=
  fun e' s' r' => if e' = e ∧ s' = s ∧ r' = r then .fin v else a e' s' r'

end Sureal.Spec
