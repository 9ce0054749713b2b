import Verif.Spec.PcArr
import Verif.Spec.PcRandom
import Verif.Spec.Format
import Mathlib.Data.Real.Basic
import Mathlib.Algebra.BigOperators.Group.Finset.Basic
/-! # Specification: the points of a video against another in a dataset of paired comparisons -/
namespace Sureal.Spec

/-- the subjects with at least one record -/
def subjectsOf (d : Dataset (String × Int) ℝ) : Finset String :=
  (d.disVideos.flatMap fun dv => match dv.os with | some (.dict l) => l.map (·.1.1) | _ => []).toFinset

/-- what subject `s` gives video `i` against video `j`: the record of `i` about `j`, or what the record of `j` about `i` leaves; if there are both, the one
of the later video counts -/
noncomputable def pointsOf (d : Dataset (String × Int) ℝ) (i j : ℕ) (s : String) : ℝ :=
  match recordOf d i s j, recordOf d j s i with
  | some (.one (.fin q)), some (.one (.fin q')) => if j < i then q else 1 - q'
  | some (.one (.fin q)), none => q
  | none, some (.one (.fin q')) => 1 - q'
  | _, _ => 0

/-- the models for paired comparisons -/
def pairedModels : List String := ["THURSTONE_MLE", "BT_MLE", "BT_NR"]

/-- the points of video `i` against video `j` in an array: the sum of the cells that hold a number -/
noncomputable def winsIn (arr : Arr3D (Fl ℝ)) (i j : ℕ) : ℝ :=
  ∑ s ∈ Finset.range arr.R, match cell arr i j s with | some (.fin q) => q | _ => 0

/-- the output holds for every video, under model `T`, its score, its standard deviation and the half widths of its interval -/
def Reported (out : Format.Output String (Fl ℝ)) (T : String) {n : ℕ} (v std : Fin n → Fl ℝ) : Prop :=
  ∀ i : Fin n, numberIn out.disVideos i T "quality_score" = some (.one (v i)) ∧
    numberIn out.disVideos i T "quality_score_std" = some (.one (std i)) ∧
    numberIn out.disVideos i T "quality_score_ci95" = some (.row [.fin (195996 / 100000) * std i, .fin (195996 / 100000) * std i])

end Sureal.Spec
