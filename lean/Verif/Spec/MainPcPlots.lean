import Verif.Spec.MainPc
/-! # Specification: the share of the points of a video against another -/
namespace Sureal.Spec

/-- the number of subjects that compared video `i` with video `j` in an array: the number of cells that hold a number -/
noncomputable def playedIn (arr : Arr3D (Fl ℝ)) (i j : ℕ) : ℕ :=
  open Classical in ((Finset.range arr.R).filter fun s => ∃ q : ℝ, cell arr i j s = some (.fin q)).card

/-- the share of the points of video `i` against video `j`, NaN if nobody compared them -/
noncomputable def shareIn (arr : Arr3D (Fl ℝ)) (i j : ℕ) : Fl ℝ :=
  if playedIn arr i j = 0 then .nan else .fin (winsIn arr i j / playedIn arr i j)

/-- the subjects with a record of one of the videos `i` and `j` about the other -/
noncomputable def comparedBy (d : Dataset (String × Int) ℝ) (i j : ℕ) : Finset String :=
  open Classical in (subjectsOf d).filter fun s => recordOf d i s j ≠ none ∨ recordOf d j s i ≠ none

/-- the value in column `i` of row `j` of a picture -/
def pixel (rows : List (List (Fl ℝ))) (j i : ℕ) : Option (Fl ℝ) := (rows[j]?).bind (·[i]?)

end Sureal.Spec
