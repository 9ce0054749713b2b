import Verif.Spec.Perf
import Verif.Model.RunModels
/-! Specification of the reconstruction statistics. -/
namespace Sureal.Spec

/-- all cells of an array: by video, observer and repetition -/
def allCells (E S R : ℕ) : List (Fin E × Fin S × Fin R) :=
  (List.finRange E).flatMap fun e => (List.finRange S).flatMap fun s => (List.finRange R).map fun r => (e, s, r)

/-- (vote, reconstruction) where both are numbers -/
def bothPresent {E S R : ℕ} (raw rec : Arr3 (Fl ℝ) E S R) : List (ℝ × ℝ) :=
  (allCells E S R).filterMap fun c =>
    match raw c.1 c.2.1 c.2.2, rec c.1 c.2.1 c.2.2 with
    | .fin x, .fin y => some (x, y)
    | _, _ => none

/-- the three statistics of a list of (vote, reconstruction) -/
noncomputable def statsOf (ps : List (ℝ × ℝ)) : Routine.RecStats ℝ :=
  ⟨.fin (rmsError ps), numOrNanOf (correlation ps), numOrNanOf (correlation (rankPairs ps))⟩

end Sureal.Spec
