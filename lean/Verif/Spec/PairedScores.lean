import Verif.Spec.Main
import Verif.Spec.PcRandom
/-! Specification: how a video did in the comparisons of a dataset of paired comparisons.  Asset ids are the positions of the videos. -/
namespace Sureal.Spec

/-- comparisons are recorded with the winner only: every record says 1 -/
def WinsOnly {κ : Type} (d : Dataset κ ℝ) : Prop :=
  ∀ dv ∈ d.disVideos, ∃ l, dv.os = some (.dict l) ∧ (l.map Prod.fst).Nodup ∧ ∀ k v, (k, v) ∈ l → v = .one (.fin 1)

/-- comparisons are recorded with both videos -/
def RecordedTwice (d : Dataset (String × Int) ℝ) : Prop :=
  ∀ i j s, recordOf d j s (i : ℕ) ≠ none → recordOf d i s (j : ℕ) ≠ none

/-- what video `i` got in the comparisons that are recorded with the other video only -/
noncomputable def elsewhere (d : Dataset (String × Int) ℝ) (i : ℕ) : List ℝ :=
  d.disVideos.zipIdx.flatMap fun p => match p.1.os with
    | some (.dict l) => l.filterMap fun e =>
      if e.1.2 = (i : ℤ) ∧ recordOf d i e.1.1 (p.2 : ℕ) = none then
        match e.2 with
        | .one (.fin q) => some (1 - q)
        | _ => none
      else none
    | _ => []

/-- what video `i`, which is `dv`, got in all its comparisons: 1 for each it won, 0 for each it lost, a half for each tie -/
noncomputable def outcomes (d : Dataset (String × Int) ℝ) (i : ℕ) (dv : DisVideo (String × Int) ℝ) : List ℝ := numbersOf dv ++ elsewhere d i

end Sureal.Spec
