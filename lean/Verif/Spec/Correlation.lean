import Verif.Spec.Stats
import Verif.Spec.Arrays
/-!
# Specification: correlation of an observer with the panel
-/
namespace Sureal.Spec
variable {E S R : ℕ}
open Classical

/-- Pearson correlation of a list of pairs; undefined when one side is constant (in particular for fewer than
two pairs) -/
noncomputable def correlation (ps : List (ℝ × ℝ)) : Option ℝ :=
  if sqDev (ps.map (·.1)) = 0 ∨ sqDev (ps.map (·.2)) = 0 then none
  else some ((ps.map fun p => (p.1 - mean (ps.map (·.1))) * (p.2 - mean (ps.map (·.2)))).sum
    / (Real.sqrt (sqDev (ps.map (·.1))) * Real.sqrt (sqDev (ps.map (·.2)))))

/-- rank of a number within a list, 1 for the smallest, ties sharing their average rank -/
noncomputable def avgRank (l : List ℝ) (x : ℝ) : ℝ :=
  (l.countP fun y => decide (y < x)) + ((l.countP fun y => decide (y = x)) + 1) / 2

/-- both sides replaced by their ranks -/
noncomputable def rankPairs (ps : List (ℝ × ℝ)) : List (ℝ × ℝ) :=
  ps.map fun p => (avgRank (ps.map (·.1)) p.1, avgRank (ps.map (·.2)) p.2)

/-- what an observer thinks of a video: the mean of their votes on it -/
noncomputable def opinion (a : Arr3 (Fl ℝ) E S R) (e : Fin E) (s : Fin S) : Fl ℝ := meanOrNan (List.ofFn fun r => a e s r)

/-- what the panel thinks of a video: the mean of the observers' opinions -/
noncomputable def panelOpinion (a : Arr3 (Fl ℝ) E S R) (e : Fin E) : Fl ℝ := meanOrNan (List.ofFn fun s => opinion a e s)

/-- (observer's opinion, panel's opinion) for the videos the observer rated -/
noncomputable def opinionPairs (a : Arr3 (Fl ℝ) E S R) (s : Fin S) : List (ℝ × ℝ) :=
  (List.finRange E).filterMap fun e =>
    match opinion a e s, panelOpinion a e with
    | .fin x, .fin y => some (x, y)
    | _, _ => none

/-- the agreement of an observer with the panel: Pearson correlation, or Spearman (of ranks) -/
noncomputable def agreement (spearman : Bool) (a : Arr3 (Fl ℝ) E S R) (s : Fin S) : Option ℝ :=
  correlation (if spearman then rankPairs (opinionPairs a s) else opinionPairs a s)

/-- a possibly undefined number as a float -/
def numOrNanOf : Option ℝ → Fl ℝ
  | some x => .fin x
  | none => .nan

/-- the rejection threshold for the agreements `c` -/
noncomputable def agreementThreshold (c : List ℝ) : ℝ := min (7 / 10) (mean c - Real.sqrt (popVar c))

end Sureal.Spec
