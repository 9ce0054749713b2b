import Verif.Spec.SampleStats
import Verif.Spec.Perf
import Verif.Model.Compare
/-! Specification of the comparison of two models. -/
namespace Sureal.Spec
open Routine
variable {κ K : Type} [Zero K] [One K] [Add K] [Neg K] [Sub K] [Mul K] [Div K] [NatCast K]
  [LT K] [LE K] [DecidableLT K] [DecidableLE K] [MathFn K]

/-- the quality scores that the model `m` finds for the dataset when `get_sample_stats` runs it alone -/
def ScoresOf [LinearOrder κ] (frac : Option (Fl K)) (order : ℕ → List ℕ) (src : Source κ K) (m : Reader κ K → Py (Result κ K))
    (q : List (Fl K)) : Prop :=
  ∃ rep, sampleOne frac order src [m] = .ok [rep] ∧ q = rep.result.qualityScores

/-- what the second side has more than the first, per pair -/
def gaps (ps : List (ℝ × ℝ)) : List ℝ := ps.map fun p => p.2 - p.1

end Sureal.Spec
