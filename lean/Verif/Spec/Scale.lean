import Verif.Model.Dataset
import Verif.Spec.Stats
/-!
# Specification vocabulary: numbers on a rating scale
-/
namespace Sureal.Spec
variable {K : Type} [LE K]

/-- a missing number, or a number between the ends of the scale -/
def InScale (lo hi : K) (x : Fl K) : Prop := x = .nan ∨ ∃ v, x = .fin v ∧ lo ≤ v ∧ v ≤ hi

/-- all votes are on the scale -/
def VotesIn (lo hi : K) (a : Arr3D (Fl K)) : Prop := ∀ e s r, InScale lo hi (a.get e s r)

/-- on the scale, made wider by its own width at both ends -/
def InWideScale [Sub K] [Add K] (lo hi : K) (x : Fl K) : Prop := InScale (lo - (hi - lo)) (hi + (hi - lo)) x

/-- the models that average votes as they are: means, and means after observers were rejected -/
def averaging : List String := ["MOS", "SR_MOS", "SR_MOS_PCC", "SR_MOS_SRCC", "BT500"]

/-- the models that shift votes before averaging: by how far an observer's votes are above the means, or to differences from the reference video -/
def shifting : List String := ["DMOS", "SR_DMOS", "BR_MOS", "BR_SR_MOS", "BR_SR_MOS_PCC", "BR_SR_MOS_SRCC", "P913"]

end Sureal.Spec
