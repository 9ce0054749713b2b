import Verif.Spec.Scale
import Verif.Spec.Main
/-!
# Specification vocabulary: observers who agree
-/
namespace Sureal.Spec

/-- whoever rated a video gave the same vote: `q i` for video number `i` -/
def SameVote (q : ℕ → ℝ) (a : Arr3D (Fl ℝ)) : Prop := ∀ e s r, a.get e s r = .nan ∨ a.get e s r = .fin (q e.val)

/-- there are observers, and all of them rated video number `i` -/
def RatedByAll (a : Arr3D (Fl ℝ)) (i : ℕ) : Prop := 0 < a.S ∧ ∀ e : Fin a.E, e.val = i → ∀ s, ∃ r v, a.get e s r = .fin v

/-- all votes on a video of a dataset are the same -/
def Unanimous {κ : Type} (d : Dataset κ ℝ) : Prop := ∀ dv ∈ d.disVideos, ∀ x ∈ numbersOf dv, ∀ y ∈ numbersOf dv, x = y

/-- the models that average votes, corrected for bias or not -/
def direct : List String := ["MOS", "SR_MOS", "SR_MOS_PCC", "SR_MOS_SRCC", "BT500", "BR_MOS", "BR_SR_MOS", "BR_SR_MOS_PCC", "BR_SR_MOS_SRCC", "P913"]

/-- those of them that never reject all observers -/
def populated : List String := ["MOS", "SR_MOS", "BT500", "BR_MOS", "BR_SR_MOS", "P913"]

/-- the maximum likelihood models by belief propagation -/
def iterated : List String := ["MLE", "MLE_CO", "MLE_SO"]

end Sureal.Spec
