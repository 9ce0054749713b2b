import Verif.Model.Dataset
import Verif.Spec.Stats
/-!
# Specification vocabulary: two videos compared observer by observer
-/
namespace Sureal.Spec

variable {K : Type}

/-- both missing, or both numbers that compare by `R` -/
def Rated (R : K → K → Prop) (x y : Fl K) : Prop :=
  (x = .nan ∧ y = .nan) ∨ ∃ u v : K, x = .fin u ∧ y = .fin v ∧ R u v

/-- at most as large, smaller, or equal -/
def IsComparison [LE K] [LT K] (R : K → K → Prop) : Prop := R = (· ≤ ·) ∨ R = (· < ·) ∨ R = (· = ·)

/-- every vote on video `i` compares by `R` with the vote of the same observer in the same repetition on video `j` -/
def RatedAll (R : K → K → Prop) (a : Arr3D (Fl K)) (i j : ℕ) : Prop :=
  ∀ e f : Fin a.E, e.val = i → f.val = j → ∀ s r, Rated R (a.get e s r) (a.get f s r)

/-- the scores of two videos compare by `R` -/
def Ranked (R : K → K → Prop) (q : List (Fl K)) (i j : ℕ) : Prop :=
  ∃ x y, q[i]? = some x ∧ q[j]? = some y ∧ Rated R x y

/-- the videos at two positions are of the same content -/
def SameContent {κ : Type} (l : List (DisVideo κ K)) (i j : ℕ) : Prop :=
  ∀ dv dv', l[i]? = some dv → l[j]? = some dv' → dv.contentId = dv'.contentId

/-- models whose quality scores do not involve the content of a video -/
def contentFree : List String :=
  ["MOS", "SR_MOS", "SR_MOS_PCC", "SR_MOS_SRCC", "ZS_MOS", "ZS_SR_MOS", "BR_MOS", "BR_SR_MOS", "BR_SR_MOS_PCC", "BR_SR_MOS_SRCC", "BT500", "P913",
    "Subject_MLE_Projection", "MLE_CO_AP", "Subject_MLE_Projection2", "MLE_CO_AP2", "P910", "MLE_CO", "MLE_legacy"]

end Sureal.Spec
