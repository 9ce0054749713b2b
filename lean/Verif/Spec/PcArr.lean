import Verif.Spec.Pc
/-!
# Specification vocabulary for paired-comparison arrays
-/
namespace Sureal.Spec
variable {κ K : Type}

/-- The values a comparison may have. -/
def Outcome3 [Field K] (q : K) : Prop := q = 0 ∨ q = 1 / 2 ∨ q = 1

/-- Every recorded value is a legal outcome and refers to one of `n` videos (counted from the end if negative). -/
def RecordsLegal [Field K] (dvs : List (DisVideo (κ × Int) K)) : Prop :=
  ∀ dv ∈ dvs, ∀ d, dv.os = some (.dict d) → ∀ s b v, ((s, b), v) ∈ d →
    (∃ q : K, Outcome3 q ∧ v = .one (.fin q)) ∧ -(dvs.length : Int) ≤ b ∧ b < dvs.length

/-- The asset id of every video is its position. -/
def IdsArePositions (dvs : List (DisVideo κ K)) : Prop :=
  ∀ (i : ℕ) dv, dvs[i]? = some dv → dv.assetId = (i : Int)

/-- Records refer to asset ids of the dataset. -/
def RecordsRefer (dvs : List (DisVideo (κ × Int) K)) : Prop :=
  ∀ dv ∈ dvs, ∀ d, dv.os = some (.dict d) → ∀ s b v, ((s, b), v) ∈ d → ∃ dv' ∈ dvs, dv'.assetId = b

end Sureal.Spec

namespace Sureal.Spec

/-- Cell of an array by natural-number indices; `none` outside the array. -/
def cell {α : Type} (a : Arr3D α) (i j s : ℕ) : Option α :=
  if h : i < a.E ∧ j < a.S ∧ s < a.R then some (a.get ⟨i, h.1⟩ ⟨j, h.2.1⟩ ⟨s, h.2.2⟩) else none

/-- Result of the comparison of two scores, for the first. -/
def result {K : Type} [Field K] [LinearOrder K] (x y : K) : K := if y < x then 1 else if x < y then 0 else 1 / 2

end Sureal.Spec
