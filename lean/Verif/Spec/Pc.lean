import Verif.Spec.Convert
import Mathlib.Algebra.Field.Defs
import Mathlib.Order.Defs.LinearOrder
/-!
# Specification vocabulary for paired comparisons

Only data types of the model are used.
-/
namespace Sureal.Spec
variable {κ K : Type} [DecidableEq κ]

/-- The entry and the content of the video with a given asset id that the subject rated. -/
def ratingOf (dvs : List (DisVideo κ K)) (s : κ) (a : Int) : Option (Vote K × Int) :=
  dvs.findSome? fun v => if v.assetId = a then (entryOf v s).map fun x => (x, v.contentId) else none

/-- No subject rated two videos with the same asset id. -/
def NoRepeat (dvs : List (DisVideo κ K)) : Prop :=
  ∀ s, ((dvs.filter fun v => (entryOf v s).isSome).map (·.assetId)).Nodup

/-- Two different assets rated by the subject, of the same content if `within`. -/
def Comparable (within : Bool) (dvs : List (DisVideo κ K)) (s : κ) (a b : Int) : Prop :=
  a ≠ b ∧ ∃ x cx y cy, ratingOf dvs s a = some (x, cx) ∧ ratingOf dvs s b = some (y, cy) ∧
    (within = true → cx = cy)

/-- Video number `i` is the last one with its asset id. -/
def LastWithId (dvs : List (DisVideo κ K)) (i : ℕ) : Prop :=
  ∃ v, dvs[i]? = some v ∧ ∀ j v', i < j → dvs[j]? = some v' → v'.assetId ≠ v.assetId

/-- What the asset with score `x` gets against the one with score `y`. -/
def share [Field K] [LinearOrder K] (x y : K) : Option (Fl K) :=
  if y < x then some (.fin 1) else if x < y then none else some (.fin (1 / 2))

/-- A video of the paired-comparison dataset keeps everything of the source video but its scores. -/
structure SameVideo (v : DisVideo κ K) (v' : DisVideo (κ × Int) K) : Prop where
  content : v'.contentId = v.contentId
  asset : v'.assetId = v.assetId
  path : v'.path = v.path
  gt : v'.groundtruth = v.groundtruth
  gtStd : v'.groundtruthStd = v.groundtruthStd
  extra : v'.extra = v.extra

end Sureal.Spec
