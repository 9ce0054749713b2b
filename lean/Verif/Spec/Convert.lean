import Verif.Model.Convert
import Verif.Spec.Dataset
import Verif.Spec.Arrays
/-!
# Specification vocabulary for dataset conversions

Only data types of the model are used (`Dataset`, `DisVideo`, `Score`, `PrepareKw`), none of the modelled
functions.
-/
namespace Sureal.Spec
open Sureal.Conv
variable {κ K : Type}

/-- The groundtruth entry that stands for a score: a number, or a one-element array, is stored as a number;
any other array as a list. -/
def GtOf (s : Score K) (g : Gt K) : Prop :=
  (∃ x, (s = .num x ∨ s = .arr [x]) ∧ g = .one x) ∨ (∃ xs, s = .arr xs ∧ xs.length ≠ 1 ∧ g = .many xs)

/-- An optional list of ids selects everything when absent. -/
def Selected (ids : Option (List Int)) (i : Int) : Prop := ∀ l, ids = some l → i ∈ l

instance (ids : Option (List Int)) (i : Int) : Decidable (Selected ids i) := by
  unfold Selected
  cases ids with
  | none => exact isTrue (by simp)
  | some l => exact decidable_of_iff (i ∈ l) (by simp)

/-- Names of Python-internal attributes start with two underscores. -/
def Dunder (k : String) : Prop := ∃ t, k.toList = '_' :: '_' :: t

open Classical in
/-- The value of an opaque attribute of the converted dataset: the override if there is one, else nothing
for internal names, else the source's value. -/
noncomputable def attrAfter (d : Dataset κ K) (kw : PrepareKw) (k : String) : Option String :=
  let over := if k = "quality_width" then kw.qualityWidth
    else if k = "quality_height" then kw.qualityHeight
    else if k = "resampling_type" then kw.resamplingType else none
  match over with
  | some v => some v
  | none => if Dunder k then none else d.attrs.lookup k

/-- The non-video part of a converted dataset. -/
structure MetaKept {κ' : Type} (d : Dataset κ K) (new : Dataset κ' K) (kw : PrepareKw) : Prop where
  refScore : new.refScore = d.refScore
  name : new.datasetName = d.datasetName
  attrs : ∀ k, new.attrs.lookup k = attrAfter d kw k

end Sureal.Spec

namespace Sureal.Spec
variable {κ K : Type}

/-- The (first) vote of an observer on a dict-style video. -/
def dictVote [DecidableEq κ] (dv : DisVideo κ K) (o : κ) : Option (Fl K) :=
  match dv.os with
  | some (.dict d) => (d.lookup o).bind fun v => (votesOf v).head?
  | _ => none

/-- The scores of a row that belong to votes: all, or if the votes are given by name those that are present. -/
def givenScores (dv : DisVideo κ K) (xs : List (Fl K)) : List (Fl K) :=
  match dv.os with
  | some (.dict _) => dropNan xs
  | _ => xs

/-- Every entry of the video is exactly one number. -/
def OneVoteEach (dv : DisVideo κ K) : Prop := ∀ v ∈ entries dv, ∃ x, votesOf v = [x] ∧ x ≠ .nan

end Sureal.Spec

namespace Sureal.Spec
variable {κ K : Type}

/-- Every entry of the video is a number or a list of numbers (not a tuple or an ndarray). -/
def PlainEntries (dv : DisVideo κ K) : Prop :=
  ∀ v ∈ entries dv, (∃ x, v = .one x) ∨ ∃ xs, v = .many .list xs

/-- The entry of a subject on a dict-style video. -/
def entryOf [DecidableEq κ] (dv : DisVideo κ K) (k : κ) : Option (Vote K) :=
  match dv.os with
  | some (.dict d) => d.lookup k
  | _ => none

/-- The entry of a subject in a combined video: the votes of the first followed by those of the second when
both have the subject, the only entry otherwise. -/
def combineEntry : Option (Vote K) → Option (Vote K) → Option (Vote K)
  | some a, some b => some (.many .list (votesOf a ++ votesOf b))
  | some a, none => some a
  | none, b => b

/-- The pairs of videos with the same path, in the order of the two loops. -/
def overlapPairs (first second : List (DisVideo κ K)) : List (DisVideo κ K × DisVideo κ K) :=
  first.flatMap fun v1 => (second.filter fun v2 => decide (v1.path = v2.path)).map fun v2 => (v1, v2)

/-- The distinct elements of a list in order of first occurrence. -/
def firstUses : List Int → List Int
  | [] => []
  | c :: l => c :: (firstUses l).filter fun x => decide (x ≠ c)

/-- The first video's entry of some subject is a list while the matching second video's is a number. -/
def Appends [DecidableEq κ] (v1 v2 : DisVideo κ K) : Prop :=
  ∃ k xs y, entryOf v1 k = some (.many .list xs) ∧ entryOf v2 k = some (.one y)

end Sureal.Spec
