import Verif.Model.Dataset
/-!
# Specification vocabulary: what a dataset says

Only the *data types* of `Verif.Model.Dataset` are used here (`Dataset`, `DisVideo`, `Os`, `Vote`), none of
the modelled functions.
-/
namespace Sureal.Spec
variable {κ K : Type}

/-- The votes one `os` entry stands for: a bare number is one vote. -/
def votesOf : Vote K → List (Fl K)
  | .one x => [x]
  | .many _ xs => xs

/-- The entries of a video's `os`, without observer names. -/
def entries (dv : DisVideo κ K) : List (Vote K) :=
  match dv.os with
  | some (.seq _ l) => l
  | some (.dict d) => d.map Prod.snd
  | _ => []

/-- All votes a dataset lists for a video, over observers and repetitions. -/
def videoVotes (dv : DisVideo κ K) : List (Fl K) := (entries dv).flatMap votesOf

/-- The `os` of the video is a list or tuple. -/
def SeqStyle (dv : DisVideo κ K) : Prop := ∃ t l, dv.os = some (.seq t l)

/-- The `os` of the video is a dict; a Python dict has no duplicate keys. -/
def DictStyle (dv : DisVideo κ K) : Prop := ∃ d, dv.os = some (.dict d) ∧ (d.map Prod.fst).Nodup

/-- Numpy arrays given as an `os` entry have exactly one element. -/
def NdarraysSingle (dv : DisVideo κ K) : Prop :=
  ∀ xs, Vote.many .ndarray xs ∈ entries dv → xs.length = 1

/-- The raters of a dict-style video. -/
def raters (dv : DisVideo κ K) : List κ :=
  match dv.os with
  | some (.dict d) => d.map Prod.fst
  | _ => []

/-- The `r`-th vote in entry `s` of a sequence-style video. -/
def seqVote? (dv : DisVideo κ K) (s r : Nat) : Option (Fl K) :=
  match (entries dv)[s]? with
  | some v => (votesOf v)[r]?
  | none => none

/-- `x` is the `r`-th vote of observer `o` on a dict-style video. -/
def IsDictVote (dv : DisVideo κ K) (o : κ) (r : Nat) (x : Fl K) : Prop :=
  ∃ d v, dv.os = some (.dict d) ∧ (o, v) ∈ d ∧ (votesOf v)[r]? = some x

/-- The longest vote list among all entries, at least 1. -/
def maxReps (dvs : List (DisVideo κ K)) : Nat :=
  ((dvs.flatMap entries).map fun v => (votesOf v).length).foldr max 1

/-- What a raw dataset must satisfy to be accepted. -/
structure WellFormed (d : Dataset κ K) : Prop where
  refs : d.refVideos ≠ []
  diss : d.disVideos ≠ []
  nonneg : ∀ r ∈ d.refVideos, 0 ≤ r.contentId
  hasRef : ∀ dv ∈ d.disVideos, ∃ r ∈ d.refVideos, r.contentId = dv.contentId
  hasOs : ∀ dv ∈ d.disVideos, ∃ os, dv.os = some os ∧ os ≠ .other
  sameLen : ∀ d0, d.disVideos.head? = some d0 → SeqStyle d0 →
    ∀ dv ∈ d.disVideos, (entries dv).length = (entries d0).length

/-- The same video with the entries of a dict-style `os` reordered. -/
def DictReorder (a b : DisVideo κ K) : Prop :=
  ∃ d d', a.os = some (.dict d) ∧ b.os = some (.dict d') ∧ d.Perm d' ∧
    b = { a with os := some (.dict d') }

end Sureal.Spec
