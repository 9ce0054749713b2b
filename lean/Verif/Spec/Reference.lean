import Verif.Model.Dataset
/-! # Specification vocabulary: hidden references -/
namespace Sureal.Spec
variable {κ K : Type}

/-- `r` is the reference video in force for content `c`: the last one listed with that content id. -/
def RefFor (refs : List RefVideo) (c : Int) (r : RefVideo) : Prop :=
  ∃ l1 l2, refs = l1 ++ r :: l2 ∧ r.contentId = c ∧ ∀ r' ∈ l2, r'.contentId ≠ c

/-- The `i`-th distorted video is a hidden reference of content `c`: it has that content and its path is the
path of the reference video. -/
def HiddenRef (d : Dataset κ K) (c : Int) (i : Nat) : Prop :=
  ∃ dv r, d.disVideos[i]? = some dv ∧ dv.contentId = c ∧ RefFor d.refVideos c r ∧ r.path = dv.path

end Sureal.Spec
