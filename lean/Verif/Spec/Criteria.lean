import Verif.Model.Mle
import Mathlib.Data.Real.Basic
/-! Specification: information criteria -/
namespace Sureal.Spec

/-- number of entries in an optional list of parameters -/
def entriesIn {α : Type} : Option (List α) → ℕ
  | some l => l.length
  | none => 0

/-- number of parameters a result reports: quality scores, observer biases and inconsistencies, content ambiguities -/
def reportedParameters {κ K : Type} (res : Result κ K) : ℕ :=
  res.qualityScores.length + entriesIn res.observerBias + entriesIn res.observerInconsistency + entriesIn res.contentAmbiguity

/-- number of votes in an array -/
def voteCount {E S R : ℕ} (P : Fin E → Fin S → Fin R → Bool) : ℕ :=
  ∑ e, ∑ s, ∑ r, if P e s r = true then 1 else 0

end Sureal.Spec
