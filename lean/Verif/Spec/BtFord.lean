import Verif.Spec.Bt
/-! # Specification: Ford's condition for Bradley-Terry estimates -/
namespace Sureal.Spec.BT
variable {M : ℕ}

/-- Ford's condition: from every video a chain of wins leads to every other, that is, whenever the videos are split into two groups, each of the
groups has won against the other at least once -/
def Ford (A : Fin M → Fin M → ℝ) : Prop := ∀ i j, Relation.ReflTransGen (fun i j => 0 < A i j) i j

/-- `p` is a maximum likelihood estimate -/
def IsMle (A : Fin M → Fin M → ℝ) (p : Fin M → ℝ) : Prop :=
  PosProb p ∧ ∀ q : Fin M → ℝ, (∀ i, 0 < q i) → logLik A q ≤ logLik A p

end Sureal.Spec.BT
