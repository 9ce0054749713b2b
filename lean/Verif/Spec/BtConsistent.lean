import Mathlib.Probability.IdentDistrib
import Verif.Spec.BtFord
/-!
# Specification: random paired comparisons that follow the Bradley-Terry law

An observer hands in a table: how often each video beat each other one (a tie counts one half for both).
-/
namespace Sureal.Spec.BT
open MeasureTheory
variable {M : ℕ} {Ω : Type*} [MeasurableSpace Ω]

/-- the table of wins of the first `n` observers -/
def firstTables (X : ℕ → Fin M → Fin M → ℝ) (n : ℕ) : Fin M → Fin M → ℝ := fun i j => ∑ t ∈ Finset.range n, X t i j

/-- The tables `X 0, X 1, ...` of the observers are pairwise independent and identically distributed, without negative entries; videos `i` and `j` are
expected to be compared `w i j` times by an observer, and `i` wins the share `p i / (p i + p j)` of these comparisons on average. -/
structure Contest (P : Measure Ω) (w : Fin M → Fin M → ℝ) (p : Fin M → ℝ) (X : ℕ → Ω → Fin M → Fin M → ℝ) : Prop where
  integrable : ∀ i j, Integrable (fun ω => X 0 ω i j) P
  indep : Pairwise fun s t => ProbabilityTheory.IndepFun (X s) (X t) P
  ident : ∀ t, ProbabilityTheory.IdentDistrib (X t) (X 0) P P
  nonneg : ∀ t ω i j, 0 ≤ X t ω i j
  law : ∀ i j, ∫ ω, X 0 ω i j ∂P = w i j * (p i / (p i + p j))

/-- the design links all videos: each number of comparisons is symmetric and not negative, and a chain of pairs that are compared leads from every video
to every other -/
structure Linked (w : Fin M → Fin M → ℝ) : Prop where
  symm : ∀ i j, w i j = w j i
  nonneg : ∀ i j, 0 ≤ w i j
  chain : ∀ i j, Relation.ReflTransGen (fun i j => 0 < w i j) i j

end Sureal.Spec.BT
