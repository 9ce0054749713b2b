import Verif.Spec.Stats
import Verif.Model.SampleStats
import Mathlib.Data.Fintype.Perm
import Mathlib.Data.Real.Basic
/-! Specification of random orders. -/
namespace Sureal.Spec

/-- the average over all orders of `n` things, all equally likely -/
noncomputable def orderMean (n : ℕ) (f : Equiv.Perm (Fin n) → ℝ) : ℝ := (∑ σ, f σ) / n.factorial

/-- the numbers `0, ..., n - 1` in the order `σ` -/
def inOrder {n : ℕ} (σ : Equiv.Perm (Fin n)) : List ℕ := List.ofFn fun i => (σ i).val

/-- importing the file gives the dataset `d` -/
def Reads {κ K : Type} (s : Routine.Source κ K) (d : Dataset κ K) : Prop :=
  ((∃ l, s.path = l ++ ".py".toList) ∧ s.readPy = .ok d) ∨ ((∃ l, s.path = l ++ ".json".toList) ∧ s.readJson = .ok d)

end Sureal.Spec
