import Mathlib.Data.Real.Basic
import Mathlib.Data.Fintype.Card
/-!
# Specification vocabulary: a panel in which a camp uses the scale the wrong way round
-/
namespace Sureal.Spec
variable {E S : ℕ}

/-- The observers in `D` vote on a reversed scale, `α - β * q e` on video `e`; the others vote `q e`. -/
noncomputable def opposed (q : Fin E → ℝ) (α β : ℝ) (D : Finset (Fin S)) : Fin E → Fin S → ℝ := fun e s => if s ∈ D then α - β * q e else q e

/-- the camp whose order of the videos is not the one of the mean votes: the reversed camp `D` if it is outweighed, `β |D| < S - |D|`, else the others -/
noncomputable def outvoted (β : ℝ) (D : Finset (Fin S)) : Finset (Fin S) := if β * D.card < S - D.card then D else Dᶜ

end Sureal.Spec
