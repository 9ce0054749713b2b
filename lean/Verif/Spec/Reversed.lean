import Mathlib.Data.Real.Basic
import Mathlib.Data.Fintype.Card
/-!
# Specification vocabulary: a panel in which one observer uses the scale the wrong way round
-/
namespace Sureal.Spec
variable {E S : ℕ}

/-- On every video all observers vote `q e`, except observer `s0`, who votes on a reversed scale: `α - β * q e`. -/
noncomputable def reversed (q : Fin E → ℝ) (α β : ℝ) (s0 : Fin S) : Fin E → Fin S → ℝ := fun e s => if s = s0 then α - β * q e else q e

end Sureal.Spec
