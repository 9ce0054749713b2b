import Mathlib.Data.Real.Basic
import Mathlib.Data.Fintype.Card
/-!
# Specification vocabulary: a panel in which one observer disagrees
-/
namespace Sureal.Spec
variable {E S : ℕ}

/-- On every video all observers vote `q e`, except observer `s0`, who is off by `d e`. -/
noncomputable def dissent (q d : Fin E → ℝ) (s0 : Fin S) : Fin E → Fin S → Fin 1 → ℝ := fun e s _ => q e + if s = s0 then d e else 0

/-- The deviations go up about as often as down: the counts differ by less than 30 percent of all videos. -/
def BothWays (d : Fin E → ℝ) : Prop :=
  |((Finset.univ.filter fun e => 0 < d e).card : ℝ) - (Finset.univ.filter fun e => d e < 0).card| < 3 / 10 * E

end Sureal.Spec
