import Verif.Spec.Stats
import Mathlib.Data.Real.Basic
/-!
# Specification vocabulary: the bias of an observer in a complete panel
-/
namespace Sureal.Spec
variable {E S : ℕ}

/-- by how much the votes of observer `s` exceed the panel's means, on average over the videos -/
noncomputable def biasIn (x : Fin E → Fin S → ℝ) (s : Fin S) : ℝ := mean (List.ofFn fun e => x e s - mean (List.ofFn fun s' => x e s'))

end Sureal.Spec
