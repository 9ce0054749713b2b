import Verif.Spec.Stats
import Verif.Model.Dataset
import Mathlib.Data.Real.Basic
import Mathlib.Logic.Equiv.Basic
/-!
# Specification vocabulary: the same votes in another order and on other scales
-/
namespace Sureal.Spec
variable {E S R : ℕ}

/-- The votes `a` in another order and on other scales: video `j` is the former video `τ j`, observer `i` the former observer `σ i`, and the votes of `i`
on `j` come in another order `ρ j i`.  The votes on the former video `e` are told in the unit `u e` and counted from the zero `z e`: `x` is written
`u e * x + z e`. -/
noncomputable def recast (τ : Equiv.Perm (Fin E)) (σ : Equiv.Perm (Fin S)) (ρ : Fin E → Fin S → Equiv.Perm (Fin R)) (u z : Fin E → ℝ) (a : Arr3 (Fl ℝ) E S R) :
    Arr3 (Fl ℝ) E S R := fun j i r => affine (u (τ j)) (z (τ j)) (a (τ j) (σ i) (ρ j i r))

/-- the scales of all videos keep their direction, or all are turned round -/
def OneDirection (u : Fin E → ℝ) : Prop := (∀ e, 0 < u e) ∨ ∀ e, u e < 0

end Sureal.Spec
