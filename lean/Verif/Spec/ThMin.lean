import Verif.Spec.Thurstone
/-! Specification of what the search for the Thurstone scores should find. -/
namespace Sureal.Spec.Thurstone
variable {M : ℕ}

/-- no two scores differ by more than four standard deviations -/
def WithinFour (v : Fin M → ℝ) : Prop := ∀ i j, v i - v j ≤ 4

/-- all partial derivatives of `f` at `v` are 0 -/
def Stationary (f : (Fin M → ℝ) → ℝ) (v : Fin M → ℝ) : Prop := ∀ i, HasDerivAt (fun t => f (setEntry v i t)) 0 (v i)

/-- `w` is `v` up to a shift of the scale -/
def ShiftOf (v w : Fin M → ℝ) : Prop := ∃ c, ∀ i, w i = v i + c

end Sureal.Spec.Thurstone
