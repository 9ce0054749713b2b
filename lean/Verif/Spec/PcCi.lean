import Verif.Spec.Thurstone
/-! Specification of the precision of scores estimated from comparisons. -/
namespace Sureal.Spec.Thurstone
variable {M : ℕ}

/-- what the comparisons of `i` and `j` tell about the difference of their scores: their number times the curvature of the
negative logarithm of the probability that `i` wins -/
noncomputable def pairInfo (A : Fin M → Fin M → ℝ) (v : Fin M → ℝ) (i j : Fin M) : ℝ :=
  (A i j + A j i) * -curvature normalCdf normalPdf (v i - v j)

/-- the product of the information matrix and a vector of scores -/
noncomputable def infoMul (A : Fin M → Fin M → ℝ) (v x : Fin M → ℝ) (i : Fin M) : ℝ := ∑ j, pairInfo A v i j * (x i - x j)

end Sureal.Spec.Thurstone
