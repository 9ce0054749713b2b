import Verif.Spec.Ap
import Mathlib.Analysis.SpecialFunctions.Log.Deriv
/-!
# Specification vocabulary: the likelihood that the passes of the alternating projection climb

The votes are modelled as quality score plus observer bias plus Gaussian noise whose variance belongs to the observer.
The solver adds `10^-8` to every estimated variance.  That is the estimate which maximises the likelihood in which every
squared residual is enlarged by `10^-8`.
-/
namespace Sureal.Spec
variable {J I R : ℕ}

/-- The logarithm of the likelihood (times -2, without the constant) of quality scores `S`, biases `B` and variances `T`:
each vote contributes `log T + (residual^2 + 10^-8) / T`. -/
noncomputable def apDeviance (P : Fin J → Fin I → Fin R → Bool) (X : Fin J → Fin I → Fin R → ℝ) (S : Fin J → ℝ)
    (B T : Fin I → ℝ) : ℝ :=
  ∑ i, ∑ c ∈ votesOfObserver P i, (Real.log (T i) + ((X c.1 i c.2 - S c.1 - B i) ^ 2 + 1 / 100000000) / T i)

/-- mean squared residual of an observer -/
noncomputable def apMeanSq (P : Fin J → Fin I → Fin R → Bool) (X : Fin J → Fin I → Fin R → ℝ) (S : Fin J → ℝ)
    (B : Fin I → ℝ) (i : Fin I) : ℝ :=
  avg (votesOfObserver P i) fun c => (X c.1 i c.2 - S c.1 - B i) ^ 2

/-- The cost of quality scores and biases: every vote contributes the logarithm of its observer's enlarged mean squared
residual.  (`apCost_isLeast`: this is the least deviance over all variances, up to the number of votes.) -/
noncomputable def apCost (P : Fin J → Fin I → Fin R → Bool) (X : Fin J → Fin I → Fin R → ℝ) (S : Fin J → ℝ)
    (B : Fin I → ℝ) : ℝ :=
  ∑ i, ((votesOfObserver P i).card : ℝ) * Real.log (apMeanSq P X S B i + 1 / 100000000)

/-- Scores and biases at which the cost does not change to first order, whichever single score or bias is varied. -/
def ApStationary (P : Fin J → Fin I → Fin R → Bool) (X : Fin J → Fin I → Fin R → ℝ) (S : Fin J → ℝ)
    (B : Fin I → ℝ) : Prop :=
  (∀ j, HasDerivAt (fun t => apCost P X (Function.update S j t) B) 0 (S j)) ∧
  ∀ i, HasDerivAt (fun t => apCost P X S (Function.update B i t)) 0 (B i)

/-- the number of votes -/
def totalVotes (P : Fin J → Fin I → Fin R → Bool) : ℕ := ∑ i, (votesOfObserver P i).card

end Sureal.Spec
