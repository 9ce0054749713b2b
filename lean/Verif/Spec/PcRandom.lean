import Verif.Spec.Pc
import Mathlib.Probability.Distributions.Gaussian.Real
import Mathlib.Probability.Independence.Basic
/-!
# Specification: the probabilities of the outcomes of a paired comparison

Only data types of the model are used.
-/
namespace Sureal.Spec
open MeasureTheory ProbabilityTheory
variable {Ω : Type} [MeasurableSpace Ω]

/-- the uniform law on `[0, 1)` and the standard normal law -/
noncomputable def uniform01 : Measure ℝ := volume.restrict (Set.Ico 0 1)
noncomputable def normal01 : Measure ℝ := gaussianReal 0 1

/-- `U n` and `G n` are what call number `n` of the random number generator returns if it is `random.random()`, respectively
`random.gauss(0, 1)`: independent draws, uniform on `[0, 1)` and standard normal. -/
structure RandomDraws (μ : Measure Ω) (U G : ℕ → Ω → ℝ) : Prop where
  measU : ∀ n, Measurable (U n)
  measG : ∀ n, Measurable (G n)
  law : ∀ n, μ.map (fun ω => (U n ω, G n ω)) = uniform01.prod normal01
  indep : iIndepFun (fun n ω => (U n ω, G n ω)) μ

/-- The probability that the score `x` decides against the score `y`, when normal noise of standard deviation `σ` is added to
both: the difference is normal around `x - y` with variance `2σ²`.  Without noise the higher score wins; equal scores are
a draw (`coin = false`) or decided by a fair coin. -/
noncomputable def scoreWins (σ : ℝ) (coin : Bool) (x y : ℝ) : ℝ :=
  if σ = 0 then if y < x then 1 else if x < y then 0 else if coin then 1 / 2 else 0
  else (gaussianReal (x - y) (Real.toNNReal (2 * σ ^ 2)) (Set.Ioi 0)).toReal

/-- The probability that the video with score `x` is recorded to win against the one with score `y`: the pair is sampled
(`q`), and either decided by a coin instead of the scores (`c`), or by the scores. -/
noncomputable def winProb (q c σ : ℝ) (coin : Bool) (x y : ℝ) : ℝ := q * (c * (1 / 2) + (1 - c) * scoreWins σ coin x y)

/-- The probability that the two share the point. -/
noncomputable def drawProb (q c σ : ℝ) (coin : Bool) (x y : ℝ) : ℝ :=
  if σ = 0 ∧ x = y ∧ coin = false then q * (1 - c) else 0

/-- What video number `i` of the dataset records about asset `b` for subject `s`. -/
def recordOf {κ : Type} [DecidableEq κ] {K : Type} (d : Dataset (κ × Int) K) (i : ℕ) (s : κ) (b : Int) : Option (Vote K) :=
  (d.disVideos[i]?).bind fun v => entryOf v (s, b)

end Sureal.Spec
