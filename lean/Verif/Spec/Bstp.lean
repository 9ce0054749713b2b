import Verif.Spec.PcArr
import Mathlib.Algebra.Order.Field.Basic
/-! Specification of the bootstrapped confidence intervals. -/
namespace Sureal.Spec
variable {K : Type} [Field K] [LinearOrder K]

/-- `z` is the quantile of order `num/den` of the numbers `ys`, by linear interpolation between neighbours: it lies at position
`(n - 1) * num/den` of the numbers in ascending order, counted from 0. -/
def Quantile (num den : ℕ) (ys : List K) (z : K) : Prop :=
  ∃ s : List K, s.Perm ys ∧ s.Pairwise (· ≤ ·) ∧ ∃ (i : ℕ) (t a b : K), 0 ≤ t ∧ t < 1 ∧
    (i : K) + t = ((ys.length - 1 : ℕ) : K) * num / den ∧
    s[i]? = some a ∧ (s[i + 1]? = some b ∨ t = 0) ∧ z = (1 - t) * a + t * b

/-- `n` numbers from `0` to `n - 1`, drawn with replacement -/
def IsResample (n : ℕ) (sel : List Int) : Prop := sel.length = n ∧ ∀ x ∈ sel, 0 ≤ x ∧ x < n

/-- Two groups of parameters of which only the sums (score plus bias) are determined were estimated, `own` for the `k`-th drawn
subject (or video), `other` for the videos (or subjects).  `ys` are the values `other` after moving them, and `own` the
opposite way, so that `own` gets the same sum as the estimates `ref` of the full data for those drawn. -/
def Aligned (sel : List Int) (ref own other ys : List K) : Prop :=
  ∃ c : K, (own.map (· - c)).sum = (sel.map fun x => (ref[x.toNat]?).getD 0).sum ∧ ys = other.map (· + c)

end Sureal.Spec
