import Mathlib.Algebra.BigOperators.NatAntidiagonal
import Mathlib.Algebra.Field.Basic
import Mathlib.Order.Lattice
import Mathlib.Order.Defs.LinearOrder
/-! # Specification: the convolution of two functions on a grid -/
namespace Sureal.Spec.Convolve
variable {K : Type} [Field K]

/-- the `i`-th point of the grid that begins at `-r` and has the step `δ` -/
def point (r δ : K) (i : ℕ) : K := -r + i * δ

/-- the mass of the cell right of the `i`-th of `n` points by the trapezoidal rule; the cell of the last point has constant height -/
def mass (f : K → K) (r δ : K) (n i : ℕ) : K := (f (point r δ i) + f (point r δ (min (i + 1) (n - 1)))) / 2 * δ

/-- the convolution of the masses, divided by the step: at the `k`-th point the pairs of cells whose numbers add up to `k + (n - 1) / 2` count -/
def conv (f g : K → K) (r δ : K) (n k : ℕ) : K :=
  (∑ p ∈ (Finset.antidiagonal (k + (n - 1) / 2)).filter fun p => p.1 < n ∧ p.2 < n, mass f r δ n p.1 * mass g r δ n p.2) / δ

end Sureal.Spec.Convolve
