import Mathlib.Algebra.BigOperators.Group.Finset.Basic
import Mathlib.Algebra.Field.Defs
import Mathlib.Data.Fintype.Basic
/-!
# The Moore-Penrose equations, written out with sums
-/
namespace Sureal.Spec

/-- `P` is a (the) Moore-Penrose pseudo-inverse of the real matrix `A`: `A P A = A`, `P A P = P`, and `A P`, `P A`
are symmetric. -/
structure MoorePenrose {K : Type} [Field K] {n m : ℕ} (A : Fin n → Fin m → K) (P : Fin m → Fin n → K) : Prop where
  apa : ∀ i j, ∑ k, ∑ l, A i k * P k l * A l j = A i j
  pap : ∀ i j, ∑ k, ∑ l, P i k * A k l * P l j = P i j
  ap_symm : ∀ i j, ∑ k, A i k * P k j = ∑ k, A j k * P k i
  pa_symm : ∀ i j, ∑ k, P i k * A k j = ∑ k, P j k * A k i

/-- `pinv` returns the Moore-Penrose pseudo-inverse of every matrix with linearly independent columns (what
`scipy.linalg.pinv` is documented to do for all matrices). -/
def IsPinv {K : Type} [Field K] (pinv : {n m : ℕ} → (Fin n → Fin m → K) → (Fin m → Fin n → K)) : Prop :=
  ∀ (n m : ℕ) (A : Fin n → Fin m → K), (∀ z : Fin m → K, (∀ i, ∑ j, A i j * z j = 0) → z = 0) →
    MoorePenrose A (pinv A)

end Sureal.Spec
