import Mathlib.Analysis.SpecialFunctions.Log.Basic
import Mathlib.Algebra.BigOperators.Group.Finset.Basic
import Mathlib.Logic.Relation
import Verif.Model.Fl
import Verif.Spec.Likelihood
/-!
# Specification: the Bradley-Terry model

`A i j` is the number of times video `i` beat video `j` (a tie counts one half for both).  Video `i` beats `j` with
probability `p i / (p i + p j)`.
-/
namespace Sureal.Spec.BT
variable {M : ℕ}

/-- wins of video `i` -/
def wins (A : Fin M → Fin M → ℝ) (i : Fin M) : ℝ := ∑ j, A i j

/-- number of comparisons of `i` and `j` -/
def games (A : Fin M → Fin M → ℝ) (i j : Fin M) : ℝ := A i j + A j i

/-- log-likelihood of the comparisons -/
noncomputable def logLik (A : Fin M → Fin M → ℝ) (p : Fin M → ℝ) : ℝ :=
  ∑ i, ∑ j, A i j * Real.log (p i / (p i + p j))

/-- probability vectors without zeros -/
structure PosProb (p : Fin M → ℝ) : Prop where
  pos : ∀ i, 0 < p i
  sum : ∑ i, p i = 1

/-- the likelihood equations: expected wins equal observed wins -/
def LikEq (A : Fin M → Fin M → ℝ) (p : Fin M → ℝ) : Prop :=
  ∀ i, ∑ j, games A i j * (p i / (p i + p j)) = wins A i

/-- a table of wins in which every video wins at least once -/
structure Table (A : Fin M → Fin M → ℝ) : Prop where
  nonneg : ∀ i j, 0 ≤ A i j
  wins : ∀ i, 0 < wins A i

/-- any two videos are linked by a chain of comparisons -/
def Connected (A : Fin M → Fin M → ℝ) : Prop :=
  ∀ i j, Relation.ReflTransGen (fun i j => 0 < games A i j) i j

/-- the textbook (minorisation-maximisation) update, before normalisation -/
noncomputable def update (A : Fin M → Fin M → ℝ) (p : Fin M → ℝ) (i : Fin M) : ℝ :=
  wins A i / ∑ j, games A i j / (p i + p j)

/-- the update normalised to a probability vector -/
noncomputable def next (A : Fin M → Fin M → ℝ) (p : Fin M → ℝ) (i : Fin M) : ℝ := update A p i / ∑ k, update A p k

/-- `g` is the partial derivative of `f` in direction `i` at all points of `D` -/
def Partial {M : ℕ} (D : (Fin M → ℝ) → Prop) (f : (Fin M → ℝ) → ℝ) (i : Fin M) (g : (Fin M → ℝ) → ℝ) : Prop :=
  ∀ q, D q → HasDerivAt (fun t => f (setEntry q i t)) (g q) (q i)

/-- `h` is the second partial derivative of `f` at `p` in directions `i`, `j`; `D` is an open set containing `p` -/
def Hessian {M : ℕ} (D : (Fin M → ℝ) → Prop) (f : (Fin M → ℝ) → ℝ) (p : Fin M → ℝ) (i j : Fin M) (h : ℝ) : Prop :=
  ∃ g, Partial D f i g ∧ HasDerivAt (fun t => g (setEntry p j t)) h (p j)

/-- vectors of positive numbers -/
def Positive {M : ℕ} (p : Fin M → ℝ) : Prop := ∀ i, 0 < p i

/-- probabilities of the scores `γ` -/
noncomputable def expV {M : ℕ} (γ : Fin M → ℝ) : Fin M → ℝ := fun i => Real.exp (γ i)

/-- a vector of reals as a vector of floating-point numbers -/
def vec {M : ℕ} (p : Fin M → ℝ) : Fin M → Fl ℝ := fun i => .fin (p i)

/-- what is assumed of a pseudo-inverse: it is the inverse where there is one -/
def InverseWhereExists (pinv : (k : ℕ) → (Fin k → Fin k → Fl ℝ) → Py (Fin k → Fin k → Fl ℝ)) : Prop :=
  ∀ (k : ℕ) (H G : Fin k → Fin k → ℝ), (∀ i j, ∑ l, H i l * G l j = if i = j then 1 else 0) →
    pinv k (fun i j => .fin (H i j)) = .ok fun i j => .fin (G i j)

/-- a matrix of reals as a matrix of floating-point numbers -/
def mat {M : ℕ} (A : Fin M → Fin M → ℝ) : Fin M → Fin M → Fl ℝ := fun i j => .fin (A i j)

end Sureal.Spec.BT
