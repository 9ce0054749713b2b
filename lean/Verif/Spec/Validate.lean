import Verif.Model.Fl
import Mathlib.Algebra.Field.Defs
import Mathlib.Data.Fintype.Card
/-!
# Specification: coverage of confidence intervals in percent
-/
namespace Sureal.Spec
variable {K : Type} [Field K] [LinearOrder K]

/-- `v` is the percentage of the positions at which the true value `x` is between `y - l` and `y + u` -/
def Coverage (x y l u : List (Fl K)) (v : Fl K) : Prop :=
  ∃ (n : ℕ) (fx fy fl fu : Fin n → Fl K), 0 < n ∧ x = List.ofFn fx ∧ y = List.ofFn fy ∧ l = List.ofFn fl ∧ u = List.ofFn fu ∧
    v = .fin (100 * ((Finset.univ.filter fun i => (fy i - fl i).le (fx i) = true ∧ (fx i).le (fy i + fu i) = true).card : K) / n)

/-- `v` is the coverage of the true values by the confidence intervals around the estimates if there are all three, otherwise there is none -/
def IsPercentage (truth est : Option (List (Fl K))) (ci : Option (List (List (Fl K)))) (v : Option (Fl K)) : Prop :=
  (∀ x y c, truth = some x → est = some y → ci = some c → ∃ l u p, c = [l, u] ∧ v = some p ∧ Coverage x y l u p) ∧
  (truth = none ∨ est = none ∨ ci = none → v = none)

end Sureal.Spec
