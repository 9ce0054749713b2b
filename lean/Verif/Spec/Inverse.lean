import Verif.Model.Fl
import Mathlib.Order.Monotone.Basic
import Mathlib.Algebra.Order.Field.Basic
/-! # Specification: inverses of monotone functions -/
namespace Sureal.Spec.Inv
variable {K : Type} [Field K] [LinearOrder K]

/-- the interval with the given ends, either of which may be missing or excluded -/
def Domain (xmin xmax : Option K) (lo ro : Bool) : Set K :=
  {x | (∀ a, xmin = some a → if lo then a < x else a ≤ x) ∧ ∀ b, xmax = some b → if ro then x < b else x ≤ b}

/-- `f` is strictly increasing on `D` or strictly decreasing -/
def StrictlyMonotone (f : K → K) (D : Set K) : Prop := StrictMonoOn f D ∨ StrictAntiOn f D

/-- `f` is a function on the domain computed by `func`.  Where an end is excluded, and the limit of the image there is not given, `func` has a value at
this end that is beyond all others. -/
structure Computes (func : K → Py (Fl K)) (f : K → K) (xmin xmax : Option K) (lo ro : Bool) (imin imax : Option K) : Prop where
  val : ∀ x ∈ Domain xmin xmax lo ro, func x = .ok (.fin (f x))
  up : StrictMonoOn f (Domain xmin xmax lo ro) →
    (∀ a, xmin = some a → lo = true → imin = none → ∃ v, func a = .ok v ∧ ∀ x ∈ Domain xmin xmax lo ro, v.lt (.fin (f x)) = true) ∧
    (∀ b, xmax = some b → ro = true → imax = none → ∃ v, func b = .ok v ∧ ∀ x ∈ Domain xmin xmax lo ro, (Fl.fin (f x)).lt v = true) ∧
    (∀ m, imin = some m → ∀ x ∈ Domain xmin xmax lo ro, if lo then m < f x else m ≤ f x) ∧
    (∀ m, imax = some m → ∀ x ∈ Domain xmin xmax lo ro, if ro then f x < m else f x ≤ m)
  down : StrictAntiOn f (Domain xmin xmax lo ro) →
    (∀ b, xmax = some b → ro = true → imin = none → ∃ v, func b = .ok v ∧ ∀ x ∈ Domain xmin xmax lo ro, v.lt (.fin (f x)) = true) ∧
    (∀ a, xmin = some a → lo = true → imax = none → ∃ v, func a = .ok v ∧ ∀ x ∈ Domain xmin xmax lo ro, (Fl.fin (f x)).lt v = true) ∧
    (∀ m, imin = some m → ∀ x ∈ Domain xmin xmax lo ro, if ro then m < f x else m ≤ f x) ∧
    (∀ m, imax = some m → ∀ x ∈ Domain xmin xmax lo ro, if lo then f x < m else f x ≤ m)

/-- What is assumed of the minimisation: of a function that falls towards a single zero from both sides it finds the zero. -/
def FindsZero (solver : (K → Py (Fl K)) → K → K → Py (Fl K)) : Prop :=
  ∀ (g : K → Fl K) (x₀ a b : K), a < b → g x₀ = .fin 0 → (∀ x, x ≠ x₀ → (Fl.fin 0).lt (g x) = true) →
    (∀ x x', x < x' → x' ≤ x₀ → (g x').le (g x) = true) → (∀ x x', x₀ ≤ x → x < x' → (g x).le (g x') = true) →
    solver (fun x => .ok (g x)) a b = .ok (.fin x₀)

end Sureal.Spec.Inv
