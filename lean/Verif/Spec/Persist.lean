import Verif.Model.Persist
/-! Specification of remembered values. -/
namespace Sureal.Spec
variable {A V H : Type}

/-- the value of the first call with the key `h` that had one -/
def FirstValue (key : A → H) (h : H) (hist : List ((A → Py V) × A)) (v : V) : Prop :=
  ∃ before f a after, hist = before ++ (f, a) :: after ∧ key a = h ∧ f a = .ok v ∧ ∀ g b, (g, b) ∈ before → key b = h → ∀ w, g b ≠ .ok w

/-- values can be written as JSON and read again -/
def Serialisable {B : Type} (dump : V → List B × Bool) (load : List B → Option V) (v : V) : Prop :=
  (dump v).2 = true ∧ load (dump v).1 = some v

end Sureal.Spec
