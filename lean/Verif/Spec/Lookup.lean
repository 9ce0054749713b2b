import Verif.Model.Lookup
import Mathlib.Logic.Relation
/-! Specification of the lookups. -/
namespace Sureal.Spec

/-- position `k` is the first in `[b, e)` at which `x` stands -/
def FirstAt {T : Type} (l : List T) (b e : Nat) (x : T) (k : Nat) : Prop :=
  b ≤ k ∧ k < e ∧ l[k]? = some x ∧ ∀ j, b ≤ j → j < k → l[j]? ≠ some x

/-- `x` does not stand at any position in `[b, e)` -/
def Absent {T : Type} (l : List T) (b e : Nat) (x : T) : Prop := ∀ j, b ≤ j → j < e → l[j]? ≠ some x

/-- `d` inherits from `c`, directly or not -/
def Below {C T : Type} (H : Classes C T) (c d : C) : Prop := Relation.TransGen (fun x y => y ∈ H.subs x) c d

/-- every class has one base only -/
structure SingleInheritance {C T : Type} (H : Classes C T) : Prop where
  nodup : ∀ c, (H.subs c).Nodup
  parent : ∀ x y d, d ∈ H.subs x → d ∈ H.subs y → x = y

end Sureal.Spec
