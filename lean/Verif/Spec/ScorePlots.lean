import Verif.Model.Fl
/-!
# What `np.argsort` promises
-/
namespace Sureal.Spec
variable {K : Type}

/-- what `np.argsort` promises: the indices in an order in which the numbers ascend, NaN last; nothing about ties -/
def Argsort [LE K] [DecidableLE K] (argsort : List (Fl K) → List Nat) : Prop :=
  ∀ l, (argsort l).Perm (List.range l.length) ∧
    ((argsort l).map fun i => l.getD i .nan).Pairwise fun a b => b.isNan = true ∨ Fl.le a b = true

end Sureal.Spec
