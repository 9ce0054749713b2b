import Mathlib.Data.Fintype.Card
import Mathlib.Data.Finset.Card
/-!
# Specification vocabulary: panels of observers made from other panels
-/
namespace Sureal.Spec

/-- A panel of `I'` observers made from one of `I` observers: `φ i' = some i` says that `i'` votes like `i`, `φ i' = none` that `i'` is silent.  Every
observer of the old panel occurs `m` times. -/
def CopiesOf {I I' : ℕ} (m : ℕ) (φ : Fin I' → Option (Fin I)) : Prop := ∀ i, (Finset.univ.filter fun i' => φ i' = some i).card = m

end Sureal.Spec
