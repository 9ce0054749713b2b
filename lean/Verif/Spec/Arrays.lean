import Verif.Model.Np
/-! # Specification vocabulary: cells of arrays -/
namespace Sureal.Spec
variable {α : Type} {E S R : Nat}

/-- all cells of one video, observer by observer -/
def videoCells (a : Arr3 α E S R) (e : Fin E) : List α :=
  (List.ofFn fun s => List.ofFn fun r => a e s r).flatten

/-- all cells of one observer, video by video -/
def observerCells (a : Arr3 α E S R) (s : Fin S) : List α :=
  (List.ofFn fun e => List.ofFn fun r => a e s r).flatten

/-- the non-NaN entries of a list of floats -/
def dropNan {K : Type} (l : List (Fl K)) : List (Fl K) := l.filter (fun x => !x.isNan)

end Sureal.Spec
