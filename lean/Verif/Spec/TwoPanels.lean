import Verif.Spec.Arrays
/-!
# Specification vocabulary: two panels of observers taken together
-/
namespace Sureal.Spec
variable {E S S' R : ℕ}

/-- the votes of two panels on the same videos in one array: the observers of `b` come after those of `a` -/
def together (a : Arr3 (Fl ℝ) E S R) (b : Arr3 (Fl ℝ) E S' R) : Arr3 (Fl ℝ) E (S + S') R := fun e => Fin.append (a e) (b e)

end Sureal.Spec
