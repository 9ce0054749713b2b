import Verif.Model.PcReader
/-!
# The winning rates of paired comparisons (`sureal/routine.py` lines 735-752)

The matrix handed to `imshow`.
-/
namespace Sureal.WinRate
variable {κ K : Type} [Zero K] [One K] [Add K] [Neg K] [Sub K] [Mul K] [Div K] [NatCast K]
  [LT K] [LE K] [DecidableLT K] [DecidableLE K]

/-- `np.nansum(tensor, axis=2)` -/
def wins {E S R : Nat} (a : Arr3 (Fl K) E S R) (i : Fin E) (j : Fin S) : Fl K := Np.nansum (List.ofFn fun s => a i j s)

/-- routine.py:742-744: the sums over themselves plus their transpose; a matrix that is not square does not occur -/
def rates (a : Arr3D (Fl K)) : Py (List (List (Fl K))) :=
  if h : a.S = a.E then
    .ok (List.ofFn fun i : Fin a.E => List.ofFn fun j : Fin a.E =>
      wins a.get i (j.cast h.symm) / (wins a.get i (j.cast h.symm) + wins a.get j (i.cast h.symm)))
  else .error .value

/-- `visualize_pc_dataset`, after the file is read -/
def visualize [LinearOrder κ] (d : Dataset (κ × Int) K) : Py (List (List (Fl K))) :=
  match PcReader.pcReader d with
  | .error e => .error e
  | .ok rd =>
    match rd.scores with
    | .error e => .error e
    | .ok a => rates a

end Sureal.WinRate
