import Verif.Model.Hist
import Mathlib.Data.List.Sort
/-!
# What the plots of `run_subjective_models` show (`sureal/routine.py` lines 107-270)

The data handed to matplotlib; axes, labels and colours are not modelled.
-/
namespace Sureal.Plots
variable {K : Type} [Zero K] [One K] [Add K] [Neg K] [Sub K] [Mul K] [Div K] [NatCast K]
  [LT K] [LE K] [DecidableLT K] [DecidableLE K]

/-- `np.nanmean(opinion_score_3darray, axis=2).T`, routine.py:110, 131 and 160: the matrix of the mean votes, observer by video -/
def meanMatrix {E S R : Nat} (a : Arr3 (Fl K) E S R) : Arr2 (Fl K) S E := fun i j => Np.nanmean (List.ofFn (a j i))

/-- `mtx - np.array(quality_scores)[:, None, None]`, then `np.nanmean(mtx, axis=2).T`, routine.py:190-192 -/
def residual {E S R : Nat} (a : Arr3 (Fl K) E S R) (q : Arr1 (Fl K) E) : Arr2 (Fl K) S E :=
  meanMatrix fun j i r => a j i r - q j

/-- with the biases of the observers taken off, too, routine.py:219-222 -/
def residualB {E S R : Nat} (a : Arr3 (Fl K) E S R) (q : Arr1 (Fl K) E) (b : Arr1 (Fl K) S) : Arr2 (Fl K) S E :=
  meanMatrix fun j i r => a j i r - q j - b i

/-- rows of the subplots, `int(math.floor(math.sqrt(num_obs)))`, routine.py:252 -/
def nrows (obs : Nat) : Nat := Nat.sqrt obs

/-- columns of the subplots, `int(math.ceil(num_obs / float(nrows)))`, routine.py:253; the caller has asserted at least 2 observers -/
def ncols (obs : Nat) : Nat := (obs + nrows obs - 1) / nrows obs

variable [DecidableEq K]

/-- the entries of a dictionary in the order of the keys, `[(ih, k, h[k]) for k in sorted(h.keys())]`, routine.py:144-145 -/
def entries (ih : Nat) (h : List (Fl K × Nat)) : List (Nat × Fl K × Nat) :=
  (h.insertionSort fun p q => Fl.le p.1 q.1 = true).map fun p => (ih, p.1, p.2)

/-- the loop in routine.py:143-147; without an entry `zip(*datas)` cannot be unpacked -/
def scatter (hs : List (List (Fl K × Nat))) : Py (List (Nat × Fl K × Nat)) :=
  match hs.zipIdx.flatMap fun p => entries p.2 p.1 with
  | [] => .error .value
  | d :: ds => .ok (d :: ds)

/-- the points of the plot `raw_counts`, routine.py:131-147 -/
def rawCounts {E S R : Nat} (a : Arr3 (Fl K) E S R) : Py (List (Nat × Fl K × Nat)) :=
  scatter (List.ofFn fun j => Hist.histc (colL (meanMatrix a) j))

/-- the points of the plot `raw_counts_per_subject`, routine.py:160-176 -/
def rawCountsPerSubject {E S R : Nat} (a : Arr3 (Fl K) E S R) : Py (List (Nat × Fl K × Nat)) :=
  scatter (List.ofFn fun i => Hist.histc (rowL (meanMatrix a) i))

end Sureal.Plots
