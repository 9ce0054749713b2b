import Verif.Model.Fl
/-!
# numpy reductions

Reductions are modelled on the list of the entries they range over.  Behaviour modelled (numpy 1.x
documentation and `numpy/lib/nanfunctions.py`):

* `np.nansum`: sum of the non-NaN entries (0 if there are none);
* `np.nanmean`: that sum divided by the number of non-NaN entries (0/0 = NaN if there are none);
* `np.nanvar(ddof)`: mean squared deviation from `nanmean` over the non-NaN entries, NaN if
  `count <= ddof`; `np.nanstd` its square root;
* `np.mean`, `np.var`, `np.std`: the same without NaN skipping (`mean([])` is NaN).
-/
namespace Sureal
namespace Np
variable {K : Type} [Zero K] [One K] [Add K] [Neg K] [Sub K] [Mul K] [Div K] [NatCast K]
  [LT K] [LE K] [DecidableLT K] [DecidableLE K]

/-- entries that are not NaN: `x[~np.isnan(x)]` -/
def notNan (l : List (Fl K)) : List (Fl K) := l.filter (fun x => !x.isNan)

/-- `np.sum(~np.isnan(x))` -/
def countNotNan (l : List (Fl K)) : Nat := (notNan l).length

/-- `np.sum` -/
def sum (l : List (Fl K)) : Fl K := l.sum

/-- `np.nansum` -/
def nansum (l : List (Fl K)) : Fl K := sum (notNan l)

/-- `np.mean` -/
def mean (l : List (Fl K)) : Fl K := sum l / ((l.length : Nat) : Fl K)

/-- `np.nanmean` -/
def nanmean (l : List (Fl K)) : Fl K := nansum l / ((countNotNan l : Nat) : Fl K)

/-- `np.var(x, ddof=0)` -/
def var (l : List (Fl K)) : Fl K :=
  sum (l.map fun x => (x - mean l).sq) / ((l.length : Nat) : Fl K)

/-- `np.nanvar(x, ddof)` -/
def nanvar (ddof : Nat) (l : List (Fl K)) : Fl K :=
  if countNotNan l ≤ ddof then .nan
  else sum ((notNan l).map fun x => (x - nanmean l).sq) / ((countNotNan l - ddof : Nat) : Fl K)

/-- `np.std(x)` -/
def std [MathFn K] (l : List (Fl K)) : Fl K := (var l).sqrt

/-- `np.nanstd(x, ddof)` -/
def nanstd [MathFn K] (ddof : Nat) (l : List (Fl K)) : Fl K := (nanvar ddof l).sqrt

/-- `scipy.linalg.norm(x)` with the default `check_finite=True`: raises `ValueError` on NaN/inf. -/
def linalgNorm [MathFn K] (l : List (Fl K)) : Py (Fl K) :=
  if l.all (·.isFinite) then .ok (sum (l.map (·.sq))).sqrt else .error .value

/-- `np.nanmin` of a list (NaN if there is no non-NaN entry; numpy warns and returns NaN) -/
def nanmin (l : List (Fl K)) : Fl K :=
  match notNan l with
  | [] => .nan
  | x :: xs => xs.foldl (fun a b => if b.lt a then b else a) x

/-- `np.nanmax` -/
def nanmax (l : List (Fl K)) : Fl K :=
  match notNan l with
  | [] => .nan
  | x :: xs => xs.foldl (fun a b => if a.lt b then b else a) x

end Np

/-- A numpy array of shape `(n,)`. -/
abbrev Arr1 (α : Type) (n : Nat) := Fin n → α
/-- A numpy array of shape `(n, m)`. -/
abbrev Arr2 (α : Type) (n m : Nat) := Fin n → Fin m → α
/-- A numpy array of shape `(n, m, k)`. -/
abbrev Arr3 (α : Type) (n m k : Nat) := Fin n → Fin m → Fin k → α

variable {α : Type}

/-- row `i` of a 2-D array, as a list (the entries a reduction over `axis=1` sees) -/
def rowL {n m : Nat} (a : Arr2 α n m) (i : Fin n) : List α := List.ofFn (a i)
/-- column `j` of a 2-D array, as a list (the entries a reduction over `axis=0` sees) -/
def colL {n m : Nat} (a : Arr2 α n m) (j : Fin m) : List α := List.ofFn fun i => a i j
/-- all entries of a 3-D array in C order (`ravel`) -/
def ravel3 {n m k : Nat} (a : Arr3 α n m k) : List α :=
  (List.ofFn fun i => (List.ofFn fun j => List.ofFn fun r => a i j r).flatten).flatten

/-- Evaluate an array once (no effect on its value; only for running the model). -/
def memo1 {n : Nat} (a : Arr1 α n) : Arr1 α n :=
  let v := Vector.ofFn a
  fun i => v[i]

end Sureal
