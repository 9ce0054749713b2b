import Verif.Model.Inverse
import Mathlib.Algebra.Order.Floor.Semiring
import Mathlib.Data.Rat.Floor
/-!
# `ConvolveTwoPdf` (`sureal/tools/stats.py` lines 126-178)

`f` and `g` return finite numbers for all arguments.  `scipy.signal.fftconvolve` is the exact convolution.
-/
namespace Sureal.ConvolvePdf
variable {K : Type} [Field K] [LinearOrder K] [IsStrictOrderedRing K] [FloorRing K]

/-- the object, lines 133-140: `model` holds `grid` and `pdf` -/
structure Obj (K : Type) where
  f : K → K
  g : K → K
  delta : K
  fTrunc : K
  gTrunc : K
  model : Option (List K × List K) := none

/-- `inversefunc(f, y)` with a number `y`, lines 149-150 -/
def inverseAt (solver : (K → Py (Fl K)) → K → K → Py (Fl K)) (f : K → K) (y : K) : Py (Fl K) :=
  match Inverse.inversefunc solver (fun x => .ok (.fin (f x))) .absent .absent .absent with
  | .error e => .error e
  | .ok inv =>
    match inv [.fin y] with
    | .error e => .error e
    | .ok l => .ok (l.headD .nan)

/-- `np.arange(-reach, reach, delta)`, line 154; a step 0 gives ValueError -/
def grid (reach delta : K) : Py (List K) :=
  if delta = 0 then .error .value
  else .ok ((List.range ⌈(reach - -reach) / delta⌉₊).map fun i : ℕ => -reach + (i : K) * delta)

/-- lines 155-156 and 157-158: the trapezoidal rule; `pmf[-1]` of an empty array raises IndexError -/
def cells (f : K → K) (delta : K) (xs : List K) : Py (List K) :=
  match (xs.map fun x => f x * delta).getLast? with
  | none => .error .index
  | some z => .ok (List.zipWith (fun a b => (a + b) / 2) (xs.map fun x => f x * delta) ((xs.map fun x => f x * delta).tail ++ [z]))

/-- `fftconvolve(a, b, 'same')` for arrays of the same length `n`, line 159: the middle `n` entries, from `(n - 1) // 2` on, of all `2 n - 1` -/
def convSame (a b : List K) : List K :=
  (List.range a.length).map fun k =>
    ((List.range a.length).map fun i => if i ≤ k + (a.length - 1) / 2 then a.getD i 0 * b.getD (k + (a.length - 1) / 2 - i) 0 else 0).sum

/-- `_get_model`, lines 148-171 -/
def getModel (solver : (K → Py (Fl K)) → K → K → Py (Fl K)) (o : Obj K) : Py (List K × List K) :=
  match inverseAt solver o.f o.fTrunc with
  | .error e => .error e
  | .ok invF =>
    match inverseAt solver o.g o.gTrunc with
    | .error e => .error e
    | .ok invG =>
      match invF, invG with
      | .fin rf, .fin rg =>
        if ¬ 0 < rf then .error .assertion
        else if ¬ 0 < rg then .error .assertion
        else
          match grid (max rf rg) o.delta with
          | .error e => .error e
          | .ok xs =>
            match cells o.f o.delta xs with
            | .error e => .error e
            | .ok pf =>
              match cells o.g o.delta xs with
              | .error e => .error e
              | .ok pg => .ok (xs, (convSame pf pg).map fun p => p / o.delta)
      | .pinf, .pinf => .error .value
      | .pinf, .fin rg => if 0 < rg then .error .value else .error .assertion
      | .fin rf, .pinf => if 0 < rf then .error .value else .error .assertion
      | _, _ => .error .assertion

/-- the inner part of `np.interp`, for `x` from the first point on -/
def interpIn (x : K) : List (K × K) → K
  | [] => 0
  | [(_, v)] => v
  | (a, v) :: (b, w) :: l => if x < b then (w - v) / (b - a) * (x - a) + v else interpIn x ((b, w) :: l)

/-- `np.interp(x, grid, pdf, left=end, right=end)`, lines 175-177; no points are a ValueError -/
def interp (x : K) (ends : K) (m : List K × List K) : Py K :=
  match m.1.head?, m.1.getLast? with
  | some a, some b => if x < a then .ok ends else if b < x then .ok ends else .ok (interpIn x (m.1.zip m.2))
  | _, _ => .error .value

/-- `pdf` and `_pdf`, lines 142-146 and 173-177: the value and the object afterwards -/
def pdf (solver : (K → Py (Fl K)) → K → K → Py (Fl K)) (o : Obj K) (x : K) : Py (K × Obj K) :=
  match (match o.model with
    | some m => .ok m
    | none => getModel solver o : Py (List K × List K)) with
  | .error e => .error e
  | .ok m =>
    match interp x (o.fTrunc * o.gTrunc) m with
    | .error e => .error e
    | .ok v => .ok (v, { o with model := some m })

end Sureal.ConvolvePdf
