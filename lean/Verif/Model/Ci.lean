import Verif.Model.Fl
/-!
# Coverage of confidence intervals (`sureal/routine.py` lines 971-980)
-/
namespace Sureal.Ci
variable {K : Type} [Zero K] [One K] [Add K] [Neg K] [Sub K] [Mul K] [Div K] [NatCast K]
  [LT K] [LE K] [DecidableLT K] [DecidableLE K]

/-- `y - y_ci95_l <= x <= y + y_ci95_u`, line 978 -/
def inCi (x y l u : Fl K) : Bool := (y - l).le x && x.le (y + u)

/-- the list comprehension over `zip(xs, ys, ys_ci95[0], ys_ci95[1])`, line 978 -/
def indInCi : List (Fl K) → List (Fl K) → List (Fl K) → List (Fl K) → List Bool
  | x :: xs, y :: ys, l :: ls, u :: us => inCi x y l u :: indInCi xs ys ls us
  | _, _, _, _ => []

/-- `np.array(rows).shape` of a list of lists of numbers, line 974: rows of different lengths are a ValueError (numpy ≥ 1.24);
of no rows, the shape is `(0,)`, which only its first entry is read of -/
def shape2 (rows : List (List (Fl K))) : Py (Nat × Nat) :=
  match rows with
  | [] => .ok (0, 0)
  | r :: rs => if rs.all (fun q => q.length == r.length) then .ok (rs.length + 1, r.length) else .error .value

/-- `get_ci_percentage` (`sureal/routine.py` lines 971-980). `xs` is `synthetic_result.get(key)`, `ys` is `result.get(key)` and
`ci` is `result.get(errkey)`; a missing key is a KeyError. The division of Python integers by zero raises. -/
def ciPercentage (xs ys : Option (List (Fl K))) (ci : Option (List (List (Fl K)))) : Py (Fl K) :=
  match xs, ys, ci with
  | some xs, some ys, some ci =>
    match shape2 ci with
    | .error e => .error e
    | .ok (rows, cols) =>
      if rows = 2 then
        if xs.length = ys.length ∧ ys.length = cols then
          let ind := indInCi xs ys ((ci[0]?).getD []) ((ci[1]?).getD [])
          if ind.length = 0 then .error .zeroDivision
          else .ok (((ind.count true : Nat) : Fl K) / ((ind.length : Nat) : Fl K) * ((100 : Nat) : Fl K))
        else .error .assertion
      else .error .assertion
  | _, _, _ => .error .key

end Sureal.Ci
