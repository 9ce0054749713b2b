import Verif.Model.Fl
/-!
# `inversefunc` (`sureal/tools/inverse.py`)

Numbers in `domain` and `image` are finite.  `func` is called with finite numbers and may raise or return any float.
`scipy.optimize.minimize_scalar` with Brent's method is a parameter `solver objective ref1 ref2`.  `y_values` is a flattened list; the extra `args` are
part of `func`; warnings are not modelled, nor is `accuracy`, which is not used.
-/
namespace Sureal.Inverse
variable {K : Type} [Zero K] [One K] [Add K] [Neg K] [Sub K] [Mul K] [Div K] [NatCast K]
  [LT K] [LE K] [DecidableLT K] [DecidableLE K]

/-- the argument `domain`, `image` or `open_domain`: `None`, a number (or bool), a sequence, something with more dimensions -/
inductive Arg (α : Type) where
  | absent
  | scalar (x : α)
  | seq (l : List (Option α))
  | nested

/-- lines 216-228 -/
def normDomain : Arg K → Py (Option K × Option K)
  | .absent => .ok (none, none)
  | .scalar x => .ok (some x, none)
  | .seq [a, b] => .ok (a, b)
  | .seq _ => .error .value
  | .nested => .error .value

/-- lines 232-243; `bool(None)` is False -/
def normOpen : Arg Bool → Py (Bool × Bool)
  | .absent => .ok (false, false)
  | .scalar b => .ok (b, b)
  | .seq [a, b] => .ok (a.getD false, b.getD false)
  | .seq _ => .error .value
  | .nested => .error .value

/-- lines 247-255 -/
def normImage : Arg K → Py (Option K × Option K)
  | .absent => .ok (none, none)
  | .seq [a, b] => .ok (a, b)
  | _ => .error .value

/-- lines 257-263: a lower limit that is not below the upper one is refused -/
def ordered : Option K × Option K → Bool
  | (some a, some b) => !decide (b ≤ a)
  | _ => true

/-- `_normparams_inversefunc`, lines 208-265 -/
def normParams (domain image : Arg K) (openDomain : Arg Bool) : Py ((Option K × Option K) × (Option K × Option K) × (Bool × Bool)) :=
  match normDomain domain with
  | .error e => .error e
  | .ok d =>
    match normOpen openDomain with
    | .error e => .error e
    | .ok o =>
      match normImage image with
      | .error e => .error e
      | .ok i => if !ordered d then .error .value else if !ordered i then .error .value else .ok (d, i, o)

/-- `_get_valid_refpoints`, lines 268-282 -/
def refPoints : Option K → Option K → K × K
  | some xmin, some xmax => (xmin + (xmax - xmin) / ((4 : Nat) : K), xmax - (xmax - xmin) / ((4 : Nat) : K))
  | some xmin, none => (xmin + 1, xmin + ((2 : Nat) : K))
  | none, some xmax => (xmax - ((2 : Nat) : K), xmax - 1)
  | none, none => (0, 1)

/-- the values of `trend`, line 115, other than 0 -/
inductive Trend where
  | up
  | down
  | unknown
  deriving DecidableEq

/-- `np.sign` of the difference, line 115; `none` is 0 -/
def sign : Fl K → Option Trend
  | .fin a => if 0 < a then some .up else if a < 0 then some .down else none
  | .pinf => some .up
  | .ninf => some .down
  | .nan => some .unknown

/-- `np.inf * trend` -/
def infTrend : Trend → Fl K
  | .up => .pinf
  | .down => .ninf
  | .unknown => .nan

/-- `_auto_ymin`, lines 285-295: every exception becomes ValueError -/
def autoYmin (func : K → Py (Fl K)) (xmin xmax : Option K) (t : Trend) : Py (Option (Fl K)) :=
  match t, xmin, xmax with
  | .up, some a, _ =>
    match func a with
    | .error _ => .error .value
    | .ok v => .ok (some v)
  | .down, _, some b =>
    match func b with
    | .error _ => .error .value
    | .ok v => .ok (some v)
  | _, _, _ => .ok none

/-- `_auto_ymax`, lines 298-308 -/
def autoYmax (func : K → Py (Fl K)) (xmin xmax : Option K) (t : Trend) : Py (Option (Fl K)) :=
  match t, xmin, xmax with
  | .up, _, some b =>
    match func b with
    | .error _ => .error .value
    | .ok v => .ok (some v)
  | .down, some a, _ =>
    match func a with
    | .error _ => .error .value
    | .ok v => .ok (some v)
  | _, _, _ => .ok none

/-- `x < xmin or (x == xmin and xmin_open)`, line 128 -/
def below (xmin : Option K) (lo : Bool) (x : K) : Bool :=
  match xmin with
  | none => false
  | some a => decide (x < a) || (decide (x ≤ a) && decide (a ≤ x) && lo)

/-- `x > xmax or (x == xmax and xmax_open)`, line 130 -/
def above (xmax : Option K) (ro : Bool) (x : K) : Bool :=
  match xmax with
  | none => false
  | some b => decide (b < x) || (decide (x ≤ b) && decide (b ≤ x) && ro)

/-- `bounded_f`, lines 127-134 -/
def bounded (func : K → Py (Fl K)) (xmin xmax : Option K) (lo ro : Bool) (t : Trend) (x : K) : Py (Fl K) :=
  if below xmin lo x then .ok (-infTrend t)
  else if above xmax ro x then .ok (infTrend t)
  else func x

/-- `==` of floats -/
def feq (a b : Fl K) : Bool := a.le b && b.le a

/-- lines 168-177: whether the end of the domain is the inverse of `y` -/
def atEnd (bf : K → Py (Fl K)) (x : Option K) (y : Fl K) : Py Bool :=
  match x with
  | none => .ok false
  | some x =>
    match bf x with
    | .error e => .error e
    | .ok v => .ok (feq v y)

/-- the square of the distance to `y`, lines 179-180 -/
def objective (bf : K → Py (Fl K)) (y : Fl K) (x : K) : Py (Fl K) :=
  match bf x with
  | .error e => .error e
  | .ok v => .ok ((v - y) * (v - y))

/-- one pass of the loop in lines 167-187: the upper end, the lower end, the solver; an exception of the solver leaves NaN -/
def invOne (solver : (K → Py (Fl K)) → K → K → Py (Fl K)) (bf : K → Py (Fl K)) (xmin xmax : Option K) (refs : K × K) (y : Fl K) :
    Py (Fl K) :=
  match atEnd bf xmax y with
  | .error e => .error e
  | .ok true => .ok (xmax.elim .nan .fin)
  | .ok false =>
    match atEnd bf xmin y with
    | .error e => .error e
    | .ok true => .ok (xmin.elim .nan .fin)
    | .ok false =>
      match solver (objective bf y) refs.1 refs.2 with
      | .error _ => .ok .nan
      | .ok x => .ok x

/-- the loop in lines 167-187 -/
def invAll (one : Fl K → Py (Fl K)) : List (Fl K) → Py (List (Fl K))
  | [] => .ok []
  | y :: ys =>
    match one y with
    | .error e => .error e
    | .ok x =>
      match invAll one ys with
      | .error e => .error e
      | .ok xs => .ok (x :: xs)

/-- lines 145-153: some value is below the image -/
def tooLow (ymin : Option (Fl K)) (lo ro : Bool) (t : Trend) (ys : List (Fl K)) : Bool :=
  match ymin with
  | none => false
  | some m => ys.any fun y => if (lo && t = .up) || (ro && t = .down) then y.le m else y.lt m

/-- lines 154-162: some value is above the image -/
def tooHigh (ymax : Option (Fl K)) (lo ro : Bool) (t : Trend) (ys : List (Fl K)) : Bool :=
  match ymax with
  | none => false
  | some m => ys.any fun y => if (ro && t = .up) || (lo && t = .down) then m.le y else m.lt y

/-- lines 121-122 and 123-124: the limit of the image if it is given, otherwise the computed one -/
def limit (given : Option K) (auto : Py (Option (Fl K))) : Py (Option (Fl K)) :=
  match given with
  | some m => .ok (some (.fin m))
  | none => auto

/-- `inversefunc` without `y_values`, lines 103-203: the callable `inv` -/
def inversefunc (solver : (K → Py (Fl K)) → K → K → Py (Fl K)) (func : K → Py (Fl K)) (domain image : Arg K) (openDomain : Arg Bool) :
    Py (List (Fl K) → Py (List (Fl K))) :=
  match normParams domain image openDomain with
  | .error e => .error e
  | .ok ((xmin, xmax), (imin, imax), (lo, ro)) =>
    match func (refPoints xmin xmax).2 with
    | .error e => .error e
    | .ok v2 =>
      match func (refPoints xmin xmax).1 with
      | .error e => .error e
      | .ok v1 =>
        match sign (v2 - v1) with
        | none => .error .value
        | some t =>
          match limit imin (autoYmin func xmin xmax t) with
          | .error e => .error e
          | .ok ymin =>
            match limit imax (autoYmax func xmin xmax t) with
            | .error e => .error e
            | .ok ymax =>
              .ok fun ys =>
                if tooLow ymin lo ro t ys then .error .value
                else if tooHigh ymax lo ro t ys then .error .value
                else invAll (invOne solver (bounded func xmin xmax lo ro t) xmin xmax (refPoints xmin xmax)) ys

end Sureal.Inverse
