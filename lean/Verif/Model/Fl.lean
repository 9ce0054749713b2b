import Mathlib.Data.Nat.Cast.Defs
import Mathlib.Analysis.SpecialFunctions.Sqrt
import Mathlib.Analysis.SpecialFunctions.Trigonometric.Basic
import Mathlib.Analysis.SpecialFunctions.Log.Basic
/-!
# Floating point values without rounding

`Fl K` models the values a Python/numpy `float64` can take, with exact arithmetic in `K` for finite
values and the IEEE-754 rules for NaN and the infinities.  Rounding, overflow and the sign of zero are
not modelled (a zero divisor counts as `+0`).

The operations are defined for any `K` with bare (lawless) operations, so that the same definitions can
be evaluated on `Float` and reasoned about on a linearly ordered field.
-/
namespace Sureal

/-- A numpy `float64` value: NaN, the two infinities, or a finite number. -/
inductive Fl (K : Type) where
  | nan
  | pinf
  | ninf
  | fin (x : K)
  deriving DecidableEq, Repr

/-- The elementary functions used through numpy (`np.sqrt`, `np.log`, `np.exp`) on finite arguments. -/
class MathFn (K : Type) where
  sqrt : K → K
  log : K → K
  exp : K → K
  pi : K

noncomputable instance : MathFn ℝ where
  sqrt := Real.sqrt
  log := Real.log
  exp := Real.exp
  pi := Real.pi

namespace Fl
variable {K : Type} [Zero K] [One K] [Add K] [Neg K] [Sub K] [Mul K] [Div K] [NatCast K]
  [LT K] [LE K] [DecidableLT K] [DecidableLE K]

/-- `np.isnan(x)` -/
def isNan : Fl K → Bool
  | nan => true
  | _ => false

/-- `np.isfinite(x)` -/
def isFinite : Fl K → Bool
  | fin _ => true
  | _ => false

/-- float addition -/
protected def add : Fl K → Fl K → Fl K
  | fin a, fin b => fin (a + b)
  | nan, _ => nan
  | _, nan => nan
  | pinf, ninf => nan
  | ninf, pinf => nan
  | pinf, _ => pinf
  | _, pinf => pinf
  | ninf, _ => ninf
  | _, ninf => ninf

/-- float negation -/
protected def neg : Fl K → Fl K
  | fin a => fin (-a)
  | nan => nan
  | pinf => ninf
  | ninf => pinf

/-- float subtraction -/
protected def sub : Fl K → Fl K → Fl K
  | fin a, fin b => fin (a - b)
  | a, b => Fl.add a (Fl.neg b)

/-- `inf * b` for finite `b` -/
def infMul (pos : Bool) (b : K) : Fl K :=
  if (0 : K) < b then (if pos then pinf else ninf)
  else if b < (0 : K) then (if pos then ninf else pinf)
  else nan

/-- float multiplication -/
protected def mul : Fl K → Fl K → Fl K
  | fin a, fin b => fin (a * b)
  | nan, _ => nan
  | _, nan => nan
  | pinf, fin b => infMul true b
  | ninf, fin b => infMul false b
  | fin a, pinf => infMul true a
  | fin a, ninf => infMul false a
  | pinf, pinf => pinf
  | ninf, ninf => pinf
  | _, _ => ninf

/-- float division; division by zero gives NaN or an infinity of the sign of the dividend -/
protected def div : Fl K → Fl K → Fl K
  | fin a, fin b =>
      if (0 : K) < b ∨ b < (0 : K) then fin (a / b)
      else if (0 : K) < a then pinf
      else if a < (0 : K) then ninf
      else nan
  | nan, _ => nan
  | _, nan => nan
  | fin _, _ => fin 0
  | pinf, fin b => if b < (0 : K) then ninf else pinf
  | ninf, fin b => if b < (0 : K) then pinf else ninf
  | _, _ => nan

instance : Zero (Fl K) := ⟨fin 0⟩
instance : One (Fl K) := ⟨fin 1⟩
instance : Add (Fl K) := ⟨Fl.add⟩
instance : Neg (Fl K) := ⟨Fl.neg⟩
instance : Sub (Fl K) := ⟨Fl.sub⟩
instance : Mul (Fl K) := ⟨Fl.mul⟩
instance : Div (Fl K) := ⟨Fl.div⟩
instance : NatCast (Fl K) := ⟨fun n => fin (n : K)⟩
instance : Inhabited (Fl K) := ⟨nan⟩

/-- `a < b` (false if either is NaN) -/
def lt : Fl K → Fl K → Bool
  | fin a, fin b => decide (a < b)
  | nan, _ => false
  | _, nan => false
  | ninf, ninf => false
  | ninf, _ => true
  | fin _, pinf => true
  | _, _ => false

/-- `a <= b` (false if either is NaN) -/
def le : Fl K → Fl K → Bool
  | fin a, fin b => decide (a ≤ b)
  | nan, _ => false
  | _, nan => false
  | ninf, _ => true
  | _, pinf => true
  | _, _ => false

/-- `np.maximum(a, b)`: NaN if either argument is NaN -/
def maximum (a b : Fl K) : Fl K :=
  if a.isNan then nan else if b.isNan then nan else if a.le b then b else a

/-- `x ** 2` -/
def sq (x : Fl K) : Fl K := x * x

/-- `abs(x)` -/
def abs : Fl K → Fl K
  | fin a => if a < (0 : K) then fin (-a) else fin a
  | nan => nan
  | _ => pinf

/-- `np.sqrt(x)`: NaN for negative arguments -/
def sqrt [MathFn K] : Fl K → Fl K
  | fin a => if a < (0 : K) then nan else fin (MathFn.sqrt a)
  | pinf => pinf
  | _ => nan

/-- `np.log(x)`: `-inf` at 0, NaN for negative arguments -/
def log [MathFn K] : Fl K → Fl K
  | fin a => if (0 : K) < a then fin (MathFn.log a) else if a < (0 : K) then nan else ninf
  | pinf => pinf
  | _ => nan

/-- `np.exp(x)` -/
def exp [MathFn K] : Fl K → Fl K
  | fin a => fin (MathFn.exp a)
  | pinf => pinf
  | ninf => fin 0
  | nan => nan

/-- the literal `n / 10^k` written as a fraction, e.g. `0.05 = dec 5 100` -/
def dec (n d : Nat) : Fl K := fin ((n : K) / (d : K))

/-- The finite value, if it is one. -/
def val? : Fl K → Option K
  | fin a => some a
  | _ => none

end Fl

/-- Exceptions raised by the modelled code. -/
inductive PyErr where
  | assertion | key | index | type | value | attribute | notImplemented | zeroDivision | os | json | name
  | systemExit
  deriving DecidableEq, Repr

/-- A Python computation that may raise. -/
abbrev Py (α : Type) := Except PyErr α

/-- `assert c` -/
def pyAssert (c : Bool) : Py Unit := if c then .ok () else .error .assertion

end Sureal
