import Verif.Model.Fl
import Mathlib.Data.Int.Log
/-!
# Rounded arithmetic

The other models compute with exact numbers.  `Rd ρ` are the same numbers with the arithmetic of a floating-point processor: every operation is carried out exactly and its result
is rounded by `ρ`.  All model definitions ask for bare operations only, so each of them can be used with `Rd ρ` as it stands: `runMOS` at `Rd ρ` is the program of
subjective_model.py:354-415 with rounding.

`binary64` is the rounding of IEEE-754 double precision (to nearest, ties to even), without underflow and overflow.
-/
namespace Sureal

/-- a number of which the processor knows the value `val`; `ρ` is its rounding -/
@[ext] structure Rd {F : Type} (ρ : F → F) where
  val : F
  deriving DecidableEq

namespace Rd
variable {F : Type} {ρ : F → F}

instance [Zero F] : Zero (Rd ρ) := ⟨⟨0⟩⟩
instance [One F] : One (Rd ρ) := ⟨⟨1⟩⟩
/-- float addition -/
instance [Add F] : Add (Rd ρ) := ⟨fun a b => ⟨ρ (a.val + b.val)⟩⟩
/-- the sign is changed without rounding -/
instance [Neg F] : Neg (Rd ρ) := ⟨fun a => ⟨-a.val⟩⟩
/-- float subtraction -/
instance [Sub F] : Sub (Rd ρ) := ⟨fun a b => ⟨ρ (a.val - b.val)⟩⟩
/-- float multiplication -/
instance [Mul F] : Mul (Rd ρ) := ⟨fun a b => ⟨ρ (a.val * b.val)⟩⟩
/-- float division -/
instance [Div F] : Div (Rd ρ) := ⟨fun a b => ⟨ρ (a.val / b.val)⟩⟩
/-- conversion of an `int` to a `float` -/
instance [NatCast F] : NatCast (Rd ρ) := ⟨fun n => ⟨ρ n⟩⟩
instance [LT F] : LT (Rd ρ) := ⟨fun a b => a.val < b.val⟩
instance [LE F] : LE (Rd ρ) := ⟨fun a b => a.val ≤ b.val⟩
instance [LT F] [DecidableLT F] : DecidableLT (Rd ρ) := fun a b => inferInstanceAs (Decidable (a.val < b.val))
instance [LE F] [DecidableLE F] : DecidableLE (Rd ρ) := fun a b => inferInstanceAs (Decidable (a.val ≤ b.val))
/-- `np.sqrt` is rounded correctly by IEEE-754; so are `np.log` and `np.exp` here, on which no theorem on rounding depends -/
instance [MathFn F] : MathFn (Rd ρ) := ⟨fun a => ⟨ρ (MathFn.sqrt a.val)⟩, fun a => ⟨ρ (MathFn.log a.val)⟩, fun a => ⟨ρ (MathFn.exp a.val)⟩, ⟨ρ MathFn.pi⟩⟩

end Rd

section
variable {F : Type} [Field F] [LinearOrder F] [FloorRing F]

/-- the integer next to `x`; of two equally near, the even one -/
def nearestEven (x : F) : ℤ :=
  let f := ⌊x⌋
  if x - f < 1 / 2 then f
  else if 1 / 2 < x - f then f + 1
  else if f % 2 = 0 then f
  else f + 1

/-- the distance of doubles around `x`: numbers in `[2^e, 2^(e+1))` have the distance `2^(e-52)` -/
def ulp (x : F) : F := 2 ^ (Int.log 2 |x| - 52)

/-- rounding to double precision -/
def binary64 (x : F) : F := nearestEven (x / ulp x) * ulp x

end

/-- how a sum is put together: `np.sum` adds in pairs, in blocks or from the left, depending on the length and the layout in memory -/
inductive SumTree (α : Type) where
  | leaf (x : α)
  | node (l r : SumTree α)

namespace SumTree
variable {α : Type}

/-- the numbers added -/
def leaves : SumTree α → List α
  | leaf x => [x]
  | node l r => l.leaves ++ r.leaves

/-- the sum -/
def eval [Add α] : SumTree α → α
  | leaf x => x
  | node l r => l.eval + r.eval

/-- the number of additions a number takes part in, at most -/
def depth : SumTree α → Nat
  | leaf _ => 0
  | node l r => max l.depth r.depth + 1

end SumTree
end Sureal
