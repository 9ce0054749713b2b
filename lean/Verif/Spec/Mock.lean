import Verif.Spec.PcArr
import Mathlib.Algebra.Order.Field.Basic
/-! # Specification vocabulary for the mocked readers -/
namespace Sureal.Spec
variable {K : Type}

/-- The smallest and the largest vote of an array. -/
def VoteRange [LE K] (a : Arr3D (Fl K)) (lo hi : K) : Prop :=
  (∃ e s r, cell a e s r = some (.fin lo)) ∧ (∃ e s r, cell a e s r = some (.fin hi)) ∧
    ∀ e s r x, cell a e s r = some (.fin x) → lo ≤ x ∧ x ≤ hi

/-- Every cell of the array is a number or missing (no infinity). -/
def VotesOrMissing (a : Arr3D (Fl K)) : Prop :=
  ∀ e s r v, cell a e s r = some v → v = .nan ∨ ∃ x, v = .fin x

/-- Video `e` is hit by corruption: always without a probability, else if its own draw is below the probability. -/
def Hit [LT K] (p : Option K) (u : ℕ → K) (off e : ℕ) : Prop := ∀ q, p = some q → u (off + e) < q

/-- The draws used for one subject to choose the videos. -/
def drawsPerSubject (p : Option K) (E : ℕ) : ℕ := if p.isSome then E else 0

/-- A vote mirrored in the middle of the range; a missing vote stays missing. -/
def mirror [Add K] [Sub K] (lo hi : K) : Fl K → Fl K
  | .fin x => .fin (hi + lo - x)
  | _ => .nan

/-- The score given by the behaviours that overwrite votes: the smallest, middle or largest vote, or a point of the range
chosen by the draw `u`. -/
def level [Add K] [Sub K] [Mul K] [Div K] [OfNat K 2] (b : String) (lo hi u : K) : K :=
  if b = "min" then lo else if b = "mid" then (lo + hi) / 2 else if b = "max" then hi else lo + (hi - lo) * u

/-- Draws made to choose the score (only `constant` draws it). -/
def scoreDraws (b : String) : ℕ := if b = "constant" then 1 else 0

/-- The noise of a video's own ambiguity: nothing without `quality_ambiguity`, else draw times ambiguity. -/
def ambiguityNoise [Zero K] [Mul K] (phi : Option (List K)) (draw : K) (e : ℕ) : K :=
  match phi with
  | none => 0
  | some l => draw * l.getD e 0

end Sureal.Spec
