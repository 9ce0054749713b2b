import Mathlib.Data.Nat.Notation
/-!
# Specification vocabulary: plain text
-/
namespace Sureal.Spec

/-- a printable character of ASCII, from the blank to the tilde -/
def PrintableAscii (c : Char) : Prop := 32 ≤ c.toNat ∧ c.toNat ≤ 126

/-- text in lines of printable ASCII: every character is printable or ends a line -/
def PlainText (t : List Char) : Prop := ∀ c ∈ t, c = '\n' ∨ PrintableAscii c

end Sureal.Spec
