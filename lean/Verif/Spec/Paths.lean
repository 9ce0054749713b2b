import Mathlib.Data.List.Basic
/-!
# Specification vocabulary: where a path leads
-/
namespace Sureal.Spec

/-- the directories and files of a computer as the places one gets to: `enter d n` is the place that the name `n` has in `d`, whether it is there, a link to
another place, `.` or `..` -/
structure Places (δ : Type) where
  top : δ
  enter : δ → List Char → δ

/-- the names in a path -/
def namesIn (p : List Char) : List (List Char) := (p.splitOn '/').filter fun n => n ≠ []

/-- where the path leads from the place `cur` -/
def Places.goTo {δ : Type} (fs : Places δ) (cur : δ) (p : List Char) : δ :=
  (namesIn p).foldl fs.enter (if p.head? = some '/' then fs.top else cur)

/-- directories without links: a place is the list of the names from the top -/
def treePlaces : Places (List (List Char)) where
  top := []
  enter d n := if n = ['.'] then d else if n = ['.', '.'] then d.dropLast else d ++ [n]

/-- a name of a file or directory that is not `.` or `..` -/
def PlainName (n : List Char) : Prop := n ≠ [] ∧ '/' ∉ n ∧ n ≠ ['.'] ∧ n ≠ ['.', '.']

/-- the path does not begin at the top and does not go up -/
def Downward (p : List Char) : Prop := p.head? ≠ some '/' ∧ ['.', '.'] ∉ namesIn p

end Sureal.Spec
