import Verif.Spec.PcArr
/-! Specification of CSV files of votes. -/
namespace Sureal.Spec

/-- the lists one after the other, with `sep` between them -/
def joinBy {α : Type} (sep : List α) : List (List α) → List α
  | [] => []
  | [x] => x
  | x :: y :: l => x ++ sep ++ joinBy sep (y :: l)

/-- A file holding matrices of cells: one line per row, the cells separated by commas, and between two matrices a line that holds
a single comma. -/
def csvText (mats : List (List (List (List Char)))) : List Char :=
  (joinBy [[[], []]] mats).flatMap fun row => joinBy [','] row ++ ['\n']

/-- the file with or without the line end of its last line -/
def IsCsv (mats : List (List (List (List Char)))) (text : List Char) : Prop :=
  text = csvText mats ∨ text ++ ['\n'] = csvText mats

/-- every row has a cell, and every cell is the text of a number -/
def AllNumbers {K : Type} (float : List Char → Option (Fl K)) (mats : List (List (List (List Char)))) : Prop :=
  ∀ m ∈ mats, ∀ row ∈ m, row ≠ [] ∧ ∀ c ∈ row, (∃ x, float c = some x) ∧ ',' ∉ c ∧ '\n' ∉ c

/-- `E` rows of `S` cells -/
def HasShape {α : Type} (E S : ℕ) (m : List (List α)) : Prop := m.length = E ∧ ∀ row ∈ m, row.length = S

end Sureal.Spec
