import Verif.Model.Np
/-!
# Names of files (`sureal/tools/misc.py` lines 36-77)

Strings are lists of characters.
-/
namespace Sureal.FileName

/-- `s.split(c)` for a separator of one character -/
def split (c : Char) : List Char → List (List Char)
  | [] => [[]]
  | x :: l =>
    if x = c then [] :: split c l
    else match split c l with
      | [] => [[x]]
      | p :: ps => (x :: p) :: ps

/-- `l[-1]` of a list that is not empty -/
def last : List (List Char) → List Char
  | [] => []
  | [a] => a
  | _ :: l => last l

/-- the position after the last occurrence of `c`: `s.rfind(c) + 1` -/
def rfind1 (c : Char) : List Char → Nat
  | [] => 0
  | x :: l => match rfind1 c l with
    | 0 => if x = c then 1 else 0
    | n + 1 => n + 2

/-- `os.path.splitext`, Python's `genericpath._splitext` with separator '/' and '.': the last dot splits if it comes after the last
separator and the name does not consist of dots up to there -/
def splitext (p : List Char) : List Char × List Char :=
  let sep := rfind1 '/' p
  match rfind1 '.' p with
  | 0 => (p, [])
  | dot + 1 =>
    if sep ≤ dot ∧ (((p.take dot).drop sep).any fun x => x != '.') = true then (p.take dot, p.drop dot) else (p, [])

/-- `get_file_name_with_extension`, misc.py:54-65 -/
def withExtension (path : List Char) : List Char := last (split '/' path)

/-- `get_file_name_without_extension`, misc.py:36-51 -/
def withoutExtension (path : List Char) : List Char := (splitext (last (split '/' path))).1

/-- `get_file_name_extension`, misc.py:68-77 -/
def extension (path : List Char) : List Char := last (split '.' path)

end Sureal.FileName
