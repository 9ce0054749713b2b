import Verif.Model.MosTable
import Mathlib.Data.Rat.Floor
import Mathlib.Data.Nat.Digits.Defs
/-! Specification of tables of votes: identifiers, rating columns and ratings. -/
namespace Sureal.Spec
open MosTable

/-- A processed video sequence: `<db>_<src>_<hrc>`. -/
structure Pvs where
  db : List Char
  src : List Char
  hrc : List Char

/-- `<db>_<src>_<hrc>` -/
def Pvs.text (p : Pvs) : List Char := p.db ++ '_' :: (p.src ++ '_' :: p.hrc)

/-- no underscore in the three parts, no white space at the ends -/
structure Pvs.Ok (p : Pvs) : Prop where
  db : '_' ∉ p.db
  src : '_' ∉ p.src
  hrc : '_' ∉ p.hrc
  start : ∀ c l, p.text = c :: l → c.isWhitespace = false
  stop : ∀ c l, p.text = l ++ [c] → c.isWhitespace = false

/-- the cell is the identifier, perhaps with white space around it -/
def Names (c : Cell) (p : Pvs) : Prop :=
  p.Ok ∧ ∃ a b, c = .text (a ++ p.text ++ b) ∧ (∀ x ∈ a, x.isWhitespace = true) ∧ ∀ x ∈ b, x.isWhitespace = true

/-- the row is about the video -/
def RowOf (t : Table) (row : List Cell) (p : Pvs) : Prop :=
  ∃ (i : ℕ) (c : Cell), t.columns[i]? = some "PVS_ID".toList ∧ row[i]? = some c ∧ Names c p

/-- the first row about the video -/
def FirstRow (t : Table) (row : List Cell) (p : Pvs) : Prop :=
  ∃ pre post, t.rows = pre ++ row :: post ∧ RowOf t row p ∧ ∀ r ∈ pre, ∀ q, RowOf t r q → q.text ≠ p.text

/-- the first number written in the text -/
def NumberIn (s : List Char) (n : ℕ) : Prop :=
  ∃ a d b, s = a ++ d ++ b ∧ (∀ c ∈ a, c.isDigit = false) ∧ d ≠ [] ∧ (∀ c ∈ d, c.isDigit = true) ∧
    (∀ c l, b = c :: l → c.isDigit = false) ∧ n = Nat.ofDigits 10 (d.reverse.map fun c => c.toNat - 48)

/-- the name of a column of ratings begins with `s` or `user`, in capitals or not -/
def ratingColumn (name : List Char) : Bool :=
  match name.map Char.toLower with
  | 's' :: _ => true
  | 'u' :: 's' :: 'e' :: 'r' :: _ => true
  | _ => false

/-- the rating a cell holds, without its fraction -/
inductive Rates (int : List Char → Option Int) : Cell → Int → Prop where
  | up (x : ℚ) (h : 0 ≤ x) : Rates int (.num x) ⌊x⌋
  | down (x : ℚ) (h : x ≤ 0) : Rates int (.num x) ⌈x⌉
  | text (s : List Char) (n : Int) (h : int s = some n) : Rates int (.text s) n

/-- the ratings of a row: for each column of ratings its name and the rating -/
def RowRatings (int : List Char → Option Int) (t : Table) (row : List Cell) (l : List (List Char × Int)) : Prop :=
  List.Forall₂ (fun cv kn => kn.1 = cv.1 ∧ Rates int cv.2 kn.2) ((t.columns.zip row).filter fun cv => ratingColumn cv.1) l

/-- what `pd.read_csv` gives: distinct column names and a cell for each column in every row -/
structure TableWf (t : Table) : Prop where
  names : t.columns.Nodup
  cells : ∀ row ∈ t.rows, row.length = t.columns.length

/-- Tables that can be converted. -/
structure Usable (int : List Char → Option Int) (t : Table) : Prop where
  column : "PVS_ID".toList ∈ t.columns
  ids : ∀ row ∈ t.rows, ∃ p n m, RowOf t row p ∧ NumberIn p.src n ∧ NumberIn p.hrc m
  ratings : ∀ row p, FirstRow t row p → ∃ l, l ≠ [] ∧ RowRatings int t row l

/-- a Python set is iterated without repetition over the elements that were added -/
def SetOrder {α : Type} (iter : List α → List α) : Prop := ∀ l, (iter l).Nodup ∧ ∀ x, x ∈ iter l ↔ x ∈ l

/-- the path of a file in a directory, as `os.path.join` writes it -/
inductive PathIn : List Char → List Char → List Char → Prop where
  | absolute (dir l : List Char) : PathIn dir ('/' :: l) ('/' :: l)
  | here (file : List Char) : PathIn [] file file
  | slash (dir file : List Char) (h : ∀ l, file ≠ '/' :: l) : PathIn (dir ++ ['/']) file (dir ++ '/' :: file)
  | plain (dir file : List Char) (h : ∀ l, file ≠ '/' :: l) (h0 : dir ≠ []) (hd : ∀ l, dir ≠ l ++ ['/']) :
    PathIn dir file (dir ++ '/' :: file)

/-- the video in the dataset made from the table: content and asset ids, file and votes -/
structure VideoOf (int : List Char → Option Int) (t : Table) (dir ext : List Char) (p : Pvs) (dv : DisVideo String ℚ) : Prop where
  content : ∃ n : ℕ, NumberIn p.src n ∧ dv.contentId = n
  asset : ∃ n : ℕ, NumberIn p.hrc n ∧ dv.assetId = n
  path : PathIn dir (p.text ++ ext) dv.path.toList
  votes : ∃ row l, FirstRow t row p ∧ l ≠ [] ∧ RowRatings int t row l ∧
    dv.os = some (.dict (l.map fun kv => (String.ofList kv.1, .one (.fin (kv.2 : ℚ)))))

/-- the reference video of a source -/
structure SourceOf (dir ext src : List Char) (r : RefVideo) : Prop where
  content : ∃ n : ℕ, NumberIn src n ∧ r.contentId = n
  name : r.extra = [("content_name", String.ofList src)]
  path : PathIn dir (src ++ ext) r.path.toList

end Sureal.Spec
