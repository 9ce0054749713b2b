import Verif.Model.Csv
import Mathlib.Data.Rat.Defs
/-!
# From a table of votes to a dataset (`resource/util/mos_to_sureal.py`)

The table is what `pd.read_csv` makes of the file: named columns (pandas makes the names distinct) and rows with one cell for each
column.  A cell is a number, NaN (an empty cell) or a text; infinite numbers are not modelled.  `int s` is the integer Python
reads in the text `s`, `none` where that is a ValueError.  `iter l` is the order in which a Python set made by adding the elements
of `l` is iterated.  Letters, digits and white space are the ASCII ones.  The printed JSON object is given as the dataset that
`sureal` reads from it.
-/
namespace Sureal.MosTable

/-- A cell of the table. -/
inductive Cell where
  | num (x : ℚ)
  | nan
  | text (s : List Char)
  deriving DecidableEq

/-- The table, mos_to_sureal.py:82-83. -/
structure Table where
  columns : List (List Char)
  rows : List (List Cell)

/-- the options of `convert_file`, mos_to_sureal.py:72-81; `name` is the name of the file without directory and extension -/
structure Args where
  name : String
  yuvFmt : String := "yuv420p"
  width : String := "0"
  height : String := "0"
  refScore : Fl ℚ := .fin 5
  refDir : List Char := []
  disDir : List Char := []
  ext : List Char := ['.', 'y', 'u', 'v']

/-- the name of the column of identifiers -/
def pvsColumn : List Char := ['P', 'V', 'S', '_', 'I', 'D']

/-- `s.strip()` -/
def strip (s : List Char) : List Char :=
  ((s.dropWhile Char.isWhitespace).reverse.dropWhile Char.isWhitespace).reverse

/-- `get_ids_from_pvs`, mos_to_sureal.py:45-52, without the database; a cell that is not a text has no `strip` -/
def getIds (c : Cell) : Py (List Char × List Char × List Char) :=
  match c with
  | .text s =>
    let p := strip s
    match Csv.split '_' p with
    | [_, src, hrc] => .ok (p, src, hrc)
    | _ => .error .systemExit
  | _ => .error .attribute

/-- `key.lower()` -/
def lower (s : List Char) : List Char := s.map Char.toLower

/-- `int(val)`, which cuts off the fraction -/
def toInt (int : List Char → Option Int) : Cell → Py Int
  | .num x => .ok (x.num.tdiv x.den)
  | .nan => .error .value
  | .text s => match int s with | some n => .ok n | none => .error .value

/-- `extract_scores_from_record`, mos_to_sureal.py:55-71, on the items of the record -/
def extract (int : List Char → Option Int) : List (List Char × Cell) → Py (List (List Char × Int))
  | [] => .ok []
  | (key, val) :: l =>
    if lower key ∈ ["pvs_id".toList, "mos".toList, "ci".toList, "n".toList] then extract int l
    else if ¬ (["user".toList, "s".toList, "subject".toList].any fun s => s.isPrefixOf (lower key)) then extract int l
    else
      match toInt int val with
      | .error e => .error e
      | .ok n =>
        match extract int l with
        | .error e => .error e
        | .ok r => .ok ((key, n) :: r)

/-- `record[key]` -/
def field (t : Table) (row : List Cell) (key : List Char) : Py Cell :=
  match (t.columns.zip row).lookup key with
  | some c => .ok c
  | none => .error .key

/-- the value of a digit -/
def digit (c : Char) : Nat := c.toNat - '0'.toNat

/-- `int(re.search(r"\d+", s).group(0))`; without a digit `re.search` gives None, which has no `group` -/
def firstNumber (s : List Char) : Py Int :=
  let d := (s.dropWhile fun c => !c.isDigit).takeWhile Char.isDigit
  if d = [] then .error .attribute else .ok ((d.foldl (fun a c => 10 * a + digit c) 0 : Nat) : Int)

/-- `os.path.join(dir, file)` -/
def join (dir file : List Char) : List Char :=
  if file.head? = some '/' then file
  else if dir = [] then file
  else if dir.getLast? = some '/' then dir ++ file
  else dir ++ '/' :: file

/-- the loop over the records that looks for an identifier, mos_to_sureal.py:126-133 -/
def findRatings (int : List Char → Option Int) (t : Table) (pvs : List Char) :
    List (List Cell) → Py (Option (List (List Char × Int)))
  | [] => .ok none
  | row :: rest =>
    match field t row pvsColumn with
    | .error e => .error e
    | .ok c =>
      match getIds c with
      | .error e => .error e
      | .ok (id, _, _) =>
        if pvs = id then
          match extract int (t.columns.zip row) with
          | .error e => .error e
          | .ok r => .ok (some r)
        else findRatings int t pvs rest

/-- an entry of `ref_videos`, mos_to_sureal.py:112-118 -/
def refVideo (a : Args) (src : List Char) : Py RefVideo :=
  match firstNumber src with
  | .error e => .error e
  | .ok n => .ok ⟨n, String.ofList (join a.refDir (src ++ a.ext)), [("content_name", String.ofList src)]⟩

/-- an entry of `dis_videos`, mos_to_sureal.py:122-146 -/
def disVideo (int : List Char → Option Int) (a : Args) (t : Table) (pvs : List Char) : Py (DisVideo String ℚ) :=
  match getIds (.text pvs) with
  | .error e => .error e
  | .ok (id, src, hrc) =>
    match findRatings int t id t.rows with
    | .error e => .error e
    | .ok none => .error .systemExit
    | .ok (some []) => .error .systemExit
    | .ok (some r) =>
      match firstNumber src with
      | .error e => .error e
      | .ok c =>
        match firstNumber hrc with
        | .error e => .error e
        | .ok n =>
          .ok { contentId := c, assetId := n, path := String.ofList (join a.disDir (id ++ a.ext))
                os := some (.dict (r.map fun kv => (String.ofList kv.1, .one (.fin (kv.2 : ℚ))))) }

/-- `convert_file`, mos_to_sureal.py:72-148 -/
def convert (int : List Char → Option Int) (iter : List (List Char) → List (List Char)) (a : Args) (t : Table) :
    Py (Dataset String ℚ) :=
  if pvsColumn ∈ t.columns then
    match mapPy (fun row => match field t row pvsColumn with | .error e => .error e | .ok c => getIds c) t.rows with
    | .error e => .error e
    | .ok ids =>
      match mapPy (refVideo a) (iter (ids.map (·.2.1))) with
      | .error e => .error e
      | .ok refs =>
        match mapPy (disVideo int a t) (iter (ids.map (·.1))) with
        | .error e => .error e
        | .ok diss =>
          .ok { refVideos := refs, disVideos := diss, refScore := some (some a.refScore), datasetName := some a.name
                attrs := [("yuv_fmt", a.yuvFmt), ("width", a.width), ("height", a.height), ("ref_dir", ""), ("dis_dir", "")] }
  else .error .systemExit

end Sureal.MosTable
