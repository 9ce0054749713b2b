import Verif.Model.Demo
import Verif.Model.Dataset
/-!
# Reading votes from a CSV file (`itur_bt500_demo/demo_bt500.py` lines 10-45, `itut_p910_demo/demo_p910.py` lines 10-24)

A text is a list of characters, with line ends already translated to `'\n'` by `open(..., 'rt')`.  `csv.reader` is modelled for
texts without quotation marks.  `float s` is the number numpy reads in the string `s`, `none` where that is a ValueError.
-/
namespace Sureal.Csv
variable {K : Type}

/-- `s.split(c)` -/
def split (c : Char) : List Char → List (List Char)
  | [] => [[]]
  | x :: l =>
    if x = c then [] :: split c l
    else
      match split c l with
      | [] => [[x]]
      | p :: ps => (x :: p) :: ps

/-- the lines of a file, without their line ends -/
def lines (text : List Char) : List (List Char) :=
  let ps := split '\n' text
  if ps.getLast? = some [] then ps.dropLast else ps

/-- one row of `csv.reader(datafile, delimiter=',')`; an empty line is an empty row -/
def fields (line : List Char) : List (List Char) := if line = [] then [] else split ',' line

/-- the rows of `csv.reader(datafile, delimiter=',')` -/
def rows (text : List Char) : List (List (List Char)) := (lines text).map fields

/-- `np.array(row, dtype=np.float64)` -/
def parseRow (float : List Char → Option (Fl K)) (row : List (List Char)) : Py (List (Fl K)) :=
  mapPy (fun s => match float s with | some x => .ok x | none => .error .value) row

/-- the loop over the rows, demo_bt500.py:33-39; `data` and `done` are `data` and `data3dlist` -/
def blocks (float : List Char → Option (Fl K)) :
    List (List (List Char)) → List (List (Fl K)) → List (List (List (Fl K))) → Py (List (List (List (Fl K))))
  | [], data, done => .ok (done ++ [data])
  | row :: l, data, done =>
    if row ≠ [[], []] then
      match parseRow float row with
      | .error e => .error e
      | .ok v => blocks float l (data ++ [v]) done
    else blocks float l [] (done ++ [data])

/-- the value `data3d[:, :, r] = mat` writes: `mat` becomes an array (ValueError if the rows have different lengths) and is
broadcast to the shape `E`, `S` (ValueError if it does not fit; `[]` is an array of shape `(0,)`) -/
def broadcast [Zero K] (E S : Nat) (mat : List (List (Fl K))) : Py (Nat → Nat → Fl K) :=
  match mat with
  | [] => if S = 0 then .ok (fun _ _ => 0) else .error .value
  | row :: rest =>
    if rest.all (fun r => r.length == row.length) then
      if (mat.length = E ∨ mat.length = 1) ∧ (row.length = S ∨ row.length = 1) then
        .ok fun e s => (((mat[if mat.length = 1 then 0 else e]?).getD [])[if row.length = 1 then 0 else s]?).getD 0
      else .error .value
    else .error .value

/-- `read_csv_into_3darray`, demo_bt500.py:10-45 -/
def read3 [Zero K] (float : List Char → Option (Fl K)) (text : List Char) : Py (Arr3D (Fl K)) :=
  match blocks float (rows text) [] [] with
  | .error e => .error e
  | .ok bs =>
    match bs with
    | (row :: rest) :: _ =>
      let E := (row :: rest).length
      let S := row.length
      match mapPy (broadcast E S) bs with
      | .error e => .error e
      | .ok ms => .ok ⟨E, S, bs.length, fun e s r => ((ms[r.val]?).getD fun _ _ => 0) e.val s.val⟩
    | _ => .error .index

/-- `read_csv_into_2darray`, demo_p910.py:10-24; an empty file gives an array of shape `(0,)`, on which the caller raises
ValueError (`J, I = o_ji.shape`) -/
def read2 (float : List Char → Option (Fl K)) (text : List Char) : Py (List (List (Fl K))) :=
  match rows text with
  | [] => .error .value
  | row :: rest =>
    if rest.all (fun r => r.length == row.length) then mapPy (parseRow float) (row :: rest) else .error .value

variable [Zero K] [One K] [Add K] [Neg K] [Sub K] [Mul K] [Div K] [NatCast K]
  [LT K] [LE K] [DecidableLT K] [DecidableLE K] [MathFn K]

/-- `demo_bt500.py --input-csv`, lines 222-239 -/
def bt500 (float : List Char → Option (Fl K)) (text : List Char) : Py (DemoResult K) :=
  match read3 float text with
  | .error e => .error e
  | .ok a => Bt500Demo.run a.get

/-- `demo_p910.py --input-csv`, lines 162-179, and `demo.py --input-csv` -/
def p910 (float : List Char → Option (Fl K)) (text : List Char) : Py (DemoResult K) :=
  match read2 float text with
  | .error e => .error e
  | .ok m => P910Demo.run (J := m.length) (I := (m.head?.getD []).length) fun j i => (((m[j.val]?).getD [])[i.val]?).getD 0

end Sureal.Csv
