import Verif.Model.Main
import Verif.Model.Ls
import Verif.Model.JsonOut
/-!
# The end of the program: what is printed, and what is in `output.json` afterwards (`sureal/__main__.py` lines 44-108)

The program for all models of opinion scores, also least squares (`pinv` is `scipy.linalg.pinv`) and PERSUBJECT, whose scores are two-dimensional arrays, which
`json` refuses.  `json.dump` writes piece by piece, so the pieces before the array are in the file when the error is raised.  Not modelled: failures of the
file system, and `DisplayConfig.show` (the program is run without `--plot-...`, so that there is nothing to show).
-/
namespace Sureal.Written
open Sureal Routine Format JsonOut Main
variable {κ K : Type} [Zero K] [One K] [Add K] [Neg K] [Sub K] [Mul K] [Div K] [NatCast K]
  [LT K] [LE K] [DecidableLT K] [DecidableLE K] [MathFn K]

/-- an entry of the output: a number, or an array -/
inductive Obj (K : Type) where
  | float (x : Fl K)
  | array (rows : List (List (Fl K)))

/-- what `run_modeling` returns: a result with a list of scores, or (PERSUBJECT) with the array of all scores -/
inductive Answer (κ K : Type) where
  | usual (r : Result κ K)
  | array (a : Arr3D (Fl K)) (observers : Option (List κ))

/-- `PerSubjectModel(reader).run_modeling()`, subjective_model.py:63-76, 1340-1346 -/
def runPerSubject (rd : Reader κ K) : Py (Answer κ K) :=
  match preprocess rd {} with
  | .error e => .error e
  | .ok p =>
    match rd.observers with
    | .ok obs => .ok (.array p.arr (some obs))
    | .error .assertion => .ok (.array p.arr none)
    | .error .attribute => .ok (.array p.arr none)
    | .error e => .error e

/-- least squares; the other classes that `Main.runClass` leaves to a parameter are not offered by the program as models of opinion scores -/
def leastSquares (pinv : Pinv K) (c : ModelClass) (rd : Reader κ K) : Py (Result κ K) :=
  match c with
  | .LeastSquaresModel => runLS pinv rd {}
  | _ => .error .type

/-- `Class(reader).run_modeling()`, routine.py:90-96 -/
def answer (pinv : Pinv K) (c : ModelClass) (rd : Reader κ K) : Py (Answer κ K) :=
  match c with
  | .PerSubjectModel => runPerSubject rd
  | c => match runClass (leastSquares (@pinv)) c rd with
    | .error e => .error e
    | .ok r => .ok (.usual r)

/-- entries of a result with numbers only -/
def floats : Val (Fl K) → Val (Obj K)
  | .none => .none
  | .num x => .num (.float x)
  | .seq l => .seq (l.map .float)
  | .rows l => .rows (l.map (·.map .float))

/-- `os_3darray[e]`, `num_subjects × num_repetitions` -/
def slice (a : Arr3D (Fl K)) (e : Fin a.E) : List (List (Fl K)) := List.ofFn fun s => List.ofFn fun r => a.get e s r

/-- an answer with the names added in routine.py:98-105, as `format_output_of_run_subjective_models` sees it -/
def named (ppf : Fl K → Nat → Fl K) (rd : Reader κ K) : Answer κ K → Py (Res (String ⊕ κ) (Obj K))
  | .usual r =>
    match report rd r with
    | .error e => .error e
    | .ok rep => .ok { disVideoNames := (resOf ppf rep).disVideoNames, observers := (resOf ppf rep).observers,
                       data := fun k => ((resOf ppf rep).data k).map floats }
  | .array a obs => .ok { disVideoNames := some ((rd.disVideos.map (·.path)).map .inl), observers := obs.map (·.map .inr),
                          data := fun k => if k = "quality_scores" then some (.seq (List.ofFn fun e => .array (slice a e))) else none }

/-- lines 86-94 -/
def output [LinearOrder κ] (ppf : Fl K → Nat → Fl K) (pinv : Pinv K) (path : List Char) (readPy readJson : Py (Dataset κ K)) (cs : List ModelClass) :
    Py (Output (String ⊕ κ) (Obj K)) :=
  match (if ['.', 'p', 'y'].isSuffixOf path then readPy else if ['.', 'j', 's', 'o', 'n'].isSuffixOf path then readJson else .error .assertion) with
  | .error e => .error e
  | .ok d =>
    match rawReader d with
    | .error e => .error e
    | .ok rd =>
      match mapPy (fun c => answer (@pinv) c rd) cs with
      | .error e => .error e
      | .ok answers =>
        match mapPy (named ppf rd) answers with
        | .error e => .error e
        | .ok rs => format observerName (refsOf d) (cs.map fun c => (ModelClass.hierarchy.type c).getD "") rs

/-- lines 44-94, for models of opinion scores (with other models the program goes on as in `Model/MainPc`, or stops) -/
def scores [LinearOrder κ] (ppf : Fl K → Nat → Fl K) (pinv : Pinv K) (path : List Char) (readPy readJson : Py (Dataset κ K)) (models : List String) :
    Py (Output (String ⊕ κ) (Obj K)) :=
  match known.findAll .SubjectiveModel models with
  | .error e => .error e
  | .ok cs =>
    match chooseReader (inMro .SubjectiveModel) (inMro .PairedCompSubjectiveModel) cs with
    | .error e => .error e
    | .ok .raw => output ppf (@pinv) path readPy readJson cs
    | .ok .pairedComp => .error .type

/-! ## writing -/

/-- pieces written, and whether writing went on to the end -/
abbrev Piece := List Char × Bool

/-- one piece after the other, until one fails -/
def after (p q : Piece) : Piece := if p.2 then (p.1 ++ q.1, q.2) else p

/-- the items of a list or dictionary after the first one -/
def rest (level : Nat) : List Piece → Piece
  | [] => ([], true)
  | p :: l => after (',' :: newline level, true) (after p (rest level l))

/-- the items of a list or dictionary between brackets -/
def enclosed (o c : Char) (level : Nat) : List Piece → Piece
  | [] => ([o, c], true)
  | p :: l => after (o :: newline (level + 1), true) (after p (after (rest (level + 1) l) (newline level ++ [c], true)))

mutual
/-- `_iterencode(o, level)`; `default` raises `TypeError` for an array -/
def write (repr : K → List Char) (level : Nat) : Doc (Obj K) → Piece
  | .null => (['n', 'u', 'l', 'l'], true)
  | .bool true => (['t', 'r', 'u', 'e'], true)
  | .bool false => (['f', 'a', 'l', 's', 'e'], true)
  | .num (.float x) => (encNum repr x, true)
  | .num (.array _) => ([], false)
  | .str s => (encStr s, true)
  | .arr l => enclosed '[' ']' level (writeItems repr (level + 1) l)
  | .obj l => enclosed '{' '}' level (writeMembers repr (level + 1) l)
/-- the items of a list -/
def writeItems (repr : K → List Char) (level : Nat) : List (Doc (Obj K)) → List Piece
  | [] => []
  | t :: l => write repr level t :: writeItems repr level l
/-- the items of a dictionary -/
def writeMembers (repr : K → List Char) (level : Nat) : List (List Char × Doc (Obj K)) → List Piece
  | [] => []
  | (k, t) :: l => after (encStr k ++ [':', ' '], true) (write repr level t) :: writeMembers repr level l
end

/-- how the program ends: the error it ends with, what was printed, and the text in `output.json` -/
structure Ending where
  error : Option PyErr
  printed : List Char
  file : Option (List Char)

/-- lines 97-100: `json.dumps` makes the whole text before it is printed -/
def ending (name : ν → String) (repr : K → List Char) (before : Option (List Char)) : Py (Output ν (Obj K)) → Ending
  | .error e => ⟨some e, [], before⟩
  | .ok out =>
    let w := write repr 0 (tree name out)
    if w.2 then ⟨none, w.1 ++ ['\n'], before⟩ else ⟨some .type, [], before⟩

/-- lines 101-106: `open(..., 'w')` empties the file, `json.dump` writes the pieces; `said` is what is printed in the end -/
def endingDir (name : ν → String) (repr : K → List Char) (said : List Char) (before : Option (List Char)) : Py (Output ν (Obj K)) → Ending
  | .error e => ⟨some e, [], before⟩
  | .ok out =>
    let w := write repr 0 (tree name out)
    if w.2 then ⟨none, said, some w.1⟩ else ⟨some .type, [], some w.1⟩

end Sureal.Written
