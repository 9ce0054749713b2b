import Verif.Model.Main
import Verif.Model.Plots
import Verif.Model.ScorePlots
/-!
# The command line program with plots (`sureal/__main__.py` lines 40-108, `sureal/routine.py` lines 107-190 and 275-490, `sureal/config.py` lines 34-46)

The program with `--output-dir`, from the options `--plot-...` to the files in the output directory.  `run_subjective_models` draws the plots after the models
have run and before the output is put together.  A figure is the data handed to matplotlib.  Not modelled: failures of matplotlib and of the file system; models for
paired comparisons are a parameter, `pc`.
-/
namespace Sureal.MainPlots
open Sureal Routine Format Main
variable {κ K : Type} [Zero K] [One K] [Add K] [Neg K] [Sub K] [Mul K] [Div K] [NatCast K]
  [LT K] [LE K] [DecidableLT K] [DecidableLE K]

/-- `--plot-raw-data`, `--plot-dis-videos` and `--plot-observers`, __main__.py:32-43 -/
structure Asked where
  rawData : Bool := false
  disVideos : Bool := false
  observers : Bool := false

/-- the words in `do_plot` -/
inductive Plot where
  | rawScores | rawCounts | rawCountsPerSubject | qualityScores | subjectScores

/-- `do_plot` when all models are of opinion scores, __main__.py:74-84; `run_subjective_models` looks for the words in this order, too -/
def doPlot (asked : Asked) : List Plot :=
  (if asked.rawData then [.rawScores, .rawCounts, .rawCountsPerSubject] else []) ++
    (if asked.disVideos then [.qualityScores] else []) ++ (if asked.observers then [.subjectScores] else [])

/-- what a figure shows -/
inductive Figure (κ K : Type) where
  /-- `imshow(mtx)` -/
  | matrix (rows : List (List (Fl K)))
  /-- `scatter(xs, ys, s=vs * 2)` -/
  | counts (points : List (Nat × Fl K × Nat))
  | scores (series : List (ScorePlots.Series K))
  /-- two axes, one above the other -/
  | observers (bias : List (ScorePlots.Series K × Option (List κ))) (inconsistency : List (ScorePlots.Series K))

/-- `observer_bias_ci95`, see `Main.entry` -/
def biasCi (r : Result κ K) : Option (List (Fl K) × List (Fl K)) :=
  r.observerBiasStd.map fun s => (s.map (ci95Factor * ·), s.map (ci95Factor * ·))

variable [MathFn K]

/-- `observer_inconsistency_ci95`, see `Main.entry` -/
def inconsistencyCi (ppf : Fl K → Nat → Fl K) (r : Result κ K) : Option (List (Fl K) × List (Fl K)) :=
  match r.rawScores, r.observerInconsistency, r.observerInconsistencyStd with
  | some x, some v, some _ => some (ObsCi.inconsistencyCi95 ppf x.get fun i => (v[i.val]?).getD .nan)
  | _, _, _ => none

/-- the points of the inconsistencies of one result, routine.py:419-447 -/
def inconsistency (ppf : Fl K → Nat → Fl K) (shift : Nat) (r : Result κ K) : Py (Option (ScorePlots.Series K)) :=
  match r.observerInconsistency with
  | none => .ok none
  | some v =>
    match ScorePlots.series .errorbar shift v (inconsistencyCi ppf r) with
    | .error e => .error e
    | .ok s => .ok (some s)

/-- `shift_count` after a result, routine.py:483-484 -/
def nextShift (shift : Nat) (r : Result κ K) : Nat :=
  if r.observerBias.isSome || r.observerInconsistency.isSome || r.observerRejected.isSome then shift + 1 else shift

/-- the loop in routine.py:377-484, entered with `shift_count = shift`; there are no axes for rejected observers -/
def observersLoop (ppf : Fl K → Nat → Fl K) (shift : Nat) : List (Result κ K) →
    Py (List (ScorePlots.Series K × Option (List κ)) × List (ScorePlots.Series K))
  | [] => .ok ([], [])
  | r :: rs =>
    match ScorePlots.bias .errorbar shift (biasCi r) r with
    | .error e => .error e
    | .ok b =>
      match inconsistency ppf shift r with
      | .error e => .error e
      | .ok v =>
        match observersLoop ppf (nextShift shift r) rs with
        | .error e => .error e
        | .ok (bs, vs) => .ok (b.toList ++ bs, v.toList ++ vs)

variable [DecidableEq K]

/-- one plot, routine.py:107-177 and 275-500: `opinion_score_3darray`, `scores`, is computed again; the order of the scores is not changed (`sort_quality_scores_in_plot` is
not given), the type of the plots is `errorbar` -/
def draw (ppf : Fl K → Nat → Fl K) (scores : Py (Arr3D (Fl K))) (results : List (Result κ K)) : Plot → Py (Figure κ K)
  | .rawScores =>
    match scores with
    | .error e => .error e
    | .ok a => .ok (.matrix (List.ofFn fun i => List.ofFn fun j => Plots.meanMatrix a.get i j))
  | .rawCounts =>
    match scores with
    | .error e => .error e
    | .ok a =>
      match Plots.rawCounts a.get with
      | .error e => .error e
      | .ok d => .ok (.counts d)
  | .rawCountsPerSubject =>
    match scores with
    | .error e => .error e
    | .ok a =>
      match Plots.rawCountsPerSubject a.get with
      | .error e => .error e
      | .ok d => .ok (.counts d)
  | .qualityScores =>
    match ScorePlots.quality (fun l => List.range l.length) false .errorbar results with
    | .error e => .error e
    | .ok ss => .ok (.scores ss)
  | .subjectScores =>
    match observersLoop ppf 0 results with
    | .error e => .error e
    | .ok (b, v) => .ok (.observers b v)

/-- lines 86-94 with plots: the dataset is read, the models run, the figures are drawn, the output is put together -/
def runAll [LinearOrder κ] (ppf : Fl K → Nat → Fl K) (other : ModelClass → Reader κ K → Py (Result κ K)) (path : List Char)
    (readPy readJson : Py (Dataset κ K)) (asked : Asked) (cs : List ModelClass) : Py (Output (String ⊕ κ) (Fl K) × List (Figure κ K)) :=
  match run path readPy readJson rawReader (cs.map (runClass other)) with
  | .error e => .error e
  | .ok reports =>
    match (if ['.', 'p', 'y'].isSuffixOf path then readPy else readJson) with
    | .error e => .error e
    | .ok d =>
      match rawReader d with
      | .error e => .error e
      | .ok rd =>
        match mapPy (draw ppf rd.scores (reports.map (·.result))) (doPlot asked) with
        | .error e => .error e
        | .ok figs =>
          match format observerName (refsOf d) (cs.map fun c => (ModelClass.hierarchy.type c).getD "") (reports.map (resOf ppf)) with
          | .error e => .error e
          | .ok out => .ok (out, figs)

/-- `main`, `sureal/__main__.py` lines 44-94, with plots -/
def main [LinearOrder κ] (ppf : Fl K → Nat → Fl K) (other : ModelClass → Reader κ K → Py (Result κ K))
    (pc : List ModelClass → Py (Output (String ⊕ κ) (Fl K) × List (Figure κ K))) (path : List Char) (readPy readJson : Py (Dataset κ K))
    (asked : Asked) (models : List String) : Py (Output (String ⊕ κ) (Fl K) × List (Figure κ K)) :=
  match known.findAll .SubjectiveModel models with
  | .error e => .error e
  | .ok cs =>
    match chooseReader (inMro .SubjectiveModel) (inMro .PairedCompSubjectiveModel) cs with
    | .error e => .error e
    | .ok .raw => runAll ppf other path readPy readJson asked cs
    | .ok .pairedComp => pc cs

/-- a file of the output directory -/
inductive File (O F : Type) where
  | output (o : O)
  | picture (f : F)
  | foreign (text : String)

/-- the files of a directory by their names -/
abbrev DirOf (O F : Type) := String → Option (File O F)

abbrev Dir (κ K : Type) := DirOf (Output (String ⊕ κ) (Fl K)) (Figure κ K)

variable {O F : Type}

/-- `open(name, 'w')` and writing -/
def DirOf.write (dir : DirOf O F) (name : String) (f : File O F) : DirOf O F := fun n => if n = name then some f else dir n

/-- `DisplayConfig.show(write_to_dir=...)`, config.py:34-44: the open figures have the numbers from `k` on (pyplot counts from 1 and no other figures were
opened); figure number `k` is saved as `str(k) + '.png'` -/
def showFrom (k : Nat) : List F → DirOf O F → DirOf O F
  | [], dir => dir
  | f :: fs, dir => showFrom (k + 1) fs (dir.write (toString k ++ ".png") (.picture f))

/-- lines 97-108 with `--output-dir`: how the program ends (no error: exit code 0) and the directory afterwards -/
def finish (r : Py (O × List F)) (dir : DirOf O F) : Option PyErr × DirOf O F :=
  match r with
  | .error e => (some e, dir)
  | .ok (out, figs) => (none, showFrom 1 figs (dir.write "output.json" (.output out)))

/-- the program with `--output-dir`, lines 44-108 -/
def program [LinearOrder κ] (ppf : Fl K → Nat → Fl K) (other : ModelClass → Reader κ K → Py (Result κ K))
    (pc : List ModelClass → Py (Output (String ⊕ κ) (Fl K) × List (Figure κ K))) (path : List Char) (readPy readJson : Py (Dataset κ K))
    (asked : Asked) (models : List String) (dir : Dir κ K) : Option PyErr × Dir κ K :=
  finish (main ppf other pc path readPy readJson asked models) dir

end Sureal.MainPlots
