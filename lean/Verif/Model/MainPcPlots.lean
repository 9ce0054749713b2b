import Verif.Model.MainPc
import Verif.Model.MainPlots
/-!
# The command line program with models for paired comparisons and plots

`sureal/__main__.py` lines 44-108 and `sureal/routine.py` lines 83-126 and 275-500 when all models are for paired comparisons: `Model/MainPc` with the plots of
`Model/MainPlots`.  The picture of the raw scores is drawn from the array of the paired comparisons, whose second axis are videos and whose third axis
are the observers.  Not modelled: failures of matplotlib and of the file system.
-/
namespace Sureal.MainPcPlots
open Sureal Format PcReader MainPc MainPlots
variable {K : Type} [Zero K] [One K] [Add K] [Neg K] [Sub K] [Mul K] [Div K] [NatCast K]
  [LT K] [LE K] [DecidableLT K] [DecidableLE K] [MathFn K] [DecidableEq K]

/-- `do_plot` when all models are for paired comparisons, __main__.py:76-85: no counts -/
def doPlot (asked : Asked) : List Plot :=
  (if asked.rawData then [.rawScores] else []) ++
    (if asked.disVideos then [.qualityScores] else []) ++ (if asked.observers then [.subjectScores] else [])

/-- a result as the plots see it: scores and intervals, nothing on observers -/
def asResult (o : PcOut K) : Result String K where
  qualityScores := o.scores
  qualityScoresCi95 := match o.ci95 with | some (.rows [l, u]) => some (l, u) | _ => none

/-- routine.py:107-500 -/
def drawAll (ppf : Fl K → Nat → Fl K) (rd : PcRd String K) (os : List (PcOut K)) (asked : Asked) : Py (List (Figure String K)) :=
  mapPy (draw ppf rd.scores (os.map asResult)) (doPlot asked)

/-- lines 87-95 of `__main__.py`: the dataset is read, the models run, the figures are drawn, the output is put together -/
inductive Program (ppf : Fl K → Nat → Fl K) (L : Lib K) (path : List Char) (readPy : Py (Dataset (String × Int) K)) (readJson : Py (Dataset String K))
    (asked : Asked) (cs : List ModelClass) : Py (Output String (Fl K) × List (Figure String K)) → Prop
  | unread {e} (h : read path readPy readJson = .error e) : Program ppf L path readPy readJson asked cs (.error e)
  | fail {rd e} (h : read path readPy readJson = .ok rd) (hr : RunEach L rd cs (.error e)) : Program ppf L path readPy readJson asked cs (.error e)
  | undrawn {rd os e} (h : read path readPy readJson = .ok rd) (hr : RunEach L rd cs (.ok os)) (hd : drawAll ppf rd os asked = .error e) :
      Program ppf L path readPy readJson asked cs (.error e)
  | unwritten {rd os figs e} (h : read path readPy readJson = .ok rd) (hr : RunEach L rd cs (.ok os)) (hd : drawAll ppf rd os asked = .ok figs)
      (hf : format observerName (refsOf rd.dataset) (cs.map fun c => (ModelClass.hierarchy.type c).getD "") (os.map (resOf rd)) = .error e) :
      Program ppf L path readPy readJson asked cs (.error e)
  | done {rd os figs out} (h : read path readPy readJson = .ok rd) (hr : RunEach L rd cs (.ok os)) (hd : drawAll ppf rd os asked = .ok figs)
      (hf : format observerName (refsOf rd.dataset) (cs.map fun c => (ModelClass.hierarchy.type c).getD "") (os.map (resOf rd)) = .ok out) :
      Program ppf L path readPy readJson asked cs (.ok (out, figs))

/-- `main`, `__main__.py` lines 44-95, unless it takes the reader for opinion scores -/
inductive Main (ppf : Fl K → Nat → Fl K) (L : Lib K) (path : List Char) (readPy : Py (Dataset (String × Int) K)) (readJson : Py (Dataset String K))
    (asked : Asked) (models : List String) : Py (Output String (Fl K) × List (Figure String K)) → Prop
  | unknown {e} (h : Main.known.findAll .SubjectiveModel models = .error e) : Main ppf L path readPy readJson asked models (.error e)
  | refused {cs e} (h : Main.known.findAll .SubjectiveModel models = .ok cs)
      (hc : chooseReader (Main.inMro .SubjectiveModel) (Main.inMro .PairedCompSubjectiveModel) cs = .error e) :
      Main ppf L path readPy readJson asked models (.error e)
  | run {cs r} (h : Main.known.findAll .SubjectiveModel models = .ok cs)
      (hc : chooseReader (Main.inMro .SubjectiveModel) (Main.inMro .PairedCompSubjectiveModel) cs = .ok .pairedComp)
      (hr : Program ppf L path readPy readJson asked cs r) : Main ppf L path readPy readJson asked models r

/-- lines 44-108 with `--output-dir`: `Run … dir (e, after)` if the program, started with the directory `dir`, ends with error `e` or well, and leaves `after` -/
inductive Run (ppf : Fl K → Nat → Fl K) (L : Lib K) (path : List Char) (readPy : Py (Dataset (String × Int) K)) (readJson : Py (Dataset String K))
    (asked : Asked) (models : List String) (dir : DirOf (Output String (Fl K)) (Figure String K)) :
    Option PyErr × DirOf (Output String (Fl K)) (Figure String K) → Prop
  | mk {r} (h : Main ppf L path readPy readJson asked models r) : Run ppf L path readPy readJson asked models dir (finish r dir)

end Sureal.MainPcPlots
