import Verif.Model.Bt
import Verif.Model.Main
/-!
# The command line program with models for paired comparisons

`sureal/__main__.py` lines 44-94 and `sureal/routine.py` lines 83-105 when all models are for paired comparisons; `Model/Main` leaves this part as a
parameter.  A loop of a Bradley-Terry model need not end (`Model/Bt`), so the program is a relation.  A file in JSON cannot hold tuples as keys: what
is read from it is a dataset whose keys are strings.  Not modelled: the plots, and what the models print on the screen.
-/
namespace Sureal.MainPc
open Sureal Format PcReader
variable {K : Type} [Zero K] [One K] [Add K] [Neg K] [Sub K] [Mul K] [Div K] [NatCast K]
  [LT K] [LE K] [DecidableLT K] [DecidableLE K] [MathFn K]

/-- the functions of numpy and scipy the models call: `np.linalg.pinv`, `scipy.linalg.pinv`, `norm.cdf`, `norm.pdf`, `minimize` -/
structure Lib (K : Type) where
  npPinv : (k : Nat) → Arr2 (Fl K) k k → Py (Arr2 (Fl K) k k)
  scPinv : (k : Nat) → Arr2 (Fl K) k k → Py (Arr2 (Fl K) k k)
  cdf : Fl K → Fl K
  pdf : Fl K → Fl K
  minimize : (k : Nat) → (Arr1 (Fl K) k → Fl K) → Arr1 (Fl K) k → Bool × Arr1 (Fl K) k

/-- the entries of a result that are looked at later -/
structure PcOut (K : Type) where
  scores : List (Fl K)
  std : Val (Fl K)
  ci95 : Option (Val (Fl K))

/-- `[list(1.95996 * std), list(1.95996 * std)]`, pc_subjective_model.py:198, 313 -/
def ciOf {M : Nat} (std : Arr1 (Fl K) M) : Val (Fl K) :=
  .rows [List.ofFn fun i => ci95Factor * std i, List.ofFn fun i => ci95Factor * std i]

/-- `Class._run_modeling(reader)` without options on the array of the reader: pc_subjective_model.py:105-179, 189-202, 294-321.  For `BT_NR`
without a video `np.zeros([nmo, n])` raises ValueError (line 128). -/
inductive RunOn (L : Lib K) (a : Arr3D (Fl K)) : ModelClass → Py (PcOut K) → Prop
  | notSquare {c e} (h : Bt.winMatrix a = .error e) : RunOn L a c (.error e)
  | mle {m r} (h : Bt.winMatrix a = .ok m) (hr : Bt.Resolve L.npPinv none m.get (.ok r)) :
      RunOn L a .BradleyTerryMlePairedCompSubjectiveModel (.ok ⟨List.ofFn r.v, .seq (List.ofFn r.stdV), some (ciOf r.stdV)⟩)
  | mleFail {m e} (h : Bt.winMatrix a = .ok m) (hr : Bt.Resolve L.npPinv none m.get (.error e)) :
      RunOn L a .BradleyTerryMlePairedCompSubjectiveModel (.error e)
  | nrEmpty {m} (h : Bt.winMatrix a = .ok m) (h0 : m.M = 0) :
      RunOn L a .BradleyTerryNewtonRaphsonPairedCompSubjectiveModel (.error .value)
  | nr {n} {wm : Arr2 (Fl K) (n + 1) (n + 1)} {g} (h : Bt.winMatrix a = .ok ⟨n + 1, wm⟩) (hr : Bt.NrRun L.scPinv none wm (.ok g)) :
      RunOn L a .BradleyTerryNewtonRaphsonPairedCompSubjectiveModel (.ok ⟨List.ofFn g, .none, none⟩)
  | nrFail {n} {wm : Arr2 (Fl K) (n + 1) (n + 1)} {e} (h : Bt.winMatrix a = .ok ⟨n + 1, wm⟩) (hr : Bt.NrRun L.scPinv none wm (.error e)) :
      RunOn L a .BradleyTerryNewtonRaphsonPairedCompSubjectiveModel (.error e)
  | th {m r} (h : Bt.winMatrix a = .ok m) (hr : Bt.thResolve L.cdf L.pdf L.minimize L.npPinv none m.get = .ok r) :
      RunOn L a .ThurstoneMlePairedCompSubjectiveModel (.ok ⟨List.ofFn r.v, .seq (List.ofFn r.std), some (ciOf r.std)⟩)
  | thFail {m e} (h : Bt.winMatrix a = .ok m) (hr : Bt.thResolve L.cdf L.pdf L.minimize L.npPinv none m.get = .error e) :
      RunOn L a .ThurstoneMlePairedCompSubjectiveModel (.error e)

/-- `[s.run_modeling(**kwargs) for s in subjective_models]`, routine.py:94-96: the models one after the other, up to the first exception -/
inductive RunEach (L : Lib K) (rd : PcRd String K) : List ModelClass → Py (List (PcOut K)) → Prop
  | nil : RunEach L rd [] (.ok [])
  | unreadable {c cs e} (h : rd.scores = .error e) : RunEach L rd (c :: cs) (.error e)
  | fail {c cs a e} (h : rd.scores = .ok a) (hr : RunOn L a c (.error e)) : RunEach L rd (c :: cs) (.error e)
  | later {c cs a o e} (h : rd.scores = .ok a) (hr : RunOn L a c (.ok o)) (hs : RunEach L rd cs (.error e)) : RunEach L rd (c :: cs) (.error e)
  | next {c cs a o os} (h : rd.scores = .ok a) (hr : RunOn L a c (.ok o)) (hs : RunEach L rd cs (.ok os)) : RunEach L rd (c :: cs) (.ok (o :: os))

/-- `assert isinstance(key[0], str)` and `assert isinstance(key[1], int)` for a key that is a string, dataset_reader.py:1010-1011 -/
def stringKey (k : String) : PyErr := if k.toList.length < 2 then .index else .assertion

/-- lines 1005-1013 of dataset_reader.py for one of `n` videos read from JSON -/
def jsonVideo (n : Nat) (dv : DisVideo String K) : Py (DisVideo (String × Int) K) :=
  match dv.os with
  | some (.dict []) =>
    if 0 ≤ dv.assetId ∧ dv.assetId < n then
      .ok ⟨dv.contentId, dv.assetId, dv.path, some (.dict []), dv.groundtruth, dv.groundtruthStd, dv.extra⟩
    else .error .assertion
  | some (.dict (p :: _)) => .error (stringKey p.1)
  | _ => .error .assertion

/-- `PairedCompDatasetReader(dataset)` for a dataset read from JSON, dataset_reader.py:998-1014 -/
def jsonReader (d : Dataset String K) : Py (PcRd String K) :=
  match assertRaw d with
  | .error e => .error e
  | .ok () =>
    match mapPy (jsonVideo d.disVideos.length) d.disVideos with
    | .error e => .error e
    | .ok vs => .ok ⟨⟨d.refVideos, vs, d.refScore, d.datasetName, d.attrs⟩, pcScores vs, pcObservers vs⟩

/-- routine.py:83-90 with the reader for paired comparisons -/
def read (path : List Char) (readPy : Py (Dataset (String × Int) K)) (readJson : Py (Dataset String K)) : Py (PcRd String K) :=
  if ['.', 'p', 'y'].isSuffixOf path then
    match readPy with
    | .error e => .error e
    | .ok d => pcReader d
  else if ['.', 'j', 's', 'o', 'n'].isSuffixOf path then
    match readJson with
    | .error e => .error e
    | .ok d => jsonReader d
  else .error .assertion

/-- a result as `format_output_of_run_subjective_models` sees it; `observers` comes from subjective_model.py:66-72, the names from routine.py:98-100 -/
def resOf (rd : PcRd String K) (o : PcOut K) : Res String (Fl K) where
  disVideoNames := some (rd.dataset.disVideos.map (·.path))
  observers := match rd.observers with | .ok l => some l | .error _ => none
  data := fun k =>
    if k = "quality_scores" then some (.seq o.scores)
    else if k = "quality_scores_std" then some o.std
    else if k = "quality_scores_ci95" then o.ci95
    else none

/-- `f'observer{o}'`, routine.py:626 -/
def observerName (o : Nat) : String := "observer" ++ toString o

/-- `content_id` and `content_name` of the reference videos, routine.py:645-648 -/
def refsOf (d : Dataset (String × Int) K) : List (Int × Option String) := d.refVideos.map fun r => (r.contentId, r.extra.lookup "content_name")

/-- lines 86-94 of `__main__.py` with the reader for paired comparisons -/
inductive Program (L : Lib K) (path : List Char) (readPy : Py (Dataset (String × Int) K)) (readJson : Py (Dataset String K))
    (cs : List ModelClass) : Py (Output String (Fl K)) → Prop
  | unread {e} (h : read path readPy readJson = .error e) : Program L path readPy readJson cs (.error e)
  | fail {rd e} (h : read path readPy readJson = .ok rd) (hr : RunEach L rd cs (.error e)) : Program L path readPy readJson cs (.error e)
  | done {rd os} (h : read path readPy readJson = .ok rd) (hr : RunEach L rd cs (.ok os)) :
      Program L path readPy readJson cs (format observerName (refsOf rd.dataset) (cs.map fun c => (ModelClass.hierarchy.type c).getD "") (os.map (resOf rd)))

/-- `main`, `__main__.py` lines 44-94, unless it takes the reader for opinion scores -/
inductive Main (L : Lib K) (path : List Char) (readPy : Py (Dataset (String × Int) K)) (readJson : Py (Dataset String K))
    (models : List String) : Py (Output String (Fl K)) → Prop
  | unknown {e} (h : Main.known.findAll .SubjectiveModel models = .error e) : Main L path readPy readJson models (.error e)
  | refused {cs e} (h : Main.known.findAll .SubjectiveModel models = .ok cs)
      (hc : chooseReader (Main.inMro .SubjectiveModel) (Main.inMro .PairedCompSubjectiveModel) cs = .error e) : Main L path readPy readJson models (.error e)
  | run {cs r} (h : Main.known.findAll .SubjectiveModel models = .ok cs)
      (hc : chooseReader (Main.inMro .SubjectiveModel) (Main.inMro .PairedCompSubjectiveModel) cs = .ok .pairedComp)
      (hr : Program L path readPy readJson cs r) : Main L path readPy readJson models r

end Sureal.MainPc
