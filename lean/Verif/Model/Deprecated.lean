import Verif.Model.Main
/-!
# The deprecated command line program (`sureal/cmd_deprecated.py`)

From `sys.argv` to the exit code, to what `--print` prints and to what is written to `sureal.json`.  Dictionaries that become JSON objects are functions
of the key; their order (`sort_keys`) and the layout are not modelled.  Not modelled either: the text on the screen, the plots (only which ones are
asked for), and what the file system does.  As in `Model/Main`, `ppf` is `chi2.ppf` and the models without a definition here are the parameter `other`.
-/
namespace Sureal.Deprecated
open Sureal Routine Format
variable {κ K : Type} [Zero K] [One K] [Add K] [Neg K] [Sub K] [Mul K] [Div K] [NatCast K]
  [LT K] [LE K] [DecidableLT K] [DecidableLE K] [MathFn K]

/-- a value in the dictionary of a result.  The first five are Python lists, the next three numpy arrays. -/
inductive Entry (κ K : Type) where
  | nums (l : List (Fl K))
  | rows (l : List (List (Fl K)))
  | flags (l : List Bool)
  | keys (l : List κ)
  | strings (l : List String)
  | array (l : List (Fl K))
  | flagArray (l : List Bool)
  | array3 (a : Arr3D (Fl K))
  | num (x : Fl K)
  | int (n : Nat)
  | stats (s : RecStats K)

/-- `isinstance(v, list)` -/
def Entry.isList : Entry κ K → Bool
  | .nums _ | .rows _ | .flags _ | .keys _ | .strings _ => true
  | _ => false

/-- whether `json.dump` knows how to write the value; numpy's `float64` is a Python `float` -/
def Entry.serializable : Entry κ K → Bool
  | .array _ | .flagArray _ | .array3 _ => false
  | _ => true

/-- the options of lines 54-61, as far as the models look at them -/
def opts : Opts K := { normalizeFinal := some (some false) }

/-- the same for the maximum likelihood models -/
def mleOpts : Mle.Opts K := { base := opts, gradientMethod := some "simplified" }

/-- `Class(reader).run_modeling(normalize_final=False, plot_type='errorbar', gradient_method='simplified')` -/
def runClass (other : ModelClass → Reader κ K → Py (Result κ K)) (c : ModelClass) (rd : Reader κ K) : Py (Result κ K) :=
  match c with
  | .MosModel => runMOS rd opts
  | .DmosModel => runDMOS rd opts
  | .LiveDmosModel => runLIVE_DMOS rd opts
  | .SubjrejMosModel => runSR_MOS rd opts
  | .SubjrejMosModelPearson => runSR_MOS_PCC rd opts
  | .SubjrejMosModelSpearman => runSR_MOS_SRCC rd opts
  | .ZscoringMosModel => runZS_MOS rd opts
  | .ZscoringSubjrejMosModel => runZS_SR_MOS rd opts
  | .SubjrejDmosModel => runSR_DMOS rd opts
  | .ZscoringSubjrejDmosModel => runZS_SR_DMOS rd opts
  | .BiasremvMosModel => runBR_MOS rd opts
  | .BiasremvSubjrejMosModel => runBR_SR_MOS rd opts
  | .BiasremvSubjrejMosModelPearson => runBR_SR_MOS_PCC rd opts
  | .BiasremvSubjrejMosModelSpearman => runBR_SR_MOS_SRCC rd opts
  | .BT500Model => runSR_MOS rd opts
  | .P913124Model => runBR_SR_MOS rd opts
  | .SubjectMLEModelProjectionSolver => runAP rd opts
  | .MaximumLikelihoodEstimationModelContentObliviousAlternativeProjection => runAP rd opts
  | .SubjectMLEModelProjectionSolver2 => runAP2 rd opts
  | .MaximumLikelihoodEstimationModelContentObliviousAlternativeProjection2 => runAP2 rd opts
  | .P910AnnexEModel => runAP2 rd opts
  | .MaximumLikelihoodEstimationModel => runMLE rd mleOpts
  | .MaximumLikelihoodEstimationModelContentOblivious => runMLE_CO rd mleOpts
  | .MaximumLikelihoodEstimationModelSubjectOblivious => runMLE_SO rd mleOpts
  | .MaximumLikelihoodEstimationDmosModel => runDMOS_MLE rd mleOpts
  | .MaximumLikelihoodEstimationDmosModelContentOblivious => runDMOS_MLE_CO rd mleOpts
  | .LegacyMaximumLikelihoodEstimationModel => runLegacy rd { base := opts }
  | c => other c rd

/-- the classes whose `quality_scores` are a numpy array: subjective_model.py:477-481 and 1344-1345 (three-dimensional, flattened here) -/
def scoresAreArray (c : ModelClass) : Bool := c == .LiveDmosModel || c == .PerSubjectModel

/-- the classes that reject by correlation, whose flags and statistics are numpy arrays: subjective_model.py:304-306 -/
def rejectionIsArray (c : ModelClass) : Bool :=
  c == .SubjrejMosModelPearson || c == .SubjrejMosModelSpearman || c == .BiasremvSubjrejMosModelPearson || c == .BiasremvSubjrejMosModelSpearman

/-- a value `Main.entry` gives -/
def ofVal : Val (Fl K) → Option (Entry κ K)
  | .none => none
  | .num x => some (.num x)
  | .seq l => some (.nums l)
  | .rows l => some (.rows l)

/-- `results[0]`: the entries of subjective_model.py:383-410, 1098-1156, 1549-1586, 364-373, 1374-1383, and of routine.py:98-105 -/
def dict (ppf : Fl K → Nat → Fl K) (c : ModelClass) (r : Report κ K) (k : String) : Option (Entry κ K) :=
  if k = "quality_scores" then some (if scoresAreArray c then .array r.result.qualityScores else .nums r.result.qualityScores)
  else if k = "quality_ambiguity" then r.result.qualityAmbiguity.map .nums
  else if k = "raw_scores" then r.result.rawScores.map .array3
  else if k = "reconstructions" then r.result.reconstructions.map .array3
  else if k = "dof" then r.result.dof.map .num
  else if k = "loglikelihood" then r.result.loglikelihood.map .num
  else if k = "num_iter" then r.result.numIter.map .int
  else if k = "observers" then r.result.observers.map .keys
  else if k = "observer_rejected" then r.result.observerRejected.map fun l => if rejectionIsArray c then .flagArray l else .flags l
  else if k = "observer_rejected_1st_stats" then r.result.observerRejectedStats1.map fun l => if rejectionIsArray c then .array l else .nums l
  else if k = "observer_rejected_2nd_stats" then r.result.observerRejectedStats2.map fun l => if rejectionIsArray c then .array l else .nums l
  else if k = "dis_video_names" then some (.strings r.disVideoNames)
  else if k = "reconstruction_stats" then r.stats.map .stats
  else (Main.entry ppf r.result k).bind ofVal

/-- `{k: list(v) for k, v in results[0].items() if isinstance(v, list)}`, line 67 -/
def printed (d : String → Option (Entry κ K)) (k : String) : Option (Entry κ K) := (d k).filter Entry.isList

/-- a value in `sureal.json` -/
inductive Written (κ K : Type) where
  | value (e : Entry κ K)
  /-- the string `'<not serializable>'` -/
  | notSerializable

/-- `json.dump(results[0], out_f, default=lambda o: '<not serializable>')`, lines 77-79 -/
def written (d : String → Option (Entry κ K)) (k : String) : Option (Written κ K) :=
  (d k).map fun e => if e.serializable then .value e else .notSerializable

/-- what the program does -/
inductive Outcome (κ K : Type) where
  /-- prints the usage and returns 2 -/
  | usage
  /-- prints the error of `find_subclass` and returns 1 -/
  | noModel
  /-- returns 0; with the plots asked for, what was printed, and the directory with the content of its file -/
  | done (plots : List String) (print : Option (String → Option (Entry κ K))) (file : Option (String × (String → Option (Written κ K))))

/-- lines 38-42 -/
def plots (model : String) : List String :=
  let p := ["raw_scores", "quality_scores"]
  let p := if ["MLE", "MLE_CO", "MLE_CO_AP", "MLE_CO_AP2", "DMOS_MLE", "DMOS_MLE_CO"].contains model then p ++ ["subject_scores"] else p
  if ["MLE", "DMOS_MLE"].contains model then p ++ ["content_scores"] else p

/-- the classes known to this program: it imports `sureal.subjective_model`, and thereby the package, only -/
def known : Classes ModelClass String := ModelClass.imported [.subjectiveModel, .package]

/-- `main`, lines 23-80.  `sys.argv[1]` and `sys.argv[2]` exist after the first test. -/
def main [LinearOrder κ] (ppf : Fl K → Nat → Fl K) (other : ModelClass → Reader κ K → Py (Result κ K))
    (readPy readJson : Py (Dataset κ K)) (argv : List String) : Py (Outcome κ K) :=
  match argv with
  | _ :: model :: path :: _ =>
    match getCmdOption argv 3 argv.length "--output-dir" with
    | .error e => .error e
    | .ok dir =>
      match cmdOptionExists argv 3 argv.length "--print" with
      | .error e => .error e
      | .ok print =>
        match known.find .SubjectiveModel model with
        | .error _ => .ok .noModel
        | .ok c =>
          match Routine.run path.toList readPy readJson rawReader [runClass other c] with
          | .error e => .error e
          | .ok [] => .error .index
          | .ok (r :: _) =>
            let d := dict ppf c r
            .ok (.done (plots model) (if print then some (Deprecated.printed d) else none) (dir.map fun p => (p, written d)))
  | _ => .ok .usage

end Sureal.Deprecated
