import Verif.Model.Format
import Verif.Model.RunModels
import Verif.Model.ModelClasses
import Verif.Model.ObsCi
import Verif.Model.Mle
import Verif.Model.Legacy
/-!
# The command line program (`sureal/__main__.py` lines 15-107)

From the values of `--dataset` and `--models` to the object that is written as JSON.  Not modelled: the parsing of the arguments by
`argparse`, the plots, and the files.  `ppf` is `chi2.ppf`.  The models of this development are run by their definitions, the other ones (least
squares, PERSUBJECT) are the parameter `other`; models for paired comparisons are the parameter `pc`.
-/
namespace Sureal.Main
open Sureal Routine Format
variable {κ K : Type} [Zero K] [One K] [Add K] [Neg K] [Sub K] [Mul K] [Div K] [NatCast K]
  [LT K] [LE K] [DecidableLT K] [DecidableLE K] [MathFn K]

/-- two lists of bounds as an entry of a result -/
def bounds (p : List (Fl K) × List (Fl K)) : Val (Fl K) := .rows [p.1, p.2]

/-- `1.95996 * std` twice, subjective_model.py:1113-1114, 1128 and 1555-1556 -/
def halfWidths (std : List (Fl K)) : Val (Fl K) := .rows [std.map (ci95Factor * ·), std.map (ci95Factor * ·)]

/-- `observer_inconsistency_ci95`, subjective_model.py:1118-1121 and 1559-1562, from the entries of a result -/
def inconsistencyBounds (ppf : Fl K → Nat → Fl K) (r : Result κ K) : Option (Val (Fl K)) :=
  match r.rawScores, r.observerInconsistency, r.observerInconsistencyStd with
  | some x, some v, some _ => some (bounds (ObsCi.inconsistencyCi95 ppf x.get fun i => (v[i.val]?).getD .nan))
  | _, _, _ => none

/-- the entries of a result `format_output_of_run_subjective_models` looks at; a class that reports standard deviations of the
observers or contents also reports the intervals -/
def entry (ppf : Fl K → Nat → Fl K) (r : Result κ K) (k : String) : Option (Val (Fl K)) :=
  if k = "quality_scores" then some (.seq r.qualityScores)
  else if k = "quality_scores_std" then r.qualityScoresStd.map .seq
  else if k = "quality_scores_ci95" then r.qualityScoresCi95.map bounds
  else if k = "observer_bias" then r.observerBias.map .seq
  else if k = "observer_bias_std" then r.observerBiasStd.map .seq
  else if k = "observer_bias_ci95" then r.observerBiasStd.map halfWidths
  else if k = "observer_inconsistency" then r.observerInconsistency.map .seq
  else if k = "observer_inconsistency_std" then r.observerInconsistencyStd.map .seq
  else if k = "observer_inconsistency_ci95" then inconsistencyBounds ppf r
  else if k = "observer_scores_mean" then r.observerScoresMean.map .seq
  else if k = "observer_scores_std" then r.observerScoresStd.map .seq
  else if k = "content_ambiguity" then r.contentAmbiguity.map .seq
  else if k = "content_ambiguity_std" then r.contentAmbiguityStd.map .seq
  else if k = "content_ambiguity_ci95" then r.contentAmbiguityStd.map halfWidths
  else if k = "aic" then r.aic.map .num
  else if k = "bic" then r.bic.map .num
  else none

/-- a report as `format_output_of_run_subjective_models` sees it; names are strings (paths, contents, default names) or keys of
observers -/
def resOf (ppf : Fl K → Nat → Fl K) (r : Report κ K) : Res (String ⊕ κ) (Fl K) where
  disVideoNames := some (r.disVideoNames.map .inl)
  observers := r.result.observers.map (·.map .inr)
  data := entry ppf r.result

/-- `content_id` and `content_name` of the reference videos, routine.py:645-648 -/
def refsOf (d : Dataset κ K) : List (Int × Option (String ⊕ κ)) :=
  d.refVideos.map fun r => (r.contentId, (r.extra.lookup "content_name").map .inl)

/-- `f'observer{o}'`, routine.py:626 -/
def observerName (o : Nat) : String ⊕ κ := .inl ("observer" ++ toString o)

/-- the classes the program knows: lines 7-12 import `sureal.pc_subjective_model` and `sureal.subjective_model`, and thereby the package, but not
`sureal.experimental` -/
def known : Classes ModelClass String := ModelClass.imported [.subjectiveModel, .pcSubjectiveModel, .package]

/-- whether `top` is in `c.__mro__`, __main__.py:57-62 -/
def inMro (top c : ModelClass) : Bool := decide (c = top) || (ModelClass.hierarchy.subclasses top).contains c

/-- `Class(reader).run_modeling()`: the models without options, __main__.py:86-91 and routine.py:90-96 -/
def runClass (other : ModelClass → Reader κ K → Py (Result κ K)) (c : ModelClass) (rd : Reader κ K) : Py (Result κ K) :=
  match c with
  | .MosModel => runMOS rd {}
  | .DmosModel => runDMOS rd {}
  | .LiveDmosModel => runLIVE_DMOS rd {}
  | .SubjrejMosModel => runSR_MOS rd {}
  | .SubjrejMosModelPearson => runSR_MOS_PCC rd {}
  | .SubjrejMosModelSpearman => runSR_MOS_SRCC rd {}
  | .ZscoringMosModel => runZS_MOS rd {}
  | .ZscoringSubjrejMosModel => runZS_SR_MOS rd {}
  | .SubjrejDmosModel => runSR_DMOS rd {}
  | .ZscoringSubjrejDmosModel => runZS_SR_DMOS rd {}
  | .BiasremvMosModel => runBR_MOS rd {}
  | .BiasremvSubjrejMosModel => runBR_SR_MOS rd {}
  | .BiasremvSubjrejMosModelPearson => runBR_SR_MOS_PCC rd {}
  | .BiasremvSubjrejMosModelSpearman => runBR_SR_MOS_SRCC rd {}
  | .BT500Model => runSR_MOS rd {}
  | .P913124Model => runBR_SR_MOS rd {}
  | .SubjectMLEModelProjectionSolver => runAP rd {}
  | .MaximumLikelihoodEstimationModelContentObliviousAlternativeProjection => runAP rd {}
  | .SubjectMLEModelProjectionSolver2 => runAP2 rd {}
  | .MaximumLikelihoodEstimationModelContentObliviousAlternativeProjection2 => runAP2 rd {}
  | .P910AnnexEModel => runAP2 rd {}
  | .MaximumLikelihoodEstimationModel => runMLE rd {}
  | .MaximumLikelihoodEstimationModelContentOblivious => runMLE_CO rd {}
  | .MaximumLikelihoodEstimationModelSubjectOblivious => runMLE_SO rd {}
  | .MaximumLikelihoodEstimationDmosModel => runDMOS_MLE rd {}
  | .MaximumLikelihoodEstimationDmosModelContentOblivious => runDMOS_MLE_CO rd {}
  | .LegacyMaximumLikelihoodEstimationModel => runLegacy rd {}
  | c => other c rd

/-- lines 86-94 for raw scores: the dataset is read, the models run, the output put together -/
def runAll [LinearOrder κ] (ppf : Fl K → Nat → Fl K) (other : ModelClass → Reader κ K → Py (Result κ K)) (path : List Char)
    (readPy readJson : Py (Dataset κ K)) (cs : List ModelClass) : Py (Output (String ⊕ κ) (Fl K)) :=
  match run path readPy readJson rawReader (cs.map (runClass other)) with
  | .error e => .error e
  | .ok reports =>
    match (if ['.', 'p', 'y'].isSuffixOf path then readPy else readJson) with
    | .error e => .error e
    | .ok d => format observerName (refsOf d) (cs.map fun c => (ModelClass.hierarchy.type c).getD "") (reports.map (resOf ppf))

/-- `main`, `sureal/__main__.py` lines 44-94 -/
def main [LinearOrder κ] (ppf : Fl K → Nat → Fl K) (other : ModelClass → Reader κ K → Py (Result κ K))
    (pc : List ModelClass → Py (Output (String ⊕ κ) (Fl K))) (path : List Char) (readPy readJson : Py (Dataset κ K))
    (models : List String) : Py (Output (String ⊕ κ) (Fl K)) :=
  match known.findAll .SubjectiveModel models with
  | .error e => .error e
  | .ok cs =>
    match chooseReader (inMro .SubjectiveModel) (inMro .PairedCompSubjectiveModel) cs with
    | .error e => .error e
    | .ok .raw => runAll ppf other path readPy readJson cs
    | .ok .pairedComp => pc cs

end Sureal.Main
