import Verif.Model.Preproc
/-!
# The MOS family of models (subjective_model.py:48-97, 316-441, 444-481, 1193-1446)
-/
namespace Sureal
variable {κ K : Type} [Zero K] [One K] [Add K] [Neg K] [Sub K] [Mul K] [Div K] [NatCast K]
  [LT K] [LE K] [DecidableLT K] [DecidableLE K] [MathFn K]

/-- `vectorized_gaussian(x, loc, scale)` for one cell, tools/stats.py:16-21 -/
def gaussian (x loc scale : Fl K) : Fl K :=
  1 / (((2 : Nat) : Fl K) * .fin MathFn.pi).sqrt / scale *
    (-((x - loc).sq) / (((2 : Nat) : Fl K) * scale.sq)).exp

/-- The result dictionary of a subjective model.  A key that a model does not set is `none`.
Simplification: numpy arrays and lists are both lists here. -/
structure Result (κ K : Type) where
  qualityScores : List (Fl K)
  qualityScoresStd : Option (List (Fl K)) := none
  qualityScoresCi95 : Option (List (Fl K) × List (Fl K)) := none
  qualityAmbiguity : Option (List (Fl K)) := none
  rawScores : Option (Arr3D (Fl K)) := none
  reconstructions : Option (Arr3D (Fl K)) := none
  dof : Option (Fl K) := none
  loglikelihood : Option (Fl K) := none
  aic : Option (Fl K) := none
  bic : Option (Fl K) := none
  observerRejected : Option (List Bool) := none
  observerRejectedStats1 : Option (List (Fl K)) := none
  observerRejectedStats2 : Option (List (Fl K)) := none
  observerBias : Option (List (Fl K)) := none
  observerBiasStd : Option (List (Fl K)) := none
  observerInconsistency : Option (List (Fl K)) := none
  observerInconsistencyStd : Option (List (Fl K)) := none
  observerScoresMean : Option (List (Fl K)) := none
  observerScoresStd : Option (List (Fl K)) := none
  contentBias : Option (List (Fl K)) := none
  contentBiasStd : Option (List (Fl K)) := none
  contentAmbiguity : Option (List (Fl K)) := none
  contentAmbiguityStd : Option (List (Fl K)) := none
  numIter : Option Nat := none
  observers : Option (List κ) := none

/-- `1.95996` -/
def ci95Factor : Fl K := Fl.dec 195996 100000

/-- `MosModel._get_mos_and_stats`, subjective_model.py:376-412; `dofFn` is `cls._get_dof` -/
def mosAndStats (dofFn : Nat → Nat → Nat → Nat) (a orig : Arr3D (Fl K)) : Result κ K :=
  let mos : Arr1 (Fl K) a.E := meanAlongS a.get
  let std : Arr1 (Fl K) a.E := fun e => Np.nanstd 1 (rowL (stack1 a.get) e)
  let mosStd : Arr1 (Fl K) a.E := fun e =>
    std e / (((Np.countNotNan (rowL (stack1 a.get) e) : Nat)) : Fl K).sqrt
  let numOs := Np.countNotNan (ravel3 a.get)
  let origNumOs := Np.countNotNan (ravel3 orig.get)
  let dof : Fl K := ((dofFn orig.E orig.S orig.R : Nat) : Fl K) / ((origNumOs : Nat) : Fl K)
  let ll : Fl K := Np.nansum (ravel3 fun e s r => (gaussian (a.get e s r) (mos e) (std e)).log) / ((numOs : Nat) : Fl K)
  { qualityScores := List.ofFn mos
    qualityScoresStd := some (List.ofFn mosStd)
    qualityScoresCi95 := some (List.ofFn fun e => ci95Factor * mosStd e, List.ofFn fun e => ci95Factor * mosStd e)
    qualityAmbiguity := some (List.ofFn std)
    rawScores := some a
    reconstructions := some { a with get := fun e _ _ => mos e }
    dof := some dof
    loglikelihood := some ll
    aic := some (((2 : Nat) : Fl K) * dof - ((2 : Nat) : Fl K) * ll)
    bic := some ((((origNumOs : Nat) : Fl K)).log * dof - ((2 : Nat) : Fl K) * ll) }

/-- adding the rejection report, subjective_model.py:367-372 -/
def Result.withRejection (res : Result κ K) (rej : Option (Rejection K)) : Result κ K :=
  match rej with
  | none => res
  | some r => { res with
      observerRejected := some r.rejected
      observerRejectedStats1 := some r.stats1
      observerRejectedStats2 := some r.stats2 }

/-- `MosModel._run_modeling`, subjective_model.py:361-374, with `_get_dof` 421-423 -/
def mosRunModeling (rd : Reader κ K) (o : Opts K) : Py (Result κ K) :=
  match preprocess rd o with
  | .error e => .error e
  | .ok p => .ok ((mosAndStats (fun E _ _ => E * 2) p.arr p.orig).withRejection p.rejection)

/-- `BiasremvMosModel._run_modeling`, subjective_model.py:1370-1388 -/
def biasremvRunModeling (rd : Reader κ K) (o : Opts K) : Py (Result κ K) :=
  match preprocess rd o with
  | .error e => .error e
  | .ok p =>
    match p.bias with
    | none => .error .key
    | some b =>
      .ok ({ mosAndStats (fun E S R => E * 2 + S * R) p.arr p.orig with observerBias := some b }.withRejection p.rejection)

/-- `_postprocess_model_result` on the scores, subjective_model.py:316-351 -/
def postprocessScores (o : Opts K) (q : List (Fl K)) : List (Fl K) :=
  let q1 := if o.normalizeFinal.isFalse then q else q.map fun x => (x - Np.mean q) / Np.std q
  match o.transformFinal with
  | none => q1
  | some t =>
    q1.map fun x =>
      let y0 : Fl K := 0
      let y2 := match t.p2 with | some c => y0 + c * x * x | none => y0
      let y1 := match t.p1 with | some c => y2 + c * x | none => y2
      match t.p0 with | some c => y1 + c | none => y1

/-- `SubjectiveModel.run_modeling`, subjective_model.py:63-76, for a class whose `_run_modeling` is `run` -/
def runModeling (run : Reader κ K → Opts K → Py (Result κ K)) (rd : Reader κ K) (o : Opts K) : Py (Result κ K) :=
  match run rd o with
  | .error e => .error e
  | .ok res =>
    match rd.observers with
    | .ok obs => .ok { res with observers := some obs, qualityScores := postprocessScores o res.qualityScores }
    | .error .assertion => .ok { res with qualityScores := postprocessScores o res.qualityScores }
    | .error .attribute => .ok { res with qualityScores := postprocessScores o res.qualityScores }
    | .error e => .error e

/-- `kwargs2['x'] = True` -/
def yes : Flag := some (some true)

/-- `MosModel(reader).run_modeling(**o)` -/
def runMOS (rd : Reader κ K) (o : Opts K) : Py (Result κ K) := runModeling mosRunModeling rd o

/-- `DmosModel.run_modeling`, subjective_model.py:435-441 -/
def runDMOS (rd : Reader κ K) (o : Opts K) : Py (Result κ K) :=
  if o.dscoreMode.isTrue then .error .assertion
  else runModeling mosRunModeling rd { o with dscoreMode := yes }

/-- `LiveDmosModel._run_modeling`, subjective_model.py:459-481 -/
def liveDmosRunModeling (rd : Reader κ K) (o : Opts K) : Py (Result κ K) :=
  if o.dscoreMode.isTrue then .error .assertion
  else if o.zscoreMode.isTrue then .error .assertion
  else
    match preprocess rd { o with dscoreMode := yes, zscoreMode := yes } with
    | .error e => .error e
    | .ok p =>
      .ok { qualityScores := List.ofFn (meanAlongS fun e s r =>
              (p.arr.get e s r + ((3 : Nat) : Fl K)) * ((100 : Nat) : Fl K) / ((6 : Nat) : Fl K)) }

/-- `LiveDmosModel(reader).run_modeling(**o)` -/
def runLIVE_DMOS (rd : Reader κ K) (o : Opts K) : Py (Result κ K) := runModeling liveDmosRunModeling rd o

/-- `SubjrejMosModel.run_modeling`, subjective_model.py:1198-1204 (also `BT500Model`, sureal/__init__.py) -/
def runSR_MOS (rd : Reader κ K) (o : Opts K) : Py (Result κ K) :=
  if o.subjectRejection.isTrue then .error .assertion
  else runModeling mosRunModeling rd { o with subjectRejection := yes }

/-- `SubjrejMosModelPearson.run_modeling`, subjective_model.py:1211-1218 -/
def runSR_MOS_PCC (rd : Reader κ K) (o : Opts K) : Py (Result κ K) :=
  if o.subjectRejection.isTrue then .error .assertion
  else runModeling mosRunModeling rd { o with subjectRejection := yes, subjectRejectionType := some "pearson" }

/-- `SubjrejMosModelSpearman.run_modeling`, subjective_model.py:1226-1233 -/
def runSR_MOS_SRCC (rd : Reader κ K) (o : Opts K) : Py (Result κ K) :=
  if o.subjectRejection.isTrue then .error .assertion
  else runModeling mosRunModeling rd { o with subjectRejection := yes, subjectRejectionType := some "spearman" }

/-- `ZscoringMosModel.run_modeling`, subjective_model.py:1241-1247 -/
def runZS_MOS (rd : Reader κ K) (o : Opts K) : Py (Result κ K) :=
  if o.zscoreMode.isTrue then .error .assertion
  else runModeling mosRunModeling rd { o with zscoreMode := yes }

/-- `ZscoringSubjrejMosModel.run_modeling`, subjective_model.py:1255-1264 -/
def runZS_SR_MOS (rd : Reader κ K) (o : Opts K) : Py (Result κ K) :=
  if o.zscoreMode.isTrue then .error .assertion
  else if o.subjectRejection.isTrue then .error .assertion
  else runModeling mosRunModeling rd { o with zscoreMode := yes, subjectRejection := yes }

/-- `SubjrejDmosModel.run_modeling`, subjective_model.py:1300-1309 -/
def runSR_DMOS (rd : Reader κ K) (o : Opts K) : Py (Result κ K) :=
  if o.dscoreMode.isTrue then .error .assertion
  else if o.subjectRejection.isTrue then .error .assertion
  else runModeling mosRunModeling rd { o with dscoreMode := yes, subjectRejection := yes }

/-- `ZscoringSubjrejDmosModel.run_modeling`, subjective_model.py:1317-1329 -/
def runZS_SR_DMOS (rd : Reader κ K) (o : Opts K) : Py (Result κ K) :=
  if o.dscoreMode.isTrue then .error .assertion
  else if o.zscoreMode.isTrue then .error .assertion
  else if o.subjectRejection.isTrue then .error .assertion
  else runModeling mosRunModeling rd { o with dscoreMode := yes, zscoreMode := yes, subjectRejection := yes }

/-- `BiasremvMosModel.run_modeling`, subjective_model.py:1362-1368 -/
def runBR_MOS (rd : Reader κ K) (o : Opts K) : Py (Result κ K) :=
  if o.biasOffset.isTrue then .error .assertion
  else runModeling biasremvRunModeling rd { o with biasOffset := yes }

/-- `BiasremvSubjrejMosModel.run_modeling`, subjective_model.py:1396-1407 (also `P913124Model`); the `super`
call skips `BiasremvMosModel.run_modeling` -/
def runBR_SR_MOS (rd : Reader κ K) (o : Opts K) : Py (Result κ K) :=
  if o.biasOffset.isTrue then .error .assertion
  else if o.subjectRejection.isTrue then .error .assertion
  else runModeling biasremvRunModeling rd { o with biasOffset := yes, subjectRejection := yes }

/-- `BiasremvSubjrejMosModelPearson.run_modeling`, subjective_model.py:1415-1426 (through
`BiasremvMosModel.run_modeling`) -/
def runBR_SR_MOS_PCC (rd : Reader κ K) (o : Opts K) : Py (Result κ K) :=
  if o.biasOffset.isTrue then .error .assertion
  else if o.subjectRejection.isTrue then .error .assertion
  else runBR_MOS rd { o with subjectRejection := yes, subjectRejectionType := some "pearson" }

/-- `BiasremvSubjrejMosModelSpearman.run_modeling`, subjective_model.py:1434-1445 -/
def runBR_SR_MOS_SRCC (rd : Reader κ K) (o : Opts K) : Py (Result κ K) :=
  if o.biasOffset.isTrue then .error .assertion
  else if o.subjectRejection.isTrue then .error .assertion
  else runBR_MOS rd { o with subjectRejection := yes, subjectRejectionType := some "spearman" }

end Sureal
