import Verif.Model.Mle
import Verif.Model.ObsCi
import Verif.Model.Validate
/-!
# Models that read the votes of their reader more than once

`dataset_reader.opinion_score_3darray` is a property: `RawDatasetReader` computes it from the dataset whenever it is read, the mocked readers draw
new random numbers (unless a seed is given).  The maximum likelihood models read it twice.  All readings of a reader have the same shape; everything
else (`dis_videos`, `content_id_of_dis_videos`, `_get_list_observers`) does not depend on the reading.
-/
namespace Sureal
variable {κ K : Type} [Zero K] [One K] [Add K] [Neg K] [Sub K] [Mul K] [Div K] [NatCast K]
  [LT K] [LE K] [DecidableLT K] [DecidableLE K] [MathFn K]

namespace Mle

/-- `MaximumLikelihoodEstimationModel._run_modeling`, subjective_model.py:722-1158: `rd` is the reader as it is when line 774 reads the votes, `rd2`
as it is when `MosModel(dataset_reader).run_modeling()` (line 783) reads them again -/
def runModelingTwo (mode : Mode) (rd rd2 : Reader κ K) (o : Opts K) : Py (Result κ K) :=
  if o.base.subjectRejection.isTrue then .error .assertion
  else
    match method o with
    | .error e => .error e
    | .ok m =>
      match preprocess rd o.base with
      | .error e => .error e
      | .ok p =>
        match numContents rd with
        | .error e => .error e
        | .ok C =>
          match runMOS rd2 {} with
          | .error e => .error e
          | .ok mos =>
            match contentIndex (contentIdOfDisVideos rd.disVideos) p.arr.E C with
            | .error e => .error e
            | .ok cid =>
              match fitArr mode m o.numericalPdf (o.deltaThr.getD defaultThr) (⟨p.arr.get, cid⟩ : Data K p.arr.E p.arr.S p.arr.R C)
                  (fun e => (mos.qualityScores[e.val]?).getD .nan) with
              | .error e => .error e
              | .ok f =>
                match rd.observers with
                | .error e => if e = .assertion then runModelingWith.finish mode o p C ⟨p.arr.get, cid⟩ f none else .error e
                | .ok obs => runModelingWith.finish mode o p C ⟨p.arr.get, cid⟩ f (some obs)

/-- `run_modeling(**o)` of the MLE classes, subjective_model.py:63-76 -/
def runTwo (mode : Mode) (rd rd2 : Reader κ K) (o : Opts K) : Py (Result κ K) :=
  runModeling (fun rd b => runModelingTwo mode rd rd2 { o with base := b }) rd o.base

end Mle

namespace Routine

/-- `observer_bias_ci95`, subjective_model.py:1113-1114 -/
def biasIntervals (r : Result κ K) : Option (List (List (Fl K))) :=
  r.observerBiasStd.map fun l => [l.map fun x => (ObsCi.biasCi x).1, l.map fun x => (ObsCi.biasCi x).2]

/-- `observer_inconsistency_ci95`, subjective_model.py:1118-1121 -/
def inconsistencyIntervals (ppf : Fl K → Nat → Fl K) (r : Result κ K) : Option (List (List (Fl K))) :=
  match r.rawScores, r.observerInconsistency with
  | some a, some v =>
    let ci := ObsCi.inconsistencyCi95 ppf a.get fun s => (v[s.val]?).getD .nan
    some [ci.1, ci.2]
  | _, _ => none

/-- the maximum likelihood models as `validate_with_synthetic_dataset` runs them (`chi2.ppf` is a parameter) -/
def mle (ppf : Fl K → Nat → Fl K) (mode : Mle.Mode) (o : Mle.Opts K) : Modelled κ K :=
  ⟨2, fun reader =>
    match reader 0 with
    | .error e => .error e
    | .ok rd =>
      match reader 1 with
      | .error e => .error e
      | .ok rd2 =>
        match Mle.runTwo mode rd rd2 o with
        | .error e => .error e
        | .ok r => .ok { res := r, biasCi95 := biasIntervals r, inconsistencyCi95 := inconsistencyIntervals ppf r }⟩

end Routine
end Sureal
