import Verif.Spec.Main
import Verif.Spec.Lookup
import Verif.Model.Deprecated
/-! Specification: what the deprecated program should accept and write. -/
namespace Sureal.Spec
open Deprecated
variable {κ K : Type}

/-- the models in the usage message -/
def listed : List String :=
  ["MOS", "MLE", "MLE_CO", "MLE_CO_AP", "MLE_CO_AP2", "DMOS", "DMOS_MLE", "DMOS_MLE_CO", "SR_MOS", "ZS_SR_MOS", "SR_DMOS", "ZS_SR_DMOS"]

/-- the models the program accepts -/
def accepted : List String :=
  listed ++ ["LIVE_DMOS", "LS", "MLE_legacy", "MLE_SO", "SR_MOS_PCC", "SR_MOS_SRCC", "ZS_MOS", "PERSUBJECT", "BR_MOS", "BR_SR_MOS", "BR_SR_MOS_PCC",
    "BR_SR_MOS_SRCC", "Subject_MLE_Projection", "Subject_MLE_Projection2", "BT500", "P913", "P910"]

/-- the numbers of a result are in a table, as lists -/
structure HasLists (f : String → Option (Entry κ K)) (r : Result κ K) : Prop where
  scores : f "quality_scores" = some (.nums r.qualityScores)
  scoresStd : f "quality_scores_std" = r.qualityScoresStd.map .nums
  scoresCi95 : f "quality_scores_ci95" = r.qualityScoresCi95.map fun p => .rows [p.1, p.2]
  ambiguity : f "quality_ambiguity" = r.qualityAmbiguity.map .nums
  bias : f "observer_bias" = r.observerBias.map .nums
  biasStd : f "observer_bias_std" = r.observerBiasStd.map .nums
  inconsistency : f "observer_inconsistency" = r.observerInconsistency.map .nums
  inconsistencyStd : f "observer_inconsistency_std" = r.observerInconsistencyStd.map .nums
  content : f "content_ambiguity" = r.contentAmbiguity.map .nums
  contentStd : f "content_ambiguity_std" = r.contentAmbiguityStd.map .nums
  observers : f "observers" = r.observers.map .keys
  rejected : f "observer_rejected" = r.observerRejected.map .flags
  rejected1 : f "observer_rejected_1st_stats" = r.observerRejectedStats1.map .nums
  rejected2 : f "observer_rejected_2nd_stats" = r.observerRejectedStats2.map .nums

/-- the scalars of a result are in a table -/
structure HasScalars (f : String → Option (Entry κ K)) (r : Result κ K) : Prop where
  dof : f "dof" = r.dof.map .num
  loglikelihood : f "loglikelihood" = r.loglikelihood.map .num
  aic : f "aic" = r.aic.map .num
  bic : f "bic" = r.bic.map .num
  iterations : f "num_iter" = r.numIter.map .int

/-- a file, without what was replaced by `'<not serializable>'` -/
def legible (f : String → Option (Written κ K)) (k : String) : Option (Entry κ K) :=
  match f k with
  | some (.value e) => some e
  | _ => none

end Sureal.Spec
