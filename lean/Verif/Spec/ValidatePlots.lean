import Verif.Model.ValidatePlots
/-! # Specification: what belongs to a panel of the validation plots -/
namespace Sureal.Spec
open Routine
variable {κ K : Type}

/-- the true values of a panel; `std` are the true standard deviations of the scores, if given -/
def panelTruth (truth : Mock.SynthKw K) (std : Option (List (Fl K))) : Panel → Option (List (Fl K))
  | .quality => truth.quality
  | .qualityStd => std
  | .bias => truth.bias
  | .inconsistency => truth.inconsistency
  | .ambiguity => truth.qualityAmbiguity

/-- the estimates of a panel -/
def panelEst (fit : Fit κ K) : Panel → Option (List (Fl K))
  | .quality => some fit.res.qualityScores
  | .qualityStd => fit.res.qualityScoresStd
  | .bias => fit.res.observerBias
  | .inconsistency => fit.res.observerInconsistency
  | .ambiguity => fit.res.qualityAmbiguity

/-- the half widths of the confidence intervals of a panel: below, above -/
def panelBars (fit : Fit κ K) : Panel → Option (List (List (Fl K)))
  | .quality => fit.res.qualityScoresCi95.map fun p => [p.1, p.2]
  | .bias => fit.biasCi95
  | .inconsistency => fit.inconsistencyCi95
  | _ => none

/-- the coverage that is returned for a panel -/
def panelPerc (c : Checked κ K) : Panel → Option (Fl K)
  | .quality => c.qualityPerc
  | .bias => c.biasPerc
  | .inconsistency => c.inconsistencyPerc
  | _ => none

end Sureal.Spec
