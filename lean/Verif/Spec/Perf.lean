import Verif.Model.Perf
import Verif.Spec.Correlation
import Mathlib.Data.Real.Sign
/-! Specification of the performance metrics, on lists of pairs (truth, prediction). -/
namespace Sureal.Spec
open Perf

/-- root of the mean squared difference -/
noncomputable def rmsError (ps : List (ℝ × ℝ)) : ℝ := Real.sqrt (mean (ps.map fun p => (p.1 - p.2) ^ 2))

/-- agreement in order: over all ordered pairs of entries, +1 where both sides agree, -1 where they disagree, 0 for ties -/
noncomputable def orderSum (ps : List (ℝ × ℝ)) : ℝ :=
  (ps.map fun p => (ps.map fun q => Real.sign (p.1 - q.1) * Real.sign (p.2 - q.2)).sum).sum

/-- Kendall's tau-b: the order agreement of the two sides, normalised like a correlation; undefined when a side is constant -/
noncomputable def kendallTau (ps : List (ℝ × ℝ)) : Option ℝ :=
  open Classical in
  if orderSum (ps.map fun p => (p.1, p.1)) = 0 ∨ orderSum (ps.map fun p => (p.2, p.2)) = 0 then none
  else some (orderSum ps / (Real.sqrt (orderSum (ps.map fun p => (p.1, p.1))) * Real.sqrt (orderSum (ps.map fun p => (p.2, p.2)))))

/-- the two sides, as passed to the metrics -/
def truths (ps : List (ℝ × ℝ)) : List (Truth ℝ) := ps.map fun p => .num (.fin p.1)
def predictions (ps : List (ℝ × ℝ)) : List (Fl ℝ) := ps.map fun p => .fin p.2

/-- the two sides exchanged; functions applied to the two sides -/
def exchanged (ps : List (ℝ × ℝ)) : List (ℝ × ℝ) := ps.map fun p => (p.2, p.1)
def mapped (φ ψ : ℝ → ℝ) (ps : List (ℝ × ℝ)) : List (ℝ × ℝ) := ps.map fun p => (φ p.1, ψ p.2)

end Sureal.Spec
