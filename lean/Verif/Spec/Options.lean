import Verif.Model.Preproc
import Verif.Spec.Stats
/-! # Specification vocabulary: options -/
namespace Sureal.Spec
variable {K : Type}

/-- option combinations that are documented as not allowed -/
inductive Conflicting (o : Opts K) : Prop
  /-- z-scoring together with bias removal -/
  | zscoreAndBias : o.zscoreMode = some (some true) → o.biasOffset = some (some true) → Conflicting o
  /-- a rejection type, but no rejection asked for -/
  | typeWithoutRejection (ty : String) : o.subjectRejectionType = some ty →
      (o.subjectRejection = none ∨ o.subjectRejection = some (some false)) → Conflicting o
  /-- a rejection type nobody knows -/
  | unknownType (ty : String) : o.subjectRejectionType = some ty →
      ty ≠ "kurtosis" → ty ≠ "pearson" → ty ≠ "spearman" → Conflicting o

/-- `p2 * q^2 + p1 * q + p0` with absent coefficients 0 -/
def quadratic [Field K] (p2 p1 p0 : Option K) (q : K) : K :=
  p2.getD 0 * q ^ 2 + p1.getD 0 * q + p0.getD 0

end Sureal.Spec
