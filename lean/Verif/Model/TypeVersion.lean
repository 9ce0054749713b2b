import Verif.Model.ModelClasses
/-!
# Type and version (`sureal/core/mixin.py` lines 9-46)
-/
namespace Sureal.TypeVersion

/-- `[a-zA-Z0-9._-]` -/
def allowed (c : Char) : Bool :=
  (97 ≤ c.toNat && c.toNat ≤ 122) || (65 ≤ c.toNat && c.toNat ≤ 90) || (48 ≤ c.toNat && c.toNat ≤ 57) || c == '.' || c == '_' || c == '-'

/-- `re.match(r"^[a-zA-Z0-9._-]+$", version)`, mixin.py:37; `$` matches at the end and before a line feed at the end -/
def accepts (v : List Char) : Bool :=
  let w := if v.getLast? = some '\n' then v.dropLast else v
  !w.isEmpty && w.all allowed

/-- `_assert_type_version`, mixin.py:32-38: TYPE is not checked -/
def check (_type version : List Char) : Py Unit := if accepts version then .ok () else .error .assertion

/-- `get_type_version_string`, mixin.py:40-42 -/
def string (type version : List Char) : List Char := type ++ '_' :: 'V' :: version

/-- VERSION of the model classes, as assigned in or inherited by the class; the abstract classes have none -/
def version : ModelClass → Option String
  | .SubjectiveModel => none
  | .MosModel => some "1.0"
  | .DmosModel => some "1.0"
  | .LiveDmosModel => some "1.0"
  | .LeastSquaresModel => some "0.1"
  | .LegacyMaximumLikelihoodEstimationModel => some "0.1"
  | .MaximumLikelihoodEstimationModel => some "0.2"
  | .MaximumLikelihoodEstimationModelContentOblivious => some "0.2_0.1"
  | .MaximumLikelihoodEstimationModelSubjectOblivious => some "0.2_0.1"
  | .SubjrejMosModel => some "0.1"
  | .SubjrejMosModelPearson => some "0.1"
  | .SubjrejMosModelSpearman => some "0.1"
  | .ZscoringMosModel => some "0.1"
  | .ZscoringSubjrejMosModel => some "0.1"
  | .MaximumLikelihoodEstimationDmosModel => some "0.2_0.1"
  | .MaximumLikelihoodEstimationDmosModelContentOblivious => some "0.2_0.1_0.1"
  | .SubjrejDmosModel => some "0.1"
  | .ZscoringSubjrejDmosModel => some "0.1"
  | .PerSubjectModel => some "1.0"
  | .BiasremvMosModel => some "1.0"
  | .BiasremvSubjrejMosModel => some "1.0"
  | .BiasremvSubjrejMosModelPearson => some "1.0"
  | .BiasremvSubjrejMosModelSpearman => some "1.0"
  | .SubjectMLEModelProjectionSolver => some "0.1"
  | .SubjectMLEModelProjectionSolver2 => some "0.1"
  | .MaximumLikelihoodEstimationModelContentObliviousAlternativeProjection => some "0.1"
  | .MaximumLikelihoodEstimationModelContentObliviousAlternativeProjection2 => some "0.1"
  | .PairedCompSubjectiveModel => none
  | .BradleyTerryNewtonRaphsonPairedCompSubjectiveModel => some "1.0"
  | .BradleyTerryMlePairedCompSubjectiveModel => some "1.0"
  | .ThurstoneMlePairedCompSubjectiveModel => some "1.2"
  | .BT500Model => some "0.1"
  | .P913124Model => some "1.0"
  | .P910AnnexEModel => some "0.1"
  | .MaximumLikelihoodEstimationModelWithBootstrapping => some "0.2_0.1"
  | .MaximumLikelihoodEstimationModelContentObliviousWithBootstrapping => some "0.2_0.1_0.1"

end Sureal.TypeVersion
