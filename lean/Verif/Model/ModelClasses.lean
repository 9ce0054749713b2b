import Verif.Model.Lookup
/-!
# The model classes of the package

Generated from the `class` lines of `sureal/subjective_model.py`, `sureal/pc_subjective_model.py`, `sureal/__init__.py` and
`sureal/experimental.py`: every class below `SubjectiveModel` with its base and its TYPE.  The mixin
`SubjectMLEModelProjectionSolverAltSubjStdMixin` (`sureal/subjective_model.py` lines 1627-1636) is not below `SubjectiveModel`.
-/
namespace Sureal

/-- the classes, in order of definition -/
inductive ModelClass where
  | SubjectiveModel
  | MosModel
  | DmosModel
  | LiveDmosModel
  | LeastSquaresModel
  | LegacyMaximumLikelihoodEstimationModel
  | MaximumLikelihoodEstimationModel
  | MaximumLikelihoodEstimationModelContentOblivious
  | MaximumLikelihoodEstimationModelSubjectOblivious
  | SubjrejMosModel
  | SubjrejMosModelPearson
  | SubjrejMosModelSpearman
  | ZscoringMosModel
  | ZscoringSubjrejMosModel
  | MaximumLikelihoodEstimationDmosModel
  | MaximumLikelihoodEstimationDmosModelContentOblivious
  | SubjrejDmosModel
  | ZscoringSubjrejDmosModel
  | PerSubjectModel
  | BiasremvMosModel
  | BiasremvSubjrejMosModel
  | BiasremvSubjrejMosModelPearson
  | BiasremvSubjrejMosModelSpearman
  | SubjectMLEModelProjectionSolver
  | SubjectMLEModelProjectionSolver2
  | MaximumLikelihoodEstimationModelContentObliviousAlternativeProjection
  | MaximumLikelihoodEstimationModelContentObliviousAlternativeProjection2
  | PairedCompSubjectiveModel
  | BradleyTerryNewtonRaphsonPairedCompSubjectiveModel
  | BradleyTerryMlePairedCompSubjectiveModel
  | ThurstoneMlePairedCompSubjectiveModel
  | BT500Model
  | P913124Model
  | P910AnnexEModel
  | MaximumLikelihoodEstimationModelWithBootstrapping
  | MaximumLikelihoodEstimationModelContentObliviousWithBootstrapping
  deriving DecidableEq

namespace ModelClass

/-- the base of a class, from its `class` line -/
def base : ModelClass → Option ModelClass
  | .SubjectiveModel => none
  | .MosModel => some .SubjectiveModel
  | .DmosModel => some .MosModel
  | .LiveDmosModel => some .SubjectiveModel
  | .LeastSquaresModel => some .SubjectiveModel
  | .LegacyMaximumLikelihoodEstimationModel => some .SubjectiveModel
  | .MaximumLikelihoodEstimationModel => some .SubjectiveModel
  | .MaximumLikelihoodEstimationModelContentOblivious => some .MaximumLikelihoodEstimationModel
  | .MaximumLikelihoodEstimationModelSubjectOblivious => some .MaximumLikelihoodEstimationModel
  | .SubjrejMosModel => some .MosModel
  | .SubjrejMosModelPearson => some .MosModel
  | .SubjrejMosModelSpearman => some .MosModel
  | .ZscoringMosModel => some .MosModel
  | .ZscoringSubjrejMosModel => some .MosModel
  | .MaximumLikelihoodEstimationDmosModel => some .MaximumLikelihoodEstimationModel
  | .MaximumLikelihoodEstimationDmosModelContentOblivious => some .MaximumLikelihoodEstimationModelContentOblivious
  | .SubjrejDmosModel => some .MosModel
  | .ZscoringSubjrejDmosModel => some .MosModel
  | .PerSubjectModel => some .SubjectiveModel
  | .BiasremvMosModel => some .MosModel
  | .BiasremvSubjrejMosModel => some .BiasremvMosModel
  | .BiasremvSubjrejMosModelPearson => some .BiasremvMosModel
  | .BiasremvSubjrejMosModelSpearman => some .BiasremvMosModel
  | .SubjectMLEModelProjectionSolver => some .SubjectiveModel
  | .SubjectMLEModelProjectionSolver2 => some .SubjectMLEModelProjectionSolver
  | .MaximumLikelihoodEstimationModelContentObliviousAlternativeProjection => some .SubjectMLEModelProjectionSolver
  | .MaximumLikelihoodEstimationModelContentObliviousAlternativeProjection2 => some .SubjectMLEModelProjectionSolver2
  | .PairedCompSubjectiveModel => some .SubjectiveModel
  | .BradleyTerryNewtonRaphsonPairedCompSubjectiveModel => some .PairedCompSubjectiveModel
  | .BradleyTerryMlePairedCompSubjectiveModel => some .PairedCompSubjectiveModel
  | .ThurstoneMlePairedCompSubjectiveModel => some .PairedCompSubjectiveModel
  | .BT500Model => some .SubjrejMosModel
  | .P913124Model => some .BiasremvSubjrejMosModel
  | .P910AnnexEModel => some .SubjectMLEModelProjectionSolver2
  | .MaximumLikelihoodEstimationModelWithBootstrapping => some .MaximumLikelihoodEstimationModel
  | .MaximumLikelihoodEstimationModelContentObliviousWithBootstrapping => some .MaximumLikelihoodEstimationModelWithBootstrapping

/-- the string assigned to TYPE in the body of the class -/
def ownType : ModelClass → Option String
  | .SubjectiveModel => none
  | .MosModel => some "MOS"
  | .DmosModel => some "DMOS"
  | .LiveDmosModel => some "LIVE_DMOS"
  | .LeastSquaresModel => some "LS"
  | .LegacyMaximumLikelihoodEstimationModel => some "MLE_legacy"
  | .MaximumLikelihoodEstimationModel => some "MLE"
  | .MaximumLikelihoodEstimationModelContentOblivious => some "MLE_CO"
  | .MaximumLikelihoodEstimationModelSubjectOblivious => some "MLE_SO"
  | .SubjrejMosModel => some "SR_MOS"
  | .SubjrejMosModelPearson => some "SR_MOS_PCC"
  | .SubjrejMosModelSpearman => some "SR_MOS_SRCC"
  | .ZscoringMosModel => some "ZS_MOS"
  | .ZscoringSubjrejMosModel => some "ZS_SR_MOS"
  | .MaximumLikelihoodEstimationDmosModel => some "DMOS_MLE"
  | .MaximumLikelihoodEstimationDmosModelContentOblivious => some "DMOS_MLE_CO"
  | .SubjrejDmosModel => some "SR_DMOS"
  | .ZscoringSubjrejDmosModel => some "ZS_SR_DMOS"
  | .PerSubjectModel => some "PERSUBJECT"
  | .BiasremvMosModel => some "BR_MOS"
  | .BiasremvSubjrejMosModel => some "BR_SR_MOS"
  | .BiasremvSubjrejMosModelPearson => some "BR_SR_MOS_PCC"
  | .BiasremvSubjrejMosModelSpearman => some "BR_SR_MOS_SRCC"
  | .SubjectMLEModelProjectionSolver => some "Subject_MLE_Projection"
  | .SubjectMLEModelProjectionSolver2 => some "Subject_MLE_Projection2"
  | .MaximumLikelihoodEstimationModelContentObliviousAlternativeProjection => some "MLE_CO_AP"
  | .MaximumLikelihoodEstimationModelContentObliviousAlternativeProjection2 => some "MLE_CO_AP2"
  | .PairedCompSubjectiveModel => none
  | .BradleyTerryNewtonRaphsonPairedCompSubjectiveModel => some "BT_NR"
  | .BradleyTerryMlePairedCompSubjectiveModel => some "BT_MLE"
  | .ThurstoneMlePairedCompSubjectiveModel => some "THURSTONE_MLE"
  | .BT500Model => some "BT500"
  | .P913124Model => some "P913"
  | .P910AnnexEModel => some "P910"
  | .MaximumLikelihoodEstimationModelWithBootstrapping => some "MLE_BSTP"
  | .MaximumLikelihoodEstimationModelContentObliviousWithBootstrapping => some "MLE_CO_BSTP"

/-- all of them -/
def all : List ModelClass :=
  [.SubjectiveModel,
   .MosModel,
   .DmosModel,
   .LiveDmosModel,
   .LeastSquaresModel,
   .LegacyMaximumLikelihoodEstimationModel,
   .MaximumLikelihoodEstimationModel,
   .MaximumLikelihoodEstimationModelContentOblivious,
   .MaximumLikelihoodEstimationModelSubjectOblivious,
   .SubjrejMosModel,
   .SubjrejMosModelPearson,
   .SubjrejMosModelSpearman,
   .ZscoringMosModel,
   .ZscoringSubjrejMosModel,
   .MaximumLikelihoodEstimationDmosModel,
   .MaximumLikelihoodEstimationDmosModelContentOblivious,
   .SubjrejDmosModel,
   .ZscoringSubjrejDmosModel,
   .PerSubjectModel,
   .BiasremvMosModel,
   .BiasremvSubjrejMosModel,
   .BiasremvSubjrejMosModelPearson,
   .BiasremvSubjrejMosModelSpearman,
   .SubjectMLEModelProjectionSolver,
   .SubjectMLEModelProjectionSolver2,
   .MaximumLikelihoodEstimationModelContentObliviousAlternativeProjection,
   .MaximumLikelihoodEstimationModelContentObliviousAlternativeProjection2,
   .PairedCompSubjectiveModel,
   .BradleyTerryNewtonRaphsonPairedCompSubjectiveModel,
   .BradleyTerryMlePairedCompSubjectiveModel,
   .ThurstoneMlePairedCompSubjectiveModel,
   .BT500Model,
   .P913124Model,
   .P910AnnexEModel,
   .MaximumLikelihoodEstimationModelWithBootstrapping,
   .MaximumLikelihoodEstimationModelContentObliviousWithBootstrapping]

/-- `__subclasses__()` -/
def subs (c : ModelClass) : List ModelClass := all.filter (fun d => d.base = some c)

/-- length of the longest chain below a class -/
def depth : ModelClass → Nat
  | .SubjectiveModel => 4
  | .MosModel => 3
  | .MaximumLikelihoodEstimationModel => 2
  | .MaximumLikelihoodEstimationModelContentOblivious => 1
  | .SubjrejMosModel => 1
  | .BiasremvMosModel => 2
  | .BiasremvSubjrejMosModel => 1
  | .SubjectMLEModelProjectionSolver => 2
  | .SubjectMLEModelProjectionSolver2 => 1
  | .PairedCompSubjectiveModel => 1
  | .MaximumLikelihoodEstimationModelWithBootstrapping => 1
  | _ => 0

/-- The hierarchy.  Each class below `SubjectiveModel` either assigns TYPE itself or is `PairedCompSubjectiveModel`, which
inherits an abstract property. -/
def hierarchy : Classes ModelClass String :=
  { subs := subs, type := ownType, depth := depth, acyclic := by intro c; cases c <;> decide +kernel }

/-- the modules that define classes of models -/
inductive Module where
  | subjectiveModel | pcSubjectiveModel | package | experimental
  deriving DecidableEq

/-- the module whose body contains the `class` line -/
def module : ModelClass → Module
  | .PairedCompSubjectiveModel => .pcSubjectiveModel
  | .BradleyTerryNewtonRaphsonPairedCompSubjectiveModel => .pcSubjectiveModel
  | .BradleyTerryMlePairedCompSubjectiveModel => .pcSubjectiveModel
  | .ThurstoneMlePairedCompSubjectiveModel => .pcSubjectiveModel
  | .BT500Model => .package
  | .P913124Model => .package
  | .P910AnnexEModel => .package
  | .MaximumLikelihoodEstimationModelWithBootstrapping => .experimental
  | .MaximumLikelihoodEstimationModelContentObliviousWithBootstrapping => .experimental
  | _ => .subjectiveModel

/-- The hierarchy while only some modules have been imported: `__subclasses__()` lists the classes whose `class` line has been executed. -/
def imported (ms : List Module) : Classes ModelClass String :=
  { subs := fun c => (subs c).filter fun d => ms.contains d.module, type := ownType, depth := depth,
    acyclic := fun c d h => hierarchy.acyclic c d (List.mem_filter.mp h).1 }

end ModelClass
end Sureal
