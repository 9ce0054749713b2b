import Verif.Spec.Dataset
import Verif.Spec.Arrays
import Verif.Spec.Stats
import Verif.Spec.Format
import Verif.Model.Main
/-! Specification: which datasets the program can read, and the votes in them. -/
namespace Sureal.Spec
variable {κ K : Type}

/-- a dataset of opinion scores that can be read: well formed, all videos in the same style, the votes numbers or missing -/
structure Readable (d : Dataset κ K) : Prop where
  wf : WellFormed d
  style : (∀ dv ∈ d.disVideos, SeqStyle dv) ∨ ∀ dv ∈ d.disVideos, DictStyle dv
  single : ∀ dv ∈ d.disVideos, NdarraysSingle dv
  clean : ∀ dv ∈ d.disVideos, ∀ x ∈ videoVotes dv, NumOrNan x

/-- the numbers given as votes on a video -/
def numbersOf (dv : DisVideo κ K) : List K := present (videoVotes dv)

/-- how many votes there are in a dataset -/
def votesOverall (d : Dataset κ K) : ℕ := (d.disVideos.map fun dv => (numbersOf dv).length).sum

/-- the votes of an observer on a video; observers are keys of dictionaries or positions in lists -/
def votesBy [DecidableEq κ] (dv : DisVideo κ K) : κ ⊕ ℕ → List (Fl K)
  | .inl o => match dv.os with
    | some (.dict d) => ((d.lookup o).map votesOf).getD []
    | _ => []
  | .inr s => match dv.os with
    | some (.seq _ l) => (l[s]?.map votesOf).getD []
    | _ => []

/-- the observers of a dataset -/
def IsObserver (d : Dataset κ K) : κ ⊕ ℕ → Prop
  | .inl o => ∃ dv ∈ d.disVideos, o ∈ raters dv
  | .inr s => ∃ dv ∈ d.disVideos, SeqStyle dv ∧ s < (entries dv).length

/-- every observer gave at least `n` votes, over all videos and repetitions -/
def EachVoted [DecidableEq κ] (n : ℕ) (d : Dataset κ K) : Prop :=
  ∀ w, IsObserver d w → n ≤ (d.disVideos.map fun dv => (present (votesBy dv w)).length).sum

/-- the dataset `--dataset` stands for: a module in Python or a file in JSON, by the ending -/
def Loads (path : List Char) (readPy readJson : Py (Dataset κ K)) (d : Dataset κ K) : Prop :=
  ((∃ l, path = l ++ ".py".toList) ∧ readPy = .ok d) ∨ ((∃ l, path = l ++ ".json".toList) ∧ readJson = .ok d)

/-- the standard error of the mean; NaN for fewer than two numbers -/
noncomputable def standardError (l : List ℝ) : Fl ℝ :=
  if 2 ≤ l.length then .fin (Real.sqrt (sampleVar l) / Real.sqrt l.length) else .nan

/-- half of a confidence interval at 95% -/
noncomputable def halfWidth (l : List ℝ) : Fl ℝ :=
  if 2 ≤ l.length then .fin (195996 / 100000 * (Real.sqrt (sampleVar l) / Real.sqrt l.length)) else .nan

/-- the models the help text of the program names -/
def documented : List String := ["MOS", "P910", "P913", "BT500"]

/-- models and their names -/
def runsByName [Zero K] [One K] [Add K] [Neg K] [Sub K] [Mul K] [Div K] [NatCast K] [LT K] [LE K] [DecidableLT K] [DecidableLE K]
    [DecidableEq K] [MathFn K] : List (String × (Reader κ K → Py (Result κ K))) :=
  [("MOS", (runMOS · {})), ("DMOS", (runDMOS · {})), ("LIVE_DMOS", (runLIVE_DMOS · {})), ("SR_MOS", (runSR_MOS · {})),
    ("SR_MOS_PCC", (runSR_MOS_PCC · {})), ("SR_MOS_SRCC", (runSR_MOS_SRCC · {})), ("ZS_MOS", (runZS_MOS · {})),
    ("ZS_SR_MOS", (runZS_SR_MOS · {})), ("SR_DMOS", (runSR_DMOS · {})), ("ZS_SR_DMOS", (runZS_SR_DMOS · {})),
    ("BR_MOS", (runBR_MOS · {})), ("BR_SR_MOS", (runBR_SR_MOS · {})), ("BR_SR_MOS_PCC", (runBR_SR_MOS_PCC · {})),
    ("BR_SR_MOS_SRCC", (runBR_SR_MOS_SRCC · {})), ("BT500", (runSR_MOS · {})), ("P913", (runBR_SR_MOS · {})),
    ("Subject_MLE_Projection", (runAP · {})), ("MLE_CO_AP", (runAP · {})), ("Subject_MLE_Projection2", (runAP2 · {})),
    ("MLE_CO_AP2", (runAP2 · {})), ("P910", (runAP2 · {})), ("MLE", (runMLE · {})), ("MLE_CO", (runMLE_CO · {})),
    ("MLE_SO", (runMLE_SO · {})), ("DMOS_MLE", (runDMOS_MLE · {})), ("DMOS_MLE_CO", (runDMOS_MLE_CO · {})),
    ("MLE_legacy", (runLegacy · {}))]

open Format in
/-- the numbers in a cell of the output -/
def numbersIn {V : Type} : Cell V → List V
  | .one x => [x]
  | .row l => l

open Format in
/-- all numbers of an output are finite, as JSON demands -/
structure AllFinite {ν : Type} (out : Output ν (Fl K)) : Prop where
  videos : ∀ i T k c, numberIn out.disVideos i T k = some c → ∀ x ∈ numbersIn c, ∃ v, x = .fin v
  observers : ∀ i T k c, numberIn out.observers i T k = some c → ∀ x ∈ numbersIn c, ∃ v, x = .fin v
  contents : ∀ i T k c, numberIn out.contents i T k = some c → ∀ x ∈ numbersIn c, ∃ v, x = .fin v
  stats : ∀ T k x, statIn out T k = some (.num x) → ∃ v, x = .fin v

end Sureal.Spec
