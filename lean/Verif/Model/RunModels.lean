import Verif.Model.Perf
import Verif.Model.Mos
/-!
# `run_subjective_models` (`sureal/routine.py` lines 32-105)

Without the plots (lines 107-607).  Reading the dataset file, the class of the reader and the classes of the models (with their
keyword arguments) are parameters.
-/
namespace Sureal.Routine
variable {κ K : Type} [Zero K] [One K] [Add K] [Neg K] [Sub K] [Mul K] [Div K] [NatCast K]
  [LT K] [LE K] [DecidableLT K] [DecidableLE K] [MathFn K]

/-- `result['reconstruction_stats']` -/
structure RecStats (K : Type) where
  rmse : Fl K
  cc : Fl K
  srocc : Fl K

/-- the pairs (raw, rec) kept by the list comprehension in lines 36-37 -/
def recPairs (raw rec : Arr3D (Fl K)) : List (Fl K × Fl K) :=
  ((ravel3 raw.get).zip (ravel3 rec.get)).filter fun p => !p.2.isNan && !p.1.isNan

/-- `_get_reconstruction_stats`, routine.py:34-45; without a pair `zip(*[])` cannot be unpacked -/
def recStats (raw rec : Arr3D (Fl K)) : Py (RecStats K) :=
  if raw.E = rec.E ∧ raw.S = rec.S ∧ raw.R = rec.R then
    match recPairs raw rec with
    | [] => .error .value
    | p :: ps =>
      let g := (p :: ps).map fun q => Perf.Truth.num q.1
      let r := (p :: ps).map fun q => q.2
      match Perf.evaluate .rmse Np.mean none g r with
      | .error e => .error e
      | .ok rmse =>
        match Perf.evaluate .pcc Np.mean none g r with
        | .error e => .error e
        | .ok cc =>
          match Perf.evaluate .srcc Np.mean none g r with
          | .error e => .error e
          | .ok srocc => .ok ⟨rmse, cc, srocc⟩
  else .error .assertion

/-- a result with the entries added in lines 98-105 -/
structure Report (κ K : Type) where
  result : Result κ K
  disVideoNames : List String
  stats : Option (RecStats K)

/-- the loops in lines 98-105 -/
def report (rd : Reader κ K) (res : Result κ K) : Py (Report κ K) :=
  let names := rd.disVideos.map (·.path)
  match res.rawScores, res.reconstructions with
  | some raw, some rec =>
    match recStats raw rec with
    | .error e => .error e
    | .ok st => .ok ⟨res, names, some st⟩
  | _, _ => .ok ⟨res, names, none⟩

/-- `run_subjective_models`, routine.py:32-105 and 606-608 -/
def run (path : List Char) (readPy readJson : Py (Dataset κ K)) (reader : Dataset κ K → Py (Reader κ K))
    (models : List (Reader κ K → Py (Result κ K))) : Py (List (Report κ K)) :=
  let dataset :=
    if ['.', 'p', 'y'].isSuffixOf path then readPy
    else if ['.', 'j', 's', 'o', 'n'].isSuffixOf path then readJson
    else .error .assertion
  match dataset with
  | .error e => .error e
  | .ok d =>
    match reader d with
    | .error e => .error e
    | .ok rd =>
      match mapPy (fun m => m rd) models with
      | .error e => .error e
      | .ok results => mapPy (report rd) results

end Sureal.Routine
