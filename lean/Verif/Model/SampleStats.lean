import Verif.Model.RunModels
import Verif.Model.Mock
/-!
# `get_sample_stats` (`sureal/routine.py` lines 983-1067)

Without the plots (`do_plot=False`).
-/
namespace Sureal.Routine
variable {κ K : Type} [Zero K] [One K] [Add K] [Neg K] [Sub K] [Mul K] [Div K] [NatCast K]
  [LT K] [LE K] [DecidableLT K] [DecidableLE K] [MathFn K]

/-- a dataset file: its name, and what importing it as a module or as JSON gives -/
structure Source (κ K : Type) where
  path : List Char
  readPy : Py (Dataset κ K)
  readJson : Py (Dataset κ K)

/-- the import in lines 1032-1037 -/
def Source.import (s : Source κ K) : Py (Dataset κ K) :=
  if ['.', 'p', 'y'].isSuffixOf s.path then s.readPy
  else if ['.', 'j', 's', 'o', 'n'].isSuffixOf s.path then s.readJson
  else .error .assertion

/-- `int(num_subj * subj_fraction)`, routine.py:1040, for a product from 0 to `num_subj`: how many of the numbers `1, ..., num_subj` do
not exceed it -/
def fracNum (n : Nat) (f : Fl K) : Nat := (List.range n).countP fun i => ((i + 1 : Nat) : Fl K).le (((n : Nat) : Fl K) * f)

/-- One pass of the loop, routine.py:1016-1056.  `order n` is the random order of `0, ..., n - 1` that
`np.random.choice(..., replace=False)` takes its first entries from (line 1043). -/
def sampleOne [LinearOrder κ] (frac : Option (Fl K)) (order : Nat → List Nat) (src : Source κ K)
    (models : List (Reader κ K → Py (Result κ K))) : Py (List (Report κ K)) :=
  match frac with
  | none => run src.path src.readPy src.readJson rawReader models
  | some f =>
    if Fl.lt 0 f && Fl.le f 1 then
      match src.import with
      | .error e => .error e
      | .ok d =>
        match rawReader d with
        | .error e => .error e
        | .ok _ =>
          match numObservers d.disVideos with
          | .error e => .error e
          | .ok n =>
            let selected := ((order n).take (fracNum n f)).map Int.ofNat
            run src.path src.readPy src.readJson (fun d => Mock.selectSubjectReader d (some selected)) models
    else .error .assertion

/-- `get_sample_stats`, routine.py:983-1067; `order i` is used for the dataset number `i` -/
def sampleStats [LinearOrder κ] (frac : Option (Fl K)) (order : Nat → Nat → List Nat) (srcs : List (Source κ K))
    (models : List (Reader κ K → Py (Result κ K))) : Py (List (List (Report κ K))) :=
  mapPy (fun p => sampleOne frac (order p.2) p.1 models) srcs.zipIdx

end Sureal.Routine
