import Verif.Model.SampleStats
import Verif.Model.FileName
/-!
# `plot_scatter_target_vs_compared_models` and `_get_sample_stats_wrapper` (`sureal/routine.py` lines 1070-1161)

What is drawn, without the drawing itself.  `find` is `SubjectiveModel.find_subclass` followed by the run of the class found.  Every call of the
wrapper draws observers; `order c n` is the random order of `0, ..., n - 1` used by call number `c`.  With a seed all calls use the same order.
-/
namespace Sureal.Routine
variable {κ K : Type} [Zero K] [One K] [Add K] [Neg K] [Sub K] [Mul K] [Div K] [NatCast K]
  [LT K] [LE K] [DecidableLT K] [DecidableLE K] [MathFn K]

/-- lines 1150-1154: `raw_scores` and `reconstructions` of the first result are deleted -/
def trim : List (Report κ K) → Py (List (Report κ K))
  | [] => .error .index
  | r :: l => .ok ({ r with result := { r.result with rawScores := none, reconstructions := none } } :: l)

/-- `_get_sample_stats_wrapper`, routine.py:1141-1156 -/
def wrapper [LinearOrder κ] (find : String → Py (Reader κ K → Py (Result κ K))) (frac : Option (Fl K)) (order : Nat → List Nat) (src : Source κ K)
    (name : String) : Py (List (List (Report κ K))) :=
  match find name with
  | .error e => .error e
  | .ok m =>
    match sampleStats frac (fun _ => order) [src] [m] with
    | .error e => .error e
    | .ok rs => mapPy trim rs

/-- `int(subj_fraction * 100)`, lines 1121 and 1124, for a fraction from 0 to 1 -/
def percent (f : Fl K) : Nat := (List.range 100).countP fun i => ((i + 1 : Nat) : Fl K).le (f * ((100 : Nat) : Fl K))

/-- the names on the axes, lines 1119-1124 -/
def tag (name : String) : Option (Fl K) → String
  | none => name
  | some f => name ++ " " ++ toString (percent f) ++ "% data"

/-- what is drawn into one pair of axes: the points of the scatter plot and their label, the names of the axes, the differences whose histogram is
drawn, and the numbers in the title -/
structure Compared (K : Type) where
  label : List Char
  xlabel : String
  ylabel : String
  xs : List (Fl K)
  ys : List (Fl K)
  diffs : List (Fl K)
  meanDiff : Fl K
  stdDiff : Fl K
  plcc : Fl K
  srocc : Fl K

/-- lines 1111-1137.  If the lists differ in length the subtraction or `pearsonr` raises the same exception. -/
def compared (path : List Char) (xlabel ylabel : String) (xs ys : List (Fl K)) : Py (Compared K) :=
  let diffs := List.zipWith (fun y x => y - x) ys xs
  match Stats.pearsonr xs ys with
  | .error e => .error e
  | .ok plcc =>
    match Stats.spearmanr xs ys with
    | .error e => .error e
    | .ok srocc => .ok ⟨(FileName.withoutExtension path).take 30, xlabel, ylabel, xs, ys, diffs, Np.mean diffs, Np.std diffs, plcc, srocc⟩

/-- the two inner loops for one pair of axes, lines 1106-1137 -/
def axesPair (path : List Char) (xlabel ylabel : String) (ts cs : List (List (Report κ K))) : Py (List (Compared K)) :=
  match ts, cs with
  | t :: _, c :: _ => mapPy (fun p => compared path xlabel ylabel p.1.result.qualityScores p.2.result.qualityScores) (t.zip c)
  | _, _ => .error .index

/-- a figure: how many pairs of axes it has and what is drawn into the first of them; the others stay empty -/
structure Figure (K : Type) where
  ncols : Nat
  drawn : List (List (Compared K))

/-- the body of the loop over the datasets, lines 1080-1138; `plt.subplots` refuses zero columns -/
def compareOne [LinearOrder κ] (find : String → Py (Reader κ K → Py (Result κ K))) (fT fC : Option (Fl K)) (order : Nat → Nat → List Nat)
    (src : Source κ K) (targets compareds : List String) : Py (Figure K) :=
  match mapPy (fun p => wrapper find fT (order p.2) src p.1) targets.zipIdx with
  | .error e => .error e
  | .ok tss =>
    match mapPy (fun p => wrapper find fC (order (targets.length + p.2)) src p.1) compareds.zipIdx with
    | .error e => .error e
    | .ok css =>
      if css.length = 0 then .error .value
      else
        match mapPy (fun p => axesPair src.path (tag p.1.1 fT) (tag p.2.1 fC) p.1.2 p.2.2) ((targets.zip tss).zip (compareds.zip css)) with
        | .error e => .error e
        | .ok drawn => .ok ⟨css.length, drawn⟩

/-- `plot_scatter_target_vs_compared_models`, routine.py:1070-1138; `order i` is used for the dataset number `i` -/
def compareModels [LinearOrder κ] (find : String → Py (Reader κ K → Py (Result κ K))) (fT fC : Option (Fl K)) (order : Nat → Nat → Nat → List Nat)
    (srcs : List (Source κ K)) (targets compareds : List String) : Py (List (Figure K)) :=
  mapPy (fun p => compareOne find fT fC (order p.2) p.1 targets compareds) srcs.zipIdx

end Sureal.Routine
