import Verif.Model.Validate
import Verif.Model.Perf
/-!
# The plots of `validate_with_synthetic_dataset` (`sureal/routine.py` lines 816-966)

The data handed to matplotlib: points, error bars, colours, markers, the numbers in the label and the ends of the gray line.  Titles, the text
around the numbers and the drawing itself are not modelled.  A matplotlib from version 3.4 on refuses negative error bars (`strict`).
-/
namespace Sureal.Routine
variable {κ K : Type} [Zero K] [One K] [Add K] [Neg K] [Sub K] [Mul K] [Div K] [NatCast K]
  [LT K] [LE K] [DecidableLT K] [DecidableLE K] [MathFn K]

/-- the keys of `ax_dict` that are looked at -/
inductive Panel where
  | quality | qualityStd | bias | inconsistency | ambiguity
  deriving DecidableEq

/-- the points of one model in one panel, with the numbers of the label, and the ends of the gray line -/
structure Points (K : Type) where
  xs : List (Fl K)
  ys : List (Fl K)
  bars : Option (List (List (Fl K))) := none
  rmse : Fl K
  perc : Option (Fl K) := none
  color : String
  marker : String
  line : Fl K × Fl K

/-- the options of the plots: `ax_dict`, `do_errorbar`, `color_dict`, `marker_dict` -/
structure PlotOpts where
  axes : List Panel := []
  errorbar : Bool := false
  colors : List (String × String) := []
  markers : List (String × String) := []

/-- Python's `min(x)` and `max(x)` (a later item wins if it is smaller/larger), ValueError for nothing -/
def pyMin : List (Fl K) → Py (Fl K)
  | [] => .error .value
  | x :: l => .ok (l.foldl (fun a b => if b.lt a then b else a) x)
def pyMax : List (Fl K) → Py (Fl K)
  | [] => .error .value
  | x :: l => .ok (l.foldl (fun a b => if a.lt b then b else a) x)

/-- the ends of `np.arange(min(x), max(x), step=0.01)`, lines 866-867 and the like: `arange` of something infinite or NaN is a ValueError -/
def line (x : List (Fl K)) : Py (Fl K × Fl K) :=
  match pyMin x with
  | .error e => .error e
  | .ok a =>
    match pyMax x with
    | .error e => .error e
    | .ok b =>
      match a, b with
      | .fin _, .fin _ => .ok (a, b)
      | _, _ => .error .value

/-- `ax.errorbar(x, y, yerr=…)`: the two rows of half widths must have the length of `y`, and a matplotlib from version 3.4 on refuses negative ones -/
def errorbar (strict : Bool) (y : List (Fl K)) (bars : List (List (Fl K))) : Py Unit :=
  if bars.all fun r => r.length == y.length then
    if strict && bars.any fun r => r.any fun b => Fl.lt b (-b) then .error .value else .ok ()
  else .error .value

/-- the points of a panel for one model (lines 839-867 with `cut = false`; 884-915, 917-948, 950-966 with `cut = true`: the longer list is cut
off; 869-882 without intervals) -/
def points (strict : Bool) (o : PlotOpts) (name : String) (cut : Bool) (truth est : Option (List (Fl K))) (ci : Option (List (List (Fl K)))) :
    Py (Option (Points K)) :=
  match est, truth with
  | some y, some x =>
    match (match ci with
      | none => .ok none
      | some c =>
        match Ci.ciPercentage (some x) (some y) (some c) with
        | .error e => .error e
        | .ok p => .ok (some p) : Py (Option (Fl K))) with
    | .error e => .error e
    | .ok perc =>
      let n := min x.length y.length
      let x := if cut then x.take n else x
      let y := if cut then y.take n else y
      match Perf.evaluate .rmse Np.mean none (x.map .num) y with
      | .error e => .error e
      | .ok rmse =>
        let bars := if o.errorbar then ci else none
        match (match bars with
          | none => .ok ()
          | some b => errorbar strict y b : Py Unit) with
        | .error e => .error e
        | .ok () =>
          match line x with
          | .error e => .error e
          | .ok l => .ok (some {
              xs := x, ys := y, bars := bars, rmse := rmse, perc := if o.errorbar then perc else none,
              color := (o.colors.lookup name).getD "black", marker := (o.markers.lookup name).getD ".", line := l })
  | _, _ => .ok none

/-- the panel for one model; `std` is `synthetic_result['quality_scores_std']` -/
def panel (strict : Bool) (o : PlotOpts) (truth : Mock.SynthKw K) (std : Option (List (Fl K))) (name : String) (fit : Fit κ K) :
    Panel → Py (Option (Points K))
  | .quality => points strict o name false truth.quality (some fit.res.qualityScores) (fit.res.qualityScoresCi95.map fun p => [p.1, p.2])
  | .qualityStd => points strict o name false std fit.res.qualityScoresStd none
  | .bias => points strict o name true truth.bias fit.res.observerBias fit.biasCi95
  | .inconsistency => points strict o name true truth.inconsistency fit.res.observerInconsistency fit.inconsistencyCi95
  | .ambiguity => points strict o name true truth.qualityAmbiguity fit.res.qualityAmbiguity none

/-- what is drawn: per model and panel -/
abbrev Drawn (K : Type) := List (String × Panel × Points K)

/-- the panels of one model, in the order of the code -/
def panels (strict : Bool) (o : PlotOpts) (truth : Mock.SynthKw K) (std : Option (List (Fl K))) (name : String) (fit : Fit κ K) :
    List Panel → Py (Drawn K)
  | [] => .ok []
  | p :: ps =>
    if p ∈ o.axes then
      match panel strict o truth std name fit p with
      | .error e => .error e
      | .ok q =>
        match panels strict o truth std name fit ps with
        | .error e => .error e
        | .ok d => .ok ((q.toList.map fun q => (name, p, q)) ++ d)
    else panels strict o truth std name fit ps

/-- the loop in lines 822-966 -/
def checkDraw (strict : Bool) (o : PlotOpts) (truth : Mock.SynthKw K) (std : Option (List (Fl K))) :
    List (String × Fit κ K) → List (String × Checked κ K) → Py (List (String × Checked κ K) × Drawn K)
  | [], acc => .ok (acc, [])
  | (ty, fit) :: l, acc =>
    match checkOne truth acc ty fit with
    | .error e => .error e
    | .ok acc =>
      match panels strict o truth std ty fit [.quality, .qualityStd, .bias, .inconsistency, .ambiguity] with
      | .error e => .error e
      | .ok d =>
        match checkDraw strict o truth std l acc with
        | .error e => .error e
        | .ok (out, ds) => .ok (out, d ++ ds)

/-- `validate_with_synthetic_dataset` with plots, routine.py:754-968 -/
def validateDraw [LinearOrder κ] (strict : Bool) (o : PlotOpts) (cls : SynthClass) (w : Rand K) (seed : Option (Option Int))
    (models : List (String × Modelled κ K)) (dataset : Py (Dataset κ K)) (truth : Mock.SynthKw K) (std : Option (List (Fl K)))
    (missing : Option (Fl K)) (write : Bool) : Py (Validation κ K × Drawn K) :=
  if missing.all fun p => Fl.le 0 p && Fl.lt p 1 then
    match dataset with
    | .error e => .error e
    | .ok d =>
      match readerAt cls w seed d truth missing 0 with
      | .error e => .error e
      | .ok rd0 =>
        match writtenDataset write rd0 with
        | .error e => .error e
        | .ok written =>
          match fitAll (readerAt cls w seed d truth missing) (if write then 1 else 0) models with
          | .error e => .error e
          | .ok fits =>
            match checkDraw strict o truth std fits (fits.foldl (fun acc p => setKey p.1 { fit := p.2 } acc) []) with
            | .error e => .error e
            | .ok (results, drawn) => .ok (⟨written, results⟩, drawn)
  else .error .assertion

end Sureal.Routine
