import Verif.Model.Mos
/-!
# The plots of scores, observers and contents in `run_subjective_models` (`sureal/routine.py` lines 275-587)

The data handed to matplotlib: positions, values, error bars, colours, limits of the x axis and tick labels; what matplotlib draws are not
modelled.  Simplifications: a result holds intervals or does not (`TypeError` for an interval that is `None` is not modelled); the
list of observers is as long as stated in the result.
-/
namespace Sureal.ScorePlots
variable {κ K : Type} [Zero K] [One K] [Add K] [Neg K] [Sub K] [Mul K] [Div K] [NatCast K]
  [LT K] [LE K] [DecidableLT K] [DecidableLE K]

/-- `kwargs['plot_type']`, routine.py:60-63; the default is `errorbar` -/
inductive PlotType where
  | bar | errorbar | other

/-- one call of `bar`, `errorbar` or `plot`, and of `set_xlim` after it -/
structure Series (K : Type) where
  xs : List (Fl K)
  ys : List (Fl K)
  err : Option (List (Fl K) × List (Fl K))
  color : String
  axis : Nat × Nat

/-- `colors`, routine.py:81 -/
def colors : List String := ["black", "gray", "blue", "red", "black", "gray", "blue", "red"]

/-- `bar_width = 0.4`, routine.py:277 -/
def barWidth : Fl K := Fl.dec 4 10

/-- `[min(xs), max(xs) + 1]` for `xs = range(n)`, routine.py:335; `min` of nothing is a ValueError -/
def xlim (n : Nat) : Py (Nat × Nat) :=
  match n with
  | 0 => .error .value
  | n + 1 => .ok (0, n + 1)

/-- the values `ys` of the model number `shift`, routine.py:306-335 and the like: bars at `xs + shift * bar_width`, points at
`xs + shift * bar_width + 0.2` -/
def series (pt : PlotType) (shift : Nat) (ys : List (Fl K)) (ci : Option (List (Fl K) × List (Fl K))) : Py (Series K) :=
  match pt with
  | .other => .error .assertion
  | .bar =>
    match colors[shift]? with
    | none => .error .index
    | some c =>
      match xlim ys.length with
      | .error e => .error e
      | .ok lim => .ok { xs := (List.range ys.length).map fun j : Nat => ((j : Nat) : Fl K) + ((shift : Nat) : Fl K) * barWidth,
                         ys := ys, err := none, color := c, axis := lim }
  | .errorbar =>
    match colors[shift]? with
    | none => .error .index
    | some c =>
      match xlim ys.length with
      | .error e => .error e
      | .ok lim => .ok { xs := (List.range ys.length).map fun j : Nat =>
                           ((j : Nat) : Fl K) + ((shift : Nat) : Fl K) * barWidth + Fl.dec 2 10,
                         ys := ys, err := ci, color := c, axis := lim }

/-- `quality[order]` for an array of numbers -/
def fancy (q : List (Fl K)) (order : List Nat) : Py (List (Fl K)) :=
  mapPy (fun i => match q[i]? with | none => .error .index | some x => .ok x) order

/-- the loop in routine.py:299-336, entered with `shift_count = shift`; every result has quality scores -/
def qualityLoop (order : List Nat) (pt : PlotType) (shift : Nat) : List (Result κ K) → Py (List (Series K))
  | [] => .ok []
  | r :: rs =>
    match fancy r.qualityScores order with
    | .error e => .error e
    | .ok ys =>
      match series pt shift ys r.qualityScoresCi95 with
      | .error e => .error e
      | .ok s =>
        match qualityLoop order pt (shift + 1) rs with
        | .error e => .error e
        | .ok ss => .ok (s :: ss)

/-- the plot `quality_scores`, routine.py:275-341; `argsort` is `np.argsort` -/
def quality (argsort : List (Fl K) → List Nat) (sort : Bool) (pt : PlotType) (results : List (Result κ K)) :
    Py (List (Series K)) :=
  match results with
  | [] => .error .index
  | r :: _ =>
    let order := if sort then argsort r.qualityScores else List.range r.qualityScores.length
    qualityLoop order pt 0 results

/-- the points of the observers' biases of one result, with the tick labels: routine.py:379-417; `ci` is
`observer_bias_ci95`, which is part of the model in `Model/ObsCi` -/
def bias (pt : PlotType) (shift : Nat) (ci : Option (List (Fl K) × List (Fl K))) (r : Result κ K) : Py (Option (Series K × Option (List κ))) :=
  match r.observerBias with
  | none => .ok none
  | some b =>
    match series pt shift b ci with
    | .error e => .error e
    | .ok s =>
      match r.observers with
      | none => .ok (some (s, none))
      | some o => if b.length = o.length then .ok (some (s, some o)) else .error .assertion

/-- `my_xticks[ref_video['content_id']] = ref_video['content_name']`, routine.py:577-579: a key that is missing is a KeyError; an
index from the end is possible in Python but the reader has refused negative ids -/
def tick (acc : Py (List String)) (rv : RefVideo) : Py (List String) :=
  match acc with
  | .error e => .error e
  | .ok t =>
    match rv.extra.lookup "content_name" with
    | none => .error .key
    | some name => if 0 ≤ rv.contentId ∧ rv.contentId.toNat < t.length then .ok (t.set rv.contentId.toNat name) else .error .index

/-- the tick labels of the plot of the content ambiguities, routine.py:575-577; `n` is the number of points -/
def contentTicks (n : Nat) (refs : List RefVideo) : Py (List String) := refs.foldl tick (.ok (List.replicate n ""))

end Sureal.ScorePlots
