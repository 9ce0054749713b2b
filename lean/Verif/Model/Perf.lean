import Verif.Model.Corr
/-!
# Performance metrics (`sureal/perf_metric.py`)

`np.linalg.lstsq` is a parameter (`fit`: the intercept and slope of `x` on `z`); with `rcond=1` LAPACK uses its default cut-off.
`scipy.stats.kendalltau` is modelled from the scipy implementation (tau-b), for inputs without NaN, without rounding.
-/
namespace Sureal.Perf
variable {K : Type} [Zero K] [One K] [Add K] [Neg K] [Sub K] [Mul K] [Div K] [NatCast K]
  [LT K] [LE K] [DecidableLT K] [DecidableLE K]

/-- an entry of `groundtruths`: a number, or something with a length (raw scores) -/
inductive Truth (K : Type) where
  | num (x : Fl K)
  | votes (l : List (Fl K))

/-- `PerfMetric._assert_args`, lines 37-38 -/
def assertArgs (gts : List (Truth K)) (preds : List (Fl K)) : Py Unit :=
  if gts.length = preds.length then .ok () else .error .assertion

/-- lines 82-84: `aggr_method` (default `np.mean`) of raw scores -/
def aggregate (aggr : List (Fl K) → Fl K) : Truth K → Fl K
  | .num x => x
  | .votes l => aggr l

/-- `np.max` of a list (NaN if there is one, ValueError for an empty list) -/
def npMax : List (Fl K) → Py (Fl K)
  | [] => .error .value
  | x :: l => .ok (l.foldl (fun a b => if a.isNan then a else if b.isNan then b else if a.lt b then b else a) x)

/-- `np.min` of a list -/
def npMin : List (Fl K) → Py (Fl K)
  | [] => .error .value
  | x :: l => .ok (l.foldl (fun a b => if a.isNan then a else if b.isNan then b else if b.lt a then b else a) x)

/-- `AggrScorePerfMetric.sigmoid_adjust` (`sureal/perf_metric.py` lines 55-75) -/
def sigmoidAdjust [MathFn K] (fit : List (Fl K) → List (Fl K) → Fl K × Fl K) (xs ys : List (Fl K)) : Py (List (Fl K)) :=
  match npMax ys, npMin ys with
  | .ok mx, .ok mn =>
    let ysMax := mx + Fl.dec 1 10
    let ysMin := mn - Fl.dec 1 10
    let yn := ys.map fun y => (y - ysMin) / (ysMax - ysMin)
    let zs := yn.map fun y => Neg.neg ((1 / y - 1).log)
    let ab := fit zs xs
    .ok (xs.map fun x => 1 / (1 + (Neg.neg (x - ab.1) / ab.2).exp) * (ysMax - ysMin) + ysMin)
  | .error e, _ => .error e
  | _, .error e => .error e

/-- `RmsePerfMetric._evaluate`, lines 99-103 -/
def rmse [MathFn K] (g p : List (Fl K)) : Py (Fl K) := .ok (Np.mean (List.zipWith (fun a b => (a - b).sq) g p)).sqrt

/-- the unordered pairs of entries of a list -/
def pairs {α : Type} : List α → List (α × α)
  | [] => []
  | a :: l => l.map (fun b => (a, b)) ++ pairs l

/-- two pairs of numbers in the same order / in opposite order -/
def concordant (q : (Fl K × Fl K) × (Fl K × Fl K)) : Bool :=
  (q.1.1.lt q.2.1 && q.1.2.lt q.2.2) || (q.2.1.lt q.1.1 && q.2.2.lt q.1.2)
def discordant (q : (Fl K × Fl K) × (Fl K × Fl K)) : Bool :=
  (q.1.1.lt q.2.1 && q.2.2.lt q.1.2) || (q.2.1.lt q.1.1 && q.1.2.lt q.2.2)

/-- two equal numbers -/
def tied (a b : Fl K) : Bool := a.le b && b.le a

/-- `scipy.stats.kendalltau(x, y)[0]`: NaN for empty input or if one side is constant -/
def kendalltau [MathFn K] (x y : List (Fl K)) : Py (Fl K) :=
  if x.length ≠ y.length then .error .value
  else
    let ps := pairs (x.zip y)
    let tot := ps.length
    let xtie := ps.countP (fun q => tied q.1.1 q.2.1)
    let ytie := ps.countP (fun q => tied q.1.2 q.2.2)
    if xtie = tot ∨ ytie = tot then .ok .nan
    else .ok ((.fin ((ps.countP concordant : Nat) : K) - .fin ((ps.countP discordant : Nat) : K))
      / (Fl.fin ((tot - xtie : Nat) : K)).sqrt / (Fl.fin ((tot - ytie : Nat) : K)).sqrt)

/-- the four metrics, lines 94-142: RMSE (94-103), SRCC (lines 106-116), PCC (119-129), KENDALL (132-142) -/
inductive Metric where
  | rmse | srcc | pcc | kendall

def Metric.score [MathFn K] : Metric → List (Fl K) → List (Fl K) → Py (Fl K)
  | .rmse => Perf.rmse
  | .srcc => Stats.spearmanr
  | .pcc => Stats.pearsonr
  | .kendall => kendalltau

/-- `Metric(groundtruths, predictions).evaluate(aggr_method=aggr, enable_mapping=mapping)['score']`: lines 24-48, 77-91.
`mapping = none` stands for `enable_mapping=False`. -/
def evaluate [MathFn K] (m : Metric) (aggr : List (Fl K) → Fl K) (mapping : Option (List (Fl K) → List (Fl K) → Fl K × Fl K))
    (gts : List (Truth K)) (preds : List (Fl K)) : Py (Fl K) :=
  match assertArgs gts preds with
  | .error e => .error e
  | .ok () =>
    let g := gts.map (aggregate aggr)
    match mapping with
    | none => m.score g preds
    | some fit =>
      match sigmoidAdjust fit preds g with
      | .error e => .error e
      | .ok p => m.score g p

end Sureal.Perf
