import Verif.Model.Mle
/-!
# The early maximum likelihood model (`sureal/subjective_model.py` lines 536-661, TYPE "MLE_legacy")

pandas reductions: `DataFrame.sum`, `.mean`, `.std(ddof=0)` and (through `np.mean` of a Series) `Series.mean` skip NaN.
Not modelled: the progress message.  `use_log` is read as a truth value.
-/
namespace Sureal
variable {κ K : Type} [Zero K] [One K] [Add K] [Neg K] [Sub K] [Mul K] [Div K] [NatCast K]
  [LT K] [LE K] [DecidableLT K] [DecidableLE K] [MathFn K]

namespace Legacy

/-- keyword arguments: those of the preprocessing, and `use_log` (absent: False) -/
structure Opts (K : Type) where
  base : Sureal.Opts K := {}
  useLog : Bool := false

/-- `MAX_ITR`, line 593 -/
def maxItr : Nat := 5000
/-- `REFRESH_RATE`, line 594 -/
def rate : Fl K := Fl.dec 1 10
/-- `DELTA_THR`, line 595 -/
def thr : Fl K := Fl.dec 1 100000000

variable {E S : Nat}

/-- `pd.DataFrame(f).sum(axis=0)`: sum over videos -/
def sumE (f : Arr2 (Fl K) E S) : Arr1 (Fl K) S := fun s => Np.nansum (colL f s)
/-- `pd.DataFrame(f).sum(axis=1)`: sum over observers -/
def sumS (f : Arr2 (Fl K) E S) : Arr1 (Fl K) E := fun e => Np.nansum (rowL f e)

/-- `old * (1.0 - REFRESH_RATE) + new * REFRESH_RATE`, lines 608, 616, 623, 630 -/
def refresh (old new : Fl K) : Fl K := old * (1 - rate) + new * rate

/-- `x_e`, `b_s`, `v_s`, `log_v_s` -/
structure St (K : Type) (E S : Nat) where
  x : Arr1 (Fl K) E
  b : Arr1 (Fl K) S
  v : Arr1 (Fl K) S
  lv : Arr1 (Fl K) S

/-- lines 581-589 -/
def init (d : Arr2 (Fl K) E S) : St K E S :=
  let mos : Arr1 (Fl K) E := fun e => Np.nanmean (rowL d e)
  let r : Arr2 (Fl K) E S := fun e s => d e s - mos e
  let v : Arr1 (Fl K) S := fun s => Np.nanstd 0 (colL r s)
  { x := mos, b := fun _ => 0, v := v, lv := fun s => (v s).log }

/-- (8), lines 604-608 -/
def newB (d : Arr2 (Fl K) E S) (p : St K E S) : Arr1 (Fl K) S :=
  let num := sumE fun e s => d e s - p.x e
  let den := sumE fun e s => oneOrNan (d e s)
  fun s => refresh (p.b s) (num s / den s)

/-- `a_es`, line 610 -/
def resid (d : Arr2 (Fl K) E S) (x : Arr1 (Fl K) E) (b : Arr1 (Fl K) S) : Arr2 (Fl K) E S := fun e s => d e s - x e - b s

/-- (9'), lines 612-617: `log_v_s` -/
def newLv (d : Arr2 (Fl K) E S) (p : St K E S) (b : Arr1 (Fl K) S) : Arr1 (Fl K) S :=
  let num := sumE fun e s => -1 + (resid d p.x b e s).sq / (p.v s).sq
  let den := sumE fun e s => (-((2 : Nat) : Fl K)) * (resid d p.x b e s).sq / (p.v s).sq
  fun s => refresh (p.lv s) (p.lv s - num s / den s)

/-- (9), lines 619-623: `v_s` -/
def newV (d : Arr2 (Fl K) E S) (p : St K E S) (b : Arr1 (Fl K) S) : Arr1 (Fl K) S :=
  let num := sumE fun e s => ((2 : Nat) : Fl K) * 1 * ((p.v s).sq * p.v s) - ((4 : Nat) : Fl K) * p.v s * (resid d p.x b e s).sq
  let den := sumE fun e s => 1 * (p.v s).sq - ((3 : Nat) : Fl K) * (resid d p.x b e s).sq
  fun s => refresh (p.v s) (num s / den s)

/-- (7), lines 626-630 -/
def newX (d : Arr2 (Fl K) E S) (x : Arr1 (Fl K) E) (b v : Arr1 (Fl K) S) : Arr1 (Fl K) E :=
  let num := sumS fun e s => (d e s - b s) / (v s).sq
  let den := sumS fun e s => oneOrNan (d e s) / (v s).sq
  fun e => refresh (x e) (num e / den e)

/-- one pass through the loop, lines 602-630 -/
def step (useLog : Bool) (d : Arr2 (Fl K) E S) (p : St K E S) : St K E S :=
  let b := newB d p
  let lv := if useLog then newLv d p b else p.lv
  let v := if useLog then (fun s => (lv s).exp) else newV d p b
  { x := newX d p.x b v, b := b, v := v, lv := lv }

/-- the loop, lines 599-646, entered with `itr` passes done -/
def loop (useLog : Bool) (d : Arr2 (Fl K) E S) (itr : Nat) (p : St K E S) : Py (St K E S) :=
  let t := step useLog d p
  match Np.linalgNorm (List.ofFn fun e => p.x e - t.x e) with
  | .error e => .error e
  | .ok delta =>
    if delta.lt thr then .ok t
    else if maxItr ≤ itr + 1 then .ok t
    else loop useLog d (itr + 1) t
termination_by maxItr - itr
decreasing_by
  have h : ¬ maxItr ≤ itr + 1 := by assumption
  omega

/-- lines 650-653: the mean of the biases skips NaN -/
def centre (force : Bool) (p : St K E S) : St K E S :=
  if force then
    let m := Np.nanmean (List.ofFn p.b)
    { p with x := fun e => p.x e + m, b := fun s => p.b s - m }
  else p

/-- `LegacyMaximumLikelihoodEstimationModel._run_modeling`, lines 554-661 -/
def runModelingWith (rd : Reader κ K) (o : Opts K) : Py (Result κ K) :=
  if o.base.subjectRejection.isTrue then .error .assertion
  else
    match preprocess rd o.base with
    | .error e => .error e
    | .ok p =>
      if h : p.arr.R = 1 then
        let d : Arr2 (Fl K) p.arr.E p.arr.S := fun e s => p.arr.get e s ⟨0, by omega⟩
        match loop o.useLog d 0 (init d) with
        | .error e => .error e
        | .ok t =>
          let q := centre (Ap.forced o.base) t
          .ok { qualityScores := List.ofFn q.x
                observerBias := some (List.ofFn q.b)
                observerInconsistency := some (List.ofFn q.v) }
      else .error .assertion

end Legacy

/-- `LegacyMaximumLikelihoodEstimationModel(reader).run_modeling(**o)`, lines 63-76 and 536-661 -/
def runLegacy (rd : Reader κ K) (o : Legacy.Opts K) : Py (Result κ K) :=
  runModeling (fun rd b => Legacy.runModelingWith rd { o with base := b }) rd o.base

end Sureal
