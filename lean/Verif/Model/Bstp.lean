import Verif.Model.Mle
import Verif.Model.Mock
import Mathlib.Data.List.Sort
/-!
# Maximum likelihood with bootstrapped confidence intervals (`sureal/experimental.py`)

`np.random.seed(i); np.random.choice(range(n), size=n, replace=True)` is a parameter `choice i n`; its contract (`n` numbers
below `n`) is a hypothesis of the theorems that need it.  Options that must be Booleans are Booleans.  Numbers are exact, so the
two formulas `np.percentile` uses for rounding coincide.
-/
namespace Sureal.Bstp
variable {κ K : Type} [LinearOrder κ] [Zero K] [One K] [Add K] [Neg K] [Sub K] [Mul K] [Div K] [NatCast K]
  [LT K] [LE K] [DecidableLT K] [DecidableLE K]

/-- `np.percentile(l, num/10)` of a non-empty list, linear interpolation: the entry of the sorted list at position
`(n - 1) * num / 1000`, between two entries if that is not an integer; NaN if there is a NaN -/
def percentile (num : Nat) (l : List (Fl K)) : Fl K :=
  if l.any Fl.isNan then .nan
  else
    let s := l.insertionSort (fun a b => a.le b = true)
    let pos := (l.length - 1) * num
    let i := pos / 1000
    let a := (s[i]?).getD .nan
    let b := (s[min (i + 1) (l.length - 1)]?).getD .nan
    a + (b - a) * Fl.dec (pos % 1000) 1000

/-- `np.array(l)[sel]`; out of range raises IndexError (there are no negative indices here) -/
def pick (l : List (Fl K)) (sel : List Int) : Py (List (Fl K)) :=
  mapPy (fun (i : Int) => match l[i.toNat]? with | some x => .ok x | none => .error .index) sel

/-- `np.array(a) - np.array(b)` of one-dimensional arrays: equal lengths, or one of them of length 1 -/
def sub (a b : List (Fl K)) : Py (List (Fl K)) :=
  if a.length = b.length then .ok (List.zipWith (fun x y => x - y) a b)
  else
    match a, b with
    | [x], _ => .ok (b.map fun y => x - y)
    | _, [y] => .ok (a.map fun x => x - y)
    | _, _ => .error .value

/-- `np.mean(np.array(a) - np.array(b)[sel])`, lines 89-92 and 122-125 -/
def offset (a b : List (Fl K)) (sel : List Int) : Py (Fl K) :=
  match pick b sel with
  | .error e => .error e
  | .ok c =>
    match sub a c with
    | .error e => .error e
    | .ok l => .ok (Np.mean l)

/-- `np.percentile(np.array(rows), num/10, axis=0)` of a non-empty list of rows; `np.array` of rows of different lengths is a
ValueError -/
def percentiles (num : Nat) (rows : List (List (Fl K))) : Py (List (Fl K)) :=
  let cols := (rows.head?.getD []).length
  if rows.all (fun r => r.length == cols) then
    .ok ((List.range cols).map fun e => percentile num (rows.map fun r => (r[e]?).getD .nan))
  else .error .value

/-- `[est - np.percentile(rows, 2.5, axis=0), np.percentile(rows, 97.5, axis=0) - est]`, lines 101-104, 134-142 -/
def interval (est : List (Fl K)) (rows : List (List (Fl K))) : Py (List (Fl K) × List (Fl K)) :=
  match percentiles 25 rows, percentiles 975 rows with
  | .error e, _ => .error e
  | _, .error e => .error e
  | .ok lo, .ok hi =>
    match sub est lo, sub hi est with
    | .error e, _ => .error e
    | _, .error e => .error e
    | .ok l, .ok u => .ok (l, u)

variable [MathFn K]

/-- the keyword arguments read here only; `none`: absent or `None` -/
structure Kw where
  nBootstrap : Option Int := none
  bootstrapSubjects : Option Bool := none
  boostrapDisVideos : Option Bool := none

/-- `new_kwargs`, lines 25-26 -/
def unforced (o : Mle.Opts K) : Mle.Opts K := { o with base := { o.base with forceSubjbiasZeromean := some (some false) } }

/-- one pass of the loop of `_bootstrap_subjects`, lines 77-99: the shifted `quality_scores` -/
def subjectsPass (mode : Mle.Mode) (d : Dataset κ K) (o : Mle.Opts K) (bias : List (Fl K)) (sel : List Int) : Py (List (Fl K)) :=
  match Mock.selectSubjectReader d (some sel) with
  | .error e => .error e
  | .ok rd =>
    match Mle.runModelingWith mode rd o with
    | .error e => .error e
    | .ok r =>
      match r.observerBias with
      | none => .error .key
      | some b =>
        match offset b bias sel with
        | .error e => .error e
        | .ok off => .ok (r.qualityScores.map fun q => q + off)

/-- one pass of the loop of `_boostrap_dis_videos`, lines 110-132: the shifted `observer_bias`, and `observer_inconsistency` -/
def videosPass (mode : Mle.Mode) (d : Dataset κ K) (o : Mle.Opts K) (quality : List (Fl K)) (sel : List Int) :
    Py (List (Fl K) × List (Fl K)) :=
  match Mock.selectDisVideoReader d (some sel) with
  | .error e => .error e
  | .ok rd =>
    match Mle.runModelingWith mode rd o with
    | .error e => .error e
    | .ok r =>
      match offset r.qualityScores quality sel with
      | .error e => .error e
      | .ok off =>
        match r.observerBias, r.observerInconsistency with
        | some b, some v => .ok (b.map fun x => x + off, v)
        | _, _ => .error .key

/-- `_bootstrap_subjects`, lines 74-105 -/
def bootstrapSubjects (mode : Mle.Mode) (d : Dataset κ K) (o : Mle.Opts K) (choice : Nat → Nat → List Int) (res : Result κ K)
    (nSubj n : Nat) : Py (List (Fl K) × List (Fl K)) :=
  match res.observerBias with
  | none => .error .key
  | some bias =>
    match mapPy (fun i => subjectsPass mode d o bias (choice i nSubj)) (List.range n) with
    | .error e => .error e
    | .ok rows => interval res.qualityScores rows

/-- `_boostrap_dis_videos`, lines 107-143: the intervals of the biases and of the inconsistencies -/
def bootstrapVideos (mode : Mle.Mode) (d : Dataset κ K) (o : Mle.Opts K) (choice : Nat → Nat → List Int) (res : Result κ K)
    (nVid n : Nat) : Py ((List (Fl K) × List (Fl K)) × (List (Fl K) × List (Fl K))) :=
  match mapPy (fun i => videosPass mode d o res.qualityScores (choice i nVid)) (List.range n) with
  | .error e => .error e
  | .ok rows =>
    match res.observerBias, res.observerInconsistency with
    | some b, some v =>
      match interval b (rows.map Prod.fst) with
      | .error e => .error e
      | .ok cb =>
        match interval v (rows.map Prod.snd) with
        | .error e => .error e
        | .ok cv => .ok (cb, cv)
    | _, _ => .error .key

/-- a result with the two intervals `Result` has no field for -/
structure Out (κ K : Type) where
  res : Result κ K
  /-- `observer_bias_ci95` -/
  biasCi95 : Option (List (Fl K) × List (Fl K))
  /-- `observer_inconsistency_ci95` -/
  inconsistencyCi95 : Option (List (Fl K) × List (Fl K))

/-- lines 65-70 -/
def recentre (force : Bool) (res : Result κ K) : Py (Result κ K) :=
  if force then
    match res.observerBias with
    | none => .error .assertion
    | some b =>
      let m := Np.mean b
      .ok { res with observerBias := some (b.map fun x => x - m), qualityScores := res.qualityScores.map fun x => x + m }
  else .ok res

/-- `quality_scores_ci95`, lines 49-54; `none`: deleted -/
def subjectsCi (mode : Mle.Mode) (d : Dataset κ K) (o : Mle.Opts K) (choice : Nat → Nat → List Int) (res : Result κ K)
    (flag : Bool) (nSubj n : Nat) : Py (Option (List (Fl K) × List (Fl K))) :=
  if flag then
    match bootstrapSubjects mode d o choice res nSubj n with
    | .error e => .error e
    | .ok ci => .ok (some ci)
  else .ok none

/-- `observer_bias_ci95` and `observer_inconsistency_ci95`, lines 56-63; `none`: deleted.  (Deleting cannot fail: MLE models
that have biases write them.) -/
def videosCi (mode : Mle.Mode) (d : Dataset κ K) (o : Mle.Opts K) (choice : Nat → Nat → List Int) (res : Result κ K)
    (flag : Bool) (nVid n : Nat) : Py (Option (List (Fl K) × List (Fl K)) × Option (List (Fl K) × List (Fl K))) :=
  if flag then
    match bootstrapVideos mode d o choice res nVid n with
    | .error e => .error e
    | .ok ci => .ok (some ci.1, some ci.2)
  else .ok (none, none)

/-- `MaximumLikelihoodEstimationModelWithBootstrapping._run_modeling`, lines 18-72 -/
def runModelingWith (mode : Mle.Mode) (choice : Nat → Nat → List Int) (d : Dataset κ K) (rd : Reader κ K) (o : Mle.Opts K)
    (kw : Kw) : Py (Out κ K) :=
  match Mle.runModelingWith mode rd (unforced o) with
  | .error e => .error e
  | .ok r0 =>
    match numObservers rd.disVideos with
    | .error e => .error e
    | .ok nSubj =>
      if 0 < kw.nBootstrap.getD 30 then
        match subjectsCi mode d (unforced o) choice r0 (kw.bootstrapSubjects.getD true) nSubj (kw.nBootstrap.getD 30).toNat with
        | .error e => .error e
        | .ok ci =>
          match videosCi mode d (unforced o) choice r0 (kw.boostrapDisVideos.getD true) rd.disVideos.length
              (kw.nBootstrap.getD 30).toNat with
          | .error e => .error e
          | .ok cis =>
            match recentre (Ap.forced o.base) { r0 with qualityScoresCi95 := ci } with
            | .error e => .error e
            | .ok r => .ok ⟨r, cis.1, cis.2⟩
      else .error .assertion

/-- `run_modeling(**o)` of `MLE_BSTP` (`mode = .default`) and `MLE_CO_BSTP` (`.contentOblivious`, lines 146-149) on a
`RawDatasetReader` of the dataset, through `SubjectiveModel.run_modeling` (subjective_model.py:63-76), which changes the
entries `quality_scores` and `observers` only -/
def run (mode : Mle.Mode) (choice : Nat → Nat → List Int) (d : Dataset κ K) (o : Mle.Opts K) (kw : Kw) : Py (Out κ K) :=
  match rawReader d with
  | .error e => .error e
  | .ok rd =>
    match runModelingWith mode choice d rd o kw with
    | .error e => .error e
    | .ok out =>
      match runModeling (fun _ _ => .ok out.res) rd o.base with
      | .error e => .error e
      | .ok r => .ok { out with res := r }

end Sureal.Bstp
