import Verif.Model.Mos
/-!
# The alternating projection solver (subjective_model.py:1448-1649) and `weighed_nanmean_2d`

Not modelled: the progress message written to stdout and `observer_inconsistency_ci95` (needs `chi2.ppf`).
-/
namespace Sureal
variable {κ K : Type} [Zero K] [One K] [Add K] [Neg K] [Sub K] [Mul K] [Div K] [NatCast K]
  [LT K] [LE K] [DecidableLT K] [DecidableLE K]

/-- `~np.isnan(x) * w` for one cell: `1 * w` or `0 * w` -/
def notNanTimes (x w : Fl K) : Fl K := (if x.isNan then 0 else 1) * w

/-- `weighed_nanmean_2d(a, weights, axis=0)`, tools/misc.py:253-257.
Simplification: the weights have the length the code expects (otherwise numpy broadcasts or raises). -/
def weighedNanmean0 {n m : Nat} (a : Arr2 (Fl K) n m) (w : Arr1 (Fl K) n) : Arr1 (Fl K) m := fun j =>
  Np.nansum (colL (fun i j => a i j * w i) j) / Np.nansum (colL (fun i j => notNanTimes (a i j) (w i)) j)

/-- `weighed_nanmean_2d(a, weights, axis=1)`, tools/misc.py:258-262 -/
def weighedNanmean1 {n m : Nat} (a : Arr2 (Fl K) n m) (w : Arr1 (Fl K) m) : Arr1 (Fl K) n := fun i =>
  Np.nansum (rowL (fun i j => a i j * w j) i) / Np.nansum (rowL (fun i j => notNanTimes (a i j) (w j)) i)

/-- `np.tile(w, R)` for a 1-D array -/
def tile {I : Nat} (w : Arr1 (Fl K) I) (R : Nat) : Arr1 (Fl K) (R * I) := fun k =>
  w ⟨k.val % I, Nat.mod_lt _ (by
    rcases Nat.eq_zero_or_pos I with h | h
    · subst h; exact absurd k.isLt (by simp)
    · exact h)⟩

/-- `_one_or_nan`, subjective_model.py:1453-1457 -/
def oneOrNan (x : Fl K) : Fl K := if x.isNan then .nan else 1

variable [MathFn K]
namespace Ap

/-- `MAX_ITR`, subjective_model.py:1480 -/
def maxItr : Nat := 1000
/-- `DELTA_THR = 1e-8`, subjective_model.py:1481 -/
def deltaThr : Fl K := Fl.dec 1 100000000
/-- `EPSILON = 1e-8`, subjective_model.py:1482 -/
def epsilon : Fl K := Fl.dec 1 100000000

/-- the observer biases given the quality scores, subjective_model.py:1477-1478 and 1510-1511 -/
def biases {J I R : Nat} (x : Arr3 (Fl K) J I R) (s : Arr1 (Fl K) J) : Arr1 (Fl K) I :=
  meanAlongE fun j i r => x j i r - s j

/-- the residue `r_jir`, subjective_model.py:1490 and 1530 -/
def residue {J I R : Nat} (x : Arr3 (Fl K) J I R) (s : Arr1 (Fl K) J) (b : Arr1 (Fl K) I) : Arr3 (Fl K) J I R :=
  fun j i r => x j i r - s j - b i

/-- `v_i`, subjective_model.py:1491 -/
def spreadI {J I R : Nat} (x : Arr3 (Fl K) J I R) (s : Arr1 (Fl K) J) (b : Arr1 (Fl K) I) : Arr1 (Fl K) I :=
  fun i => Np.nanstd 0 (colL (stack0 (residue x s b)) i)

/-- `v_j`, subjective_model.py:1492 -/
def spreadJ {J I R : Nat} (x : Arr3 (Fl K) J I R) (s : Arr1 (Fl K) J) (b : Arr1 (Fl K) I) : Arr1 (Fl K) J :=
  fun j => Np.nanstd 0 (rowL (stack1 (residue x s b)) j)

/-- `w_i`, subjective_model.py:1496 -/
def weight (v : Fl K) : Fl K := 1 / (v.sq + epsilon)

/-- the new quality scores, subjective_model.py:1494-1500 -/
def update {J I R : Nat} (x : Arr3 (Fl K) J I R) (b v : Arr1 (Fl K) I) : Arr1 (Fl K) J :=
  weighedNanmean1 (stack1 fun j i r => x j i r - b i) (tile (fun i => weight (v i)) R)

/-- what the loop leaves behind -/
structure Fit (K : Type) (J I : Nat) where
  s : Arr1 (Fl K) J
  b : Arr1 (Fl K) I
  vi : Arr1 (Fl K) I
  vj : Arr1 (Fl K) J
  itr : Nat

/-- one pass through the loop body, subjective_model.py:1486-1504 -/
def step {J I R : Nat} (x : Arr3 (Fl K) J I R) (itr : Nat) (s : Arr1 (Fl K) J) (b : Arr1 (Fl K) I) : Fit K J I :=
  let vi := spreadI x s b
  let vj := spreadJ x s b
  let s' := update x b vi
  { s := s', b := biases x s', vi := vi, vj := vj, itr := itr + 1 }

/-- the loop `while True`, subjective_model.py:1485-1520, entered with `itr` passes done.  `linalg.norm` raises
ValueError if an entry is not finite. -/
def loop {J I R : Nat} (x : Arr3 (Fl K) J I R) (itr : Nat) (s : Arr1 (Fl K) J) (b : Arr1 (Fl K) I) : Py (Fit K J I) :=
  let f := step x itr s b
  match Np.linalgNorm (List.ofFn fun j => s j - f.s j) with
  | .error e => .error e
  | .ok delta =>
    if delta.lt deltaThr then .ok f
    else if maxItr ≤ f.itr then .ok f
    else loop x (itr + 1) f.s f.b
termination_by maxItr - itr
decreasing_by
  have h : ¬ maxItr ≤ itr + 1 := by assumption
  omega

/-- initialisation and loop, subjective_model.py:1473-1520 -/
def fit {J I R : Nat} (x : Arr3 (Fl K) J I R) : Py (Fit K J I) :=
  let s : Arr1 (Fl K) J := meanAlongS x
  loop x 0 s (biases x s)

/-- `_get_s_j_std`, subjective_model.py:1590-1598 -/
def sStd {J I R : Nat} (x : Arr3 (Fl K) J I R) (vi : Arr1 (Fl K) I) (_vj : Arr1 (Fl K) J) : Arr1 (Fl K) J := fun j =>
  1 / (Fl.maximum 0 (Np.nansum (rowL (stack1 fun j i r => oneOrNan (x j i r) / (vi i).sq) j))).sqrt

/-- `_get_s_j_std` of `...AltSubjStdMixin`, subjective_model.py:1628-1636 -/
def sStdAlt {J I R : Nat} (x : Arr3 (Fl K) J I R) (_vi : Arr1 (Fl K) I) (vj : Arr1 (Fl K) J) : Arr1 (Fl K) J := fun j =>
  1 / (Fl.maximum 0 (Np.nansum (rowL (stack1 fun j i r => oneOrNan (x j i r) / (vj j).sq) j))).sqrt

/-- `b_i_std`, subjective_model.py:1523-1528 -/
def bStd {J I R : Nat} (x : Arr3 (Fl K) J I R) (vi : Arr1 (Fl K) I) : Arr1 (Fl K) I := fun i =>
  1 / (Fl.maximum 0 (Np.nansum (colL (stack0 fun j i r => oneOrNan (x j i r) / (vi i).sq) i))).sqrt

/-- one cell of `lpp`, subjective_model.py:1531-1535 -/
def lppCell (r v : Fl K) : Fl K :=
  1 / v.sq + r.sq * (-((3 : Nat) : Fl K) * v.sq.sq) / v.sq.sq.sq

/-- `v_i_std`, subjective_model.py:1530-1538 -/
def vStd {J I R : Nat} (x : Arr3 (Fl K) J I R) (s : Arr1 (Fl K) J) (b vi : Arr1 (Fl K) I) : Arr1 (Fl K) I := fun i =>
  1 / (Fl.maximum 0 (-(Np.nansum (colL (stack0 fun j i r => lppCell (residue x s b j i r) (vi i)) i)))).sqrt

/-- `norm.pdf(x, loc, scale)` for one cell: NaN unless the scale is positive -/
def normPdf (x loc scale : Fl K) : Fl K := if Fl.lt 0 scale then gaussian x loc scale else .nan

/-- `loglikelihood_function`, subjective_model.py:1608-1624 -/
def loglik {J I R : Nat} (x : Arr3 (Fl K) J I R) (s : Arr1 (Fl K) J) (b vi : Arr1 (Fl K) I) : Fl K :=
  Np.sum (((List.finRange J).flatMap fun j => (List.finRange I).flatMap fun i => (List.finRange R).flatMap fun r =>
    if (x j i r).isNan then [] else [(normPdf (x j i r) (s j + b i) (vi i)).log]))

/-- `force_subjbias_zeromean`, subjective_model.py:1462-1464: absent and `None` mean True -/
def forced (o : Opts K) : Bool := o.forceSubjbiasZeromean != some (some false)

/-- the final centring, subjective_model.py:1542-1545 -/
def centre {J I : Nat} (force : Bool) (s : Arr1 (Fl K) J) (b : Arr1 (Fl K) I) : Arr1 (Fl K) J × Arr1 (Fl K) I :=
  if force then
    let m := Np.mean (List.ofFn b)
    (fun j => s j + m, fun i => b i - m)
  else (s, b)

/-- the result dictionary, subjective_model.py:1522-1588; `sd` is `cls._get_s_j_std` -/
def result {J I R : Nat} (sd : Arr3 (Fl K) J I R → Arr1 (Fl K) I → Arr1 (Fl K) J → Arr1 (Fl K) J)
    (force : Bool) (x : Arr3 (Fl K) J I R) (orig : Arr3D (Fl K)) (f : Fit K J I) : Result κ K :=
  let sjStd := sd x f.vi f.vj
  let c := centre force f.s f.b
  let origNum := Np.countNotNan (ravel3 orig.get)
  let num := Np.countNotNan (ravel3 x)
  let dof : Fl K := ((orig.E + orig.S * orig.R * 2 : Nat) : Fl K) / ((origNum : Nat) : Fl K)
  let ll : Fl K := loglik x c.1 c.2 f.vi / ((num : Nat) : Fl K)
  { qualityScores := List.ofFn c.1
    qualityScoresStd := some (List.ofFn sjStd)
    qualityScoresCi95 := some (List.ofFn fun j => ci95Factor * sjStd j, List.ofFn fun j => ci95Factor * sjStd j)
    rawScores := some ⟨J, I, R, x⟩
    reconstructions := some ⟨J, I, R, fun j i _ => c.1 j + c.2 i⟩
    dof := some dof
    loglikelihood := some ll
    aic := some (((2 : Nat) : Fl K) * dof - ((2 : Nat) : Fl K) * ll)
    bic := some ((((origNum : Nat) : Fl K)).log * dof - ((2 : Nat) : Fl K) * ll)
    observerBias := some (List.ofFn c.2)
    observerBiasStd := some (List.ofFn (bStd x f.vi))
    observerInconsistency := some (List.ofFn f.vi)
    observerInconsistencyStd := some (List.ofFn (vStd x f.s f.b f.vi))
    observerScoresMean := some (List.ofFn (meanAlongE x))
    observerScoresStd := some (List.ofFn fun i => Np.nanstd 0 (colL (stack0 x) i))
    numIter := some f.itr }

/-- `SubjectMLEModelProjectionSolver._run_modeling`, subjective_model.py:1459-1588.  Simplification: the option is
a bool or `None`, so `assert isinstance(.., bool)` holds. -/
def runModelingWith (sd : {J I R : Nat} → Arr3 (Fl K) J I R → Arr1 (Fl K) I → Arr1 (Fl K) J → Arr1 (Fl K) J)
    (rd : Reader κ K) (o : Opts K) : Py (Result κ K) :=
  match preprocess rd o with
  | .error e => .error e
  | .ok p =>
    match fit p.arr.get with
    | .error e => .error e
    | .ok f => .ok (result sd (forced o) p.arr.get p.orig f)

end Ap

/-- `run_modeling(**o)` of the solver classes, which differ in `_get_s_j_std` only -/
def runAPWith (sd : {J I R : Nat} → Arr3 (Fl K) J I R → Arr1 (Fl K) I → Arr1 (Fl K) J → Arr1 (Fl K) J)
    (rd : Reader κ K) (o : Opts K) : Py (Result κ K) :=
  runModeling (Ap.runModelingWith sd) rd o

/-- `SubjectMLEModelProjectionSolver(reader).run_modeling(**o)` (`Subject_MLE_Projection`, `MLE_CO_AP`) -/
def runAP (rd : Reader κ K) (o : Opts K) : Py (Result κ K) := runAPWith Ap.sStd rd o

/-- `SubjectMLEModelProjectionSolver2(reader).run_modeling(**o)` (`Subject_MLE_Projection2`, `MLE_CO_AP2`,
`P910AnnexEModel`) -/
def runAP2 (rd : Reader κ K) (o : Opts K) : Py (Result κ K) := runAPWith Ap.sStdAlt rd o

end Sureal
