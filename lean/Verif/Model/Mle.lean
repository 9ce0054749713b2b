import Verif.Model.Ap
/-!
# The maximum likelihood model (subjective_model.py:664-1190) and its DMOS wrappers (1267-1292)

Not modelled: the progress message written to stdout, and the entry `observer_inconsistency_ci95` (needs `chi2.ppf`).
-/
namespace Sureal
variable {κ K : Type} [Zero K] [One K] [Add K] [Neg K] [Sub K] [Mul K] [Div K] [NatCast K]
  [LT K] [LE K] [DecidableLT K] [DecidableLE K]

/-- `convolution_of_two_uniforms`, tools/stats.py:78-119 (lines 111 and 117 use `x` where `z` is meant) -/
def convUniforms (x loc1 s1 loc2 s2 : Fl K) : Fl K :=
  let two : Fl K := ((2 : Nat) : Fl K)
  let z := x - loc1 - loc2
  let d := (s1 - s2).abs
  let s := s1 + s2
  let h := two / (d + s)
  if ((-s) / two).le z && z.lt ((-d) / two) then
    let x0 := (-s) / two
    let x1 := (-d) / two
    (h - 0) / (x1 - x0) * (x - x0) + 0
  else if ((-d) / two).le z && z.lt (d / two) then h
  else if (d / two).le z && z.lt (s / two) then
    let x0 := s / two
    let x1 := d / two
    (h - 0) / (x1 - x0) * (x - x0) + 0
  else 0

variable [MathFn K]

namespace Mle

/-- `cls.mode`, subjective_model.py:681, 1184, 1190 -/
inductive Mode where
  | default | contentOblivious | subjectOblivious
  deriving DecidableEq, Repr

/-- `kwargs['gradient_method']` after the check of subjective_model.py:734-735 -/
inductive Method where
  | simplified | original | numerical
  deriving DecidableEq, Repr

/-- the keyword arguments of the MLE models.  `none`: not given. -/
structure Opts (K : Type) where
  base : Sureal.Opts K := {}
  gradientMethod : Option String := none
  numericalPdf : Option String := none
  deltaThr : Option (Fl K) := none

/-- subjective_model.py:734-735 -/
def method (o : Opts K) : Py Method :=
  match o.gradientMethod with
  | none => .ok .simplified
  | some s =>
    if s = "simplified" then .ok .simplified
    else if s = "original" then .ok .original
    else if s = "numerical" then .ok .numerical
    else .error .assertion

/-- `MAX_ITR`, subjective_model.py:802 -/
def maxItr : Nat := 10000
/-- `REFRESH_RATE`, subjective_model.py:803 -/
def rate : Fl K := Fl.dec 1 10
/-- `EPSILON`, subjective_model.py:804 -/
def eps : Fl K := Fl.dec 1 1000
/-- `DEFAULT_DELTA_THR`, subjective_model.py:685 -/
def defaultThr : Fl K := Fl.dec 1 100000000

/-- the votes and the content of each video -/
structure Data (K : Type) (E S R C : Nat) where
  x : Arr3 (Fl K) E S R
  cid : Fin E → Fin C

/-- the parameters `x_e`, `b_s`, `v_s`, `a_c` -/
structure Params (K : Type) (E S C : Nat) where
  x : Arr1 (Fl K) E
  b : Arr1 (Fl K) S
  v : Arr1 (Fl K) S
  a : Arr1 (Fl K) C

/-- `x_e_std`, `b_s_std`, `v_s_std`, `a_c_std` -/
structure Stds (K : Type) (E S C : Nat) where
  x : Arr1 (Fl K) E
  b : Arr1 (Fl K) S
  v : Arr1 (Fl K) S
  a : Arr1 (Fl K) C

variable {E S R C : Nat}

/-- `np.nansum(stack(.., axis=0), axis=0)`: sum over videos and repetitions -/
def sumE (f : Arr3 (Fl K) E S R) : Arr1 (Fl K) S := fun s => Np.nansum (colL (stack0 f) s)

/-- `np.nansum(stack(.., axis=1), axis=1)`: sum over observers and repetitions -/
def sumS (f : Arr3 (Fl K) E S R) : Arr1 (Fl K) E := fun e => Np.nansum (rowL (stack1 f) e)

/-- `sum_over_content_id`, subjective_model.py:746-754 (the ids have been checked) -/
def sumContent (cid : Fin E → Fin C) (xs : Arr1 (Fl K) E) : Arr1 (Fl K) C :=
  (List.finRange E).foldl (fun sums e => fun c => if c = cid e then sums c + xs e else sums c) (fun _ => 0)

/-- `v_s**2 + a_c_e**2` for one cell -/
def vadd (v a : Fl K) : Fl K := v.sq + a.sq
/-- `v_s**2 - a_c_e**2` for one cell -/
def vsub (v a : Fl K) : Fl K := v.sq - a.sq

/-- `old * (1.0 - REFRESH_RATE) + new * REFRESH_RATE` -/
def refresh (old new : Fl K) : Fl K := old * (1 - rate) + new * rate

/-- `1.0 / np.sqrt(np.maximum(0., t))` -/
def stdOf (t : Fl K) : Fl K := 1 / (Fl.maximum 0 t).sqrt

/-- the density named by `numerical_pdf` for one cell, as a function of the vote and `x_e`, `b_s`, `v_s`, `a_c`,
subjective_model.py:692-717.  'logistic' needs arrays of one shape (assertion of tools/stats.py:68) and then fails in
`len(zip(..))` (TypeError, tools/misc.py:228). -/
def density (pdf : Option String) (R : Nat) : Py (Fl K → Fl K → Fl K → Fl K → Fl K → Fl K) :=
  let name := pdf.getD "gaussian"
  if name = "gaussian" then .ok fun o x b v a => gaussian o (x + b) (vadd v a).sqrt
  else if name = "logistic" then (if R = 1 then .error .type else .error .assertion)
  else if name = "uniform" then .ok fun o x b v a =>
    convUniforms o b (v.sq * ((12 : Nat) : Fl K)).sqrt x (a.sq * ((12 : Nat) : Fl K)).sqrt
  else .error .assertion

/-- the log-density of every cell, subjective_model.py:692-717 -/
def logCells (dens : Fl K → Fl K → Fl K → Fl K → Fl K → Fl K) (d : Data K E S R C) (p : Params K E S C) : Arr3 (Fl K) E S R :=
  fun e s r => (dens (d.x e s r) (p.x e) (p.b s) (p.v s) (p.a (d.cid e))).log

/-- first-order difference quotient, subjective_model.py:841-844 etc., of a vector of likelihoods -/
def diff1 {n : Nat} (ll : Fl K → Arr1 (Fl K) n) : Arr1 (Fl K) n := fun i =>
  (ll (eps / ((2 : Nat) : Fl K)) i - ll (-(eps / ((2 : Nat) : Fl K))) i) / eps

/-- second-order difference quotient, subjective_model.py:845-851 etc. -/
def diff2 {n : Nat} (ll : Fl K → Arr1 (Fl K) n) : Arr1 (Fl K) n := fun i =>
  (ll eps i - ((2 : Nat) : Fl K) * ll 0 i + ll (-eps) i) / eps.sq

/-! ### (12) `b_s` -/

/-- subjective_model.py:816-826 -/
def bSimplified (d : Data K E S R C) (p : Params K E S C) : Arr1 (Fl K) S × Arr1 (Fl K) S :=
  let num := sumE fun e s r => (d.x e s r - p.x e) / vadd (p.v s) (p.a (d.cid e))
  let den := sumE fun e s r => oneOrNan (d.x e s r) / vadd (p.v s) (p.a (d.cid e))
  (fun s => refresh (p.b s) (num s / den s), fun s => stdOf (den s))

/-- subjective_model.py:828-837 -/
def bOriginal (d : Data K E S R C) (p : Params K E S C) : Arr1 (Fl K) S × Arr1 (Fl K) S :=
  let order1 := sumE fun e s r => (d.x e s r - p.x e - p.b s) / vadd (p.v s) (p.a (d.cid e))
  let order2 := sumE fun e s r => (-oneOrNan (d.x e s r)) / vadd (p.v s) (p.a (d.cid e))
  (fun s => refresh (p.b s) (p.b s - order1 s / order2 s), fun s => stdOf (-order2 s))

/-- subjective_model.py:839-854 -/
def bNumerical (dens : Fl K → Fl K → Fl K → Fl K → Fl K → Fl K) (d : Data K E S R C) (p : Params K E S C) :
    Arr1 (Fl K) S × Arr1 (Fl K) S :=
  let ll := fun h => sumE (logCells dens d { p with b := fun s => p.b s + h })
  let order1 := diff1 ll
  let order2 := diff2 ll
  (fun s => refresh (p.b s) (p.b s - order1 s / order2 s), fun s => stdOf (-order2 s))

/-! ### (14) `v_s` -/

/-- subjective_model.py:870-871, 894-895: first derivative, one cell -/
def vFirst (r v a : Fl K) : Fl K := (-v) / vadd v a + v * r.sq / (vadd v a).sq
/-- subjective_model.py:873-876, 891-897: second derivative, one cell -/
def vSecond (r v a : Fl K) : Fl K :=
  vsub v a / (vadd v a).sq +
    r.sq * (a.sq.sq - ((3 : Nat) : Fl K) * v.sq.sq - ((2 : Nat) : Fl K) * v.sq * a.sq) / (vadd v a).sq.sq

/-- the residual `a_esr` of a cell -/
def resid (d : Data K E S R C) (p : Params K E S C) : Arr3 (Fl K) E S R := fun e s r => d.x e s r - p.x e - p.b s

/-- subjective_model.py:865-884 -/
def vSimplified (d : Data K E S R C) (p : Params K E S C) : Arr1 (Fl K) S × Arr1 (Fl K) S :=
  let num := sumE fun e s r => vFirst (resid d p e s r) (p.v s) (p.a (d.cid e))
  let den := sumE fun e s r => vSecond (resid d p e s r) (p.v s) (p.a (d.cid e))
  let lpp := sumE fun e s r => vSecond (resid d p e s r) (p.v s) (p.a (d.cid e))
  (fun s => refresh (p.v s) (p.v s - num s / den s), fun s => stdOf (-lpp s))

/-- subjective_model.py:886-901 -/
def vOriginal (d : Data K E S R C) (p : Params K E S C) : Arr1 (Fl K) S × Arr1 (Fl K) S :=
  let order1 := sumE fun e s r => vFirst (resid d p e s r) (p.v s) (p.a (d.cid e))
  let order2 := sumE fun e s r => vSecond (resid d p e s r) (p.v s) (p.a (d.cid e))
  (fun s => refresh (p.v s) (p.v s - order1 s / order2 s), fun s => stdOf (-order2 s))

/-- subjective_model.py:903-918 -/
def vNumerical (dens : Fl K → Fl K → Fl K → Fl K → Fl K → Fl K) (d : Data K E S R C) (p : Params K E S C) :
    Arr1 (Fl K) S × Arr1 (Fl K) S :=
  let ll := fun h => sumE (logCells dens d { p with v := fun s => p.v s + h })
  let order1 := diff1 ll
  let order2 := diff2 ll
  (fun s => refresh (p.v s) (p.v s - order1 s / order2 s), fun s => stdOf (-order2 s))

/-! ### (15) `a_c` -/

/-- subjective_model.py:937-938, 971-972: first derivative, one cell -/
def aFirst (r v a : Fl K) : Fl K := (-a) / vadd v a + a * r.sq / (vadd v a).sq
/-- subjective_model.py:941-944, 968-975: second derivative, one cell -/
def aSecond (r v a : Fl K) : Fl K :=
  (-vsub v a) / (vadd v a).sq +
    r.sq * (v.sq.sq - ((3 : Nat) : Fl K) * a.sq.sq - ((2 : Nat) : Fl K) * v.sq * a.sq) / (vadd v a).sq.sq

/-- subjective_model.py:932-961 -/
def aSimplified (d : Data K E S R C) (p : Params K E S C) : Arr1 (Fl K) C × Arr1 (Fl K) C :=
  let num := sumContent d.cid (sumS fun e s r => aFirst (resid d p e s r) (p.v s) (p.a (d.cid e)))
  let den := sumContent d.cid (sumS fun e s r => aSecond (resid d p e s r) (p.v s) (p.a (d.cid e)))
  let lpp := sumContent d.cid (sumS fun e s r => aSecond (resid d p e s r) (p.v s) (p.a (d.cid e)))
  (fun c => refresh (p.a c) (p.a c - num c / den c), fun c => stdOf (-lpp c))

/-- subjective_model.py:963-980 -/
def aOriginal (d : Data K E S R C) (p : Params K E S C) : Arr1 (Fl K) C × Arr1 (Fl K) C :=
  let order1 := sumContent d.cid (sumS fun e s r => aFirst (resid d p e s r) (p.v s) (p.a (d.cid e)))
  let order2 := sumContent d.cid (sumS fun e s r => aSecond (resid d p e s r) (p.v s) (p.a (d.cid e)))
  (fun c => refresh (p.a c) (p.a c - order1 c / order2 c), fun c => stdOf (-order2 c))

/-- subjective_model.py:982-999 -/
def aNumerical (dens : Fl K → Fl K → Fl K → Fl K → Fl K → Fl K) (d : Data K E S R C) (p : Params K E S C) :
    Arr1 (Fl K) C × Arr1 (Fl K) C :=
  let ll := fun h => sumS (logCells dens d { p with a := fun c => p.a c + h })
  let order1 := sumContent d.cid (diff1 ll)
  let order2 := sumContent d.cid (diff2 ll)
  (fun c => refresh (p.a c) (p.a c - order1 c / order2 c), fun c => stdOf (-order2 c))

/-! ### (11) `x_e` -/

/-- subjective_model.py:1013-1023 -/
def xSimplified (d : Data K E S R C) (p : Params K E S C) : Arr1 (Fl K) E × Arr1 (Fl K) E :=
  let num := sumS fun e s r => (d.x e s r - p.b s) / vadd (p.v s) (p.a (d.cid e))
  let den := sumS fun e s r => oneOrNan (d.x e s r) / vadd (p.v s) (p.a (d.cid e))
  (fun e => refresh (p.x e) (num e / den e), fun e => stdOf (den e))

/-- subjective_model.py:1025-1035 -/
def xOriginal (d : Data K E S R C) (p : Params K E S C) : Arr1 (Fl K) E × Arr1 (Fl K) E :=
  let order1 := sumS fun e s r => resid d p e s r / vadd (p.v s) (p.a (d.cid e))
  let order2 := sumS fun e s r => (-oneOrNan (d.x e s r)) / vadd (p.v s) (p.a (d.cid e))
  (fun e => refresh (p.x e) (p.x e - order1 e / order2 e), fun e => stdOf (-order2 e))

/-- subjective_model.py:1037-1052 -/
def xNumerical (dens : Fl K → Fl K → Fl K → Fl K → Fl K → Fl K) (d : Data K E S R C) (p : Params K E S C) :
    Arr1 (Fl K) E × Arr1 (Fl K) E :=
  let ll := fun h => sumS (logCells dens d { p with x := fun e => p.x e + h })
  let order1 := diff1 ll
  let order2 := diff2 ll
  (fun e => refresh (p.x e) (p.x e - order1 e / order2 e), fun e => stdOf (-order2 e))

/-- the updates of one gradient method -/
structure Updates (K : Type) (E S R C : Nat) where
  b : Data K E S R C → Params K E S C → Arr1 (Fl K) S × Arr1 (Fl K) S
  v : Data K E S R C → Params K E S C → Arr1 (Fl K) S × Arr1 (Fl K) S
  a : Data K E S R C → Params K E S C → Arr1 (Fl K) C × Arr1 (Fl K) C
  x : Data K E S R C → Params K E S C → Arr1 (Fl K) E × Arr1 (Fl K) E

/-- the dispatch on `gradient_method`; only 'numerical' evaluates the density here -/
def updates (m : Method) (pdf : Option String) : Py (Updates K E S R C) :=
  match m with
  | .simplified => .ok ⟨bSimplified, vSimplified, aSimplified, xSimplified⟩
  | .original => .ok ⟨bOriginal, vOriginal, aOriginal, xOriginal⟩
  | .numerical =>
    match density pdf R with
    | .error e => .error e
    | .ok dens => .ok ⟨bNumerical dens, vNumerical dens, aNumerical dens, xNumerical dens⟩

/-- one pass through the loop body, subjective_model.py:811-1056 -/
def step (mode : Mode) (u : Updates K E S R C) (d : Data K E S R C) (p : Params K E S C) :
    Params K E S C × Stds K E S C :=
  let rb := u.b d p
  let b := if mode = .subjectOblivious then (fun _ => 0) else rb.1
  let bStd := if mode = .subjectOblivious then (fun _ => 0) else rb.2
  let p1 : Params K E S C := { p with b := b }
  let rv := u.v d p1
  let v0 : Arr1 (Fl K) S := fun s => Fl.maximum (rv.1 s) 0
  let v := if mode = .subjectOblivious then (fun _ => 0) else v0
  let vStd := if mode = .subjectOblivious then (fun _ => 0) else rv.2
  let p2 : Params K E S C := { p1 with v := v }
  let ra := u.a d p2
  let a0 : Arr1 (Fl K) C := fun c => Fl.maximum (ra.1 c) 0
  let a := if mode = .contentOblivious then (fun _ => 0) else a0
  let aStd := if mode = .contentOblivious then (fun _ => 0) else ra.2
  let p3 : Params K E S C := { p2 with a := a }
  let rx := u.x d p3
  ({ p3 with x := rx.1 }, { x := rx.2, b := bStd, v := vStd, a := aStd })

/-- what the loop leaves behind -/
structure Fit (K : Type) (E S C : Nat) where
  p : Params K E S C
  std : Stds K E S C
  itr : Nat

/-- the loop `while True`, subjective_model.py:810-1086, entered with `itr` passes done -/
def loop (mode : Mode) (u : Updates K E S R C) (pdf : Option String) (thr : Fl K) (d : Data K E S R C)
    (itr : Nat) (p : Params K E S C) : Py (Fit K E S C) :=
  let t := step mode u d p
  match Np.linalgNorm (List.ofFn fun e => p.x e - t.1.x e) with
  | .error e => .error e
  | .ok delta =>
    match density (K := K) pdf R with
    | .error e => .error e
    | .ok _ =>
      if delta.lt thr then .ok ⟨t.1, t.2, itr + 1⟩
      else if maxItr ≤ itr + 1 then .ok ⟨t.1, t.2, itr + 1⟩
      else loop mode u pdf thr d (itr + 1) t.1
termination_by maxItr - itr
decreasing_by
  have h : ¬ maxItr ≤ itr + 1 := by assumption
  omega

/-- the content of each video as an index, after the checks of subjective_model.py:757-760 -/
def contentIndex (cids : List Int) (E C : Nat) : Py (Fin E → Fin C) :=
  if h : cids.length = E ∧ ∀ c ∈ cids, 0 ≤ c ∧ c < (C : Int) then
    .ok fun e => ⟨(cids[e.val]'(by rw [h.1]; exact e.isLt)).toNat, by
      have := h.2 _ (List.getElem_mem (by rw [h.1]; exact e.isLt : e.val < cids.length)); omega⟩
  else .error .assertion

/-- `dataset_reader.max_content_id_of_ref_videos + 1`, dataset_reader.py:50-52 -/
def numContents (rd : Reader κ K) : Py Nat :=
  match rd.dataset.refVideos.map (·.contentId) with
  | [] => .error .value
  | c :: cs => .ok ((cs.foldl max c) + 1).toNat

/-- `std_over_subject_and_content_id`, subjective_model.py:756-768 (the ids have been checked): the votes of the
videos of a content, video after video, each video raveled -/
def stdContent (cid : Fin E → Fin C) (r : Arr3 (Fl K) E S R) : Arr1 (Fl K) C := fun c =>
  Np.nanstd 0 ((List.finRange E).flatMap fun e =>
    if cid e = c then (List.ofFn fun s => List.ofFn fun t => r e s t).flatten else [])

/-- the initial values, subjective_model.py:781-793 -/
def init (mode : Mode) (d : Data K E S R C) (mos : Arr1 (Fl K) E) : Params K E S C :=
  let r : Arr3 (Fl K) E S R := fun e s t => d.x e s t - mos e
  { x := mos
    b := fun _ => 0
    v := if mode = .subjectOblivious then (fun _ => 0) else fun s => Np.nanstd 0 (colL (stack0 r) s)
    a := if mode = .contentOblivious then (fun _ => 0) else stdContent d.cid r }

/-- the final centring, subjective_model.py:1093-1096 -/
def centre (force : Bool) (p : Params K E S C) : Params K E S C :=
  if force then
    let m := Np.mean (List.ofFn p.b)
    { p with x := fun e => p.x e + m, b := fun s => p.b s - m }
  else p

/-- `_get_dof`, subjective_model.py:1168-1178 -/
def dof (mode : Mode) (E S C R : Nat) : Nat :=
  match mode with
  | .default => E + S * R * 2 + C
  | .contentOblivious => E + S * R * 2
  | .subjectOblivious => E + C

/-- the result dictionary, subjective_model.py:1091-1158, without the key `observers` -/
def result (mode : Mode) (force : Bool) (dens : Fl K → Fl K → Fl K → Fl K → Fl K → Fl K) (d : Data K E S R C)
    (orig : Arr3D (Fl K)) (f : Fit K E S C) : Result κ K :=
  let p := centre force f.p
  let origNum := Np.countNotNan (ravel3 orig.get)
  let num := Np.countNotNan (ravel3 d.x)
  let dof : Fl K := ((dof mode orig.E orig.S C orig.R : Nat) : Fl K) / ((origNum : Nat) : Fl K)
  let ll : Fl K := Np.sum (List.ofFn (sumS (logCells dens d p))) / ((num : Nat) : Fl K)
  { qualityScores := List.ofFn p.x
    qualityScoresStd := some (List.ofFn f.std.x)
    qualityScoresCi95 := some (List.ofFn fun e => ci95Factor * f.std.x e, List.ofFn fun e => ci95Factor * f.std.x e)
    rawScores := some ⟨E, S, R, d.x⟩
    reconstructions := some ⟨E, S, R, fun e s _ => p.x e + p.b s⟩
    dof := some dof
    loglikelihood := some ll
    aic := some (((2 : Nat) : Fl K) * dof - ((2 : Nat) : Fl K) * ll)
    bic := some ((((origNum : Nat) : Fl K)).log * dof - ((2 : Nat) : Fl K) * ll)
    observerBias := if mode = .subjectOblivious then none else some (List.ofFn p.b)
    observerBiasStd := if mode = .subjectOblivious then none else some (List.ofFn f.std.b)
    observerInconsistency := if mode = .subjectOblivious then none else some (List.ofFn p.v)
    observerInconsistencyStd := if mode = .subjectOblivious then none else some (List.ofFn f.std.v)
    contentAmbiguity := if mode = .contentOblivious then none else some (List.ofFn p.a)
    contentAmbiguityStd := if mode = .contentOblivious then none else some (List.ofFn f.std.a)
    numIter := some f.itr }

/-- `_run_modeling` on an array whose contents have been looked up, subjective_model.py:778-1158 -/
def fitArr (mode : Mode) (m : Method) (pdf : Option String) (thr : Fl K) (d : Data K E S R C) (mos : Arr1 (Fl K) E) :
    Py (Fit K E S C) :=
  match updates (E := E) (S := S) (R := R) (C := C) m pdf with
  | .error e => .error e
  | .ok u => loop mode u pdf thr d 0 (init mode d mos)

/-- `MaximumLikelihoodEstimationModel._run_modeling`, subjective_model.py:722-1158.  The observers are listed with
only `AssertionError` caught (1130-1134). -/
def runModelingWith (mode : Mode) (rd : Reader κ K) (o : Opts K) : Py (Result κ K) :=
  if o.base.subjectRejection.isTrue then .error .assertion
  else
    match method o with
    | .error e => .error e
    | .ok m =>
      match preprocess rd o.base with
      | .error e => .error e
      | .ok p =>
        match numContents rd with
        | .error e => .error e
        | .ok C =>
          match runMOS rd {} with
          | .error e => .error e
          | .ok mos =>
            match contentIndex (contentIdOfDisVideos rd.disVideos) p.arr.E C with
            | .error e => .error e
            | .ok cid =>
              let d : Data K p.arr.E p.arr.S p.arr.R C := ⟨p.arr.get, cid⟩
              match fitArr mode m o.numericalPdf (o.deltaThr.getD defaultThr) d
                  (fun e => (mos.qualityScores[e.val]?).getD .nan) with
              | .error e => .error e
              | .ok f =>
                match rd.observers with
                | .error e => if e = .assertion then finish p C d f none else .error e
                | .ok obs => finish p C d f (some obs)
where
  /-- the part after the loop -/
  finish (p : Prep K) (C : Nat) (d : Data K p.arr.E p.arr.S p.arr.R C) (f : Fit K p.arr.E p.arr.S C)
      (obs : Option (List κ)) : Py (Result κ K) :=
    match density o.numericalPdf p.arr.R with
    | .error e => .error e
    | .ok dens => .ok { result (κ := κ) mode (Ap.forced o.base) dens d p.orig f with observers := obs }

/-- `run_modeling(**o)` of the MLE classes, subjective_model.py:63-76 -/
def run (mode : Mode) (rd : Reader κ K) (o : Opts K) : Py (Result κ K) :=
  runModeling (fun rd b => runModelingWith mode rd { o with base := b }) rd o.base

end Mle

/-- `MaximumLikelihoodEstimationModel(reader).run_modeling(**o)` -/
def runMLE (rd : Reader κ K) (o : Mle.Opts K) : Py (Result κ K) := Mle.run .default rd o
/-- `MaximumLikelihoodEstimationModelContentOblivious(reader).run_modeling(**o)` -/
def runMLE_CO (rd : Reader κ K) (o : Mle.Opts K) : Py (Result κ K) := Mle.run .contentOblivious rd o
/-- `MaximumLikelihoodEstimationModelSubjectOblivious(reader).run_modeling(**o)` -/
def runMLE_SO (rd : Reader κ K) (o : Mle.Opts K) : Py (Result κ K) := Mle.run .subjectOblivious rd o

/-- `MaximumLikelihoodEstimationDmosModel.run_modeling`, subjective_model.py:1272-1278 -/
def runDMOS_MLE (rd : Reader κ K) (o : Mle.Opts K) : Py (Result κ K) :=
  if o.base.dscoreMode.isTrue then .error .assertion
  else Mle.run .default rd { o with base := { o.base with dscoreMode := yes } }

/-- `MaximumLikelihoodEstimationDmosModelContentOblivious.run_modeling`, subjective_model.py:1286-1292 -/
def runDMOS_MLE_CO (rd : Reader κ K) (o : Mle.Opts K) : Py (Result κ K) :=
  if o.base.dscoreMode.isTrue then .error .assertion
  else Mle.run .contentOblivious rd { o with base := { o.base with dscoreMode := yes } }

end Sureal
