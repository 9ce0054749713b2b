import Verif.Model.RandState
/-!
# `resource/script/run_synthetic_validate_ci.py`

Without the plots (`do_plot`, `do_errorbar`), and for integer seeds.  Class names are turned to lower case as ASCII.  An array of integers as
`observer_bias` (numpy refuses to subtract its mean in place) is left out.  Printed numbers are returned.
-/
namespace Sureal.CiScript
open Sureal.Routine
variable {κ K σ : Type} [LinearOrder κ] [Zero K] [One K] [Add K] [Neg K] [Sub K] [Mul K] [Div K] [NatCast K]
  [LT K] [LE K] [DecidableLT K] [DecidableLE K] [MathFn K]

/-- the entries of a `synthetic_result` dict that the script or the readers look at -/
structure Truth (K : Type) where
  kw : Mock.SynthKw K
  /-- `quality_scores_std` -/
  qualityStd : Option (List (Fl K)) := none
  /-- `seed` -/
  seed : Option Int := none

/-- the argument `synthetic_result_dict` -/
inductive TruthArg (K : Type) where
  | absent
  | dict (t : Truth K)
  | str (name : String)
  | other

/-- `np.random.uniform(lo, hi, n)` in the state `s` -/
def uniforms (g : Gen σ K) (lo hi n : Nat) (s : σ) : List (Fl K) :=
  (List.range n).map fun i => (lo : Fl K) + ((hi : Fl K) - (lo : Fl K)) * .fin (g.uniform s i)

/-- `np.random.normal(loc, scale, n)` in the state `s` -/
def normals (g : Gen σ K) (loc scale n : Nat) (s : σ) : List (Fl K) :=
  (List.range n).map fun i => (loc : Fl K) + (scale : Fl K) * .fin (g.normal s i)

/-- lines 73-80: the true values of the mode 'quality_ambiguity', drawn one after the other, without `quality_scores_std` -/
def drawQuality (g : Gen σ K) (s : σ) : Mock.SynthKw K × σ :=
  let s1 := g.afterUniform s 79
  let s2 := g.afterNormal s1 30
  let s3 := g.afterUniform s2 30
  let s4 := g.afterNormal s3 9
  let s5 := g.afterUniform s4 9
  ({ quality := some (uniforms g 1 5 79 s)
     bias := some (normals g 0 0 30 s1)
     inconsistency := some ((uniforms g 0 0 30 s2).map Fl.abs)
     contentBias := some (normals g 0 0 9 s3)
     contentAmbiguity := some ((uniforms g 0 0 9 s4).map Fl.abs)
     qualityAmbiguity := some ((uniforms g 0 1 79 s5).map Fl.abs) }, g.afterUniform s5 79)

/-- lines 82-83 -/
def derivedStd (kw : Mock.SynthKw K) : Option (List (Fl K)) :=
  kw.qualityAmbiguity.map fun l => l.map fun x => x / (((kw.bias.getD []).length : Nat) : Fl K).sqrt

/-- lines 96-102: the true values of the mode 'observer_only' -/
def drawObserver (g : Gen σ K) (s : σ) : Mock.SynthKw K × σ :=
  let s1 := g.afterUniform s 79
  let s2 := g.afterNormal s1 30
  let s3 := g.afterUniform s2 30
  let s4 := g.afterNormal s3 9
  ({ quality := some (uniforms g 1 5 79 s)
     bias := some (normals g 0 1 30 s1)
     inconsistency := some ((uniforms g 0 1 30 s2).map Fl.abs)
     contentBias := some (normals g 0 0 9 s3)
     contentAmbiguity := some ((uniforms g 0 0 9 s4).map Fl.abs)
     qualityAmbiguity := none }, g.afterUniform s4 9)

/-- lines 52-117: the true values, and the state of the generator when they are drawn -/
def chooseTruth (g : Gen σ K) (arg : TruthArg K) (s : σ) : Py (Truth K × σ) :=
  match arg with
  | .dict t => .ok (t, s)
  | .other => .error .assertion
  | .absent =>
    let d := drawQuality g s
    .ok ({ kw := d.1, qualityStd := derivedStd d.1 }, d.2)
  | .str name =>
    if name = "quality_ambiguity" then
      let d := drawQuality g s
      .ok ({ kw := d.1, qualityStd := derivedStd d.1 }, d.2)
    else if name = "observer_only" then
      let d := drawObserver g s
      .ok ({ kw := d.1 }, d.2)
    else .error .assertion

/-- lines 119-121; the dict that the caller gave is changed -/
def centreTruth (force : Bool) (t : Truth K) : Py (Truth K) :=
  if force then
    match t.kw.bias with
    | none => .error .key
    | some b => .ok { t with kw := { t.kw with bias := some (b.map fun x => x - Np.mean b) } }
  else .ok t

/-- a class of models: its `__name__`, its `TYPE`, and what it does when it is given `n_bootstrap` (and `delta_thr=4e-3`) -/
structure ModelClass (σ κ K : Type) where
  name : String
  type : String
  run : Option Int → ModelSt σ κ K

/-- `'bootstrap' in subjective_model_class.__name__.lower()`, line 50 -/
def ModelClass.isBootstrap (c : ModelClass σ κ K) : Bool := decide ("bootstrap".toList <:+: c.name.toLower.toList)

/-- `more` -/
structure Args (K : Type) where
  seed : Option Int := none
  force : Option Bool := none
  truth : TruthArg K := .absent
  nBootstrap : Option Int := none

/-- the returned dict: `synthetic_result`, and what `validate_with_synthetic_dataset` returns -/
structure Ret (κ K : Type) where
  truth : Truth K
  validation : Validation κ K

/-- `validate_with_synthetic_dataset_quality_wrapper`, lines 26-140; `dataset` is what importing the file of the NFLX dataset gives, `s` is the state of
the generator before the call -/
def wrapper (g : Gen σ K) (dataset : Py (Dataset κ K)) (classes : List (ModelClass σ κ K)) (args : Args K) (_s : σ) : Py (Ret κ K × σ) :=
  let s0 := g.seed (args.seed.getD 0)
  if args.nBootstrap.isNone || classes.all ModelClass.isBootstrap then
    match chooseTruth g args.truth s0 with
    | .error e => .error e
    | .ok t =>
      match centreTruth (args.force.getD true) t.1 with
      | .error e => .error e
      | .ok truth =>
        match validateSt g .normal truth.seed (classes.map fun c => (c.type, c.run args.nBootstrap)) dataset truth.kw none false t.2 with
        | .error e => .error e
        | .ok r => .ok (⟨truth, r.1⟩, r.2)
  else .error .assertion

/-- the loops over the seeds, lines 145-156 and 169-180: the returned dicts -/
def overSeeds (g : Gen σ K) (dataset : Py (Dataset κ K)) (classes : List (ModelClass σ κ K)) (mode : String) :
    List Int → σ → Py (List (Ret κ K) × σ)
  | [], s => .ok ([], s)
  | k :: ks, s =>
    match wrapper g dataset classes { seed := some k, truth := .str mode } s with
    | .error e => .error e
    | .ok r =>
      match overSeeds g dataset classes mode ks r.2 with
      | .error e => .error e
      | .ok rest => .ok (r.1 :: rest.1, rest.2)

/-- `ret['results'][TYPE][...]`; a missing key is a KeyError -/
def readPerc (ty : String) (field : Checked κ K → Option (Fl K)) (r : Ret κ K) : Py (Fl K) :=
  match r.validation.results.lookup ty with
  | none => .error .key
  | some c =>
    match field c with
    | none => .error .key
    | some x => .ok x

/-- what is printed for the seeds, and the average -/
structure Report (K : Type) where
  perSeed : List (Fl K)
  average : Fl K

/-- one kind of percentage in lines 158-164 or 182-195 -/
def report (ty : String) (field : Checked κ K → Option (Fl K)) (rets : List (Ret κ K)) : Py (Report K) :=
  match mapPy (readPerc ty field) rets with
  | .error e => .error e
  | .ok l => .ok ⟨l, Np.mean l⟩

/-- `range(10)` -/
def seeds : List Int := (List.range 10).map Int.ofNat

/-- `run_synthetic_validate_mos`, lines 143-164; `mos` is `MosModel` -/
def runMos (g : Gen σ K) (dataset : Py (Dataset κ K)) (mos : ModelClass σ κ K) (s : σ) : Py (Report K × σ) :=
  match overSeeds g dataset [mos] "quality_ambiguity" seeds s with
  | .error e => .error e
  | .ok rets =>
    match report "MOS" Checked.qualityPerc rets.1 with
    | .error e => .error e
    | .ok r => .ok (r, rets.2)

/-- `run_synthetic_validate_mleco`, lines 167-195: the reports on the scores, the biases and the inconsistencies.  (The code reads the three
percentages of a seed one after the other; which of several missing keys raises the error does not matter, it is a KeyError.) -/
def runMleco (g : Gen σ K) (dataset : Py (Dataset κ K)) (mleco : ModelClass σ κ K) (s : σ) : Py ((Report K × Report K × Report K) × σ) :=
  match overSeeds g dataset [mleco] "observer_only" seeds s with
  | .error e => .error e
  | .ok rets =>
    match report "MLE_CO" Checked.qualityPerc rets.1 with
    | .error e => .error e
    | .ok q =>
      match report "MLE_CO" Checked.biasPerc rets.1 with
      | .error e => .error e
      | .ok b =>
        match report "MLE_CO" Checked.inconsistencyPerc rets.1 with
        | .error e => .error e
        | .ok i => .ok ((q, b, i), rets.2)

end Sureal.CiScript
