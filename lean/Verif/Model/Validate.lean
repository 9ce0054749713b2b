import Verif.Model.Mos
import Verif.Model.Mock
import Verif.Model.Ci
/-!
# `validate_with_synthetic_dataset` (`sureal/routine.py` lines 754-968)

Without plots (`ax_dict` empty), run times and error bars.  The readers draw new random numbers whenever their array of votes is read (unless
a seed is given); most models read it once, some more often.
-/
namespace Sureal.Routine
variable {κ K : Type} [Zero K] [One K] [Add K] [Neg K] [Sub K] [Mul K] [Div K] [NatCast K]
  [LT K] [LE K] [DecidableLT K] [DecidableLE K] [MathFn K]

/-- the two classes of synthetic readers -/
inductive SynthClass where
  | normal
  | logistic

/-- Random numbers.  `noise i` and `uniform i` are drawn when an array is read for the `i`-th time without a seed, `seededNoise s` and
`seededUniform s` right after `np.random.seed(s)`. -/
structure Rand (K : Type) where
  noise : Nat → Nat → K
  uniform : Nat → Nat → K
  seededNoise : Int → Nat → K
  seededUniform : Int → Nat → K

/-- The draws of the `i`-th reading of the synthetic votes, dataset_reader.py:697-698: `np.random.seed` is called if the input has a seed
(`seed=None` means fresh numbers); the logistic reader (731-761) does not look at it. -/
def Rand.noiseAt (w : Rand K) (cls : SynthClass) (seed : Option (Option Int)) (i : Nat) : Nat → K :=
  match cls, seed with
  | .normal, some (some s) => w.seededNoise s
  | _, _ => w.noise i

/-- the draws of the `i`-th reading of the votes of `MissingDataRawDatasetReader`, dataset_reader.py:775-777 -/
def Rand.uniformAt (w : Rand K) (seed : Option (Option Int)) (i : Nat) : Nat → K :=
  match seed with
  | some (some s) => w.seededUniform s
  | _ => w.uniform i

/-- `synthetic_dataset_reader_class(dataset, input_dict=synthetic_result)`, as it is when its array is read for the `i`-th time -/
def synthAt [LinearOrder κ] (cls : SynthClass) (w : Rand K) (seed : Option (Option Int)) (d : Dataset κ K) (kw : Mock.SynthKw K) (i : Nat) :
    Py (Reader κ K) :=
  match cls with
  | .normal => Mock.syntheticReader d kw (w.noiseAt .normal seed i)
  | .logistic =>
    Mock.logisticReader (.fin MathFn.pi / ((3 : Nat) : Fl K).sqrt) d kw (w.noiseAt .logistic seed i)

/-- the reader that the models get, routine.py:775-782, as it is when its array is read for the `i`-th time -/
def readerAt [LinearOrder κ] (cls : SynthClass) (w : Rand K) (seed : Option (Option Int)) (d : Dataset κ K) (kw : Mock.SynthKw K)
    (missing : Option (Fl K)) (i : Nat) : Py (Reader κ K) :=
  match missing with
  | none => synthAt cls w seed d kw i
  | some p =>
    match synthAt cls w seed d kw 0 with
    | .error e => .error e
    | .ok rd =>
      match Mock.toDataset rd with
      | .error e => .error e
      | .ok d2 => Mock.missingReader d2 (some p) (w.uniformAt seed i)

/-- what a model returns, with the two confidence intervals that `Result` does not have -/
structure Fit (κ K : Type) where
  res : Result κ K
  biasCi95 : Option (List (List (Fl K))) := none
  inconsistencyCi95 : Option (List (List (Fl K))) := none

/-- an entry of `ret['results']` -/
structure Checked (κ K : Type) where
  fit : Fit κ K
  qualityPerc : Option (Fl K) := none
  biasPerc : Option (Fl K) := none
  inconsistencyPerc : Option (Fl K) := none

/-- assignment to a key of a dict -/
def setKey {α : Type} (k : String) (v : α) : List (String × α) → List (String × α)
  | [] => [(k, v)]
  | (k', v') :: l => if k = k' then (k, v) :: l else (k', v') :: setKey k v l

/-- lines 826-828, 830-832, 834-838: the percentage is only computed if the keys are there -/
def percentage (truth est : Option (List (Fl K))) (ci : Option (List (List (Fl K)))) (old : Option (Fl K)) : Py (Option (Fl K)) :=
  match est, truth, ci with
  | some y, some x, some c =>
    match Ci.ciPercentage (some x) (some y) (some c) with
    | .error e => .error e
    | .ok v => .ok (some v)
  | _, _, _ => .ok old

/-- one pass of the loop in lines 822-838 -/
def checkOne (truth : Mock.SynthKw K) (acc : List (String × Checked κ K)) (ty : String) (fit : Fit κ K) :
    Py (List (String × Checked κ K)) :=
  match acc.lookup ty with
  | none => .error .key
  | some c =>
    match percentage truth.quality (some fit.res.qualityScores) (fit.res.qualityScoresCi95.map fun p => [p.1, p.2]) c.qualityPerc with
    | .error e => .error e
    | .ok q =>
      match percentage truth.bias fit.res.observerBias fit.biasCi95 c.biasPerc with
      | .error e => .error e
      | .ok b =>
        match percentage truth.inconsistency fit.res.observerInconsistency fit.inconsistencyCi95 c.inconsistencyPerc with
        | .error e => .error e
        | .ok i => .ok (setKey ty { c with qualityPerc := q, biasPerc := b, inconsistencyPerc := i } acc)

/-- the loop in lines 822-838 -/
def checkAll (truth : Mock.SynthKw K) : List (String × Fit κ K) → List (String × Checked κ K) → Py (List (String × Checked κ K))
  | [], acc => .ok acc
  | (ty, fit) :: l, acc =>
    match checkOne truth acc ty fit with
    | .error e => .error e
    | .ok acc => checkAll truth l acc

/-- `subjective_model_class(dataset_reader).run_modeling(**more)`: `run` is given the reader as it is at the first, second, … reading of its array
of votes, `reads` is the number of readings -/
structure Modelled (κ K : Type) where
  reads : Nat
  run : (Nat → Py (Reader κ K)) → Py (Fit κ K)

/-- a model that reads the votes once -/
def Modelled.once (m : Reader κ K → Py (Fit κ K)) : Modelled κ K :=
  ⟨1, fun reader =>
    match reader 0 with
    | .error e => .error e
    | .ok rd => m rd⟩

/-- lines 802-805: the models one after the other, each with its class's TYPE -/
def fitAll (reader : Nat → Py (Reader κ K)) : Nat → List (String × Modelled κ K) → Py (List (String × Fit κ K))
  | _, [] => .ok []
  | i, (ty, m) :: l =>
    match m.run fun k => reader (i + k) with
    | .error e => .error e
    | .ok fit =>
      match fitAll reader (i + m.reads) l with
      | .error e => .error e
      | .ok rest => .ok ((ty, fit) :: rest)

/-- the returned dict -/
structure Validation (κ K : Type) where
  written : Option (Dataset κ K)
  results : List (String × Checked κ K)

/-- lines 784-786: the dataset in the output file, if there is one -/
def writtenDataset (write : Bool) (rd0 : Reader κ K) : Py (Option (Dataset κ K)) :=
  if write then
    match Mock.toDataset rd0 with
    | .error e => .error e
    | .ok d' => .ok (some d')
  else .ok none

/-- `validate_with_synthetic_dataset`, routine.py:754-838 and 968; `dataset` is what importing the file gives, `write` whether
`output_synthetic_dataset_filepath` is given (the file holds the dataset `written`) -/
def validate [LinearOrder κ] (cls : SynthClass) (w : Rand K) (seed : Option (Option Int)) (models : List (String × Modelled κ K))
    (dataset : Py (Dataset κ K)) (truth : Mock.SynthKw K) (missing : Option (Fl K)) (write : Bool) : Py (Validation κ K) :=
  if missing.all fun p => Fl.le 0 p && Fl.lt p 1 then
    match dataset with
    | .error e => .error e
    | .ok d =>
      match readerAt cls w seed d truth missing 0 with
      | .error e => .error e
      | .ok rd0 =>
        match writtenDataset write rd0 with
        | .error e => .error e
        | .ok written =>
          match fitAll (readerAt cls w seed d truth missing) (if write then 1 else 0) models with
          | .error e => .error e
          | .ok fits =>
            match checkAll truth fits (fits.foldl (fun acc p => setKey p.1 { fit := p.2 } acc) []) with
            | .error e => .error e
            | .ok results => .ok ⟨written, results⟩
  else .error .assertion

end Sureal.Routine
