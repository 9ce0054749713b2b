import Verif.Model.Readings
import Verif.Model.Bstp
/-!
# `validate_with_synthetic_dataset` with the state of numpy's global generator

`Model/Validate` gives every reading of the votes a stream of its own.  Here the draws come from the one generator behind `np.random`, whose state
is passed from reading to reading, and which `np.random.seed` sets.  The bootstrapping models (`sureal/experimental.py`) read the votes a third time
and set the generator themselves.  An input with `seed=None` is left out.
-/
namespace Sureal
variable {κ K σ : Type} [LinearOrder κ] [Zero K] [One K] [Add K] [Neg K] [Sub K] [Mul K] [Div K] [NatCast K]
  [LT K] [LE K] [DecidableLT K] [DecidableLE K] [MathFn K]

/-- The generator behind `np.random`, with states `σ`.  `normal s`, `logistic s` and `uniform s` are the standardised numbers drawn one after the
other in the state `s`, the functions `after…` give the state after a number of draws.  `choice s n` is
`np.random.choice(range(n), size=n, replace=True)`. -/
structure Gen (σ K : Type) where
  seed : Int → σ
  normal : σ → Nat → K
  logistic : σ → Nat → K
  uniform : σ → Nat → K
  choice : σ → Nat → List Int
  afterNormal : σ → Nat → σ
  afterLogistic : σ → Nat → σ
  afterUniform : σ → Nat → σ
  afterChoice : σ → Nat → σ

/-- `if 'seed' in self.input_dict: np.random.seed(self.input_dict['seed'])`, dataset_reader.py:697-698, 775-776 -/
def Gen.reseed (g : Gen σ K) (seed : Option Int) (s : σ) : σ :=
  match seed with
  | some k => g.seed k
  | none => s

namespace Bstp

/-- `MaximumLikelihoodEstimationModelWithBootstrapping._run_modeling`, experimental.py:18-72, on a reader that may give other votes whenever they
are read: `rd` and `rd2` are the readings of the maximum likelihood model (lines 28-29), `rd3` the one of `dataset_reader.to_dataset()` (line 31);
`nSubj` is `dataset_reader.num_observers` -/
def runModelingThree (mode : Mle.Mode) (choice : Nat → Nat → List Int) (nSubj : Nat) (rd rd2 rd3 : Reader κ K) (o : Mle.Opts K) (kw : Kw) :
    Py (Out κ K) :=
  match Mle.runModelingTwo mode rd rd2 (unforced o) with
  | .error e => .error e
  | .ok r0 =>
    match Mock.toDataset rd3 with
    | .error e => .error e
    | .ok d =>
      if 0 < kw.nBootstrap.getD 30 then
        match subjectsCi mode d (unforced o) choice r0 (kw.bootstrapSubjects.getD true) nSubj (kw.nBootstrap.getD 30).toNat with
        | .error e => .error e
        | .ok ci =>
          match videosCi mode d (unforced o) choice r0 (kw.boostrapDisVideos.getD true) rd3.disVideos.length
              (kw.nBootstrap.getD 30).toNat with
          | .error e => .error e
          | .ok cis =>
            match recentre (Ap.forced o.base) { r0 with qualityScoresCi95 := ci } with
            | .error e => .error e
            | .ok r => .ok ⟨r, cis.1, cis.2⟩
      else .error .assertion

/-- `run_modeling(**o)` of the bootstrapping models, subjective_model.py:63-76 -/
def runThree (mode : Mle.Mode) (choice : Nat → Nat → List Int) (nSubj : Nat) (rd rd2 rd3 : Reader κ K) (o : Mle.Opts K) (kw : Kw) :
    Py (Out κ K) :=
  match runModelingThree mode choice nSubj rd rd2 rd3 o kw with
  | .error e => .error e
  | .ok out =>
    match runModeling (fun _ _ => .ok out.res) rd o.base with
    | .error e => .error e
    | .ok r => .ok { out with res := r }

/-- the loops in experimental.py:77-81 and 110-114, as far as the generator is concerned: `np.random.seed(ibootstrap)`, then a choice among `n` -/
def loopState (g : Gen σ K) (n passes : Nat) (s : σ) : σ :=
  (List.range passes).foldl (fun _ i => g.afterChoice (g.seed i) n) s

/-- the state after `_run_modeling`, if it was `s` after the third reading -/
def stateAfter (g : Gen σ K) (nSubj nVid : Nat) (kw : Kw) (s : σ) : σ :=
  let s := if kw.bootstrapSubjects.getD true then loopState g nSubj (kw.nBootstrap.getD 30).toNat s else s
  if kw.boostrapDisVideos.getD true then loopState g nVid (kw.nBootstrap.getD 30).toNat s else s

end Bstp

namespace Routine

/-- a dataset reader whose votes are drawn when they are read -/
structure VoteSource (σ κ K : Type) where
  /-- the reader as it is at this reading of its votes, and the state of the generator afterwards -/
  read : σ → Py (Reader κ K × σ)
  /-- `dataset_reader.num_observers` -/
  numObservers : Py Nat

/-- the number of draws of one reading of the synthetic votes, dataset_reader.py:708-720 and 745-753: one per cell for the observers, one for the
contents, one for the ambiguity of the video if there is one -/
def synthDraws (d : Dataset κ K) (kw : Mock.SynthKw K) : Nat :=
  d.disVideos.length * (kw.bias.getD []).length * (if kw.qualityAmbiguity.isSome then 3 else 2)

/-- a reading of the votes of `synthetic_dataset_reader_class(dataset, input_dict=synthetic_result)`, dataset_reader.py:679-761 -/
def synthRead (g : Gen σ K) (cls : SynthClass) (seed : Option Int) (d : Dataset κ K) (kw : Mock.SynthKw K) (s : σ) : Py (Reader κ K × σ) :=
  match cls with
  | .normal =>
    match Mock.syntheticReader d kw (g.normal (g.reseed seed s)) with
    | .error e => .error e
    | .ok rd => .ok (rd, g.afterNormal (g.reseed seed s) (synthDraws d kw))
  | .logistic =>
    match Mock.logisticReader (.fin MathFn.pi / ((3 : Nat) : Fl K).sqrt) d kw (g.logistic s) with
    | .error e => .error e
    | .ok rd => .ok (rd, g.afterLogistic s (synthDraws d kw))

/-- number of entries of the array of votes -/
def cells (scores : Py (Arr3D (Fl K))) : Nat :=
  match scores with
  | .error _ => 0
  | .ok a => a.E * a.S * a.R

/-- a reading of the votes of `MissingDataRawDatasetReader`, dataset_reader.py:772-782 -/
def missingRead (g : Gen σ K) (seed : Option Int) (d : Dataset κ K) (p : Fl K) (s : σ) : Py (Reader κ K × σ) :=
  match Mock.missingReader d (some p) (g.uniform (g.reseed seed s)) with
  | .error e => .error e
  | .ok rd => .ok (rd, g.afterUniform (g.reseed seed s) (cells rd.scores))

/-- `dataset_reader`, routine.py:775-782, and the state when it has been made; the assertions are those made when a reader is created -/
def source (g : Gen σ K) (cls : SynthClass) (seed : Option Int) (d : Dataset κ K) (kw : Mock.SynthKw K) (missing : Option (Fl K)) (s : σ) :
    Py (VoteSource σ κ K × σ) :=
  match synthRead g cls seed d kw s with
  | .error e => .error e
  | .ok r =>
    match missing with
    | none => .ok (⟨synthRead g cls seed d kw, .ok (kw.bias.getD []).length⟩, s)
    | some p =>
      match Mock.toDataset r.1 with
      | .error e => .error e
      | .ok d2 =>
        match missingRead g seed d2 p r.2 with
        | .error e => .error e
        | .ok _ => .ok (⟨missingRead g seed d2 p, numObservers d2.disVideos⟩, r.2)

/-- `subjective_model_class(dataset_reader).run_modeling(**more)` with the state of the generator before and after -/
abbrev ModelSt (σ κ K : Type) := VoteSource σ κ K → σ → Py (Fit κ K × σ)

/-- the `k`-th reading from the state `s` on -/
def VoteSource.nth (src : VoteSource σ κ K) : Nat → σ → Py (Reader κ K × σ)
  | 0, s => src.read s
  | k + 1, s =>
    match src.read s with
    | .error e => .error e
    | .ok r => src.nth k r.2

/-- the state after `k` readings -/
def VoteSource.skip (src : VoteSource σ κ K) : Nat → σ → Py σ
  | 0, s => .ok s
  | k + 1, s =>
    match src.read s with
    | .error e => .error e
    | .ok r => src.skip k r.2

/-- a model that draws nothing but the votes it reads -/
def Modelled.st (m : Modelled κ K) : ModelSt σ κ K := fun src s =>
  match m.run fun k => (src.nth k s).map Prod.fst with
  | .error e => .error e
  | .ok fit =>
    match src.skip m.reads s with
    | .error e => .error e
    | .ok s' => .ok (fit, s')

/-- `MLE_BSTP` (`mode = .default`) and `MLE_CO_BSTP` (`.contentOblivious`), experimental.py:9-149 -/
def bootstrapped (g : Gen σ K) (mode : Mle.Mode) (o : Mle.Opts K) (kw : Bstp.Kw) : ModelSt σ κ K := fun src s =>
  match src.read s with
  | .error e => .error e
  | .ok r =>
    match src.read r.2 with
    | .error e => .error e
    | .ok r2 =>
      match src.read r2.2 with
      | .error e => .error e
      | .ok r3 =>
        match src.numObservers with
        | .error e => .error e
        | .ok n =>
          match Bstp.runThree mode (fun i m => g.choice (g.seed i) m) n r.1 r2.1 r3.1 o kw with
          | .error e => .error e
          | .ok out =>
            .ok ({ res := out.res, biasCi95 := out.biasCi95.map fun p => [p.1, p.2], inconsistencyCi95 := out.inconsistencyCi95.map fun p => [p.1, p.2] },
              Bstp.stateAfter g n r3.1.disVideos.length kw r3.2)

/-- routine.py:802-805 -/
def fitAllSt (src : VoteSource σ κ K) : List (String × ModelSt σ κ K) → σ → Py (List (String × Fit κ K) × σ)
  | [], s => .ok ([], s)
  | (ty, m) :: l, s =>
    match m src s with
    | .error e => .error e
    | .ok r =>
      match fitAllSt src l r.2 with
      | .error e => .error e
      | .ok rest => .ok ((ty, r.1) :: rest.1, rest.2)

/-- routine.py:784-786 -/
def writtenSt (write : Bool) (src : VoteSource σ κ K) (s : σ) : Py (Option (Dataset κ K) × σ) :=
  if write then
    match src.read s with
    | .error e => .error e
    | .ok r =>
      match Mock.toDataset r.1 with
      | .error e => .error e
      | .ok d => .ok (some d, r.2)
  else .ok (none, s)

/-- `validate_with_synthetic_dataset`, routine.py:754-838 and 968, from the state `s` of the generator -/
def validateSt (g : Gen σ K) (cls : SynthClass) (seed : Option Int) (models : List (String × ModelSt σ κ K))
    (dataset : Py (Dataset κ K)) (truth : Mock.SynthKw K) (missing : Option (Fl K)) (write : Bool) (s : σ) : Py (Validation κ K × σ) :=
  if missing.all fun p => Fl.le 0 p && Fl.lt p 1 then
    match dataset with
    | .error e => .error e
    | .ok d =>
      match source g cls seed d truth missing s with
      | .error e => .error e
      | .ok src =>
        match writtenSt write src.1 src.2 with
        | .error e => .error e
        | .ok written =>
          match fitAllSt src.1 models written.2 with
          | .error e => .error e
          | .ok fits =>
            match checkAll truth fits.1 (fits.1.foldl (fun acc p => setKey p.1 { fit := p.2 } acc) []) with
            | .error e => .error e
            | .ok results => .ok (⟨written.1, results⟩, fits.2)
  else .error .assertion

end Routine
end Sureal
