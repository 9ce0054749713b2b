import Verif.Model.FileName
import Verif.Model.Convert
/-!
# Model objects made from dataset files (`sureal/subjective_model.py` lines 41-97, `sureal/tools/misc.py` lines 109-122)

The state holds the module objects, the table `sys.modules` and the model objects.  A model object holds a reference to its
dataset, a module object: what it reads is what the module holds at that time.

Simplifications: a dataset file is a sequence of assignments of values, after which it may raise an exception; the attributes
Python itself sets (`__name__`, ...) are left out; the class of a model object is part of the options of its runs.
-/
namespace Sureal.Life
variable {κ K : Type}

/-- the attributes of a module object that the library looks at, `none` if not set -/
structure Module (κ K : Type) where
  refVideos : Option (List RefVideo) := none
  disVideos : Option (List (DisVideo κ K)) := none
  refScore : Option (Option (Fl K)) := none
  datasetName : Option String := none
  attrs : List (String × String) := []
  deriving DecidableEq

/-- an assignment in a dataset file -/
inductive Assign (κ K : Type) where
  | refVideos (l : List RefVideo)
  | disVideos (l : List (DisVideo κ K))
  | refScore (x : Option (Fl K))
  | datasetName (s : String)
  | attr (k v : String)

/-- a dataset file: assignments, then possibly an exception -/
structure File (κ K : Type) where
  body : List (Assign κ K)
  err : Option PyErr := none

/-- one assignment -/
def assign (m : Module κ K) : Assign κ K → Module κ K
  | .refVideos l => { m with refVideos := some l }
  | .disVideos l => { m with disVideos := some l }
  | .refScore x => { m with refScore := some x }
  | .datasetName s => { m with datasetName := some s }
  | .attr k v => { m with attrs := Conv.setAttr m.attrs k v }

/-- the execution of a file in a module -/
def exec (m : Module κ K) (f : List (Assign κ K)) : Module κ K := f.foldl assign m

/-- the module read as a dataset; a missing list of videos is an AttributeError -/
def view (m : Module κ K) : Py (Dataset κ K) :=
  match m.refVideos, m.disVideos with
  | some r, some d => .ok { refVideos := r, disVideos := d, refScore := m.refScore, datasetName := m.datasetName, attrs := m.attrs }
  | _, _ => .error .attribute

/-- a model object: the module its reader refers to, and `self.model_result` once it is set -/
structure Obj (κ K : Type) where
  ref : Nat
  result : Option (Result κ K) := none

/-- the state of the process -/
structure State (κ K : Type) where
  heap : List (Module κ K) := []
  sysModules : List (List Char × Nat) := []
  models : List (Obj κ K) := []

/-- the files -/
abbrev Files (κ K : Type) := List Char → Option (File κ K)

/-- `import_python_file`, misc.py:109-122.  `SourceFileLoader(name, path).load_module()`: if `sys.modules` has a module of this name
the file is executed in that module object, otherwise in a new one, which is dropped if the execution raises. -/
def importPy (fs : Files κ K) (path : List Char) (s : State κ K) : Py Nat × State κ K :=
  let name := FileName.withoutExtension path
  match fs path with
  | none => (.error .os, s)
  | some f =>
    match s.sysModules.lookup name with
    | some r =>
      let s' := { s with heap := s.heap.modify r fun m => exec m f.body }
      match f.err with
      | some e => (.error e, s')
      | none => (.ok r, s')
    | none =>
      match f.err with
      | some e => (.error e, s)
      | none => (.ok s.heap.length,
          { s with heap := s.heap ++ [exec {} f.body], sysModules := (name, s.heap.length) :: s.sysModules })

/-- `dataset.dis_videos = [... for dis_video in dataset.dis_videos if ...]` for ids that are given, subjective_model.py:51-54 -/
def filterMod (m : Module κ K) (cids aids : Option (List Int)) : Py (Module κ K) :=
  match cids, aids with
  | none, none => .ok m
  | _, _ =>
    match m.disVideos with
    | none => .error .attribute
    | some l => .ok { m with disVideos := some (Conv.selectIds (·.assetId) aids (Conv.selectIds (·.contentId) cids l)) }

section
variable [LinearOrder κ]

/-- the reader object of a module: it looks the videos up at each access and is checked only when it is made -/
def readerOf (d : Dataset κ K) : Reader κ K :=
  { dataset := d, disVideos := d.disVideos, scores := opinionScores d.disVideos, observers := listObservers d.disVideos }

/-- `cls.from_dataset_file(path, content_ids, asset_ids)`, subjective_model.py:41-61 -/
def fromFile (fs : Files κ K) (path : List Char) (cids aids : Option (List Int)) (s : State κ K) : Py Nat × State κ K :=
  match importPy fs path s with
  | (.error e, s1) => (.error e, s1)
  | (.ok r, s1) =>
    match s1.heap[r]? with
    | none => (.error .attribute, s1)
    | some m =>
      match filterMod m cids aids with
      | .error e => (.error e, s1)
      | .ok m' =>
        let s2 := { s1 with heap := s1.heap.set r m' }
        match view m' with
        | .error e => (.error e, s2)
        | .ok d =>
          match assertRaw d with
          | .error e => (.error e, s2)
          | .ok () => (.ok s2.models.length, { s2 with models := s2.models ++ [{ ref := r }] })

/-- the dataset a model object sees now -/
def datasetOf (s : State κ K) (o : Obj κ K) : Py (Dataset κ K) :=
  match s.heap[o.ref]? with
  | none => .error .attribute
  | some m => view m

/-- `model.run_modeling(**opts)`, subjective_model.py:63-76: the result is stored if nothing raised -/
def run {A : Type} (model : Reader κ K → A → Py (Result κ K)) (i : Nat) (opts : A) (s : State κ K) : Py (Result κ K) × State κ K :=
  match s.models[i]? with
  | none => (.error .index, s)
  | some o =>
    match datasetOf s o with
    | .error e => (.error e, s)
    | .ok d =>
      match model (readerOf d) opts with
      | .error e => (.error e, s)
      | .ok res => (.ok res, { s with models := s.models.set i { o with result := some res } })

/-- `model.to_aggregated_dataset(**kw)`, subjective_model.py:78-83, 93-97 -/
def toAggregated (i : Nat) (kw : Conv.AggKw K) (s : State κ K) : Py (Dataset κ K) :=
  match s.models[i]? with
  | none => .error .index
  | some o =>
    match o.result with
    | none => .error .assertion
    | some res =>
      match datasetOf s o with
      | .error e => .error e
      | .ok d =>
        match Conv.modelToAggregated (readerOf d) res kw with
        | .error e => .error e
        | .ok p => .ok p.2

/-- what a program does with the library -/
inductive Op (κ K A : Type) where
  | fromFile (path : List Char) (cids aids : Option (List Int))
  | run (i : Nat) (opts : A)
  | toAggregated (i : Nat) (kw : Conv.AggKw K)

/-- what a program sees: a new model object, a result, a dataset, or the exception instead -/
inductive Out (κ K : Type) where
  | loaded (r : Py Nat)
  | result (r : Py (Result κ K))
  | dataset (r : Py (Dataset κ K))

/-- what an operation returns -/
def out {A : Type} (fs : Files κ K) (model : Reader κ K → A → Py (Result κ K)) (s : State κ K) : Op κ K A → Out κ K
  | .fromFile path cids aids => .loaded (fromFile fs path cids aids s).1
  | .run i opts => .result (run model i opts s).1
  | .toAggregated i kw => .dataset (toAggregated i kw s)

/-- the state after an operation -/
def step {A : Type} (fs : Files κ K) (model : Reader κ K → A → Py (Result κ K)) (s : State κ K) : Op κ K A → State κ K
  | .fromFile path cids aids => (fromFile fs path cids aids s).2
  | .run i opts => (run model i opts s).2
  | .toAggregated _ _ => s

/-- the state after a sequence of operations -/
def exe {A : Type} (fs : Files κ K) (model : Reader κ K → A → Py (Result κ K)) (s : State κ K) (ops : List (Op κ K A)) : State κ K :=
  ops.foldl (step fs model) s

/-- what a sequence of operations returns -/
def trace {A : Type} (fs : Files κ K) (model : Reader κ K → A → Py (Result κ K)) : State κ K → List (Op κ K A) → List (Out κ K)
  | _, [] => []
  | s, op :: ops => out fs model s op :: trace fs model (step fs model s op) ops

end
end Sureal.Life
