import Verif.Model.Life
/-!
# Specification: model objects that own their dataset

Every model object holds its own copy of the content of its file, restricted to the ids asked for.
-/
namespace Sureal.Life.Spec
open Sureal.Life
variable {κ K : Type} [LinearOrder κ]

/-- the last value in a list of assignments -/
def lastOf {α β : Type} (pick : α → Option β) (l : List α) : Option β := (l.filterMap pick).getLast?

/-- the list of distorted videos a file sets last -/
def disVideosOf (f : List (Assign κ K)) : Option (List (DisVideo κ K)) :=
  lastOf (fun | .disVideos l => some l | _ => none) f

/-- the list of reference videos a file sets last -/
def refVideosOf (f : List (Assign κ K)) : Option (List RefVideo) :=
  lastOf (fun | .refVideos l => some l | _ => none) f

/-- the reference score a file sets last -/
def refScoreOf (f : List (Assign κ K)) : Option (Option (Fl K)) :=
  lastOf (fun | .refScore l => some l | _ => none) f

/-- the name a file sets last -/
def datasetNameOf (f : List (Assign κ K)) : Option String :=
  lastOf (fun | .datasetName l => some l | _ => none) f

/-- the further attributes of a file -/
def attrsOf (f : List (Assign κ K)) : List (String × String) :=
  (f.filterMap fun | .attr k v => some (k, v) | _ => none).foldl (fun l p => Conv.setAttr l p.1 p.2) []

/-- `i` is among the ids asked for -/
def wanted (ids : Option (List Int)) (i : Int) : Bool :=
  match ids with
  | none => true
  | some l => decide (i ∈ l)

/-- the dataset of a file, restricted to the ids asked for; an exception if the file is missing, raises, sets no videos, or is
not a dataset of votes -/
def content (fs : Files κ K) (path : List Char) (cids aids : Option (List Int)) : Py (Dataset κ K) :=
  match fs path with
  | none => .error .os
  | some f =>
    match f.err with
    | some e => .error e
    | none =>
      match refVideosOf f.body, disVideosOf f.body with
      | some r, some d =>
        let ds : Dataset κ K :=
          { refVideos := r
            disVideos := d.filter fun v => wanted cids v.contentId && wanted aids v.assetId
            refScore := refScoreOf f.body, datasetName := datasetNameOf f.body, attrs := attrsOf f.body }
        match assertRaw ds with
        | .error e => .error e
        | .ok () => .ok ds
      | _, _ => .error .attribute

/-- a model object that owns its dataset -/
structure Owner (κ K : Type) where
  data : Dataset κ K
  result : Option (Result κ K) := none

variable {A : Type}

/-- the next state -/
def step (fs : Files κ K) (model : Reader κ K → A → Py (Result κ K)) (t : List (Owner κ K)) : Op κ K A → List (Owner κ K)
  | .fromFile path cids aids =>
    match content fs path cids aids with
    | .ok d => t ++ [{ data := d }]
    | .error _ => t
  | .run i opts =>
    match t[i]? with
    | none => t
    | some o =>
      match model (readerOf o.data) opts with
      | .ok res => t.set i { o with result := some res }
      | .error _ => t
  | .toAggregated _ _ => t

/-- what an operation returns -/
def out (fs : Files κ K) (model : Reader κ K → A → Py (Result κ K)) (t : List (Owner κ K)) : Op κ K A → Out κ K
  | .fromFile path cids aids =>
    match content fs path cids aids with
    | .ok _ => .loaded (.ok t.length)
    | .error e => .loaded (.error e)
  | .run i opts =>
    match t[i]? with
    | none => .result (.error .index)
    | some o => .result (model (readerOf o.data) opts)
  | .toAggregated i kw =>
    match t[i]? with
    | none => .dataset (.error .index)
    | some o =>
      match o.result with
      | none => .dataset (.error .assertion)
      | some res =>
        match Conv.modelToAggregated (readerOf o.data) res kw with
        | .error e => .dataset (.error e)
        | .ok p => .dataset (.ok p.2)

/-- what a sequence of operations returns -/
def trace (fs : Files κ K) (model : Reader κ K → A → Py (Result κ K)) : List (Owner κ K) → List (Op κ K A) → List (Out κ K)
  | _, [] => []
  | t, op :: ops => out fs model t op :: trace fs model (step fs model t op) ops

/-- the names under which the files of a program are loaded -/
def names (ops : List (Op κ K A)) : List (List Char) :=
  ops.filterMap fun
    | .fromFile path _ _ => some (FileName.withoutExtension path)
    | _ => none

end Sureal.Life.Spec
