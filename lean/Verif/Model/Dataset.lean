import Verif.Model.Np
import Mathlib.Data.List.Dedup
import Mathlib.Data.List.Sort
import Mathlib.Data.String.Basic
/-!
# Datasets and the raw dataset reader (`sureal/dataset_reader.py`)

A dataset is a Python module/namespace with `ref_videos`, `dis_videos` (lists of dicts) and further
attributes.  Simplifications: the keys `content_id`, `asset_id`, `path` are always present in a
distorted video and `content_id`, `path` in a reference video; ids are Python ints; all keys the code
does not look at are kept in an opaque list `extra`; attributes the code does not look at are kept in
the opaque list `attrs`.
-/
namespace Sureal

/-- The Python container holding several votes of one observer on one video. -/
inductive SeqKind where
  | list | tuple | ndarray
  deriving DecidableEq, Repr

/-- One entry of `dis_video['os']`: a bare number, or a list/tuple/ndarray of numbers (repetitions). -/
inductive Vote (K : Type) where
  | one (x : Fl K)
  | many (kind : SeqKind) (xs : List (Fl K))
  deriving DecidableEq, Repr

/-- `dis_video['os']`: a list/tuple of entries, a dict from keys to entries, or something else. -/
inductive Os (κ K : Type) where
  | seq (isTuple : Bool) (l : List (Vote K))
  | dict (d : List (κ × Vote K))
  | other
  deriving DecidableEq, Repr

/-- `dis_video['groundtruth']`: a number or a list of numbers. -/
inductive Gt (K : Type) where
  | one (x : Fl K)
  | many (xs : List (Fl K))
  deriving DecidableEq, Repr

/-- An entry of `dataset.ref_videos`. -/
structure RefVideo where
  contentId : Int
  path : String
  extra : List (String × String) := []
  deriving DecidableEq, Repr

/-- An entry of `dataset.dis_videos`; `os = none` when the key 'os' is missing. -/
structure DisVideo (κ K : Type) where
  contentId : Int
  assetId : Int
  path : String
  os : Option (Os κ K)
  groundtruth : Option (Gt K) := none
  groundtruthStd : Option (Fl K) := none
  extra : List (String × String) := []
  deriving DecidableEq, Repr

/-- A dataset.  `refScore`: attribute missing / `None` / a number. -/
structure Dataset (κ K : Type) where
  refVideos : List RefVideo
  disVideos : List (DisVideo κ K)
  refScore : Option (Option (Fl K)) := none
  datasetName : Option String := none
  attrs : List (String × String) := []
  deriving DecidableEq, Repr

/-- `[f(a) for a in l]` where `f` may raise. -/
def mapPy {α β : Type} (f : α → Py β) : List α → Py (List β)
  | [] => .ok []
  | a :: l =>
    match f a with
    | .error e => .error e
    | .ok b =>
      match mapPy f l with
      | .error e => .error e
      | .ok bs => .ok (b :: bs)

variable {κ K : Type}

/-- `isinstance(os, (list, tuple, dict))` -/
def Os.iterable : Os κ K → Bool
  | .other => false
  | _ => true

/-- `len(os)` (of an `other` value: not used by the code after validation) -/
def Os.len : Os κ K → Nat
  | .seq _ l => l.length
  | .dict d => d.length
  | .other => 0

/-- `DatasetReader._assert_dataset`, dataset_reader.py:21-36.
`np.max([])` raises ValueError; `cid in range(max + 1)` means `0 <= cid <= max`. -/
def assertDataset (d : Dataset κ K) : Py Unit :=
  let cids := d.refVideos.map (·.contentId)
  match cids with
  | [] => .error .value
  | c :: cs =>
    let m := cs.foldl max c
    if cids.all (fun cid => decide (0 ≤ cid ∧ cid < m + 1)) then
      if d.disVideos.all (fun dv => cids.contains dv.contentId) then .ok ()
      else .error .assertion
    else .error .assertion

/-- `RawDatasetReader._assert_dataset`, dataset_reader.py:121-143. -/
def assertRaw (d : Dataset κ K) : Py Unit :=
  match assertDataset d with
  | .error e => .error e
  | .ok () =>
    if d.disVideos.all (fun dv => match dv.os with | some os => os.iterable | none => false) then
      match d.disVideos with
      | [] => .error .index
      | d0 :: rest =>
        match d0.os with
        | some (.seq _ l) =>
          if rest.all (fun dv => match dv.os with | some os => decide (l.length = os.len) | none => false)
          then .ok () else .error .assertion
        | _ => .ok ()
    else .error .assertion

section observers
variable [LinearOrder κ]

/-- `get_unique_sorted_list`, tools/misc.py:26-33: `sorted(list(set(l)))`. -/
def uniqueSorted (l : List κ) : List κ := (l.dedup).insertionSort (· ≤ ·)

/-- `dis_video['os']` as a dict; the assertion `isinstance(os, dict)` fails otherwise. -/
def osDict (dv : DisVideo κ K) : Py (List (κ × Vote K)) :=
  match dv.os with
  | some (.dict d) => .ok d
  | some _ => .error .assertion
  | none => .error .key

/-- `RawDatasetReader._get_list_observers`, dataset_reader.py:161-170. -/
def listObservers (dvs : List (DisVideo κ K)) : Py (List κ) :=
  match mapPy osDict dvs with
  | .error e => .error e
  | .ok ds => .ok (uniqueSorted (ds.flatMap (fun d => d.map Prod.fst)))

/-- `RawDatasetReader._get_num_observers`, dataset_reader.py:145-155. -/
def numObservers (dvs : List (DisVideo κ K)) : Py Nat :=
  match dvs with
  | [] => .error .index
  | d0 :: _ =>
    match d0.os with
    | none => .error .key
    | some (.seq _ l) => .ok l.length
    | some (.dict _) =>
      match listObservers dvs with
      | .error e => .error e
      | .ok obs => .ok obs.length
    | some .other => .error .assertion
end observers

/-- `len(scores)` if `scores` is a list or tuple (ndarrays are neither), else no contribution:
the `if isinstance(...): if len(scores) > max_reps: ...` step, dataset_reader.py:184-186, 194-196. -/
def repStep (m : Nat) (v : Vote K) : Nat :=
  match v with
  | .many .list xs => if xs.length > m then xs.length else m
  | .many .tuple xs => if xs.length > m then xs.length else m
  | _ => m

/-- `dis_video['os'][i]` for `i` in `range(n)`, sequence style; a dict indexed by an int raises KeyError. -/
def seqEntries (n : Nat) (dv : DisVideo κ K) : Py (List (Vote K)) :=
  match dv.os with
  | some (.seq _ l) => if n ≤ l.length then .ok (l.take n) else .error .index
  | some (.dict _) => if n = 0 then .ok [] else .error .key
  | some .other => .error .type
  | none => .error .key

/-- Can `score_mtx[i, j, :reps] = vote` be executed?  Lists and tuples have `reps = len`; a number is
broadcast to one slot; an ndarray goes to a slice of length 1 and must have exactly one element
(dataset_reader.py:218-222, 228-232). -/
def Vote.assignable : Vote K → Bool
  | .many .ndarray xs => decide (xs.length = 1)
  | _ => true

/-- The value written by `score_mtx[i, j, :reps] = vote` at repetition `r`; NaN where nothing is
written. -/
def Vote.cell (v : Vote K) (r : Nat) : Fl K :=
  match v with
  | .one x => if r = 0 then x else .nan
  | .many _ xs => (xs[r]?).getD .nan

/-- A 3-D float array with its shape. -/
structure Arr3D (α : Type) where
  E : Nat
  S : Nat
  R : Nat
  get : Arr3 α E S R

/-- Table of entries (`none`: nothing written) to array. -/
def tableArr (E S R : Nat) (t : List (List (Option (Vote K)))) : Arr3D (Fl K) :=
  { E := E, S := S, R := R,
    get := fun e s r =>
      match (t[e.val]?).bind (fun row => (row[s.val]?).join) with
      | some v => v.cell r.val
      | none => .nan }

section array
variable [LinearOrder κ]

/-- `RawDatasetReader.opinion_score_3darray`, dataset_reader.py:206-235 (with 172-200 inlined), for a
reader whose `num_observers` property returns `nObs` (subclasses override it; the base class returns
`_get_num_observers()`).  Sequence style loops over `range(self.num_observers)`, dict style over the
sorted observer list. -/
def opinionScoresWith (dvs : List (DisVideo κ K)) (nObs : Nat) : Py (Arr3D (Fl K)) :=
  match dvs with
  | [] => .error .index
  | d0 :: _ =>
    match d0.os with
    | none => .error .key
    | some (.seq _ l0) =>
      match mapPy (seqEntries nObs) dvs with
      | .error e => .error e
      | .ok t =>
        if t.all (·.all Vote.assignable) then
          -- writing column j >= l0.length would raise IndexError
          if dvs.length = 0 ∨ nObs ≤ l0.length then
            .ok (tableArr dvs.length l0.length (t.flatten.foldl repStep 1) (t.map (·.map some)))
          else .error .index
        else .error .value
    | some (.dict _) =>
      match listObservers dvs, mapPy osDict dvs with
      | .error e, _ => .error e
      | _, .error e => .error e
      | .ok obs, .ok ds =>
        if ds.all (·.all (fun p => p.2.assignable)) then
          .ok (tableArr dvs.length obs.length
            ((ds.flatMap (fun d => d.map Prod.snd)).foldl repStep 1)
            (ds.map fun d => obs.map fun o => d.lookup o))
        else .error .value
    | some .other => .error .assertion

/-- `RawDatasetReader(dataset).opinion_score_3darray`. -/
def opinionScores (dvs : List (DisVideo κ K)) : Py (Arr3D (Fl K)) :=
  match numObservers dvs with
  | .error e => .error e
  | .ok n => opinionScoresWith dvs n

end array

/-- `self.content_id_of_dis_videos`, dataset_reader.py:62-64 (`dvs` is `self.dis_videos`) -/
def contentIdOfDisVideos (dvs : List (DisVideo κ K)) : List Int := dvs.map (·.contentId)

/-- `self._contentid_to_refvideo_map[cid]`, dataset_reader.py:66-71: later reference videos overwrite
earlier ones with the same content id. -/
def refVideoOf (refs : List RefVideo) (cid : Int) : Option RefVideo :=
  refs.foldl (fun acc r => if r.contentId = cid then some r else acc) none

/-- `self.disvideo_is_refvideo`, dataset_reader.py:73-79 -/
def disvideoIsRefvideo (refs : List RefVideo) (dvs : List (DisVideo κ K)) : Py (List Bool) :=
  mapPy (fun dv => match refVideoOf refs dv.contentId with
    | some r => .ok (decide (r.path = dv.path))
    | none => .error .key) dvs

/-- A dataset reader object as the subjective models see it.  Subclasses override some of the properties
(`dis_videos`, `opinion_score_3darray`, `_get_list_observers`); the base class is `rawReader`.
Simplification: a property gives the same value at each access (readers that draw fresh random numbers at
each access are modelled per access in `Verif.Model.Mock`). -/
structure Reader (κ K : Type) where
  /-- `reader.dataset` -/
  dataset : Dataset κ K
  /-- `reader.dis_videos` -/
  disVideos : List (DisVideo κ K)
  /-- `reader.opinion_score_3darray` -/
  scores : Py (Arr3D (Fl K))
  /-- `reader._get_list_observers()` -/
  observers : Py (List κ)

/-- `RawDatasetReader(dataset)`, dataset_reader.py:17-19, 115-235 -/
def rawReader [LinearOrder κ] (d : Dataset κ K) : Py (Reader κ K) :=
  match assertRaw d with
  | .error e => .error e
  | .ok () => .ok { dataset := d, disVideos := d.disVideos,
                    scores := opinionScores d.disVideos, observers := listObservers d.disVideos }

end Sureal
