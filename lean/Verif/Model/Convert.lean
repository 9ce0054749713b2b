import Verif.Model.Mos
/-!
# Dataset conversions (`sureal/dataset_reader.py`:237-338, 528-611)

`to_aggregated_dataset`, `to_persubject_dataset`, `to_dictionary_style_dataset` and
`to_combined_overlap_dataset`.  Every conversion returns a pair: the source dataset(s) *as they are after
the call*, and the new dataset.  Where the code deep-copies an object before changing it the source
component is passed through; where it changes an object it got from the source, the source component
changes.

Simplifications: attributes and keys are strings; vote objects inside one dataset are pairwise distinct
objects (no sharing between the lists of a dataset literal), and the two datasets given to
`to_combined_overlap_dataset` are distinct objects.
-/
namespace Sureal.Conv
variable {κ K : Type}

/-- `setattr(newone, key, value)` on the opaque attributes. -/
def setAttr : List (String × String) → String → String → List (String × String)
  | [], k, v => [(k, v)]
  | (k', v') :: l, k, v => if k' = k then (k, v) :: l else (k', v') :: setAttr l k v

/-- The keyword arguments read by `_prepare_new_dataset` (values kept as opaque strings). -/
structure PrepareKw where
  qualityWidth : Option String := none
  qualityHeight : Option String := none
  resamplingType : Option String := none

/-- `if 'key' in kwargs and kwargs['key'] is not None: newone.key = ...`; the `elif` branch copies the value
already copied by the loop. -/
def setOpt (attrs : List (String × String)) (k : String) : Option String → List (String × String)
  | some v => setAttr attrs k v
  | none => attrs

/-- `RawDatasetReader._prepare_new_dataset`, dataset_reader.py:276-294: every attribute whose name does not
start with two underscores is copied, and the three optional overrides are applied.  The attributes
`ref_videos` and `dis_videos` are copied too, and overwritten by the callers. -/
def prepare (d : Dataset κ K) (kw : PrepareKw) : Dataset κ K :=
  let attrs := d.attrs.filter fun p => !("__".toList.isPrefixOf p.1.toList)
  { d with attrs := setOpt (setOpt (setOpt attrs "quality_width" kw.qualityWidth)
      "quality_height" kw.qualityHeight) "resampling_type" kw.resamplingType }

/-- One element of `aggregate_scores`: a number, or a 1-D ndarray. -/
inductive Score (K : Type) where
  | num (x : Fl K)
  | arr (xs : List (Fl K))
  deriving DecidableEq, Repr

/-- lines 251-257: `isinstance(score, np.ndarray)`; length 1 gives a float, any other length a list. -/
def Score.toGt : Score K → Gt K
  | .num x => .one x
  | .arr [x] => .one x
  | .arr xs => .many xs

/-- Keyword arguments of `to_aggregated_dataset`. -/
structure AggKw (K : Type) extends PrepareKw where
  scoresStd : Option (List (Fl K)) := none
  contentIds : Option (List Int) := none
  assetIds : Option (List Int) := none

/-- lines 247-258: the loop body of `to_aggregated_dataset`. -/
def aggVideo (dv : DisVideo κ K) (s : Score K) : DisVideo κ K :=
  { dv with os := none, groundtruth := some s.toGt }

/-- lines 260-264: add the standard deviations if available -/
def addStd (dvs : List (DisVideo κ K)) : Option (List (Fl K)) → Py (List (DisVideo κ K))
  | none => .ok dvs
  | some stds =>
    if dvs.length = stds.length then
      .ok (List.zipWith (fun (dv : DisVideo κ K) (x : Fl K) => { dv with groundtruthStd := some x }) dvs stds)
    else .error .assertion

/-- lines 266-270: `list(filter(lambda dis_video: dis_video[key] in ids, dis_videos))`, if ids are given -/
def selectIds (key : DisVideo κ K → Int) (ids : Option (List Int)) (dvs : List (DisVideo κ K)) :
    List (DisVideo κ K) :=
  match ids with
  | none => dvs
  | some ids => dvs.filter fun dv => decide (key dv ∈ ids)

/-- `RawDatasetReader.to_aggregated_dataset`, dataset_reader.py:237-274.  The videos are deep-copied (248)
before anything is changed, so the source is passed through. -/
def toAggregated (rd : Reader κ K) (scores : List (Score K)) (kw : AggKw K) :
    Py (Dataset κ K × Dataset κ K) :=
  let new0 := prepare rd.dataset kw.toPrepareKw
  if rd.disVideos.length = scores.length then
    match addStd (List.zipWith aggVideo rd.disVideos scores) kw.scoresStd with
    | .error e => .error e
    | .ok dvs =>
      let dvs := selectIds (·.contentId) kw.contentIds dvs
      let dvs := selectIds (·.assetId) kw.assetIds dvs
      .ok (rd.dataset, { new0 with refVideos := rd.dataset.refVideos, disVideos := dvs })
  else .error .assertion

/-- `SubjectiveModel.to_aggregated_dataset`, subjective_model.py:78-83, after `run_modeling` returned `res`:
the quality scores are numbers, the standard deviations are passed on when the model reports them. -/
def modelToAggregated (rd : Reader κ K) (res : Result κ K) (kw : AggKw K) : Py (Dataset κ K × Dataset κ K) :=
  toAggregated rd (res.qualityScores.map .num) { kw with scoresStd := res.qualityScoresStd }

/-- `SubjectiveModel._import_dataset_and_filter`, subjective_model.py:48-56, after the import. -/
def importFilter (d : Dataset κ K) (contentIds assetIds : Option (List Int)) : Dataset κ K :=
  { d with disVideos := selectIds (·.assetId) assetIds (selectIds (·.contentId) contentIds d.disVideos) }

/-- One element of `quality_scores` given to `to_persubject_dataset`: an object without `__len__` (a
number), a 1-D row of numbers, or a 2-D row (one 1-D array per subject). -/
inductive PsRow (K : Type) where
  | scalar (x : Fl K)
  | row (xs : List (Fl K))
  | rows (xs : List (List (Fl K)))

/-- `math.isnan(x)` on an ndarray: one element converts to a float, any other length raises TypeError. -/
def isnanArr : List (Fl K) → Py Bool
  | [x] => .ok x.isNan
  | _ => .error .type

/-- `list(filter(lambda x: not math.isnan(x), rows))`, line 320, rows of ndarrays. -/
def filterRows : List (List (Fl K)) → Py (List (List (Fl K)))
  | [] => .ok []
  | a :: l =>
    match isnanArr a with
    | .error e => .error e
    | .ok b =>
      match filterRows l with
      | .error e => .error e
      | .ok l' => .ok (if b then l' else a :: l')

/-- lines 312-322: the list of per-subject scores of one video. -/
def psScores (os : Os κ K) (q : PsRow K) : Py (List (Score K)) :=
  match q with
  | .scalar _ => .error .assertion
  | .row xs =>
    let xs := match os with
      | .dict _ => xs.filter fun x : Fl K => !x.isNan
      | _ => xs
    if os.len = xs.length then .ok (xs.map .num) else .error .assertion
  | .rows xs =>
    match (match os with
      | .dict _ => filterRows xs
      | _ => .ok xs) with
    | .error e => .error e
    | .ok xs => if os.len = xs.length then .ok (xs.map .arr) else .error .assertion

/-- lines 311-335: the entries made from one video. -/
def psVideo (dv : DisVideo κ K) (q : PsRow K) : Py (List (DisVideo κ K)) :=
  match dv.os with
  | none => .error .assertion
  | some os =>
    match psScores os q with
    | .error e => .error e
    | .ok ss => .ok (ss.map (aggVideo dv))

/-- `RawDatasetReader.to_persubject_dataset`, dataset_reader.py:300-338; `zip` stops at the shorter list. -/
def toPersubject (rd : Reader κ K) (qs : List (PsRow K)) (kw : PrepareKw) :
    Py (Dataset κ K × Dataset κ K) :=
  match mapPy (fun p => psVideo p.1 p.2) (rd.disVideos.zip qs) with
  | .error e => .error e
  | .ok vs => .ok (rd.dataset,
      { prepare rd.dataset kw with refVideos := rd.dataset.refVideos, disVideos := vs.flatten })

/-- `PerSubjectModel`, subjective_model.py:1332-1354: the quality scores are the (E, S, R) array of
preprocessed scores, so each element of `quality_scores` is a 2-D array. -/
def perSubjectRows (a : Arr3D (Fl K)) : List (PsRow K) :=
  List.ofFn fun e => .rows (List.ofFn fun s => List.ofFn fun r => a.get e s r)

/-- `dict[k] = v` on an association list: an existing key keeps its place, a new key is appended. -/
def dictSet {α β : Type} [DecidableEq α] : List (α × β) → α → β → List (α × β)
  | [], k, v => [(k, v)]
  | (k', v') :: l, k, v => if k' = k then (k, v) :: l else (k', v') :: dictSet l k v

/-- `dict.update`. -/
def dictUpdate {α β : Type} [DecidableEq α] (d u : List (α × β)) : List (α × β) :=
  u.foldl (fun d p => dictSet d p.1 p.2) d

/-- `self.dataset.dataset_name + '_subject' + str(idx)`, line 606 -/
def subjName (name : String) (idx : Nat) : String := name ++ "_subject" ++ toString idx

/-- lines 605-607, for the entries from index `i` on -/
def nameEntries (name : String) : Nat → List (Vote K) → List (String × Vote K) → List (String × Vote K)
  | _, [], acc => acc
  | i, v :: l, acc => nameEntries name (i + 1) l (dictSet acc (subjName name i) v)

/-- lines 602-609 for one video.  Iterating over a dict (possible when the first video is list style and a
later one is not) would store its keys as scores; that case is represented by `other`. -/
def dictVideo (name : Option String) (dv : DisVideo String K) : Py (DisVideo String K) :=
  match dv.os with
  | some (.seq _ l) =>
    match l, name with
    | [], _ => .ok { dv with os := some (.dict []) }
    | _ :: _, none => .error .attribute
    | l, some n => .ok { dv with os := some (.dict (nameEntries n 0 l [])) }
  | some (.dict []) => .ok { dv with os := some (.dict []) }
  | some (.dict (_ :: _)) =>
    match name with
    | none => .error .attribute
    | some _ => .ok { dv with os := some .other }
  | some .other => .error .type
  | none => .error .key

/-- Is the `os` of a video a dict? -/
def isDict (dv : DisVideo κ K) : Bool :=
  match dv.os with
  | some (.dict _) => true
  | _ => false

/-- `RawDatasetReader.to_dictionary_style_dataset`, dataset_reader.py:587-611.  In the dictionary-style
branch the new dataset is the source dataset object itself (591).  Keyword arguments of the list-style
branch are those of `_prepare_new_dataset`. -/
def toDictStyle (rd : Reader String K) (kw : PrepareKw) : Py (Dataset String K × Dataset String K) :=
  match rd.disVideos with
  | [] => .error .index
  | d0 :: _ =>
    match d0.os with
    | none => .error .key
    | some (.dict _) =>
      if rd.disVideos.all isDict then .ok (rd.dataset, rd.dataset) else .error .assertion
    | some _ =>
      match mapPy (dictVideo rd.dataset.datasetName) rd.disVideos with
      | .error e => .error e
      | .ok dvs => .ok (rd.dataset,
          { prepare rd.dataset kw with refVideos := rd.dataset.refVideos, disVideos := dvs })

/-- A value stored in the `os` of a combined video: a value of its own, or a reference to the list object
stored in the first dataset under the given key (line 572, 577-578: `new_os` *is* that list). -/
inductive Cell (κ K : Type) where
  | val (v : Vote K)
  | ref (key : κ)

section overlap
variable [DecidableEq κ]

/-- lines 567-578 for one key of the second video.  State: the `os` of the first video (its lists can be
appended to) and the `os` of the new video.  Only numbers and lists are modelled as entries of shared
subjects: for a tuple or an ndarray the code would build a nested list, which is represented by an error. -/
def shareKey (st : List (κ × Vote K) × List (κ × Cell κ K)) (p : κ × Vote K) :
    Py (List (κ × Vote K) × List (κ × Cell κ K)) :=
  match st.1.lookup p.1 with
  | none => .ok st
  | some (.many .list xs) =>
    match p.2 with
    | .many .list ys => .ok (st.1, dictSet st.2 p.1 (.val (.many .list (xs ++ ys))))
    | .one y => .ok (dictSet st.1 p.1 (.many .list (xs ++ [y])), dictSet st.2 p.1 (.ref p.1))
    | .many _ _ => .error .notImplemented
  | some (.one x) =>
    match p.2 with
    | .many .list ys => .ok (st.1, dictSet st.2 p.1 (.val (.many .list (x :: ys))))
    | .one y => .ok (st.1, dictSet st.2 p.1 (.val (.many .list [x, y])))
    | .many _ _ => .error .notImplemented
  | some (.many _ _) => .error .notImplemented

/-- A left fold whose step may raise. -/
def foldPy {α β : Type} (f : β → α → Py β) : β → List α → Py β
  | b, [] => .ok b
  | b, a :: l =>
    match f b a with
    | .error e => .error e
    | .ok b' => foldPy f b' l

/-- A combined video before its list references are resolved. -/
structure NewVideo (κ K : Type) where
  contentId : Int
  base : DisVideo κ K
  os : List (κ × Cell κ K)

/-- State of the nested loops of `to_combined_overlap_dataset` within one first-dataset video. -/
structure OvState (κ K : Type) where
  /-- `vid1['os']` -/
  os1 : List (κ × Vote K)
  contentIds : List Int
  refs : List RefVideo
  news : List (NewVideo κ K)

/-- lines 549-560: the new content id, and the reference video appended on first use (the first reference
with that content id, if there is one). -/
def useContent (refs1 : List RefVideo) (cid : Int) (ids : List Int) (refs : List RefVideo) :
    List Int × List RefVideo × Int :=
  if cid ∈ ids then (ids, refs, (ids.idxOf cid : Int))
  else
    let ids' := ids ++ [cid]
    let n : Int := (ids'.idxOf cid : Int)
    let refs' := match refs1.find? fun r => decide (r.contentId = cid) with
      | some r => refs ++ [{ r with contentId := n }]
      | none => refs
    (ids', refs', n)

/-- lines 546-580 for one video of the second dataset. -/
def pairStep (refs1 : List RefVideo) (vid1 : DisVideo κ K) (st : OvState κ K) (vid2 : DisVideo κ K) :
    Py (OvState κ K) :=
  if vid1.path = vid2.path then
    let (ids, refs, n) := useContent refs1 vid1.contentId st.contentIds st.refs
    match vid2.os with
    | some (.dict os2) =>
      let new0 := dictUpdate (st.os1.map fun p => (p.1, Cell.val p.2)) (os2.map fun p => (p.1, Cell.val p.2))
      match foldPy shareKey (st.os1, new0) os2 with
      | .error e => .error e
      | .ok (os1, newOs) =>
        .ok { os1 := os1, contentIds := ids, refs := refs,
              news := st.news ++ [{ contentId := n, base := vid1, os := newOs }] }
    | _ => .error .type
  else .ok st

/-- What a reference stands for when all appends are done. -/
def Cell.resolve (os1 : List (κ × Vote K)) : Cell κ K → Option (Vote K)
  | .val v => some v
  | .ref k => os1.lookup k

/-- The combined video after the call. -/
def NewVideo.resolve (os1 : List (κ × Vote K)) (v : NewVideo κ K) : DisVideo κ K :=
  { v.base with contentId := v.contentId,
                os := some (.dict (v.os.filterMap fun p => (p.2.resolve os1).map fun x => (p.1, x))) }

/-- The two loops, lines 544-580.  Lists are only appended to while their own first-dataset video is
processed, so references are resolved at the end of each outer iteration.  Result: the first dataset's
videos after the call, the new reference videos, the new videos. -/
def overlapLoop (refs1 : List RefVideo) (second : List (DisVideo κ K)) :
    List (DisVideo κ K) → List Int → List RefVideo →
      Py (List (DisVideo κ K) × List RefVideo × List (DisVideo κ K))
  | [], _, refs => .ok ([], refs, [])
  | v1 :: rest, ids, refs =>
    match v1.os with
    | some (.dict os1) =>
      match foldPy (pairStep refs1 v1) { os1 := os1, contentIds := ids, refs := refs, news := [] } second with
      | .error e => .error e
      | .ok st =>
        match overlapLoop refs1 second rest st.contentIds st.refs with
        | .error e => .error e
        | .ok (firsts, refs', news) =>
          .ok ({ v1 with os := some (.dict st.os1) } :: firsts, refs',
               st.news.map (NewVideo.resolve st.os1) ++ news)
    | _ => .error .type

end overlap

/-- What the source video looks like after its dictionary-style copy has changed: for a dictionary-style
dataset the copy *is* the source; for a list-style dataset the entries of the copy are the same objects as
the entries of the source list (line 605-607), so lists that were appended to have changed there too. -/
def sourceVideo (src copy : DisVideo String K) : DisVideo String K :=
  match src.os, copy.os with
  | some (.seq t _), some (.dict d) => { src with os := some (.seq t (d.map Prod.snd)) }
  | some (.dict _), some (.dict d) => { src with os := some (.dict d) }
  | _, _ => src

/-- `RawDatasetReader.to_combined_overlap_dataset`, dataset_reader.py:528-581, on two raw readers.  Result:
the first and the second source dataset after the call, and the new dataset. -/
def toCombinedOverlap (rd1 rd2 : Reader String K) (kw : PrepareKw) :
    Py (Dataset String K × Dataset String K × Dataset String K) :=
  match toDictStyle rd1 {} with
  | .error e => .error e
  | .ok (_, first) =>
    match toDictStyle rd2 {} with
    | .error e => .error e
    | .ok (_, second) =>
      match overlapLoop first.refVideos second.disVideos first.disVideos [] [] with
      | .error e => .error e
      | .ok (firsts, refs, news) =>
        .ok ({ rd1.dataset with disVideos := List.zipWith sourceVideo rd1.dataset.disVideos firsts },
             rd2.dataset,
             { prepare rd1.dataset kw with refVideos := refs, disVideos := news })

end Sureal.Conv
