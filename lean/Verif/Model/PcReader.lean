import Verif.Model.Dataset
/-!
# Reader for paired-comparison datasets (`sureal/dataset_reader.py`:995-1063)

A paired-comparison dataset has dictionary-style scores with keys `(subject, asset_id)`.  The `isinstance`
assertions on the keys hold by typing.  A value that is an ndarray is outside the model (`notImplemented`).
-/
namespace Sureal.PcReader
variable {κ K : Type}

/-- `PairedCompDatasetReader._assert_dataset`, dataset_reader.py:998-1014 -/
def assertPc (d : Dataset (κ × Int) K) : Py Unit :=
  match assertRaw d with
  | .error e => .error e
  | .ok () =>
    if d.disVideos.all fun dv =>
      (match dv.os with | some (.dict _) => true | _ => false) &&
        decide (0 ≤ dv.assetId) && decide (dv.assetId < d.disVideos.length)
    then .ok () else .error .assertion

/-- `dis_video['os']` as a dict (1047: assertion) -/
def pcDict (dv : DisVideo (κ × Int) K) : Py (List ((κ × Int) × Vote K)) :=
  match dv.os with
  | some (.dict d) => .ok d
  | some _ => .error .assertion
  | none => .error .key

/-- `_get_list_observers`, dataset_reader.py:1044-1054 -/
def pcObservers [LinearOrder κ] (dvs : List (DisVideo (κ × Int) K)) : Py (List κ) :=
  match mapPy pcDict dvs with
  | .error e => .error e
  | .ok ds => .ok (uniqueSorted (ds.flatMap fun d => d.map fun p => p.1.1))

/-- a row index of an array with `n` rows: negative indices count from the end -/
def pyIdx (n : Nat) (j : Int) : Py Nat :=
  if 0 ≤ j ∧ j < n then .ok j.toNat
  else if -(n : Int) ≤ j ∧ j < 0 then .ok (n + j).toNat
  else .error .index

section ops
variable [Zero K] [One K] [Add K] [Neg K] [Sub K] [Mul K] [Div K] [NatCast K]
  [LT K] [LE K] [DecidableLT K] [DecidableLE K]

/-- float equality -/
def feq (a b : Fl K) : Bool := a.le b && b.le a

/-- `value in [0, 0.5, 1]` -/
def legal (x : Fl K) : Bool := feq x 0 || feq x (Fl.dec 1 2) || feq x 1

/-- lines 1034-1040: the two assignments for one record of video number `i`, as (indices, value) -/
def record [DecidableEq κ] (n : Nat) (obs : List κ) (i : Nat) (p : (κ × Int) × Vote K) :
    Py (List ((Nat × Nat × Nat) × Fl K)) :=
  match p.2 with
  | .many .ndarray _ => .error .notImplemented
  | .many _ _ => .error .assertion
  | .one x =>
    if legal x then
      match pyIdx n p.1.2 with
      | .error e => .error e
      | .ok j =>
        let s := obs.idxOf p.1.1
        .ok [((i, j, s), x), ((j, i, s), 1 - x)]
    else .error .assertion

/-- the value of a cell after a list of assignments: the last one, NaN if there is none -/
def cellAfter (ws : List ((Nat × Nat × Nat) × Fl K)) (c : Nat × Nat × Nat) : Fl K :=
  match (ws.filter fun w => decide (w.1 = c)).getLast? with
  | some w => w.2
  | none => .nan

/-- `PairedCompDatasetReader.opinion_score_3darray`, dataset_reader.py:1016-1042: dimensions (video, video
compared against, observer). -/
def pcScores [LinearOrder κ] (dvs : List (DisVideo (κ × Int) K)) : Py (Arr3D (Fl K)) :=
  match pcObservers dvs, mapPy pcDict dvs with
  | .error e, _ => .error e
  | _, .error e => .error e
  | .ok obs, .ok ds =>
    match mapPy (fun q => record dvs.length obs q.1 q.2)
        (ds.zipIdx.flatMap fun p => p.1.map fun e => (p.2, e)) with
    | .error e => .error e
    | .ok ws =>
      .ok { E := dvs.length, S := dvs.length, R := obs.length,
            get := fun i j s => cellAfter ws.flatten (i.val, j.val, s.val) }

end ops

/-- A paired-comparison reader object. -/
structure PcRd (κ K : Type) where
  /-- `reader.dataset` -/
  dataset : Dataset (κ × Int) K
  /-- `reader.opinion_score_3darray` -/
  scores : Py (Arr3D (Fl K))
  /-- `reader._get_list_observers()` -/
  observers : Py (List κ)

/-- `PairedCompDatasetReader(dataset)` -/
def pcReader [LinearOrder κ] [Zero K] [One K] [Add K] [Neg K] [Sub K] [Mul K] [Div K] [NatCast K]
    [LT K] [LE K] [DecidableLT K] [DecidableLE K] (d : Dataset (κ × Int) K) : Py (PcRd κ K) :=
  match assertPc d with
  | .error e => .error e
  | .ok () => .ok ⟨d, pcScores d.disVideos, pcObservers d.disVideos⟩

end Sureal.PcReader
