import Verif.Model.Dataset
import Verif.Model.Np
import Mathlib.Logic.Equiv.Defs
/-!
# Mocked readers (`sureal/dataset_reader.py`:618-992)

Each reader is modelled for one access to `opinion_score_3darray`.  Random numbers come from explicit streams:
`u` (uniform on [0,1)), `g` (standard normal or logistic) and `perm` (`np.random.permutation`/`shuffle`); a stream is
consumed in C order, as numpy fills arrays.  `input_dict` keys are `Option`s (`none`: key absent).  Seeding
(`input_dict['seed']`) only selects the stream.
-/
namespace Sureal.Mock
variable {κ K : Type}

/-- position of a cell in C order -/
def flatIdx (S R e s r : Nat) : Nat := (e * S + s) * R + r

/-- `MockedRawDatasetReader.to_dataset`, dataset_reader.py:628-647: the scores become lists of ndarrays. -/
def toDataset (rd : Reader κ K) : Py (Dataset κ K) :=
  match rd.scores with
  | .error e => .error e
  | .ok a =>
    if a.E = rd.disVideos.length then
      .ok { rd.dataset with
        disVideos := ((List.finRange a.E).zip rd.disVideos).map fun p =>
          { p.2 with os := some (.seq false (List.ofFn fun s => .many .ndarray (List.ofFn fun r => a.get p.1 s r))) } }
    else .error .assertion

section missing
variable [Zero K] [One K] [Add K] [Neg K] [Sub K] [Mul K] [Div K] [NatCast K]
  [LT K] [LE K] [DecidableLT K] [DecidableLE K]

/-- the mask of `MissingDataRawDatasetReader`, dataset_reader.py:778-780 -/
def maskOf (p : Fl K) (m : Fl K) : Fl K :=
  let m := if p.lt m then 1 else m
  if m.le p then .nan else m

/-- `MissingDataRawDatasetReader.opinion_score_3darray`, dataset_reader.py:772-782 -/
def missing (p : Fl K) (u : Nat → K) (a : Arr3D (Fl K)) : Arr3D (Fl K) :=
  { a with get := fun e s r => a.get e s r * maskOf p (.fin (u (flatIdx a.S a.R e s r))) }

/-- `MissingDataRawDatasetReader(dataset, input_dict=...)`, dataset_reader.py:620-626, 764-782 -/
def missingReader [LinearOrder κ] (d : Dataset κ K) (p : Option (Fl K)) (u : Nat → K) : Py (Reader κ K) :=
  match rawReader d with
  | .error e => .error e
  | .ok rd =>
    match p with
    | none => .error .assertion
    | some p =>
      .ok { rd with scores := match rd.scores with | .error e => .error e | .ok a => .ok (missing p u a) }

end missing

/-- `score_mtx[:, selected, :]` with indices in range; out of range raises IndexError -/
def pickCols (a : Arr3D (Fl K)) (sel : List Nat) : Py (Arr3D (Fl K)) :=
  if h : ∀ i : Fin sel.length, sel[i] < a.S then
    .ok { E := a.E, S := sel.length, R := a.R, get := fun e s r => a.get e ⟨sel[s], h s⟩ r }
  else .error .index

/-- the assertions on `input_dict['selected_subjects']` (793-799; 862-864): all in `range(num_observers)` -/
def subjectsOk (sel : List Int) (n : Nat) : Bool := sel.all fun x => decide (0 ≤ x) && decide (x < n)

/-- `SelectSubjectRawDatasetReader.opinion_score_3darray`, dataset_reader.py:805-814; the base class fills
`self.num_observers` (= number of selected subjects) columns for list-style datasets -/
def selectedScores [LinearOrder κ] (dvs : List (DisVideo κ K)) (sel : List Int) : Py (Arr3D (Fl K)) :=
  match opinionScoresWith dvs sel.length with
  | .error e => .error e
  | .ok a => pickCols a (sel.map Int.toNat)

/-- `SelectSubjectRawDatasetReader(dataset, input_dict=...)`, dataset_reader.py:785-814.  `num_observers` is overridden
with the number of selected subjects, which the base class uses for list-style datasets. -/
def selectSubjectReader [LinearOrder κ] (d : Dataset κ K) (sel : Option (List Int)) : Py (Reader κ K) :=
  match rawReader d with
  | .error e => .error e
  | .ok rd =>
    match sel with
    | none => .error .assertion
    | some sel =>
      match numObservers d.disVideos with
      | .error e => .error e
      | .ok n =>
        if subjectsOk sel n then
          .ok { rd with scores := selectedScores d.disVideos sel }
        else .error .assertion

/-- `d_assetid_disvideo[asset_id]`, dataset_reader.py:831-834: the last video with that asset id -/
def byAssetId (dvs : List (DisVideo κ K)) (a : Int) : Py (DisVideo κ K) :=
  match (dvs.filter fun dv => decide (dv.assetId = a)).getLast? with
  | some dv => .ok dv
  | none => .error .key

/-- `SelectDisVideoRawDatasetReader(dataset, input_dict=...)`, dataset_reader.py:817-837.  The overridden `dis_videos`
is already used by the assertions of the base class.  (With `selected_dis_videos` absent, the property raises KeyError.) -/
def selectDisVideoReader [LinearOrder κ] (d : Dataset κ K) (sel : Option (List Int)) : Py (Reader κ K) :=
  match sel with
  | none => .error .key
  | some sel =>
    match mapPy (byAssetId d.disVideos) sel with
    | .error e => .error e
    | .ok dvs =>
      match assertRaw { d with disVideos := dvs } with
      | .error e => .error e
      | .ok () =>
        if sel.all fun x => decide (0 ≤ x) && decide (x < d.disVideos.length) then
          .ok { dataset := d, disVideos := dvs, scores := opinionScores dvs, observers := listObservers dvs }
        else .error .assertion

/-! ## Corrupted subjects -/

/-- Random numbers used by the corrupting readers: uniform draws, and the permutation returned by the call made after
`n` draws on an array with `k` rows (a call of `permutation` or `shuffle` counts as one draw, so that different calls
may return different permutations). -/
structure Draws (K : Type) where
  u : Nat → K
  perm : Nat → (k : Nat) → Equiv.Perm (Fin k)

/-- `input_dict` of `CorruptSubjectRawDatasetReader` -/
structure CorruptKw (K : Type) where
  selected : Option (List Int) := none
  /-- `corrupt_probability`: absent or `None` is `none` -/
  prob : Option (Fl K) := none
  /-- `corrupt_behavior`: absent or `None` is `none` -/
  behavior : Option String := none

/-- `_get_corrupt_behavior`, dataset_reader.py:965-969 -/
def CorruptKw.how (kw : CorruptKw K) : String := kw.behavior.getD "shuffle"

section corrupt
variable [Zero K] [One K] [Add K] [Neg K] [Sub K] [Mul K] [Div K] [NatCast K]
  [LT K] [LE K] [DecidableLT K] [DecidableLE K]

/-- all cells in C order -/
def cellsOf (a : Arr3D (Fl K)) : List (Fl K) := ravel3 a.get

/-- `np.nanmin`/`np.nanmax` of an array: an empty array raises ValueError -/
def extremum (f : List (Fl K) → Fl K) (a : Arr3D (Fl K)) : Py (Fl K) :=
  match cellsOf a with
  | [] => .error .value
  | l => .ok (f l)

/-- the corrupted videos and the number of draws made: all of them without a probability, else
`np.where(np.random.uniform(size=num_video) < corrupt_probability)[0]` -/
def videosFor (dr : Draws K) (prob : Option (Fl K)) (E n : Nat) : List (Fin E) × Nat :=
  match prob with
  | none => (List.finRange E, n)
  | some p => ((List.finRange E).filter fun e => Fl.lt (.fin (dr.u (n + e))) p, n + E)

/-- `score_mtx[videos, subject, :] = ...`: new values for the selected videos of one subject -/
def setRows (a : Arr3D (Fl K)) (vs : List (Fin a.E)) (s : Nat) (f : Fin a.E → Fin a.S → Fin a.R → Fl K) :
    Arr3D (Fl K) :=
  { a with get := fun e t r => if t.val = s ∧ e ∈ vs then f e t r else a.get e t r }

/-- rows of `vs` permuted by `σ`: the row at position `i` of `vs` becomes the old row at position `σ i` -/
def permuted {E : Nat} (vs : List (Fin E)) (σ : Equiv.Perm (Fin vs.length)) (e : Fin E) : Fin E :=
  if h : vs.idxOf e < vs.length then vs.get (σ ⟨vs.idxOf e, h⟩) else e

/-- one subject of the loops in `opinion_score_3darray` (881-951); `lo`, `hi` are the extreme scores computed before the
loop.  State: array and number of draws made. -/
def corruptOne (kw : CorruptKw K) (dr : Draws K) (lo hi : Fl K) (st : Arr3D (Fl K) × Nat) (s : Nat) :
    Arr3D (Fl K) × Nat :=
  let a := st.1
  match kw.how with
  | "shuffle" =>
    let v := videosFor dr kw.prob a.E st.2
    (setRows a v.1 s fun e t r => a.get (permuted v.1 (dr.perm v.2 v.1.length) e) t r, v.2 + 1)
  | "flip" =>
    let v := videosFor dr kw.prob a.E st.2
    (setRows a v.1 s fun e t r => hi + lo - a.get e t r, v.2)
  | "min" =>
    let v := videosFor dr kw.prob a.E st.2
    (setRows a v.1 s fun _ _ _ => lo, v.2)
  | "mid" =>
    let v := videosFor dr kw.prob a.E st.2
    (setRows a v.1 s fun _ _ _ => (lo + hi) / ((2 : Nat) : Fl K), v.2)
  | "max" =>
    let v := videosFor dr kw.prob a.E st.2
    (setRows a v.1 s fun _ _ _ => hi, v.2)
  | _ =>
    -- 'constant': const_score = np.random.uniform(min_score, max_score)
    let c := lo + (hi - lo) * .fin (dr.u st.2)
    let v := videosFor dr kw.prob a.E (st.2 + 1)
    (setRows a v.1 s fun _ _ _ => c, v.2)

/-- `CorruptSubjectRawDatasetReader.opinion_score_3darray`, dataset_reader.py:866-955, on the base array.  The extreme
scores are not computed for `shuffle`; for the others both are (the code computes only the needed ones, on the same
array, and both raise the same error). -/
def corrupt (kw : CorruptKw K) (dr : Draws K) (sel : List Nat) (a : Arr3D (Fl K)) : Py (Arr3D (Fl K)) :=
  if kw.how = "shuffle" then .ok (sel.foldl (corruptOne kw dr .nan .nan) (a, 0)).1
  else
    match extremum Np.nanmin a, extremum Np.nanmax a with
    | .error e, _ => .error e
    | _, .error e => .error e
    | .ok lo, .ok hi => .ok (sel.foldl (corruptOne kw dr lo hi) (a, 0)).1

/-- `CorruptSubjectRawDatasetReader(dataset, input_dict=...)`, dataset_reader.py:840-969 -/
def corruptReader [LinearOrder κ] (d : Dataset κ K) (kw : CorruptKw K) (dr : Draws K) : Py (Reader κ K) :=
  match rawReader d with
  | .error e => .error e
  | .ok rd =>
    match kw.selected with
    | none => .error .assertion
    | some sel =>
      if sel.dedup.length = sel.length then
        match numObservers d.disVideos with
        | .error e => .error e
        | .ok n =>
          if subjectsOk sel n then
            if kw.how ∈ ["shuffle", "flip", "min", "mid", "max", "constant"] then
              .ok { rd with scores := match rd.scores with
                      | .error e => .error e
                      | .ok a => corrupt kw dr (sel.map Int.toNat) a }
            else .error .assertion
          else .error .assertion
      else .error .assertion

/-! ## Corrupted data -/

/-- `CorruptDataRawDatasetReader.opinion_score_3darray`, dataset_reader.py:981-992: `u` gives first the mask and then one
number for each masked cell, in C order. -/
def corruptData (p ref : Fl K) (u : Nat → K) (a : Arr3D (Fl K)) : Arr3D (Fl K) :=
  let hit : Nat → Bool := fun i => (maskOf p (.fin (u i))).isNan
  { a with get := fun e s r =>
      let i := flatIdx a.S a.R e s r
      if hit i then
        1 + (ref - 1) * .fin (u (a.E * a.S * a.R + ((List.range i).filter hit).length))
      else a.get e s r }

/-- `CorruptDataRawDatasetReader(dataset, input_dict=...)`, dataset_reader.py:972-992.  Without `dataset.ref_score` the array
raises AttributeError, with `None` TypeError. -/
def corruptDataReader [LinearOrder κ] (d : Dataset κ K) (p : Option (Fl K)) (u : Nat → K) : Py (Reader κ K) :=
  match rawReader d with
  | .error e => .error e
  | .ok rd =>
    match p with
    | none => .error .assertion
    | some p =>
      .ok { rd with scores := match rd.scores with
              | .error e => .error e
              | .ok a =>
                match d.refScore with
                | none => .error .attribute
                | some none => .error .type
                | some (some ref) => .ok (corruptData p ref u a) }

/-! ## Synthetic data -/

/-- `input_dict` of the synthetic readers: one-dimensional arrays (`none`: key absent) -/
structure SynthKw (K : Type) where
  quality : Option (List (Fl K)) := none
  bias : Option (List (Fl K)) := none
  inconsistency : Option (List (Fl K)) := none
  contentBias : Option (List (Fl K)) := none
  contentAmbiguity : Option (List (Fl K)) := none
  qualityAmbiguity : Option (List (Fl K)) := none

/-- `mu_c[i]` for a content id `i` (never negative in an accepted dataset) -/
def atContent (l : List (Fl K)) (c : Int) : Py (Fl K) :=
  if 0 ≤ c ∧ c < l.length then .ok (l.getD c.toNat .nan) else .error .index

/-- element `i` of a one-dimensional array -/
def item (l : List (Fl K)) (i : Nat) : Fl K := l.getD i .nan

/-- `opinion_score_3darray` of the synthetic readers, dataset_reader.py:679-725, 731-761; `scale` divides the
inconsistency and ambiguity (1 for the normal, π/√3 for the logistic reader).  `g` gives E·S draws for the observer term,
E·S for the content term and E·S for the video ambiguity. -/
def synthetic (scale : Fl K) (g : Nat → K) (cids : List Int) (q b sg mu dl : List (Fl K))
    (phi : Option (List (Fl K))) : Py (Arr3D (Fl K)) :=
  match mapPy (atContent mu) cids, mapPy (atContent dl) cids with
  | .error e, _ => .error e
  | _, .error e => .error e
  | .ok mus, .ok dls =>
    let E := cids.length
    let S := b.length
    let z : Fin E → Fin S → Fl K := fun e s =>
      item q e + (item b s + .fin (g (e * S + s)) * (item sg s / scale))
        + (item mus e + .fin (g (E * S + (e * S + s))) * (item dls e / scale))
    match phi with
    | none => .ok { E := E, S := S, R := 1, get := fun e s _ => z e s }
    | some phi =>
      if phi.length = E then
        .ok { E := E, S := S, R := 1,
              get := fun e s _ => z e s + .fin (g (E * S + E * S + (e * S + s))) * item phi e }
      else .error .assertion

/-- the assertions of `SyntheticRawDatasetReader._assert_input_dict` (665-677) and of its `num_observers` property -/
def synthOk (nVideos nRefs : Nat) (q b sg mu dl : List (Fl K)) : Bool :=
  decide (sg.length = b.length) && decide (dl.length = mu.length) && decide (q.length = nVideos) &&
    decide (mu.length = nRefs)

/-- `SyntheticRawDatasetReader(dataset, input_dict=...)`, dataset_reader.py:650-725 -/
def syntheticReader [LinearOrder κ] (d : Dataset κ K) (kw : SynthKw K) (g : Nat → K) : Py (Reader κ K) :=
  match rawReader d with
  | .error e => .error e
  | .ok rd =>
    match kw.quality, kw.bias, kw.inconsistency, kw.contentBias, kw.contentAmbiguity with
    | some q, some b, some sg, some mu, some dl =>
      if synthOk d.disVideos.length d.refVideos.length q b sg mu dl then
        .ok { rd with scores := synthetic 1 g (contentIdOfDisVideos d.disVideos) q b sg mu dl kw.qualityAmbiguity }
      else .error .assertion
    | _, _, _, _, _ => .error .assertion

/-- `SyntheticLogisticRawDatasetReader(dataset, input_dict=...)`, dataset_reader.py:728-761; `scale` is π/√3.  A
`quality_ambiguity` is refused when the array is read. -/
def logisticReader [LinearOrder κ] (scale : Fl K) (d : Dataset κ K) (kw : SynthKw K) (g : Nat → K) :
    Py (Reader κ K) :=
  match rawReader d with
  | .error e => .error e
  | .ok rd =>
    match kw.quality, kw.bias, kw.inconsistency, kw.contentBias, kw.contentAmbiguity with
    | some q, some b, some sg, some mu, some dl =>
      if synthOk d.disVideos.length d.refVideos.length q b sg mu dl then
        .ok { rd with scores := match synthetic scale g (contentIdOfDisVideos d.disVideos) q b sg mu dl none with
                | .error e => .error e
                | .ok a => if kw.qualityAmbiguity.isNone then .ok a else .error .assertion }
      else .error .assertion
    | _, _, _, _, _ => .error .assertion

end corrupt
end Sureal.Mock
