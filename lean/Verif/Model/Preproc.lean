import Verif.Model.Dataset
import Verif.Model.Corr
/-!
# Preprocessing of the opinion score array (`SubjectiveModel`, subjective_model.py:99-314)
-/
namespace Sureal

variable {κ K : Type} [Zero K] [One K] [Add K] [Neg K] [Sub K] [Mul K] [Div K] [NatCast K]
  [LT K] [LE K] [DecidableLT K] [DecidableLE K]

/-- A keyword flag: not given / given as `None` / given as a bool.  The code tests `is True`, `is False`. -/
abbrev Flag := Option (Option Bool)

/-- `kwargs['x'] is True` (with default False when absent) -/
def Flag.isTrue (f : Flag) : Bool := f == some (some true)
/-- `kwargs['x'] is False` (with default False when absent) -/
def Flag.isFalse (f : Flag) : Bool := f == none || f == some (some false)

/-- `transform_final={'p2': .., 'p1': .., 'p0': ..}`, each key optional -/
structure Transform (K : Type) where
  p2 : Option (Fl K) := none
  p1 : Option (Fl K) := none
  p0 : Option (Fl K) := none

/-- The keyword arguments of `run_modeling` the models look at.  `subjectRejectionType`, `transformFinal`:
absent and `None` are treated alike by the code (`none`). -/
structure Opts (K : Type) where
  dscoreMode : Flag := none
  zscoreMode : Flag := none
  biasOffset : Flag := none
  subjectRejection : Flag := none
  subjectRejectionType : Option String := none
  normalizeFinal : Flag := none
  transformFinal : Option (Transform K) := none
  forceSubjbiasZeromean : Flag := none

/-- `_stack_repetitions_along_axis(s_esr, axis=0)`, subjective_model.py:134-138:
`for r in range(R): o[r*E:(r+1)*E, :] = s_esr[:, :, r]`. -/
def stack0 {E S R : Nat} (a : Arr3 (Fl K) E S R) : Arr2 (Fl K) (R * E) S :=
  (List.finRange R).foldl
    (fun o r => fun i s =>
      if h : r.val * E ≤ i.val ∧ i.val < (r.val + 1) * E then
        a ⟨i.val - r.val * E, by have := h.2; rw [Nat.add_mul] at this; omega⟩ s r
      else o i s)
    (fun _ _ => 0)

/-- `_stack_repetitions_along_axis(s_esr, axis=1)`, subjective_model.py:140-144:
`for r in range(R): o[:, r*S:(r+1)*S] = s_esr[:, :, r]`. -/
def stack1 {E S R : Nat} (a : Arr3 (Fl K) E S R) : Arr2 (Fl K) E (R * S) :=
  (List.finRange R).foldl
    (fun o r => fun e i =>
      if h : r.val * S ≤ i.val ∧ i.val < (r.val + 1) * S then
        a e ⟨i.val - r.val * S, by have := h.2; rw [Nat.add_mul] at this; omega⟩ r
      else o e i)
    (fun _ _ => 0)

/-- `np.nanmean(stack(a, axis=1), axis=1)`: mean along observers and repetitions -/
def meanAlongS {E S R : Nat} (a : Arr3 (Fl K) E S R) : Arr1 (Fl K) E := fun e => Np.nanmean (rowL (stack1 a) e)

/-- `np.nanmean(stack(a, axis=0), axis=0)`: mean along videos and repetitions -/
def meanAlongE {E S R : Nat} (a : Arr3 (Fl K) E S R) : Arr1 (Fl K) S := fun s => Np.nanmean (colL (stack0 a) s)

/-- `indices(a, func)`, tools/misc.py:80-92 -/
def indices {α : Type} (l : List α) (f : α → Bool) : List Nat :=
  l.zipIdx.filterMap fun (x, i) => if f x then some i else none

/-- `_get_ref_mos(dataset_reader, mos)`, subjective_model.py:99-117.  Note that the loop runs over
`dataset_reader.dataset.dis_videos` and the lookups over `dataset_reader.dis_videos`. -/
def refMos (rd : Reader κ K) (mos : List (Fl K)) : Py (List (Fl K)) :=
  mapPy (fun dv =>
    match disvideoIsRefvideo rd.dataset.refVideos rd.disVideos with
    | .error e => .error e
    | .ok isRef =>
      match indices ((contentIdOfDisVideos rd.disVideos).zip isRef) (fun p => p.2 && decide (p.1 = dv.contentId)) with
      | [i] => match mos[i]? with
        | some m => .ok m
        | none => .error .index
      | _ => .error .assertion) rd.dataset.disVideos

/-- differential scoring, subjective_model.py:189-198.  `dataset.ref_score` missing: AttributeError; `None`:
AssertionError.  The reference MOS vector is broadcast against the array: its length must be `E` or 1. -/
def dscoreStep (rd : Reader κ K) (a : Arr3D (Fl K)) : Py (Arr3D (Fl K)) :=
  match rd.dataset.refScore with
  | none => .error .attribute
  | some none => .error .assertion
  | some (some rs) =>
    match refMos rd (List.ofFn (meanAlongS a.get)) with
    | .error e => .error e
    | .ok rm =>
      if rm.length = a.E then
        .ok { a with get := fun e s r => a.get e s r + rs - (rm[e.val]?).getD .nan }
      else if rm.length = 1 then
        .ok { a with get := fun e s r => a.get e s r + rs - (rm[0]?).getD .nan }
      else .error .value

/-- z-scoring, subjective_model.py:200-204 -/
def zscoreArr [MathFn K] {E S R : Nat} (a : Arr3 (Fl K) E S R) : Arr3 (Fl K) E S R :=
  let mu : Arr1 (Fl K) S := meanAlongE a
  let sigma : Arr1 (Fl K) S := fun s => Np.nanstd 1 (colL (stack0 a) s)
  fun e s r => (a e s r - mu s) / sigma s

/-- the estimated bias, subjective_model.py:209-215 -/
def biasEstimate {E S R : Nat} (a : Arr3 (Fl K) E S R) : Arr1 (Fl K) S :=
  let mos : Arr1 (Fl K) E := meanAlongS a
  meanAlongE fun e s r => a e s r - mos e

/-- bias removal, subjective_model.py:206-218 -/
def biasArr {E S R : Nat} (a : Arr3 (Fl K) E S R) : Arr3 (Fl K) E S R :=
  let d : Arr1 (Fl K) S := biasEstimate a
  fun e s r => a e s r - d s

/-- `a[:, cols, :]` -/
def selectCols {E S R : Nat} (a : Arr3 (Fl K) E S R) (cols : List (Fin S)) : Arr3 (Fl K) E cols.length R :=
  fun e i r => a e (cols.get i) r

/-- What observer rejection reports: `observer_rejected`, `..._1st_stats`, `..._2nd_stats`. -/
structure Rejection (K : Type) where
  rejected : List Bool
  stats1 : List (Fl K)
  stats2 : List (Fl K)

/-- `counts[i] += 1` -/
def bump (f : Nat → Nat) (i : Nat) : Nat → Nat := fun j => if j = i then f j + 1 else f j

/-- the two outlier thresholds of a row, subjective_model.py:230-248 -/
def outlierThresholds [MathFn K] (row : List (Fl K)) : Fl K × Fl K :=
  let nn := Np.notNan row
  let mu := Np.mean nn
  let sigma := Np.std nn
  let kurt := Stats.kurtosis nn
  if ((2 : Nat) : Fl K).le kurt && kurt.le ((4 : Nat) : Fl K) then
    (mu + ((2 : Nat) : Fl K) * sigma, mu - ((2 : Nat) : Fl K) * sigma)
  else
    (mu + (((20 : Nat) : Fl K)).sqrt * sigma, mu - (((20 : Nat) : Fl K)).sqrt * sigma)

/-- one row of the counting loop, subjective_model.py:236-241, 243-248 (the two copies of the loop differ only
in the thresholds) -/
def tallyRow (S : Nat) (hi lo : Fl K) (row : List (Fl K)) (pq : (Nat → Nat) × (Nat → Nat)) :
    (Nat → Nat) × (Nat → Nat) :=
  row.zipIdx.foldl (fun pq xi =>
    if xi.1.isNan then pq
    else (if hi.le xi.1 then bump pq.1 (xi.2 % S) else pq.1,
          if xi.1.le lo then bump pq.2 (xi.2 % S) else pq.2)) pq

/-- the counts `ps`, `qs`, subjective_model.py:226-248 -/
def outlierCounts [MathFn K] {E S R : Nat} (a : Arr3 (Fl K) E S R) : (Nat → Nat) × (Nat → Nat) :=
  (List.finRange E).foldl (fun pq e =>
    let row := rowL (stack1 a) e
    let t := outlierThresholds row
    tallyRow S t.1 t.2 row pq) (fun _ => 0, fun _ => 0)

/-- `acceptions`, `rejections` from the per-observer test, subjective_model.py:249-267: if everybody would be
rejected, nobody is -/
def splitObservers {S : Nat} (rej : Fin S → Bool) : List (Fin S) × List (Fin S) :=
  let rejections := (List.finRange S).filter rej
  let acceptions := (List.finRange S).filter (fun s => !rej s)
  if rejections.length = S then (acceptions ++ rejections, []) else (acceptions, rejections)

/-- BT.500 (kurtosis) observer rejection, subjective_model.py:222-277 -/
def kurtosisReject [MathFn K] {E S R : Nat} (a : Arr3 (Fl K) E S R) : Arr3D (Fl K) × Rejection K :=
  let pq := outlierCounts a
  let stat1 : Fin S → Fl K := fun s =>
    (((pq.1 s : Nat) : Fl K) + ((pq.2 s : Nat) : Fl K)) / ((E * R : Nat) : Fl K)
  let stat2 : Fin S → Fl K := fun s =>
    ((((pq.1 s : Nat) : Fl K) - ((pq.2 s : Nat) : Fl K)) / (((pq.1 s : Nat) : Fl K) + ((pq.2 s : Nat) : Fl K))).abs
  let rej : Fin S → Bool := fun s => (Fl.dec 5 100).lt (stat1 s) && (stat2 s).lt (Fl.dec 3 10)
  let lists := splitObservers rej
  ({ E := E, S := lists.1.length, R := R, get := selectCols a lists.1 },
   { rejected := List.ofFn fun s => lists.2.contains s
     stats1 := List.ofFn stat1
     stats2 := List.ofFn stat2 })

/-- the correlation of one observer with the MOS, subjective_model.py:280-294 -/
def observerCorr [MathFn K] (spearman : Bool) {E S R : Nat} (a : Arr3 (Fl K) E S R) (s : Fin S) : Py (Fl K) :=
  let ses : Arr2 (Fl K) E S := fun e s => Np.nanmean (List.ofFn fun r => a e s r)
  let mos : Arr1 (Fl K) E := fun e => Np.nanmean (rowL ses e)
  let es := (List.finRange E).filter fun e => !(ses e s).isNan
  let x := es.map fun e => ses e s
  let y := es.map mos
  if spearman then Stats.spearmanr x y else Stats.pearsonr x y

/-- the rejection threshold, subjective_model.py:296-300 -/
def corrThreshold [MathFn K] (r : List (Fl K)) : Fl K :=
  if (Fl.dec 7 10).lt (Np.mean r - Np.std r) then Fl.dec 7 10 else Np.mean r - Np.std r

/-- correlation-based observer rejection, subjective_model.py:279-306 -/
def corrReject [MathFn K] (spearman : Bool) {E S R : Nat} (a : Arr3 (Fl K) E S R) :
    Py (Arr3D (Fl K) × Rejection K) :=
  match mapPy (observerCorr spearman a) (List.finRange S) with
  | .error e => .error e
  | .ok r =>
    let thr := corrThreshold r
    let rs : Fin S → Fl K := fun s => (r[s.val]?).getD .nan
    let cols := (List.finRange S).filter fun s => thr.lt (rs s)
    .ok ({ E := E, S := cols.length, R := R, get := selectCols a cols },
      { rejected := List.ofFn fun s => (rs s).le thr
        stats1 := r
        stats2 := List.replicate S 0 })

/-- The result of preprocessing. -/
structure Prep (K : Type) where
  arr : Arr3D (Fl K)
  orig : Arr3D (Fl K)
  bias : Option (List (Fl K)) := none
  rejection : Option (Rejection K) := none

/-- the option checks, subjective_model.py:160-187; returns the effective rejection type -/
def checkOpts (o : Opts K) : Py (Option String) :=
  if o.subjectRejection.isFalse then
    match o.subjectRejectionType with
    | some _ => .error .assertion
    | none => if o.zscoreMode.isTrue && o.biasOffset.isTrue then .error .assertion else .ok none
  else
    let ty := o.subjectRejectionType.getD "kurtosis"
    if ["kurtosis", "pearson", "spearman"].contains ty then
      if o.zscoreMode.isTrue && o.biasOffset.isTrue then .error .assertion else .ok (some ty)
    else .error .assertion

/-- observer rejection dispatch, subjective_model.py:222-309 -/
def rejectStep [MathFn K] (o : Opts K) (ty : Option String) (a : Arr3D (Fl K)) :
    Py (Arr3D (Fl K) × Option (Rejection K)) :=
  if o.subjectRejection.isTrue then
    if ty = some "kurtosis" then
      .ok ((kurtosisReject a.get).1, some (kurtosisReject a.get).2)
    else if ty = some "pearson" ∨ ty = some "spearman" then
      match corrReject (decide (ty = some "spearman")) a.get with
      | .error e => .error e
      | .ok (b, r) => .ok (b, some r)
    else .error .assertion
  else .ok (a, none)

/-- `_get_opinion_score_3darray_with_preprocessing`, subjective_model.py:151-314 -/
def preprocess [MathFn K] (rd : Reader κ K) (o : Opts K) : Py (Prep K) :=
  match rd.scores with
  | .error e => .error e
  | .ok a0 =>
    match checkOpts o with
    | .error e => .error e
    | .ok ty =>
      match (if o.dscoreMode.isTrue then dscoreStep rd a0 else .ok a0) with
      | .error e => .error e
      | .ok a1 =>
        let a2 : Arr3D (Fl K) := if o.zscoreMode.isTrue then { a1 with get := zscoreArr a1.get } else a1
        let a3 : Arr3D (Fl K) := if o.biasOffset.isTrue then { a2 with get := biasArr a2.get } else a2
        let b : Option (List (Fl K)) :=
          if o.biasOffset.isTrue then some (List.ofFn (biasEstimate a2.get)) else none
        match rejectStep o ty a3 with
        | .error e => .error e
        | .ok (a4, rej) => .ok { arr := a4, orig := a0, bias := b, rejection := rej }

end Sureal
