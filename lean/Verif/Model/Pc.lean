import Verif.Model.Convert
/-!
# Conversion to a paired-comparison dataset (`sureal/dataset_reader.py`:344-522)

`RawDatasetReader.to_pc_dataset`.  The calls of Python's `random` module are an explicit input (`Draws`):
the n-th call returns `unif n` if it is `random.random()` and `0 + gauss n * sigma` if it is
`random.gauss(0, sigma)`.  `sampling_seed` only chooses the stream, so it has no field here.

Simplifications: opinion scores compared with each other are numbers (a list entry that is compared ends
with `notImplemented`, it is outside the model); settings are numbers and lists of numbers, so the
`np.isscalar` assertions hold; a dataset mixing list-style and dictionary-style videos ends with
`notImplemented`.  The nested loops over subjects, `idx` and `idx2` are one loop over the list of the
triples in the same order.  The `while` loop carries fuel: running out of fuel is `notImplemented` as well,
and the theorems give the amount of fuel that is always enough.
-/
namespace Sureal.Pc
open Sureal.Conv
variable {κ K : Type}

/-- Keyword arguments of `to_pc_dataset` (350-368); absent and `None` are the same. -/
structure PcKw (K : Type) extends PrepareKw where
  pcType : Option String := none
  tiebreak : Option String := none
  samplingRate : Option (Fl K) := none
  perAssetSampling : Option (List (Fl K)) := none
  cointossRate : Option (Fl K) := none
  perAssetCointoss : Option (List (Fl K)) := none
  noiseLevel : Option (Fl K) := none
  perAssetNoise : Option (List (Fl K)) := none
  perAssetMean : Option (List (Fl K)) := none

/-- The stream of random draws. -/
structure Draws (K : Type) where
  unif : Nat → K
  gauss : Nat → K

/-- What is known of one video rated by a subject (416): asset id, score, content id. -/
structure Rating (K : Type) where
  asset : Int
  score : Vote K
  content : Int

/-- One comparison of the loops 431-434: subject, the two positions and the two rated assets. -/
structure Job (κ K : Type) where
  subj : κ
  idx : Nat
  idx2 : Nat
  x : Rating K
  y : Rating K

/-- One assignment `new_dis_videos[d_assetid_disvideoidx[video]]['os'][(subj, other)] = val`. -/
structure Write (κ K : Type) where
  video : Int
  key : κ × Int
  val : Fl K

section checks
variable [Zero K] [One K] [Add K] [Neg K] [Sub K] [Mul K] [Div K] [NatCast K]
  [LT K] [LE K] [DecidableLT K] [DecidableLE K]

/-- `pc_type`, 350 -/
def PcKw.type (kw : PcKw K) : String := kw.pcType.getD "within_subject_within_content"

/-- `tiebreak_method`, 351 -/
def PcKw.tie (kw : PcKw K) : String := kw.tiebreak.getD "even_split"

/-- One group of assertions such as 373-379: not both given, the single value legal, the list as long as the
list of videos and every element legal. -/
def settingOk (legal : Fl K → Bool) (n : Nat) (one : Option (Fl K)) (per : Option (List (Fl K))) : Bool :=
  (one.isNone || per.isNone) && one.all legal && per.all fun l => decide (l.length = n) && l.all legal

/-- The assertions of lines 370-401, for a dataset of `n` videos. -/
def kwOk (kw : PcKw K) (n : Nat) : Bool :=
  (kw.type == "within_subject_within_content" || kw.type == "within_subject") &&
  (kw.tie == "even_split" || kw.tie == "coin_toss") &&
  settingOk (fun r => (0 : Fl K).le r) n kw.samplingRate kw.perAssetSampling &&
  settingOk (fun r => (0 : Fl K).le r && r.le 1) n kw.cointossRate kw.perAssetCointoss &&
  settingOk (fun r => (0 : Fl K).le r) n kw.noiseLevel kw.perAssetNoise &&
  settingOk (fun _ => true) n none kw.perAssetMean

end checks

/-- `l[i]` with Python's negative indices -/
def pyGet {α : Type} (l : List α) (i : Int) : Py α :=
  match (if 0 ≤ i then l[i.toNat]? else if -(l.length : Int) ≤ i then l[(l.length + i).toNat]? else none) with
  | some x => .ok x
  | none => .error .index

/-- lines 403-411 for one video when the first video is list style: the keys are `str(0)`, `str(1)`, ... -/
def listToDict (dv : DisVideo String K) : Py (DisVideo String K) :=
  match dv.os with
  | some (.seq _ l) => .ok { dv with os := some (.dict (l.mapIdx fun i v => (toString i, v))) }
  | _ => .error .notImplemented

/-- lines 403-413: the videos in dictionary style; in the list-style branch the assignment is made on the
source videos themselves. -/
def dictVideos : List (DisVideo String K) → Py (List (DisVideo String K))
  | [] => .error .index
  | dv :: l =>
    match dv.os with
    | some (.dict _) => if (dv :: l).all isDict then .ok (dv :: l) else .error .notImplemented
    | some (.seq _ _) => mapPy listToDict (dv :: l)
    | _ => .error .assertion

section nested
variable [DecidableEq κ]

/-- lines 417-422 for one entry of a video: the assertion, then the assignment -/
def addRating (dv : DisVideo κ K) (acc : List (κ × List (Rating K))) (p : κ × Vote K) :
    Py (List (κ × List (Rating K))) :=
  let rs := (acc.lookup p.1).getD []
  if rs.any fun r => decide (r.asset = dv.assetId) then .error .assertion
  else .ok (dictSet acc p.1 (rs ++ [⟨dv.assetId, p.2, dv.contentId⟩]))

/-- lines 417-422 for one video -/
def addVideo (acc : List (κ × List (Rating K))) (dv : DisVideo κ K) : Py (List (κ × List (Rating K))) :=
  match dv.os with
  | some (.dict d) => foldPy (addRating dv) acc d
  | _ => .error .notImplemented

/-- `d_subj_assetid`, lines 415-422: the subjects in order of appearance, each with what they rated. -/
def subjRatings (dvs : List (DisVideo κ K)) : Py (List (κ × List (Rating K))) := foldPy addVideo [] dvs

end nested

/-- lines 432-436: `sorted` asset ids, and all pairs `idx2 < idx`.  The ratings are sorted by asset id; the
asset ids of one subject are distinct (420). -/
def jobsOf (s : κ) (rs : List (Rating K)) : List (Job κ K) :=
  let l := rs.insertionSort fun r r' => r.asset ≤ r'.asset
  l.zipIdx.flatMap fun p => (l.take p.2).zipIdx.map fun q => ⟨s, p.2, q.2, p.1, q.1⟩

section loop
variable [Zero K] [One K] [Add K] [Neg K] [Sub K] [Mul K] [Div K] [NatCast K]
  [LT K] [LE K] [DecidableLT K] [DecidableLE K]

/-- the pair `idx` beats `idx2`, e.g. line 481 -/
def winX (j : Job κ K) : Write κ K := ⟨j.x.asset, (j.subj, j.y.asset), 1⟩

/-- the pair `idx2` beats `idx`, e.g. line 481 -/
def winY (j : Job κ K) : Write κ K := ⟨j.y.asset, (j.subj, j.x.asset), 1⟩

/-- `random.random() > 0.5`, lines 478-481 and 512-515 -/
def toss (dr : Draws K) (j : Job κ K) (n : Nat) : Nat × List (Write κ K) :=
  if (Fl.dec 1 2).lt (Fl.fin (dr.unif n)) then (n + 1, [winX j]) else (n + 1, [winY j])

/-- lines 502-517 -/
def settle (kw : PcKw K) (dr : Draws K) (j : Job κ K) (score score2 : Fl K) (n : Nat) :
    Nat × List (Write κ K) :=
  if score2.lt score then (n, [winX j])
  else if score.lt score2 then (n, [winY j])
  else if kw.tie == "even_split" then
    (n, [⟨j.x.asset, (j.subj, j.y.asset), Fl.dec 1 2⟩, ⟨j.y.asset, (j.subj, j.x.asset), Fl.dec 1 2⟩])
  else toss dr j n

/-- a score used in a comparison -/
def number : Vote K → Py (Fl K)
  | .one x => .ok x
  | .many _ _ => .error .notImplemented

/-- lines 485-490: the two scores before noise -/
def baseScores (kw : PcKw K) (j : Job κ K) : Py (Fl K × Fl K) :=
  match kw.perAssetMean with
  | some l =>
    match pyGet l j.x.asset, pyGet l j.y.asset with
    | .ok a, .ok b => .ok (a, b)
    | .error e, _ => .error e
    | .ok _, .error e => .error e
  | none =>
    match number j.x.score, number j.y.score with
    | .ok a, .ok b => .ok (a, b)
    | .error e, _ => .error e
    | .ok _, .error e => .error e

/-- A per-pair value of a setting: the single value, or the mean of the per-asset values *at positions `idx`
and `idx2`* (451, 471). -/
def pairSetting (one : Option (Fl K)) (per : Option (List (Fl K))) (j : Job κ K) : Py (Option (Fl K)) :=
  match one, per with
  | some r, _ => .ok (some r)
  | none, some l =>
    match pyGet l j.idx, pyGet l j.idx2 with
    | .ok a, .ok b => .ok (some ((a + b) / ((2 : Nat) : Fl K)))
    | .error e, _ => .error e
    | .ok _, .error e => .error e
  | none, none => .ok none

/-- `mscore + random.gauss(0, sigma)` -/
def noisy (dr : Draws K) (n : Nat) (m sigma : Fl K) : Fl K := m + (0 + Fl.fin (dr.gauss n) * sigma)

/-- lines 492-517 once the two scores before noise are known -/
def compareScores (kw : PcKw K) (dr : Draws K) (j : Job κ K) (m m2 : Fl K) (n : Nat) :
    Py (Nat × List (Write κ K)) :=
  match kw.noiseLevel, kw.perAssetNoise with
  | some s, _ => .ok (settle kw dr j (noisy dr n m s) (noisy dr (n + 1) m2 s) (n + 2))
  | none, some l =>
    match pyGet l j.idx, pyGet l j.idx2 with
    | .ok s, .ok s2 => .ok (settle kw dr j (noisy dr n m s) (noisy dr (n + 1) m2 s2) (n + 2))
    | .error e, _ => .error e
    | .ok _, .error e => .error e
  | none, none => .ok (settle kw dr j m m2 n)

/-- lines 484-517: the decision by scores -/
def byScores (kw : PcKw K) (dr : Draws K) (j : Job κ K) (n : Nat) : Py (Nat × List (Write κ K)) :=
  match baseScores kw j with
  | .error e => .error e
  | .ok (m, m2) => compareScores kw dr j m m2 n

/-- lines 468-517: one decided comparison -/
def trial (kw : PcKw K) (dr : Draws K) (j : Job κ K) (n : Nat) : Py (Nat × List (Write κ K)) :=
  match pairSetting kw.cointossRate kw.perAssetCointoss j with
  | .error e => .error e
  | .ok none => byScores kw dr j n
  | .ok (some r) => if (Fl.fin (dr.unif n)).lt r then .ok (toss dr j (n + 1)) else byScores kw dr j (n + 1)

/-- The `while true_sampling_rate > 0.0` loop, lines 455-517. -/
def sample (kw : PcKw K) (dr : Draws K) (j : Job κ K) : Nat → Fl K → Nat → Py (Nat × List (Write κ K))
  | fuel, rate, n =>
    if (0 : Fl K).lt rate then
      match fuel with
      | 0 => .error .notImplemented
      | fuel + 1 =>
        if (1 : Fl K).le rate then
          match trial kw dr j n with
          | .error e => .error e
          | .ok (n', w) =>
            match sample kw dr j fuel (rate - 1) n' with
            | .error e => .error e
            | .ok (n'', w') => .ok (n'', w ++ w')
        else if rate.lt (Fl.fin (dr.unif n)) then .ok (n + 1, [])
        else trial kw dr j (n + 1)
    else .ok (n, [])

/-- lines 437-454: the content filter and the sampling rate of the pair, then the loop -/
def runJob (kw : PcKw K) (dr : Draws K) (fuel : Nat) (j : Job κ K) (n : Nat) : Py (Nat × List (Write κ K)) :=
  if kw.type == "within_subject_within_content" && decide (j.x.content ≠ j.y.content) then .ok (n, [])
  else
    match pairSetting kw.samplingRate kw.perAssetSampling j with
    | .error e => .error e
    | .ok r => sample kw dr j fuel (r.getD 1) n

/-- the loops 430-517: all assignments in the order in which they are made -/
def runJobs (kw : PcKw K) (dr : Draws K) (fuel : Nat) : List (Job κ K) → Nat → Py (List (Write κ K))
  | [], _ => .ok []
  | j :: l, n =>
    match runJob kw dr fuel j n with
    | .error e => .error e
    | .ok (n', w) =>
      match runJobs kw dr fuel l n' with
      | .error e => .error e
      | .ok w' => .ok (w ++ w')

/-- `d_assetid_disvideoidx[a]`, lines 421-424: later videos overwrite earlier ones with the same id -/
def videoIdx (dvs : List (DisVideo κ K)) (a : Int) : Option Nat :=
  ((dvs.zipIdx.filter fun p => decide (p.1.assetId = a)).map Prod.snd).getLast?

/-- The dictionary of new video number `i` after all assignments. -/
def dictAt [DecidableEq κ] (dvs : List (DisVideo κ K)) (ws : List (Write κ K)) (i : Nat) :
    List ((κ × Int) × Vote K) :=
  ws.foldl (fun d w => if videoIdx dvs w.video = some i then dictSet d w.key (.one w.val) else d) []

/-- A copied video with its new dictionary (425-427). -/
def pcVideo (dv : DisVideo κ K) (d : List ((κ × Int) × Vote K)) : DisVideo (κ × Int) K :=
  ⟨dv.contentId, dv.assetId, dv.path, some (.dict d), dv.groundtruth, dv.groundtruthStd, dv.extra⟩

/-- `RawDatasetReader.to_pc_dataset`, dataset_reader.py:344-522.  Result: the source dataset after the call
and the new dataset. -/
def toPc (rd : Reader String K) (kw : PcKw K) (dr : Draws K) (fuel : Nat) :
    Py (Dataset String K × Dataset (String × Int) K) :=
  let p := prepare rd.dataset kw.toPrepareKw
  if kwOk kw rd.disVideos.length then
    match dictVideos rd.disVideos with
    | .error e => .error e
    | .ok dvs =>
      match subjRatings dvs with
      | .error e => .error e
      | .ok m =>
        match runJobs kw dr fuel (m.flatMap fun p => jobsOf p.1 p.2) 0 with
        | .error e => .error e
        | .ok ws =>
          .ok ({ rd.dataset with disVideos := dvs },
               ⟨rd.dataset.refVideos, dvs.mapIdx fun i dv => pcVideo dv (dictAt dvs ws i), p.refScore,
                p.datasetName, p.attrs⟩)
  else .error .assertion

end loop
end Sureal.Pc
