import Verif.Model.Dataset
/-!
# The output of the command line (`sureal/routine.py` lines 609-732)

Python dictionaries are association lists in order of insertion. `ν` is the type of names (paths, observers, contents), `V` the
type of numbers. Of a result, `dis_video_names` and `observers` are kept apart because they hold names; the other entries are
looked up by key. Not modelled: the same result object given twice (it is changed in place by lines 626 and 649).
-/
namespace Sureal.Format
variable {ν V : Type} [DecidableEq ν]

/-- an entry of a result: `None`, a number, a list of numbers, or a list of lists of numbers -/
inductive Val (V : Type) where
  | none
  | num (v : V)
  | seq (l : List V)
  | rows (l : List (List V))

/-- a value in the output: a number, or a list or tuple of numbers -/
inductive Cell (V : Type) where
  | one (v : V)
  | row (l : List V)
  deriving DecidableEq, Repr

/-- a result of a model, lines 612-655 -/
structure Res (ν V : Type) where
  disVideoNames : Option (List ν)
  observers : Option (List ν)
  data : String → Option (Val V)

/-- `len(v)` -/
def lenOf : Val V → Py Nat
  | .none => .error .type
  | .num _ => .error .type
  | .seq l => .ok l.length
  | .rows l => .ok l.length

/-- the elements `enumerate(v)` yields -/
def items : Val V → Py (List (Cell V))
  | .none => .error .type
  | .num _ => .error .type
  | .seq l => .ok (l.map .one)
  | .rows l => .ok (l.map .row)

/-- `zip(*rows)` of two rows: up to the end of the shorter one -/
def zip2 (a b : List V) : List (Cell V) := List.zipWith (fun x y => .row [x, y]) a b

/-- `list(zip(*v))` for a `v` of length two -/
def zipStar : Val V → Py (List (Cell V))
  | .rows [a, b] => .ok (zip2 a b)
  | _ => .error .type

/-- `if key in result: assert n == len(result[key])`, lines 616-617, 627-628, 632-635, 639-642, 651-652 -/
def checkLen (r : Res ν V) (n : Nat) (key : String) : Py Unit :=
  match r.data key with
  | none => .ok ()
  | some v =>
    match lenOf v with
    | .error e => .error e
    | .ok m => if n = m then .ok () else .error .assertion

/-- `if key in result: assert len(result[key]) == 2; assert n == len(list(zip(*result[key])))`, lines 618-620, 629-631,
636-638, 653-655 -/
def checkCi (r : Res ν V) (n : Nat) (key : String) : Py Unit :=
  match r.data key with
  | none => .ok ()
  | some v =>
    match lenOf v with
    | .error e => .error e
    | .ok m =>
      if m = 2 then
        match zipStar v with
        | .error e => .error e
        | .ok l => if n = l.length then .ok () else .error .assertion
      else .error .assertion

/-- statements one after the other, up to the first error -/
def inOrder : List (Py Unit) → Py Unit
  | [] => .ok ()
  | .ok () :: l => inOrder l
  | .error e :: _ => .error e

/-- lines 613-620 -/
def validateVideos (r : Res ν V) : Py Unit :=
  match r.data "quality_scores", r.disVideoNames with
  | some q, some names =>
    match lenOf q with
    | .error e => .error e
    | .ok n =>
      if names.length = n then inOrder [checkLen r n "quality_scores_std", checkCi r n "quality_scores_ci95"]
      else .error .assertion
  | _, _ => .error .assertion

/-- lines 622-642; `dflt o` is `f'observer{o}'`. The result is changed in line 626. -/
def validateObservers (dflt : Nat → ν) (r : Res ν V) : Py (Res ν V) :=
  match r.data "observer_bias" with
  | none => .ok r
  | some b =>
    match lenOf b with
    | .error e => .error e
    | .ok n =>
      let checks := inOrder [checkLen r n "observer_bias_std", checkCi r n "observer_bias_ci95",
        checkLen r n "observer_inconsistency", checkLen r n "observer_inconsistency_std",
        checkCi r n "observer_inconsistency_ci95", checkLen r n "observer_scores_mean", checkLen r n "observer_scores_std"]
      match r.observers with
      | some obs =>
        if obs.length = n then
          match checks with
          | .error e => .error e
          | .ok () => .ok r
        else .error .assertion
      | none =>
        match checks with
        | .error e => .error e
        | .ok () => .ok { r with observers := some ((List.range n).map dflt) }

/-- `d[k] = v` -/
def setKey {α β : Type} [DecidableEq α] (k : α) (v : β) : List (α × β) → List (α × β)
  | [] => [(k, v)]
  | (k', v') :: d => if k' = k then (k, v) :: d else (k', v') :: setKey k v d

/-- `d.get(k)` -/
def getKey {α β : Type} [DecidableEq α] (k : α) : List (α × β) → Option β
  | [] => none
  | (k', v) :: d => if k' = k then some v else getKey k d

/-- lines 645-648, from `content_id` and `content_name` (if there is one) of the reference videos -/
def contentDict : List (Int × Option ν) → List (Int × ν) → Py (List (Int × ν))
  | [], d => .ok d
  | (_, none) :: _, _ => .error .key
  | (k, some name) :: l, d => contentDict l (setKey k name d)

/-- line 649 -/
def contentsOf (refs : List (Int × Option ν)) : Py (List ν) :=
  match contentDict refs [] with
  | .error e => .error e
  | .ok d => .ok ((uniqueSorted (d.map (·.1))).filterMap fun k => getKey k d)

/-- lines 644-655: the list `result['contents']` (none if there is no content ambiguity) -/
def validateContents (refs : List (Int × Option ν)) (r : Res ν V) : Py (Option (List ν)) :=
  match r.data "content_ambiguity" with
  | none => .ok none
  | some a =>
    match contentsOf refs with
    | .error e => .error e
    | .ok names =>
      match lenOf a with
      | .error e => .error e
      | .ok n =>
        if names.length = n then
          match inOrder [checkLen r n "content_ambiguity_std", checkCi r n "content_ambiguity_ci95"] with
          | .error e => .error e
          | .ok () => .ok (some names)
        else .error .assertion

/-- the body of the loop of lines 612-655 -/
def validate (dflt : Nat → ν) (refs : List (Int × Option ν)) (r : Res ν V) : Py (Res ν V × Option (List ν)) :=
  match validateVideos r with
  | .error e => .error e
  | .ok () =>
    match validateObservers dflt r with
    | .error e => .error e
    | .ok r' =>
      match validateContents refs r' with
      | .error e => .error e
      | .ok c => .ok (r', c)

/-- an entry of `output['dis_videos']`, `output['observers']` or `output['contents']`; `name` is the entry `'dis_video_name'`,
`'observer'` or `'content'` -/
structure Entry (ν V : Type) where
  name : Option ν := none
  models : List (String × List (String × Cell V)) := []
  deriving DecidableEq, Repr

abbrev Section (ν V : Type) := List (Nat × Entry ν V)

/-- `section.setdefault(idx, dict())` and back -/
def modifyAt (idx : Nat) (f : Entry ν V → Entry ν V) (sec : Section ν V) : Section ν V :=
  setKey idx (f ((getKey idx sec).getD {})) sec

/-- lines 659-663, 675-679, 706-710 -/
def putName (sec : Section ν V) (idx : Nat) (name : ν) : Py (Section ν V) :=
  match ((getKey idx sec).getD {}).name with
  | some n => if n = name then .ok (modifyAt idx id sec) else .error .assertion
  | none => .ok (modifyAt idx (fun e => { e with name := some name }) sec)

def putNames : List ν → Nat → Section ν V → Py (Section ν V)
  | [], _, sec => .ok sec
  | n :: l, idx, sec =>
    match putName sec idx n with
    | .error e => .error e
    | .ok sec' => putNames l (idx + 1) sec'

/-- `section.setdefault(idx, dict()).setdefault('models', dict()).setdefault(typ, dict())[key] = v`, line 665 and so on -/
def putVal (typ key : String) (sec : Section ν V) (idx : Nat) (v : Cell V) : Section ν V :=
  modifyAt idx (fun e => { e with models := setKey typ (setKey key v ((getKey typ e.models).getD [])) e.models }) sec

def putVals (typ key : String) : List (Cell V) → Nat → Section ν V → Section ν V
  | [], _, sec => sec
  | v :: l, idx, sec => putVals typ key l (idx + 1) (putVal typ key sec idx v)

/-- `if src in result: for idx, v in enumerate(result[src]): ...[key] = v` -/
def putPlain (typ : String) (r : Res ν V) (src key : String) (sec : Section ν V) : Py (Section ν V) :=
  match r.data src with
  | none => .ok sec
  | some v =>
    match items v with
    | .error e => .error e
    | .ok l => .ok (putVals typ key l 0 sec)

/-- `if src in result: for idx, v in enumerate(list(zip(*result[src]))): ...[key] = v` -/
def putCi (typ : String) (r : Res ν V) (src key : String) (sec : Section ν V) : Py (Section ν V) :=
  match r.data src with
  | none => .ok sec
  | some v =>
    match zipStar v with
    | .error e => .error e
    | .ok l => .ok (putVals typ key l 0 sec)

/-- steps one after the other -/
def steps (sec : Section ν V) : List (Section ν V → Py (Section ν V)) → Py (Section ν V)
  | [] => .ok sec
  | f :: l =>
    match f sec with
    | .error e => .error e
    | .ok sec' => steps sec' l

/-- lines 659-671 (line 664 reads `result['quality_scores']`, which line 613 has found) -/
def writeVideos (typ : String) (r : Res ν V) (sec : Section ν V) : Py (Section ν V) :=
  steps sec [putNames (r.disVideoNames.getD []) 0, putPlain typ r "quality_scores" "quality_score",
    putPlain typ r "quality_scores_std" "quality_score_std", putCi typ r "quality_scores_ci95" "quality_score_ci95"]

/-- lines 673-702 -/
def writeObservers (typ : String) (r : Res ν V) (sec : Section ν V) : Py (Section ν V) :=
  match r.data "observer_bias" with
  | none => .ok sec
  | some _ =>
    steps sec [putNames (r.observers.getD []) 0, putPlain typ r "observer_bias" "observer_bias",
      putPlain typ r "observer_bias_std" "observer_bias_std", putCi typ r "observer_bias_ci95" "observer_bias_ci95",
      putPlain typ r "observer_inconsistency" "observer_inconsistency",
      putPlain typ r "observer_inconsistency_std" "observer_inconsistency_std",
      putCi typ r "observer_inconsistency_ci95" "observer_inconsistency_ci95",
      putPlain typ r "observer_scores_mean" "observer_scores_mean", putPlain typ r "observer_scores_std" "observer_scores_std"]

/-- lines 704-718 -/
def writeContents (typ : String) (r : Res ν V) (contents : Option (List ν)) (sec : Section ν V) : Py (Section ν V) :=
  match r.data "content_ambiguity" with
  | none => .ok sec
  | some _ =>
    steps sec [putNames (contents.getD []) 0, putPlain typ r "content_ambiguity" "content_ambiguity",
      putPlain typ r "content_ambiguity_std" "content_ambiguity_std",
      putCi typ r "content_ambiguity_ci95" "content_ambiguity_ci95"]

/-- `output` while it is built; an absent section and an empty one are not told apart -/
structure Out (ν V : Type) where
  videos : Section ν V := []
  observers : Section ν V := []
  contents : Section ν V := []
  stats : List (String × List (String × Val V)) := []

/-- `if key in result: output.setdefault('stats', ...)...[key] = result[key]`, lines 720-723 -/
def putStat (typ : String) (r : Res ν V) (key : String) (st : List (String × List (String × Val V))) :
    List (String × List (String × Val V)) :=
  match r.data key with
  | none => st
  | some v => setKey typ (setKey key v ((getKey typ st).getD [])) st

/-- the body of the loop of lines 658-723 -/
def writeOne (typ : String) (r : Res ν V) (contents : Option (List ν)) (o : Out ν V) : Py (Out ν V) :=
  match writeVideos typ r o.videos with
  | .error e => .error e
  | .ok vs =>
    match writeObservers typ r o.observers with
    | .error e => .error e
    | .ok os =>
      match writeContents typ r contents o.contents with
      | .error e => .error e
      | .ok cs => .ok { videos := vs, observers := os, contents := cs, stats := putStat typ r "bic" (putStat typ r "aic" o.stats) }

def writeAll : List (String × Res ν V × Option (List ν)) → Out ν V → Py (Out ν V)
  | [], o => .ok o
  | (typ, r, c) :: l, o =>
    match writeOne typ r c o with
    | .error e => .error e
    | .ok o' => writeAll l o'

/-- what is returned: the values of the dictionaries as lists; absent if nothing was written -/
structure Output (ν V : Type) where
  disVideos : Option (List (Entry ν V))
  observers : Option (List (Entry ν V))
  contents : Option (List (Entry ν V))
  stats : Option (List (String × List (String × Val V)))

/-- lines 725-730 -/
def valuesOf (sec : Section ν V) : Option (List (Entry ν V)) := if sec.isEmpty then none else some (sec.map (·.2))

/-- `format_output_of_run_subjective_models` (`sureal/routine.py` lines 609-732); `types` are the `TYPE`s of the models -/
def format (dflt : Nat → ν) (refs : List (Int × Option ν)) (types : List String) (results : List (Res ν V)) : Py (Output ν V) :=
  if types.length = results.length then
    match mapPy (validate dflt refs) results with
    | .error e => .error e
    | .ok rs =>
      match writeAll (types.zip rs) {} with
      | .error e => .error e
      | .ok o => .ok
        { disVideos := valuesOf o.videos, observers := valuesOf o.observers, contents := valuesOf o.contents,
          stats := if o.stats.isEmpty then none else some o.stats }
  else .error .assertion

end Sureal.Format
