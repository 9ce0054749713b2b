import Verif.Model.Format
import Mathlib.Tactic.Common
/-!
# Lemmas: the output does not depend on what the numbers are

If the numbers of all results are replaced, those of the output are replaced in the same way.
-/
set_option linter.unusedSectionVars false
namespace Sureal.Format
variable {ν V W : Type} [DecidableEq ν] (f : V → W)

def Val.map : Val V → Val W
  | .none => .none
  | .num x => .num (f x)
  | .seq l => .seq (l.map f)
  | .rows l => .rows (l.map (·.map f))

def Cell.map : Cell V → Cell W
  | .one x => .one (f x)
  | .row l => .row (l.map f)

def Res.map (r : Res ν V) : Res ν W := ⟨r.disVideoNames, r.observers, fun k => (r.data k).map (Val.map f)⟩

/-- the values of a dictionary -/
def dict {α β γ : Type} (g : β → γ) (d : List (α × β)) : List (α × γ) := d.map fun p => (p.1, g p.2)

def Entry.map (e : Entry ν V) : Entry ν W := ⟨e.name, dict (dict (Cell.map f)) e.models⟩

def Out.map (o : Out ν V) : Out ν W :=
  ⟨dict (Entry.map f) o.videos, dict (Entry.map f) o.observers, dict (Entry.map f) o.contents, dict (dict (Val.map f)) o.stats⟩

def Output.map (o : Output ν V) : Output ν W :=
  ⟨o.disVideos.map (·.map (Entry.map f)), o.observers.map (·.map (Entry.map f)), o.contents.map (·.map (Entry.map f)),
    o.stats.map (dict (dict (Val.map f)))⟩

/-- a result, if there is one -/
def onOk {α β : Type} (g : α → β) : Py α → Py β
  | .error e => .error e
  | .ok x => .ok (g x)

theorem lenOf_map (v : Val V) : lenOf (v.map f) = lenOf v := by
  cases v <;> simp [Val.map, lenOf]

theorem items_map (v : Val V) : items (v.map f) = onOk (List.map (Cell.map f)) (items v) := by
  cases v <;> simp [Val.map, items, onOk, Cell.map, Function.comp_def]

theorem zip2_map (a b : List V) : zip2 (a.map f) (b.map f) = (zip2 a b).map (Cell.map f) := by
  unfold zip2
  rw [List.map_zipWith, List.zipWith_map]
  rfl

theorem zipStar_map (v : Val V) : zipStar (v.map f) = onOk (List.map (Cell.map f)) (zipStar v) := by
  cases v with
  | rows l =>
    match l with
    | [] => rfl
    | [_] => rfl
    | [a, b] => simp only [Val.map, List.map_cons, List.map_nil, zipStar, onOk, zip2_map]
    | _ :: _ :: _ :: _ => rfl
  | _ => rfl

theorem checkLen_map (r : Res ν V) (n : Nat) (k : String) : checkLen (r.map f) n k = checkLen r n k := by
  unfold checkLen Res.map
  dsimp only
  cases r.data k with
  | none => rfl
  | some v => simp only [Option.map_some, lenOf_map]

theorem checkCi_map (r : Res ν V) (n : Nat) (k : String) : checkCi (r.map f) n k = checkCi r n k := by
  unfold checkCi Res.map
  dsimp only
  cases r.data k with
  | none => rfl
  | some v =>
    simp only [Option.map_some, lenOf_map, zipStar_map]
    cases lenOf v with
    | error e => rfl
    | ok m =>
      dsimp only
      split
      · cases zipStar v with
        | error e => rfl
        | ok l => simp only [onOk, List.length_map]
      · rfl

theorem validateVideos_map (r : Res ν V) : validateVideos (r.map f) = validateVideos r := by
  unfold validateVideos
  simp only [checkLen_map, checkCi_map]
  simp only [Res.map]
  cases r.data "quality_scores" with
  | none => rfl
  | some v =>
    cases r.disVideoNames with
    | none => rfl
    | some names =>
      dsimp only [Option.map_some]
      rw [lenOf_map]

theorem validateObservers_map (dflt : Nat → ν) (r : Res ν V) : validateObservers dflt (r.map f) = onOk (Res.map f) (validateObservers dflt r) := by
  unfold validateObservers
  simp only [checkLen_map, checkCi_map]
  have hd : (r.map f).data "observer_bias" = (r.data "observer_bias").map (Val.map f) := rfl
  have ho : (r.map f).observers = r.observers := rfl
  rw [hd, ho]
  cases r.data "observer_bias" with
  | none => rfl
  | some v =>
    simp only [Option.map_some, lenOf_map]
    cases lenOf v with
    | error e => rfl
    | ok n =>
      dsimp only
      cases r.observers with
      | none => dsimp only; split <;> rfl
      | some obs =>
        dsimp only
        split
        · split <;> rfl
        · rfl

theorem validateContents_map (refs : List (Int × Option ν)) (r : Res ν V) : validateContents refs (r.map f) = validateContents refs r := by
  unfold validateContents
  simp only [checkLen_map, checkCi_map]
  have hd : (r.map f).data "content_ambiguity" = (r.data "content_ambiguity").map (Val.map f) := rfl
  rw [hd]
  cases r.data "content_ambiguity" with
  | none => rfl
  | some v => simp only [Option.map_some, lenOf_map]

theorem validate_map (dflt : Nat → ν) (refs : List (Int × Option ν)) (r : Res ν V) :
    validate dflt refs (r.map f) = onOk (fun p => (p.1.map f, p.2)) (validate dflt refs r) := by
  unfold validate
  rw [validateVideos_map, validateObservers_map]
  cases validateVideos r with
  | error e => rfl
  | ok _ =>
    dsimp only
    cases validateObservers dflt r with
    | error e => rfl
    | ok r' =>
      dsimp only [onOk]
      rw [validateContents_map]
      cases validateContents refs r' with
      | error e => rfl
      | ok c => rfl

theorem mapPy_nat {α α' β β' : Type} {g : α → Py β} {g' : α' → Py β'} {h : α → α'} {k : β → β'} (hg : ∀ x, g' (h x) = onOk k (g x)) (l : List α) :
    mapPy g' (l.map h) = onOk (List.map k) (mapPy g l) := by
  induction l with
  | nil => rfl
  | cons x l ih =>
    rw [List.map_cons, mapPy, mapPy, hg, ih]
    cases g x with
    | error e => rfl
    | ok y =>
      dsimp only [onOk]
      cases mapPy g l with
      | error e => rfl
      | ok ys => rfl

theorem setKey_dict {α β γ : Type} [DecidableEq α] (g : β → γ) (k : α) (v : β) (d : List (α × β)) :
    setKey k (g v) (dict g d) = dict g (setKey k v d) := by
  induction d with
  | nil => rfl
  | cons p d ih =>
    obtain ⟨k', v'⟩ := p
    show setKey k (g v) ((k', g v') :: dict g d) = _
    unfold setKey
    split
    · rfl
    · rw [ih]; rfl

theorem getKey_dict {α β γ : Type} [DecidableEq α] (g : β → γ) (k : α) (d : List (α × β)) :
    getKey k (dict g d) = (getKey k d).map g := by
  induction d with
  | nil => rfl
  | cons p d ih =>
    obtain ⟨k', v'⟩ := p
    show getKey k ((k', g v') :: dict g d) = _
    unfold getKey
    split
    · rfl
    · rw [ih]

theorem getD_entry (o : Option (Entry ν V)) : (o.map (Entry.map f)).getD {} = (o.getD {}).map f := by
  cases o <;> rfl

theorem modifyAt_map (idx : Nat) {F : Entry ν V → Entry ν V} {G : Entry ν W → Entry ν W} (h : ∀ e, G (e.map f) = (F e).map f) (sec : Section ν V) :
    modifyAt idx G (dict (Entry.map f) sec) = dict (Entry.map f) (modifyAt idx F sec) := by
  unfold modifyAt
  rw [getKey_dict, getD_entry, h, setKey_dict]

theorem putName_map (sec : Section ν V) (idx : Nat) (name : ν) :
    putName (dict (Entry.map f) sec) idx name = onOk (dict (Entry.map f)) (putName sec idx name) := by
  unfold putName
  rw [getKey_dict, getD_entry]
  show (match ((getKey idx sec).getD {}).name with | some n => _ | none => _) = _
  cases ((getKey idx sec).getD {}).name with
  | none =>
    dsimp only [onOk]
    rw [modifyAt_map f idx (F := fun e => { e with name := some name })]
    intro e; rfl
  | some n =>
    dsimp only
    split
    · dsimp only [onOk]
      rw [modifyAt_map f idx (F := id)]
      intro e; rfl
    · rfl

theorem putNames_map (l : List ν) (idx : Nat) (sec : Section ν V) :
    putNames l idx (dict (Entry.map f) sec) = onOk (dict (Entry.map f)) (putNames l idx sec) := by
  induction l generalizing idx sec with
  | nil => rfl
  | cons n l ih =>
    unfold putNames
    rw [putName_map]
    cases putName sec idx n with
    | error e => rfl
    | ok sec' => exact ih _ _

theorem putVal_map (typ key : String) (sec : Section ν V) (idx : Nat) (v : Cell V) :
    putVal typ key (dict (Entry.map f) sec) idx (v.map f) = dict (Entry.map f) (putVal typ key sec idx v) := by
  unfold putVal
  refine modifyAt_map f idx (fun e => ?_) sec
  unfold Entry.map
  dsimp only
  rw [getKey_dict]
  have : (Option.map (dict (Cell.map f)) (getKey typ e.models)).getD [] = dict (Cell.map f) ((getKey typ e.models).getD []) := by
    cases getKey typ e.models <;> rfl
  rw [this, setKey_dict, setKey_dict]

theorem putVals_map (typ key : String) (l : List (Cell V)) (idx : Nat) (sec : Section ν V) :
    putVals typ key (l.map (Cell.map f)) idx (dict (Entry.map f) sec) = dict (Entry.map f) (putVals typ key l idx sec) := by
  induction l generalizing idx sec with
  | nil => rfl
  | cons v l ih =>
    rw [List.map_cons]
    unfold putVals
    rw [putVal_map, ih]

/-- a step that does not look at the numbers -/
def Nat' (F : Section ν V → Py (Section ν V)) (G : Section ν W → Py (Section ν W)) : Prop :=
  ∀ sec, G (dict (Entry.map f) sec) = onOk (dict (Entry.map f)) (F sec)

theorem putPlain_map (typ : String) (r : Res ν V) (src key : String) : Nat' f (putPlain typ r src key) (putPlain typ (r.map f) src key) := by
  intro sec
  unfold putPlain
  have hd : (r.map f).data src = (r.data src).map (Val.map f) := rfl
  rw [hd]
  cases r.data src with
  | none => rfl
  | some v =>
    dsimp only [Option.map_some]
    rw [items_map]
    cases items v with
    | error e => rfl
    | ok l => dsimp only [onOk]; rw [putVals_map]

theorem putCi_map (typ : String) (r : Res ν V) (src key : String) : Nat' f (putCi typ r src key) (putCi typ (r.map f) src key) := by
  intro sec
  unfold putCi
  have hd : (r.map f).data src = (r.data src).map (Val.map f) := rfl
  rw [hd]
  cases r.data src with
  | none => rfl
  | some v =>
    dsimp only [Option.map_some]
    rw [zipStar_map]
    cases zipStar v with
    | error e => rfl
    | ok l => dsimp only [onOk]; rw [putVals_map]

theorem steps_map {Fs : List (Section ν V → Py (Section ν V))} {Gs : List (Section ν W → Py (Section ν W))} (h : List.Forall₂ (Nat' f) Fs Gs) (sec : Section ν V) :
    steps (dict (Entry.map f) sec) Gs = onOk (dict (Entry.map f)) (steps sec Fs) := by
  induction h generalizing sec with
  | nil => rfl
  | @cons F G Fs Gs h _ ih =>
    unfold steps
    rw [h]
    cases F sec with
    | error e => rfl
    | ok sec' => exact ih _

theorem writeVideos_map (typ : String) (r : Res ν V) : Nat' f (writeVideos typ r) (writeVideos typ (r.map f)) := fun sec =>
  steps_map f (.cons (putNames_map f _ _) (.cons (putPlain_map f _ _ _ _) (.cons (putPlain_map f _ _ _ _) (.cons (putCi_map f _ _ _ _) .nil)))) sec

theorem writeObservers_map (typ : String) (r : Res ν V) : Nat' f (writeObservers typ r) (writeObservers typ (r.map f)) := by
  intro sec
  unfold writeObservers
  have hd : (r.map f).data "observer_bias" = (r.data "observer_bias").map (Val.map f) := rfl
  rw [hd]
  cases r.data "observer_bias" with
  | none => rfl
  | some v =>
    exact steps_map f (.cons (putNames_map f _ _) (.cons (putPlain_map f _ _ _ _) (.cons (putPlain_map f _ _ _ _) (.cons (putCi_map f _ _ _ _) (.cons (putPlain_map f _ _ _ _)
      (.cons (putPlain_map f _ _ _ _) (.cons (putCi_map f _ _ _ _) (.cons (putPlain_map f _ _ _ _) (.cons (putPlain_map f _ _ _ _) .nil))))))))) sec

theorem writeContents_map (typ : String) (r : Res ν V) (c : Option (List ν)) : Nat' f (writeContents typ r c) (writeContents typ (r.map f) c) := by
  intro sec
  unfold writeContents
  have hd : (r.map f).data "content_ambiguity" = (r.data "content_ambiguity").map (Val.map f) := rfl
  rw [hd]
  cases r.data "content_ambiguity" with
  | none => rfl
  | some v =>
    exact steps_map f (.cons (putNames_map f _ _) (.cons (putPlain_map f _ _ _ _) (.cons (putPlain_map f _ _ _ _) (.cons (putCi_map f _ _ _ _) .nil)))) sec

theorem putStat_map (typ : String) (r : Res ν V) (key : String) (st : List (String × List (String × Val V))) :
    putStat typ (r.map f) key (dict (dict (Val.map f)) st) = dict (dict (Val.map f)) (putStat typ r key st) := by
  unfold putStat
  have hd : (r.map f).data key = (r.data key).map (Val.map f) := rfl
  rw [hd]
  cases r.data key with
  | none => rfl
  | some v =>
    dsimp only [Option.map_some]
    rw [getKey_dict]
    have : (Option.map (dict (Val.map f)) (getKey typ st)).getD [] = dict (Val.map f) ((getKey typ st).getD []) := by
      cases getKey typ st <;> rfl
    rw [this, setKey_dict, setKey_dict]

theorem writeOne_map (typ : String) (r : Res ν V) (c : Option (List ν)) (o : Out ν V) :
    writeOne typ (r.map f) c (o.map f) = onOk (Out.map f) (writeOne typ r c o) := by
  unfold writeOne
  have h1 := writeVideos_map f typ r o.videos
  have h2 := writeObservers_map f typ r o.observers
  have h3 := writeContents_map f typ r c o.contents
  have h4 := putStat_map f typ r "bic" (putStat typ r "aic" o.stats)
  rw [← putStat_map] at h4
  show (match writeVideos typ (r.map f) (dict (Entry.map f) o.videos) with | .error e => _ | .ok vs => _) = _
  rw [h1]
  cases writeVideos typ r o.videos with
  | error e => rfl
  | ok vs =>
    dsimp only [onOk]
    show (match writeObservers typ (r.map f) (dict (Entry.map f) o.observers) with | .error e => _ | .ok vs => _) = _
    rw [h2]
    cases writeObservers typ r o.observers with
    | error e => rfl
    | ok os =>
      dsimp only [onOk]
      show (match writeContents typ (r.map f) c (dict (Entry.map f) o.contents) with | .error e => _ | .ok vs => _) = _
      rw [h3]
      cases writeContents typ r c o.contents with
      | error e => rfl
      | ok cs =>
        dsimp only [onOk]
        unfold Out.map
        dsimp only
        rw [h4]

theorem writeAll_map (l : List (String × Res ν V × Option (List ν))) (o : Out ν V) :
    writeAll (l.map fun p => (p.1, p.2.1.map f, p.2.2)) (o.map f) = onOk (Out.map f) (writeAll l o) := by
  induction l generalizing o with
  | nil => rfl
  | cons p l ih =>
    obtain ⟨typ, r, c⟩ := p
    rw [List.map_cons]
    unfold writeAll
    dsimp only
    rw [writeOne_map]
    cases writeOne typ r c o with
    | error e => rfl
    | ok o' => exact ih o'

theorem valuesOf_map (sec : Section ν V) : valuesOf (dict (Entry.map f) sec) = (valuesOf sec).map (·.map (Entry.map f)) := by
  cases sec with
  | nil => rfl
  | cons p sec => simp [valuesOf, dict, Function.comp_def]

/-- the output of mapped results is the mapped output -/
theorem format_map (dflt : Nat → ν) (refs : List (Int × Option ν)) (types : List String) (rs : List (Res ν V)) :
    format dflt refs types (rs.map (Res.map f)) = onOk (Output.map f) (format dflt refs types rs) := by
  unfold format
  rw [List.length_map]
  split
  · rw [mapPy_nat (validate_map f dflt refs)]
    cases mapPy (validate dflt refs) rs with
    | error e => rfl
    | ok vs =>
      dsimp only [onOk]
      have hz : types.zip (vs.map fun p => (p.1.map f, p.2)) = (types.zip vs).map fun p => (p.1, p.2.1.map f, p.2.2) := by
        rw [List.zip_map_right]
        rfl
      rw [hz]
      have hw := writeAll_map f (types.zip vs) ({} : Out ν V)
      have he : (({} : Out ν V).map f) = {} := rfl
      rw [he] at hw
      rw [hw]
      cases writeAll (types.zip vs) ({} : Out ν V) with
      | error e => rfl
      | ok o =>
        dsimp only [onOk]
        unfold Output.map Out.map
        dsimp only
        rw [valuesOf_map, valuesOf_map, valuesOf_map]
        congr 2
        cases o.stats with
        | nil => rfl
        | cons p st => rfl
  · rfl

end Sureal.Format
