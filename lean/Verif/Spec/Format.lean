import Verif.Model.Format
import Mathlib.Data.Finset.Sort
/-! Specification: which number belongs under which video, observer, content and model -/
namespace Sureal.Spec
open Sureal.Format
variable {ν V : Type} [DecidableEq ν]

/-- the entry at position `i` of a list -/
def entryAt : Val V → ℕ → Option (Cell V)
  | .seq l, i => l[i]?.map .one
  | .rows l, i => l[i]?.map .row
  | _, _ => none

/-- the interval at position `i` of two lists of bounds -/
def intervalAt : Val V → ℕ → Option (Cell V)
  | .rows [a, b], i =>
    match a[i]?, b[i]? with
    | some x, some y => some (.row [x, y])
    | _, _ => none
  | _, _ => none

/-- the number a result holds for video `i` under a key of the output -/
def videoNumber (r : Res ν V) (i : ℕ) (key : String) : Option (Cell V) :=
  if key = "quality_score" then (r.data "quality_scores").bind (entryAt · i)
  else if key = "quality_score_std" then (r.data "quality_scores_std").bind (entryAt · i)
  else if key = "quality_score_ci95" then (r.data "quality_scores_ci95").bind (intervalAt · i)
  else none

/-- the number a result holds for observer `i`; nothing if it has no observer biases -/
def observerNumber (r : Res ν V) (i : ℕ) (key : String) : Option (Cell V) :=
  if (r.data "observer_bias").isNone then none
  else if key ∈ ["observer_bias", "observer_bias_std", "observer_inconsistency", "observer_inconsistency_std",
      "observer_scores_mean", "observer_scores_std"] then (r.data key).bind (entryAt · i)
  else if key ∈ ["observer_bias_ci95", "observer_inconsistency_ci95"] then (r.data key).bind (intervalAt · i)
  else none

/-- the number a result holds for content `i`; nothing if it has no content ambiguities -/
def contentNumber (r : Res ν V) (i : ℕ) (key : String) : Option (Cell V) :=
  if (r.data "content_ambiguity").isNone then none
  else if key ∈ ["content_ambiguity", "content_ambiguity_std"] then (r.data key).bind (entryAt · i)
  else if key = "content_ambiguity_ci95" then (r.data key).bind (intervalAt · i)
  else none

/-- the statistic a result holds under a key of the output -/
def statNumber (r : Res ν V) (key : String) : Option (Val V) :=
  if key = "aic" ∨ key = "bic" then r.data key else none

/-- a list of `n` entries -/
def HasLen (v : Val V) (n : ℕ) : Prop := (∃ l, v = .seq l ∧ l.length = n) ∨ ∃ l, v = .rows l ∧ l.length = n

/-- two lists of bounds, the shorter one of length `n` -/
def HasBounds (v : Val V) (n : ℕ) : Prop := ∃ a b, v = .rows [a, b] ∧ min a.length b.length = n

/-- if present, the entries under `keys` are lists of length `n` and those under `cis` are bounds of length `n` -/
def Lens (r : Res ν V) (n : ℕ) (keys cis : List String) : Prop :=
  (∀ k ∈ keys, ∀ v, r.data k = some v → HasLen v n) ∧ ∀ k ∈ cis, ∀ v, r.data k = some v → HasBounds v n

/-- all lists of a result have the lengths they should have -/
def WellSized (refs : List (ℤ × Option ν)) (r : Res ν V) : Prop :=
  (∃ q names, r.data "quality_scores" = some q ∧ r.disVideoNames = some names ∧ HasLen q names.length ∧
    Lens r names.length ["quality_scores_std"] ["quality_scores_ci95"]) ∧
  (∀ b, r.data "observer_bias" = some b → ∃ n, HasLen b n ∧ (∀ obs, r.observers = some obs → obs.length = n) ∧
    Lens r n ["observer_bias_std", "observer_inconsistency", "observer_inconsistency_std", "observer_scores_mean",
      "observer_scores_std"] ["observer_bias_ci95", "observer_inconsistency_ci95"]) ∧
  (∀ a, r.data "content_ambiguity" = some a → (∀ p ∈ refs, p.2 ≠ none) ∧ HasLen a (refs.map (·.1)).toFinset.card ∧
    Lens r (refs.map (·.1)).toFinset.card ["content_ambiguity_std"] ["content_ambiguity_ci95"])

/-- the length of a list, 0 for anything else -/
def sizeOf' : Val V → ℕ
  | .seq l => l.length
  | .rows l => l.length
  | _ => 0

def videoNames (r : Res ν V) : List ν := r.disVideoNames.getD []

/-- the observers a result with biases names, or default names -/
def observerNames (dflt : ℕ → ν) (r : Res ν V) : List ν :=
  match r.data "observer_bias" with
  | none => []
  | some b => match r.observers with
    | some obs => obs
    | none => (List.range (sizeOf' b)).map dflt

/-- the name of a content: that of the last reference video with its id -/
def lastName (refs : List (ℤ × Option ν)) (k : ℤ) : Option ν := (refs.reverse.find? fun p => p.1 = k).bind (·.2)

/-- for a result with content ambiguities, the contents in the order of their ids -/
def contentNames (refs : List (ℤ × Option ν)) (r : Res ν V) : List ν :=
  if (r.data "content_ambiguity").isNone then [] else ((refs.map (·.1)).toFinset.sort (· ≤ ·)).filterMap (lastName refs)

/-- results agree on the names, wherever two of them have one -/
def Agree (names : List (List ν)) : Prop :=
  ∀ l ∈ names, ∀ l' ∈ names, ∀ (i : ℕ) (n n' : ν), l[i]? = some n → l'[i]? = some n' → n = n'

/-- what the output holds at position `i` of a list under a model and a key -/
def numberIn (es : Option (List (Entry ν V))) (i : ℕ) (typ key : String) : Option (Cell V) :=
  ((es.getD [])[i]?.bind fun e => e.models.lookup typ).bind fun d => d.lookup key

/-- the name at position `i` of a list of the output -/
def nameIn (es : Option (List (Entry ν V))) (i : ℕ) : Option ν := (es.getD [])[i]?.bind (·.name)

/-- what the statistics of the output hold under a model and a key -/
def statIn (out : Output ν V) (T k : String) : Option (Val V) := ((out.stats.getD []).lookup T).bind fun d => d.lookup k

end Sureal.Spec
