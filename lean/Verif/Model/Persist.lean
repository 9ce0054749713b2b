import Verif.Model.Compare
/-!
# `_get_sample_stats_wrapper_persistent` (`sureal/routine.py` lines 1159-1161)

`_get_sample_stats_wrapper` decorated by `persist_to_dir` (`sureal/tools/decorator.py` lines 39-60).  `Model/Memo` has the decorator step by step, for several
processes and a function that does not change.  Here one process at a time calls it, from the start of `new_func` to its end, and the function is not the same at
every call: it depends on the files of the datasets and on the state of numpy's random generator.
-/
namespace Sureal.Persist
open Sureal Routine
variable {A V H B : Type}

/-- the library functions the decorator uses, as in `Memo.Env`: `key` = sha1 of name and arguments (line 47); `dump` = the characters `json.dump` writes, and whether it
succeeds (on a value that is not serialisable it raises TypeError after having written the beginning); `load` = `json.load` (`none`: JSONDecodeError) -/
structure Lib (A V H B : Type) where
  key : A → H
  dump : V → List B × Bool
  load : List B → Option V

/-- the files in the cache directory -/
abbrev Cache (H B : Type) := H → Option (List B)

/-- `new_func(*args)`, decorator.py:46-56; `f` is `original_func` as it is at this moment -/
def call [DecidableEq H] (lib : Lib A V H B) (f : A → Py V) (files : Cache H B) (a : A) : Py V × Cache H B :=
  match files (lib.key a) with
  | some c => (match lib.load c with | some v => .ok v | none => .error .json, files)
  | none =>
    match f a with
    | .error e => (.error e, files)
    | .ok v => (if (lib.dump v).2 then .ok v else .error .type, fun k => if k = lib.key a then some (lib.dump v).1 else files k)

/-- the directory after a series of calls, each with the function as it is then -/
def after [DecidableEq H] (lib : Lib A V H B) : List ((A → Py V) × A) → Cache H B → Cache H B
  | [], files => files
  | (f, a) :: l, files => after lib l (call lib f files a).2

variable {κ K : Type} [Zero K] [One K] [Add K] [Neg K] [Sub K] [Mul K] [Div K] [NatCast K]
  [LT K] [LE K] [DecidableLT K] [DecidableLE K] [MathFn K]

/-- the arguments `dataset` (whose entry `path` is used), `subj_fraction`, `model` and `random_seed` -/
structure Args (K : Type) where
  path : List Char
  frac : Option (Fl K)
  model : String
  seed : Option Nat

/-- what a call depends on apart from its arguments: what is in the files now, and the random order the global generator gives next -/
structure World (κ K : Type) where
  source : List Char → Source κ K
  order : Nat → List Nat

/-- `_get_sample_stats_wrapper(dataset, subj_fraction, model, random_seed)` in a world; `seeded s` is the order after `np.random.seed(s)`, routine.py:1041-1043 -/
def stats [LinearOrder κ] (find : String → Py (Reader κ K → Py (Result κ K))) (seeded : Nat → Nat → List Nat) (w : World κ K) (a : Args K) :
    Py (List (List (Report κ K))) :=
  wrapper find a.frac (match a.seed with | some s => seeded s | none => w.order) (w.source a.path) a.model

end Sureal.Persist
