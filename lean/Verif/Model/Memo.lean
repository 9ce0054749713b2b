import Verif.Model.Fl
import Mathlib.Logic.Relation
/-!
# Caching decorators (`sureal/tools/decorator.py`)

* `memoized` (lines 82-114) as a function from calls and cache to result and cache;
* `persist_to_dir` (lines 39-60) as a transition system of processes sharing a directory, each of which may be killed
  between any two steps.

`persist_to_file` (lines 12-36) is not modelled: every call of a function it decorates raises TypeError, because line 28
applies `hashlib.sha1` to a `str`.
-/
namespace Sureal.Memo
variable {A V : Type}

/-- Arguments as Python sees them: `hash(args)` may raise TypeError (a list, a dict or an array among the arguments), and
dictionary keys are compared by `==`. -/
structure Keys (A : Type) where
  hashable : A → Bool
  eq : A → A → Bool

/-- `args in self.cache` / `self.cache[args]`, lines 101-102: the entry whose key equals the argument -/
def find (keys : Keys A) (a : A) : List (A × V) → Option V
  | [] => none
  | (b, v) :: l => if keys.eq b a then some v else find keys a l

/-- the state: the cache, and the arguments on which the function was evaluated (ghost) -/
structure MSt (A V : Type) where
  cache : List (A × V)
  evals : List A

/-- `memoized.__init__`, lines 94-96 -/
def MSt.init : MSt A V := { cache := [], evals := [] }

/-- `memoized.__call__`, lines 98-106.  The test `hasattr(args, "__hash__")` is true of every tuple, so lines 99-100 never
take effect, and unhashable arguments raise TypeError in `args in self.cache`.  A raising function leaves the cache alone. -/
def call (keys : Keys A) (f : A → Py V) (s : MSt A V) (a : A) : Py V × MSt A V :=
  if keys.hashable a then
    match find keys a s.cache with
    | some v => (.ok v, s)
    | none =>
      match f a with
      | .ok v => (.ok v, { cache := (a, v) :: s.cache, evals := a :: s.evals })
      | .error e => (.error e, { cache := s.cache, evals := a :: s.evals })
  else (.error .type, s)

/-- a history of calls from a fresh decorator; the state afterwards -/
def after (keys : Keys A) (f : A → Py V) (hist : List A) : MSt A V :=
  hist.foldl (fun s a => (call keys f s a).2) MSt.init

/-! ### `persist_to_dir` -/

/-- where one process is in `new_func`, lines 46-56 -/
inductive Pc (A V B : Type) where
  | idle
  | checkFile (a : A)
  | checkDir (a : A)
  | makeDir (a : A)
  | compute (a : A)
  | openFile (a : A) (v : V)
  /-- `json.dump` is writing: the number of characters written, those still to come -/
  | write (a : A) (v : V) (off : Nat) (rest : List B)
  | read (a : A)
  | returned (a : A) (r : Py V)

/-- the shared directory and the processes -/
structure DSt (P H A V B : Type) where
  dir : Bool
  files : H → Option (List B)
  pc : P → Pc A V B

variable {P H B : Type}

/-- the decorated function and the library functions it uses: `key` = sha1 of name and arguments (line 47); `dump` the
characters `json.dump` writes and whether it then succeeds (it raises TypeError in the middle of a value that is not
serialisable); `load` what `json.load` makes of a file (`none`: JSONDecodeError) -/
structure Env (A V H B : Type) where
  f : A → Py V
  key : A → H
  dump : V → List B × Bool
  load : List B → Option V

def setPc [DecidableEq P] (s : DSt P H A V B) (p : P) (c : Pc A V B) : DSt P H A V B :=
  { s with pc := fun q => if q = p then c else s.pc q }

def setFile [DecidableEq H] (s : DSt P H A V B) (h : H) (c : List B) : DSt P H A V B :=
  { s with files := fun k => if k = h then some c else s.files k }

/-- writing `c` at position `off` (a gap that another process left by truncating is not filled with zeros) -/
def writeAt (old : List B) (off : Nat) (c : List B) : List B := old.take off ++ c ++ old.drop (off + c.length)

/-- One step of process `p`.  `crashes` tells whether processes may be killed. -/
inductive DStep [DecidableEq P] [DecidableEq H] (env : Env A V H B) (crashes : Prop) :
    DSt P H A V B → DSt P H A V B → Prop
  /-- a call -/
  | call {s p} (a : A) (hp : s.pc p = .idle) : DStep env crashes s (setPc s p (.checkFile a))
  /-- `os.path.exists(file_name)`, line 49 -/
  | hit {s p a c} (hp : s.pc p = .checkFile a) (hf : s.files (env.key a) = some c) : DStep env crashes s (setPc s p (.read a))
  | miss {s p a} (hp : s.pc p = .checkFile a) (hf : s.files (env.key a) = none) : DStep env crashes s (setPc s p (.checkDir a))
  /-- `os.path.exists(dir_name)`, line 50 -/
  | dirThere {s p a} (hp : s.pc p = .checkDir a) (hd : s.dir = true) : DStep env crashes s (setPc s p (.compute a))
  | dirMissing {s p a} (hp : s.pc p = .checkDir a) (hd : s.dir = false) : DStep env crashes s (setPc s p (.makeDir a))
  /-- `os.makedirs(dir_name)`, line 51: raises FileExistsError if the directory has appeared meanwhile -/
  | mkdir {s p a} (hp : s.pc p = .makeDir a) (hd : s.dir = false) :
      DStep env crashes s (setPc { s with dir := true } p (.compute a))
  | mkdirExists {s p a} (hp : s.pc p = .makeDir a) (hd : s.dir = true) :
      DStep env crashes s (setPc s p (.returned a (.error .os)))
  /-- `original_func(*args)`, line 52 -/
  | value {s p a v} (hp : s.pc p = .compute a) (hv : env.f a = .ok v) : DStep env crashes s (setPc s p (.openFile a v))
  | raise {s p a e} (hp : s.pc p = .compute a) (he : env.f a = .error e) :
      DStep env crashes s (setPc s p (.returned a (.error e)))
  /-- `open(file_name, 'wt')`, line 53, empties the file -/
  | openFile {s p a v} (hp : s.pc p = .openFile a v) :
      DStep env crashes s (setPc (setFile s (env.key a) []) p (.write a v 0 (env.dump v).1))
  /-- some more characters reach the file -/
  | write {s p a v off c rest old} (hp : s.pc p = .write a v off (c ++ rest)) (hf : s.files (env.key a) = some old) :
      DStep env crashes s (setPc (setFile s (env.key a) (writeAt old off c)) p (.write a v (off + c.length) rest))
  /-- all of them have: `json.dump` returns and the file is closed -/
  | close {s p a v off} (hp : s.pc p = .write a v off []) :
      DStep env crashes s (setPc s p (.returned a (if (env.dump v).2 then .ok v else .error .type)))
  /-- `json.load(open(file_name, 'rt'))`, line 55 -/
  | load {s p a c} (hp : s.pc p = .read a) (hf : s.files (env.key a) = some c) :
      DStep env crashes s (setPc s p (.returned a (match env.load c with | some v => .ok v | none => .error .json)))
  /-- the caller takes the result -/
  | done {s p a r} (hp : s.pc p = .returned a r) : DStep env crashes s (setPc s p .idle)
  /-- the process is killed, and a new one takes its place -/
  | crash {s p} (hc : crashes) : DStep env crashes s (setPc s p .idle)

/-- no cache directory, nothing running -/
def DSt.init : DSt P H A V B := { dir := false, files := fun _ => none, pc := fun _ => .idle }

def DReachable [DecidableEq P] [DecidableEq H] (env : Env A V H B) (crashes : Prop) (s : DSt P H A V B) : Prop :=
  Relation.ReflTransGen (DStep env crashes) DSt.init s

end Sureal.Memo
