import Verif.Model.Dataset
import Mathlib.Data.Fintype.Basic
/-!
# `parallel_map` (`sureal/tools/misc.py`, lines 173-231) as a transition system

One step is either a step of the parent process or a step of one worker, so the executions of the system are all
interleavings of the parent with its workers, including workers that die at any point.

Simplifications: sets are finite sets, of which the parent may take the elements in any order (`set.pop`, iteration);
`p.start()` does not raise; the shared dictionary is atomic; sleeping is not modelled (it only restricts the interleavings).
-/
namespace Sureal.ParMap
variable {α β : Type} {n : Nat}

/-- state of a worker process; `stored` has written its result but is still alive -/
inductive Worker where
  | idle | running | stored | dead
  deriving DecidableEq

/-- `p.is_alive()`, line 211: false before the start and after the end -/
def Worker.alive : Worker → Bool
  | .running => true
  | .stored => true
  | _ => false

/-- where the parent is: top of the loop, in the loop over the copy of the active set (lines 210-212), before the test
for a free place (line 215), before the test for the end (line 222), or finished with a result -/
inductive Pc (β : Type) (n : Nat) where
  | top
  | scan (todo : Finset (Fin n))
  | add
  | test
  | done (r : Py (List β))

structure St (β : Type) (n : Nat) where
  pc : Pc β n
  waiting : Finset (Fin n)
  active : Finset (Fin n)
  worker : Fin n → Worker
  /-- `return_dict` -/
  dict : Fin n → Option β
  /-- how often each process was started -/
  starts : Fin n → Nat

/-- lines 181-204 -/
def init (β : Type) (n : Nat) : St β n :=
  { pc := .top, waiting := Finset.univ, active := ∅, worker := fun _ => .idle, dict := fun _ => none, starts := fun _ => 0 }

/-- `return_dict[idx]` -/
def entry (d : Fin n → Option β) (i : Fin n) : Py β :=
  match d i with
  | some b => .ok b
  | none => .error .key

/-- `list(map(lambda idx: return_dict[idx], range(len(list_args))))`, line 229 -/
def collect (d : Fin n → Option β) : Py (List β) := mapPy (entry d) (List.finRange n)

def upd {γ : Type} (f : Fin n → γ) (i : Fin n) (x : γ) : Fin n → γ := fun j => if j = i then x else f j

/-- One step.  `f` is the function (`none`: it raises), `args` the arguments, `lim` the maximum number of active processes. -/
inductive Step (f : α → Option β) (args : Fin n → α) (lim : Int) : St β n → St β n → Prop
  /-- a worker finishes `func(args)` and stores the result, lines 188-191 -/
  | store {s i b} (hw : s.worker i = .running) (hf : f (args i) = some b) :
      Step f args lim s { s with worker := upd s.worker i .stored, dict := upd s.dict i (some b) }
  /-- a worker that has stored its result ends -/
  | finish {s i} (hw : s.worker i = .stored) : Step f args lim s { s with worker := upd s.worker i .dead }
  /-- a worker dies before storing a result: it was killed, or `func` raised -/
  | die {s i} (hw : s.worker i = .running) : Step f args lim s { s with worker := upd s.worker i .dead }
  /-- `for p in active_procs.copy()`, line 210 -/
  | begin {s} (hp : s.pc = .top) : Step f args lim s { s with pc := .scan s.active }
  /-- the body of that loop for a process that is alive -/
  | keep {s todo p} (hp : s.pc = .scan todo) (hm : p ∈ todo) (ha : (s.worker p).alive = true) :
      Step f args lim s { s with pc := .scan (todo.erase p) }
  /-- and for one that is not: `active_procs.remove(p)`, which raises KeyError if `p` is not in the set -/
  | drop {s todo p} (hp : s.pc = .scan todo) (hm : p ∈ todo) (ha : (s.worker p).alive = false) (hin : p ∈ s.active) :
      Step f args lim s { s with pc := .scan (todo.erase p), active := s.active.erase p }
  | dropMissing {s todo p} (hp : s.pc = .scan todo) (hm : p ∈ todo) (ha : (s.worker p).alive = false) (hin : p ∉ s.active) :
      Step f args lim s { s with pc := .done (.error .key) }
  | scanned {s} (hp : s.pc = .scan ∅) : Step f args lim s { s with pc := .add }
  /-- lines 215-219 -/
  | start {s p} (hp : s.pc = .add) (hl : (s.active.card : Int) < lim) (hm : p ∈ s.waiting) :
      Step f args lim s { s with pc := .test, waiting := s.waiting.erase p, active := insert p s.active,
                                 worker := upd s.worker p .running, starts := upd s.starts p (s.starts p + 1) }
  | full {s} (hp : s.pc = .add) (hl : ¬ ((s.active.card : Int) < lim ∧ s.waiting ≠ ∅)) :
      Step f args lim s { s with pc := .test }
  /-- lines 222-226 -/
  | again {s} (hp : s.pc = .test) (hne : ¬ (s.waiting = ∅ ∧ s.active = ∅)) : Step f args lim s { s with pc := .top }
  /-- lines 222-223, 229-231 -/
  | leave {s} (hp : s.pc = .test) (hw : s.waiting = ∅) (ha : s.active = ∅) :
      Step f args lim s { s with pc := .done (collect s.dict) }

/-- the states that can be reached -/
def Reachable (f : α → Option β) (args : Fin n → α) (lim : Int) (s : St β n) : Prop :=
  Relation.ReflTransGen (Step f args lim) (init β n) s

end Sureal.ParMap
