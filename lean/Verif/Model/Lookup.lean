import Verif.Model.Pc
/-!
# Looking things up: command line options and model classes

`sureal/tools/misc.py` lines 125-170, `sureal/core/mixin.py` lines 48-73, `sureal/__main__.py` lines 52-74.
-/
namespace Sureal
open Pc (pyGet)

/-! ### command line options -/

/-- `range(a, b)` -/
def pyRange (a b : Int) : List Int := (List.range (b - a).toNat).map (fun (k : Nat) => a + (k : Int))

variable {T : Type} [DecidableEq T]

/-- the loop of `get_cmd_option`, `sureal/tools/misc.py` lines 141-144: the value of `itr` afterwards -/
def optScan (argv : List T) (option : T) : List Int → Option Int → Py (Option Int)
  | [], itr => .ok itr
  | i :: is, _ =>
    match pyGet argv i with
    | .error e => .error e
    | .ok x => if x = option then .ok (some i) else optScan argv option is (some i)

/-- `get_cmd_option`, lines 125-147 -/
def getCmdOption (argv : List T) (b e : Int) (option : T) : Py (Option T) :=
  match optScan argv option (pyRange b e) none with
  | .error err => .error err
  | .ok none => .ok none
  | .ok (some itr) =>
    if itr ≠ e ∧ itr + 1 ≠ e then
      match pyGet argv (itr + 1) with
      | .error err => .error err
      | .ok x => .ok (some x)
    else .ok none

/-- the loop of `cmd_option_exists`, lines 165-170 -/
def existsScan (argv : List T) (option : T) : List Int → Py Bool
  | [] => .ok false
  | i :: is =>
    match pyGet argv i with
    | .error e => .error e
    | .ok x => if x = option then .ok true else existsScan argv option is

/-- `cmd_option_exists`, lines 150-170 -/
def cmdOptionExists (argv : List T) (b e : Int) (option : T) : Py Bool := existsScan argv option (pyRange b e)

/-! ### class lookup -/

/-- A class hierarchy: `subs c` is `c.__subclasses__()` (the classes that name `c` among their bases, in order of definition);
`type c` is the value of `c.TYPE` as a string, own or inherited, `none` where it is not a string (an abstract property) or
missing.  `depth` is a bound on the length of the chains of subclasses below a class, which exists since classes are finitely
many and inheritance is acyclic; it only serves to make the recursion terminate. -/
structure Classes (C T : Type) where
  subs : C → List C
  type : C → Option T
  depth : C → Nat
  acyclic : ∀ c, ∀ d ∈ subs c, depth d < depth c

/-- `get_subclasses_recursively`, `sureal/core/mixin.py` lines 67-73, to the given depth -/
def subclassesTo {C : Type} (subs : C → List C) : Nat → C → List C
  | 0, _ => []
  | n + 1, c => subs c ++ (subs c).flatMap (subclassesTo subs n)

/-- `get_subclasses_recursively`, lines 67-73 -/
def Classes.subclasses {C : Type} (H : Classes C T) (c : C) : List C := subclassesTo H.subs (H.depth c) c

/-- `find_subclass`, lines 48-65 -/
def Classes.find {C : Type} (H : Classes C T) (c : C) (t : T) : Py C :=
  match (H.subclasses c).filter (fun d => H.type d = some t) with
  | [d] => .ok d
  | _ => .error .assertion

/-- `sureal/__main__.py` lines 52-55: every requested model is looked up -/
def Classes.findAll {C : Type} (H : Classes C T) (c : C) (ts : List T) : Py (List C) := mapPy (H.find c) ts

/-- which reader the program uses -/
inductive ReaderClass where
  | raw | pairedComp
  deriving DecidableEq

/-- `sureal/__main__.py` lines 57-74: which reader fits the chosen models.  `isSubj`, `isPc` tell whether `SubjectiveModel`,
`PairedCompSubjectiveModel` are in the method resolution order of the class. -/
def chooseReader {C : Type} (isSubj isPc : C → Bool) (cs : List C) : Py ReaderClass :=
  let allSubj := cs.all (fun c => isSubj c && !isPc c)
  let allPc := cs.all isPc
  if (allSubj && !allPc) || (!allSubj && allPc) then
    if allSubj then .ok .raw else .ok .pairedComp
  else .error .assertion

end Sureal
