import Verif.Model.MainPlots
/-!
# The arguments of the command line program (`sureal/__main__.py` lines 16-49)

The parser that lines 16-43 set up, from the words of the command line to the values in lines 44-49, and the whole program from the words on.  `ArgumentParser.parse_args`
is the one of CPython 3.11 (`argparse.py`: `_parse_known_args`, `_parse_optional`, `_get_option_tuples`, `_match_argument`), for these options: none of them is
positional.  Python versions differ in which words look like negative numbers and in what follows on text attached to `-h`: both are parameters.
Not modelled: the texts of the help and of the messages, failures of matplotlib and of the file system other than an empty name of a directory.
-/
namespace Sureal.Argv
open Sureal Routine Format Main MainPlots

/-- a word of the command line -/
abbrev Word := List Char

/-- the actions of the parser; `help` is added by `ArgumentParser()` -/
inductive Action where
  | help | dataset | models | outputDir | plotRawData | plotDisVideos | plotObservers
  deriving DecidableEq

/-- `_option_string_actions`, __main__.py:16-43 -/
def options : List (Word × Action) :=
  [("-h".toList, .help), ("--help".toList, .help), ("--dataset".toList, .dataset), ("--models".toList, .models),
    ("--output-dir".toList, .outputDir), ("--plot-raw-data".toList, .plotRawData), ("--plot-dis-videos".toList, .plotDisVideos),
    ("--plot-observers".toList, .plotObservers)]

/-- how the parser ends the program: after the help with code 0, after a message on the usage with code 2 -/
inductive Exit where
  | help | usage
  deriving DecidableEq

/-- what depends on the version of Python: `_negative_number_matcher`, and what is done on text attached to `-h` -/
structure Lib where
  neg : Word → Bool
  attached : Word → Exit

/-- a word as the parser sees it: `A`, `-`, or `O` with the action (`none`: no such option), the name of the option, and the text after `=` -/
inductive Token where
  | value (w : Word)
  | separator
  | option (a : Option Action) (name : Word) (explicit : Option Word)

/-- `arg_string.partition('=')` -/
def beforeEq (w : Word) : Word := w.takeWhile (· ≠ '=')
def afterEq (w : Word) : Option Word := if '=' ∈ w then some ((w.dropWhile (· ≠ '=')).drop 1) else none

/-- `_get_option_tuples`, argparse.py:2300-2340 -/
def tuples (w : Word) : List Token :=
  if w[1]? = some '-' then
    (options.filter fun p => (beforeEq w).isPrefixOf p.1).map fun p => .option (some p.2) p.1 (afterEq w)
  else
    options.filterMap fun p =>
      if p.1 = w.take 2 then some (.option (some p.2) p.1 (some (w.drop 2)))
      else if w.isPrefixOf p.1 then some (.option (some p.2) p.1 none)
      else none

/-- `_parse_optional`, argparse.py:2243-2298 -/
def classify (L : Lib) (w : Word) : Except Exit Token :=
  if w = [] then .ok (.value w)
  else if w.head? ≠ some '-' then .ok (.value w)
  else
    match options.lookup w with
    | some a => .ok (.option (some a) w none)
    | none =>
      if w.length = 1 then .ok (.value w)
      else
        match (if '=' ∈ w then options.lookup (beforeEq w) else none) with
        | some a => .ok (.option (some a) (beforeEq w) (afterEq w))
        | none =>
          match tuples w with
          | [t] => .ok t
          | [] => if L.neg w then .ok (.value w) else if ' ' ∈ w then .ok (.value w) else .ok (.option none w none)
          | _ => .error .usage

/-- the loop in argparse.py:1938-1956: all words after `--` are no options -/
def tokens (L : Lib) : List Word → Except Exit (List Token)
  | [] => .ok []
  | w :: l =>
    if w = ['-', '-'] then .ok (.separator :: l.map .value)
    else
      match classify L w with
      | .error e => .error e
      | .ok t =>
        match tokens L l with
        | .error e => .error e
        | .ok ts => .ok (t :: ts)

/-- the namespace, and whether there are `extras` -/
structure Ns where
  dataset : Option Word := none
  models : Option (List Word) := none
  outputDir : Option Word := none
  asked : Asked := {}
  extras : Bool := false

/-- the words `A` at the front: what the pattern of `nargs="+"` matches -/
def leading : List Token → List Word
  | .value w :: l => w :: leading l
  | _ => []

/-- `_parse_known_args` from line 1962 on: words that belong to no option are extras -/
def consume (L : Lib) (ns : Ns) : List Token → Except Exit Ns
  | [] => .ok ns
  | .value _ :: l => consume L { ns with extras := true } l
  | .separator :: l => consume L { ns with extras := true } l
  | .option none _ _ :: l => consume L { ns with extras := true } l
  | .option (some a) name (some x) :: l =>
    match a with
    | .dataset => consume L { ns with dataset := some x } l
    | .models => consume L { ns with models := some [x] } l
    | .outputDir => consume L { ns with outputDir := some x } l
    | _ => .error (if name[1]? ≠ some '-' ∧ x ≠ [] then L.attached x else .usage)
  | .option (some a) _ none :: l =>
    match a with
    | .help => .error .help
    | .plotRawData => consume L { ns with asked := { ns.asked with rawData := true } } l
    | .plotDisVideos => consume L { ns with asked := { ns.asked with disVideos := true } } l
    | .plotObservers => consume L { ns with asked := { ns.asked with observers := true } } l
    | .dataset =>
      match l with
      | .value x :: l' => consume L { ns with dataset := some x } l'
      | _ => .error .usage
    | .outputDir =>
      match l with
      | .value x :: l' => consume L { ns with outputDir := some x } l'
      | _ => .error .usage
    | .models =>
      match leading l with
      | [] => .error .usage
      | v :: vs => consume L { ns with models := some (v :: vs) } (l.drop (vs.length + 1))
termination_by l => l.length
decreasing_by all_goals (simp only [List.length_cons, List.length_drop]; omega)

/-- the values in __main__.py:44-49 -/
structure Args where
  dataset : Word
  models : List Word
  outputDir : Option Word
  asked : Asked

/-- `parser.parse_args()` and lines 44-49: `--dataset` and `--models` are required, extras are refused -/
def parse (L : Lib) (argv : List Word) : Except Exit Args :=
  match tokens L argv with
  | .error e => .error e
  | .ok ts =>
    match consume L {} ts with
    | .error e => .error e
    | .ok ns =>
      match ns.dataset, ns.models with
      | some d, some ms => if ns.extras then .error .usage else .ok ⟨d, ms, ns.outputDir, ns.asked⟩
      | _, _ => .error .usage

/-- what one sees of a run: the exit code (an exception that is not caught gives 1), and the output and the figures if they are shown on the screen -/
structure Seen (O F : Type) where
  code : Nat
  screen : Option (O × List F) := none

variable {κ K : Type} [Zero K] [One K] [Add K] [Neg K] [Sub K] [Mul K] [Div K] [NatCast K]
  [LT K] [LE K] [DecidableLT K] [DecidableLE K] [MathFn K] [DecidableEq K]

/-- the directories by the names given for them (two names of one directory are two directories) -/
abbrev Dirs (O F : Type) := Word → DirOf O F

/-- lines 97-111: without `--output-dir` the output is printed and the figures are shown; `os.makedirs('')` raises FileNotFoundError -/
def finishIn {O F : Type} (out : Option Word) (r : Py (O × List F)) (dirs : Dirs O F) : Seen O F × Dirs O F :=
  match r with
  | .error _ => ({ code := 1 }, dirs)
  | .ok (o, figs) =>
    match out with
    | none => ({ code := 0, screen := some (o, figs) }, dirs)
    | some [] => ({ code := 1 }, dirs)
    | some (c :: cs) => ({ code := 0 }, fun d => if d = c :: cs then (finish (.ok (o, figs)) (dirs d)).2 else dirs d)

/-- the program from the words of the command line on, `sureal/__main__.py` -/
def program [LinearOrder κ] (L : Lib) (ppf : Fl K → Nat → Fl K) (other : ModelClass → Reader κ K → Py (Result κ K))
    (pc : Args → List ModelClass → Py (Output (String ⊕ κ) (Fl K) × List (Figure κ K))) (readPy readJson : Word → Py (Dataset κ K)) (argv : List Word)
    (dirs : Dirs (Output (String ⊕ κ) (Fl K)) (Figure κ K)) : Seen (Output (String ⊕ κ) (Fl K)) (Figure κ K) × Dirs (Output (String ⊕ κ) (Fl K)) (Figure κ K) :=
  match parse L argv with
  | .error .help => ({ code := 0 }, dirs)
  | .error .usage => ({ code := 2 }, dirs)
  | .ok a =>
    finishIn a.outputDir
      (MainPlots.main ppf other (pc a) a.dataset (readPy a.dataset) (readJson a.dataset) a.asked (a.models.map String.ofList)) dirs

end Sureal.Argv
