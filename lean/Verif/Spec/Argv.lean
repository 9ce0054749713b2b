/-!
# Command lines

A grammar of the command lines the program takes: options by their names or by beginnings of the names that belong to no other option, in any order,
with values in words of their own or after `=`.
-/
namespace Sureal.Spec.Argv

/-- a word of the command line -/
abbrev Word := List Char

/-- the names of the options -/
def longNames : List Word :=
  ["--help".toList, "--dataset".toList, "--models".toList, "--output-dir".toList, "--plot-raw-data".toList, "--plot-dis-videos".toList,
    "--plot-observers".toList]

/-- `p` stands for the option `name`: it is the beginning of this name and of no other -/
def Abbrev (p name : Word) : Prop := "--".toList <+: p ∧ p <+: name ∧ ∀ n ∈ longNames, p <+: n → n = name

/-- the word can be a value.  A word that begins with a dash can be one only if it is a dash, or if it could be no option and is a negative number or has a blank in
it. -/
def Value (neg : Word → Bool) (v : Word) : Prop :=
  v.head? ≠ some '-' ∨ v = ['-'] ∨
    (v ≠ "--".toList ∧ ¬ "-h".toList <+: v ∧ (∀ n ∈ longNames, ¬ v.takeWhile (· ≠ '=') <+: n ∨ ¬ "--".toList <+: v) ∧ (neg v = true ∨ ' ' ∈ v))

/-- what one asks for -/
inductive Piece where
  | dataset (d : Word)
  | models (m : Word) (ms : List Word)
  | outputDir (o : Word)
  | plotRawData
  | plotDisVideos
  | plotObservers
  deriving DecidableEq

/-- the words spell the pieces -/
inductive Spells (neg : Word → Bool) : List Word → List Piece → Prop
  | nil : Spells neg [] []
  | dataset {p v l ps} (hp : Abbrev p "--dataset".toList) (hv : Value neg v) (h : Spells neg l ps) : Spells neg (p :: v :: l) (.dataset v :: ps)
  | datasetEq {p v l ps} (hp : Abbrev p "--dataset".toList) (h : Spells neg l ps) : Spells neg ((p ++ '=' :: v) :: l) (.dataset v :: ps)
  | models {p m ms l ps} (hp : Abbrev p "--models".toList) (hv : ∀ v ∈ m :: ms, Value neg v) (h : Spells neg l ps) :
      Spells neg (p :: m :: (ms ++ l)) (.models m ms :: ps)
  | modelsEq {p v l ps} (hp : Abbrev p "--models".toList) (h : Spells neg l ps) : Spells neg ((p ++ '=' :: v) :: l) (.models v [] :: ps)
  | outputDir {p v l ps} (hp : Abbrev p "--output-dir".toList) (hv : Value neg v) (h : Spells neg l ps) : Spells neg (p :: v :: l) (.outputDir v :: ps)
  | outputDirEq {p v l ps} (hp : Abbrev p "--output-dir".toList) (h : Spells neg l ps) : Spells neg ((p ++ '=' :: v) :: l) (.outputDir v :: ps)
  | plotRawData {p l ps} (hp : Abbrev p "--plot-raw-data".toList) (h : Spells neg l ps) : Spells neg (p :: l) (.plotRawData :: ps)
  | plotDisVideos {p l ps} (hp : Abbrev p "--plot-dis-videos".toList) (h : Spells neg l ps) : Spells neg (p :: l) (.plotDisVideos :: ps)
  | plotObservers {p l ps} (hp : Abbrev p "--plot-observers".toList) (h : Spells neg l ps) : Spells neg (p :: l) (.plotObservers :: ps)

/-- the datasets asked for -/
def datasets (ps : List Piece) : List Word := ps.filterMap fun | .dataset d => some d | _ => none
/-- the lists of models asked for -/
def modelLists (ps : List Piece) : List (List Word) := ps.filterMap fun | .models m ms => some (m :: ms) | _ => none
/-- the directories asked for -/
def outputDirs (ps : List Piece) : List Word := ps.filterMap fun | .outputDir o => some o | _ => none

end Sureal.Spec.Argv
