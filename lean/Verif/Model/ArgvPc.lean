import Verif.Model.Argv
import Verif.Model.MainPcPlots
/-!
# The command line program from its words on, with models for paired comparisons

`sureal/__main__.py` lines 15-112 unless it takes the reader for opinion scores: the words are read as in `Model/Argv`, then the program is that of
`Model/MainPcPlots`.  Not modelled: failures of matplotlib and of the file system other than an empty name for the directory.
-/
namespace Sureal.ArgvPc
open Sureal Format MainPlots
variable {K : Type} [Zero K] [One K] [Add K] [Neg K] [Sub K] [Mul K] [Div K] [NatCast K]
  [LT K] [LE K] [DecidableLT K] [DecidableLE K] [MathFn K] [DecidableEq K]

/-- `Program … argv dirs (seen, after)`: started with the words `argv` (`sureal/__main__.py` lines 15-42, 112) and the directories `dirs` the program can be seen to do
`seen`, and leaves the directories `after` -/
inductive Program (A : Argv.Lib) (ppf : Fl K → Nat → Fl K) (L : MainPc.Lib K) (readPy : Argv.Word → Py (Dataset (String × Int) K))
    (readJson : Argv.Word → Py (Dataset String K)) (argv : List Argv.Word) (dirs : Argv.Dirs (Output String (Fl K)) (Figure String K)) :
    Argv.Seen (Output String (Fl K)) (Figure String K) × Argv.Dirs (Output String (Fl K)) (Figure String K) → Prop
  | help (h : Argv.parse A argv = .error .help) : Program A ppf L readPy readJson argv dirs ({ code := 0 }, dirs)
  | usage (h : Argv.parse A argv = .error .usage) : Program A ppf L readPy readJson argv dirs ({ code := 2 }, dirs)
  | run {a r} (h : Argv.parse A argv = .ok a)
      (hr : MainPcPlots.Main ppf L a.dataset (readPy a.dataset) (readJson a.dataset) a.asked (a.models.map String.ofList) r) :
      Program A ppf L readPy readJson argv dirs (Argv.finishIn a.outputDir r dirs)

end Sureal.ArgvPc
