import Verif.Model.FileName
import Verif.Model.MosTable
/-!
# Paths of the package (`sureal/config.py` lines 6-43, `sureal/tools/decorator.py` line 48, `sureal/__main__.py` line 103)

Strings are lists of characters.  `os.path` is that of POSIX systems.  `file` is what `os.path.realpath(__file__)` gives for config.py.
-/
namespace Sureal.Paths
open FileName

/-- `os.path.join(a, *components)`: Python's `posixpath.join` takes the components in turn -/
def join (a : List Char) (components : List (List Char)) : List Char := components.foldl MosTable.join a

/-- `os.path.dirname`: up to the last separator, without separators at its end unless it has nothing else -/
def dirname (p : List Char) : List Char :=
  let head := p.take (rfind1 '/' p)
  if head.all (fun c => c == '/') then head else (head.reverse.dropWhile fun c => c == '/').reverse

/-- `PYTHON_ROOT`, config.py:6 -/
def pythonRoot (file : List Char) : List Char := join (dirname file) ["..".toList]

/-- `SurealConfig.root_path`, config.py:11-13 -/
def rootPath (file : List Char) (components : List (List Char)) : List Char := join (pythonRoot file) components

/-- `SurealConfig.workspace_path`, config.py:15-17 -/
def workspacePath (file : List Char) (components : List (List Char)) : List Char := rootPath file ("workspace".toList :: components)

/-- `SurealConfig.workdir_path`, config.py:19-21 -/
def workdirPath (file : List Char) (components : List (List Char)) : List Char := rootPath file ("workspace".toList :: "workdir".toList :: components)

/-- `SurealConfig.resource_path`, config.py:23-25 -/
def resourcePath (file : List Char) (components : List (List Char)) : List Char := rootPath file ("resource".toList :: components)

/-- `SurealConfig.test_resource_path`, config.py:27-29 -/
def testResourcePath (file : List Char) (components : List (List Char)) : List Char := rootPath file ("test".toList :: "resource".toList :: components)

/-- the directory of `DisplayConfig.show(write_to_dir=...)`, config.py:39; `none` is Python's None -/
def figureDir (file : List Char) (writeToDir : Option (List Char)) : List Char := writeToDir.getD (workspacePath file ["output".toList])

/-- the file of figure `fignum`, config.py:38-43; without the keyword `format` it is png -/
def figurePath (file : List Char) (writeToDir format : Option (List Char)) (fignum : Nat) : List Char :=
  join (figureDir file writeToDir) [(toString fignum).toList ++ '.' :: format.getD "png".toList]

/-- the file of the program's output, __main__.py:103 -/
def outputPath (outputDir : List Char) : List Char := join outputDir ["output.json".toList]

/-- the file in which `persist_to_dir` keeps the result of a call with hash `h`, decorator.py:48 with the directory of routine.py:1159 -/
def cachePath (file h : List Char) : List Char := join (workdirPath file ["_get_sample_stats_wrapper".toList]) [h]

end Sureal.Paths
