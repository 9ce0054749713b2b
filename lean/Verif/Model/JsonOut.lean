import Verif.Model.Format
/-!
# The text the program writes (`sureal/__main__.py` lines 97-106)

`json.dumps(output, indent=4)` and `json.dump(output, fp, indent=4)`: the encoder of Python's `json` module (`_make_iterencode`,
`py_encode_basestring_ascii`, `floatstr`) on the objects that occur in the output.  `repr` is `float.__repr__` on finite numbers.  In the order of
insertion the sections of the output may come in another order than here (`Format.Output` does not keep it).  Not modelled: what is not a string, a number,
a list, a tuple or a dictionary, such as the arrays PERSUBJECT puts into its result.
-/
namespace Sureal.JsonOut
open Sureal Format

/-- a Python object made of `None`, booleans, numbers, strings, lists (or tuples) and dictionaries with strings as keys -/
inductive Doc (V : Type) where
  | null
  | bool (b : Bool)
  | num (v : V)
  | str (s : List Char)
  | arr (l : List (Doc V))
  | obj (l : List (List Char × Doc V))

/-- a digit of `'{0:04x}'` -/
def hexDigit (n : Nat) : Char := Char.ofNat (if n < 10 then 48 + n else 87 + n)

/-- `'{0:04x}'.format(n)` for `n < 65536` -/
def hex4 (n : Nat) : List Char := [hexDigit (n / 4096 % 16), hexDigit (n / 256 % 16), hexDigit (n / 16 % 16), hexDigit (n % 16)]

/-- `replace` of `py_encode_basestring_ascii`: everything outside `' '` to `'~'`, the backslash and the quotation mark are escaped -/
def escape (c : Char) : List Char :=
  if c = '\\' then ['\\', '\\']
  else if c = '"' then ['\\', '"']
  else if c = '\x08' then ['\\', 'b']
  else if c = '\x0c' then ['\\', 'f']
  else if c = '\n' then ['\\', 'n']
  else if c = '\r' then ['\\', 'r']
  else if c = '\t' then ['\\', 't']
  else if 32 ≤ c.toNat ∧ c.toNat ≤ 126 then [c]
  else if c.toNat < 65536 then '\\' :: 'u' :: hex4 c.toNat
  else '\\' :: 'u' :: hex4 (55296 + (c.toNat - 65536) / 1024) ++ '\\' :: 'u' :: hex4 (56320 + (c.toNat - 65536) % 1024)

/-- a string -/
def encStr (s : List Char) : List Char := '"' :: s.flatMap escape ++ ['"']

/-- `floatstr`, with `allow_nan=True` -/
def encNum {K : Type} (repr : K → List Char) : Fl K → List Char
  | .nan => ['N', 'a', 'N']
  | .pinf => ['I', 'n', 'f', 'i', 'n', 'i', 't', 'y']
  | .ninf => ['-', 'I', 'n', 'f', 'i', 'n', 'i', 't', 'y']
  | .fin x => repr x

/-- `'\n' + ' ' * (4 * level)` -/
def newline (level : Nat) : List Char := '\n' :: List.replicate (4 * level) ' '

/-- the items of a list or dictionary between brackets, one per line -/
def enclose (o c : Char) (level : Nat) : List (List Char) → List Char
  | [] => [o, c]
  | x :: l => o :: newline (level + 1) ++ x ++ (l.flatMap fun y => ',' :: newline (level + 1) ++ y) ++ newline level ++ [c]

mutual
/-- `_iterencode(o, level)` -/
def enc {K : Type} (repr : K → List Char) (level : Nat) : Doc (Fl K) → List Char
  | .null => ['n', 'u', 'l', 'l']
  | .bool true => ['t', 'r', 'u', 'e']
  | .bool false => ['f', 'a', 'l', 's', 'e']
  | .num x => encNum repr x
  | .str s => encStr s
  | .arr l => enclose '[' ']' level (encItems repr (level + 1) l)
  | .obj l => enclose '{' '}' level (encMembers repr (level + 1) l)
/-- the items of a list -/
def encItems {K : Type} (repr : K → List Char) (level : Nat) : List (Doc (Fl K)) → List (List Char)
  | [] => []
  | t :: l => enc repr level t :: encItems repr level l
/-- the items of a dictionary, `key: value` -/
def encMembers {K : Type} (repr : K → List Char) (level : Nat) : List (List Char × Doc (Fl K)) → List (List Char)
  | [] => []
  | (k, t) :: l => (encStr k ++ ':' :: ' ' :: enc repr level t) :: encMembers repr level l
end

/-- a number, or a list or tuple of numbers -/
def cellTree {V : Type} : Cell V → Doc V
  | .one v => .num v
  | .row l => .arr (l.map .num)

/-- an entry of a result, as the statistics hold it -/
def valTree {V : Type} : Val V → Doc V
  | .none => .null
  | .num v => .num v
  | .seq l => .arr (l.map .num)
  | .rows l => .arr (l.map fun r => .arr (r.map .num))

/-- `{'dis_video_name': ..., 'models': {...}}`; `key` is `dis_video_name`, `observer` or `content` -/
def entryTree {ν V : Type} (name : ν → String) (key : String) (e : Entry ν V) : Doc V :=
  .obj ((match e.name with | some n => [(key.toList, .str (name n).toList)] | none => []) ++
    if e.models = [] then [] else [(['m', 'o', 'd', 'e', 'l', 's'],
      .obj (e.models.map fun p => (p.1.toList, .obj (p.2.map fun q => (q.1.toList, cellTree q.2)))))])

/-- a section of the output, if there is one -/
def sectionTree {ν V : Type} (name : ν → String) (title key : String) : Option (List (Entry ν V)) → List (List Char × Doc V)
  | none => []
  | some l => [(title.toList, .arr (l.map (entryTree name key)))]

/-- the object `output`; `name` gives the strings the names are -/
def tree {ν V : Type} (name : ν → String) (out : Output ν V) : Doc V :=
  .obj (sectionTree name "dis_videos" "dis_video_name" out.disVideos ++ sectionTree name "observers" "observer" out.observers ++
    sectionTree name "contents" "content" out.contents ++
    match out.stats with
    | none => []
    | some st => [("stats".toList, .obj [(['m', 'o', 'd', 'e', 'l', 's'],
        .obj (st.map fun p => (p.1.toList, .obj (p.2.map fun q => (q.1.toList, valTree q.2)))))])])

/-- lines 98-99 and 103-104: what is printed or written -/
def text {ν K : Type} (name : ν → String) (repr : K → List Char) (out : Output ν (Fl K)) : List Char := enc repr 0 (tree name out)

end Sureal.JsonOut
