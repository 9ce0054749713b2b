import Verif.Model.Format
/-!
# Writing a dataset as Python source and importing it (`sureal/dataset_reader.py` lines 87-111, `sureal/tools/misc.py` lines 109-122)

Values are trees of atoms. The text `repr` and `pprint.pformat` write for a value is represented by the expression Python parses
it as; the two differ in the layout, which is not represented, and in that `pformat` sorts the entries of dictionaries (`order`).
`np2` says whether numpy is version 2 or later, where `repr(np.float64(1.0))` is `np.float64(1.0)`.
-/
namespace Sureal.Write
open Sureal.Format (getKey setKey)
variable {K : Type}

mutual
/-- lists, tuples and dictionaries over atoms -/
inductive Tree (A : Type) where
  | atom (a : A)
  | list (l : Trees A)
  | tuple (l : Trees A)
  | dict (d : Pairs A)
inductive Trees (A : Type) where
  | nil
  | cons (t : Tree A) (l : Trees A)
/-- the entries of a dictionary -/
inductive Pairs (A : Type) where
  | nil
  | cons (k v : Tree A) (d : Pairs A)
end

/-- atomic values; `other` is anything whose `repr` is not an expression (modules, functions, most objects) -/
inductive Atom (K : Type) where
  | none
  | bool (b : Bool)
  | int (i : Int)
  | str (s : String)
  | float (x : Fl K)
  | npFloat (x : Fl K)
  | other

/-- atomic expressions; `neg s` is `-s` for a name `s`, `np x` is `np.float64(x)`, `bad` is a text that is not an expression -/
inductive EAtom (K : Type) where
  | lit (a : Atom K)
  | name (s : String)
  | neg (s : String)
  | np
  | bad

abbrev Value (K : Type) := Tree (Atom K)
abbrev Expr (K : Type) := Tree (EAtom K)

/-- what `repr` writes for a float -/
def reprFloat : Fl K → EAtom K
  | .fin x => .lit (.float (.fin x))
  | .nan => .name "nan"
  | .pinf => .name "inf"
  | .ninf => .neg "inf"

/-- `repr` of an atom -/
def reprAtom (np2 : Bool) : Atom K → EAtom K
  | .float x => reprFloat x
  | .npFloat x => if np2 then .np else reprFloat x
  | .other => .bad
  | a => .lit a

mutual
/-- `repr(v)` -/
def repr (np2 : Bool) : Value K → Expr K
  | .atom a => .atom (reprAtom np2 a)
  | .list l => .list (reprs np2 l)
  | .tuple l => .tuple (reprs np2 l)
  | .dict d => .dict (reprPairs np2 d)
def reprs (np2 : Bool) : Trees (Atom K) → Trees (EAtom K)
  | .nil => .nil
  | .cons t l => .cons (repr np2 t) (reprs np2 l)
def reprPairs (np2 : Bool) : Pairs (Atom K) → Pairs (EAtom K)
  | .nil => .nil
  | .cons k v d => .cons (repr np2 k) (repr np2 v) (reprPairs np2 d)
end

mutual
/-- the entries of all dictionaries in the order in which `pformat` writes them -/
def sorted (order : Pairs (Atom K) → Pairs (Atom K)) : Value K → Value K
  | .atom a => .atom a
  | .list l => .list (sortedL order l)
  | .tuple l => .tuple (sortedL order l)
  | .dict d => .dict (order (sortedP order d))
def sortedL (order : Pairs (Atom K) → Pairs (Atom K)) : Trees (Atom K) → Trees (Atom K)
  | .nil => .nil
  | .cons t l => .cons (sorted order t) (sortedL order l)
def sortedP (order : Pairs (Atom K) → Pairs (Atom K)) : Pairs (Atom K) → Pairs (Atom K)
  | .nil => .nil
  | .cons k v d => .cons (sorted order k) (sorted order v) (sortedP order d)
end

/-- `pprint.pformat(v)` -/
def pformat (order : Pairs (Atom K) → Pairs (Atom K)) (np2 : Bool) (v : Value K) : Expr K := repr np2 (sorted order v)

/-- `key.startswith('__')` -/
def dunder (key : String) : Bool := "__".toList.isPrefixOf key.toList

/-- `write_out_dataset`, dataset_reader.py:87-111: the assignments in the file. `attrs` is `dataset.__dict__`; the attributes of
the class of the dataset are not modelled. -/
def writeOut (order : Pairs (Atom K) → Pairs (Atom K)) (np2 : Bool) (attrs : List (String × Value K)) : Py (List (String × Expr K)) :=
  match getKey "ref_videos" attrs, getKey "dis_videos" attrs with
  | some refs, some diss =>
    .ok ((attrs.filter fun p => p.1 ≠ "ref_videos" ∧ p.1 ≠ "dis_videos" ∧ p.1 ≠ "subjects" ∧ ¬ dunder p.1 = true).map
        (fun p => (p.1, repr np2 p.2)) ++
      [("ref_videos", pformat order np2 refs), ("dis_videos", pformat order np2 diss)] ++
      (match getKey "subjects" attrs with
        | some s => [("subjects", pformat order np2 s)]
        | none => []) ++
      (match getKey "license" attrs with
        | some s => [("license", pformat order np2 s)]
        | none => []))
  | _, _ => .error .assertion

/-- what can go wrong when a file is imported -/
inductive ImpErr where
  | syntaxError
  | nameError
  | other
  deriving DecidableEq, Repr

mutual
/-- whether the text parses -/
def parses : Expr K → Bool
  | .atom .bad => false
  | .atom _ => true
  | .list l => parsesL l
  | .tuple l => parsesL l
  | .dict d => parsesP d
def parsesL : Trees (EAtom K) → Bool
  | .nil => true
  | .cons t l => parses t && parsesL l
def parsesP : Pairs (EAtom K) → Bool
  | .nil => true
  | .cons k v d => parses k && parses v && parsesP d
end

/-- the value of an atomic expression; `-s` and `np.float64(x)` for a name the module binds are not modelled (`other`) -/
def evalAtom (env : List (String × Value K)) : EAtom K → Except ImpErr (Value K)
  | .lit a => .ok (.atom a)
  | .name s => match getKey s env with
    | some v => .ok v
    | none => .error .nameError
  | .neg s => match getKey s env with
    | some _ => .error .other
    | none => .error .nameError
  | .np => match getKey "np" env with
    | some _ => .error .other
    | none => .error .nameError
  | .bad => .error .syntaxError

mutual
/-- the value of an expression; unhashable keys of dictionaries are not modelled (a value has none) -/
def eval (env : List (String × Value K)) : Expr K → Except ImpErr (Value K)
  | .atom a => evalAtom env a
  | .list l => match evalL env l with
    | .ok l' => .ok (.list l')
    | .error e => .error e
  | .tuple l => match evalL env l with
    | .ok l' => .ok (.tuple l')
    | .error e => .error e
  | .dict d => match evalP env d with
    | .ok d' => .ok (.dict d')
    | .error e => .error e
def evalL (env : List (String × Value K)) : Trees (EAtom K) → Except ImpErr (Trees (Atom K))
  | .nil => .ok .nil
  | .cons t l => match eval env t with
    | .error e => .error e
    | .ok t' => match evalL env l with
      | .error e => .error e
      | .ok l' => .ok (.cons t' l')
def evalP (env : List (String × Value K)) : Pairs (EAtom K) → Except ImpErr (Pairs (Atom K))
  | .nil => .ok .nil
  | .cons k v d => match eval env k with
    | .error e => .error e
    | .ok k' => match eval env v with
      | .error e => .error e
      | .ok v' => match evalP env d with
        | .error e => .error e
        | .ok d' => .ok (.cons k' v' d')
end

/-- the assignments one after the other -/
def exec : List (String × Expr K) → List (String × Value K) → Except ImpErr (List (String × Value K))
  | [], env => .ok env
  | (k, e) :: l, env => match eval env e with
    | .error e => .error e
    | .ok v => exec l (setKey k v env)

/-- `import_python_file`, tools/misc.py:109-122. `SourceFileLoader.load_module` looks the name of the file without its extension
up in `sys.modules`; if a module of that name is loaded, the file is executed in it (`loaded` is its `__dict__`), otherwise in a
new module. The attributes Python itself sets (`__name__`, ...) are left out. `ident` tells which strings Python accepts as names
on the left of an assignment. -/
def importFile (ident : String → Bool) (loaded : Option (List (String × Value K))) (file : List (String × Expr K)) :
    Except ImpErr (List (String × Value K)) :=
  if file.all fun p => ident p.1 && parses p.2 then exec file (loaded.getD []) else .error .syntaxError

end Sureal.Write
