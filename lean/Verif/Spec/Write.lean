import Verif.Model.Write
/-! Specification: what it means for two values to be the same, and which values survive being written as source -/
namespace Sureal.Spec
open Sureal.Write
variable {K A : Type}

def toList : Trees A → List (Write.Tree A)
  | .nil => []
  | .cons t l => t :: toList l

/-- keys and values of a dictionary -/
def entriesOf : Pairs A → List (Write.Tree A × Write.Tree A)
  | .nil => []
  | .cons k v d => (k, v) :: entriesOf d

/-- a numpy float counts as the float of the same value -/
def asReadAtom : Atom K → Atom K
  | .npFloat x => .float x
  | a => a

mutual
def asRead : Value K → Value K
  | .atom a => .atom (asReadAtom a)
  | .list l => .list (asReadL l)
  | .tuple l => .tuple (asReadL l)
  | .dict d => .dict (asReadP d)
def asReadL : Trees (Atom K) → Trees (Atom K)
  | .nil => .nil
  | .cons t l => .cons (asRead t) (asReadL l)
def asReadP : Pairs (Atom K) → Pairs (Atom K)
  | .nil => .nil
  | .cons k v d => .cons (asRead k) (asRead v) (asReadP d)
end

/-- a step into a value: an index of a list or tuple, or a key of a dictionary -/
inductive Step (K : Type) where
  | item (n : ℕ)
  | entry (k : Value K)

open Classical in
/-- `v[n]` or `v[k]` -/
noncomputable def child : Value K → Step K → Option (Value K)
  | .list l, .item n => (toList l)[n]?
  | .tuple l, .item n => (toList l)[n]?
  | .dict d, .entry k => ((entriesOf d).find? fun p => p.1 = k).map (·.2)
  | _, _ => none

noncomputable def follow (v : Value K) : List (Step K) → Option (Value K)
  | [] => some v
  | s :: p => (child v s).bind fun c => follow c p

/-- what is seen of a value without stepping into it -/
inductive View (K : Type) where
  | atom (a : Atom K)
  | list (length : ℕ)
  | tuple (length : ℕ)
  | dict (size : ℕ)

def view : Value K → View K
  | .atom a => .atom (asReadAtom a)
  | .list l => .list (toList l).length
  | .tuple l => .tuple (toList l).length
  | .dict d => .dict (entriesOf d).length

/-- two values are the same if the same steps lead to the same atoms and to lists, tuples and dictionaries of the same size
(the order of the entries of a dictionary does not matter) -/
def Same (v w : Value K) : Prop := ∀ p, (follow v p).map view = (follow w p).map view

/-- an atom whose `repr` is a literal -/
def PlainAtom (np2 : Bool) : Atom K → Prop
  | .float (.fin _) => True
  | .float _ => False
  | .npFloat (.fin _) => np2 = false
  | .npFloat _ => False
  | .other => False
  | _ => True

mutual
/-- a value of atoms whose `repr` is a literal -/
def Plain (np2 : Bool) : Value K → Prop
  | .atom a => PlainAtom np2 a
  | .list l => PlainL np2 l
  | .tuple l => PlainL np2 l
  | .dict d => PlainP np2 d
def PlainL (np2 : Bool) : Trees (Atom K) → Prop
  | .nil => True
  | .cons t l => Plain np2 t ∧ PlainL np2 l
def PlainP (np2 : Bool) : Pairs (Atom K) → Prop
  | .nil => True
  | .cons k v d => Plain np2 k ∧ Plain np2 v ∧ PlainP np2 d
end

mutual
/-- a value that can be a key -/
def Hashable : Value K → Prop
  | .atom _ => True
  | .list _ => False
  | .tuple l => HashableL l
  | .dict _ => False
def HashableL : Trees (Atom K) → Prop
  | .nil => True
  | .cons t l => Hashable t ∧ HashableL l
end

mutual
/-- every dictionary has keys that can be keys, and no key twice -/
def WellKeyed : Value K → Prop
  | .atom _ => True
  | .list l => WellKeyedL l
  | .tuple l => WellKeyedL l
  | .dict d => WellKeyedP d ∧ ((entriesOf d).map fun p => asRead p.1).Nodup
def WellKeyedL : Trees (Atom K) → Prop
  | .nil => True
  | .cons t l => WellKeyed t ∧ WellKeyedL l
def WellKeyedP : Pairs (Atom K) → Prop
  | .nil => True
  | .cons k v d => Hashable k ∧ WellKeyed v ∧ WellKeyedP d
end

/-- names that do not begin with two underscores -/
def Public (k : String) : Prop := ¬ ∃ r, k.toList = '_' :: '_' :: r

end Sureal.Spec
