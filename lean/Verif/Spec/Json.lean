import Verif.Model.JsonOut
/-!
# Specification: JSON texts (RFC 8259) and what they denote

The numerals of finite numbers are those of a parameter `repr`.
-/
namespace Sureal.Spec.Json
open Sureal JsonOut

/-- white space -/
def IsWs (t : List Char) : Prop := ∀ c ∈ t, c = ' ' ∨ c = '\t' ∨ c = '\n' ∨ c = '\r'

def IsDigit (c : Char) : Prop := '0'.toNat ≤ c.toNat ∧ c.toNat ≤ '9'.toNat

def IsDigits (t : List Char) : Prop := t ≠ [] ∧ ∀ c ∈ t, IsDigit c

/-- numbers: an integer without leading zeros, a fraction, an exponent -/
def IsNumber (t : List Char) : Prop :=
  ∃ s i f e, (s = [] ∨ s = ['-']) ∧ (i = ['0'] ∨ IsDigits i ∧ i.head? ≠ some '0') ∧ (f = [] ∨ ∃ d, IsDigits d ∧ f = '.' :: d) ∧
    (e = [] ∨ ∃ x s d, (x = 'e' ∨ x = 'E') ∧ (s = [] ∨ s = ['+'] ∨ s = ['-']) ∧ IsDigits d ∧ e = x :: s ++ d) ∧ t = s ++ i ++ f ++ e

/-- the value of a hexadecimal digit -/
def HexDigit (c : Char) (n : ℕ) : Prop :=
  IsDigit c ∧ c.toNat = '0'.toNat + n ∨ ('a'.toNat ≤ c.toNat ∧ c.toNat ≤ 'f'.toNat) ∧ c.toNat + 10 = 'a'.toNat + n ∨
    ('A'.toNat ≤ c.toNat ∧ c.toNat ≤ 'F'.toNat) ∧ c.toNat + 10 = 'A'.toNat + n

/-- the value of four hexadecimal digits -/
def Hex4 (t : List Char) (n : ℕ) : Prop :=
  ∃ a b c d x y z w, t = [a, b, c, d] ∧ HexDigit a x ∧ HexDigit b y ∧ HexDigit c z ∧ HexDigit d w ∧ n = 4096 * x + 256 * y + 16 * z + w

/-- the characters with a short escape -/
def shortEscapes : List (Char × Char) :=
  [('"', '"'), ('\\', '\\'), ('/', '/'), ('b', '\x08'), ('f', '\x0c'), ('n', '\n'), ('r', '\r'), ('t', '\t')]

/-- `Chars s t`: the text `t` inside quotation marks stands for the string `s` -/
inductive Chars : List Char → List Char → Prop
  | nil : Chars [] []
  | plain {c s t} (h : 32 ≤ c.toNat) (h1 : c ≠ '"') (h2 : c ≠ '\\') (ht : Chars s t) : Chars (c :: s) (c :: t)
  | short {e c s t} (h : (e, c) ∈ shortEscapes) (ht : Chars s t) : Chars (c :: s) ('\\' :: e :: t)
  | unicode {c : Char} {h s t} (hh : Hex4 h c.toNat) (ht : Chars s t) : Chars (c :: s) ('\\' :: 'u' :: h ++ t)
  | pair {c : Char} {h l x y s t} (hh : Hex4 h x) (hx : 0xD800 ≤ x ∧ x < 0xDC00) (hl : Hex4 l y) (hy : 0xDC00 ≤ y ∧ y < 0xE000)
      (hc : c.toNat = 0x10000 + (x - 0xD800) * 0x400 + (y - 0xDC00)) (ht : Chars s t) :
      Chars (c :: s) ('\\' :: 'u' :: h ++ '\\' :: 'u' :: l ++ t)

/-- the text of a string -/
def IsString (s t : List Char) : Prop := ∃ u, Chars s u ∧ t = '"' :: u ++ ['"']

/-- a value, or what stands between the brackets of a list or an object -/
inductive Item (V : Type) where
  | value (t : Doc V)
  | elements (l : List (Doc V))
  | members (l : List (List Char × Doc V))

/-- the text of a value; there is none for a number that is not finite -/
inductive Denotes {K : Type} (repr : K → List Char) : Item (Fl K) → List Char → Prop
  | null : Denotes repr (.value .null) "null".toList
  | yes : Denotes repr (.value (.bool true)) "true".toList
  | no : Denotes repr (.value (.bool false)) "false".toList
  | num {x} (h : IsNumber (repr x)) : Denotes repr (.value (.num (.fin x))) (repr x)
  | str {s t} (h : IsString s t) : Denotes repr (.value (.str s)) t
  | arr0 {w} (h : IsWs w) : Denotes repr (.value (.arr [])) ('[' :: w ++ [']'])
  | arr {l t} (h : Denotes repr (.elements l) t) : Denotes repr (.value (.arr l)) ('[' :: t ++ [']'])
  | obj0 {w} (h : IsWs w) : Denotes repr (.value (.obj [])) ('{' :: w ++ ['}'])
  | obj {l t} (h : Denotes repr (.members l) t) : Denotes repr (.value (.obj l)) ('{' :: t ++ ['}'])
  | last {w x t w'} (hw : IsWs w) (hw' : IsWs w') (h : Denotes repr (.value x) t) : Denotes repr (.elements [x]) (w ++ t ++ w')
  | more {w x t w' l u} (hw : IsWs w) (hw' : IsWs w') (h : Denotes repr (.value x) t) (hl : Denotes repr (.elements l) u) :
      Denotes repr (.elements (x :: l)) (w ++ t ++ w' ++ ',' :: u)
  | lastMember {w k kt w1 w2 x t w'} (hw : IsWs w) (hk : IsString k kt) (h1 : IsWs w1) (h2 : IsWs w2) (hw' : IsWs w') (h : Denotes repr (.value x) t) :
      Denotes repr (.members [(k, x)]) (w ++ kt ++ w1 ++ ':' :: w2 ++ t ++ w')
  | moreMembers {w k kt w1 w2 x t w' l u} (hw : IsWs w) (hk : IsString k kt) (h1 : IsWs w1) (h2 : IsWs w2) (hw' : IsWs w')
      (h : Denotes repr (.value x) t) (hl : Denotes repr (.members l) u) :
      Denotes repr (.members ((k, x) :: l)) (w ++ kt ++ w1 ++ ':' :: w2 ++ t ++ w' ++ ',' :: u)

/-- a JSON text: a value between white space -/
def IsJsonText {K : Type} (repr : K → List Char) (t : List Char) : Prop :=
  ∃ w u w' x, IsWs w ∧ IsWs w' ∧ Denotes repr (.value x) u ∧ t = w ++ u ++ w'

/-- the numbers of an output -/
inductive NumberOf {ν V : Type} (out : Format.Output ν V) (v : V) : Prop
  | cell (l : List (Format.Entry ν V)) (hl : out.disVideos = some l ∨ out.observers = some l ∨ out.contents = some l) (e) (he : e ∈ l) (T d)
      (hT : (T, d) ∈ e.models) (k) (hk : (k, .one v) ∈ d)
  | row (l : List (Format.Entry ν V)) (hl : out.disVideos = some l ∨ out.observers = some l ∨ out.contents = some l) (e) (he : e ∈ l) (T d)
      (hT : (T, d) ∈ e.models) (k r) (hk : (k, .row r) ∈ d) (hv : v ∈ r)
  | stat (st) (hs : out.stats = some st) (T d) (hT : (T, d) ∈ st) (k) (hk : (k, .num v) ∈ d)
  | statSeq (st) (hs : out.stats = some st) (T d) (hT : (T, d) ∈ st) (k r) (hk : (k, .seq r) ∈ d) (hv : v ∈ r)
  | statRows (st) (hs : out.stats = some st) (T d) (hT : (T, d) ∈ st) (k rs r) (hk : (k, .rows rs) ∈ d) (hr : r ∈ rs) (hv : v ∈ r)

end Sureal.Spec.Json
