import Verif.Model.Np
/-!
# `histc`, `get_cdf` and `get_pdf` (`sureal/tools/stats.py` lines 180-202)

`np.histogram(x, bins=n)` is modelled by what its documentation says: `n` equally wide bins from the minimum to the maximum of
the data (0 to 1 without data, half a unit to either side if all data are equal), closed on the left and open on the right
except for the last one, which is closed; ValueError if the range is not finite or `n` is 0.
-/
namespace Sureal.Hist
variable {K : Type} [Zero K] [One K] [Add K] [Neg K] [Sub K] [Mul K] [Div K] [NatCast K]
  [LT K] [LE K] [DecidableLT K] [DecidableLE K]

section histc
variable [DecidableEq K]

/-- `dd.setdefault(x, 0)` and `dd[x] += 1`, stats.py:200-201; a dictionary is a list of entries in the order of insertion -/
def bump : List (Fl K × Nat) → Fl K → List (Fl K × Nat)
  | [], x => [(x, 1)]
  | (k, n) :: rest, x => if k = x then (k, n + 1) :: rest else (k, n) :: bump rest x

/-- `histc`, stats.py:195-202 -/
def histc (series : List (Fl K)) : List (Fl K × Nat) :=
  series.foldl (fun dd x => if x.isNan then dd else bump dd x) []

end histc

/-- the numbers in an array without NaN and infinities -/
def finite : List (Fl K) → Option (List K)
  | [] => some []
  | .fin x :: l => (finite l).map (x :: ·)
  | _ :: _ => none

/-- first and last edge of `np.histogram` -/
def outer : List K → K × K
  | [] => (0, 1)
  | x :: xs =>
    let lo := xs.foldl (fun a b => if b < a then b else a) x
    let hi := xs.foldl (fun a b => if a < b then b else a) x
    if lo < hi then (lo, hi) else (lo - 1 / ((2 : Nat) : K), hi + 1 / ((2 : Nat) : K))

/-- edge `k` of `n` bins between `o.1` and `o.2` -/
def edge (o : K × K) (n k : Nat) : K := o.1 + (k : K) * ((o.2 - o.1) / (n : K))

/-- whether `x` lies in bin `k` of `n` bins -/
def inBin (o : K × K) (n k : Nat) (x : K) : Bool :=
  decide (edge o n k ≤ x) && (decide (x < edge o n (k + 1)) || (k + 1 == n && decide (x ≤ edge o n (k + 1))))

/-- `np.histogram(x, bins=n)`: counts and edges -/
def histogram (x : List (Fl K)) (n : Nat) : Py (List Nat × List K) :=
  if n = 0 then .error .value
  else
    match finite x with
    | none => .error .value
    | some l => .ok ((List.range n).map fun k => l.countP (inBin (outer l) n k),
        (List.range (n + 1)).map fun k => edge (outer l) n k)

/-- `np.cumsum`, entered with the sum so far -/
def cumsum (acc : Nat) : List Nat → List Nat
  | [] => []
  | c :: l => (acc + c) :: cumsum (acc + c) l

/-- `get_cdf(x, bins)`, stats.py:180-186 -/
def getCdf (x : List (Fl K)) (bins : Nat) : Py (List (Fl K) × List K) :=
  match histogram x bins with
  | .error e => .error e
  | .ok (counts, edges) =>
    let cdf := cumsum 0 counts
    match cdf.getLast? with
    | none => .error .index
    | some total => .ok (cdf.map fun c => ((c : Nat) : Fl K) / ((total : Nat) : Fl K), edges.tail)

/-- differences of neighbours, `np.diff` -/
def diffs : List K → List K
  | a :: b :: l => (b - a) :: diffs (b :: l)
  | _ => []

/-- midpoints of neighbours, `(bin_edges[:-1] + bin_edges[1:])/2` -/
def centres : List K → List K
  | a :: b :: l => ((a + b) / ((2 : Nat) : K)) :: centres (b :: l)
  | _ => []

/-- `get_pdf(data, bins, density)`, stats.py:189-192; with `density` numpy divides by the widths and by the number of data -/
def getPdf (x : List (Fl K)) (bins : Nat) (density : Bool) : Py (List (Fl K) × List K) :=
  match histogram x bins with
  | .error e => .error e
  | .ok (counts, edges) =>
    let pdf := if density then
        (counts.zip (diffs edges)).map fun p => ((p.1 : Nat) : Fl K) / Fl.fin p.2 / ((counts.sum : Nat) : Fl K)
      else counts.map fun c => ((c : Nat) : Fl K)
    .ok (pdf, centres edges)

end Sureal.Hist
