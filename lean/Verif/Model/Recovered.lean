import Verif.Model.Plots
/-!
# The plot of the recovered scores against the votes, and the sizes of figures (`sureal/routine.py` lines 241-274 and 590-606)

The data handed to matplotlib, the limits of the axes and the sizes of the figures.
-/
namespace Sureal.Plots
variable {K : Type} [Zero K] [One K] [Add K] [Neg K] [Sub K] [Mul K] [Div K] [NatCast K]
  [LT K] [LE K] [DecidableLT K] [DecidableLE K]

/-- the subplots of `quality_scores_vs_raw_scores`: both axes of all of them run from `lo` to `hi`; for every subplot its number and its points -/
structure Recovered (K : Type) where
  lo : Fl K
  hi : Fl K
  subplots : List (Nat × List (Fl K × Fl K))

/-- The plot `quality_scores_vs_raw_scores` of one model, routine.py:241-274.  `np.nanmin` refuses an empty array, `set_xlim` refuses limits that are not numbers,
and `scatter` refuses lists of different lengths. -/
def recovered {E S R : Nat} (a : Arr3 (Fl K) E S R) (q : List (Fl K)) : Py (Recovered K) :=
  if S ≤ 1 then .error .assertion
  else if E = 0 then .error .value
  else
    let mtx := (List.ofFn fun i => rowL (meanMatrix a) i).flatten
    let lo := Np.nanmin mtx
    let hi := Np.nanmax mtx
    if q.length ≠ E then .error .value
    else if lo.isFinite && hi.isFinite then .ok ⟨lo, hi, List.ofFn fun i => (i.val + 1, (rowL (meanMatrix a) i).zip q)⟩
    else .error .value

/-- `x // 100` for a number up to `100 * n` -/
def hundreds (n : Nat) (x : K) : Nat := (List.range n).countP fun i => decide (((i + 1 : Nat) : K) * ((100 : Nat) : K) ≤ x)

/-- `_get_imshow_width_and_height(rows, cols)`, routine.py:590-599 -/
def imshowSize (rows cols : Nat) : K × K :=
  let w : K := (cols : K) / ((30 : Nat) : K)
  let h : K := (rows : K) / ((30 : Nat) : K)
  let p : K × K := if ((100 : Nat) : K) < w then (w / ((hundreds cols w : Nat) : K), h / ((hundreds cols w : Nat) : K)) else (w, h)
  let p' : K × K := if ((100 : Nat) : K) < p.2 then (p.1 / ((hundreds rows p.2 : Nat) : K), p.2 / ((hundreds rows p.2 : Nat) : K)) else p
  (p'.1 + ((2 : Nat) : K), p'.2 + ((2 : Nat) : K))

/-- `_get_plot_width_and_height(num)`, routine.py:602-606 -/
def plotSize [MathFn K] : Option Nat → Fl K × Fl K
  | none => (((10 : Nat) : Fl K), ((3 : Nat) : Fl K))
  | some n =>
    let w := (n : Fl K).sqrt + ((2 : Nat) : Fl K)
    ((if w.lt ((10 : Nat) : Fl K) then ((10 : Nat) : Fl K) else w), ((3 : Nat) : Fl K))

end Sureal.Plots
