import Verif.Model.Np
/-!
# scipy.stats functions used by the models

Modelled from the scipy documentation/implementation, without rounding:

* `stats.kurtosis(x, fisher=False)`: fourth central moment over squared second central moment; NaN when
  the second moment is zero (scipy compares with a relative resolution of 1e-15; here: zero);
* `stats.pearsonr(x, y)[0]`: raises `ValueError` for fewer than two points, NaN for a constant input;
* `stats.spearmanr(x, y)[0]`: Pearson correlation of average ranks, NaN for fewer than two points.
-/
namespace Sureal.Stats
variable {K : Type} [Zero K] [One K] [Add K] [Neg K] [Sub K] [Mul K] [Div K] [NatCast K]
  [LT K] [LE K] [DecidableLT K] [DecidableLE K]

/-- `stats.kurtosis(x, fisher=False)` -/
def kurtosis (l : List (Fl K)) : Fl K :=
  let m2 := Np.mean (l.map fun x => (x - Np.mean l).sq)
  let m4 := Np.mean (l.map fun x => (x - Np.mean l).sq.sq)
  m4 / m2.sq

/-- Pearson correlation of two lists of the same length (NaN when one of them is constant) -/
def corr [MathFn K] (x y : List (Fl K)) : Fl K :=
  let xm := x.map fun a => a - Np.mean x
  let ym := y.map fun a => a - Np.mean y
  let nx := (Np.sum (xm.map (·.sq))).sqrt
  let ny := (Np.sum (ym.map (·.sq))).sqrt
  Np.sum (List.zipWith (fun a b => a / nx * (b / ny)) xm ym)

/-- `stats.pearsonr(x, y)[0]` -/
def pearsonr [MathFn K] (x y : List (Fl K)) : Py (Fl K) :=
  if x.length ≠ y.length then .error .value
  else if x.length < 2 then .error .value
  else .ok (corr x y)

/-- average rank of `a` in `l` (`scipy.stats.rankdata`): number of smaller entries plus the mean position
within the ties -/
def rank (l : List (Fl K)) (a : Fl K) : Fl K :=
  .fin (((l.countP fun b => b.lt a : Nat) : K)
    + (((l.countP fun b => b.le a && a.le b) + 1 : Nat) : K) / ((2 : Nat) : K))

/-- `stats.spearmanr(x, y)[0]` for inputs without NaN -/
def spearmanr [MathFn K] (x y : List (Fl K)) : Py (Fl K) :=
  if x.length ≠ y.length then .error .value
  else if x.length < 2 then .ok .nan
  else .ok (corr (x.map (rank x)) (y.map (rank y)))

end Sureal.Stats
