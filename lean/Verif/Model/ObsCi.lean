import Verif.Model.Ap
/-!
# The intervals reported for the observers (`sureal/subjective_model.py` lines 1106-1123 and 1554-1564)

`chi2.ppf` is a parameter.
-/
namespace Sureal.ObsCi
variable {K : Type} [Zero K] [One K] [Add K] [Neg K] [Sub K] [Mul K] [Div K] [NatCast K]
  [LT K] [LE K] [DecidableLT K] [DecidableLE K] [MathFn K]

/-- one entry of `observer_bias_ci95`: `1.95996 * std` on both sides, subjective_model.py:1113-1114 and 1555-1556 -/
def biasCi (std : Fl K) : Fl K × Fl K := (ci95Factor * std, ci95Factor * std)

/-- one entry of `observer_inconsistency_ci95` for `cnt` votes and the inconsistency `v`, subjective_model.py:1118-1121 and
1559-1562 -/
def inconsistencyCi (ppf : Fl K → Nat → Fl K) (cnt : Nat) (v : Fl K) : Fl K × Fl K :=
  ((1 - (((cnt : Nat) : Fl K) / ppf (1 - Fl.dec 25 1000) cnt).sqrt) * v,
    ((((cnt : Nat) : Fl K) / ppf (Fl.dec 25 1000) cnt).sqrt - 1) * v)

/-- `cnt_i`: the number of votes of an observer, subjective_model.py:1110 and 1470 -/
def cnt {J I R : Nat} (x : Arr3 (Fl K) J I R) (i : Fin I) : Nat := Np.countNotNan (colL (stack0 x) i)

/-- `observer_inconsistency_ci95` -/
def inconsistencyCi95 {J I R : Nat} (ppf : Fl K → Nat → Fl K) (x : Arr3 (Fl K) J I R) (v : Arr1 (Fl K) I) :
    List (Fl K) × List (Fl K) :=
  (List.ofFn fun i => (inconsistencyCi ppf (cnt x i) (v i)).1, List.ofFn fun i => (inconsistencyCi ppf (cnt x i) (v i)).2)

end Sureal.ObsCi
