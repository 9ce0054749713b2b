import Verif.Model.Mos
/-!
# The least squares model (subjective_model.py:484-533)

`scipy.linalg.pinv` is not modelled: it is a parameter of the model (`Pinv`), and the theorems say which property
of it they use (the Moore-Penrose equations).
-/
namespace Sureal
variable {κ K : Type} [Zero K] [One K] [Add K] [Neg K] [Sub K] [Mul K] [Div K] [NatCast K]
  [LT K] [LE K] [DecidableLT K] [DecidableLE K] [MathFn K]

/-- `linalg.pinv`: from an `n × m` matrix an `m × n` matrix -/
abbrev Pinv (K : Type) := {n m : Nat} → Arr2 K n m → Arr2 K m n

namespace Ls

/-- `A[i][j] = v` -/
def setAt {n m : Nat} (A : Arr2 K n m) (i j : Nat) (v : K) : Arr2 K n m :=
  fun i' j' => if i'.val = i ∧ j'.val = j then v else A i' j'

/-- the indicator matrix before the extra row, subjective_model.py:507-511 -/
def indicator (E S : Nat) : Arr2 K (E * S) (S + E) :=
  (List.range E).foldl (fun A v =>
    (List.range S).foldl (fun A s =>
      setAt (setAt A (v * S + s) s 1) (v * S + s) (S + v) 1) A) (fun _ _ => 0)

/-- `np.vstack([A, row])` with `row = zeros; row[S + 0] = 1`, subjective_model.py:516-519 -/
def design (E S : Nat) : Arr2 K (E * S + 1) (S + E) :=
  fun i j => if h : i.val < E * S then indicator E S ⟨i.val, h⟩ j
    else setAt (n := 1) (fun _ _ => 0) 0 (S + 0) 1 0 j

/-- `np.array(score_mtx.ravel())` followed by `np.hstack([y, [score]])`, subjective_model.py:515, 523 -/
def target {E S : Nat} (x : Arr2 (Fl K) E S) (m0 : Fl K) : Arr1 (Fl K) (E * S + 1) :=
  fun i => if h : i.val < E * S then
      x ⟨i.val / S, Nat.div_lt_of_lt_mul (Nat.mul_comm E S ▸ h)⟩ ⟨i.val % S, Nat.mod_lt _ (by
        rcases Nat.eq_zero_or_pos S with hS | hS
        · subst hS; simp at h
        · exact hS)⟩
    else m0

/-- `np.dot(P, y)`, subjective_model.py:522 -/
def dot {n m : Nat} (P : Arr2 K n m) (y : Arr1 (Fl K) m) : Arr1 (Fl K) n :=
  fun c => Np.sum (List.ofFn fun i => .fin (P c i) * y i)

/-- the solution vector `b_q`, subjective_model.py:502-522.  `mos[0]` raises KeyError if there is no video (pandas
label lookup); `pd.DataFrame.mean` skips NaN. -/
def solve (pinv : Pinv K) {E S : Nat} (x : Arr2 (Fl K) E S) : Py (Arr1 (Fl K) (S + E)) :=
  if h : 0 < E then
    .ok (dot (pinv (design E S)) (target x (Np.nanmean (rowL x ⟨0, h⟩))))
  else .error .key

/-- `LeastSquaresModel._run_modeling`, subjective_model.py:492-533 -/
def runModelingWith (pinv : Pinv K) (rd : Reader κ K) (o : Opts K) : Py (Result κ K) :=
  if o.subjectRejection.isTrue then .error .assertion
  else
    match preprocess rd o with
    | .error e => .error e
    | .ok p =>
      if h : p.arr.R = 1 then
        match solve pinv (fun e s => p.arr.get e s ⟨0, by rw [h]; exact Nat.one_pos⟩) with
        | .error e => .error e
        | .ok bq =>
          .ok { qualityScores := List.ofFn fun e : Fin p.arr.E => bq (Fin.natAdd p.arr.S e)
                observerBias := some (List.ofFn fun s : Fin p.arr.S => bq (Fin.castAdd p.arr.E s)) }
      else .error .assertion

end Ls

/-- `LeastSquaresModel(reader).run_modeling(**o)` -/
def runLS (pinv : Pinv K) (rd : Reader κ K) (o : Opts K) : Py (Result κ K) :=
  runModeling (Ls.runModelingWith pinv) rd o

end Sureal
