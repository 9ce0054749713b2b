import Verif.Spec.Arrays
import Verif.Spec.Stats
import Verif.Model.Mos
import Mathlib.Data.Real.Basic
/-! What it means that the votes on a video are given numbers, and that a reported interval covers a number. -/
namespace Sureal.Spec
open Sureal
variable {κ : Type}

/-- the votes on video `e` are the numbers of `l`, in any order and with any votes missing -/
def VotesOn (rd : Reader κ ℝ) (e : ℕ) (l : List ℝ) : Prop :=
  ∃ (a : Arr3D (Fl ℝ)) (h : e < a.E), rd.scores = .ok a ∧ (∀ e s r, NumOrNan (a.get e s r)) ∧
    (present (videoCells a.get ⟨e, h⟩)).Perm l

/-- the interval reported for the score of video `e` contains `x` -/
def Covers (res : Result κ ℝ) (e : ℕ) (x : ℝ) : Prop :=
  ∃ (q lo up : ℝ) (L U : List (Fl ℝ)), res.qualityScores[e]? = some (.fin q) ∧ res.qualityScoresCi95 = some (L, U) ∧
    L[e]? = some (.fin lo) ∧ U[e]? = some (.fin up) ∧ q - lo ≤ x ∧ x ≤ q + up

/-- the first `n` numbers of a sequence -/
def firstN (x : ℕ → ℝ) (n : ℕ) : List ℝ := List.ofFn fun k : Fin n => x k

end Sureal.Spec
