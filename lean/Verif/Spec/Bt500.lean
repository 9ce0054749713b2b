import Verif.Spec.Stats
import Verif.Spec.Arrays
import Mathlib.Data.Fintype.Prod
import Mathlib.Data.Fintype.Card
/-!
# Specification: the observer screening rule of ITU-R BT.500 (kurtosis rule)

Stated on an array of votes (`a e s r` = vote number `r` of observer `s` on video `e`).
-/
namespace Sureal.Spec
variable {E S R : ℕ}
open Classical

/-- the votes cast on a video -/
def votesOn (a : Arr3 (Fl ℝ) E S R) (e : Fin E) : List ℝ := present (videoCells a e)

/-- how many standard deviations make an outlier: 2 for a kurtosis in [2, 4], `√20` otherwise -/
noncomputable def outlierFactor (v : List ℝ) : ℝ :=
  if 2 ≤ moment4 v / popVar v ^ 2 ∧ moment4 v / popVar v ^ 2 ≤ 4 then 2 else Real.sqrt 20

/-- a vote at or above the upper threshold of its video -/
def IsHigh (a : Arr3 (Fl ℝ) E S R) (e : Fin E) (s : Fin S) (r : Fin R) : Prop :=
  ∃ x, a e s r = .fin x ∧
    mean (votesOn a e) + outlierFactor (votesOn a e) * Real.sqrt (popVar (votesOn a e)) ≤ x

/-- a vote at or below the lower threshold of its video -/
def IsLow (a : Arr3 (Fl ℝ) E S R) (e : Fin E) (s : Fin S) (r : Fin R) : Prop :=
  ∃ x, a e s r = .fin x ∧
    x ≤ mean (votesOn a e) - outlierFactor (votesOn a e) * Real.sqrt (popVar (votesOn a e))

/-- `P`: number of high votes of an observer -/
noncomputable def numHigh (a : Arr3 (Fl ℝ) E S R) (s : Fin S) : ℕ :=
  (Finset.univ.filter fun p : Fin E × Fin R => IsHigh a p.1 s p.2).card

/-- `Q`: number of low votes of an observer -/
noncomputable def numLow (a : Arr3 (Fl ℝ) E S R) (s : Fin S) : ℕ :=
  (Finset.univ.filter fun p : Fin E × Fin R => IsLow a p.1 s p.2).card

/-- the screening criterion for one observer: more than 5 % outliers, on both sides -/
def Screened (a : Arr3 (Fl ℝ) E S R) (s : Fin S) : Prop :=
  5 / 100 < ((numHigh a s : ℝ) + numLow a s) / ((E : ℝ) * R) ∧
  |((numHigh a s : ℝ) - numLow a s) / (numHigh a s + numLow a s)| < 3 / 10

/-- who is rejected: the screened observers, unless that is everybody -/
def Rejects (a : Arr3 (Fl ℝ) E S R) (s : Fin S) : Prop := Screened a s ∧ ¬ ∀ s', Screened a s'

end Sureal.Spec
