import Verif.Spec.Stats
import Verif.Model.Np
import Mathlib.Algebra.BigOperators.Group.Finset.Basic
import Mathlib.Data.Fintype.Prod
/-!
# Specification vocabulary: averages over finite sets of votes, and the textbook alternating projection
-/
namespace Sureal.Spec

/-- a vote that may be missing -/
def mask {K : Type} (present : Bool) (v : K) : Fl K := if present then .fin v else .nan

variable {J I R : ℕ}

/-- the (observer, repetition) pairs who voted on video `j` -/
def votesOnVideo (P : Fin J → Fin I → Fin R → Bool) (j : Fin J) : Finset (Fin I × Fin R) :=
  Finset.univ.filter fun c => P j c.1 c.2 = true

/-- the (video, repetition) pairs observer `i` voted on -/
def votesOfObserver (P : Fin J → Fin I → Fin R → Bool) (i : Fin I) : Finset (Fin J × Fin R) :=
  Finset.univ.filter fun c => P c.1 i c.2 = true

variable {ι : Type}

/-- arithmetic mean over a finite set -/
noncomputable def avg (A : Finset ι) (f : ι → ℝ) : ℝ := (∑ c ∈ A, f c) / A.card

/-- population standard deviation over a finite set -/
noncomputable def spread (A : Finset ι) (f : ι → ℝ) : ℝ := Real.sqrt (avg A fun c => (f c - avg A f) ^ 2)

/-- weighted mean over a finite set -/
noncomputable def wavg (A : Finset ι) (w f : ι → ℝ) : ℝ := (∑ c ∈ A, f c * w c) / ∑ c ∈ A, w c

/-- The estimates of ITU-T P.910 Annex E with missing votes: starting from quality scores `S` and biases `B`,
the residual spread of every observer, the weighted quality scores, and the biases against them. -/
noncomputable def apSpread (P : Fin J → Fin I → Fin R → Bool) (X : Fin J → Fin I → Fin R → ℝ) (S : Fin J → ℝ)
    (B : Fin I → ℝ) (i : Fin I) : ℝ :=
  spread (votesOfObserver P i) fun c => X c.1 i c.2 - S c.1 - B i

/-- the residual spread of every video -/
noncomputable def apSpreadJ (P : Fin J → Fin I → Fin R → Bool) (X : Fin J → Fin I → Fin R → ℝ) (S : Fin J → ℝ)
    (B : Fin I → ℝ) (j : Fin J) : ℝ :=
  spread (votesOnVideo P j) fun c => X j c.1 c.2 - S j - B c.1

/-- inverse-variance weight -/
noncomputable def apWeight (v : ℝ) : ℝ := 1 / (v ^ 2 + 1 / 100000000)

/-- new quality scores -/
noncomputable def apQuality (P : Fin J → Fin I → Fin R → Bool) (X : Fin J → Fin I → Fin R → ℝ) (B V : Fin I → ℝ)
    (j : Fin J) : ℝ :=
  wavg (votesOnVideo P j) (fun c => apWeight (V c.1)) fun c => X j c.1 c.2 - B c.1

/-- new biases -/
noncomputable def apBias (P : Fin J → Fin I → Fin R → Bool) (X : Fin J → Fin I → Fin R → ℝ) (S : Fin J → ℝ)
    (i : Fin I) : ℝ :=
  avg (votesOfObserver P i) fun c => X c.1 i c.2 - S c.1

end Sureal.Spec
