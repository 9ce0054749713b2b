import Verif.Model.Fl
import Mathlib.Analysis.Calculus.Deriv.Basic
import Mathlib.Algebra.BigOperators.Group.Finset.Basic
/-!
# Specification: the Gaussian log-likelihood of the votes, and a damped Newton step

Observer `s` votes on video `e` (content `cid e`) with mean `ξ e + β s` and variance `ν s ^ 2 + α (cid e) ^ 2`.
-/
namespace Sureal.Spec

/-- density of a normal distribution with mean `μ` and variance `w` -/
noncomputable def normalDensity (μ w x : ℝ) : ℝ :=
  1 / Real.sqrt (2 * Real.pi * w) * Real.exp (-(x - μ) ^ 2 / (2 * w))

variable {E S R C : ℕ}

/-- log-likelihood of the votes `X e s r` that are present -/
noncomputable def logLik (P : Fin E → Fin S → Fin R → Bool) (X : Fin E → Fin S → Fin R → ℝ) (cid : Fin E → Fin C)
    (ξ : Fin E → ℝ) (β ν : Fin S → ℝ) (α : Fin C → ℝ) : ℝ :=
  ∑ e, ∑ s, ∑ r, if P e s r = true then Real.log (normalDensity (ξ e + β s) (ν s ^ 2 + α (cid e) ^ 2) (X e s r)) else 0

/-- numpy's value of `0.9 * θ + 0.1 * (θ - d1 / d2)` -/
noncomputable def newtonStep (θ d1 d2 : ℝ) : Fl ℝ :=
  Fl.fin θ * Fl.fin (9 / 10) + (Fl.fin θ - Fl.fin d1 / Fl.fin d2) * Fl.fin (1 / 10)

/-- numpy's value of `1 / sqrt (max 0 (-d2))` -/
noncomputable def fisherStd (d2 : ℝ) : Fl ℝ := if 0 < -d2 then .fin (1 / Real.sqrt (-d2)) else .pinf

/-- `θ` with its entry `i` replaced -/
def setEntry {ι : Type} [DecidableEq ι] (θ : ι → ℝ) (i : ι) (t : ℝ) : ι → ℝ := fun j => if j = i then t else θ j

/-- `d1` and `d2` are the first two derivatives of `f` at `θ` -/
def Derivs (f : ℝ → ℝ) (θ d1 d2 : ℝ) : Prop :=
  ∃ f' : ℝ → ℝ, (∀ᶠ t in nhds θ, HasDerivAt f (f' t) t) ∧ f' θ = d1 ∧ HasDerivAt f' d2 θ

/-- central difference quotient of first order with step `ε` -/
noncomputable def quot1 (ε : ℝ) (f : ℝ → ℝ) (θ : ℝ) : ℝ := (f (θ + ε / 2) - f (θ - ε / 2)) / ε

/-- central difference quotient of second order with step `ε` -/
noncomputable def quot2 (ε : ℝ) (f : ℝ → ℝ) (θ : ℝ) : ℝ := (f (θ + ε) - 2 * f θ + f (θ - ε)) / ε ^ 2

end Sureal.Spec
