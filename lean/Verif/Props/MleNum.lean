import Verif.Lemmas.MleNum
/-!
# C84: `gradient_method='numerical'`
-/
set_option linter.unusedSectionVars false
namespace Sureal.Props
open Sureal Spec
variable {E S R C : ℕ}

/-- **C84.** Votes `X` (present where `P`), and parameters that are numbers, with positive variance, wherever a vote needs them.
With `gradient_method='numerical'` and the Gaussian density every update is a damped Newton step whose derivatives are
replaced by the central difference quotients with step 0.001 of the log-likelihood of the votes in the parameter, the others
held fixed; the reported standard deviation is `1/sqrt` of minus the second quotient.  For the biases and the qualities the
quotients are the derivatives, so that the update is exactly the one of the other gradient methods (`C35_newton_steps`). -/
theorem C84_numerical (pdf : Option String) (hpdf : pdf = none ∨ pdf = some "gaussian")
    (u : Mle.Updates ℝ E S R C) (hu : Mle.updates .numerical pdf = .ok u)
    (d : Mle.Data ℝ E S R C) (P : Fin E → Fin S → Fin R → Bool) (X : Fin E → Fin S → Fin R → ℝ)
    (hX : ∀ e s r, d.x e s r = mask (P e s r) (X e s r))
    (p : Mle.Params ℝ E S C) (ξ : Fin E → ℝ) (β ν : Fin S → ℝ) (α : Fin C → ℝ)
    (hreg : ∀ e s r, P e s r = true → p.x e = .fin (ξ e) ∧ p.b s = .fin (β s) ∧ p.v s = .fin (ν s) ∧
      p.a (d.cid e) = .fin (α (d.cid e)) ∧ 0 < ν s ^ 2 + α (d.cid e) ^ 2) :
    (∀ s, (∃ e r, P e s r = true) → ∃ f d1 d2, f = (fun t => logLik P X d.cid ξ (setEntry β s t) ν α) ∧
      d1 = quot1 (1 / 1000) f (β s) ∧ d2 = quot2 (1 / 1000) f (β s) ∧ Derivs f (β s) d1 d2 ∧
      (u.b d p).1 s = newtonStep (β s) d1 d2 ∧ (u.b d p).2 s = fisherStd d2) ∧
    (∀ s, (∃ e r, P e s r = true) → (∀ e r, P e s r = true → 1 / 1000 < ν s ∨ α (d.cid e) ≠ 0) →
      ∃ f d1 d2, f = (fun t => logLik P X d.cid ξ β (setEntry ν s t) α) ∧
      d1 = quot1 (1 / 1000) f (ν s) ∧ d2 = quot2 (1 / 1000) f (ν s) ∧
      (u.v d p).1 s = newtonStep (ν s) d1 d2 ∧ (u.v d p).2 s = fisherStd d2) ∧
    (∀ c, (∃ e s r, d.cid e = c ∧ P e s r = true) → (∀ e s r, d.cid e = c → P e s r = true → 1 / 1000 < α c ∨ ν s ≠ 0) →
      ∃ f d1 d2, f = (fun t => logLik P X d.cid ξ β ν (setEntry α c t)) ∧
      d1 = quot1 (1 / 1000) f (α c) ∧ d2 = quot2 (1 / 1000) f (α c) ∧
      (u.a d p).1 c = newtonStep (α c) d1 d2 ∧ (u.a d p).2 c = fisherStd d2) ∧
    (∀ e, (∃ s r, P e s r = true) → ∃ f d1 d2, f = (fun t => logLik P X d.cid (setEntry ξ e t) β ν α) ∧
      d1 = quot1 (1 / 1000) f (ξ e) ∧ d2 = quot2 (1 / 1000) f (ξ e) ∧ Derivs f (ξ e) d1 d2 ∧
      (u.x d p).1 e = newtonStep (ξ e) d1 d2 ∧ (u.x d p).2 e = fisherStd d2) := by
  obtain ⟨x, cid⟩ := d
  have hx : x = Ap.maskX P X := by funext e s r; exact hX e s r
  subst hx
  have reg : Mle.Regular P cid p ξ β ν α :=
    ⟨fun e s r h => (hreg e s r h).1, fun e s r h => (hreg e s r h).2.1, fun e s r h => (hreg e s r h).2.2.1,
      fun e s r h => (hreg e s r h).2.2.2.1, fun e s r h => (hreg e s r h).2.2.2.2⟩
  unfold Mle.updates at hu
  rw [Mle.density_gauss hpdf] at hu
  cases hu
  exact ⟨fun s hs => ⟨_, _, _, rfl, rfl, rfl, Mle.quot_b reg.pos s (by norm_num), Mle.bNumerical_newton reg s hs⟩,
    fun s hs hv => ⟨_, _, _, rfl, rfl, rfl, Mle.vNumerical_newton reg s hs hv⟩,
    fun c hc hv => ⟨_, _, _, rfl, rfl, rfl, Mle.aNumerical_newton reg c hc hv⟩,
    fun e he => ⟨_, _, _, rfl, rfl, rfl, Mle.quot_x reg.pos e (by norm_num), Mle.xNumerical_newton reg e he⟩⟩

/-- two videos, two observers, all votes 3, all parameters 1: the new bias of observer 0 is the exact Newton step `1 + 1/10` -/
example : (Mle.bNumerical Mle.gaussCell (⟨fun _ _ _ => .fin 3, fun _ => 0⟩ : Mle.Data ℝ 2 2 1 1)
      ⟨fun _ => .fin 1, fun _ => .fin 1, fun _ => .fin 1, fun _ => .fin 1⟩).1 0 = .fin (11 / 10) := by
  obtain ⟨f, d1, d2, hf, h1, h2, hD, hv, _⟩ := (C84_numerical none (Or.inl rfl) _ rfl
    (⟨fun _ _ _ => .fin 3, fun _ => 0⟩ : Mle.Data ℝ 2 2 1 1) (fun _ _ _ => true) (fun _ _ _ => 3) (fun _ _ _ => rfl)
    ⟨fun _ => .fin 1, fun _ => .fin 1, fun _ => .fin 1, fun _ => .fin 1⟩ (fun _ => 1) (fun _ => 1) (fun _ => 1) (fun _ => 1)
    (fun _ _ _ _ => ⟨rfl, rfl, rfl, rfl, by norm_num⟩)).1 0 ⟨0, 0, rfl⟩
  have hD' := Mle.derivs_b (P := fun (_ : Fin 2) (_ : Fin 2) (_ : Fin 1) => true) (X := fun _ _ _ => 3) (cid := fun _ => (0 : Fin 1))
    (ξ := fun _ => 1) (β := fun _ => 1) (ν := fun _ => 1) (α := fun _ => 1) (fun _ _ _ _ => by norm_num) 0
  rw [← hf] at hD'
  obtain ⟨g, hg1, hg2, hg3⟩ := hD
  obtain ⟨g', hg1', hg2', hg3'⟩ := hD'
  have e1 : d1 = 1 := by
    rw [← hg2, hg1.self_of_nhds.unique hg1'.self_of_nhds, hg2']
    norm_num
  have e2 : d2 = -1 := by
    have : g =ᶠ[nhds 1] g' := by
      filter_upwards [hg1, hg1'] with t h h'
      exact h.unique h'
    rw [hg3.unique (hg3'.congr_of_eventuallyEq this)]
    norm_num
  have hv' : (Mle.bNumerical Mle.gaussCell (⟨fun _ _ _ => .fin 3, fun _ => 0⟩ : Mle.Data ℝ 2 2 1 1)
      ⟨fun _ => .fin 1, fun _ => .fin 1, fun _ => .fin 1, fun _ => .fin 1⟩).1 0 = newtonStep 1 d1 d2 := hv
  rw [hv', e1, e2, Mle.newtonStep_of_ne (by norm_num)]
  norm_num

/-- the hypotheses of the part on inconsistencies and ambiguities -/
example : ∃ d1 d2, (Mle.vNumerical Mle.gaussCell (⟨fun _ _ _ => .fin 3, fun _ => 0⟩ : Mle.Data ℝ 2 2 1 1)
      ⟨fun _ => .fin 1, fun _ => .fin 1, fun _ => .fin 1, fun _ => .fin 1⟩).1 0 = newtonStep 1 d1 d2 := by
  obtain ⟨f, d1, d2, hf, h1, h2, hv, _⟩ := (C84_numerical none (Or.inl rfl) _ rfl
    (⟨fun _ _ _ => .fin 3, fun _ => 0⟩ : Mle.Data ℝ 2 2 1 1) (fun _ _ _ => true) (fun _ _ _ => 3) (fun _ _ _ => rfl)
    ⟨fun _ => .fin 1, fun _ => .fin 1, fun _ => .fin 1, fun _ => .fin 1⟩ (fun _ => 1) (fun _ => 1) (fun _ => 1) (fun _ => 1)
    (fun _ _ _ _ => ⟨rfl, rfl, rfl, rfl, by norm_num⟩)).2.1 0 ⟨0, 0, rfl⟩ (fun _ _ _ => Or.inl (by norm_num))
  exact ⟨d1, d2, hv⟩

end Sureal.Props
