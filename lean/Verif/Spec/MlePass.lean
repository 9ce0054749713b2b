import Verif.Spec.Likelihood
import Verif.Spec.Ap
/-!
# Specification: one round of Newton steps on the likelihood, one group of parameters after the other
-/
namespace Sureal.Spec
variable {E S R C : ℕ}

/-- the (video, observer, repetition) triples of the votes on content `c` -/
def votesOnContent (P : Fin E → Fin S → Fin R → Bool) (cid : Fin E → Fin C) (c : Fin C) : Finset (Fin E × Fin S × Fin R) :=
  Finset.univ.filter fun q => cid q.1 = c ∧ P q.1 q.2.1 q.2.2 = true

/-- values of the four groups of parameters as floats, or of their standard deviations: qualities, biases, inconsistencies,
ambiguities -/
structure Four (E S C : ℕ) where
  x : Fin E → Fl ℝ
  b : Fin S → Fl ℝ
  v : Fin S → Fl ℝ
  a : Fin C → Fl ℝ

/-- at the parameters `q` every vote has the mean `ξ e + β s` and the positive variance `ν s ^ 2 + α (cid e) ^ 2` -/
def At (P : Fin E → Fin S → Fin R → Bool) (cid : Fin E → Fin C) (q : Four E S C) (ξ : Fin E → ℝ) (β ν : Fin S → ℝ)
    (α : Fin C → ℝ) : Prop :=
  ∀ e s r, P e s r = true → q.x e = .fin (ξ e) ∧ q.b s = .fin (β s) ∧ q.v s = .fin (ν s) ∧
    q.a (cid e) = .fin (α (cid e)) ∧ 0 < ν s ^ 2 + α (cid e) ^ 2

/-- `new` is a damped Newton step from `θ` for maximising `f`, and `std` the standard deviation its curvature gives -/
def NewtonTo (f : ℝ → ℝ) (θ : ℝ) (new std : Fl ℝ) : Prop :=
  ∃ d1 d2, Derivs f θ d1 d2 ∧ new = newtonStep θ d1 d2 ∧ std = fisherStd d2

/-- negative numbers are replaced by 0 -/
noncomputable def clip0 : Fl ℝ → Fl ℝ
  | .nan => .nan
  | .pinf => .pinf
  | .ninf => .fin 0
  | .fin x => .fin (max x 0)

/-- One round: from the parameters `q` to `q'`, with standard deviations `sd`.  The biases move first, then the
inconsistencies (with the new biases), then the ambiguities (with the new biases and inconsistencies), and last the
qualities (with everything else new).  `fixS`: biases and inconsistencies are held at 0; `fixC`: so are the ambiguities. -/
structure Round (fixS fixC : Prop) (P : Fin E → Fin S → Fin R → Bool) (X : Fin E → Fin S → Fin R → ℝ)
    (cid : Fin E → Fin C) (q q' sd : Four E S C) : Prop where
  biases : ¬ fixS → ∀ ξ β ν α, At P cid q ξ β ν α → ∀ s, (∃ e r, P e s r = true) →
    NewtonTo (fun t => logLik P X cid ξ (setEntry β s t) ν α) (β s) (q'.b s) (sd.b s)
  inconsistencies : ¬ fixS → ∀ ξ β ν α, At P cid ⟨q.x, q'.b, q.v, q.a⟩ ξ β ν α → ∀ s, (∃ e r, P e s r = true) →
    ∃ v, NewtonTo (fun t => logLik P X cid ξ β (setEntry ν s t) α) (ν s) v (sd.v s) ∧ q'.v s = clip0 v
  ambiguities : ¬ fixC → ∀ ξ β ν α, At P cid ⟨q.x, q'.b, q'.v, q.a⟩ ξ β ν α → ∀ c, (∃ e s r, cid e = c ∧ P e s r = true) →
    ∃ a, NewtonTo (fun t => logLik P X cid ξ β ν (setEntry α c t)) (α c) a (sd.a c) ∧ q'.a c = clip0 a
  qualities : ∀ ξ β ν α, At P cid ⟨q.x, q'.b, q'.v, q'.a⟩ ξ β ν α → ∀ e, (∃ s r, P e s r = true) →
    NewtonTo (fun t => logLik P X cid (setEntry ξ e t) β ν α) (ξ e) (q'.x e) (sd.x e)
  noBiases : fixS → ∀ s, q'.b s = .fin 0 ∧ q'.v s = .fin 0 ∧ sd.b s = .fin 0 ∧ sd.v s = .fin 0
  noAmbiguities : fixC → ∀ c, q'.a c = .fin 0 ∧ sd.a c = .fin 0

/-- The starting point: the given qualities `m`, no biases, and as inconsistencies and ambiguities the population standard
deviations of the differences between the votes and `m`. -/
structure Start (fixS fixC : Prop) (P : Fin E → Fin S → Fin R → Bool) (X : Fin E → Fin S → Fin R → ℝ)
    (cid : Fin E → Fin C) (m : Fin E → ℝ) (q : Four E S C) : Prop where
  qualities : ∀ e, q.x e = .fin (m e)
  biases : ∀ s, q.b s = .fin 0
  inconsistencies : ¬ fixS → ∀ s, (∃ e r, P e s r = true) →
    q.v s = .fin (spread (votesOfObserver P s) fun c => X c.1 s c.2 - m c.1)
  ambiguities : ¬ fixC → ∀ c, (∃ e s r, cid e = c ∧ P e s r = true) →
    q.a c = .fin (spread (votesOnContent P cid c) fun t => X t.1 t.2.1 t.2.2 - m t.1)
  noInconsistencies : fixS → ∀ s, q.v s = .fin 0
  noAmbiguities : fixC → ∀ c, q.a c = .fin 0

/-- the distance between the qualities -/
noncomputable def qdist (ξ ξ' : Fin E → ℝ) : ℝ := Real.sqrt (∑ e, (ξ e - ξ' e) ^ 2)

end Sureal.Spec
