import Verif.Props.MleGrad
/-! Difference quotients of the log-likelihood, for `gradient_method='numerical'`. -/
set_option linter.unusedSectionVars false
namespace Sureal.Mle
open Sureal Spec Props
variable {E S R C : ℕ}

/-- the Gaussian density of one cell -/
noncomputable def gaussCell : Fl ℝ → Fl ℝ → Fl ℝ → Fl ℝ → Fl ℝ → Fl ℝ := fun o x b v a => gaussian o (x + b) (vadd v a).sqrt

theorem density_gauss {pdf : Option String} (h : pdf = none ∨ pdf = some "gaussian") : density (K := ℝ) pdf R = .ok gaussCell := by
  rcases h with rfl | rfl <;> rfl

variable {P : Fin E → Fin S → Fin R → Bool} {X : Fin E → Fin S → Fin R → ℝ} {cid : Fin E → Fin C}

/-- log-density of one vote -/
noncomputable def ld (μ w x : ℝ) : ℝ := Real.log (normalDensity μ w x)

theorem logCell (p : Params ℝ E S C) (e : Fin E) (s : Fin S) (r : Fin R) {x b v a : ℝ}
    (h : P e s r = true → p.x e = .fin x ∧ p.b s = .fin b ∧ p.v s = .fin v ∧ p.a (cid e) = .fin a ∧ 0 < v ^ 2 + a ^ 2) :
    logCells gaussCell (⟨Ap.maskX P X, cid⟩ : Data ℝ E S R C) p e s r = mask (P e s r) (ld (x + b) (v ^ 2 + a ^ 2) (X e s r)) := by
  unfold logCells Ap.maskX gaussCell
  dsimp only
  cases hP : P e s r
  · have : gaussian (mask false (X e s r)) (p.x e + p.b s) (vadd (p.v s) (p.a (cid e))).sqrt = .nan := by
      unfold gaussian
      simp [Fl.sq, Fl.exp]
    rw [this]; rfl
  · obtain ⟨h1, h2, h3, h4, h5⟩ := h hP
    rw [h1, h2, h3, h4, mask_true, mask_true, Fl.fin_add]
    exact log_gaussian _ _ _ _ h5

theorem eps_fin : (eps : Fl ℝ) = .fin (1 / 1000) := by
  unfold eps Fl.dec
  norm_num

theorem half_eps : (eps : Fl ℝ) / ((2 : Nat) : Fl ℝ) = .fin (1 / 1000 / 2) := by
  rw [eps_fin, Fl.natCast_def, Fl.fin_div (by norm_num)]
  norm_num

/-- the difference quotients of likelihoods that are numbers -/
theorem diff1_fin {n : ℕ} {ll : Fl ℝ → Arr1 (Fl ℝ) n} {i : Fin n} {g : ℝ → ℝ} {θ : ℝ}
    (h1 : ll (.fin (1 / 1000 / 2)) i = .fin (g (θ + 1 / 1000 / 2))) (h2 : ll (.fin (-(1 / 1000 / 2))) i = .fin (g (θ - 1 / 1000 / 2))) :
    diff1 ll i = .fin (quot1 (1 / 1000) g θ) := by
  unfold diff1
  rw [half_eps, Fl.fin_neg, h1, h2, eps_fin, Fl.fin_sub, Fl.fin_div (by norm_num)]
  rfl

theorem diff2_fin {n : ℕ} {ll : Fl ℝ → Arr1 (Fl ℝ) n} {i : Fin n} {g : ℝ → ℝ} {θ : ℝ}
    (h1 : ll (.fin (1 / 1000)) i = .fin (g (θ + 1 / 1000))) (h2 : ll (.fin (-(1 / 1000))) i = .fin (g (θ - 1 / 1000)))
    (h0 : ll (.fin 0) i = .fin (g θ)) :
    diff2 ll i = .fin (quot2 (1 / 1000) g θ) := by
  unfold diff2
  rw [eps_fin, Fl.fin_neg, h1, h2, Fl.zero_def, h0, Fl.natCast_def, Fl.fin_mul, Fl.fin_sub, Fl.fin_add, Fl.sq_fin,
    Fl.fin_div (by norm_num)]
  unfold quot2
  rw [pow_two]
  norm_num

/-- constants do not matter -/
theorem quot1_add {ε : ℝ} {f g : ℝ → ℝ} {c θ : ℝ} (h : ∀ t, f t = g t + c) : quot1 ε f θ = quot1 ε g θ := by
  unfold quot1; rw [h, h]; congr 1; ring
theorem quot2_add {ε : ℝ} {f g : ℝ → ℝ} {c θ : ℝ} (h : ∀ t, f t = g t + c) : quot2 ε f θ = quot2 ε g θ := by
  unfold quot2; rw [h, h, h]; congr 1; ring

variable {ξ : Fin E → ℝ} {β ν : Fin S → ℝ} {α : Fin C → ℝ}

/-- the part of the log-likelihood that depends on one bias -/
theorem logLik_b (s : Fin S) : ∃ c, ∀ t, logLik P X cid ξ (setEntry β s t) ν α =
    (∑ e, ∑ r, if P e s r = true then ld (ξ e + t) (ν s ^ 2 + α (cid e) ^ 2) (X e s r) else 0) + c := by
  refine ⟨∑ e, ∑ s', if s' = s then 0 else ∑ r, if P e s' r = true then ld (ξ e + β s') (ν s' ^ 2 + α (cid e) ^ 2) (X e s' r) else 0, ?_⟩
  intro t
  unfold logLik
  rw [← Finset.sum_add_distrib]
  refine Finset.sum_congr rfl fun e _ => ?_
  have : ∀ s', (∑ r, if P e s' r = true then Real.log (normalDensity (ξ e + setEntry β s t s') (ν s' ^ 2 + α (cid e) ^ 2) (X e s' r)) else 0) =
      (if s' = s then ∑ r, if P e s r = true then ld (ξ e + t) (ν s ^ 2 + α (cid e) ^ 2) (X e s r) else 0 else 0) +
      if s' = s then 0 else ∑ r, if P e s' r = true then ld (ξ e + β s') (ν s' ^ 2 + α (cid e) ^ 2) (X e s' r) else 0 := by
    intro s'
    by_cases h : s' = s
    · subst h; simp [setEntry, ld]
    · simp [setEntry, h, ld]
  simp only [this, Finset.sum_add_distrib, Finset.sum_ite_eq', Finset.mem_univ, if_true]

/-- the part of the log-likelihood that depends on one inconsistency -/
theorem logLik_v (s : Fin S) : ∃ c, ∀ t, logLik P X cid ξ β (setEntry ν s t) α =
    (∑ e, ∑ r, if P e s r = true then ld (ξ e + β s) (t ^ 2 + α (cid e) ^ 2) (X e s r) else 0) + c := by
  refine ⟨∑ e, ∑ s', if s' = s then 0 else ∑ r, if P e s' r = true then ld (ξ e + β s') (ν s' ^ 2 + α (cid e) ^ 2) (X e s' r) else 0, ?_⟩
  intro t
  unfold logLik
  rw [← Finset.sum_add_distrib]
  refine Finset.sum_congr rfl fun e _ => ?_
  have : ∀ s', (∑ r, if P e s' r = true then Real.log (normalDensity (ξ e + β s') (setEntry ν s t s' ^ 2 + α (cid e) ^ 2) (X e s' r)) else 0) =
      (if s' = s then ∑ r, if P e s r = true then ld (ξ e + β s) (t ^ 2 + α (cid e) ^ 2) (X e s r) else 0 else 0) +
      if s' = s then 0 else ∑ r, if P e s' r = true then ld (ξ e + β s') (ν s' ^ 2 + α (cid e) ^ 2) (X e s' r) else 0 := by
    intro s'
    by_cases h : s' = s
    · subst h; simp [setEntry, ld]
    · simp [setEntry, h, ld]
  simp only [this, Finset.sum_add_distrib, Finset.sum_ite_eq', Finset.mem_univ, if_true]

/-- the part of the log-likelihood that depends on one quality -/
theorem logLik_x (e : Fin E) : ∃ c, ∀ t, logLik P X cid (setEntry ξ e t) β ν α =
    (∑ s, ∑ r, if P e s r = true then ld (t + β s) (ν s ^ 2 + α (cid e) ^ 2) (X e s r) else 0) + c := by
  refine ⟨∑ e', if e' = e then 0 else ∑ s, ∑ r, if P e' s r = true then ld (ξ e' + β s) (ν s ^ 2 + α (cid e') ^ 2) (X e' s r) else 0, ?_⟩
  intro t
  unfold logLik
  have : ∀ e', (∑ s, ∑ r, if P e' s r = true then Real.log (normalDensity (setEntry ξ e t e' + β s) (ν s ^ 2 + α (cid e') ^ 2) (X e' s r)) else 0) =
      (if e' = e then ∑ s, ∑ r, if P e s r = true then ld (t + β s) (ν s ^ 2 + α (cid e) ^ 2) (X e s r) else 0 else 0) +
      if e' = e then 0 else ∑ s, ∑ r, if P e' s r = true then ld (ξ e' + β s) (ν s ^ 2 + α (cid e') ^ 2) (X e' s r) else 0 := by
    intro e'
    by_cases h : e' = e
    · subst h; simp [setEntry, ld]
    · simp [setEntry, h, ld]
  simp only [this, Finset.sum_add_distrib, Finset.sum_ite_eq', Finset.mem_univ, if_true]

/-- the part of the log-likelihood that depends on one ambiguity -/
theorem logLik_a (c : Fin C) : ∃ k, ∀ t, logLik P X cid ξ β ν (setEntry α c t) =
    (∑ e, if cid e = c then ∑ s, ∑ r, if P e s r = true then ld (ξ e + β s) (ν s ^ 2 + t ^ 2) (X e s r) else 0 else 0) + k := by
  refine ⟨∑ e, if cid e = c then 0 else ∑ s, ∑ r, if P e s r = true then ld (ξ e + β s) (ν s ^ 2 + α (cid e) ^ 2) (X e s r) else 0, ?_⟩
  intro t
  unfold logLik
  rw [← Finset.sum_add_distrib]
  refine Finset.sum_congr rfl fun e _ => ?_
  by_cases h : cid e = c
  · simp [setEntry, h, ld]
  · simp [setEntry, h, ld]

/-- the update with difference quotients -/
theorem newton_quot {x o1 o2 : Fl ℝ} {θ d1 d2 : ℝ} (hx : x = .fin θ) (h1 : o1 = .fin d1) (h2 : o2 = .fin d2) :
    refresh x (x - o1 / o2) = newtonStep θ d1 d2 ∧ stdOf (-o2) = fisherStd d2 := by
  subst hx h1 h2
  rw [refresh_eq, Fl.fin_neg, stdOf_fin, neg_neg]
  exact ⟨rfl, rfl⟩

variable {p : Params ℝ E S C}

theorem bNumerical_newton (h : Regular P cid p ξ β ν α) (s : Fin S) (hs : ∃ e r, P e s r = true) :
    (bNumerical gaussCell ⟨Ap.maskX P X, cid⟩ p).1 s = newtonStep (β s)
      (quot1 (1 / 1000) (fun t => logLik P X cid ξ (setEntry β s t) ν α) (β s))
      (quot2 (1 / 1000) (fun t => logLik P X cid ξ (setEntry β s t) ν α) (β s)) ∧
    (bNumerical gaussCell ⟨Ap.maskX P X, cid⟩ p).2 s = fisherStd
      (quot2 (1 / 1000) (fun t => logLik P X cid ξ (setEntry β s t) ν α) (β s)) := by
  obtain ⟨c, hc⟩ := logLik_b (P := P) (X := X) (cid := cid) (ξ := ξ) (β := β) (ν := ν) (α := α) s
  rw [quot1_add hc, quot2_add hc]
  have hll : ∀ t : ℝ, sumE (logCells gaussCell ⟨Ap.maskX P X, cid⟩ { p with b := fun s => p.b s + .fin t }) s =
      .fin (∑ e, ∑ r, if P e s r = true then ld (ξ e + (β s + t)) (ν s ^ 2 + α (cid e) ^ 2) (X e s r) else 0) := by
    intro t
    apply sumE_mask P (fun e s r => ld (ξ e + (β s + t)) (ν s ^ 2 + α (cid e) ^ 2) (X e s r))
    intro e r
    exact logCell _ e s r fun hP => ⟨h.x e s r hP, by show p.b s + _ = _; rw [h.b e s r hP, Fl.fin_add], h.v e s r hP, h.a e s r hP, h.pos e s r hP⟩
  have hb : p.b s = .fin (β s) := by obtain ⟨e, r, hP⟩ := hs; exact h.b e s r hP
  refine newton_quot hb (diff1_fin ?_ ?_) (diff2_fin ?_ ?_ ?_)
  · rw [hll]
  · rw [hll, ← sub_eq_add_neg]
  · rw [hll]
  · rw [hll, ← sub_eq_add_neg]
  · rw [hll, add_zero]

theorem xNumerical_newton (h : Regular P cid p ξ β ν α) (e : Fin E) (he : ∃ s r, P e s r = true) :
    (xNumerical gaussCell ⟨Ap.maskX P X, cid⟩ p).1 e = newtonStep (ξ e)
      (quot1 (1 / 1000) (fun t => logLik P X cid (setEntry ξ e t) β ν α) (ξ e))
      (quot2 (1 / 1000) (fun t => logLik P X cid (setEntry ξ e t) β ν α) (ξ e)) ∧
    (xNumerical gaussCell ⟨Ap.maskX P X, cid⟩ p).2 e = fisherStd
      (quot2 (1 / 1000) (fun t => logLik P X cid (setEntry ξ e t) β ν α) (ξ e)) := by
  obtain ⟨c, hc⟩ := logLik_x (P := P) (X := X) (cid := cid) (ξ := ξ) (β := β) (ν := ν) (α := α) e
  rw [quot1_add hc, quot2_add hc]
  have hll : ∀ t : ℝ, sumS (logCells gaussCell ⟨Ap.maskX P X, cid⟩ { p with x := fun e => p.x e + .fin t }) e =
      .fin (∑ s, ∑ r, if P e s r = true then ld (ξ e + t + β s) (ν s ^ 2 + α (cid e) ^ 2) (X e s r) else 0) := by
    intro t
    apply sumS_mask P (fun e s r => ld (ξ e + t + β s) (ν s ^ 2 + α (cid e) ^ 2) (X e s r))
    intro s r
    exact logCell _ e s r fun hP => ⟨by show p.x e + _ = _; rw [h.x e s r hP, Fl.fin_add], h.b e s r hP, h.v e s r hP, h.a e s r hP, h.pos e s r hP⟩
  have hb : p.x e = .fin (ξ e) := by obtain ⟨s, r, hP⟩ := he; exact h.x e s r hP
  refine newton_quot hb (diff1_fin ?_ ?_) (diff2_fin ?_ ?_ ?_)
  · rw [hll]
  · rw [hll, ← sub_eq_add_neg]
  · rw [hll]
  · rw [hll, ← sub_eq_add_neg]
  · rw [hll, add_zero]

/-- the perturbed variances stay positive -/
theorem perturbed {v a t : ℝ} (h : 1 / 1000 < v ∨ a ≠ 0) (ht : |t| ≤ 1 / 1000) : 0 < (v + t) ^ 2 + a ^ 2 := by
  rcases h with h | h
  · have := (abs_le.mp ht).1
    have : 0 < v + t := by linarith
    positivity
  · positivity

theorem vNumerical_newton (h : Regular P cid p ξ β ν α) (s : Fin S) (hs : ∃ e r, P e s r = true)
    (hv : ∀ e r, P e s r = true → 1 / 1000 < ν s ∨ α (cid e) ≠ 0) :
    (vNumerical gaussCell ⟨Ap.maskX P X, cid⟩ p).1 s = newtonStep (ν s)
      (quot1 (1 / 1000) (fun t => logLik P X cid ξ β (setEntry ν s t) α) (ν s))
      (quot2 (1 / 1000) (fun t => logLik P X cid ξ β (setEntry ν s t) α) (ν s)) ∧
    (vNumerical gaussCell ⟨Ap.maskX P X, cid⟩ p).2 s = fisherStd
      (quot2 (1 / 1000) (fun t => logLik P X cid ξ β (setEntry ν s t) α) (ν s)) := by
  obtain ⟨c, hc⟩ := logLik_v (P := P) (X := X) (cid := cid) (ξ := ξ) (β := β) (ν := ν) (α := α) s
  rw [quot1_add hc, quot2_add hc]
  have hll : ∀ t : ℝ, |t| ≤ 1 / 1000 → sumE (logCells gaussCell ⟨Ap.maskX P X, cid⟩ { p with v := fun s => p.v s + .fin t }) s =
      .fin (∑ e, ∑ r, if P e s r = true then ld (ξ e + β s) ((ν s + t) ^ 2 + α (cid e) ^ 2) (X e s r) else 0) := by
    intro t ht
    apply sumE_mask P (fun e s r => ld (ξ e + β s) ((ν s + t) ^ 2 + α (cid e) ^ 2) (X e s r))
    intro e r
    exact logCell _ e s r fun hP => ⟨h.x e s r hP, h.b e s r hP, by show p.v s + _ = _; rw [h.v e s r hP, Fl.fin_add], h.a e s r hP,
      perturbed (hv e r hP) ht⟩
  have hb : p.v s = .fin (ν s) := by obtain ⟨e, r, hP⟩ := hs; exact h.v e s r hP
  refine newton_quot hb (diff1_fin ?_ ?_) (diff2_fin ?_ ?_ ?_)
  · rw [hll _ (by rw [abs_of_nonneg] <;> norm_num)]
  · rw [hll _ (by rw [abs_neg, abs_of_nonneg] <;> norm_num), ← sub_eq_add_neg]
  · rw [hll _ (by rw [abs_of_nonneg]; norm_num)]
  · rw [hll _ (by rw [abs_neg, abs_of_nonneg]; norm_num), ← sub_eq_add_neg]
  · rw [hll _ (by norm_num), add_zero]

theorem aNumerical_newton (h : Regular P cid p ξ β ν α) (c : Fin C) (hc : ∃ e s r, cid e = c ∧ P e s r = true)
    (hv : ∀ e s r, cid e = c → P e s r = true → 1 / 1000 < α c ∨ ν s ≠ 0) :
    (aNumerical gaussCell ⟨Ap.maskX P X, cid⟩ p).1 c = newtonStep (α c)
      (quot1 (1 / 1000) (fun t => logLik P X cid ξ β ν (setEntry α c t)) (α c))
      (quot2 (1 / 1000) (fun t => logLik P X cid ξ β ν (setEntry α c t)) (α c)) ∧
    (aNumerical gaussCell ⟨Ap.maskX P X, cid⟩ p).2 c = fisherStd
      (quot2 (1 / 1000) (fun t => logLik P X cid ξ β ν (setEntry α c t)) (α c)) := by
  obtain ⟨k, hk⟩ := logLik_a (P := P) (X := X) (cid := cid) (ξ := ξ) (β := β) (ν := ν) (α := α) c
  rw [quot1_add hk, quot2_add hk]
  have hll : ∀ t : ℝ, |t| ≤ 1 / 1000 → ∀ e, cid e = c →
      sumS (logCells gaussCell ⟨Ap.maskX P X, cid⟩ { p with a := fun c => p.a c + .fin t }) e =
      .fin ((fun t => ∑ s, ∑ r, if P e s r = true then ld (ξ e + β s) (ν s ^ 2 + t ^ 2) (X e s r) else 0) (α c + t)) := by
    intro t ht e he
    apply sumS_mask P (fun e s r => ld (ξ e + β s) (ν s ^ 2 + (α c + t) ^ 2) (X e s r))
    intro s r
    refine logCell _ e s r fun hP => ⟨h.x e s r hP, h.b e s r hP, h.v e s r hP, ?_, ?_⟩
    · show p.a (cid e) + _ = _; rw [h.a e s r hP, Fl.fin_add, he]
    · rw [add_comm]; exact perturbed (hv e s r he hP) ht
  have ha : p.a c = .fin (α c) := by obtain ⟨e, s, r, hc, hP⟩ := hc; rw [← hc]; exact h.a e s r hP
  have e1 : ∀ g : Fin E → ℝ → ℝ, quot1 (1 / 1000) (fun t => ∑ e, if cid e = c then g e t else 0) (α c) =
      ∑ e, if cid e = c then quot1 (1 / 1000) (g e) (α c) else 0 := by
    intro g
    unfold quot1
    rw [← Finset.sum_sub_distrib, Finset.sum_div]
    refine Finset.sum_congr rfl fun e _ => ?_
    split <;> simp
  have e2 : ∀ g : Fin E → ℝ → ℝ, quot2 (1 / 1000) (fun t => ∑ e, if cid e = c then g e t else 0) (α c) =
      ∑ e, if cid e = c then quot2 (1 / 1000) (g e) (α c) else 0 := by
    intro g
    unfold quot2
    rw [Finset.mul_sum, ← Finset.sum_sub_distrib, ← Finset.sum_add_distrib, Finset.sum_div]
    refine Finset.sum_congr rfl fun e _ => ?_
    split <;> simp
  rw [e1, e2]
  refine newton_quot ha (sumContent_fin _ _ _ _ fun e he => diff1_fin ?_ ?_) (sumContent_fin _ _ _ _ fun e he => diff2_fin ?_ ?_ ?_)
  · rw [hll _ (by rw [abs_of_nonneg] <;> norm_num) e he]
  · rw [hll _ (by rw [abs_neg, abs_of_nonneg] <;> norm_num) e he, ← sub_eq_add_neg]
  · rw [hll _ (by rw [abs_of_nonneg]; norm_num) e he]
  · rw [hll _ (by rw [abs_neg, abs_of_nonneg]; norm_num) e he, ← sub_eq_add_neg]
  · rw [hll _ (by norm_num) e he, add_zero]

theorem quot1_sum {ι κ' : Type} [Fintype ι] [Fintype κ'] (Q : ι → κ' → Bool) (g : ι → κ' → ℝ → ℝ) (ε θ : ℝ) :
    quot1 ε (fun t => ∑ i, ∑ j, if Q i j = true then g i j t else 0) θ = ∑ i, ∑ j, if Q i j = true then quot1 ε (g i j) θ else 0 := by
  unfold quot1
  rw [← Finset.sum_sub_distrib, Finset.sum_div]
  refine Finset.sum_congr rfl fun i _ => ?_
  rw [← Finset.sum_sub_distrib, Finset.sum_div]
  refine Finset.sum_congr rfl fun j _ => ?_
  split <;> simp

theorem quot2_sum {ι κ' : Type} [Fintype ι] [Fintype κ'] (Q : ι → κ' → Bool) (g : ι → κ' → ℝ → ℝ) (ε θ : ℝ) :
    quot2 ε (fun t => ∑ i, ∑ j, if Q i j = true then g i j t else 0) θ = ∑ i, ∑ j, if Q i j = true then quot2 ε (g i j) θ else 0 := by
  unfold quot2
  rw [Finset.mul_sum, ← Finset.sum_sub_distrib, ← Finset.sum_add_distrib, Finset.sum_div]
  refine Finset.sum_congr rfl fun i _ => ?_
  rw [Finset.mul_sum, ← Finset.sum_sub_distrib, ← Finset.sum_add_distrib, Finset.sum_div]
  refine Finset.sum_congr rfl fun j _ => ?_
  split <;> simp

/-- a log-density is quadratic in the mean: its difference quotients are its derivatives -/
theorem quot_mean {k w x θ ε : ℝ} (hw : 0 < w) (hε : ε ≠ 0) :
    quot1 ε (fun t => ld (k + t) w x) θ = (x - k - θ) / w ∧ quot2 ε (fun t => ld (k + t) w x) θ = -1 / w := by
  unfold quot1 quot2 ld
  simp only [log_normalDensity hw]
  constructor <;> field_simp <;> ring

theorem quot_b (hpos : ∀ e s r, P e s r = true → 0 < ν s ^ 2 + α (cid e) ^ 2) (s : Fin S) {ε : ℝ} (hε : ε ≠ 0) :
    Derivs (fun t => logLik P X cid ξ (setEntry β s t) ν α) (β s)
      (quot1 ε (fun t => logLik P X cid ξ (setEntry β s t) ν α) (β s)) (quot2 ε (fun t => logLik P X cid ξ (setEntry β s t) ν α) (β s)) := by
  obtain ⟨c, hc⟩ := logLik_b (P := P) (X := X) (cid := cid) (ξ := ξ) (β := β) (ν := ν) (α := α) s
  refine Derivs.congr (derivs_b hpos s) ?_ ?_
  · rw [quot1_add hc, quot1_sum]
    refine Finset.sum_congr rfl fun e _ => Finset.sum_congr rfl fun r _ => ?_
    split
    · rename_i hP; rw [(quot_mean (hpos e s r hP) hε).1]
    · rfl
  · rw [quot2_add hc, quot2_sum]
    refine Finset.sum_congr rfl fun e _ => Finset.sum_congr rfl fun r _ => ?_
    split
    · rename_i hP; rw [(quot_mean (hpos e s r hP) hε).2]
    · rfl

theorem quot_x (hpos : ∀ e s r, P e s r = true → 0 < ν s ^ 2 + α (cid e) ^ 2) (e : Fin E) {ε : ℝ} (hε : ε ≠ 0) :
    Derivs (fun t => logLik P X cid (setEntry ξ e t) β ν α) (ξ e)
      (quot1 ε (fun t => logLik P X cid (setEntry ξ e t) β ν α) (ξ e)) (quot2 ε (fun t => logLik P X cid (setEntry ξ e t) β ν α) (ξ e)) := by
  obtain ⟨c, hc⟩ := logLik_x (P := P) (X := X) (cid := cid) (ξ := ξ) (β := β) (ν := ν) (α := α) e
  have hsw : (fun t : ℝ => ∑ s, ∑ r, if P e s r = true then ld (t + β s) (ν s ^ 2 + α (cid e) ^ 2) (X e s r) else 0) =
      fun t => ∑ s, ∑ r, if P e s r = true then ld (β s + t) (ν s ^ 2 + α (cid e) ^ 2) (X e s r) else 0 := by
    funext t
    refine Finset.sum_congr rfl fun s _ => Finset.sum_congr rfl fun r _ => ?_
    rw [add_comm t]
  refine Derivs.congr (derivs_x hpos e) ?_ ?_
  · rw [quot1_add hc, hsw, quot1_sum]
    refine Finset.sum_congr rfl fun s _ => Finset.sum_congr rfl fun r _ => ?_
    split
    · rename_i hP; rw [(quot_mean (hpos e s r hP) hε).1, sub_right_comm]
    · rfl
  · rw [quot2_add hc, hsw, quot2_sum]
    refine Finset.sum_congr rfl fun s _ => Finset.sum_congr rfl fun r _ => ?_
    split
    · rename_i hP; rw [(quot_mean (hpos e s r hP) hε).2]
    · rfl

end Sureal.Mle
