import Verif.Lemmas.Mle
import Verif.Spec.Likelihood
import Mathlib.Analysis.Calculus.Deriv.Pow
import Mathlib.Analysis.Calculus.Deriv.Add
import Mathlib.Analysis.SpecialFunctions.Log.Deriv
/-! The sums of the MLE updates are the derivatives of the log-likelihood. -/
set_option linter.unusedSectionVars false
namespace Sureal.Mle
open Sureal Spec

variable {E S R C : ℕ}

/-! ### masked sums -/

theorem sumE_mask (P : Fin E → Fin S → Fin R → Bool) (F : Fin E → Fin S → Fin R → ℝ) (f : Arr3 (Fl ℝ) E S R)
    (s : Fin S) (h : ∀ e r, f e s r = mask (P e s r) (F e s r)) :
    sumE f s = .fin (∑ e, ∑ r, if P e s r = true then F e s r else 0) := by
  have hcol : colL (stack0 f) s = colL (stack0 (Ap.maskX P F)) s := by
    rw [colL_stack0, colL_stack0]
    congr 2
    funext r
    congr 1
    funext e
    exact h e r
  unfold sumE
  rw [hcol]
  have := nansum_of_coe (mask_col_clean P F s) (coe_present_col P F s)
  unfold Ap.maskX
  rw [this]
  congr 1
  unfold votesOfObserver
  rw [Finset.sum_filter, Fintype.sum_prod_type]

theorem sumS_mask (P : Fin E → Fin S → Fin R → Bool) (F : Fin E → Fin S → Fin R → ℝ) (f : Arr3 (Fl ℝ) E S R)
    (e : Fin E) (h : ∀ s r, f e s r = mask (P e s r) (F e s r)) :
    sumS f e = .fin (∑ s, ∑ r, if P e s r = true then F e s r else 0) := by
  have hrow : rowL (stack1 f) e = rowL (stack1 (Ap.maskX P F)) e := by
    rw [rowL_stack1, rowL_stack1]
    congr 2
    funext r
    congr 1
    funext s
    exact h s r
  unfold sumS
  rw [hrow]
  have := nansum_of_coe (mask_row_clean P F e) (coe_present_row P F e)
  unfold Ap.maskX
  rw [this]
  congr 1
  unfold votesOnVideo
  rw [Finset.sum_filter, Fintype.sum_prod_type]

theorem sumContent_fin (cid : Fin E → Fin C) (xs : Arr1 (Fl ℝ) E) (y : Fin E → ℝ) (c : Fin C)
    (h : ∀ e, cid e = c → xs e = .fin (y e)) :
    sumContent cid xs c = .fin (∑ e, if cid e = c then y e else 0) := by
  have key : ∀ (l : List (Fin E)) (init : Fin C → Fl ℝ) (v : ℝ), init c = .fin v →
      l.foldl (fun sums e => fun c => if c = cid e then sums c + xs e else sums c) init c
        = .fin (v + (l.map fun e => if cid e = c then y e else 0).sum) := by
    intro l
    induction l with
    | nil => intro init v hv; simp [hv]
    | cons e l ih =>
      intro init v hv
      rw [List.foldl_cons]
      by_cases hc : cid e = c
      · rw [ih _ (v + y e) (by
          show (if c = cid e then init c + xs e else init c) = _
          rw [if_pos hc.symm, hv, h e hc, Fl.fin_add])]
        rw [List.map_cons, List.sum_cons, if_pos hc, add_assoc]
      · rw [ih _ v (by
          show (if c = cid e then init c + xs e else init c) = _
          rw [if_neg (fun h => hc h.symm), hv])]
        rw [List.map_cons, List.sum_cons, if_neg hc, zero_add]
  unfold sumContent
  rw [key _ _ 0 rfl, zero_add, ← List.ofFn_eq_map, List.sum_ofFn]

/-! ### regular parameters -/

/-- the parameters belonging to the votes that are present are numbers, and their variances are positive -/
structure Regular (P : Fin E → Fin S → Fin R → Bool) (cid : Fin E → Fin C) (p : Params ℝ E S C)
    (ξ : Fin E → ℝ) (β ν : Fin S → ℝ) (α : Fin C → ℝ) : Prop where
  x : ∀ e s r, P e s r = true → p.x e = .fin (ξ e)
  b : ∀ e s r, P e s r = true → p.b s = .fin (β s)
  v : ∀ e s r, P e s r = true → p.v s = .fin (ν s)
  a : ∀ e s r, P e s r = true → p.a (cid e) = .fin (α (cid e))
  pos : ∀ e s r, P e s r = true → 0 < ν s ^ 2 + α (cid e) ^ 2

variable {P : Fin E → Fin S → Fin R → Bool} {X : Fin E → Fin S → Fin R → ℝ} {cid : Fin E → Fin C}
  {p : Params ℝ E S C} {ξ : Fin E → ℝ} {β ν : Fin S → ℝ} {α : Fin C → ℝ}

theorem vadd_fin (v a : ℝ) : vadd (.fin v) (.fin a) = .fin (v ^ 2 + a ^ 2) := by
  unfold vadd; rw [Fl.sq_fin, Fl.sq_fin, Fl.fin_add, pow_two, pow_two]

theorem resid_mask (h : Regular P cid p ξ β ν α) (e s r) :
    resid ⟨Ap.maskX P X, cid⟩ p e s r = mask (P e s r) (X e s r - ξ e - β s) := by
  unfold resid
  cases hP : P e s r
  · simp [Ap.maskX, hP]
  · simp [Ap.maskX, hP, h.x e s r hP, h.b e s r hP, Fl.fin_sub]

theorem cell_div (h : Regular P cid p ξ β ν α) (F : Fin E → Fin S → Fin R → ℝ) (e s r) :
    mask (P e s r) (F e s r) / vadd (p.v s) (p.a (cid e)) = mask (P e s r) (F e s r / (ν s ^ 2 + α (cid e) ^ 2)) := by
  cases hP : P e s r
  · simp
  · rw [h.v e s r hP, h.a e s r hP, vadd_fin, mask_true, mask_true, Fl.fin_div (h.pos e s r hP).ne']

theorem one_mask (e s r) : oneOrNan (Ap.maskX P X e s r) = mask (P e s r) 1 := by
  unfold Ap.maskX oneOrNan
  cases P e s r <;> simp [Fl.isNan, Fl.one_def]

/-! ### derivatives -/

theorem Derivs.const (c θ : ℝ) : Derivs (fun _ => c) θ 0 0 :=
  ⟨fun _ => 0, Filter.Eventually.of_forall fun t => hasDerivAt_const t c, rfl, hasDerivAt_const θ 0⟩

theorem Derivs.sum {ι : Type} [Fintype ι] {f : ι → ℝ → ℝ} {θ : ℝ} {d1 d2 : ι → ℝ} (h : ∀ i, Derivs (f i) θ (d1 i) (d2 i)) :
    Derivs (fun t => ∑ i, f i t) θ (∑ i, d1 i) (∑ i, d2 i) := by
  choose f' h1 h2 h3 using h
  refine ⟨fun t => ∑ i, f' i t, ?_, ?_, ?_⟩
  · filter_upwards [Filter.eventually_all.mpr h1] with t ht
    exact HasDerivAt.fun_sum fun i _ => ht i
  · exact Finset.sum_congr rfl fun i _ => h2 i
  · exact HasDerivAt.fun_sum fun i _ => h3 i

theorem Derivs.ite {q : Prop} [Decidable q] {f : ℝ → ℝ} {c θ d1 d2 : ℝ} (h : q → Derivs f θ d1 d2) :
    Derivs (fun t => if q then f t else c) θ (if q then d1 else 0) (if q then d2 else 0) := by
  by_cases hq : q
  · simpa [hq] using h hq
  · simpa [hq] using Derivs.const c θ

theorem log_normalDensity {μ w x : ℝ} (hw : 0 < w) :
    Real.log (normalDensity μ w x) = -(Real.log (2 * Real.pi) / 2) - Real.log w / 2 - (x - μ) ^ 2 / (2 * w) := by
  have h2 : 0 < 2 * Real.pi := by positivity
  unfold normalDensity
  rw [Real.log_mul (by positivity) (Real.exp_pos _).ne', Real.log_exp, one_div, Real.log_inv,
    Real.log_sqrt (by positivity), Real.log_mul h2.ne' hw.ne']
  ring

/-- derivatives in the mean -/
theorem derivs_mean (k w x θ : ℝ) (hw : 0 < w) :
    Derivs (fun t => Real.log (normalDensity (k + t) w x)) θ ((x - k - θ) / w) (-1 / w) := by
  refine ⟨fun t => (x - k - t) / w, Filter.Eventually.of_forall fun t => ?_, rfl, ?_⟩
  · have hf : (fun t => Real.log (normalDensity (k + t) w x)) =
        fun t => -(Real.log (2 * Real.pi) / 2) - Real.log w / 2 - (x - (k + t)) ^ 2 / (2 * w) := by
      funext t; exact log_normalDensity hw
    rw [hf]
    have h1 : HasDerivAt (fun t : ℝ => x - (k + t)) (-1) t := by
      simpa using ((hasDerivAt_id t).const_add k).const_sub x
    have h2 := ((h1.pow 2).div_const (2 * w)).const_sub (-(Real.log (2 * Real.pi) / 2) - Real.log w / 2)
    refine h2.congr_deriv ?_
    field_simp
    ring
  · have h1 : HasDerivAt (fun t : ℝ => x - k - t) (-1) θ := by
      simpa using (hasDerivAt_id θ).const_sub (x - k)
    exact h1.div_const w

/-- derivatives in a standard deviation -/
theorem derivs_std (μ k x θ : ℝ) (hw : 0 < θ ^ 2 + k ^ 2) :
    Derivs (fun t => Real.log (normalDensity μ (t ^ 2 + k ^ 2) x)) θ
      (-θ / (θ ^ 2 + k ^ 2) + θ * (x - μ) ^ 2 / (θ ^ 2 + k ^ 2) ^ 2)
      ((θ ^ 2 - k ^ 2) / (θ ^ 2 + k ^ 2) ^ 2 +
        (x - μ) ^ 2 * (k ^ 4 - 3 * θ ^ 4 - 2 * θ ^ 2 * k ^ 2) / (θ ^ 2 + k ^ 2) ^ 4) := by
  have hcont : Continuous fun t : ℝ => t ^ 2 + k ^ 2 := by fun_prop
  have hev : ∀ᶠ t in nhds θ, 0 < t ^ 2 + k ^ 2 := (hcont.tendsto θ).eventually (lt_mem_nhds hw)
  have hw' : ∀ t : ℝ, HasDerivAt (fun t : ℝ => t ^ 2 + k ^ 2) (2 * t) t := by
    intro t
    have := (hasDerivAt_pow 2 t).add_const (k ^ 2)
    simpa using this
  refine ⟨fun t => -t / (t ^ 2 + k ^ 2) + t * (x - μ) ^ 2 / (t ^ 2 + k ^ 2) ^ 2, ?_, rfl, ?_⟩
  · filter_upwards [hev.eventually_nhds] with t ht
    have ht0 : 0 < t ^ 2 + k ^ 2 := ht.self_of_nhds
    have hf : (fun t => Real.log (normalDensity μ (t ^ 2 + k ^ 2) x)) =ᶠ[nhds t]
        fun t => -(Real.log (2 * Real.pi) / 2) - Real.log (t ^ 2 + k ^ 2) / 2 - (x - μ) ^ 2 / (2 * (t ^ 2 + k ^ 2)) := by
      filter_upwards [ht] with u hu
      exact log_normalDensity hu
    refine HasDerivAt.congr_of_eventuallyEq ?_ hf
    have h1 := ((hw' t).log ht0.ne').div_const 2
    have h2 := (hasDerivAt_const t ((x - μ) ^ 2)).fun_div ((hw' t).const_mul 2) (by positivity)
    have h3 := (h1.const_sub (-(Real.log (2 * Real.pi) / 2))).sub h2
    refine h3.congr_deriv ?_
    field_simp
    ring
  · have h1 := (hasDerivAt_id θ).neg.fun_div (hw' θ) hw.ne'
    have h2 := ((hasDerivAt_id θ).mul_const ((x - μ) ^ 2)).fun_div ((hw' θ).fun_pow 2) (pow_ne_zero 2 hw.ne')
    refine (h1.add h2).congr_deriv ?_
    simp only [id, Pi.neg_apply]
    field_simp
    ring

/-! ### derivatives of the log-likelihood -/

theorem Derivs.congr {f : ℝ → ℝ} {θ d1 d2 d1' d2' : ℝ} (h : Derivs f θ d1 d2) (h1 : d1 = d1') (h2 : d2 = d2') :
    Derivs f θ d1' d2' := h1 ▸ h2 ▸ h

/-- partial derivatives in the bias of one observer -/
theorem derivs_b (hpos : ∀ e s r, P e s r = true → 0 < ν s ^ 2 + α (cid e) ^ 2) (s : Fin S) :
    Derivs (fun t => logLik P X cid ξ (setEntry β s t) ν α) (β s)
      (∑ e, ∑ r, if P e s r = true then (X e s r - ξ e - β s) / (ν s ^ 2 + α (cid e) ^ 2) else 0)
      (∑ e, ∑ r, if P e s r = true then -1 / (ν s ^ 2 + α (cid e) ^ 2) else 0) := by
  unfold logLik
  apply Derivs.sum
  intro e
  refine Derivs.congr (Derivs.sum (d1 := fun s' => if s' = s then ∑ r, if P e s r = true then (X e s r - ξ e - β s) / (ν s ^ 2 + α (cid e) ^ 2) else 0 else 0)
    (d2 := fun s' => if s' = s then ∑ r, if P e s r = true then -1 / (ν s ^ 2 + α (cid e) ^ 2) else 0 else 0) ?_) (by simp) (by simp)
  intro s'
  by_cases h : s' = s
  · subst h
    rw [if_pos rfl, if_pos rfl]
    apply Derivs.sum
    intro r
    apply Derivs.ite
    intro hP
    simpa [setEntry] using derivs_mean (ξ e) _ (X e s' r) (β s') (hpos e s' r hP)
  · rw [if_neg h, if_neg h]
    simpa [setEntry, h] using Derivs.const (∑ r, if P e s' r = true then Real.log (normalDensity (ξ e + β s') (ν s' ^ 2 + α (cid e) ^ 2) (X e s' r)) else 0) (β s)

/-- partial derivatives in the quality of one video -/
theorem derivs_x (hpos : ∀ e s r, P e s r = true → 0 < ν s ^ 2 + α (cid e) ^ 2) (e : Fin E) :
    Derivs (fun t => logLik P X cid (setEntry ξ e t) β ν α) (ξ e)
      (∑ s, ∑ r, if P e s r = true then (X e s r - ξ e - β s) / (ν s ^ 2 + α (cid e) ^ 2) else 0)
      (∑ s, ∑ r, if P e s r = true then -1 / (ν s ^ 2 + α (cid e) ^ 2) else 0) := by
  unfold logLik
  refine Derivs.congr (Derivs.sum (d1 := fun e' => if e' = e then ∑ s, ∑ r, if P e s r = true then (X e s r - ξ e - β s) / (ν s ^ 2 + α (cid e) ^ 2) else 0 else 0)
    (d2 := fun e' => if e' = e then ∑ s, ∑ r, if P e s r = true then -1 / (ν s ^ 2 + α (cid e) ^ 2) else 0 else 0) ?_) (by simp) (by simp)
  intro e'
  by_cases h : e' = e
  · subst h
    rw [if_pos rfl, if_pos rfl]
    apply Derivs.sum
    intro s
    apply Derivs.sum
    intro r
    apply Derivs.ite
    intro hP
    refine Derivs.congr (by simpa [setEntry, add_comm] using derivs_mean (β s) _ (X e' s r) (ξ e') (hpos e' s r hP)) ?_ rfl
    ring
  · rw [if_neg h, if_neg h]
    simpa [setEntry, h] using Derivs.const (∑ s, ∑ r, if P e' s r = true then Real.log (normalDensity (ξ e' + β s) (ν s ^ 2 + α (cid e') ^ 2) (X e' s r)) else 0) (ξ e)

/-- first derivative in a standard deviation, one vote -/
noncomputable def cell1 (v a r : ℝ) : ℝ := -v / (v ^ 2 + a ^ 2) + v * r ^ 2 / (v ^ 2 + a ^ 2) ^ 2
/-- second derivative in a standard deviation, one vote -/
noncomputable def cell2 (v a r : ℝ) : ℝ :=
  (v ^ 2 - a ^ 2) / (v ^ 2 + a ^ 2) ^ 2 + r ^ 2 * (a ^ 4 - 3 * v ^ 4 - 2 * v ^ 2 * a ^ 2) / (v ^ 2 + a ^ 2) ^ 4

/-- partial derivatives in the inconsistency of one observer -/
theorem derivs_v (hpos : ∀ e s r, P e s r = true → 0 < ν s ^ 2 + α (cid e) ^ 2) (s : Fin S) :
    Derivs (fun t => logLik P X cid ξ β (setEntry ν s t) α) (ν s)
      (∑ e, ∑ r, if P e s r = true then cell1 (ν s) (α (cid e)) (X e s r - ξ e - β s) else 0)
      (∑ e, ∑ r, if P e s r = true then cell2 (ν s) (α (cid e)) (X e s r - ξ e - β s) else 0) := by
  unfold logLik
  apply Derivs.sum
  intro e
  refine Derivs.congr (Derivs.sum (d1 := fun s' => if s' = s then ∑ r, if P e s r = true then cell1 (ν s) (α (cid e)) (X e s r - ξ e - β s) else 0 else 0)
    (d2 := fun s' => if s' = s then ∑ r, if P e s r = true then cell2 (ν s) (α (cid e)) (X e s r - ξ e - β s) else 0 else 0) ?_) (by simp) (by simp)
  intro s'
  by_cases h : s' = s
  · subst h
    rw [if_pos rfl, if_pos rfl]
    apply Derivs.sum
    intro r
    apply Derivs.ite
    intro hP
    have := derivs_std (ξ e + β s') (α (cid e)) (X e s' r) (ν s') (hpos e s' r hP)
    refine Derivs.congr (by simpa [setEntry] using this) ?_ ?_
    · unfold cell1; rw [← sub_sub]
    · unfold cell2; rw [← sub_sub]
  · rw [if_neg h, if_neg h]
    simpa [setEntry, h] using Derivs.const (∑ r, if P e s' r = true then Real.log (normalDensity (ξ e + β s') (ν s' ^ 2 + α (cid e) ^ 2) (X e s' r)) else 0) (ν s)

/-- partial derivatives in the ambiguity of one content -/
theorem derivs_a (hpos : ∀ e s r, P e s r = true → 0 < ν s ^ 2 + α (cid e) ^ 2) (c : Fin C) :
    Derivs (fun t => logLik P X cid ξ β ν (setEntry α c t)) (α c)
      (∑ e, if cid e = c then ∑ s, ∑ r, if P e s r = true then cell1 (α (cid e)) (ν s) (X e s r - ξ e - β s) else 0 else 0)
      (∑ e, if cid e = c then ∑ s, ∑ r, if P e s r = true then cell2 (α (cid e)) (ν s) (X e s r - ξ e - β s) else 0 else 0) := by
  unfold logLik
  apply Derivs.sum
  intro e
  by_cases h : cid e = c
  · subst h
    rw [if_pos rfl, if_pos rfl]
    apply Derivs.sum
    intro s
    apply Derivs.sum
    intro r
    apply Derivs.ite
    intro hP
    have := derivs_std (ξ e + β s) (ν s) (X e s r) (α (cid e)) (by rw [add_comm]; exact hpos e s r hP)
    refine Derivs.congr (by simpa [setEntry, add_comm] using this) ?_ ?_
    · unfold cell1; rw [← sub_sub (X e s r), add_comm (ν s ^ 2)]
    · unfold cell2; rw [← sub_sub (X e s r), add_comm (ν s ^ 2)]
  · rw [if_neg h, if_neg h]
    simpa [setEntry, h] using Derivs.const (∑ s, ∑ r, if P e s r = true then Real.log (normalDensity (ξ e + β s) (ν s ^ 2 + α (cid e) ^ 2) (X e s r)) else 0) (α c)

/-! ### the updates -/

theorem refresh_eq (x y : Fl ℝ) : refresh x y = x * Fl.fin (9 / 10) + y * Fl.fin (1 / 10) := by
  unfold refresh rate Fl.dec
  rw [Fl.one_def, Fl.fin_sub]
  norm_num

theorem newtonStep_of_ne {θ d1 d2 : ℝ} (h : d2 ≠ 0) : newtonStep θ d1 d2 = .fin (θ * (9 / 10) + (θ - d1 / d2) * (1 / 10)) := by
  unfold newtonStep
  rw [Fl.fin_div h, Fl.fin_sub, Fl.fin_mul, Fl.fin_mul, Fl.fin_add]

theorem stdOf_fin (t : ℝ) : stdOf (.fin t) = fisherStd (-t) := by
  unfold stdOf fisherStd
  rw [Fl.zero_def, Fl.maximum_fin, neg_neg]
  by_cases h : 0 < t
  · rw [if_pos h, max_eq_right h.le, Fl.sqrt_fin h.le, Fl.one_def]
    exact Fl.fin_div (Real.sqrt_pos.mpr h).ne'
  · rw [if_neg h, max_eq_left (not_lt.mp h), Fl.sqrt_fin le_rfl]
    show Fl.fin 1 / Fl.fin (Real.sqrt 0) = _
    rw [Real.sqrt_zero]
    exact Fl.fin_div_zero_pos one_pos

theorem neg_mask (q : Bool) (v : ℝ) : -(mask q v) = mask q (-v) := by cases q <;> rfl

/-- the sums of the update of `b_s`, in both methods -/
theorem b_sums (h : Regular P cid p ξ β ν α) (s : Fin S) :
    (sumE (fun e s r => (Ap.maskX P X e s r - p.x e) / vadd (p.v s) (p.a (cid e))) s
      = .fin (∑ e, ∑ r, if P e s r = true then (X e s r - ξ e) / (ν s ^ 2 + α (cid e) ^ 2) else 0)) ∧
    (sumE (fun e s r => oneOrNan (Ap.maskX P X e s r) / vadd (p.v s) (p.a (cid e))) s
      = .fin (∑ e, ∑ r, if P e s r = true then 1 / (ν s ^ 2 + α (cid e) ^ 2) else 0)) ∧
    (sumE (fun e s r => resid ⟨Ap.maskX P X, cid⟩ p e s r / vadd (p.v s) (p.a (cid e))) s
      = .fin (∑ e, ∑ r, if P e s r = true then (X e s r - ξ e - β s) / (ν s ^ 2 + α (cid e) ^ 2) else 0)) ∧
    (sumE (fun e s r => (-oneOrNan (Ap.maskX P X e s r)) / vadd (p.v s) (p.a (cid e))) s
      = .fin (∑ e, ∑ r, if P e s r = true then -1 / (ν s ^ 2 + α (cid e) ^ 2) else 0)) := by
  refine ⟨?_, ?_, ?_, ?_⟩
  · apply sumE_mask P (fun e s r => (X e s r - ξ e) / (ν s ^ 2 + α (cid e) ^ 2))
    intro e r
    rw [← cell_div h (fun e s r => X e s r - ξ e)]
    cases hP : P e s r
    · simp [Ap.maskX, hP]
    · simp [Ap.maskX, hP, h.x e s r hP, Fl.fin_sub]
  · apply sumE_mask P (fun e s r => 1 / (ν s ^ 2 + α (cid e) ^ 2))
    intro e r
    rw [← cell_div h (fun e s r => 1), one_mask]
  · apply sumE_mask P (fun e s r => (X e s r - ξ e - β s) / (ν s ^ 2 + α (cid e) ^ 2))
    intro e r
    rw [← cell_div h (fun e s r => X e s r - ξ e - β s), resid_mask h]
  · apply sumE_mask P (fun e s r => -1 / (ν s ^ 2 + α (cid e) ^ 2))
    intro e r
    rw [← cell_div h (fun e s r => -1), one_mask, neg_mask]

/-- the sums of the update of `x_e`, in both methods -/
theorem x_sums (h : Regular P cid p ξ β ν α) (e : Fin E) :
    (sumS (fun e s r => (Ap.maskX P X e s r - p.b s) / vadd (p.v s) (p.a (cid e))) e
      = .fin (∑ s, ∑ r, if P e s r = true then (X e s r - β s) / (ν s ^ 2 + α (cid e) ^ 2) else 0)) ∧
    (sumS (fun e s r => oneOrNan (Ap.maskX P X e s r) / vadd (p.v s) (p.a (cid e))) e
      = .fin (∑ s, ∑ r, if P e s r = true then 1 / (ν s ^ 2 + α (cid e) ^ 2) else 0)) ∧
    (sumS (fun e s r => resid ⟨Ap.maskX P X, cid⟩ p e s r / vadd (p.v s) (p.a (cid e))) e
      = .fin (∑ s, ∑ r, if P e s r = true then (X e s r - ξ e - β s) / (ν s ^ 2 + α (cid e) ^ 2) else 0)) ∧
    (sumS (fun e s r => (-oneOrNan (Ap.maskX P X e s r)) / vadd (p.v s) (p.a (cid e))) e
      = .fin (∑ s, ∑ r, if P e s r = true then -1 / (ν s ^ 2 + α (cid e) ^ 2) else 0)) := by
  refine ⟨?_, ?_, ?_, ?_⟩
  · apply sumS_mask P (fun e s r => (X e s r - β s) / (ν s ^ 2 + α (cid e) ^ 2))
    intro s r
    rw [← cell_div h (fun e s r => X e s r - β s)]
    cases hP : P e s r
    · simp [Ap.maskX, hP]
    · simp [Ap.maskX, hP, h.b e s r hP, Fl.fin_sub]
  · apply sumS_mask P (fun e s r => 1 / (ν s ^ 2 + α (cid e) ^ 2))
    intro s r
    rw [← cell_div h (fun e s r => 1), one_mask]
  · apply sumS_mask P (fun e s r => (X e s r - ξ e - β s) / (ν s ^ 2 + α (cid e) ^ 2))
    intro s r
    rw [← cell_div h (fun e s r => X e s r - ξ e - β s), resid_mask h]
  · apply sumS_mask P (fun e s r => -1 / (ν s ^ 2 + α (cid e) ^ 2))
    intro s r
    rw [← cell_div h (fun e s r => -1), one_mask, neg_mask]

theorem cell1_first {v a r : ℝ} (hw : 0 < v ^ 2 + a ^ 2) : vFirst (.fin r) (.fin v) (.fin a) = .fin (cell1 v a r) := by
  unfold vFirst cell1
  rw [vadd_fin, Fl.sq_fin, Fl.sq_fin, Fl.fin_neg, Fl.fin_div hw.ne', Fl.fin_mul, Fl.fin_div (mul_pos hw hw).ne', Fl.fin_add,
    pow_two r, pow_two (v ^ 2 + a ^ 2)]

theorem cell2_second {v a r : ℝ} (hw : 0 < v ^ 2 + a ^ 2) : vSecond (.fin r) (.fin v) (.fin a) = .fin (cell2 v a r) := by
  have h2 := (mul_pos hw hw).ne'
  have h4 := (mul_pos (mul_pos hw hw) (mul_pos hw hw)).ne'
  unfold vSecond cell2 vsub
  simp only [vadd_fin, Fl.sq_fin, Fl.natCast_def, Fl.fin_mul, Fl.fin_sub, Fl.fin_div h2, Fl.fin_div h4, Fl.fin_add]
  congr 1
  push_cast
  ring_nf

theorem cell1_firstA {v a r : ℝ} (hw : 0 < v ^ 2 + a ^ 2) : aFirst (.fin r) (.fin v) (.fin a) = .fin (cell1 a v r) := by
  unfold aFirst cell1
  rw [vadd_fin, Fl.sq_fin, Fl.sq_fin, Fl.fin_neg, Fl.fin_div hw.ne', Fl.fin_mul, Fl.fin_div (mul_pos hw hw).ne', Fl.fin_add,
    pow_two r, add_comm (a ^ 2), pow_two (v ^ 2 + a ^ 2)]

theorem cell2_secondA {v a r : ℝ} (hw : 0 < v ^ 2 + a ^ 2) : aSecond (.fin r) (.fin v) (.fin a) = .fin (cell2 a v r) := by
  have h2 := (mul_pos hw hw).ne'
  have h4 := (mul_pos (mul_pos hw hw) (mul_pos hw hw)).ne'
  unfold aSecond cell2 vsub
  simp only [vadd_fin, Fl.sq_fin, Fl.natCast_def, Fl.fin_mul, Fl.fin_sub, Fl.fin_neg, Fl.fin_div h2, Fl.fin_div h4, Fl.fin_add]
  congr 1
  push_cast
  ring_nf

theorem v_sums (h : Regular P cid p ξ β ν α) (s : Fin S) :
    (sumE (fun e s r => vFirst (resid ⟨Ap.maskX P X, cid⟩ p e s r) (p.v s) (p.a (cid e))) s
      = .fin (∑ e, ∑ r, if P e s r = true then cell1 (ν s) (α (cid e)) (X e s r - ξ e - β s) else 0)) ∧
    (sumE (fun e s r => vSecond (resid ⟨Ap.maskX P X, cid⟩ p e s r) (p.v s) (p.a (cid e))) s
      = .fin (∑ e, ∑ r, if P e s r = true then cell2 (ν s) (α (cid e)) (X e s r - ξ e - β s) else 0)) := by
  constructor
  · apply sumE_mask P (fun e s r => cell1 (ν s) (α (cid e)) (X e s r - ξ e - β s))
    intro e r
    rw [resid_mask h]
    cases hP : P e s r
    · simp [vFirst, Fl.sq]
    · rw [h.v e s r hP, h.a e s r hP, mask_true, mask_true, cell1_first (h.pos e s r hP)]
  · apply sumE_mask P (fun e s r => cell2 (ν s) (α (cid e)) (X e s r - ξ e - β s))
    intro e r
    rw [resid_mask h]
    cases hP : P e s r
    · simp [vSecond, Fl.sq]
    · rw [h.v e s r hP, h.a e s r hP, mask_true, mask_true, cell2_second (h.pos e s r hP)]

theorem a_sums (h : Regular P cid p ξ β ν α) (c : Fin C) :
    (sumContent cid (sumS (fun e s r => aFirst (resid ⟨Ap.maskX P X, cid⟩ p e s r) (p.v s) (p.a (cid e)))) c
      = .fin (∑ e, if cid e = c then ∑ s, ∑ r, if P e s r = true then cell1 (α (cid e)) (ν s) (X e s r - ξ e - β s) else 0 else 0)) ∧
    (sumContent cid (sumS (fun e s r => aSecond (resid ⟨Ap.maskX P X, cid⟩ p e s r) (p.v s) (p.a (cid e)))) c
      = .fin (∑ e, if cid e = c then ∑ s, ∑ r, if P e s r = true then cell2 (α (cid e)) (ν s) (X e s r - ξ e - β s) else 0 else 0)) := by
  constructor
  · apply sumContent_fin
    intro e _
    apply sumS_mask P (fun e s r => cell1 (α (cid e)) (ν s) (X e s r - ξ e - β s))
    intro s r
    rw [resid_mask h]
    cases hP : P e s r
    · simp [aFirst, Fl.sq]
    · rw [h.v e s r hP, h.a e s r hP, mask_true, mask_true, cell1_firstA (h.pos e s r hP)]
  · apply sumContent_fin
    intro e _
    apply sumS_mask P (fun e s r => cell2 (α (cid e)) (ν s) (X e s r - ξ e - β s))
    intro s r
    rw [resid_mask h]
    cases hP : P e s r
    · simp [aSecond, Fl.sq]
    · rw [h.v e s r hP, h.a e s r hP, mask_true, mask_true, cell2_secondA (h.pos e s r hP)]

/-! ### the two gradient methods -/

theorem weights_pos (h : Regular P cid p ξ β ν α) (s : Fin S) (hs : ∃ e r, P e s r = true) :
    0 < ∑ e, ∑ r, if P e s r = true then 1 / (ν s ^ 2 + α (cid e) ^ 2) else 0 := by
  obtain ⟨e, r, hP⟩ := hs
  have hnn : ∀ e r, 0 ≤ if P e s r = true then 1 / (ν s ^ 2 + α (cid e) ^ 2) else 0 := by
    intro e r; split
    · rename_i hP; exact (one_div_pos.mpr (h.pos e s r hP)).le
    · exact le_rfl
  refine Finset.sum_pos' (fun e _ => Finset.sum_nonneg fun r _ => hnn e r) ⟨e, Finset.mem_univ _, ?_⟩
  refine Finset.sum_pos' (fun r _ => hnn e r) ⟨r, Finset.mem_univ _, ?_⟩
  rw [if_pos hP]
  exact one_div_pos.mpr (h.pos e s r hP)

theorem weights_posX (h : Regular P cid p ξ β ν α) (e : Fin E) (he : ∃ s r, P e s r = true) :
    0 < ∑ s, ∑ r, if P e s r = true then 1 / (ν s ^ 2 + α (cid e) ^ 2) else 0 := by
  obtain ⟨s, r, hP⟩ := he
  have hnn : ∀ s r, 0 ≤ if P e s r = true then 1 / (ν s ^ 2 + α (cid e) ^ 2) else 0 := by
    intro s r; split
    · rename_i hP; exact (one_div_pos.mpr (h.pos e s r hP)).le
    · exact le_rfl
  refine Finset.sum_pos' (fun s _ => Finset.sum_nonneg fun r _ => hnn s r) ⟨s, Finset.mem_univ _, ?_⟩
  refine Finset.sum_pos' (fun r _ => hnn s r) ⟨r, Finset.mem_univ _, ?_⟩
  rw [if_pos hP]
  exact one_div_pos.mpr (h.pos e s r hP)

/-- weighted average minus `θ` in Newton form -/
theorem newton_wavg {ι κ' : Type} [Fintype ι] [Fintype κ'] (Q : ι → κ' → Bool) (y w : ι → κ' → ℝ) (θ : ℝ) :
    (∑ i, ∑ j, if Q i j = true then (y i j - θ) / w i j else 0)
      = (∑ i, ∑ j, if Q i j = true then y i j / w i j else 0) - θ * ∑ i, ∑ j, if Q i j = true then 1 / w i j else 0 := by
  rw [Finset.mul_sum, ← Finset.sum_sub_distrib]
  refine Finset.sum_congr rfl fun i _ => ?_
  rw [Finset.mul_sum, ← Finset.sum_sub_distrib]
  refine Finset.sum_congr rfl fun j _ => ?_
  split
  · rw [sub_div, mul_one_div]
  · simp

theorem neg_weights {ι κ' : Type} [Fintype ι] [Fintype κ'] (Q : ι → κ' → Bool) (w : ι → κ' → ℝ) :
    (∑ i, ∑ j, if Q i j = true then -1 / w i j else 0) = -∑ i, ∑ j, if Q i j = true then 1 / w i j else 0 := by
  rw [← Finset.sum_neg_distrib]
  refine Finset.sum_congr rfl fun i _ => ?_
  rw [← Finset.sum_neg_distrib]
  refine Finset.sum_congr rfl fun j _ => ?_
  split
  · rw [neg_div]
  · simp

theorem newton_simplified {θ n w : ℝ} (hw : 0 < w) :
    refresh (.fin θ) (.fin n / .fin w) = newtonStep θ (n - θ * w) (-w) := by
  rw [newtonStep_of_ne (neg_ne_zero.mpr hw.ne'), refresh_eq, Fl.fin_div hw.ne', Fl.fin_mul, Fl.fin_mul, Fl.fin_add]
  congr 1
  field_simp
  ring

/-- 'simplified': bias of an observer who voted -/
theorem bSimplified_newton (h : Regular P cid p ξ β ν α) (s : Fin S) (hs : ∃ e r, P e s r = true) :
    (bSimplified ⟨Ap.maskX P X, cid⟩ p).1 s = newtonStep (β s)
      (∑ e, ∑ r, if P e s r = true then (X e s r - ξ e - β s) / (ν s ^ 2 + α (cid e) ^ 2) else 0)
      (∑ e, ∑ r, if P e s r = true then -1 / (ν s ^ 2 + α (cid e) ^ 2) else 0) ∧
    (bSimplified ⟨Ap.maskX P X, cid⟩ p).2 s = fisherStd
      (∑ e, ∑ r, if P e s r = true then -1 / (ν s ^ 2 + α (cid e) ^ 2) else 0) := by
  obtain ⟨h1, h2, _, _⟩ := b_sums (X := X) h s
  have hb : p.b s = .fin (β s) := by obtain ⟨e, r, hP⟩ := hs; exact h.b e s r hP
  unfold bSimplified
  dsimp only
  rw [h1, h2, hb, stdOf_fin, newton_simplified (weights_pos h s hs),
    newton_wavg (fun e r => P e s r) (fun e r => X e s r - ξ e) (fun e _ => ν s ^ 2 + α (cid e) ^ 2),
    neg_weights (fun e r => P e s r) (fun e _ => ν s ^ 2 + α (cid e) ^ 2)]
  exact ⟨rfl, rfl⟩

/-- 'original': bias of an observer who voted -/
theorem bOriginal_newton (h : Regular P cid p ξ β ν α) (s : Fin S) (hs : ∃ e r, P e s r = true) :
    (bOriginal ⟨Ap.maskX P X, cid⟩ p).1 s = newtonStep (β s)
      (∑ e, ∑ r, if P e s r = true then (X e s r - ξ e - β s) / (ν s ^ 2 + α (cid e) ^ 2) else 0)
      (∑ e, ∑ r, if P e s r = true then -1 / (ν s ^ 2 + α (cid e) ^ 2) else 0) ∧
    (bOriginal ⟨Ap.maskX P X, cid⟩ p).2 s = fisherStd
      (∑ e, ∑ r, if P e s r = true then -1 / (ν s ^ 2 + α (cid e) ^ 2) else 0) := by
  obtain ⟨_, _, h3, h4⟩ := b_sums (X := X) h s
  have hb : p.b s = .fin (β s) := by obtain ⟨e, r, hP⟩ := hs; exact h.b e s r hP
  unfold resid at h3
  unfold bOriginal
  dsimp only at h3 ⊢
  rw [h3, h4, hb, Fl.fin_neg, stdOf_fin, neg_neg, refresh_eq]
  exact ⟨rfl, rfl⟩

/-- 'simplified': quality of a video that was rated -/
theorem xSimplified_newton (h : Regular P cid p ξ β ν α) (e : Fin E) (he : ∃ s r, P e s r = true) :
    (xSimplified ⟨Ap.maskX P X, cid⟩ p).1 e = newtonStep (ξ e)
      (∑ s, ∑ r, if P e s r = true then (X e s r - ξ e - β s) / (ν s ^ 2 + α (cid e) ^ 2) else 0)
      (∑ s, ∑ r, if P e s r = true then -1 / (ν s ^ 2 + α (cid e) ^ 2) else 0) ∧
    (xSimplified ⟨Ap.maskX P X, cid⟩ p).2 e = fisherStd
      (∑ s, ∑ r, if P e s r = true then -1 / (ν s ^ 2 + α (cid e) ^ 2) else 0) := by
  obtain ⟨h1, h2, _, _⟩ := x_sums (X := X) h e
  have hx : p.x e = .fin (ξ e) := by obtain ⟨s, r, hP⟩ := he; exact h.x e s r hP
  have hsw : ∀ s r, X e s r - ξ e - β s = X e s r - β s - ξ e := fun s r => by ring
  unfold xSimplified
  dsimp only
  simp only [hsw]
  rw [h1, h2, hx, stdOf_fin, newton_simplified (weights_posX h e he),
    newton_wavg (fun s r => P e s r) (fun s r => X e s r - β s) (fun s _ => ν s ^ 2 + α (cid e) ^ 2),
    neg_weights (fun s r => P e s r) (fun s _ => ν s ^ 2 + α (cid e) ^ 2)]
  exact ⟨rfl, rfl⟩

/-- 'original': quality of a video that was rated -/
theorem xOriginal_newton (h : Regular P cid p ξ β ν α) (e : Fin E) (he : ∃ s r, P e s r = true) :
    (xOriginal ⟨Ap.maskX P X, cid⟩ p).1 e = newtonStep (ξ e)
      (∑ s, ∑ r, if P e s r = true then (X e s r - ξ e - β s) / (ν s ^ 2 + α (cid e) ^ 2) else 0)
      (∑ s, ∑ r, if P e s r = true then -1 / (ν s ^ 2 + α (cid e) ^ 2) else 0) ∧
    (xOriginal ⟨Ap.maskX P X, cid⟩ p).2 e = fisherStd
      (∑ s, ∑ r, if P e s r = true then -1 / (ν s ^ 2 + α (cid e) ^ 2) else 0) := by
  obtain ⟨_, _, h3, h4⟩ := x_sums (X := X) h e
  have hx : p.x e = .fin (ξ e) := by obtain ⟨s, r, hP⟩ := he; exact h.x e s r hP
  unfold xOriginal
  dsimp only
  rw [h3, h4, hx, Fl.fin_neg, stdOf_fin, neg_neg, refresh_eq]
  exact ⟨rfl, rfl⟩

theorem vSimplified_newton (h : Regular P cid p ξ β ν α) (s : Fin S) (hs : ∃ e r, P e s r = true) :
    (vSimplified ⟨Ap.maskX P X, cid⟩ p).1 s = newtonStep (ν s)
      (∑ e, ∑ r, if P e s r = true then cell1 (ν s) (α (cid e)) (X e s r - ξ e - β s) else 0)
      (∑ e, ∑ r, if P e s r = true then cell2 (ν s) (α (cid e)) (X e s r - ξ e - β s) else 0) ∧
    (vSimplified ⟨Ap.maskX P X, cid⟩ p).2 s = fisherStd
      (∑ e, ∑ r, if P e s r = true then cell2 (ν s) (α (cid e)) (X e s r - ξ e - β s) else 0) := by
  obtain ⟨h1, h2⟩ := v_sums (X := X) h s
  have hv : p.v s = .fin (ν s) := by obtain ⟨e, r, hP⟩ := hs; exact h.v e s r hP
  unfold vSimplified
  dsimp only
  rw [h1, h2, hv, Fl.fin_neg, stdOf_fin, neg_neg, refresh_eq]
  exact ⟨rfl, rfl⟩

theorem aSimplified_newton (h : Regular P cid p ξ β ν α) (c : Fin C) (hc : ∃ e s r, cid e = c ∧ P e s r = true) :
    (aSimplified ⟨Ap.maskX P X, cid⟩ p).1 c = newtonStep (α c)
      (∑ e, if cid e = c then ∑ s, ∑ r, if P e s r = true then cell1 (α (cid e)) (ν s) (X e s r - ξ e - β s) else 0 else 0)
      (∑ e, if cid e = c then ∑ s, ∑ r, if P e s r = true then cell2 (α (cid e)) (ν s) (X e s r - ξ e - β s) else 0 else 0) ∧
    (aSimplified ⟨Ap.maskX P X, cid⟩ p).2 c = fisherStd
      (∑ e, if cid e = c then ∑ s, ∑ r, if P e s r = true then cell2 (α (cid e)) (ν s) (X e s r - ξ e - β s) else 0 else 0) := by
  obtain ⟨h1, h2⟩ := a_sums (X := X) h c
  have ha : p.a c = .fin (α c) := by obtain ⟨e, s, r, hc, hP⟩ := hc; rw [← hc]; exact h.a e s r hP
  unfold aSimplified
  dsimp only
  rw [h1, h2, ha, Fl.fin_neg, stdOf_fin, neg_neg, refresh_eq]
  exact ⟨rfl, rfl⟩

theorem vOriginal_eq (d : Data ℝ E S R C) (p : Params ℝ E S C) : vOriginal d p = vSimplified d p := rfl
theorem aOriginal_eq (d : Data ℝ E S R C) (p : Params ℝ E S C) : aOriginal d p = aSimplified d p := rfl

end Sureal.Mle
