import Verif.Lemmas.MleGrad
import Verif.Props.Mle
/-!
# C34 and C35: the gradients of the MLE models
-/
set_option linter.unusedSectionVars false
namespace Sureal.Props
open Sureal Spec
variable {κ : Type} {E S R C : ℕ}

/-! ## C35 -/

/-- **C35.** Votes `X` (present where `P`), and parameters that are numbers, with positive variance, wherever a vote
needs them.  Under the gradient methods 'simplified' and 'original' the new bias of every observer who voted is a
damped Newton step `0.9 θ + 0.1 (θ - d1/d2)` on the Gaussian log-likelihood of the votes, where `d1`, `d2` are its
first two derivatives in that bias; its reported standard deviation is `1/sqrt(-d2)` (infinite if `-d2` is not
positive).  Likewise for the inconsistency, the content ambiguity and the quality. -/
theorem C35_newton_steps (m : Mle.Method) (pdf : Option String) (hm : m = .simplified ∨ m = .original)
    (u : Mle.Updates ℝ E S R C) (hu : Mle.updates m pdf = .ok u)
    (d : Mle.Data ℝ E S R C) (P : Fin E → Fin S → Fin R → Bool) (X : Fin E → Fin S → Fin R → ℝ)
    (hX : ∀ e s r, d.x e s r = mask (P e s r) (X e s r))
    (p : Mle.Params ℝ E S C) (ξ : Fin E → ℝ) (β ν : Fin S → ℝ) (α : Fin C → ℝ)
    (hreg : ∀ e s r, P e s r = true → p.x e = .fin (ξ e) ∧ p.b s = .fin (β s) ∧ p.v s = .fin (ν s) ∧
      p.a (d.cid e) = .fin (α (d.cid e)) ∧ 0 < ν s ^ 2 + α (d.cid e) ^ 2) :
    (∀ s, (∃ e r, P e s r = true) → ∃ d1 d2,
      Derivs (fun t => logLik P X d.cid ξ (setEntry β s t) ν α) (β s) d1 d2 ∧
      (u.b d p).1 s = newtonStep (β s) d1 d2 ∧ (u.b d p).2 s = fisherStd d2) ∧
    (∀ s, (∃ e r, P e s r = true) → ∃ d1 d2,
      Derivs (fun t => logLik P X d.cid ξ β (setEntry ν s t) α) (ν s) d1 d2 ∧
      (u.v d p).1 s = newtonStep (ν s) d1 d2 ∧ (u.v d p).2 s = fisherStd d2) ∧
    (∀ c, (∃ e s r, d.cid e = c ∧ P e s r = true) → ∃ d1 d2,
      Derivs (fun t => logLik P X d.cid ξ β ν (setEntry α c t)) (α c) d1 d2 ∧
      (u.a d p).1 c = newtonStep (α c) d1 d2 ∧ (u.a d p).2 c = fisherStd d2) ∧
    (∀ e, (∃ s r, P e s r = true) → ∃ d1 d2,
      Derivs (fun t => logLik P X d.cid (setEntry ξ e t) β ν α) (ξ e) d1 d2 ∧
      (u.x d p).1 e = newtonStep (ξ e) d1 d2 ∧ (u.x d p).2 e = fisherStd d2) := by
  obtain ⟨x, cid⟩ := d
  have hx : x = Ap.maskX P X := by funext e s r; exact hX e s r
  subst hx
  have reg : Mle.Regular P cid p ξ β ν α :=
    ⟨fun e s r h => (hreg e s r h).1, fun e s r h => (hreg e s r h).2.1, fun e s r h => (hreg e s r h).2.2.1,
      fun e s r h => (hreg e s r h).2.2.2.1, fun e s r h => (hreg e s r h).2.2.2.2⟩
  rcases hm with rfl | rfl <;> cases hu
  · exact ⟨fun s hs => ⟨_, _, Mle.derivs_b reg.pos s, Mle.bSimplified_newton reg s hs⟩,
      fun s hs => ⟨_, _, Mle.derivs_v reg.pos s, Mle.vSimplified_newton reg s hs⟩,
      fun c hc => ⟨_, _, Mle.derivs_a reg.pos c, Mle.aSimplified_newton reg c hc⟩,
      fun e he => ⟨_, _, Mle.derivs_x reg.pos e, Mle.xSimplified_newton reg e he⟩⟩
  · exact ⟨fun s hs => ⟨_, _, Mle.derivs_b reg.pos s, Mle.bOriginal_newton reg s hs⟩,
      fun s hs => ⟨_, _, Mle.derivs_v reg.pos s, Mle.vSimplified_newton reg s hs⟩,
      fun c hc => ⟨_, _, Mle.derivs_a reg.pos c, Mle.aSimplified_newton reg c hc⟩,
      fun e he => ⟨_, _, Mle.derivs_x reg.pos e, Mle.xOriginal_newton reg e he⟩⟩

/-- what the damped Newton step means when the second derivative is not 0 -/
theorem C35_newton_value (θ d1 d2 : ℝ) (h : d2 ≠ 0) : newtonStep θ d1 d2 = .fin (θ - d1 / d2 / 10) := by
  rw [Mle.newtonStep_of_ne h]; congr 1; ring

/-- two videos, two observers, all votes 3, all parameters 1: the first derivative in the bias of observer 0 -/
example : ∃ d1 d2, Derivs (fun t => logLik (fun _ _ (_ : Fin 1) => true) (fun _ _ _ => 3) (fun _ : Fin 2 => (0 : Fin 1)) (fun _ => 1)
      (setEntry (fun _ => 1) 0 t) (fun _ : Fin 2 => 1) (fun _ => 1)) 1 d1 d2 ∧
    (Mle.bSimplified (⟨fun _ _ _ => .fin 3, fun _ => 0⟩ : Mle.Data ℝ 2 2 1 1)
      ⟨fun _ => .fin 1, fun _ => .fin 1, fun _ => .fin 1, fun _ => .fin 1⟩).1 0 = newtonStep 1 d1 d2 := by
  obtain ⟨d1, d2, h1, h2, _⟩ := (C35_newton_steps .simplified none (Or.inl rfl) _ rfl
    (⟨fun _ _ _ => .fin 3, fun _ => 0⟩ : Mle.Data ℝ 2 2 1 1) (fun _ _ _ => true) (fun _ _ _ => 3) (fun _ _ _ => rfl)
    ⟨fun _ => .fin 1, fun _ => .fin 1, fun _ => .fin 1, fun _ => .fin 1⟩ (fun _ => 1) (fun _ => 1) (fun _ => 1) (fun _ => 1)
    (fun _ _ _ _ => ⟨rfl, rfl, rfl, rfl, by norm_num⟩)).1 0 ⟨0, 0, rfl⟩
  exact ⟨d1, d2, h1, h2⟩

/-- the log-density of a vote is the logarithm of the normal density -/
theorem log_gaussian (x μ v a : ℝ) (hw : 0 < v ^ 2 + a ^ 2) :
    (gaussian (.fin x) (.fin μ) (Mle.vadd (.fin v) (.fin a)).sqrt).log
      = .fin (Real.log (normalDensity μ (v ^ 2 + a ^ 2) x)) := by
  have h2pi : 0 < 2 * Real.pi := by positivity
  have hsw : 0 < Real.sqrt (v ^ 2 + a ^ 2) := Real.sqrt_pos.mpr hw
  have hspi : 0 < Real.sqrt (2 * Real.pi) := Real.sqrt_pos.mpr h2pi
  have hval : gaussian (.fin x) (.fin μ) (Mle.vadd (.fin v) (.fin a)).sqrt
      = .fin (normalDensity μ (v ^ 2 + a ^ 2) x) := by
    unfold gaussian
    rw [Mle.vadd_fin, Fl.sqrt_fin hw.le]
    show (1 : Fl ℝ) / (((2 : ℕ) : Fl ℝ) * Fl.fin Real.pi).sqrt / Fl.fin (Real.sqrt (v ^ 2 + a ^ 2)) *
      (-((Fl.fin x - Fl.fin μ).sq) / (((2 : ℕ) : Fl ℝ) * (Fl.fin (Real.sqrt (v ^ 2 + a ^ 2))).sq)).exp = _
    rw [Fl.natCast_def, Fl.fin_mul, show ((2 : ℕ) : ℝ) = 2 from by norm_num, Fl.sqrt_fin h2pi.le]
    show (1 : Fl ℝ) / Fl.fin (Real.sqrt (2 * Real.pi)) / Fl.fin (Real.sqrt (v ^ 2 + a ^ 2)) * _ = _
    rw [Fl.one_def, Fl.fin_div hspi.ne', Fl.fin_div hsw.ne', Fl.fin_sub, Fl.sq_fin, Fl.sq_fin, Fl.fin_neg,
      Real.mul_self_sqrt hw.le, Fl.fin_mul, Fl.fin_div (by positivity), Fl.exp_fin, Fl.fin_mul]
    show Fl.fin (1 / √(2 * Real.pi) / √(v ^ 2 + a ^ 2) * Real.exp _) = _
    unfold normalDensity
    rw [Real.sqrt_mul h2pi.le, div_div, pow_two (x - μ)]
  rw [hval]
  apply Fl.log_fin
  unfold normalDensity
  positivity

theorem sum_ofFn_fin {n : ℕ} (f : Fin n → ℝ) : Np.sum (List.ofFn fun i => Fl.fin (f i)) = .fin (∑ i, f i) := by
  have : (List.ofFn fun i => Fl.fin (f i)) = (List.ofFn f).map Fl.fin := by rw [List.map_ofFn]; rfl
  rw [this, Np.sum_map_fin, List.sum_ofFn]

/-- the number of votes in an array -/
theorem count_mask (P : Fin E → Fin S → Fin R → Bool) (X : Fin E → Fin S → Fin R → ℝ) :
    Np.countNotNan (ravel3 (Ap.maskX P X)) = ∑ e, ∑ s, ∑ r, if P e s r = true then 1 else 0 := by
  have hsum : ∀ (n : ℕ) (f : Fin n → List (Fl ℝ)),
      Np.countNotNan (List.ofFn f).flatten = ∑ i, Np.countNotNan (f i) := by
    intro n f
    unfold Np.countNotNan Np.notNan
    rw [List.filter_flatten, List.length_flatten, List.map_map, List.map_ofFn, List.sum_ofFn]
    rfl
  unfold ravel3
  rw [hsum]
  refine Finset.sum_congr rfl fun e _ => ?_
  rw [hsum]
  refine Finset.sum_congr rfl fun s _ => ?_
  have : (List.ofFn fun r => Ap.maskX P X e s r) = (List.ofFn fun r => [Ap.maskX P X e s r]).flatten := by
    rw [List.ofFn_eq_map, List.ofFn_eq_map, ← List.flatMap_def, List.map_eq_flatMap]
  rw [this, hsum]
  refine Finset.sum_congr rfl fun r _ => ?_
  unfold Ap.maskX
  cases P e s r <;> rfl

/-- the sum of the log-densities of all votes is the log-likelihood -/
theorem sum_logCells (P : Fin E → Fin S → Fin R → Bool) (X : Fin E → Fin S → Fin R → ℝ) (cid : Fin E → Fin C)
    (p : Mle.Params ℝ E S C) (ξ : Fin E → ℝ) (β ν : Fin S → ℝ) (α : Fin C → ℝ) (h : Mle.Regular P cid p ξ β ν α) :
    Np.sum (List.ofFn (Mle.sumS (Mle.logCells (fun o x b v a => gaussian o (x + b) (Mle.vadd v a).sqrt)
      (⟨Ap.maskX P X, cid⟩ : Mle.Data ℝ E S R C) p))) = .fin (logLik P X cid ξ β ν α) := by
  have hrow : ∀ e, Mle.sumS (Mle.logCells (fun o x b v a => gaussian o (x + b) (Mle.vadd v a).sqrt)
      (⟨Ap.maskX P X, cid⟩ : Mle.Data ℝ E S R C) p) e = .fin (∑ s, ∑ r, if P e s r = true then
        Real.log (normalDensity (ξ e + β s) (ν s ^ 2 + α (cid e) ^ 2) (X e s r)) else 0) := by
    intro e
    apply Mle.sumS_mask P (fun e s r => Real.log (normalDensity (ξ e + β s) (ν s ^ 2 + α (cid e) ^ 2) (X e s r)))
    intro s r
    unfold Mle.logCells Ap.maskX
    dsimp only
    cases hP : P e s r
    · have : gaussian (mask false (X e s r)) (p.x e + p.b s) (Mle.vadd (p.v s) (p.a (cid e))).sqrt = .nan := by
        unfold gaussian
        simp [Fl.sq, Fl.exp]
      rw [this]; rfl
    · rw [h.x e s r hP, h.b e s r hP, h.v e s r hP, h.a e s r hP, mask_true, mask_true, Fl.fin_add]
      exact log_gaussian _ _ _ _ (h.pos e s r hP)
  have : Mle.sumS (Mle.logCells (fun o x b v a => gaussian o (x + b) (Mle.vadd v a).sqrt)
      (⟨Ap.maskX P X, cid⟩ : Mle.Data ℝ E S R C) p) = fun e => Fl.fin (∑ s, ∑ r, if P e s r = true then
        Real.log (normalDensity (ξ e + β s) (ν s ^ 2 + α (cid e) ^ 2) (X e s r)) else 0) := funext hrow
  rw [this, sum_ofFn_fin]
  rfl

theorem ofFn_inj {n : ℕ} {f g : Fin n → Fl ℝ} (h : List.ofFn f = List.ofFn g) : f = g := List.ofFn_injective h

/-- **C35 (likelihood).** A completed run of the full model with the Gaussian density whose reported parameters are numbers with
positive variance for every vote reports as `loglikelihood` the Gaussian log-likelihood of the votes at the reported
parameters, per vote. -/
theorem C35_loglikelihood (rd : Reader κ ℝ) (o : Mle.Opts ℝ) (res : Result κ ℝ) (h : runMLE rd o = .ok res)
    (h1 : o.base.normalizeFinal = none) (h2 : o.base.transformFinal = none)
    (hpdf : o.numericalPdf = none ∨ o.numericalPdf = some "gaussian")
    (a : Arr3D (Fl ℝ)) (ha : res.rawScores = some a)
    (P : Fin a.E → Fin a.S → Fin a.R → Bool) (X : Fin a.E → Fin a.S → Fin a.R → ℝ)
    (hX : ∀ e s r, a.get e s r = mask (P e s r) (X e s r)) (hne : ∃ e s r, P e s r = true)
    (C : ℕ) (cid : Fin a.E → Fin C) (hcid : (List.ofFn fun e => ((cid e).val : Int)) = rd.disVideos.map (·.contentId))
    (ξ : Fin a.E → ℝ) (β ν : Fin a.S → ℝ) (α : Fin C → ℝ)
    (hq : res.qualityScores = List.ofFn fun e => .fin (ξ e))
    (hb : res.observerBias = some (List.ofFn fun s => .fin (β s)))
    (hv : res.observerInconsistency = some (List.ofFn fun s => .fin (ν s)))
    (hα : res.contentAmbiguity = some (List.ofFn fun c => .fin (α c)))
    (hpos : ∀ e s r, P e s r = true → 0 < ν s ^ 2 + α (cid e) ^ 2) :
    res.loglikelihood = some (.fin (logLik P X cid ξ β ν α / (∑ e, ∑ s, ∑ r, if P e s r = true then 1 else 0 : ℕ))) := by
  obtain ⟨p, C', m, mos, cid', f, dens, obs, hrun, hres⟩ := Mle.run_inv h
  have hpa : p.arr = a := by
    rw [hres] at ha
    simpa [Mle.result] using ha
  subst hpa
  rw [hres] at hq hb hv hα ⊢
  unfold Mle.result postprocessScores at hq hb hv hα
  dsimp only at hq hb hv hα
  rw [h1, h2] at hq
  rw [if_neg (by decide)] at hb hv hα
  have hq' : (Mle.centre (Ap.forced o.base) f.p).x = fun e => .fin (ξ e) := ofFn_inj hq
  have hb' : (Mle.centre (Ap.forced o.base) f.p).b = fun e => .fin (β e) := ofFn_inj (Option.some.inj hb)
  have hv' : (Mle.centre (Ap.forced o.base) f.p).v = fun e => .fin (ν e) := ofFn_inj (Option.some.inj hv)
  have hC : C' = C := by simpa using congrArg List.length (Option.some.inj hα)
  subst hC
  have hα' : (Mle.centre (Ap.forced o.base) f.p).a = fun e => .fin (α e) := ofFn_inj (Option.some.inj hα)
  have hcid' : cid' = cid := by
    have hc := hrun.hcid
    unfold Mle.contentIndex at hc
    split at hc
    case isFalse => cases hc
    rename_i hok
    injection hc with hc
    funext e
    rw [← hc]
    apply Fin.ext
    have hce := congrArg (fun l => l[e.val]?) hcid
    simp at hce
    obtain ⟨hl, hall⟩ := hok
    have hlen : e.val < (contentIdOfDisVideos rd.disVideos).length := by rw [hl]; exact e.isLt
    have : (contentIdOfDisVideos rd.disVideos)[e.val]'hlen = ((cid e).val : Int) := by
      have h3 : (contentIdOfDisVideos rd.disVideos)[e.val]? = some ((cid e).val : Int) := by
        unfold contentIdOfDisVideos
        rw [← hcid]
        simp
      rw [List.getElem?_eq_getElem hlen] at h3
      exact Option.some.inj h3
    show ((contentIdOfDisVideos rd.disVideos)[e.val]'hlen).toNat = (cid e).val
    rw [this]; simp
  subst hcid'
  have hget : p.arr.get = Ap.maskX P X := by funext e s r; exact hX e s r
  have hdens : dens = fun o x b v a => gaussian o (x + b) (Mle.vadd v a).sqrt := by
    have hd := hrun.hdens
    unfold Mle.density at hd
    rcases hpdf with hpdf | hpdf <;> rw [hpdf] at hd <;> simp at hd <;> exact hd.symm
  unfold Mle.result
  dsimp only
  rw [hdens, hget, sum_logCells P X cid' _ ξ β ν α
    ⟨fun e _ _ _ => by rw [hq'], fun _ s _ _ => by rw [hb'], fun _ s _ _ => by rw [hv'], fun e _ _ _ => by rw [hα'], hpos⟩,
    count_mask, Fl.natCast_def, Fl.fin_div]
  obtain ⟨e, s, r, hP⟩ := hne
  have : 0 < ∑ e, ∑ s, ∑ r, if P e s r = true then 1 else 0 := by
    refine Finset.sum_pos' (fun _ _ => Nat.zero_le _) ⟨e, Finset.mem_univ _, ?_⟩
    refine Finset.sum_pos' (fun _ _ => Nat.zero_le _) ⟨s, Finset.mem_univ _, ?_⟩
    refine Finset.sum_pos' (fun _ _ => Nat.zero_le _) ⟨r, Finset.mem_univ _, ?_⟩
    rw [if_pos hP]; exact one_pos
  exact_mod_cast this.ne'

end Sureal.Props
