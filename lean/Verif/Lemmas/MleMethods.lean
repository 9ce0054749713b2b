import Verif.Lemmas.MleGrad
/-! The 'simplified' and the 'original' pass through the MLE loop agree. -/
set_option linter.unusedSectionVars false
namespace Sureal.Mle
open Sureal Spec

variable {E S R C : ℕ}

/-- the number in a cell (0 if there is none) -/
noncomputable def num (x : Fl ℝ) : ℝ := x.val?.getD 0

theorem num_fin (v : ℝ) : num (.fin v) = v := rfl

theorem sumS_all_nan (f : Arr3 (Fl ℝ) E S R) (e : Fin E) (h : ∀ s r, f e s r = .nan) : sumS f e = 0 := by
  rw [sumS_mask (fun _ _ _ => false) (fun _ _ _ => 0) f e (by intro s r; rw [h]; rfl)]
  simp [Fl.zero_def]

noncomputable def simplifiedU : Updates ℝ E S R C := ⟨bSimplified, vSimplified, aSimplified, xSimplified⟩
noncomputable def originalU : Updates ℝ E S R C := ⟨bOriginal, vOriginal, aOriginal, xOriginal⟩

theorem neg_zero_fl : -(0 : Fl ℝ) = 0 := by rw [Fl.zero_def, Fl.fin_neg, neg_zero]

theorem bOriginal_eq {P : Fin E → Fin S → Fin R → Bool} {X : Fin E → Fin S → Fin R → ℝ} {cid : Fin E → Fin C}
    {p : Params ℝ E S C} {ξ : Fin E → ℝ} {β ν : Fin S → ℝ} {α : Fin C → ℝ} (h : Regular P cid p ξ β ν α) :
    bOriginal ⟨Ap.maskX P X, cid⟩ p = bSimplified ⟨Ap.maskX P X, cid⟩ p := by
  have key : ∀ s, (bOriginal ⟨Ap.maskX P X, cid⟩ p).1 s = (bSimplified ⟨Ap.maskX P X, cid⟩ p).1 s ∧
      (bOriginal ⟨Ap.maskX P X, cid⟩ p).2 s = (bSimplified ⟨Ap.maskX P X, cid⟩ p).2 s := by
    intro s
    by_cases hs : ∃ e r, P e s r = true
    · obtain ⟨h1, h2⟩ := bOriginal_newton (X := X) h s hs
      obtain ⟨h3, h4⟩ := bSimplified_newton (X := X) h s hs
      exact ⟨h1.trans h3.symm, h2.trans h4.symm⟩
    · have hn : ∀ e r, Ap.maskX P X e s r = .nan := by
        intro e r
        have : P e s r = false := by
          by_contra h'; exact hs ⟨e, r, by simpa using h'⟩
        unfold Ap.maskX; rw [this]; rfl
      constructor
      · exact (silent_bias (m := .original) (pdf := none) (u := ⟨bOriginal, vOriginal, aOriginal, xOriginal⟩) (by decide) rfl
            ⟨Ap.maskX P X, cid⟩ p s hn).trans
          (silent_bias (m := .simplified) (pdf := none) (u := ⟨bSimplified, vSimplified, aSimplified, xSimplified⟩) (by decide) rfl
            ⟨Ap.maskX P X, cid⟩ p s hn).symm
      · show stdOf (-sumE _ s) = stdOf (sumE _ s)
        rw [sumE_all_nan _ _ (by intro e r; dsimp only; rw [hn]; simp [oneOrNan, Fl.isNan]),
          sumE_all_nan _ _ (by intro e r; dsimp only; rw [hn]; simp [oneOrNan, Fl.isNan]), neg_zero_fl]
  exact Prod.ext (funext fun s => (key s).1) (funext fun s => (key s).2)

theorem xOriginal_eq {P : Fin E → Fin S → Fin R → Bool} {X : Fin E → Fin S → Fin R → ℝ} {cid : Fin E → Fin C}
    {p : Params ℝ E S C} {ξ : Fin E → ℝ} {β ν : Fin S → ℝ} {α : Fin C → ℝ} (h : Regular P cid p ξ β ν α) :
    xOriginal ⟨Ap.maskX P X, cid⟩ p = xSimplified ⟨Ap.maskX P X, cid⟩ p := by
  have h00 : (0 : Fl ℝ) / 0 = .nan := Fl.zero_div_zero
  have key : ∀ s, (xOriginal ⟨Ap.maskX P X, cid⟩ p).1 s = (xSimplified ⟨Ap.maskX P X, cid⟩ p).1 s ∧
      (xOriginal ⟨Ap.maskX P X, cid⟩ p).2 s = (xSimplified ⟨Ap.maskX P X, cid⟩ p).2 s := by
    intro e
    by_cases hs : ∃ s r, P e s r = true
    · obtain ⟨h1, h2⟩ := xOriginal_newton (X := X) h e hs
      obtain ⟨h3, h4⟩ := xSimplified_newton (X := X) h e hs
      exact ⟨h1.trans h3.symm, h2.trans h4.symm⟩
    · have hn : ∀ s r, Ap.maskX P X e s r = .nan := by
        intro s r
        have : P e s r = false := by
          by_contra h'; exact hs ⟨s, r, by simpa using h'⟩
        unfold Ap.maskX; rw [this]; rfl
      constructor
      · show refresh (p.x e) (p.x e - sumS _ e / sumS _ e) = refresh (p.x e) (sumS _ e / sumS _ e)
        rw [sumS_all_nan _ _ (by intro s r; unfold resid; dsimp only; rw [hn]; simp),
          sumS_all_nan _ _ (by intro e r; dsimp only; rw [hn]; simp [oneOrNan, Fl.isNan]),
          sumS_all_nan _ _ (by intro e r; dsimp only; rw [hn]; simp),
          sumS_all_nan _ _ (by intro e r; dsimp only; rw [hn]; simp [oneOrNan, Fl.isNan]), h00, Fl.sub_nan]
      · show stdOf (-sumS _ e) = stdOf (sumS _ e)
        rw [sumS_all_nan _ _ (by intro e r; dsimp only; rw [hn]; simp [oneOrNan, Fl.isNan]),
          sumS_all_nan _ _ (by intro e r; dsimp only; rw [hn]; simp [oneOrNan, Fl.isNan]), neg_zero_fl]
  exact Prod.ext (funext fun s => (key s).1) (funext fun s => (key s).2)

/-- the variance of every vote is a positive number -/
def VariancesPositive (d : Data ℝ E S R C) (p : Params ℝ E S C) : Prop :=
  ∀ e s r v, d.x e s r = .fin v → ∃ σ τ : ℝ, p.v s = .fin σ ∧ p.a (d.cid e) = .fin τ ∧ 0 < σ ^ 2 + τ ^ 2

theorem regular_num (P : Fin E → Fin S → Fin R → Bool) (X : Fin E → Fin S → Fin R → ℝ) (cid : Fin E → Fin C)
    (p : Params ℝ E S C) (hx : ∀ e, ∃ v, p.x e = .fin v) (hb : ∀ e s r, P e s r = true → ∃ v, p.b s = .fin v)
    (hv : VariancesPositive ⟨Ap.maskX P X, cid⟩ p) :
    Regular P cid p (fun e => num (p.x e)) (fun s => num (p.b s)) (fun s => num (p.v s)) (fun c => num (p.a c)) := by
  have hv' : ∀ e s r, P e s r = true → ∃ σ τ : ℝ, p.v s = .fin σ ∧ p.a (cid e) = .fin τ ∧ 0 < σ ^ 2 + τ ^ 2 :=
    fun e s r hP => hv e s r (X e s r) (by show Ap.maskX P X e s r = _; unfold Ap.maskX; rw [hP]; rfl)
  refine ⟨?_, ?_, ?_, ?_, ?_⟩
  · intro e s r hP; obtain ⟨v, h⟩ := hx e; simp only [h, num_fin]
  · intro e s r hP; obtain ⟨v, h⟩ := hb e s r hP; simp only [h, num_fin]
  · intro e s r hP; obtain ⟨σ, τ, h1, h2, h3⟩ := hv' e s r hP; simp only [h1, num_fin]
  · intro e s r hP; obtain ⟨σ, τ, h1, h2, h3⟩ := hv' e s r hP; simp only [h2, num_fin]
  · intro e s r hP; obtain ⟨σ, τ, h1, h2, h3⟩ := hv' e s r hP; simp only [h1, h2, num_fin]; exact h3

theorem step_congr (mode : Mode) (u u' : Updates ℝ E S R C) (d : Data ℝ E S R C) (p : Params ℝ E S C)
    (hb : u.b d p = u'.b d p) (hv : u.v = u'.v) (ha : u.a = u'.a)
    (hx : u.x d ⟨p.x, (step mode u' d p).1.b, (step mode u' d p).1.v, (step mode u' d p).1.a⟩ =
      u'.x d ⟨p.x, (step mode u' d p).1.b, (step mode u' d p).1.v, (step mode u' d p).1.a⟩) :
    step mode u d p = step mode u' d p := by
  unfold step at hx ⊢
  dsimp only at hx ⊢
  rw [hb, hv, ha, hx]

/-- one pass: the two methods agree, and the biases stay numbers -/
theorem step_methods (mode : Mode) (P : Fin E → Fin S → Fin R → Bool) (X : Fin E → Fin S → Fin R → ℝ) (cid : Fin E → Fin C)
    (p : Params ℝ E S C) (hx : ∀ e, ∃ v, p.x e = .fin v) (hb : ∀ e s r, P e s r = true → ∃ v, p.b s = .fin v)
    (hv : VariancesPositive ⟨Ap.maskX P X, cid⟩ p)
    (hv' : VariancesPositive ⟨Ap.maskX P X, cid⟩ (step mode simplifiedU ⟨Ap.maskX P X, cid⟩ p).1) :
    step mode originalU ⟨Ap.maskX P X, cid⟩ p = step mode simplifiedU ⟨Ap.maskX P X, cid⟩ p ∧
    ∀ e s r, P e s r = true → ∃ v, (step mode simplifiedU ⟨Ap.maskX P X, cid⟩ p).1.b s = .fin v := by
  have reg := regular_num P X cid p hx hb hv
  have hb' : ∀ e s r, P e s r = true → ∃ v, (step mode simplifiedU ⟨Ap.maskX P X, cid⟩ p).1.b s = .fin v := by
    intro e s r hP
    by_cases hmode : mode = .subjectOblivious
    · refine ⟨0, ?_⟩
      unfold step; dsimp only; rw [if_pos hmode]; rfl
    · have h1 := (bSimplified_newton (X := X) reg s ⟨e, r, hP⟩).1
      have hw := weights_pos reg s ⟨e, r, hP⟩
      have hne : (∑ e, ∑ r, if P e s r = true then -1 / ((num (p.v s)) ^ 2 + (num (p.a (cid e))) ^ 2) else 0) ≠ 0 := by
        rw [neg_weights (fun e r => P e s r) (fun e _ => (num (p.v s)) ^ 2 + (num (p.a (cid e))) ^ 2)]
        exact neg_ne_zero.mpr hw.ne'
      rw [newtonStep_of_ne hne] at h1
      have h2 : (step mode simplifiedU ⟨Ap.maskX P X, cid⟩ p).1.b s = (bSimplified ⟨Ap.maskX P X, cid⟩ p).1 s := by
        unfold step; dsimp only; rw [if_neg hmode]; rfl
      exact ⟨_, h2.trans h1⟩
  refine ⟨?_, hb'⟩
  exact step_congr mode originalU simplifiedU ⟨Ap.maskX P X, cid⟩ p (bOriginal_eq reg) rfl rfl
    (xOriginal_eq (X := X) (regular_num P X cid
      { x := p.x, b := (step mode simplifiedU ⟨Ap.maskX P X, cid⟩ p).1.b, v := (step mode simplifiedU ⟨Ap.maskX P X, cid⟩ p).1.v,
        a := (step mode simplifiedU ⟨Ap.maskX P X, cid⟩ p).1.a } hx hb' hv'))

/-- the parameters the loop passes through -/
inductive Visited (mode : Mode) (u : Updates ℝ E S R C) (thr : Fl ℝ) (d : Data ℝ E S R C) (p0 : Params ℝ E S C) :
    Params ℝ E S C → Prop
  | start : Visited mode u thr d p0 p0
  | next {p : Params ℝ E S C} {δ : Fl ℝ} : Visited mode u thr d p0 p →
      Np.linalgNorm (List.ofFn fun e => p.x e - (step mode u d p).1.x e) = .ok δ → δ.lt thr = false →
      Visited mode u thr d p0 (step mode u d p).1

theorem norm_not_finite {n : ℕ} (x y : Fin n → Fl ℝ) (e : Fin n) (h : ∀ v, x e ≠ .fin v) :
    Np.linalgNorm (List.ofFn fun i => x i - y i) = .error .value := by
  unfold Np.linalgNorm
  rw [if_neg]
  rw [List.all_eq_true]
  intro hall
  have := hall (x e - y e) (by rw [List.mem_ofFn]; exact ⟨e, rfl⟩)
  revert this
  generalize y e = b
  revert h
  generalize x e = a
  intro h
  cases a with
  | fin v => exact absurd rfl (h v)
  | nan => simp [Fl.isFinite]
  | pinf => cases b <;> intro hh <;> cases hh
  | ninf => cases b <;> intro hh <;> cases hh

theorem loop_methods (mode : Mode) (pdf : Option String) (thr : Fl ℝ) (P : Fin E → Fin S → Fin R → Bool)
    (X : Fin E → Fin S → Fin R → ℝ) (cid : Fin E → Fin C) (p0 : Params ℝ E S C)
    (hvis : ∀ p, Visited mode simplifiedU thr ⟨Ap.maskX P X, cid⟩ p0 p →
      VariancesPositive ⟨Ap.maskX P X, cid⟩ p ∧
      VariancesPositive ⟨Ap.maskX P X, cid⟩ (step mode simplifiedU ⟨Ap.maskX P X, cid⟩ p).1)
    (n itr : ℕ) (hn : maxItr - itr = n) (p : Params ℝ E S C) (hp : Visited mode simplifiedU thr ⟨Ap.maskX P X, cid⟩ p0 p)
    (hb : ∀ e s r, P e s r = true → ∃ v, p.b s = .fin v) :
    loop mode originalU pdf thr ⟨Ap.maskX P X, cid⟩ itr p = loop mode simplifiedU pdf thr ⟨Ap.maskX P X, cid⟩ itr p := by
  induction n generalizing itr p with
  | zero =>
    rw [loop_unfold mode originalU pdf thr _ itr p, loop_unfold mode simplifiedU pdf thr _ itr p]
    by_cases hx : ∀ e, ∃ v, p.x e = .fin v
    · rw [(step_methods mode P X cid p hx hb (hvis p hp).1 (hvis p hp).2).1]
      have : maxItr ≤ itr + 1 := by omega
      simp only [if_pos this]
    · push Not at hx
      obtain ⟨e, he⟩ := hx
      rw [norm_not_finite p.x (step mode originalU _ p).1.x e he, norm_not_finite p.x (step mode simplifiedU _ p).1.x e he]
  | succ n ih =>
    rw [loop_unfold mode originalU pdf thr _ itr p, loop_unfold mode simplifiedU pdf thr _ itr p]
    by_cases hx : ∀ e, ∃ v, p.x e = .fin v
    · obtain ⟨hs, hb'⟩ := step_methods mode P X cid p hx hb (hvis p hp).1 (hvis p hp).2
      rw [hs]
      cases hd : Np.linalgNorm (List.ofFn fun e => p.x e - (step mode simplifiedU ⟨Ap.maskX P X, cid⟩ p).1.x e) with
      | error e => rfl
      | ok δ =>
        dsimp only
        cases density (K := ℝ) pdf R with
        | error e => rfl
        | ok dens =>
          dsimp only
          cases hlt : δ.lt thr
          · rw [ih (itr + 1) (by omega) _ (Visited.next hp hd hlt) hb']
          · rfl
    · push Not at hx
      obtain ⟨e, he⟩ := hx
      rw [norm_not_finite p.x (step mode originalU _ p).1.x e he, norm_not_finite p.x (step mode simplifiedU _ p).1.x e he]

end Sureal.Mle
