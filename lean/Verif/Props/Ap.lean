import Verif.Lemmas.Ap
import Verif.Lemmas.Corr
import Verif.Props.Options
/-!
# C26-C32: the alternating projection solver (ITU-T P.910 Annex E)

`sd` ranges over the two formulas for the standard deviation of the quality scores, so each theorem covers
`SubjectMLEModelProjectionSolver` and `SubjectMLEModelProjectionSolver2`.
-/
set_option linter.unusedSectionVars false
namespace Sureal.Props
open Sureal Spec Ap
variable {κ : Type}

/-- a formula for `quality_scores_std` -/
abbrev StdFormula := {J I R : ℕ} → Arr3 (Fl ℝ) J I R → Arr1 (Fl ℝ) I → Arr1 (Fl ℝ) J → Arr1 (Fl ℝ) J

/-! ## helper lemmas -/

theorem ap_run {sd : StdFormula} {rd : Reader κ ℝ} {o : Opts ℝ} {res : Result κ ℝ} (hr : runAPWith sd rd o = .ok res) :
    ∃ p f, preprocess rd o = .ok p ∧ fit p.arr.get = .ok f ∧
      res = { (result sd (forced o) p.arr.get p.orig f : Result κ ℝ) with
        observers := res.observers
        qualityScores := postprocessScores o (List.ofFn (centre (forced o) f.s f.b).1) } := by
  unfold runAPWith runModeling runModelingWith at hr
  cases hp : preprocess rd o with
  | error e => rw [hp] at hr; cases hr
  | ok p =>
    rw [hp] at hr
    cases hf : fit p.arr.get with
    | error e => simp only [hf] at hr; cases hr
    | ok f =>
      simp only [hf] at hr
      refine ⟨p, f, rfl, hf, ?_⟩
      cases ho : rd.observers with
      | ok l => rw [ho] at hr; cases hr; rfl
      | error e => rw [ho] at hr; cases e <;> first | cases hr; rfl | cases hr

theorem ap_runs {sd : StdFormula} {rd : Reader κ ℝ} (hob : ObserversHarmless rd) {o : Opts ℝ} {p : Prep ℝ}
    (hp : preprocess rd o = .ok p) :
    (∀ f, fit p.arr.get = .ok f → ∃ res, runAPWith sd rd o = .ok res) ∧
    (∀ e, fit p.arr.get = .error e → runAPWith sd rd o = .error e) := by
  constructor
  · intro f hf
    obtain ⟨r, h, _⟩ := (runModeling_ok hob (runModelingWith sd) o).1 (result sd (forced o) p.arr.get p.orig f)
      (by unfold runModelingWith; rw [hp]; simp only [hf])
    exact ⟨r, h⟩
  · intro e hf
    exact (runModeling_ok hob (runModelingWith sd) o).2 e (by unfold runModelingWith; rw [hp]; simp only [hf])

theorem preprocess_zeromean {rd : Reader κ ℝ} {a : Arr3D (Fl ℝ)} (h : rd.scores = .ok a) (z : Flag) :
    preprocess rd { forceSubjbiasZeromean := z } = .ok { arr := a, orig := a } := by
  unfold preprocess
  rw [h]
  rfl

theorem preprocess_force {rd : Reader κ ℝ} (o : Opts ℝ) (z : Flag) :
    preprocess rd { o with forceSubjbiasZeromean := z } = preprocess rd o := rfl

open Classical in
theorem mean_maskB {J I R : ℕ} (P : Fin J → Fin I → Fin R → Bool) (B : Fin I → ℝ) :
    Np.mean (List.ofFn (maskB P B)) = mask (decide (0 < I ∧ ∀ i, (votesOfObserver P i).Nonempty)) ((∑ i, B i) / I) := by
  by_cases hI : 0 < I
  · by_cases hv : ∀ i, (votesOfObserver P i).Nonempty
    · have h1 : List.ofFn (maskB P B) = (List.ofFn B).map Fl.fin := by
        rw [List.map_ofFn]; congr 1; funext i; simp [maskB, hv i]
      rw [h1, Np.mean_map_fin (by intro h0; have := congrArg List.length h0; simp at this; omega)]
      rw [decide_eq_true ⟨hI, hv⟩]
      simp [Spec.mean, List.sum_ofFn]
    · rw [decide_eq_false (by tauto)]
      push Not at hv
      obtain ⟨i, hi⟩ := hv
      have hn : Np.sum (List.ofFn (maskB P B)) = .nan := by
        apply sum_of_nan_mem
        rw [List.mem_ofFn]
        exact ⟨i, by simp [maskB, hi]⟩
      unfold Np.mean
      rw [hn]; simp
  · rw [decide_eq_false (by tauto)]
    have : I = 0 := by omega
    subst this
    show (Fl.fin (0 : ℝ) / Fl.fin ((0 : ℕ) : ℝ)) = Fl.nan
    rw [Nat.cast_zero]
    exact Fl.zero_div_zero


/-- votes are numbers or missing -/
def CleanVotes (a : Arr3D (Fl ℝ)) : Prop := ∀ j i r, NumOrNan (a.get j i r)
/-- every video was rated by somebody -/
def EveryVideoRated (a : Arr3D (Fl ℝ)) : Prop := ∀ j, ∃ i r v, a.get j i r = .fin v
/-- every observer rated something -/
def EveryObserverVoted (a : Arr3D (Fl ℝ)) : Prop := ∀ i, ∃ j r v, a.get j i r = .fin v

theorem mask_nonempty_video {J I R : ℕ} {P : Fin J → Fin I → Fin R → Bool} {X : Fin J → Fin I → Fin R → ℝ} (j : Fin J) :
    (votesOnVideo P j).Nonempty ↔ ∃ i r v, maskX P X j i r = .fin v := by
  constructor
  · rintro ⟨⟨i, r⟩, h⟩
    simp only [votesOnVideo, Finset.mem_filter, Finset.mem_univ, true_and] at h
    exact ⟨i, r, X j i r, by simp [maskX, h]⟩
  · rintro ⟨i, r, v, h⟩
    apply voted_of (i := i) (r := r)
    by_contra hc
    rw [Bool.not_eq_true] at hc
    simp [maskX, hc] at h

theorem mask_nonempty_observer {J I R : ℕ} {P : Fin J → Fin I → Fin R → Bool} {X : Fin J → Fin I → Fin R → ℝ} (i : Fin I) :
    (votesOfObserver P i).Nonempty ↔ ∃ j r v, maskX P X j i r = .fin v := by
  constructor
  · rintro ⟨⟨j, r⟩, h⟩
    simp only [votesOfObserver, Finset.mem_filter, Finset.mem_univ, true_and] at h
    exact ⟨j, r, X j i r, by simp [maskX, h]⟩
  · rintro ⟨j, r, v, h⟩
    apply voter_of (j := j) (r := r)
    by_contra hc
    rw [Bool.not_eq_true] at hc
    simp [maskX, hc] at h

/-- a clean array given by its mask and its values -/
theorem clean_mask {a : Arr3D (Fl ℝ)} (hc : CleanVotes a) :
    ∃ (P : Fin a.E → Fin a.S → Fin a.R → Bool) (X : Fin a.E → Fin a.S → Fin a.R → ℝ), a.get = maskX P X :=
  ⟨_, _, exists_mask a.get hc⟩

/-! ## C27 -/

/-- **C27**.  A run that succeeds reports between 1 and 1000 iterations. -/
theorem C27_iteration_bound (sd : StdFormula) (rd : Reader κ ℝ) (o : Opts ℝ) (res : Result κ ℝ)
    (hr : runAPWith sd rd o = .ok res) : ∃ n, res.numIter = some n ∧ 1 ≤ n ∧ n ≤ 1000 := by
  obtain ⟨p, f, _, hf, hres⟩ := ap_run hr
  unfold fit at hf
  rcases loop_inv (x := p.arr.get) (fun _ _ => True) (fun _ _ _ _ => trivial) 0 _ _ trivial (by unfold maxItr; norm_num) with
    ⟨e, k, s1, b1, _, _, h3⟩ | ⟨k, s1, b1, d, _, h2, _, _, h3⟩
  · rw [hf] at h3; cases h3
  · rw [hf] at h3
    injection h3 with h3
    refine ⟨k + 1, ?_, by omega, h2⟩
    rw [hres]
    show some f.itr = _
    rw [h3]; rfl

/-- **C27**.  On votes that are numbers or missing the run succeeds if and only if every video was rated; otherwise
it raises ValueError (a quality score is NaN). -/
theorem C27_succeeds_iff (sd : StdFormula) (rd : Reader κ ℝ) (hob : ObserversHarmless rd) (a : Arr3D (Fl ℝ))
    (ha : rd.scores = .ok a) (hc : CleanVotes a) (z : Flag) :
    (EveryVideoRated a → ∃ res, runAPWith sd rd { forceSubjbiasZeromean := z } = .ok res) ∧
    (¬ EveryVideoRated a → runAPWith sd rd { forceSubjbiasZeromean := z } = .error .value) := by
  obtain ⟨P, X, hX⟩ := clean_mask hc
  have hp := preprocess_zeromean (κ := κ) ha z
  have hrated : EveryVideoRated a ↔ ∀ j, (votesOnVideo P j).Nonempty := by
    unfold EveryVideoRated
    rw [hX]
    exact forall_congr' fun j => (mask_nonempty_video j).symm
  have hfit := fit_mask P X
  rw [← hX] at hfit
  rcases hfit with ⟨⟨j, hj⟩, h⟩ | ⟨hv, k, S, B, _, h⟩
  · refine ⟨fun hall => absurd (hrated.mp hall j) hj, fun _ => (ap_runs hob hp).2 _ h⟩
  · exact ⟨fun _ => (ap_runs hob hp).1 _ h, fun hn => absurd (hrated.mpr hv) hn⟩

/-- The only exception the solver itself adds is ValueError, on any array (infinities included). -/
theorem C27_only_valueError (sd : StdFormula) (rd : Reader κ ℝ) (hob : ObserversHarmless rd) (a : Arr3D (Fl ℝ))
    (ha : rd.scores = .ok a) (z : Flag) (e : PyErr)
    (he : runAPWith sd rd { forceSubjbiasZeromean := z } = .error e) : e = .value := by
  have hp := preprocess_zeromean (κ := κ) ha z
  cases hf : fit a.get with
  | ok f =>
    obtain ⟨r, hr⟩ := (ap_runs (sd := sd) hob hp).1 f hf
    rw [hr] at he; cases he
  | error e' =>
    rw [(ap_runs (sd := sd) hob hp).2 e' hf] at he
    cases he
    unfold fit at hf
    rcases loop_inv (x := a.get) (fun _ _ => True) (fun _ _ _ _ => trivial) 0 _ _ trivial (by unfold maxItr; norm_num) with
      ⟨e1, k, s1, b1, _, h2, h3⟩ | ⟨k, s1, b1, d, _, h2, _, _, h3⟩
    · rw [hf] at h3
      injection h3 with h3
      unfold Np.linalgNorm at h2
      split at h2
      · cases h2
      · cases h2; exact h3
    · rw [hf] at h3; cases h3

/-! ## C26 -/

theorem forced_true {o : Opts ℝ} (h : o.forceSubjbiasZeromean ≠ some (some false)) : forced o = true := by
  unfold forced; simpa using h

theorem post_plain {o : Opts ℝ} (h1 : o.normalizeFinal = none) (h2 : o.transformFinal = none) (q : List (Fl ℝ)) :
    postprocessScores o q = q := by
  unfold postprocessScores; rw [h1, h2]; rfl

/-- **C26** (partial: every observer voted).  Unless `force_subjbias_zeromean=False` is passed, the reported biases
are numbers that add up to 0, and every reconstructed vote is quality score plus observer bias, the same number as
in the run without centring, which succeeds too.  `a` is the array the solver saw (`raw_scores`).  Missing: an
observer without any vote (see `C26_silent_observer_refuted`). -/
theorem C26_zero_mean_bias_partial (sd : StdFormula) (rd : Reader κ ℝ) (o : Opts ℝ) (h1 : o.normalizeFinal = none)
    (h2 : o.transformFinal = none) (hz : o.forceSubjbiasZeromean ≠ some (some false)) (res : Result κ ℝ)
    (hr : runAPWith sd rd o = .ok res) (a : Arr3D (Fl ℝ)) (ha : res.rawScores = some a) (hc : CleanVotes a)
    (hv : EveryObserverVoted a) :
    ∃ (q q0 : Fin a.E → ℝ) (b b0 : Fin a.S → ℝ) (res0 : Result κ ℝ),
      res.qualityScores = List.ofFn (fun j => .fin (q j)) ∧
      res.observerBias = some (List.ofFn fun i => .fin (b i)) ∧
      ∑ i, b i = 0 ∧
      res.reconstructions = some ⟨a.E, a.S, a.R, fun j i _ => .fin (q j + b i)⟩ ∧
      runAPWith sd rd { o with forceSubjbiasZeromean := some (some false) } = .ok res0 ∧
      res0.qualityScores = List.ofFn (fun j => .fin (q0 j)) ∧
      res0.observerBias = some (List.ofFn fun i => .fin (b0 i)) ∧
      (∀ j i, q j + b i = q0 j + b0 i) ∧
      res0.reconstructions = res.reconstructions := by
  obtain ⟨p, f, hp, hf, hres⟩ := ap_run hr
  have hpa : p.arr = a := by
    rw [hres] at ha
    simpa [result] using ha
  subst hpa
  obtain ⟨P, X, hX⟩ := clean_mask hc
  -- the run without centring
  have h0 : ∃ res0, runAPWith sd rd { o with forceSubjbiasZeromean := some (some false) } = .ok res0 ∧
      res0 = { (result sd false p.arr.get p.orig f : Result κ ℝ) with observers := res0.observers } := by
    have hob : ∃ r0, runAPWith sd rd { o with forceSubjbiasZeromean := some (some false) } = .ok r0 := by
      have hob2 : ObserversHarmless rd := by
        unfold runAPWith runModeling runModelingWith at hr
        rw [hp] at hr
        simp only [hf] at hr
        unfold ObserversHarmless
        cases ho : rd.observers with
        | ok l => exact Or.inl ⟨l, rfl⟩
        | error e =>
          rw [ho] at hr
          cases e <;> first | exact Or.inr (Or.inl rfl) | exact Or.inr (Or.inr rfl) | cases hr
      exact (ap_runs hob2 (p := p) (by rw [preprocess_force]; exact hp)).1 f hf
    obtain ⟨r0, hr0⟩ := hob
    refine ⟨r0, hr0, ?_⟩
    obtain ⟨p', f', hp', hf', hres'⟩ := ap_run hr0
    rw [preprocess_force, hp] at hp'
    cases hp'
    rw [hf] at hf'
    cases hf'
    rw [hres']
    rw [post_plain (by exact h1) (by exact h2)]
    rfl
  obtain ⟨res0, hr0, hres0⟩ := h0
  have hfit := fit_mask P X
  rw [← hX] at hfit
  rcases hfit with ⟨_, h⟩ | ⟨hvv, k, S, B, _, h⟩
  · rw [h] at hf; cases hf
  rw [h] at hf
  have hobs : ∀ i, (votesOfObserver P i).Nonempty := by
    intro i
    obtain ⟨j, r, v, hv⟩ := hv i
    rw [hX] at hv
    exact (mask_nonempty_observer i).mpr ⟨j, r, v, hv⟩
  injection hf with hf
  have hfs : ∃ (Q : Fin p.arr.E → ℝ) (C : Fin p.arr.S → ℝ), f.s = (fun j => .fin (Q j)) ∧ f.b = (fun i => .fin (C i)) ∧ f.b = maskB P C := by
    rw [← hf, hX, step_spec]
    refine ⟨apQuality P X B (apSpread P X S B), apBias P X (apQuality P X B (apSpread P X S B)), funext fun j => ?_, funext fun i => ?_, rfl⟩
    · simp only [maskS, hvv j, decide_true, mask_true]
    · simp only [maskB, hobs i, decide_true, mask_true]
  obtain ⟨Q, C, hQ, hC, hCm⟩ := hfs
  have hI : 0 < p.arr.S ∨ p.arr.E = 0 := by
    rcases Nat.eq_zero_or_pos p.arr.E with h | h
    · exact Or.inr h
    · obtain ⟨⟨i, _⟩, _⟩ := hvv ⟨0, h⟩
      exact Or.inl (Fin.pos i)
  have hcen : centre true f.s f.b = (fun j => .fin (Q j + (∑ i, C i) / p.arr.S), fun i => .fin (C i - (∑ i, C i) / p.arr.S)) := by
    unfold centre
    rw [if_pos rfl]
    dsimp only
    rw [show Np.mean (List.ofFn f.b) = Np.mean (List.ofFn (maskB P C)) by rw [hCm], mean_maskB]
    rcases Nat.eq_zero_or_pos p.arr.S with h | h
    · have hE : p.arr.E = 0 := by omega
      refine Prod.ext (funext fun j => ?_) (funext fun i => ?_)
      · exact absurd j.isLt (by omega)
      · exact absurd i.isLt (by omega)
    · rw [decide_eq_true ⟨h, hobs⟩, hQ, hC]
      rfl
  refine ⟨fun j => Q j + (∑ i, C i) / p.arr.S, Q, fun i => C i - (∑ i, C i) / p.arr.S, C, res0, ?_, ?_, ?_, ?_, hr0, ?_, ?_, ?_, ?_⟩
  · rw [hres, post_plain h1 h2, forced_true hz, hcen]
  · rw [hres, forced_true hz]
    show some (List.ofFn (centre true f.s f.b).2) = _
    rw [hcen]
  · rw [Finset.sum_sub_distrib, Finset.sum_const, Finset.card_univ, Fintype.card_fin, nsmul_eq_mul]
    rcases Nat.eq_zero_or_pos p.arr.S with h | h
    · have : IsEmpty (Fin p.arr.S) := by rw [h]; infer_instance
      simp
    · have : (p.arr.S : ℝ) ≠ 0 := by positivity
      field_simp
      ring
  · rw [hres, forced_true hz]
    show some (⟨_, _, _, fun j i _ => (centre true f.s f.b).1 j + (centre true f.s f.b).2 i⟩ : Arr3D (Fl ℝ)) = _
    rw [hcen]
    rfl
  · rw [hres0]
    show List.ofFn (centre false f.s f.b).1 = _
    unfold centre; rw [hQ]; rfl
  · rw [hres0]
    show some (List.ofFn (centre false f.s f.b).2) = _
    unfold centre; rw [hC]; rfl
  · intro j i; ring
  · rw [hres0, hres, forced_true hz]
    show some (⟨_, _, _, fun j i _ => (centre false f.s f.b).1 j + (centre false f.s f.b).2 i⟩ : Arr3D (Fl ℝ))
      = some (⟨_, _, _, fun j i _ => (centre true f.s f.b).1 j + (centre true f.s f.b).2 i⟩ : Arr3D (Fl ℝ))
    rw [hcen]
    congr 2
    funext j i _
    unfold centre
    rw [if_neg (by simp), hQ, hC, Fl.fin_add, Fl.fin_add]
    congr 1
    ring

/-- **C26** is false when an observer has no vote at all: then all quality scores and all biases are NaN, although
the run succeeds. -/
theorem C26_silent_observer_refuted (sd : StdFormula) (rd : Reader κ ℝ) (o : Opts ℝ) (h1 : o.normalizeFinal = none)
    (h2 : o.transformFinal = none) (hz : o.forceSubjbiasZeromean ≠ some (some false)) (res : Result κ ℝ)
    (hr : runAPWith sd rd o = .ok res) (a : Arr3D (Fl ℝ)) (ha : res.rawScores = some a) (hc : CleanVotes a)
    (hsil : ∃ i, ∀ j r, a.get j i r = .nan) :
    res.qualityScores = List.replicate a.E .nan ∧ res.observerBias = some (List.replicate a.S .nan) := by
  obtain ⟨p, f, hp, hf, hres⟩ := ap_run hr
  have hpa : p.arr = a := by
    rw [hres] at ha
    simpa [result] using ha
  subst hpa
  obtain ⟨P, X, hX⟩ := clean_mask hc
  have hfit := fit_mask P X
  rw [← hX] at hfit
  rcases hfit with ⟨_, h⟩ | ⟨hvv, k, S, B, _, h⟩
  · rw [h] at hf; cases hf
  rw [h] at hf
  injection hf with hf
  have hcen : centre true f.s f.b = (fun _ => .nan, fun _ => .nan) := by
    obtain ⟨i, hi⟩ := hsil
    have hb : ∃ C, f.b = maskB P C := ⟨_, by rw [← hf, hX, step_spec]⟩
    obtain ⟨C, hC⟩ := hb
    have hn : Np.mean (List.ofFn f.b) = .nan := by
      rw [hC, mean_maskB, decide_eq_false]
      · rfl
      · rintro ⟨_, hall⟩
        have := (mask_nonempty_observer (X := X) i).mp (hall i)
        obtain ⟨j, r, v, hv⟩ := this
        rw [← hX, hi j r] at hv
        cases hv
    unfold centre
    rw [if_pos rfl]
    dsimp only
    rw [hn]
    simp
  constructor
  · rw [hres, post_plain h1 h2, forced_true hz, hcen]
    show (List.ofFn fun _ : Fin p.arr.E => (Fl.nan : Fl ℝ)) = _
    rw [List.ofFn_const]
  · rw [hres, forced_true hz]
    show some (List.ofFn (centre true f.s f.b).2) = _
    rw [hcen]
    show some (List.ofFn fun _ : Fin p.arr.S => (Fl.nan : Fl ℝ)) = _
    rw [List.ofFn_const]

end Sureal.Props
