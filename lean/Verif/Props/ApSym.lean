import Verif.Props.Ap
/-!
# C28-C32: exact recovery, equivariance and convexity of the alternating projection solver
-/
set_option linter.unusedSectionVars false
namespace Sureal.Props
open Sureal Spec Ap
variable {κ : Type}

/-! ## averages -/
section
variable {ι : Type}
theorem avg_congr {A : Finset ι} {f g : ι → ℝ} (h : ∀ c ∈ A, f c = g c) : avg A f = avg A g := by
  unfold avg; rw [Finset.sum_congr rfl h]

theorem avg_add_const {A : Finset ι} (hA : A.Nonempty) (f : ι → ℝ) (c : ℝ) : avg A (fun x => f x + c) = avg A f + c := by
  have : (A.card : ℝ) ≠ 0 := by exact_mod_cast hA.card_ne_zero
  unfold avg
  rw [Finset.sum_add_distrib, Finset.sum_const, nsmul_eq_mul]
  field_simp

theorem avg_const {A : Finset ι} (hA : A.Nonempty) (c : ℝ) : avg A (fun _ => c) = c := by
  have : (A.card : ℝ) ≠ 0 := by exact_mod_cast hA.card_ne_zero
  unfold avg
  rw [Finset.sum_const, nsmul_eq_mul]
  field_simp

theorem spread_congr {A : Finset ι} {f g : ι → ℝ} (h : ∀ c ∈ A, f c = g c) : spread A f = spread A g := by
  unfold spread
  rw [avg_congr h]
  congr 1
  exact avg_congr fun c hc => by rw [h c hc]

theorem spread_const {A : Finset ι} (c : ℝ) : spread A (fun _ => c) = 0 := by
  unfold spread
  by_cases hA : A.Nonempty
  · rw [avg_const hA, avg_const hA]; simp
  · rw [Finset.not_nonempty_iff_eq_empty] at hA; simp [hA, avg]

theorem wavg_congr {A : Finset ι} {w w' f g : ι → ℝ} (h : ∀ c ∈ A, f c = g c) (hw : ∀ c ∈ A, w c = w' c) :
    wavg A w f = wavg A w' g := by
  unfold wavg
  rw [Finset.sum_congr rfl hw, Finset.sum_congr rfl fun c hc => by rw [h c hc, hw c hc]]

theorem wavg_add_const {A : Finset ι} (hA : A.Nonempty) {w : ι → ℝ} (hw : ∀ c, 0 < w c) (f : ι → ℝ) (c : ℝ) :
    wavg A w (fun x => f x + c) = wavg A w f + c := by
  have : (∑ x ∈ A, w x) ≠ 0 := (Finset.sum_pos (fun c _ => hw c) hA).ne'
  unfold wavg
  simp only [add_mul]
  rw [Finset.sum_add_distrib, ← Finset.mul_sum]
  field_simp

theorem wavg_bounds {A : Finset ι} (hA : A.Nonempty) {w : ι → ℝ} (hw : ∀ c, 0 < w c) {f : ι → ℝ} {lo hi : ℝ}
    (hf : ∀ c ∈ A, lo ≤ f c ∧ f c ≤ hi) : lo ≤ wavg A w f ∧ wavg A w f ≤ hi := by
  have hp : 0 < ∑ x ∈ A, w x := Finset.sum_pos (fun c _ => hw c) hA
  unfold wavg
  constructor
  · rw [le_div_iff₀ hp, Finset.mul_sum]
    exact Finset.sum_le_sum fun c hc => mul_le_mul_of_nonneg_right (hf c hc).1 (hw c).le
  · rw [div_le_iff₀ hp, Finset.mul_sum]
    exact Finset.sum_le_sum fun c hc => mul_le_mul_of_nonneg_right (hf c hc).2 (hw c).le

variable {ι' : Type}
theorem sum_equiv' {A : Finset ι} {B : Finset ι'} (e : ι ≃ ι') (h : ∀ c, c ∈ A ↔ e c ∈ B) (f : ι' → ℝ) :
    ∑ c ∈ A, f (e c) = ∑ c ∈ B, f c := Finset.sum_equiv e h fun _ _ => rfl

theorem card_equiv' {A : Finset ι} {B : Finset ι'} (e : ι ≃ ι') (h : ∀ c, c ∈ A ↔ e c ∈ B) : A.card = B.card :=
  Finset.card_equiv e h

theorem avg_equiv {A : Finset ι} {B : Finset ι'} (e : ι ≃ ι') (h : ∀ c, c ∈ A ↔ e c ∈ B) (f : ι' → ℝ) :
    avg A (fun c => f (e c)) = avg B f := by
  unfold avg; rw [sum_equiv' e h, card_equiv' e h]

theorem spread_equiv {A : Finset ι} {B : Finset ι'} (e : ι ≃ ι') (h : ∀ c, c ∈ A ↔ e c ∈ B) (f : ι' → ℝ) :
    spread A (fun c => f (e c)) = spread B f := by
  unfold spread
  rw [avg_equiv e h f]
  exact congrArg _ (avg_equiv e h fun c => (f c - avg B f) ^ 2)

theorem wavg_equiv {A : Finset ι} {B : Finset ι'} (e : ι ≃ ι') (h : ∀ c, c ∈ A ↔ e c ∈ B) (w f : ι' → ℝ) :
    wavg A (fun c => w (e c)) (fun c => f (e c)) = wavg B w f := by
  unfold wavg
  rw [sum_equiv' e h w]
  exact congrArg (· / _) (sum_equiv' e h fun c => f c * w c)
end

/-! ## comparing two runs -/

/-- two runs of the solver side by side: same exception, or two results of the same number of iterations -/
theorem ap_lockstep {sd : StdFormula} {rd rd' : Reader κ ℝ} (hobs' : ObserversHarmless rd') {a a' : Arr3D (Fl ℝ)}
    (ha : rd.scores = .ok a) (ha' : rd'.scores = .ok a') (z : Flag)
    (hfit : (∃ e, fit a.get = .error e ∧ fit a'.get = .error e) ∨
      ∃ f f', fit a.get = .ok f ∧ fit a'.get = .ok f') (hobs : ObserversHarmless rd) :
    (∃ e, runAPWith sd rd { forceSubjbiasZeromean := z } = .error e ∧ runAPWith sd rd' { forceSubjbiasZeromean := z } = .error e) ∨
    (∃ res res' f f', runAPWith sd rd { forceSubjbiasZeromean := z } = .ok res ∧
      runAPWith sd rd' { forceSubjbiasZeromean := z } = .ok res' ∧ fit a.get = .ok f ∧ fit a'.get = .ok f' ∧
      res.qualityScores = List.ofFn (centre (z != some (some false)) f.s f.b).1 ∧
      res'.qualityScores = List.ofFn (centre (z != some (some false)) f'.s f'.b).1 ∧
      res.observerBias = some (List.ofFn (centre (z != some (some false)) f.s f.b).2) ∧
      res'.observerBias = some (List.ofFn (centre (z != some (some false)) f'.s f'.b).2) ∧
      res.observerInconsistency = some (List.ofFn f.vi) ∧ res'.observerInconsistency = some (List.ofFn f'.vi) ∧
      res.numIter = some f.itr ∧ res'.numIter = some f'.itr) := by
  have hp := preprocess_zeromean ha z
  have hp' := preprocess_zeromean ha' z
  rcases hfit with ⟨e, h, h'⟩ | ⟨f, f', h, h'⟩
  · exact Or.inl ⟨e, (ap_runs hobs hp).2 e h, (ap_runs hobs' hp').2 e h'⟩
  · right
    obtain ⟨res, hr⟩ := (ap_runs (sd := sd) hobs hp).1 f h
    obtain ⟨res', hr'⟩ := (ap_runs (sd := sd) hobs' hp').1 f' h'
    obtain ⟨p1, f1, hp1, hf1, he⟩ := ap_run hr
    obtain ⟨p2, f2, hp2, hf2, he'⟩ := ap_run hr'
    rw [hp] at hp1; cases hp1
    rw [hp'] at hp2; cases hp2
    rw [h] at hf1; cases hf1
    rw [h'] at hf2; cases hf2
    rw [post_plain rfl rfl] at he he'
    refine ⟨res, res', f, f', hr, hr', h, h', ?_, ?_, ?_, ?_, ?_, ?_, ?_, ?_⟩
    · rw [he]; rfl
    · rw [he']; rfl
    · rw [he]; rfl
    · rw [he']; rfl
    · rw [he]; rfl
    · rw [he']; rfl
    · rw [he]; rfl
    · rw [he']; rfl

/-! ## C28 -/

section
variable {E S R : ℕ}
theorem full_video (hS : 0 < S) (hR : 0 < R) (j : Fin E) :
    (votesOnVideo (fun (_ : Fin E) (_ : Fin S) (_ : Fin R) => true) j) = Finset.univ ∧
    (votesOnVideo (fun (_ : Fin E) (_ : Fin S) (_ : Fin R) => true) j).Nonempty := by
  refine ⟨by simp [votesOnVideo], ⟨(⟨0, hS⟩, ⟨0, hR⟩), by simp [votesOnVideo]⟩⟩
theorem full_observer (hE : 0 < E) (hR : 0 < R) (i : Fin S) :
    (votesOfObserver (fun (_ : Fin E) (_ : Fin S) (_ : Fin R) => true) i) = Finset.univ ∧
    (votesOfObserver (fun (_ : Fin E) (_ : Fin S) (_ : Fin R) => true) i).Nonempty := by
  refine ⟨by simp [votesOfObserver], ⟨(⟨0, hE⟩, ⟨0, hR⟩), by simp [votesOfObserver]⟩⟩

theorem avg_fst {n m : ℕ} (hm : 0 < m) (f : Fin n → ℝ) :
    avg (Finset.univ : Finset (Fin n × Fin m)) (fun c => f c.1) = (∑ i, f i) / n := by
  unfold avg
  rw [Fintype.sum_prod_type]
  simp only [Finset.sum_const, Finset.card_univ, Fintype.card_fin, Fintype.card_prod, nsmul_eq_mul, Nat.cast_mul]
  rw [← Finset.mul_sum]
  have : (m : ℝ) ≠ 0 := by positivity
  rw [mul_comm (n : ℝ), mul_div_mul_left _ _ this]
end

/-- **C28**.  If all votes are present and every vote is `q e + b s`, then the solver stops after one iteration and
returns quality scores `q e + mean b`, biases `b s - mean b` and inconsistencies 0, with or without the final centring. -/
theorem C28_additive_recovery (sd : StdFormula) (rd : Reader κ ℝ) (hob : ObserversHarmless rd) (E S R : ℕ) (hE : 0 < E)
    (hS : 0 < S) (hR : 0 < R) (q : Fin E → ℝ) (b : Fin S → ℝ)
    (ha : rd.scores = .ok ⟨E, S, R, fun e s _ => .fin (q e + b s)⟩) (z : Flag) :
    ∃ res, runAPWith sd rd { forceSubjbiasZeromean := z } = .ok res ∧
      res.qualityScores = List.ofFn (fun e => .fin (q e + (∑ s, b s) / S)) ∧
      res.observerBias = some (List.ofFn fun s => .fin (b s - (∑ s, b s) / S)) ∧
      res.observerInconsistency = some (List.ofFn fun _ : Fin S => .fin 0) ∧
      res.numIter = some 1 := by
  set P : Fin E → Fin S → Fin R → Bool := fun _ _ _ => true with hP
  set X : Fin E → Fin S → Fin R → ℝ := fun e s _ => q e + b s with hXdef
  set m := (∑ s, b s) / S with hm
  have hX : (fun e s _ => .fin (q e + b s) : Arr3 (Fl ℝ) E S R) = maskX P X := rfl
  have hV : ∀ j, (votesOnVideo P j).Nonempty := fun j => (full_video hS hR j).2
  have hO : ∀ i, (votesOfObserver P i).Nonempty := fun i => (full_observer hE hR i).2
  have h1 : meanAlongS (maskX P X) = maskS P fun j => q j + m := by
    rw [init_spec]
    congr 1
    funext j
    rw [(full_video hS hR j).1]
    have : (fun c : Fin S × Fin R => X j c.1 c.2) = fun c => b c.1 + q j := by funext c; simp [hXdef, add_comm]
    rw [this, avg_add_const ⟨(⟨0, hS⟩, ⟨0, hR⟩), by simp⟩, avg_fst hR, add_comm]
  have hbias : apBias P X (fun j => q j + m) = fun i => b i - m := by
    funext i
    unfold apBias
    rw [avg_congr (g := fun _ => b i - m) (fun c _ => by simp only [hXdef]; ring)]
    exact avg_const (hO i) _
  have hspread : apSpread P X (fun j => q j + m) (fun i => b i - m) = fun _ => 0 := by
    funext i
    unfold apSpread
    rw [spread_congr (g := fun _ => 0) (fun c _ => by simp only [hXdef]; ring)]
    exact spread_const _
  have hqual : apQuality P X (fun i => b i - m) (fun _ => 0) = fun j => q j + m := by
    funext j
    unfold apQuality
    rw [wavg_congr (g := fun _ => 0 + (q j + m)) (w' := fun _ => apWeight 0) (fun c _ => by simp only [hXdef]; ring) (fun _ _ => rfl),
      wavg_add_const (hV j) (fun _ => apWeight_pos 0) (fun _ => 0)]
    simp [wavg]
  have hfit : fit (maskX P X) = .ok (step (maskX P X) 0 (maskS P fun j => q j + m) (maskB P fun i => b i - m)) := by
    unfold fit
    dsimp only
    rw [h1, biases_spec, hbias, loop_unfold, step_spec, hspread, hqual]
    dsimp only
    rw [norm_mask P _ _ hV]
    have : (Fl.fin (Real.sqrt (∑ j : Fin E, (q j + m - (q j + m)) ^ 2))).lt (deltaThr : Fl ℝ) = true := by
      simp only [sub_self, deltaThr, Fl.dec, Fl.lt_fin]
      norm_num
    dsimp only
    rw [if_pos this]
  have hp := preprocess_zeromean ha z
  obtain ⟨res, hr⟩ := (ap_runs (sd := sd) hob hp).1 _ (by show fit (maskX P X) = _; exact hfit)
  obtain ⟨p1, f1, hp1, hf1, he⟩ := ap_run hr
  rw [hp] at hp1; cases hp1
  dsimp only at f1 hf1
  have hf1' : fit (maskX P X) = .ok f1 := hf1
  rw [hfit] at hf1'
  injection hf1' with hf
  rw [step_spec, hspread, hqual, hbias] at hf
  rw [post_plain rfl rfl] at he
  have hmz : (∑ i, (b i - m)) / (S : ℝ) = 0 := by
    rw [Finset.sum_sub_distrib, Finset.sum_const, Finset.card_univ, Fintype.card_fin, nsmul_eq_mul, hm]
    have : (S : ℝ) ≠ 0 := by positivity
    field_simp; ring
  have hcen : centre (forced ({ forceSubjbiasZeromean := z } : Opts ℝ)) f1.s f1.b = (fun j => .fin (q j + m), fun i => .fin (b i - m)) := by
    have hs : f1.s = fun j => .fin (q j + m) := by rw [← hf]; funext j; simp [maskS, hV j]
    have hb : f1.b = fun i => .fin (b i - m) := by rw [← hf]; funext j; simp [maskB, hO j]
    unfold centre
    split
    · dsimp only
      rw [show Np.mean (List.ofFn f1.b) = Np.mean (List.ofFn (maskB P fun i => b i - m)) by rw [← hf], mean_maskB,
        decide_eq_true ⟨hS, hO⟩, hmz, hs, hb]
      simp
    · rw [hs, hb]
  refine ⟨res, hr, ?_, ?_, ?_, ?_⟩
  · rw [he, hcen]
  · rw [he]
    show some (List.ofFn (centre (forced ({ forceSubjbiasZeromean := z } : Opts ℝ)) f1.s f1.b).2) = _
    rw [hcen]
  · rw [he]
    show some (List.ofFn f1.vi) = _
    rw [← hf]
    congr 2
    funext i
    simp [maskB, hO i]
  · rw [he]
    show some f1.itr = _
    rw [← hf]

/-! ## C29 -/

section
variable {J I R : ℕ} (P : Fin J → Fin I → Fin R → Bool) (X : Fin J → Fin I → Fin R → ℝ)

theorem maskS_congr {S S' : Fin J → ℝ} (h : ∀ j, (votesOnVideo P j).Nonempty → S j = S' j) : maskS P S = maskS P S' := by
  funext j
  unfold maskS
  by_cases hj : (votesOnVideo P j).Nonempty
  · rw [h j hj]
  · simp [hj]

theorem maskB_congr {B B' : Fin I → ℝ} (h : ∀ i, (votesOfObserver P i).Nonempty → B i = B' i) : maskB P B = maskB P B' := by
  funext i
  unfold maskB
  by_cases hi : (votesOfObserver P i).Nonempty
  · rw [h i hi]
  · simp [hi]

variable (c : ℝ) (S : Fin J → ℝ) (B : Fin I → ℝ)

theorem spread_shift : apSpread P (fun j i r => X j i r + c) (fun j => S j + c) B = apSpread P X S B := by
  funext i
  exact spread_congr fun p _ => by ring

theorem quality_shift (V : Fin I → ℝ) :
    maskS P (apQuality P (fun j i r => X j i r + c) B V) = maskS P fun j => apQuality P X B V j + c := by
  apply maskS_congr
  intro j hj
  unfold apQuality
  rw [← wavg_add_const hj (fun _ => apWeight_pos _)]
  exact wavg_congr (fun p _ => by ring) fun _ _ => rfl

theorem bias_shift : apBias P (fun j i r => X j i r + c) (fun j => S j + c) = apBias P X S := by
  funext i
  exact avg_congr fun p _ => by ring

/-- biases only look at the scores of rated videos -/
theorem apBias_congr {S S' : Fin J → ℝ} (h : maskS P S = maskS P S') : maskB P (apBias P X S) = maskB P (apBias P X S') := by
  rw [← biases_spec, ← biases_spec, h]

end

/-- `x + c` for numbers, NaN stays NaN -/
theorem affine_mask (p : Bool) (v c : ℝ) : affine 1 c (mask p v) = mask p (v + c) := by
  cases p
  · rfl
  · simp [affine]

theorem centre_shift {J I R : ℕ} (P : Fin J → Fin I → Fin R → Bool) (S : Fin J → ℝ) (B : Fin I → ℝ) (c : ℝ) (z : Bool) :
    centre z (maskS P fun j => S j + c) (maskB P B)
      = (fun j => affine 1 c ((centre z (maskS P S) (maskB P B)).1 j), (centre z (maskS P S) (maskB P B)).2) := by
  unfold centre
  cases z
  · simp only [Bool.false_eq_true, if_false]
    refine Prod.ext (funext fun j => ?_) rfl
    exact (affine_mask _ _ _).symm
  · simp only [if_true]
    refine Prod.ext (funext fun j => ?_) rfl
    rw [mean_maskB]
    show mask (decide (votesOnVideo P j).Nonempty) (S j + c) + _
      = affine 1 c (mask (decide (votesOnVideo P j).Nonempty) (S j) + _)
    generalize decide (0 < I ∧ ∀ i, (votesOfObserver P i).Nonempty) = g
    generalize decide (votesOnVideo P j).Nonempty = h
    cases g <;> cases h <;> simp [affine, Fl.fin_add]
    ring

/-- **C29**.  Adding a number `c` to all votes (missing votes stay missing) gives the same exception, or a result with
all quality scores shifted by `c` and the same biases, inconsistencies and number of iterations. -/
theorem C29_shift_equivariant (sd : StdFormula) (rd rd' : Reader κ ℝ) (hobs : ObserversHarmless rd)
    (hobs' : ObserversHarmless rd') (a : Arr3D (Fl ℝ)) (ha : rd.scores = .ok a) (hc : CleanVotes a) (c : ℝ)
    (ha' : rd'.scores = .ok { a with get := fun j i r => affine 1 c (a.get j i r) }) (z : Flag) :
    (∃ e, runAPWith sd rd { forceSubjbiasZeromean := z } = .error e ∧
      runAPWith sd rd' { forceSubjbiasZeromean := z } = .error e) ∨
    (∃ res res', runAPWith sd rd { forceSubjbiasZeromean := z } = .ok res ∧
      runAPWith sd rd' { forceSubjbiasZeromean := z } = .ok res' ∧
      res'.qualityScores = res.qualityScores.map (affine 1 c) ∧
      res'.observerBias = res.observerBias ∧
      res'.observerInconsistency = res.observerInconsistency ∧
      res'.numIter = res.numIter) := by
  obtain ⟨P, X, hX⟩ := clean_mask hc
  have hX' : (fun j i r => affine 1 c (a.get j i r)) = maskX P fun j i r => X j i r + c := by
    rw [hX]
    funext j i r
    exact affine_mask _ _ _
  let Rel : Arr1 (Fl ℝ) a.E → Arr1 (Fl ℝ) a.S → Arr1 (Fl ℝ) a.E → Arr1 (Fl ℝ) a.S → Prop := fun s b s' b' =>
    ∃ S B, s = maskS P S ∧ b = maskB P B ∧ s' = maskS P (fun j => S j + c) ∧ b' = maskB P B
  have hst : ∀ k (S : Fin a.E → ℝ) (B : Fin a.S → ℝ),
      (step (maskX P fun j i r => X j i r + c) k (maskS P fun j => S j + c) (maskB P B)).s
        = (maskS P fun j => apQuality P X B (apSpread P X S B) j + c) ∧
      (step (maskX P fun j i r => X j i r + c) k (maskS P fun j => S j + c) (maskB P B)).b
        = (step (maskX P X) k (maskS P S) (maskB P B)).b ∧
      (step (maskX P fun j i r => X j i r + c) k (maskS P fun j => S j + c) (maskB P B)).vi
        = (step (maskX P X) k (maskS P S) (maskB P B)).vi := by
    intro k S B
    rw [step_spec, step_spec, spread_shift]
    refine ⟨quality_shift P X c B _, ?_, rfl⟩
    dsimp only
    rw [apBias_congr P _ (quality_shift P X c B _), bias_shift]
  have hlock := loop_lockstep (x := maskX P X) (x' := maskX P fun j i r => X j i r + c) Rel
    (by
      rintro k s b s' b' ⟨S, B, rfl, rfl, rfl, rfl⟩
      rw [(hst k S B).1, step_spec]
      dsimp only
      by_cases hv : ∀ j, (votesOnVideo P j).Nonempty
      · rw [norm_mask P _ _ hv, norm_mask P _ _ hv]
        congr 4
        funext j
        ring
      · push Not at hv
        obtain ⟨j, hj⟩ := hv
        have hj' : ¬ (votesOnVideo P j).Nonempty := by rw [hj]; simp
        rw [norm_mask_error P _ _ j hj', norm_mask_error P _ _ j hj'])
    (by
      rintro k s b s' b' ⟨S, B, rfl, rfl, rfl, rfl⟩
      refine ⟨apQuality P X B (apSpread P X S B), apBias P X (apQuality P X B (apSpread P X S B)), ?_, ?_, ?_, ?_⟩
      · rw [step_spec]
      · rw [step_spec]
      · exact (hst k S B).1
      · rw [(hst k S B).2.1, step_spec])
    0 (meanAlongS (maskX P X)) (biases (maskX P X) (meanAlongS (maskX P X)))
    (meanAlongS (maskX P fun j i r => X j i r + c))
    (biases (maskX P fun j i r => X j i r + c) (meanAlongS (maskX P fun j i r => X j i r + c)))
    (by
      have h0 : (maskS P fun j => avg (votesOnVideo P j) fun p => X j p.1 p.2 + c)
          = maskS P fun j => (avg (votesOnVideo P j) fun p => X j p.1 p.2) + c :=
        maskS_congr P fun j hj => avg_add_const hj _ _
      refine ⟨fun j => avg (votesOnVideo P j) fun p => X j p.1 p.2,
        apBias P X fun j => avg (votesOnVideo P j) fun p => X j p.1 p.2, init_spec P X, ?_, ?_, ?_⟩
      · rw [init_spec, biases_spec]
      · rw [init_spec, h0]
      · rw [init_spec, biases_spec, apBias_congr P _ h0, bias_shift])
  have hfe : fit a.get = loop (maskX P X) 0 (meanAlongS (maskX P X)) (biases (maskX P X) (meanAlongS (maskX P X))) := by
    rw [hX]; rfl
  have hfe' : fit (fun j i r => affine 1 c (a.get j i r)) = loop (maskX P fun j i r => X j i r + c) 0
      (meanAlongS (maskX P fun j i r => X j i r + c))
      (biases (maskX P fun j i r => X j i r + c) (meanAlongS (maskX P fun j i r => X j i r + c))) := by
    rw [hX']; rfl
  rw [← hfe, ← hfe'] at hlock
  have hfit : (∃ e, fit a.get = .error e ∧ fit (fun j i r => affine 1 c (a.get j i r)) = .error e) ∨
      ∃ f f', fit a.get = .ok f ∧ fit (fun j i r => affine 1 c (a.get j i r)) = .ok f' := by
    rcases hlock with h | ⟨k, s1, b1, s1', b1', _, h1, h2⟩
    · exact Or.inl h
    · exact Or.inr ⟨_, _, h1, h2⟩
  rcases ap_lockstep (sd := sd) hobs' ha ha' z hfit hobs with h | ⟨res, res', f, f', h1, h2, hf, hf', q, q', b, b', v, v', n, n'⟩
  · exact Or.inl h
  right
  refine ⟨res, res', h1, h2, ?_⟩
  rcases hlock with ⟨e, h, _⟩ | ⟨k, s1, b1, s1', b1', ⟨S, B, rfl, rfl, rfl, rfl⟩, g1, g2⟩
  · rw [h] at hf; cases hf
  dsimp only at f' hf' q' b' v' n'
  rw [g1] at hf
  rw [g2] at hf'
  injection hf with hf
  injection hf' with hf'
  have hs' : f'.s = maskS P fun j => apQuality P X B (apSpread P X S B) j + c := by rw [← hf']; exact (hst k S B).1
  have hs : f.s = maskS P (apQuality P X B (apSpread P X S B)) := by rw [← hf, step_spec]
  have hb : f.b = maskB P (apBias P X (apQuality P X B (apSpread P X S B))) := by rw [← hf, step_spec]
  have hb' : f'.b = f.b := by rw [← hf', ← hf]; exact (hst k S B).2.1
  have hv' : f'.vi = f.vi := by rw [← hf', ← hf]; exact (hst k S B).2.2
  have hn' : f'.itr = f.itr := by rw [← hf', ← hf]; rfl
  have hcen := centre_shift P (apQuality P X B (apSpread P X S B)) (apBias P X (apQuality P X B (apSpread P X S B))) c
    (z != some (some false))
  rw [← hs', ← hs, ← hb] at hcen
  refine ⟨?_, ?_, ?_, ?_⟩
  · rw [q, q', hb', hcen, List.map_ofFn]; rfl
  · rw [b, b', hb', hcen]
  · rw [v, v', hv']
  · rw [n, n', hn']

/-! ## C30 -/

/-- **C30**.  All votes present: adding `d s` to all votes of observer `s` shifts all quality scores by the mean of `d`
and the bias of `s` by `d s - mean d`; inconsistencies and iterations do not change. -/
theorem C30_observer_offset (sd : StdFormula) (rd rd' : Reader κ ℝ) (hobs : ObserversHarmless rd)
    (hobs' : ObserversHarmless rd') (E S R : ℕ) (hE : 0 < E) (hS : 0 < S) (hR : 0 < R) (x : Fin E → Fin S → Fin R → ℝ)
    (d : Fin S → ℝ) (ha : rd.scores = .ok ⟨E, S, R, fun e s r => .fin (x e s r)⟩)
    (ha' : rd'.scores = .ok ⟨E, S, R, fun e s r => .fin (x e s r + d s)⟩) (z : Flag) :
    ∃ (res res' : Result κ ℝ) (q : Fin E → ℝ) (b : Fin S → ℝ), runAPWith sd rd { forceSubjbiasZeromean := z } = .ok res ∧
      runAPWith sd rd' { forceSubjbiasZeromean := z } = .ok res' ∧
      res.qualityScores = List.ofFn (fun e : Fin E => .fin (q e)) ∧
      res'.qualityScores = List.ofFn (fun e : Fin E => .fin (q e + (∑ s, d s) / S)) ∧
      res.observerBias = some (List.ofFn fun s : Fin S => .fin (b s)) ∧
      res'.observerBias = some (List.ofFn fun s : Fin S => .fin (b s + (d s - (∑ s, d s) / S))) ∧
      res'.observerInconsistency = res.observerInconsistency ∧
      res'.numIter = res.numIter := by
  set P : Fin E → Fin S → Fin R → Bool := fun _ _ _ => true with hP
  set m := (∑ s, d s) / S with hm
  have hV : ∀ j, (votesOnVideo P j).Nonempty := fun j => (full_video hS hR j).2
  have hO : ∀ i, (votesOfObserver P i).Nonempty := fun i => (full_observer hE hR i).2
  have hspread : ∀ A B, apSpread P (fun e s r => x e s r + d s) (fun j => A j + m) (fun i => B i + (d i - m)) = apSpread P x A B := by
    intro A B; funext i
    exact spread_congr fun c _ => by ring
  have hqual : ∀ B V, apQuality P (fun e s r => x e s r + d s) (fun i => B i + (d i - m)) V = fun j => apQuality P x B V j + m := by
    intro B V; funext j
    unfold apQuality
    rw [← wavg_add_const (hV j) (fun _ => apWeight_pos _)]
    exact wavg_congr (fun c _ => by ring) fun _ _ => rfl
  have hbias : ∀ A, apBias P (fun e s r => x e s r + d s) (fun j => A j + m) = fun i => apBias P x A i + (d i - m) := by
    intro A; funext i
    unfold apBias
    rw [← avg_add_const (hO i)]
    exact avg_congr fun c _ => by ring
  let Rel : Arr1 (Fl ℝ) E → Arr1 (Fl ℝ) S → Arr1 (Fl ℝ) E → Arr1 (Fl ℝ) S → Prop := fun s b s' b' =>
    ∃ A B, s = maskS P A ∧ b = maskB P B ∧ s' = maskS P (fun j => A j + m) ∧ b' = maskB P (fun i => B i + (d i - m))
  have hlock := loop_lockstep (x := maskX P x) (x' := maskX P fun e s r => x e s r + d s) Rel
    (by
      rintro k s b s' b' ⟨A, B, rfl, rfl, rfl, rfl⟩
      rw [step_spec, step_spec, hspread, hqual]
      dsimp only
      rw [norm_mask P _ _ hV, norm_mask P _ _ hV]
      congr 4
      funext j
      ring)
    (by
      rintro k s b s' b' ⟨A, B, rfl, rfl, rfl, rfl⟩
      rw [step_spec, step_spec, hspread, hqual, hbias]
      exact ⟨_, _, rfl, rfl, rfl, rfl⟩)
    0 (meanAlongS (maskX P x)) (biases (maskX P x) (meanAlongS (maskX P x)))
    (meanAlongS (maskX P fun e s r => x e s r + d s))
    (biases (maskX P fun e s r => x e s r + d s) (meanAlongS (maskX P fun e s r => x e s r + d s)))
    (by
      have h0 : (fun j => avg (votesOnVideo P j) fun c => x j c.1 c.2 + d c.1)
          = fun j => (avg (votesOnVideo P j) fun c => x j c.1 c.2) + m := by
        funext j
        rw [(full_video hS hR j).1, hm, ← avg_fst hR d]
        unfold avg
        rw [← add_div, Finset.sum_add_distrib]
      rw [init_spec, init_spec, h0, biases_spec, biases_spec, hbias]
      exact ⟨_, _, rfl, rfl, rfl, rfl⟩)
  have hgood : ∃ f, fit (maskX P x) = .ok f := by
    rcases fit_mask P x with ⟨⟨j, hj⟩, _⟩ | ⟨_, k, A, B, _, h⟩
    · exact absurd (hV j) hj
    · exact ⟨_, h⟩
  rcases hlock with ⟨e, h, _⟩ | ⟨k, s1, b1, s1', b1', ⟨A, B, rfl, rfl, rfl, rfl⟩, g1, g2⟩
  · obtain ⟨f, hf⟩ := hgood
    unfold fit at hf
    rw [hf] at h; cases h
  rw [step_spec] at g1
  rw [step_spec, hspread, hqual, hbias] at g2
  rcases ap_lockstep (sd := sd) hobs' ha ha' z (Or.inr ⟨_, _, g1, g2⟩) hobs with
    ⟨e, he, _⟩ | ⟨res, res', f, f', h1, h2, hf, hf', q, q', b, b', v, v', n, n'⟩
  · rw [(ap_runs hobs (preprocess_zeromean ha z)).1 _ g1 |>.choose_spec] at he; cases he
  set Q := apQuality P x B (apSpread P x A B) with hQ
  have hf0 := hf.symm.trans g1
  have hf0' := hf'.symm.trans g2
  injection hf0 with hf0
  injection hf0' with hf0'
  subst hf0 hf0'
  have hcen : ∀ (Q : Fin E → ℝ) (B : Fin S → ℝ), centre (z != some (some false)) (maskS P Q) (maskB P B)
      = (fun j => .fin (if (z != some (some false)) = true then Q j + (∑ i, B i) / S else Q j),
         fun i => .fin (if (z != some (some false)) = true then B i - (∑ i, B i) / S else B i)) := by
    intro Q B
    have hs : maskS P Q = fun j => .fin (Q j) := by funext j; simp [maskS, hV j]
    have hb : maskB P B = fun j => .fin (B j) := by funext j; simp [maskB, hO j]
    unfold centre
    cases (z != some (some false))
    · simp [hs, hb]
    · rw [if_pos rfl, mean_maskB, decide_eq_true ⟨hS, hO⟩, hs, hb]
      simp
  have hsum : (∑ i, (apBias P x Q i + (d i - m))) / (S : ℝ) = (∑ i, apBias P x Q i) / S := by
    rw [Finset.sum_add_distrib, Finset.sum_sub_distrib, Finset.sum_const, Finset.card_univ, Fintype.card_fin, nsmul_eq_mul, hm]
    have : (S : ℝ) ≠ 0 := by positivity
    field_simp; ring
  rw [hcen] at q q' b b'
  rw [hsum] at q' b'
  refine ⟨res, res', _, _, h1, h2, q, ?_, b, ?_, by rw [v, v'], by rw [n, n']⟩
  · rw [q']
    congr 1; funext j
    congr 1
    split <;> ring
  · rw [b']
    congr 2; funext j
    congr 1
    split <;> ring

/-! ## C31 -/

section
variable {J I R : ℕ} (P : Fin J → Fin I → Fin R → Bool) (X : Fin J → Fin I → Fin R → ℝ) (τ : Equiv.Perm (Fin J)) (σ : Equiv.Perm (Fin I))

theorem video_perm (j : Fin J) (c : Fin I × Fin R) :
    c ∈ votesOnVideo (fun j i r => P (τ j) (σ i) r) j ↔ σ.prodCongr (Equiv.refl _) c ∈ votesOnVideo P (τ j) := by
  simp [votesOnVideo]

theorem observer_perm (i : Fin I) (c : Fin J × Fin R) :
    c ∈ votesOfObserver (fun j i r => P (τ j) (σ i) r) i ↔ τ.prodCongr (Equiv.refl _) c ∈ votesOfObserver P (σ i) := by
  simp [votesOfObserver]

theorem video_perm_nonempty (j : Fin J) :
    (votesOnVideo (fun j i r => P (τ j) (σ i) r) j).Nonempty ↔ (votesOnVideo P (τ j)).Nonempty := by
  rw [← Finset.card_pos, ← Finset.card_pos, card_equiv' _ (video_perm P τ σ j)]

theorem observer_perm_nonempty (i : Fin I) :
    (votesOfObserver (fun j i r => P (τ j) (σ i) r) i).Nonempty ↔ (votesOfObserver P (σ i)).Nonempty := by
  rw [← Finset.card_pos, ← Finset.card_pos, card_equiv' _ (observer_perm P τ σ i)]

theorem maskS_perm (S : Fin J → ℝ) : maskS (fun j i r => P (τ j) (σ i) r) (fun j => S (τ j)) = fun j => maskS P S (τ j) := by
  funext j
  unfold maskS
  congr 1
  exact decide_eq_decide.mpr (video_perm_nonempty P τ σ j)

theorem maskB_perm (B : Fin I → ℝ) : maskB (fun j i r => P (τ j) (σ i) r) (fun i => B (σ i)) = fun i => maskB P B (σ i) := by
  funext j
  unfold maskB
  congr 1
  exact decide_eq_decide.mpr (observer_perm_nonempty P τ σ j)

theorem spread_perm (S : Fin J → ℝ) (B : Fin I → ℝ) :
    apSpread (fun j i r => P (τ j) (σ i) r) (fun j i r => X (τ j) (σ i) r) (fun j => S (τ j)) (fun i => B (σ i))
      = fun i => apSpread P X S B (σ i) := by
  funext i
  exact spread_equiv _ (observer_perm P τ σ i) fun c => X c.1 (σ i) c.2 - S c.1 - B (σ i)

theorem quality_perm (B V : Fin I → ℝ) :
    apQuality (fun j i r => P (τ j) (σ i) r) (fun j i r => X (τ j) (σ i) r) (fun i => B (σ i)) (fun i => V (σ i))
      = fun j => apQuality P X B V (τ j) := by
  funext j
  exact wavg_equiv _ (video_perm P τ σ j) (fun c => apWeight (V c.1)) fun c => X (τ j) c.1 c.2 - B c.1

theorem bias_perm (S : Fin J → ℝ) :
    apBias (fun j i r => P (τ j) (σ i) r) (fun j i r => X (τ j) (σ i) r) (fun j => S (τ j)) = fun i => apBias P X S (σ i) := by
  funext i
  exact avg_equiv _ (observer_perm P τ σ i) fun c => X c.1 (σ i) c.2 - S c.1

theorem centre_perm (S : Fin J → ℝ) (B : Fin I → ℝ) (z : Bool) :
    centre z (fun j => maskS P S (τ j)) (fun i => maskB P B (σ i))
      = (fun j => (centre z (maskS P S) (maskB P B)).1 (τ j), fun i => (centre z (maskS P S) (maskB P B)).2 (σ i)) := by
  unfold centre
  cases z
  · rfl
  · rw [if_pos rfl, if_pos rfl, ← maskB_perm P τ σ, mean_maskB, mean_maskB, maskB_perm P τ σ]
    have h1 : (0 < I ∧ ∀ i, (votesOfObserver (fun j i r => P (τ j) (σ i) r) i).Nonempty) ↔
        (0 < I ∧ ∀ i, (votesOfObserver P i).Nonempty) := by
      refine and_congr_right fun _ => ⟨fun h i => ?_, fun h i => (observer_perm_nonempty P τ σ i).mpr (h _)⟩
      have := (observer_perm_nonempty P τ σ (σ.symm i)).mp (h _)
      rwa [Equiv.apply_symm_apply] at this
    rw [decide_eq_decide.mpr h1, Equiv.sum_comp σ B]
end

/-- **C31**.  Reordering the videos by `τ` and the observers by `σ` gives the same exception, or the same result with
the scores reordered by `τ` and the biases and inconsistencies reordered by `σ`. -/
theorem C31_order_independent (sd : StdFormula) (rd rd' : Reader κ ℝ) (hobs : ObserversHarmless rd)
    (hobs' : ObserversHarmless rd') (E S R : ℕ) (x : Fin E → Fin S → Fin R → Fl ℝ) (hc : ∀ j i r, NumOrNan (x j i r))
    (τ : Equiv.Perm (Fin E)) (σ : Equiv.Perm (Fin S)) (ha : rd.scores = .ok ⟨E, S, R, x⟩)
    (ha' : rd'.scores = .ok ⟨E, S, R, fun j i r => x (τ j) (σ i) r⟩) (z : Flag) :
    (∃ e, runAPWith sd rd { forceSubjbiasZeromean := z } = .error e ∧
      runAPWith sd rd' { forceSubjbiasZeromean := z } = .error e) ∨
    (∃ (res res' : Result κ ℝ) (q : Fin E → Fl ℝ) (b v : Fin S → Fl ℝ),
      runAPWith sd rd { forceSubjbiasZeromean := z } = .ok res ∧
      runAPWith sd rd' { forceSubjbiasZeromean := z } = .ok res' ∧
      res.qualityScores = List.ofFn q ∧ res'.qualityScores = List.ofFn (fun j => q (τ j)) ∧
      res.observerBias = some (List.ofFn b) ∧ res'.observerBias = some (List.ofFn fun i => b (σ i)) ∧
      res.observerInconsistency = some (List.ofFn v) ∧ res'.observerInconsistency = some (List.ofFn fun i => v (σ i)) ∧
      res'.numIter = res.numIter) := by
  obtain ⟨P, X, hX⟩ := clean_mask (a := ⟨E, S, R, x⟩) hc
  dsimp only at P X hX
  set P' : Fin E → Fin S → Fin R → Bool := fun j i r => P (τ j) (σ i) r with hP'
  set X' : Fin E → Fin S → Fin R → ℝ := fun j i r => X (τ j) (σ i) r with hXd'
  have hX' : (fun j i r => x (τ j) (σ i) r) = maskX P' X' := by rw [hX]; rfl
  let Rel : Arr1 (Fl ℝ) E → Arr1 (Fl ℝ) S → Arr1 (Fl ℝ) E → Arr1 (Fl ℝ) S → Prop := fun s b s' b' =>
    ∃ A B, s = maskS P A ∧ b = maskB P B ∧ s' = maskS P' (fun j => A (τ j)) ∧ b' = maskB P' (fun i => B (σ i))
  have hlock := loop_lockstep (x := maskX P X) (x' := maskX P' X') Rel
    (by
      rintro k s b s' b' ⟨A, B, rfl, rfl, rfl, rfl⟩
      rw [step_spec, step_spec, spread_perm, quality_perm]
      dsimp only
      by_cases hv : ∀ j, (votesOnVideo P j).Nonempty
      · rw [norm_mask P _ _ hv, norm_mask P' _ _ fun j => (video_perm_nonempty P τ σ j).mpr (hv _)]
        congr 3
        exact (Equiv.sum_comp τ fun j => (A j - apQuality P X B (apSpread P X A B) j) ^ 2).symm
      · push Not at hv
        obtain ⟨j, hj⟩ := hv
        have hj' : ¬ (votesOnVideo P j).Nonempty := by rw [hj]; simp
        rw [norm_mask_error P _ _ j hj', norm_mask_error P' _ _ (τ.symm j)
          (fun h => hj' (by have := (video_perm_nonempty P τ σ _).mp h; rwa [Equiv.apply_symm_apply] at this))])
    (by
      rintro k s b s' b' ⟨A, B, rfl, rfl, rfl, rfl⟩
      rw [step_spec, step_spec, spread_perm, quality_perm, bias_perm]
      exact ⟨_, _, rfl, rfl, rfl, rfl⟩)
    0 (meanAlongS (maskX P X)) (biases (maskX P X) (meanAlongS (maskX P X)))
    (meanAlongS (maskX P' X')) (biases (maskX P' X') (meanAlongS (maskX P' X')))
    (by
      have h0 : (fun j => avg (votesOnVideo P' j) fun c => X' j c.1 c.2)
          = fun j => (fun j => avg (votesOnVideo P j) fun c => X j c.1 c.2) (τ j) := by
        funext j
        exact avg_equiv _ (video_perm P τ σ j) fun c => X (τ j) c.1 c.2
      rw [init_spec, init_spec, h0, biases_spec, biases_spec,
        bias_perm P X τ σ fun j => avg (votesOnVideo P j) fun c => X j c.1 c.2]
      exact ⟨_, _, rfl, rfl, rfl, rfl⟩)
  have hfe : fit x = loop (maskX P X) 0 (meanAlongS (maskX P X)) (biases (maskX P X) (meanAlongS (maskX P X))) := by
    rw [hX]; rfl
  have hfe' : fit (fun j i r => x (τ j) (σ i) r) = loop (maskX P' X') 0 (meanAlongS (maskX P' X'))
      (biases (maskX P' X') (meanAlongS (maskX P' X'))) := by
    rw [hX']; rfl
  rw [← hfe, ← hfe'] at hlock
  rcases hlock with ⟨e, h, h'⟩ | ⟨k, s1, b1, s1', b1', ⟨A, B, rfl, rfl, rfl, rfl⟩, g1, g2⟩
  · left
    rcases ap_lockstep (sd := sd) hobs' ha ha' z (Or.inl ⟨e, h, h'⟩) hobs with h1 | ⟨_, _, f, _, _, _, hf, _⟩
    · exact h1
    · dsimp only at f hf; rw [h] at hf; cases hf
  right
  rw [step_spec] at g1
  rw [step_spec, spread_perm, quality_perm, bias_perm, maskS_perm, maskB_perm, maskB_perm] at g2
  rcases ap_lockstep (sd := sd) hobs' ha ha' z (Or.inr ⟨_, _, g1, g2⟩) hobs with
    ⟨e, he, _⟩ | ⟨res, res', f, f', h1, h2, hf, hf', q, q', b, b', v, v', n, n'⟩
  · rw [(ap_runs hobs (preprocess_zeromean ha z)).1 _ g1 |>.choose_spec] at he; cases he
  have hf0 := hf.symm.trans g1
  have hf0' := hf'.symm.trans g2
  injection hf0 with hf0
  injection hf0' with hf0'
  subst hf0 hf0'
  dsimp only at q' b' v'
  rw [centre_perm] at q' b'
  exact ⟨res, res', _, _, _, h1, h2, q, q', b, b', v, v', by rw [n, n']⟩

/-! ## C32 -/

/-- the states (quality scores, biases) the solver goes through -/
inductive Reach {J I R : ℕ} (x : Arr3 (Fl ℝ) J I R) : Arr1 (Fl ℝ) J → Arr1 (Fl ℝ) I → Prop
  | init : Reach x (meanAlongS x) (biases x (meanAlongS x))
  | next {s b} (k : ℕ) : Reach x s b → Reach x (step x k s b).s (step x k s b).b

/-- the loop returns one of the states it goes through -/
theorem fit_reach {J I R : ℕ} {x : Arr3 (Fl ℝ) J I R} {f : Fit ℝ J I} (hf : fit x = .ok f) :
    ∃ k s b, Reach x s b ∧ f = step x k s b := by
  unfold fit at hf
  rcases loop_inv (x := x) (Reach x) (fun k s b h => h.next k) 0 _ _ .init (by unfold maxItr; norm_num) with
    ⟨e, k, s1, b1, _, _, h3⟩ | ⟨k, s1, b1, d, _, _, h2, _, h3⟩
  · rw [hf] at h3; cases h3
  · rw [hf] at h3
    injection h3 with h3
    exact ⟨k, s1, b1, h2, h3⟩

/-- **C32**.  In every iteration, the new quality score of a rated video is a weighted average of the bias-corrected
votes on that video.  The weights are positive, an observer with a smaller residual spread has a larger weight, and so
the score lies between the smallest and the largest bias-corrected vote. -/
theorem C32_convex_update (J I R : ℕ) (x : Fin J → Fin I → Fin R → Fl ℝ) (hc : ∀ j i r, NumOrNan (x j i r))
    (s : Arr1 (Fl ℝ) J) (b : Arr1 (Fl ℝ) I) (hreach : Reach x s b) (k : ℕ) :
    ∃ w : Fin I → ℝ, (∀ i, 0 < w i) ∧
      (∀ i i' v v', (step x k s b).vi i = .fin v → (step x k s b).vi i' = .fin v' → v < v' → w i' < w i) ∧
      ∀ j, (∃ i r v, x j i r = .fin v) →
        ∃ (A : Finset (Fin I × Fin R)) (y : Fin I × Fin R → ℝ) (q : ℝ),
          (∀ c, c ∈ A ↔ ∃ v, x j c.1 c.2 = .fin v) ∧ (∀ c ∈ A, x j c.1 c.2 - b c.1 = .fin (y c)) ∧
          (step x k s b).s j = .fin q ∧ q = (∑ c ∈ A, w c.1 * y c) / ∑ c ∈ A, w c.1 ∧
          ∀ lo hi, (∀ c ∈ A, lo ≤ y c ∧ y c ≤ hi) → lo ≤ q ∧ q ≤ hi := by
  obtain ⟨P, X, hX⟩ := clean_mask (a := ⟨J, I, R, x⟩) hc
  dsimp only at P X hX
  subst hX
  have hm : Masked P s b := by
    induction hreach with
    | init => exact masked_init P X
    | next k _ ih => exact masked_step P X k _ _ ih
  obtain ⟨S, B, rfl, rfl⟩ := hm
  refine ⟨fun i => apWeight (apSpread P X S B i), fun i => apWeight_pos _, ?_, ?_⟩
  · intro i i' v v' h1 h2 h
    rw [step_spec] at h1 h2
    simp only [maskB, mask] at h1 h2
    split at h1 <;> [skip; cases h1]
    split at h2 <;> [skip; cases h2]
    injection h1 with h1
    injection h2 with h2
    have h0 : 0 ≤ v := by rw [← h1]; exact Real.sqrt_nonneg _
    dsimp only
    rw [h1, h2]
    unfold apWeight
    exact one_div_lt_one_div_of_lt (by positivity) (by nlinarith)
  · intro j hj
    have hv := (mask_nonempty_video (P := P) (X := X) j).mpr hj
    refine ⟨votesOnVideo P j, fun c => X j c.1 c.2 - B c.1, apQuality P X B (apSpread P X S B) j, ?_, ?_, ?_, ?_, ?_⟩
    · intro c
      simp only [votesOnVideo, Finset.mem_filter, Finset.mem_univ, true_and, maskX]
      cases P j c.1 c.2 <;> simp
    · intro c hcA
      simp only [votesOnVideo, Finset.mem_filter, Finset.mem_univ, true_and] at hcA
      simp [maskX, maskB, hcA, voter_of hcA]
    · rw [step_spec]; simp [maskS, hv]
    · unfold apQuality wavg
      simp only [mul_comm]
    · intro lo hi h
      exact wavg_bounds hv (fun _ => apWeight_pos _) h

/-! ## the hypotheses can be met -/

theorem arr_harmless (E S R : ℕ) (a : Arr3 (Fl ℝ) E S R) : ObserversHarmless (arrReader E S R a) := by
  unfold ObserversHarmless arrReader
  simp

theorem exArr_rated : CleanVotes ⟨2, 2, 1, exArr⟩ ∧ EveryVideoRated ⟨2, 2, 1, exArr⟩ ∧ EveryObserverVoted ⟨2, 2, 1, exArr⟩ := by
  refine ⟨exArr_clean, fun j => ?_, fun i => ?_⟩
  · dsimp only at j
    fin_cases j
    · exact ⟨0, 0, 1, rfl⟩
    · exact ⟨0, 0, 4, rfl⟩
  · dsimp only at i
    fin_cases i
    · exact ⟨0, 0, 1, rfl⟩
    · exact ⟨0, 0, 3, rfl⟩

/-- C27 and C29 on votes with a missing one -/
example (sd : StdFormula) : ∃ res res', runAPWith sd (arrReader 2 2 1 exArr) {} = .ok res ∧
    runAPWith sd (arrReader 2 2 1 fun e s r => affine 1 7 (exArr e s r)) {} = .ok res' ∧
    res'.qualityScores = res.qualityScores.map (affine 1 7) := by
  obtain ⟨res, h⟩ := (C27_succeeds_iff sd (arrReader 2 2 1 exArr) (arr_harmless _ _ _ _) _ rfl exArr_rated.1 none).1 exArr_rated.2.1
  rcases C29_shift_equivariant sd (arrReader 2 2 1 exArr) (arrReader 2 2 1 fun e s r => affine 1 7 (exArr e s r))
    (arr_harmless _ _ _ _) (arr_harmless _ _ _ _) _ rfl exArr_rated.1 7 rfl none with ⟨e, he, _⟩ | ⟨r, r', h1, h2, h3, _⟩
  · rw [h] at he; cases he
  · exact ⟨r, r', h1, h2, h3⟩

/-- C28: two videos, three observers, votes `q e + b s` -/
example (sd : StdFormula) : ∃ res, runAPWith sd (arrReader 2 3 1 fun e s _ => .fin (![1, 4] e + ![0, 1, -4] s)) {} = .ok res ∧
    res.qualityScores = [.fin 0, .fin 3] ∧ res.observerBias = some [.fin 1, .fin 2, .fin (-3)] := by
  obtain ⟨res, h1, h2, h3, _⟩ := C28_additive_recovery sd _ (arr_harmless 2 3 1 fun e s _ => .fin (![1, 4] e + ![0, 1, -4] s)) 2 3 1
    (by norm_num) (by norm_num) (by norm_num) ![1, 4] ![0, 1, -4] rfl none
  refine ⟨res, h1, ?_, ?_⟩
  · rw [h2]; simp [List.ofFn_succ, Fin.sum_univ_succ]; norm_num
  · rw [h3]; simp [List.ofFn_succ, Fin.sum_univ_succ]; norm_num

/-- C30: the second observer votes 3 higher -/
example (sd : StdFormula) (x : Fin 2 → Fin 3 → Fin 1 → ℝ) : ∃ (res res' : Result String ℝ) (q : Fin 2 → ℝ),
    runAPWith sd (arrReader 2 3 1 fun e s r => .fin (x e s r)) {} = .ok res ∧
    runAPWith sd (arrReader 2 3 1 fun e s r => .fin (x e s r + ![0, 3, 0] s)) {} = .ok res' ∧
    res.qualityScores = List.ofFn (fun e => .fin (q e)) ∧ res'.qualityScores = List.ofFn (fun e => .fin (q e + 1)) := by
  obtain ⟨res, res', q, b, h1, h2, h3, h4, _⟩ := C30_observer_offset sd _ _
    (arr_harmless 2 3 1 fun e s r => .fin (x e s r)) (arr_harmless 2 3 1 fun e s r => .fin (x e s r + ![0, 3, 0] s)) 2 3 1
    (by norm_num) (by norm_num) (by norm_num) x ![0, 3, 0] rfl rfl none
  refine ⟨res, res', q, h1, h2, h3, ?_⟩
  rw [h4]
  simp [Fin.sum_univ_succ]

/-- C31: videos and observers swapped -/
example (sd : StdFormula) : ∃ (res res' : Result String ℝ) (q : Fin 2 → Fl ℝ),
    runAPWith sd (arrReader 2 2 1 exArr) {} = .ok res ∧
    runAPWith sd (arrReader 2 2 1 fun e s r => exArr (Equiv.swap 0 1 e) (Equiv.swap 0 1 s) r) {} = .ok res' ∧
    res.qualityScores = [q 0, q 1] ∧ res'.qualityScores = [q 1, q 0] := by
  obtain ⟨res, h⟩ := (C27_succeeds_iff sd (arrReader 2 2 1 exArr) (arr_harmless _ _ _ _) _ rfl exArr_rated.1 none).1 exArr_rated.2.1
  rcases C31_order_independent sd (arrReader 2 2 1 exArr) (arrReader 2 2 1 fun e s r => exArr (Equiv.swap 0 1 e) (Equiv.swap 0 1 s) r)
    (arr_harmless _ _ _ _) (arr_harmless _ _ _ _) 2 2 1 exArr exArr_clean _ _ rfl rfl none with ⟨e, he, _⟩ | ⟨r, r', q, _, _, h1, h2, h3, h4, _⟩
  · rw [h] at he; cases he
  · exact ⟨r, r', q, h1, h2, by rw [h3]; simp [List.ofFn_succ], by rw [h4]; simp [List.ofFn_succ]⟩

/-- C32: the first and the second state of the solver -/
example : Reach exArr (meanAlongS exArr) (biases exArr (meanAlongS exArr)) ∧
    Reach exArr (step exArr 0 (meanAlongS exArr) (biases exArr (meanAlongS exArr))).s
      (step exArr 0 (meanAlongS exArr) (biases exArr (meanAlongS exArr))).b := ⟨.init, .next 0 .init⟩

end Sureal.Props
