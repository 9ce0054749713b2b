import Verif.Lemmas.RejectSym
import Verif.Props.Rejection
/-!
# C156: what the screening of observers does not depend on, and what it does
-/
set_option linter.unusedSectionVars false
namespace Sureal.Props
open Sureal Spec RejectSym
variable {κ : Type} {E S R : ℕ}

/-- **C156** for SR_MOS (BT500).  The same votes in another order (of videos, of observers, of the repeated votes of an observer on a video), with another
unit and another zero on every video, and on a scale of the same or of the other direction: the same observers are rejected, with the same reported
statistics, and the score of every video is the former one on the new scale. -/
theorem C156_bt500_partial (rd rd' : Reader κ ℝ) (τ : Equiv.Perm (Fin E)) (σ : Equiv.Perm (Fin S)) (ρ : Fin E → Fin S → Equiv.Perm (Fin R))
    (u z : Fin E → ℝ) (hu : OneDirection u) (a : Arr3 (Fl ℝ) E S R) (hc : ∀ e s r, NumOrNan (a e s r)) (ha : rd.scores = .ok ⟨E, S, R, a⟩)
    (ha' : rd'.scores = .ok ⟨E, S, R, recast τ σ ρ u z a⟩) (res res' : Result κ ℝ) (hr : runSR_MOS rd {} = .ok res) (hr' : runSR_MOS rd' {} = .ok res') :
    ∃ (flags : Fin S → Bool) (s1 s2 : Fin S → Fl ℝ) (q : Fin E → Fl ℝ),
      (∀ s, flags s = true ↔ Rejects a s) ∧
      res.observerRejected = some (List.ofFn flags) ∧ res'.observerRejected = some (List.ofFn fun i => flags (σ i)) ∧
      res.observerRejectedStats1 = some (List.ofFn s1) ∧ res'.observerRejectedStats1 = some (List.ofFn fun i => s1 (σ i)) ∧
      res.observerRejectedStats2 = some (List.ofFn s2) ∧ res'.observerRejectedStats2 = some (List.ofFn fun i => s2 (σ i)) ∧
      res.qualityScores = List.ofFn q ∧ res'.qualityScores = List.ofFn fun j => affine (u (τ j)) (z (τ j)) (q (τ j)) := by
  have hk : runModeling mosRunModeling rd { subjectRejection := yes } = .ok res := hr
  have hk' : runModeling mosRunModeling rd' { subjectRejection := yes } = .ok res' := hr'
  have e := runModeling_mos (preprocess_kurtosis ha) hk
  have e' := runModeling_mos (preprocess_kurtosis ha') hk'
  obtain ⟨flags, s1, s2, q, h0, h1, h1', h2, h2', h3, h3', h4, h4'⟩ := kurtosis_recast τ σ ρ u z a hu hc
  refine ⟨flags, s1, s2, q, h0, ?_, ?_, ?_, ?_, ?_, ?_, ?_, ?_⟩
  · rw [← h1, e]; rfl
  · rw [← h1', e']; rfl
  · rw [← h2, e]; rfl
  · rw [← h2', e']; rfl
  · rw [← h3, e]; rfl
  · rw [← h3', e']; rfl
  · rw [← h4, e]; rfl
  · rw [← h4', e']; rfl

/-- **C156** for BR_SR_MOS (P913).  The same with one unit for all videos (the zeros may differ): the biases are the former ones in the new unit. -/
theorem C156_p913_recast (rd rd' : Reader κ ℝ) (τ : Equiv.Perm (Fin E)) (σ : Equiv.Perm (Fin S)) (ρ : Fin E → Fin S → Equiv.Perm (Fin R))
    (c : ℝ) (hc0 : c ≠ 0) (z : Fin E → ℝ) (a : Arr3 (Fl ℝ) E S R) (hc : ∀ e s r, NumOrNan (a e s r)) (ha : rd.scores = .ok ⟨E, S, R, a⟩)
    (ha' : rd'.scores = .ok ⟨E, S, R, recast τ σ ρ (fun _ => c) z a⟩) (res res' : Result κ ℝ) (hr : runBR_SR_MOS rd {} = .ok res)
    (hr' : runBR_SR_MOS rd' {} = .ok res') :
    ∃ (flags : Fin S → Bool) (s1 s2 b : Fin S → Fl ℝ) (q : Fin E → Fl ℝ),
      res.observerRejected = some (List.ofFn flags) ∧ res'.observerRejected = some (List.ofFn fun i => flags (σ i)) ∧
      res.observerRejectedStats1 = some (List.ofFn s1) ∧ res'.observerRejectedStats1 = some (List.ofFn fun i => s1 (σ i)) ∧
      res.observerRejectedStats2 = some (List.ofFn s2) ∧ res'.observerRejectedStats2 = some (List.ofFn fun i => s2 (σ i)) ∧
      res.observerBias = some (List.ofFn b) ∧ res'.observerBias = some (List.ofFn fun i => affine c 0 (b (σ i))) ∧
      res.qualityScores = List.ofFn q ∧ res'.qualityScores = List.ofFn fun j => affine c (z (τ j)) (q (τ j)) := by
  have hu : OneDirection fun _ : Fin E => c := by
    rcases lt_or_gt_of_ne hc0 with h | h
    · exact Or.inr fun _ => h
    · exact Or.inl fun _ => h
  have hk : runModeling biasremvRunModeling rd { biasOffset := yes, subjectRejection := yes } = .ok res := hr
  have hk' : runModeling biasremvRunModeling rd' { biasOffset := yes, subjectRejection := yes } = .ok res' := hr'
  have e := runModeling_bias (preprocess_withKurtosis (o := { biasOffset := yes }) rfl rfl (preprocess_bias ha)) rfl hk
  have e' := runModeling_bias (preprocess_withKurtosis (o := { biasOffset := yes }) rfl rfl (preprocess_bias ha')) rfl hk'
  dsimp only at e e'
  rw [biasArr_recast τ σ ρ z a c hc] at e'
  obtain ⟨flags, s1, s2, q, -, h1, h1', h2, h2', h3, h3', h4, h4'⟩ := kurtosis_recast τ σ ρ (fun _ => c) z (biasArr a) hu (biasArr_clean a hc)
  refine ⟨flags, s1, s2, biasEstimate a, q, ?_, ?_, ?_, ?_, ?_, ?_, ?_, ?_, ?_, ?_⟩
  · rw [← h1, e]; rfl
  · rw [← h1', e']; rfl
  · rw [← h2, e]; rfl
  · rw [← h2', e']; rfl
  · rw [← h3, e]; rfl
  · rw [← h3', e']; rfl
  · rw [e]
  · rw [e', ← funext fun i => biasEstimate_recast τ σ ρ z a c hc i]
  · rw [← h4, e]; rfl
  · rw [← h4', e']; rfl

/-- The hypotheses are met: the panel with a missing vote (`exArr`), videos exchanged, observers exchanged, and the scales turned round with a different
unit for each video. -/
example : ∃ res res', runSR_MOS (arrReader 2 2 1 exArr) {} = .ok res ∧
    runSR_MOS (arrReader 2 2 1 (recast (Equiv.swap 0 1) (Equiv.swap 0 1) (fun _ _ => Equiv.refl _) ![-1, -2] ![6, 10] exArr)) {} = .ok res' ∧
    OneDirection (![-1, -2] : Fin 2 → ℝ) ∧ ∀ e s r, NumOrNan (exArr e s r) := by
  have hrun : ∀ x : Arr3 (Fl ℝ) 2 2 1, ∃ res, runSR_MOS (arrReader 2 2 1 x) {} = .ok res := by
    intro x
    unfold runSR_MOS
    rw [if_neg (by decide)]
    unfold runModeling mosRunModeling
    rw [preprocess_kurtosis (rd := arrReader 2 2 1 x) rfl]
    exact ⟨_, rfl⟩
  obtain ⟨res, h⟩ := hrun exArr
  obtain ⟨res', h'⟩ := hrun (recast (Equiv.swap 0 1) (Equiv.swap 0 1) (fun _ _ => Equiv.refl _) ![-1, -2] ![6, 10] exArr)
  exact ⟨res, res', h, h', Or.inr fun e => by fin_cases e <;> simp, exArr_clean⟩

/-- ... and for the model with bias removal -/
example : ∃ res res', runBR_SR_MOS (arrReader 2 2 1 exArr) {} = .ok res ∧
    runBR_SR_MOS (arrReader 2 2 1 (recast (Equiv.swap 0 1) (Equiv.swap 0 1) (fun _ _ => Equiv.refl _) (fun _ => -1) ![6, 10] exArr)) {} = .ok res' := by
  have hrun : ∀ x : Arr3 (Fl ℝ) 2 2 1, ∃ res, runBR_SR_MOS (arrReader 2 2 1 x) {} = .ok res := by
    intro x
    unfold runBR_SR_MOS
    rw [if_neg (by decide)]
    unfold runModeling biasremvRunModeling
    rw [preprocess_withKurtosis (o := { biasOffset := yes }) rfl rfl (preprocess_bias (rd := arrReader 2 2 1 x) rfl)]
    exact ⟨_, rfl⟩
  obtain ⟨res, h⟩ := hrun exArr
  obtain ⟨res', h'⟩ := hrun (recast (Equiv.swap 0 1) (Equiv.swap 0 1) (fun _ _ => Equiv.refl _) (fun _ => -1) ![6, 10] exArr)
  exact ⟨res, res', h, h'⟩

/-! ### What a second screening does -/

/-- six observers, two videos, votes from 1 to 5: the last observer is far off, the one before them a little -/
noncomputable def maskedX : Arr3 ℝ 2 6 1 := fun e s _ => ![![3, 3, 3, 3, 2, 5], ![3, 3, 3, 3, 4, 1]] e s

/-- the panel without its last observer -/
noncomputable def unmaskedX : Arr3 ℝ 2 5 1 := fun e s _ => ![![3, 3, 3, 3, 2], ![3, 3, 3, 3, 4]] e s

open Classical in
theorem counts_two {S : ℕ} (a : Arr3 (Fl ℝ) 2 S 1) (s : Fin S) :
    numHigh a s = (if IsHigh a 0 s 0 then 1 else 0) + (if IsHigh a 1 s 0 then 1 else 0) ∧
    numLow a s = (if IsLow a 0 s 0 then 1 else 0) + (if IsLow a 1 s 0 then 1 else 0) := by
  unfold numHigh numLow
  rw [Finset.card_filter, Finset.card_filter, Fintype.sum_prod_type, Fintype.sum_prod_type, Fin.sum_univ_two, Fin.sum_univ_two]
  simp only [Finset.univ_unique, Finset.sum_singleton]
  exact ⟨rfl, rfl⟩

theorem screened_two {S : ℕ} (a : Arr3 (Fl ℝ) 2 S 1) (s : Fin S) (h0 : IsHigh a 0 s 0) (l0 : ¬ IsLow a 0 s 0) (h1 : ¬ IsHigh a 1 s 0) (l1 : IsLow a 1 s 0) :
    Screened a s := by
  unfold Screened
  rw [(counts_two a s).1, (counts_two a s).2, if_pos h0, if_neg h1, if_neg l0, if_pos l1]
  norm_num

theorem screened_two' {S : ℕ} (a : Arr3 (Fl ℝ) 2 S 1) (s : Fin S) (h0 : ¬ IsHigh a 0 s 0) (l0 : IsLow a 0 s 0) (h1 : IsHigh a 1 s 0) (l1 : ¬ IsLow a 1 s 0) :
    Screened a s := by
  unfold Screened
  rw [(counts_two a s).1, (counts_two a s).2, if_neg h0, if_pos h1, if_pos l0, if_neg l1]
  norm_num

theorem not_screened_two {S : ℕ} (a : Arr3 (Fl ℝ) 2 S 1) (s : Fin S) (h : ∀ e, ¬ IsHigh a e s 0 ∧ ¬ IsLow a e s 0) : ¬ Screened a s := by
  classical
  have hP : numHigh a s = 0 := by
    unfold numHigh
    rw [Finset.card_eq_zero, Finset.filter_eq_empty_iff]
    intro p _
    rw [Subsingleton.elim p.2 0]
    exact (h p.1).1
  have hQ : numLow a s = 0 := by
    unfold numLow
    rw [Finset.card_eq_zero, Finset.filter_eq_empty_iff]
    intro p _
    rw [Subsingleton.elim p.2 0]
    exact (h p.1).2
  unfold Screened
  rw [hP, hQ]
  norm_num

/-- one video's votes, their mean, variance and fourth moment, give the two thresholds -/
theorem thresholds_two {l : List ℝ} {m v k : ℝ} (hm : mean l = m) (hv : popVar l = v) (hk : moment4 l = k) (hv0 : 0 < v) (h2 : 2 * v ^ 2 ≤ k) (h4 : k ≤ 4 * v ^ 2) :
    outlierFactor l = 2 := by
  unfold outlierFactor
  rw [hv, hk, if_pos]
  have : 0 < v ^ 2 := by positivity
  rw [le_div_iff₀ this, div_le_iff₀ this]
  exact ⟨h2, h4⟩

theorem masked_votes (e : Fin 2) : votesOn (fun e s r => .fin (maskedX e s r)) e = ![[3, 3, 3, 3, 2, 5], [3, 3, 3, 3, 4, 1]] e := by
  fin_cases e <;> simp [votesOn, videoCells, present, maskedX, List.ofFn_succ, Fl.val?]

theorem unmasked_votes (e : Fin 2) : votesOn (fun e s r => .fin (unmaskedX e s r)) e = ![[3, 3, 3, 3, 2], [3, 3, 3, 3, 4]] e := by
  fin_cases e <;> simp [votesOn, videoCells, present, unmaskedX, List.ofFn_succ, Fl.val?]

theorem sqrt29 : 53 / 10 < Real.sqrt 29 ∧ Real.sqrt 29 < 54 / 10 := by
  constructor
  · rw [Real.lt_sqrt (by norm_num)]; norm_num
  · rw [Real.sqrt_lt' (by norm_num)]; norm_num

theorem masked_thresholds (e : Fin 2) :
    outlierFactor (votesOn (fun e s r => .fin (maskedX e s r)) e) * Real.sqrt (popVar (votesOn (fun e s r => .fin (maskedX e s r)) e)) = Real.sqrt 29 / 3 ∧
    mean (votesOn (fun e s r => .fin (maskedX e s r)) e) = ![19 / 6, 17 / 6] e := by
  have h36 : Real.sqrt (29 / 36) = Real.sqrt 29 / 6 := by
    rw [Real.sqrt_div (by norm_num), show (36 : ℝ) = 6 ^ 2 by norm_num, Real.sqrt_sq (by norm_num)]
  rw [masked_votes]
  fin_cases e
  · have hm : mean [3, 3, 3, 3, 2, (5 : ℝ)] = 19 / 6 := by norm_num [mean]
    have hv : popVar [3, 3, 3, 3, 2, (5 : ℝ)] = 29 / 36 := by unfold popVar sqDev; rw [hm]; norm_num
    have hk : moment4 [3, 3, 3, 3, 2, (5 : ℝ)] = 2841 / 1296 := by unfold moment4; rw [hm]; norm_num
    refine ⟨?_, hm⟩
    show outlierFactor [3, 3, 3, 3, 2, (5 : ℝ)] * Real.sqrt (popVar [3, 3, 3, 3, 2, (5 : ℝ)]) = _
    rw [thresholds_two hm hv hk (by norm_num) (by norm_num) (by norm_num), hv, h36]
    ring
  · have hm : mean [3, 3, 3, 3, 4, (1 : ℝ)] = 17 / 6 := by norm_num [mean]
    have hv : popVar [3, 3, 3, 3, 4, (1 : ℝ)] = 29 / 36 := by unfold popVar sqDev; rw [hm]; norm_num
    have hk : moment4 [3, 3, 3, 3, 4, (1 : ℝ)] = 2841 / 1296 := by unfold moment4; rw [hm]; norm_num
    refine ⟨?_, hm⟩
    show outlierFactor [3, 3, 3, 3, 4, (1 : ℝ)] * Real.sqrt (popVar [3, 3, 3, 3, 4, (1 : ℝ)]) = _
    rw [thresholds_two hm hv hk (by norm_num) (by norm_num) (by norm_num), hv, h36]
    ring

theorem unmasked_thresholds (e : Fin 2) :
    outlierFactor (votesOn (fun e s r => .fin (unmaskedX e s r)) e) * Real.sqrt (popVar (votesOn (fun e s r => .fin (unmaskedX e s r)) e)) = 4 / 5 ∧
    mean (votesOn (fun e s r => .fin (unmaskedX e s r)) e) = ![14 / 5, 16 / 5] e := by
  have h36 : Real.sqrt (4 / 25) = 2 / 5 := by
    rw [show (4 / 25 : ℝ) = (2 / 5) ^ 2 by norm_num, Real.sqrt_sq (by norm_num)]
  rw [unmasked_votes]
  fin_cases e
  · have hm : mean [3, 3, 3, 3, (2 : ℝ)] = 14 / 5 := by norm_num [mean]
    have hv : popVar [3, 3, 3, 3, (2 : ℝ)] = 4 / 25 := by unfold popVar sqDev; rw [hm]; norm_num
    have hk : moment4 [3, 3, 3, 3, (2 : ℝ)] = 52 / 625 := by unfold moment4; rw [hm]; norm_num
    refine ⟨?_, hm⟩
    show outlierFactor [3, 3, 3, 3, (2 : ℝ)] * Real.sqrt (popVar [3, 3, 3, 3, (2 : ℝ)]) = _
    rw [thresholds_two hm hv hk (by norm_num) (by norm_num) (by norm_num), hv, h36]
    norm_num
  · have hm : mean [3, 3, 3, 3, (4 : ℝ)] = 16 / 5 := by norm_num [mean]
    have hv : popVar [3, 3, 3, 3, (4 : ℝ)] = 4 / 25 := by unfold popVar sqDev; rw [hm]; norm_num
    have hk : moment4 [3, 3, 3, 3, (4 : ℝ)] = 52 / 625 := by unfold moment4; rw [hm]; norm_num
    refine ⟨?_, hm⟩
    show outlierFactor [3, 3, 3, 3, (4 : ℝ)] * Real.sqrt (popVar [3, 3, 3, 3, (4 : ℝ)]) = _
    rw [thresholds_two hm hv hk (by norm_num) (by norm_num) (by norm_num), hv, h36]
    norm_num

theorem masked_high (e : Fin 2) (s : Fin 6) :
    (IsHigh (fun e s r => .fin (maskedX e s r)) e s 0 ↔ e = 0 ∧ s = 5) ∧ (IsLow (fun e s r => .fin (maskedX e s r)) e s 0 ↔ e = 1 ∧ s = 5) := by
  obtain ⟨h1, h2⟩ := sqrt29
  unfold IsHigh IsLow
  rw [(masked_thresholds e).1, (masked_thresholds e).2]
  simp only [Fl.fin.injEq, exists_eq_left']
  fin_cases e <;> fin_cases s <;> simp [maskedX] <;> first | (constructor <;> linarith) | linarith

theorem unmasked_high (e : Fin 2) (s : Fin 5) :
    (IsHigh (fun e s r => .fin (unmaskedX e s r)) e s 0 ↔ e = 1 ∧ s = 4) ∧ (IsLow (fun e s r => .fin (unmaskedX e s r)) e s 0 ↔ e = 0 ∧ s = 4) := by
  unfold IsHigh IsLow
  rw [(unmasked_thresholds e).1, (unmasked_thresholds e).2]
  simp only [Fl.fin.injEq, exists_eq_left']
  fin_cases e <;> fin_cases s <;> norm_num [unmaskedX] <;> decide

theorem masked_rejects (s : Fin 6) : Rejects (fun e s r => .fin (maskedX e s r)) s ↔ s = 5 := by
  have h : ∀ s : Fin 6, Screened (fun e s r => .fin (maskedX e s r)) s ↔ s = 5 := by
    intro s
    constructor
    · intro hs
      by_contra hne
      exact not_screened_two _ s (fun e => ⟨fun h => hne ((masked_high e s).1.mp h).2, fun h => hne ((masked_high e s).2.mp h).2⟩) hs
    · rintro rfl
      exact screened_two _ _ ((masked_high 0 5).1.mpr ⟨rfl, rfl⟩) (fun h => absurd ((masked_high 0 5).2.mp h).1 (by decide))
        (fun h => absurd ((masked_high 1 5).1.mp h).1 (by decide)) ((masked_high 1 5).2.mpr ⟨rfl, rfl⟩)
  unfold Rejects
  rw [h]
  exact ⟨fun h => h.1, fun hs => ⟨hs, fun hall => absurd ((h 0).mp (hall 0)) (by decide)⟩⟩

theorem unmasked_rejects (s : Fin 5) : Rejects (fun e s r => .fin (unmaskedX e s r)) s ↔ s = 4 := by
  have h : ∀ s : Fin 5, Screened (fun e s r => .fin (unmaskedX e s r)) s ↔ s = 4 := by
    intro s
    constructor
    · intro hs
      by_contra hne
      exact not_screened_two _ s (fun e => ⟨fun h => hne ((unmasked_high e s).1.mp h).2, fun h => hne ((unmasked_high e s).2.mp h).2⟩) hs
    · rintro rfl
      exact screened_two' _ _ (fun h => absurd ((unmasked_high 0 4).1.mp h).1 (by decide)) ((unmasked_high 0 4).2.mpr ⟨rfl, rfl⟩)
        ((unmasked_high 1 4).1.mpr ⟨rfl, rfl⟩) (fun h => absurd ((unmasked_high 1 4).2.mp h).1 (by decide))
  unfold Rejects
  rw [h]
  exact ⟨fun h => h.1, fun hs => ⟨hs, fun hall => absurd ((h 0).mp (hall 0)) (by decide)⟩⟩

/-- what a run of SR_MOS reports, with the flags known -/
theorem screened_run {E S R : ℕ} (x : Arr3 ℝ E S R) (g : Fin S → Bool) (hg : ∀ s, g s = true ↔ Rejects (fun e s r => .fin (x e s r)) s) :
    ∃ res, runSR_MOS (arrReader E S R fun e s r => .fin (x e s r)) {} = .ok res ∧ res.observerRejected = some (List.ofFn g) ∧
      res.rawScores = some ⟨E, ((List.finRange S).filter fun s => !g s).length, R, fun e i r => .fin (x e (((List.finRange S).filter fun s => !g s).get i) r)⟩ ∧
      res.qualityScores = List.ofFn fun e => meanOrNan (cellsOf (fun e s r => .fin (x e s r)) e ((List.finRange S).filter fun s => !g s)) := by
  have hc : ∀ e s r, NumOrNan ((fun e s r => Fl.fin (x e s r)) e s r) := fun _ _ _ => Or.inr ⟨_, rfl⟩
  have hrun : ∃ res, runSR_MOS (arrReader E S R fun e s r => .fin (x e s r)) {} = .ok res := by
    unfold runSR_MOS
    rw [if_neg (by decide)]
    unfold runModeling mosRunModeling
    rw [preprocess_kurtosis (rd := arrReader E S R fun e s r => .fin (x e s r)) rfl]
    exact ⟨_, rfl⟩
  obtain ⟨res, hres⟩ := hrun
  have hk : runModeling mosRunModeling (arrReader E S R fun e s r => .fin (x e s r)) { subjectRejection := yes } = .ok res := hres
  have e := runModeling_mos (preprocess_kurtosis rfl) hk
  obtain ⟨flags, hf, hrej, harr⟩ := kurtosisReject_spec (fun e s r => Fl.fin (x e s r)) hc
  have hfg : flags = g := by
    funext s
    rw [Bool.eq_iff_iff, hf, hg]
  subst hfg
  refine ⟨res, hres, ?_, ?_, ?_⟩
  · rw [← hrej, e]; rfl
  · rw [← harr, e]; rfl
  · rw [← screenedMeans _ hc flags _ harr, e]; rfl

/-- **C156: "screening twice is screening once" is refuted.**  In a panel of six observers on two videos, with votes from 1 to 5, the last observer is
rejected.  Screening the five remaining observers again rejects one more, and the scores of both videos change. -/
theorem C156_again_refuted : ∃ res b res',
    runSR_MOS (arrReader 2 6 1 fun e s r => .fin (maskedX e s r)) {} = .ok res ∧ res.observerRejected = some [false, false, false, false, false, true] ∧
    res.qualityScores = [.fin (14 / 5), .fin (16 / 5)] ∧ res.rawScores = some b ∧
    runSR_MOS (arrReader b.E b.S b.R b.get) {} = .ok res' ∧ res'.observerRejected = some [false, false, false, false, true] ∧
    res'.qualityScores = [.fin 3, .fin 3] := by
  obtain ⟨res, h1, h2, h3, h4⟩ := screened_run maskedX (fun s => decide (s = 5)) (fun s => by rw [decide_eq_true_iff, masked_rejects])
  obtain ⟨res', k1, k2, k3, k4⟩ := screened_run unmaskedX (fun s => decide (s = 4)) (fun s => by rw [decide_eq_true_iff, unmasked_rejects])
  refine ⟨res, ⟨2, 5, 1, fun e s r => .fin (unmaskedX e s r)⟩, res', h1, ?_, ?_, ?_, k1, ?_, ?_⟩
  · rw [h2]; rfl
  · rw [h4]
    have : ((List.finRange 6).filter fun s => !decide (s = 5)) = [0, 1, 2, 3, 4] := by decide
    rw [this]
    simp [cellsOf, meanOrNan, present, maskedX, List.ofFn_succ, Fl.val?, mean]
    norm_num
  · rw [h3]
    have : ((List.finRange 6).filter fun s => !decide (s = 5)) = [0, 1, 2, 3, 4] := by decide
    rw [this]
    congr 2
    funext e i r
    fin_cases e <;> fin_cases i <;> rfl
  · rw [k2]; rfl
  · rw [k4]
    have : ((List.finRange 5).filter fun s => !decide (s = 4)) = [0, 1, 2, 3] := by decide
    rw [this]
    simp [cellsOf, meanOrNan, present, unmaskedX, List.ofFn_succ, Fl.val?, mean]
    norm_num

end Sureal.Props
