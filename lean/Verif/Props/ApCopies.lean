import Verif.Lemmas.ApCopies
/-!
# C137: silent observers and repeated panels in the alternating projection
-/
set_option linter.unusedSectionVars false
namespace Sureal.Props
open Sureal Spec Ap
variable {κ : Type} {E S S' R : ℕ}

theorem col_congr {J I I' R : ℕ} {a : Arr3 (Fl ℝ) J I R} {a' : Arr3 (Fl ℝ) J I' R} {i : Fin I} {i' : Fin I'} (h : ∀ j r, a' j i' r = a j i r) :
    colL (stack0 a') i' = colL (stack0 a) i := by
  rw [colL_stack0, colL_stack0]
  simp only [h]

theorem col_nan {J I R : ℕ} {a : Arr3 (Fl ℝ) J I R} {i : Fin I} (h : ∀ j r, a j i r = .nan) : Np.nansum (colL (stack0 a) i) = 0 := by
  refine Mle.nansum_all_nan _ fun x hx => ?_
  obtain ⟨j, r, rfl⟩ := (mem_observerCells _ i _).mp ((colL_stack0_perm _ i).mem_iff.mp hx)
  exact h j r

theorem one_div_root_zero : (1 : Fl ℝ) / (Fl.maximum 0 0).sqrt = .pinf := by
  show Mle.stdOf (0 : Fl ℝ) = _
  rw [Fl.zero_def, Mle.stdOf_fin]
  unfold fisherStd
  rw [if_neg (by simp)]

theorem bStd_copies (x : Arr3 (Fl ℝ) E S R) (v : Arr1 (Fl ℝ) S) (φ : Fin S' → Option (Fin S)) :
    bStd (fun j i' r => (φ i').elim .nan fun i => x j i r) (fun i' => (φ i').elim .nan v) = fun i' => (φ i').elim .pinf (bStd x v) := by
  funext i'
  unfold bStd
  rcases Option.eq_none_or_eq_some (φ i') with hi | ⟨i, hi⟩
  · rw [col_nan fun j r => by dsimp only; rw [hi]; rfl, hi]
    exact one_div_root_zero
  · rw [hi, Option.elim_some, col_congr (a := fun j i r => oneOrNan (x j i r) / (v i).sq) (i := i) fun j r => by dsimp only; rw [hi]; rfl]

theorem vStd_copies (x : Arr3 (Fl ℝ) E S R) (s : Arr1 (Fl ℝ) E) (b v : Arr1 (Fl ℝ) S) (φ : Fin S' → Option (Fin S)) :
    vStd (fun j i' r => (φ i').elim .nan fun i => x j i r) s (fun i' => (φ i').elim .nan b) (fun i' => (φ i').elim .nan v) =
      fun i' => (φ i').elim .pinf (vStd x s b v) := by
  funext i'
  unfold vStd residue
  rcases Option.eq_none_or_eq_some (φ i') with hi | ⟨i, hi⟩
  · rw [col_nan fun j r => by dsimp only; rw [hi]; rfl, hi, Fl.zero_def, Fl.fin_neg, neg_zero]
    exact one_div_root_zero
  · rw [hi, Option.elim_some, col_congr (a := fun j i r => lppCell (x j i r - s j - b i) (v i)) (i := i) fun j r => by dsimp only; rw [hi]; rfl]

/-- what a run reports, for plain options -/
theorem ap_reports {sd : StdFormula} {rd : Reader κ ℝ} (hob : ObserversHarmless rd) {a : Arr3D (Fl ℝ)} (ha : rd.scores = .ok a) (z : Flag)
    {f : Fit ℝ a.E a.S} (hf : fit a.get = .ok f) :
    ∃ res, runAPWith sd rd { forceSubjbiasZeromean := z } = .ok res ∧
      res.qualityScores = List.ofFn (centre (z != some (some false)) f.s f.b).1 ∧
      res.observerBias = some (List.ofFn (centre (z != some (some false)) f.s f.b).2) ∧
      res.observerInconsistency = some (List.ofFn f.vi) ∧
      res.qualityScoresStd = some (List.ofFn (sd a.get f.vi f.vj)) ∧
      res.observerBiasStd = some (List.ofFn (bStd a.get f.vi)) ∧
      res.observerInconsistencyStd = some (List.ofFn (vStd a.get f.s f.b f.vi)) ∧ res.numIter = some f.itr := by
  have hp := preprocess_zeromean ha z
  obtain ⟨res, hr⟩ := (ap_runs (sd := sd) hob hp).1 f hf
  obtain ⟨p1, f1, hp1, hf1, he⟩ := ap_run hr
  rw [hp] at hp1; cases hp1
  rw [hf] at hf1; cases hf1
  rw [post_plain rfl rfl] at he
  refine ⟨res, hr, ?_, ?_, ?_, ?_, ?_, ?_, ?_⟩ <;> rw [he] <;> rfl

/-- **C137, copies of the panel and silent observers.** If every observer is replaced by `m` observers with the same votes, and any number of silent
observers is added, the solver raises the same exception or reports the same scores, and for every copy the bias, the inconsistency and their standard
deviations of the observer it was made from, after the same number of passes.  The standard deviations of silent observers are infinite.  (Silent
observers need `force_subjbias_zeromean=False`, see `C26_silent_observer_refuted`.) -/
theorem C137_copies (sd : StdFormula) (rd rd' : Reader κ ℝ) (hobs : ObserversHarmless rd) (hobs' : ObserversHarmless rd')
    (x : Fin E → Fin S → Fin R → Fl ℝ) (hc : ∀ j i r, NumOrNan (x j i r)) (φ : Fin S' → Option (Fin S)) {m : ℕ} (hφ : CopiesOf m φ) (hm : 0 < m)
    (ha : rd.scores = .ok ⟨E, S, R, x⟩) (ha' : rd'.scores = .ok ⟨E, S', R, fun j i' r => (φ i').elim .nan fun i => x j i r⟩) (z : Flag)
    (hz : z = some (some false) ∨ ∀ i', φ i' ≠ none) :
    (∃ e, runAPWith sd rd { forceSubjbiasZeromean := z } = .error e ∧ runAPWith sd rd' { forceSubjbiasZeromean := z } = .error e) ∨
    (∃ (res res' : Result κ ℝ) (b v bs vs : Fin S → Fl ℝ),
      runAPWith sd rd { forceSubjbiasZeromean := z } = .ok res ∧ runAPWith sd rd' { forceSubjbiasZeromean := z } = .ok res' ∧
      res'.qualityScores = res.qualityScores ∧
      res.observerBias = some (List.ofFn b) ∧ res'.observerBias = some (List.ofFn fun i' => (φ i').elim .nan b) ∧
      res.observerInconsistency = some (List.ofFn v) ∧ res'.observerInconsistency = some (List.ofFn fun i' => (φ i').elim .nan v) ∧
      res.observerBiasStd = some (List.ofFn bs) ∧ res'.observerBiasStd = some (List.ofFn fun i' => (φ i').elim .pinf bs) ∧
      res.observerInconsistencyStd = some (List.ofFn vs) ∧ res'.observerInconsistencyStd = some (List.ofFn fun i' => (φ i').elim .pinf vs) ∧
      res'.numIter = res.numIter) := by
  obtain ⟨P, X, hX⟩ := clean_mask (a := ⟨E, S, R, x⟩) hc
  dsimp only at P X hX
  have hX' : (fun j i' r => (φ i').elim .nan fun i => x j i r) = maskX (copyP P φ) (copyX X φ) := by rw [maskX_copies, hX]
  rcases fit_copies P X φ hφ hm with ⟨e, h1, h2⟩ | ⟨f, ⟨k, A, B, hf⟩, h1, h2⟩
  · rw [← hX] at h1
    rw [← hX'] at h2
    exact Or.inl ⟨e, (ap_runs hobs (preprocess_zeromean ha z)).2 e h1, (ap_runs hobs' (preprocess_zeromean ha' z)).2 e h2⟩
  · rw [← hX] at h1
    rw [← hX'] at h2
    obtain ⟨res, r1, r2, r3, r4, -, r5, r6, r7⟩ := ap_reports (sd := sd) hobs ha z h1
    obtain ⟨res', t1, t2, t3, t4, -, t5, t6, t7⟩ := ap_reports (sd := sd) hobs' ha' z h2
    dsimp only at t2 t3 t4 t5 t6 t7 r2 r3 r4 r5 r6 r7
    have hcen : centre (z != some (some false)) f.s (fun i' => (φ i').elim .nan f.b) =
        ((centre (z != some (some false)) f.s f.b).1, fun i' => (φ i').elim .nan (centre (z != some (some false)) f.s f.b).2) := by
      rw [hf, step_spec]
      refine centre_copies P φ hφ hm _ _ _ fun hz' => ?_
      rcases hz with rfl | h
      · exact absurd hz' (by decide)
      · exact h
    rw [hcen] at t2 t3
    rw [bStd_copies] at t5
    rw [vStd_copies] at t6
    exact Or.inr ⟨res, res', _, _, _, _, r1, t1, t2.trans r2.symm, r3, t3, r4, t4, r5, t5, r6, t6, t7.trans r7.symm⟩

/-- **C137, uncertainty.** With `m` copies of everybody the reported standard deviations of the scores, and the half widths of the intervals, are those of
the original panel divided by the square root of `m`; silent observers make no difference. -/
theorem C137_scores_std (alt : Bool) (rd rd' : Reader κ ℝ) (x : Fin E → Fin S → Fin R → Fl ℝ) (hc : ∀ j i r, NumOrNan (x j i r))
    (φ : Fin S' → Option (Fin S)) {m : ℕ} (hφ : CopiesOf m φ) (hm : 0 < m) (ha : rd.scores = .ok ⟨E, S, R, x⟩)
    (ha' : rd'.scores = .ok ⟨E, S', R, fun j i' r => (φ i').elim .nan fun i => x j i r⟩) (z : Flag) (res res' : Result κ ℝ)
    (hr : (if alt then runAP2 rd { forceSubjbiasZeromean := z } else runAP rd { forceSubjbiasZeromean := z }) = .ok res)
    (hr' : (if alt then runAP2 rd' { forceSubjbiasZeromean := z } else runAP rd' { forceSubjbiasZeromean := z }) = .ok res') :
    ∃ t : Fin E → ℝ, (∀ j, 0 ≤ t j) ∧ res.qualityScoresStd = some (List.ofFn fun j => .fin (t j)) ∧
      res'.qualityScoresStd = some (List.ofFn fun j => .fin (t j / Real.sqrt m)) := by
  obtain ⟨P, X, hX⟩ := clean_mask (a := ⟨E, S, R, x⟩) hc
  dsimp only at P X hX
  have hX' : (fun j i' r => (φ i').elim .nan fun i => x j i r) = maskX (copyP P φ) (copyX X φ) := by rw [maskX_copies, hX]
  have hmR : (0 : ℝ) < m := by exact_mod_cast hm
  have run : ∀ (sd : StdFormula), runAPWith sd rd { forceSubjbiasZeromean := z } = .ok res → runAPWith sd rd' { forceSubjbiasZeromean := z } = .ok res' →
      (∀ j, (votesOnVideo P j).Nonempty) ∧ ∃ A B, res.qualityScoresStd = some (List.ofFn (sd (maskX P X) (maskB P (apSpread P X A B)) (maskS P (apSpreadJ P X A B)))) ∧
        res'.qualityScoresStd = some (List.ofFn (sd (maskX (copyP P φ) (copyX X φ)) (maskB (copyP P φ) (copyB φ (apSpread P X A B)))
          (maskS (copyP P φ) (apSpreadJ P X A B)))) := by
    intro sd g g'
    obtain ⟨p1, f1, hp1, hf1, he⟩ := ap_run g
    obtain ⟨p2, f2, hp2, hf2, he'⟩ := ap_run g'
    rw [preprocess_zeromean ha z] at hp1; cases hp1
    rw [preprocess_zeromean ha' z] at hp2; cases hp2
    dsimp only at f1 f2 hf1 hf2
    have hv : ∀ j, (votesOnVideo P j).Nonempty := by
      rcases fit_mask P X with ⟨-, h⟩ | ⟨h, -⟩
      · rw [← hX, hf1] at h; cases h
      · exact h
    refine ⟨hv, ?_⟩
    rcases fit_copies P X φ hφ hm with ⟨e, h1, -⟩ | ⟨f, ⟨k, A, B, hf⟩, h1, h2⟩
    · rw [← hX, hf1] at h1; cases h1
    · rw [← hX, hf1] at h1
      rw [← hX', hf2] at h2
      cases h1
      cases h2
      refine ⟨A, B, ?_, ?_⟩
      · rw [he]
        show some (List.ofFn (sd x f1.vi f1.vj)) = _
        rw [hf, step_spec, hX]
      · rw [he']
        show some (List.ofFn (sd (fun j i' r => (φ i').elim .nan fun i => x j i r) (fun i' => (φ i').elim .nan f1.vi) f1.vj)) = _
        rw [hf, step_spec, hX', maskB_copies, maskS_copies P φ hφ hm]
  cases alt with
  | false =>
    obtain ⟨hv, A, B, h1, h2⟩ := run sStd hr hr'
    have hex : ∀ j, ∃ t : ℝ, 0 ≤ t ∧ sStd (maskX P X) (maskB P (apSpread P X A B)) (maskS P (apSpreadJ P X A B)) j = .fin t ∧
        sStd (maskX (copyP P φ) (copyX X φ)) (maskB (copyP P φ) (copyB φ (apSpread P X A B))) (maskS (copyP P φ) (apSpreadJ P X A B)) j =
          .fin (t / Real.sqrt m) := by
      intro j
      obtain ⟨a1, a2⟩ := sStd_spec P X (apSpread P X A B) (maskS P (apSpreadJ P X A B)) j
      obtain ⟨c1, c2⟩ := sStd_spec (copyP P φ) (copyX X φ) (copyB φ (apSpread P X A B)) (maskS (copyP P φ) (apSpreadJ P X A B)) j
      by_cases h0 : ∃ i r, P j i r = true ∧ apSpread P X A B i = 0
      · refine ⟨0, le_rfl, a2 h0, ?_⟩
        obtain ⟨i, r, hP, hi0⟩ := h0
        have hcard : 0 < (Finset.univ.filter fun i' => φ i' = some i).card := by rw [hφ i]; exact hm
        obtain ⟨i', hi'⟩ := Finset.card_pos.mp hcard
        have hi := (Finset.mem_filter.mp hi').2
        rw [c2 ⟨i', r, by unfold copyP; rw [hi]; exact hP, by unfold copyB; rw [hi]; exact hi0⟩, zero_div]
      · push Not at h0
        have h0' : ∀ i' r, copyP P φ j i' r = true → copyB φ (apSpread P X A B) i' ≠ 0 := by
          intro i' r
          unfold copyP copyB
          cases φ i' with
          | none => intro h; cases h
          | some i => exact h0 i r
        have hpos : 0 < ∑ c ∈ votesOnVideo P j, 1 / apSpread P X A B c.1 ^ 2 := by
          refine Finset.sum_pos (fun c hcm => ?_) (hv j)
          have := h0 c.1 c.2 (by simpa [votesOnVideo] using hcm)
          positivity
        have hsum : ∑ c ∈ votesOnVideo (copyP P φ) j, 1 / copyB φ (apSpread P X A B) c.1 ^ 2 =
            (m : ℝ) * ∑ c ∈ votesOnVideo P j, 1 / apSpread P X A B c.1 ^ 2 :=
          sum_video_copies P φ hφ j fun o _ => 1 / (o.elim 0 (apSpread P X A B)) ^ 2
        refine ⟨1 / Real.sqrt (∑ c ∈ votesOnVideo P j, 1 / apSpread P X A B c.1 ^ 2), by positivity, ?_, ?_⟩
        · rw [a1 h0]
          unfold fisherStd
          rw [neg_neg, if_pos hpos]
        · rw [c1 h0', hsum]
          unfold fisherStd
          rw [neg_neg, if_pos (by positivity), Real.sqrt_mul hmR.le, div_div, mul_comm (Real.sqrt m)]
    choose t ht0 ht1 ht2 using hex
    exact ⟨t, ht0, by rw [h1, funext ht1], by rw [h2, funext ht2]⟩
  | true =>
    obtain ⟨hv, A, B, h1, h2⟩ := run sStdAlt hr hr'
    refine ⟨fun j => apSpreadJ P X A B j / Real.sqrt (votesOnVideo P j).card, fun j => div_nonneg (Real.sqrt_nonneg _) (Real.sqrt_nonneg _), ?_, ?_⟩
    · rw [h1]
      congr 2
      funext j
      exact sStdAlt_spec P X _ _ j (hv j) (Real.sqrt_nonneg _)
    · rw [h2]
      congr 2
      funext j
      rw [sStdAlt_spec (copyP P φ) (copyX X φ) _ _ j ((video_copies_nonempty P φ hφ hm j).mpr (hv j)) (Real.sqrt_nonneg _), card_video_copies P φ hφ,
        Nat.cast_mul, Real.sqrt_mul hmR.le, div_div, mul_comm (Real.sqrt m)]

theorem coe_present_cells {J I R : ℕ} (P : Fin J → Fin I → Fin R → Bool) (X : Fin J → Fin I → Fin R → ℝ) (j : Fin J) :
    ((present (videoCells (maskX P X) j) : List ℝ) : Multiset ℝ) = (votesOnVideo P j).val.map fun c => X j c.1 c.2 := by
  have h : (present (rowL (stack1 (maskX P X)) j)).Perm (present (videoCells (maskX P X) j)) := Np.present_perm (rowL_stack1_perm _ j)
  rw [← Multiset.coe_eq_coe.mpr h]
  exact coe_present_row P X j

/-- **C137, mean opinion scores.** They do not change either.  The standard error of a video with `n` votes, `n` at least 2, is multiplied by the root of
`(n - 1) / (m n - 1)`, which is less than for the projection solvers if `m` is at least 2. -/
theorem C137_mos (rd rd' : Reader κ ℝ) (x : Fin E → Fin S → Fin R → Fl ℝ) (hc : ∀ j i r, NumOrNan (x j i r)) (φ : Fin S' → Option (Fin S)) {m : ℕ}
    (hφ : CopiesOf m φ) (hm : 0 < m) (ha : rd.scores = .ok ⟨E, S, R, x⟩)
    (ha' : rd'.scores = .ok ⟨E, S', R, fun j i' r => (φ i').elim .nan fun i => x j i r⟩) (res res' : Result κ ℝ)
    (hr : runMOS rd {} = .ok res) (hr' : runMOS rd' {} = .ok res') :
    res'.qualityScores = res.qualityScores ∧
    ∀ (j : Fin E) (n : ℕ), (present (videoCells x j)).length = n → 2 ≤ n → ∃ (l l' : List (Fl ℝ)) (t : ℝ),
      res.qualityScoresStd = some l ∧ res'.qualityScoresStd = some l' ∧ 0 ≤ t ∧ l[j.val]? = some (.fin t) ∧
      l'[j.val]? = some (.fin (t * Real.sqrt ((n - 1) / (m * n - 1)))) ∧ (2 ≤ m → (n - 1) / (m * n - 1 : ℝ) < 1 / m) := by
  obtain ⟨P, X, hX⟩ := clean_mask (a := ⟨E, S, R, x⟩) hc
  dsimp only at P X hX
  have hX' : (fun j i' r => (φ i').elim .nan fun i => x j i r) = maskX (copyP P φ) (copyX X φ) := by rw [maskX_copies, hX]
  have hc' : ∀ j i' r, NumOrNan ((φ i').elim .nan fun i => x j i r) := by
    intro j i' r
    cases φ i' with
    | none => exact Or.inl rfl
    | some i => exact hc j i r
  constructor
  · rw [runMOS_default ha hr, runMOS_default ha' hr']
    show List.ofFn (meanAlongS _) = List.ofFn (meanAlongS _)
    dsimp only
    rw [hX', hX, init_spec, init_spec, mos0_copies P X φ hφ hm, maskS_copies P φ hφ hm]
  · intro j n hn h2
    obtain ⟨amb, l, lo, hi, -, s1, -, -, -, -, -, s2⟩ := C12_mos_uncertainty rd _ res ha hr hc
    obtain ⟨amb', l', lo', hi', -, t1, -, -, -, -, -, t2⟩ := C12_mos_uncertainty rd' _ res' ha' hr' hc'
    have hcells := coe_present_cells P X j
    have hcells' := coe_present_cells (copyP P φ) (copyX X φ) j
    rw [← hX] at hcells
    rw [← hX'] at hcells'
    have hcard : (votesOnVideo P j).card = n := by rw [← length_of_coe hcells, hn]
    have hn' : (present (videoCells (fun j i' r => (φ i').elim .nan fun i => x j i r) j)).length = m * n := by
      rw [length_of_coe hcells', card_video_copies P φ hφ, hcard]
    have hsq : sqDev (present (videoCells (fun j i' r => (φ i').elim .nan fun i => x j i r) j)) = m * sqDev (present (videoCells x j)) := by
      rw [sqDev_of_coe hcells', sqDev_of_coe hcells]
      have h1 : avg (votesOnVideo (copyP P φ) j) (fun c => copyX X φ j c.1 c.2) = avg (votesOnVideo P j) fun c => X j c.1 c.2 :=
        congrFun (mos0_copies P X φ hφ hm) j
      rw [h1]
      exact sum_video_copies P φ hφ j fun o r => ((o.elim 0 fun i => X j i r) - avg (votesOnVideo P j) fun c => X j c.1 c.2) ^ 2
    obtain ⟨-, u1, u2⟩ := (s2 j _ rfl).1 (by rw [hn]; exact h2)
    obtain ⟨-, w1, -⟩ := (t2 j _ rfl).1 (by
      rw [hn']
      calc 2 ≤ n := h2
        _ = 1 * n := (one_mul n).symm
        _ ≤ m * n := Nat.mul_le_mul_right n hm)
    have hmR : (1 : ℝ) ≤ m := by exact_mod_cast hm
    have hnR : (2 : ℝ) ≤ n := by exact_mod_cast h2
    have hmn : (0 : ℝ) < m * n - 1 := by nlinarith
    refine ⟨l, l', _, s1, t1, u2, u1, ?_, ?_⟩
    · rw [w1]
      congr 2
      unfold sampleVar
      dsimp only
      rw [hsq, hn', hn]
      have h0 : 0 ≤ sqDev (present (videoCells x j)) := Np.sqDev_nonneg _
      rw [← Real.sqrt_div (by push_cast; exact div_nonneg (by positivity) hmn.le), ← Real.sqrt_div (div_nonneg h0 (by linarith)), ← Real.sqrt_mul
        (div_nonneg (div_nonneg h0 (by linarith)) (by linarith))]
      congr 1
      push_cast
      have a1 : (n : ℝ) - 1 ≠ 0 := by linarith
      have a2 : (n : ℝ) ≠ 0 := by linarith
      have a3 : (m : ℝ) ≠ 0 := by linarith
      have a4 : (m : ℝ) * n - 1 ≠ 0 := hmn.ne'
      field_simp
    · intro hm2
      have hm2R : (2 : ℝ) ≤ m := by exact_mod_cast hm2
      rw [div_lt_div_iff₀ hmn (by linarith)]
      nlinarith

/-! ## the hypotheses can be met -/

/-- two copies of a panel of two, and a silent observer -/
def twice : Fin 5 → Option (Fin 2) := ![some 0, none, some 1, some 0, some 1]

theorem twice_copies : CopiesOf 2 twice := by
  unfold CopiesOf twice
  decide

/-- two copies of a panel of two -/
def doubled : Fin 4 → Option (Fin 2) := ![some 0, some 1, some 0, some 1]

theorem doubled_copies : CopiesOf 2 doubled := by
  unfold CopiesOf doubled
  decide

/-- C137_copies, C137_scores_std -/
example (sd : StdFormula) : ∃ res res' : Result String ℝ,
    runAPWith sd (arrReader 2 2 1 exArr) { forceSubjbiasZeromean := some (some false) } = .ok res ∧
    runAPWith sd (arrReader 2 5 1 fun j i' r => (twice i').elim .nan fun i => exArr j i r) { forceSubjbiasZeromean := some (some false) } = .ok res' ∧
    res'.qualityScores = res.qualityScores := by
  rcases C137_copies sd (arrReader 2 2 1 exArr) (arrReader 2 5 1 fun j i' r => (twice i').elim .nan fun i => exArr j i r) (arr_harmless _ _ _ _)
    (arr_harmless _ _ _ _) exArr exArr_rated.1 twice twice_copies (by norm_num) rfl rfl (some (some false)) (Or.inl rfl) with ⟨e, h, -⟩ | ⟨res, res', _, _, _, _, h1, h2, h3, -⟩
  · obtain ⟨r, hr⟩ := (C27_succeeds_iff sd (arrReader 2 2 1 exArr) (arr_harmless _ _ _ _) ⟨2, 2, 1, exArr⟩ rfl exArr_rated.1 (some (some false))).1 exArr_rated.2.1
    rw [hr] at h; cases h
  · exact ⟨res, res', h1, h2, h3⟩

/-- C137_copies with centring, C137_scores_std: the first solver on a doubled panel -/
example : ∃ res res' : Result String ℝ, ∃ t : Fin 2 → ℝ, runAP (arrReader 2 2 1 exArr) {} = .ok res ∧
    runAP (arrReader 2 4 1 fun j i' r => (doubled i').elim .nan fun i => exArr j i r) {} = .ok res' ∧
    res'.qualityScores = res.qualityScores ∧ res.qualityScoresStd = some (List.ofFn fun j => .fin (t j)) ∧
    res'.qualityScoresStd = some (List.ofFn fun j => .fin (t j / Real.sqrt 2)) := by
  have hx := exArr_rated
  rcases C137_copies sStd (arrReader 2 2 1 exArr) (arrReader 2 4 1 fun j i' r => (doubled i').elim .nan fun i => exArr j i r) (arr_harmless _ _ _ _)
    (arr_harmless _ _ _ _) exArr hx.1 doubled doubled_copies (by norm_num) rfl rfl none (Or.inr (by decide)) with ⟨e, h, -⟩ | ⟨res, res', _, _, _, _, h1, h2, h3, -⟩
  · obtain ⟨r, hr⟩ := (C27_succeeds_iff sStd (arrReader 2 2 1 exArr) (arr_harmless _ _ _ _) ⟨2, 2, 1, exArr⟩ rfl hx.1 none).1 hx.2.1
    rw [hr] at h; cases h
  · obtain ⟨t, -, t1, t2⟩ := C137_scores_std false (arrReader 2 2 1 exArr) (arrReader 2 4 1 fun j i' r => (doubled i').elim .nan fun i => exArr j i r) exArr
      hx.1 doubled doubled_copies (by norm_num) rfl rfl none res res' h1 h2
    exact ⟨res, res', t, h1, h2, h3, t1, by exact_mod_cast t2⟩

/-- C137_mos -/
example : ∃ res res' : Result String ℝ, runMOS (arrReader 2 2 1 exArr) {} = .ok res ∧
    runMOS (arrReader 2 5 1 fun j i' r => (twice i').elim .nan fun i => exArr j i r) {} = .ok res' ∧ res'.qualityScores = res.qualityScores := by
  obtain ⟨res, h⟩ := arrReader_runs 2 2 1 exArr
  obtain ⟨res', h'⟩ := arrReader_runs 2 5 1 fun j i' r => (twice i').elim .nan fun i => exArr j i r
  exact ⟨res, res', h, h', (C137_mos _ _ exArr exArr_clean twice twice_copies (by norm_num) rfl rfl _ _ h h').1⟩

end Sureal.Props
