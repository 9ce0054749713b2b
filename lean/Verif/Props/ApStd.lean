import Verif.Props.ApLik
import Verif.Props.LogLik
import Verif.Lemmas.MleGrad
/-!
# C136: the standard deviations reported by the alternating projection

`P` marks the votes that are present, `X` are their values.
-/
set_option linter.unusedSectionVars false
namespace Sureal.Props
open Sureal Spec Ap
variable {κ : Type} {J I R : ℕ}

/-- The logarithm of the likelihood of the votes if observer `i` votes on video `j` with mean `q j + b i` and standard deviation `v i`. -/
noncomputable def apLogLik (P : Fin J → Fin I → Fin R → Bool) (X : Fin J → Fin I → Fin R → ℝ) (q : Fin J → ℝ) (b v : Fin I → ℝ) : ℝ :=
  ∑ j, ∑ i, ∑ r, if P j i r = true then Real.log (normalDensity (q j + b i) (v i ^ 2) (X j i r)) else 0

theorem apLogLik_eq (P : Fin J → Fin I → Fin R → Bool) (X : Fin J → Fin I → Fin R → ℝ) (q : Fin J → ℝ) (b v : Fin I → ℝ) :
    apLogLik P X q b v = logLik P X (fun _ => (0 : Fin 1)) q b v fun _ => 0 := by
  unfold apLogLik logLik
  simp

theorem inv_sq {v : ℝ} (hv : v ≠ 0) : (1 : Fl ℝ) / (Fl.fin v).sq = .fin (1 / v ^ 2) := by
  rw [Fl.sq_fin, Fl.one_def, Fl.fin_div (mul_ne_zero hv hv), pow_two]

theorem inv_zero_sq : (1 : Fl ℝ) / (Fl.fin (0 : ℝ)).sq = .pinf := by
  rw [Fl.sq_fin, mul_zero, Fl.one_def]
  exact Fl.fin_div_zero_pos one_pos

theorem fisher_const {ι : Type} {A : Finset ι} (hA : A.Nonempty) {w : ℝ} (hw : 0 < w) :
    fisherStd (-∑ _c ∈ A, 1 / w ^ 2) = .fin (w / Real.sqrt A.card) := by
  have hc : (0 : ℝ) < A.card := by exact_mod_cast Finset.card_pos.mpr hA
  unfold fisherStd
  rw [neg_neg, Finset.sum_const, nsmul_eq_mul, if_pos (by positivity), mul_one_div, Real.sqrt_div hc.le, Real.sqrt_sq hw.le, one_div_div]

/-- a sum of numbers, NaN and at least one positive infinity -/
theorem nansum_pinf {l : List (Fl ℝ)} (hm : .pinf ∈ l) (hn : .ninf ∉ l) : Np.nansum l = .pinf := by
  have key : ∀ l : List (Fl ℝ), .ninf ∉ l → .nan ∉ l → (l.sum ≠ .ninf ∧ l.sum ≠ .nan) ∧ (.pinf ∈ l → l.sum = .pinf) := by
    intro l
    induction l with
    | nil => intro _ _; exact ⟨⟨fun h => (by cases h), fun h => (by cases h)⟩, fun h => absurd h (by simp)⟩
    | cons x l ih =>
      intro h1 h2
      simp only [List.mem_cons, not_or] at h1 h2
      obtain ⟨⟨i1, i2⟩, i3⟩ := ih h1.2 h2.2
      rw [List.sum_cons]
      cases x with
      | nan => exact absurd rfl h2.1
      | ninf => exact absurd rfl h1.1
      | pinf =>
        cases hl : l.sum with
        | nan => exact absurd hl i2
        | ninf => exact absurd hl i1
        | pinf => exact ⟨⟨fun h => (by cases h), fun h => (by cases h)⟩, fun _ => rfl⟩
        | fin y => exact ⟨⟨fun h => (by cases h), fun h => (by cases h)⟩, fun _ => rfl⟩
      | fin a =>
        cases hl : l.sum with
        | nan => exact absurd hl i2
        | ninf => exact absurd hl i1
        | pinf => exact ⟨⟨fun h => (by cases h), fun h => (by cases h)⟩, fun _ => rfl⟩
        | fin y =>
          refine ⟨⟨fun h => (by cases h), fun h => (by cases h)⟩, fun h => ?_⟩
          rcases List.mem_cons.mp h with h | h
          · cases h
          · rw [i3 h] at hl; cases hl
  unfold Np.nansum Np.sum
  refine (key _ ?_ ?_).2 ?_
  · exact fun h => hn (List.mem_filter.mp h).1
  · exact fun h => by simpa [Fl.isNan] using (List.mem_filter.mp h).2
  · exact List.mem_filter.mpr ⟨hm, rfl⟩

theorem stdOf_pinf : Mle.stdOf (.pinf : Fl ℝ) = .fin 0 := rfl

section
variable (P : Fin J → Fin I → Fin R → Bool) (X : Fin J → Fin I → Fin R → ℝ)

theorem maskB_of {j : Fin J} {i : Fin I} {r : Fin R} (h : P j i r = true) (V : Fin I → ℝ) : maskB P V i = .fin (V i) := by
  unfold maskB
  rw [decide_eq_true (voter_of h), mask_true]

theorem maskS_of {j : Fin J} {i : Fin I} {r : Fin R} (h : P j i r = true) (V : Fin J → ℝ) : maskS P V j = .fin (V j) := by
  unfold maskS
  rw [decide_eq_true (voted_of h), mask_true]

theorem colL_row (a : Arr3 (Fl ℝ) J I R) (i : Fin I) : colL (stack0 a) i = rowL (stack1 fun i j r => a j i r) i := by
  rw [colL_stack0, rowL_stack1]

theorem row_congr {a a' : Arr3 (Fl ℝ) J I R} {j : Fin J} (h : ∀ i r, a j i r = a' j i r) : rowL (stack1 a) j = rowL (stack1 a') j := by
  rw [rowL_stack1, rowL_stack1]
  simp only [h]

/-- one over the root of the sum of `1 / w ^ 2` over the votes on a video: 0 if a `w` is 0 -/
theorem precision_row (Y : Arr3 (Fl ℝ) J I R) (w : Fin I → ℝ) (j : Fin J)
    (hY : ∀ i r, (P j i r = false → Y j i r = .nan) ∧ (P j i r = true → Y j i r = 1 / (Fl.fin (w i)).sq)) :
    ((∀ i r, P j i r = true → w i ≠ 0) → Mle.stdOf (Np.nansum (rowL (stack1 Y) j)) = fisherStd (-∑ c ∈ votesOnVideo P j, 1 / w c.1 ^ 2)) ∧
    ((∃ i r, P j i r = true ∧ w i = 0) → Mle.stdOf (Np.nansum (rowL (stack1 Y) j)) = .fin 0) := by
  constructor
  · intro h
    rw [row_congr (a' := fun j i r => mask (P j i r) (1 / w i ^ 2)) fun i r => ?_,
      nansum_of_coe (mask_row_clean P _ j) (coe_present_row P (fun _ i _ => 1 / w i ^ 2) j), Mle.stdOf_fin]
    cases hP : P j i r with
    | false => exact (hY i r).1 hP
    | true => rw [(hY i r).2 hP, inv_sq (h i r hP), mask_true]
  · rintro ⟨i, r, hP, h0⟩
    rw [nansum_pinf, stdOf_pinf]
    · refine (rowL_stack1_perm _ j).mem_iff.mpr ((mem_videoCells _ j _).mpr ⟨i, r, ?_⟩)
      rw [(hY i r).2 hP, h0, inv_zero_sq]
    · intro hm
      obtain ⟨i', r', h⟩ := (mem_videoCells _ j _).mp ((rowL_stack1_perm _ j).mem_iff.mp hm)
      cases hP' : P j i' r' with
      | false => rw [(hY i' r').1 hP'] at h; cases h
      | true =>
        rw [(hY i' r').2 hP'] at h
        by_cases hz : w i' = 0
        · rw [hz, inv_zero_sq] at h; cases h
        · rw [inv_sq hz] at h; cases h

/-- the standard deviation of a score -/
theorem sStd_spec (V : Fin I → ℝ) (vj : Arr1 (Fl ℝ) J) (j : Fin J) :
    ((∀ i r, P j i r = true → V i ≠ 0) → sStd (maskX P X) (maskB P V) vj j = fisherStd (-∑ c ∈ votesOnVideo P j, 1 / V c.1 ^ 2)) ∧
    ((∃ i r, P j i r = true ∧ V i = 0) → sStd (maskX P X) (maskB P V) vj j = .fin 0) := by
  refine precision_row P (fun j i r => oneOrNan (maskX P X j i r) / (maskB P V i).sq) V j fun i r => ⟨fun h => ?_, fun h => ?_⟩
  · show oneOrNan (mask (P j i r) _) / _ = _
    rw [h]; rfl
  · show oneOrNan (mask (P j i r) _) / _ = _
    rw [h, maskB_of P h]; rfl

/-- its second formula -/
theorem sStdAlt_spec (vi : Arr1 (Fl ℝ) I) (W : Fin J → ℝ) (j : Fin J) (hv : (votesOnVideo P j).Nonempty) (h0 : 0 ≤ W j) :
    sStdAlt (maskX P X) vi (maskS P W) j = .fin (W j / Real.sqrt (votesOnVideo P j).card) := by
  obtain ⟨h1, h2⟩ := precision_row P (fun j i r => oneOrNan (maskX P X j i r) / (maskS P W j).sq) (fun _ => W j) j fun i r => ⟨fun h => by
      show oneOrNan (mask (P j i r) _) / _ = _
      rw [h]; rfl, fun h => by
      show oneOrNan (mask (P j i r) _) / _ = _
      rw [h, maskS_of P h]; rfl⟩
  have hdef : sStdAlt (maskX P X) vi (maskS P W) j =
      Mle.stdOf (Np.nansum (rowL (stack1 fun j i r => oneOrNan (maskX P X j i r) / (maskS P W j).sq) j)) := rfl
  rw [hdef]
  by_cases hW : W j = 0
  · obtain ⟨⟨i, r⟩, hc⟩ := hv
    rw [h2 ⟨i, r, by simpa [votesOnVideo] using hc, hW⟩, hW, zero_div]
  · rw [h1 fun _ _ _ => hW]
    exact fisher_const hv (lt_of_le_of_ne h0 (Ne.symm hW))

/-- the standard deviation of a bias -/
theorem bStd_spec (V : Fin I → ℝ) (i : Fin I) (hv : (votesOfObserver P i).Nonempty) (h0 : 0 ≤ V i) :
    bStd (maskX P X) (maskB P V) i = .fin (V i / Real.sqrt (votesOfObserver P i).card) := by
  have hdef : bStd (maskX P X) (maskB P V) i =
      Mle.stdOf (Np.nansum (rowL (stack1 fun i j r => oneOrNan (maskX P X j i r) / (maskB P V i).sq) i)) := by
    rw [← colL_row fun j i r => oneOrNan (maskX P X j i r) / (maskB P V i).sq]; rfl
  obtain ⟨h1, h2⟩ := precision_row (fun i j r => P j i r) (fun i j r => oneOrNan (maskX P X j i r) / (maskB P V i).sq) (fun _ => V i) i
    fun j r => ⟨fun h => by
      show oneOrNan (mask (P j i r) _) / _ = _
      rw [h]; rfl, fun h => by
      show oneOrNan (mask (P j i r) _) / _ = _
      rw [h, maskB_of P h]; rfl⟩
  rw [hdef]
  by_cases hV : V i = 0
  · obtain ⟨⟨j, r⟩, hc⟩ := hv
    rw [h2 ⟨j, r, by simpa [votesOfObserver] using hc, hV⟩, hV, zero_div]
  · rw [h1 fun _ _ _ => hV]
    exact fisher_const (A := votesOfObserver P i) hv (lt_of_le_of_ne h0 (Ne.symm hV))

/-- one cell of the curvature in an inconsistency -/
theorem lppCell_fin (r : ℝ) {v : ℝ} (h : v ≠ 0) : lppCell (.fin r) (.fin v) = .fin (Mle.cell2 v 0 r) := by
  unfold lppCell Mle.cell2
  have h2 : v * v ≠ 0 := mul_ne_zero h h
  have h4 : v * v * (v * v) ≠ 0 := mul_ne_zero h2 h2
  have h8 : v * v * (v * v) * (v * v * (v * v)) ≠ 0 := mul_ne_zero h4 h4
  rw [Fl.sq_fin, Fl.sq_fin, Fl.sq_fin, Fl.sq_fin, Fl.natCast_def, Fl.fin_neg, Fl.fin_mul, Fl.fin_mul, Fl.fin_div h8, Fl.one_def, Fl.fin_div h2, Fl.fin_add]
  congr 1
  push_cast
  field_simp
  ring

/-- the standard deviation of an inconsistency: infinite if the inconsistency is 0 -/
theorem vStd_spec (S : Fin J → ℝ) (B V : Fin I → ℝ) (i : Fin I) :
    (V i ≠ 0 → vStd (maskX P X) (maskS P S) (maskB P B) (maskB P V) i =
      fisherStd (∑ c ∈ votesOfObserver P i, Mle.cell2 (V i) 0 (X c.1 i c.2 - S c.1 - B i))) ∧
    (V i = 0 → vStd (maskX P X) (maskS P S) (maskB P B) (maskB P V) i = .pinf) := by
  have hdef : vStd (maskX P X) (maskS P S) (maskB P B) (maskB P V) i =
      Mle.stdOf (-(Np.nansum (colL (stack0 fun j i r => lppCell (maskX P (fun j i r => X j i r - S j - B i) j i r) (maskB P V i)) i))) := by
    unfold vStd
    rw [residue_spec]
    rfl
  have hnan : ∀ v : Fl ℝ, lppCell .nan v = .nan := by
    intro v
    unfold lppCell
    show _ + (Fl.nan * Fl.nan) * _ / _ = _
    simp
  constructor
  · intro h
    rw [hdef, colL_row, row_congr (a' := fun i j r => mask (P j i r) (Mle.cell2 (V i) 0 (X j i r - S j - B i))) fun j r => ?_,
      nansum_of_coe (mask_row_clean (fun i j r => P j i r) _ i)
        (coe_present_row (fun i j r => P j i r) (fun i j r => Mle.cell2 (V i) 0 (X j i r - S j - B i)) i), Fl.fin_neg, Mle.stdOf_fin, neg_neg]
    · rfl
    · show lppCell (mask (P j i r) _) _ = _
      cases hP : P j i r with
      | false => exact hnan _
      | true => rw [maskB_of P hP, mask_true, mask_true, lppCell_fin _ h]
  · intro h
    have : Np.nansum (colL (stack0 fun j i r => lppCell (maskX P (fun j i r => X j i r - S j - B i) j i r) (maskB P V i)) i) = 0 := by
      apply Mle.nansum_all_nan
      intro x hx
      obtain ⟨j, r, rfl⟩ := (mem_observerCells _ i _).mp ((colL_stack0_perm _ i).mem_iff.mp hx)
      show lppCell (mask (P j i r) _) _ = _
      cases hP : P j i r with
      | false => exact hnan _
      | true =>
        rw [maskB_of P hP, mask_true, h]
        unfold lppCell
        rw [Fl.sq_fin, Fl.sq_fin, Fl.sq_fin, Fl.sq_fin, Fl.natCast_def, Fl.fin_neg, Fl.fin_mul, Fl.fin_mul]
        simp only [mul_zero]
        rw [show (Fl.fin (0 : ℝ) / Fl.fin 0) = .nan from Fl.zero_div_zero]
        simp
    rw [hdef, this, Fl.zero_def, Fl.fin_neg, neg_zero, Mle.stdOf_fin]
    unfold fisherStd
    rw [if_neg (by simp)]

/-- the parameters a run reports, and where its last pass started -/
theorem ap_params {sd : StdFormula} {rd : Reader κ ℝ} {o : Opts ℝ} (h1 : o.normalizeFinal = none) (h2 : o.transformFinal = none)
    {res : Result κ ℝ} (hr : runAPWith sd rd o = .ok res) {a : Arr3D (Fl ℝ)} (ha : res.rawScores = some a)
    {P : Fin a.E → Fin a.S → Fin a.R → Bool} {X : Fin a.E → Fin a.S → Fin a.R → ℝ}
    (hx : Holds a.get P X) (ho : ∀ i, ∃ j r, P j i r = true) :
    Voted P ∧ ∃ (S0 : Fin a.E → ℝ) (B0 : Fin a.S → ℝ) (S : Fin a.E → ℝ) (B : Fin a.S → ℝ) (t : ℝ),
      res.qualityScores = List.ofFn (fun j => .fin (S j + t)) ∧
      res.observerBias = some (List.ofFn fun i => .fin (B i - t)) ∧
      res.observerInconsistency = some (List.ofFn fun i => .fin (apSpread P X S0 B0 i)) ∧
      res.qualityScoresStd = some (List.ofFn (sd (maskX P X) (maskB P (apSpread P X S0 B0)) (maskS P (apSpreadJ P X S0 B0)))) ∧
      res.observerBiasStd = some (List.ofFn (bStd (maskX P X) (maskB P (apSpread P X S0 B0)))) ∧
      res.observerInconsistencyStd = some (List.ofFn (vStd (maskX P X) (maskS P S) (maskB P B) (maskB P (apSpread P X S0 B0)))) := by
  obtain ⟨p, f, hp, hf, hres⟩ := ap_run hr
  have hpa : p.arr = a := by
    rw [hres] at ha
    simpa [result] using ha
  subst hpa
  have hX := hx.eq
  have hf' := hf
  rw [hX] at hf
  rcases fit_mask P X with ⟨_, h⟩ | ⟨hv, k, S0, B0, -, h⟩
  · rw [h] at hf; cases hf
  have hV : Voted P := ⟨fun j => by
    obtain ⟨⟨i, r⟩, hc⟩ := hv j
    simp only [votesOnVideo, Finset.mem_filter, Finset.mem_univ, true_and] at hc
    exact ⟨i, r, hc⟩, ho⟩
  refine ⟨hV, S0, B0, ?_⟩
  rw [h, step_spec] at hf
  injection hf with hf
  generalize hS : apQuality P X B0 (apSpread P X S0 B0) = S at hf
  generalize hB : apBias P X S = B at hf
  have hs : f.s = maskS P S := by rw [← hf]
  have hb : f.b = maskB P B := by rw [← hf]
  have hvi : f.vi = maskB P (apSpread P X S0 B0) := by rw [← hf]
  have hvj : f.vj = maskS P (apSpreadJ P X S0 B0) := by rw [← hf]
  obtain ⟨t, hcen⟩ : ∃ t : ℝ, centre (forced o) f.s f.b = (fun j => .fin (S j + t), fun i => .fin (B i - t)) := by
    cases hfo : forced o
    · refine ⟨0, ?_⟩
      unfold centre
      rw [if_neg (by simp), hs, hb, maskS_fin hV, maskB_fin hV]
      simp
    · refine ⟨(∑ i, B i) / p.arr.S, ?_⟩
      unfold centre
      rw [if_pos rfl]
      dsimp only
      rw [hb, mean_maskB]
      rcases Nat.eq_zero_or_pos p.arr.S with h0 | h0
      · refine Prod.ext (funext fun j => ?_) (funext fun i => ?_)
        · obtain ⟨⟨i, _⟩, _⟩ := hv j
          exact absurd i.isLt (by omega)
        · exact absurd i.isLt (by omega)
      · rw [decide_eq_true ⟨h0, hV.observers⟩, hs, maskS_fin hV, maskB_fin hV]
        rfl
  refine ⟨S, B, t, ?_, ?_, ?_, ?_, ?_, ?_⟩
  · rw [hres, post_plain h1 h2, hcen]
  · rw [hres]
    show some (List.ofFn (centre (forced o) f.s f.b).2) = _
    rw [hcen]
  · rw [hres]
    show some (List.ofFn f.vi) = _
    rw [hvi, maskB_fin hV]
  · rw [hres]
    show some (List.ofFn (sd p.arr.get f.vi f.vj)) = _
    rw [hvi, hvj, hX]
  · rw [hres]
    show some (List.ofFn (bStd p.arr.get f.vi)) = _
    rw [hvi, hX]
  · rw [hres]
    show some (List.ofFn (vStd p.arr.get f.s f.b f.vi)) = _
    rw [hvi, hs, hb, hX]

theorem sum_votes (f : Fin J → Fin I → Fin R → ℝ) (j : Fin J) :
    ∑ c ∈ votesOnVideo P j, f j c.1 c.2 = ∑ i, ∑ r, if P j i r = true then f j i r else 0 := by
  unfold votesOnVideo
  rw [Finset.sum_filter, Fintype.sum_prod_type]

theorem sum_votes' (f : Fin J → Fin I → Fin R → ℝ) (i : Fin I) :
    ∑ c ∈ votesOfObserver P i, f c.1 i c.2 = ∑ j, ∑ r, if P j i r = true then f j i r else 0 := by
  unfold votesOfObserver
  rw [Finset.sum_filter, Fintype.sum_prod_type]
end

section
variable (rd : Reader κ ℝ) (o : Opts ℝ) (h1 : o.normalizeFinal = none) (h2 : o.transformFinal = none) (res : Result κ ℝ)
  (a : Arr3D (Fl ℝ)) (ha : res.rawScores = some a)
  (P : Fin a.E → Fin a.S → Fin a.R → Bool) (X : Fin a.E → Fin a.S → Fin a.R → ℝ)
  (hx : Holds a.get P X) (ho : ∀ i, ∃ j r, P j i r = true)
include h1 h2 ha hx ho

/-- **C136.** The solver of P.910 (first formula for the standard deviations of the scores): if the reported inconsistencies are positive, the reported standard
deviations of the scores, the biases and the inconsistencies are one over the root of minus the second derivative of the logarithm of the likelihood in this
score, bias or inconsistency, at the reported values; infinite if this is not positive. (The likelihood is the one whose logarithm per vote is reported, C120.) -/
theorem C136_curvature (hr : runAP rd o = .ok res) (q : Fin a.E → ℝ) (b v : Fin a.S → ℝ)
    (hq : res.qualityScores = List.ofFn fun j => .fin (q j)) (hb : res.observerBias = some (List.ofFn fun i => .fin (b i)))
    (hv : res.observerInconsistency = some (List.ofFn fun i => .fin (v i))) (hpos : ∀ i, 0 < v i) :
    ∃ (sq : Fin a.E → Fl ℝ) (sb sv : Fin a.S → Fl ℝ), res.qualityScoresStd = some (List.ofFn sq) ∧ res.observerBiasStd = some (List.ofFn sb) ∧
      res.observerInconsistencyStd = some (List.ofFn sv) ∧
      (∀ j, ∃ d1 d2, Derivs (fun t => apLogLik P X (setEntry q j t) b v) (q j) d1 d2 ∧ sq j = fisherStd d2) ∧
      (∀ i, ∃ d1 d2, Derivs (fun t => apLogLik P X q (setEntry b i t) v) (b i) d1 d2 ∧ sb i = fisherStd d2) ∧
      ∀ i, ∃ d1 d2, Derivs (fun t => apLogLik P X q b (setEntry v i t)) (v i) d1 d2 ∧ sv i = fisherStd d2 := by
  obtain ⟨hV, S0, B0, S, B, t, e1, e2, e3, e4, e5, e6⟩ := ap_params h1 h2 hr ha hx ho
  have hv' : apSpread P X S0 B0 = v := fin_inj (ofFn_inj (Option.some.inj (e3.symm.trans hv)))
  obtain rfl : (fun j => S j + t) = q := fin_inj (ofFn_inj (e1.symm.trans hq))
  obtain rfl : (fun i => B i - t) = b := fin_inj (ofFn_inj (Option.some.inj (e2.symm.trans hb)))
  rw [hv'] at e4 e5 e6
  have hreg : ∀ e s r, P e s r = true → 0 < v s ^ 2 + (fun _ : Fin 1 => (0 : ℝ)) ((fun _ => 0 : Fin a.E → Fin 1) e) ^ 2 := by
    intro e s r _
    have := hpos s
    positivity
  simp only [apLogLik_eq]
  refine ⟨_, _, _, e4, e5, e6, fun j => ⟨_, _, Mle.derivs_x hreg j, ?_⟩, fun i => ⟨_, _, Mle.derivs_b hreg i, ?_⟩, fun i => ⟨_, _, Mle.derivs_v hreg i, ?_⟩⟩
  · rw [(sStd_spec P X v _ j).1 fun i r _ => (hpos i).ne', sum_votes P (fun _ i _ => 1 / v i ^ 2) j, ← Finset.sum_neg_distrib]
    congr 1
    refine Finset.sum_congr rfl fun i _ => ?_
    rw [← Finset.sum_neg_distrib]
    refine Finset.sum_congr rfl fun r _ => ?_
    split <;> simp [neg_div]
  · rw [bStd_spec P X v i (hV.observers i) (hpos i).le, ← fisher_const (hV.observers i) (hpos i), sum_votes' P (fun _ i _ => 1 / v i ^ 2) i, ← Finset.sum_neg_distrib]
    congr 1
    refine Finset.sum_congr rfl fun i _ => ?_
    rw [← Finset.sum_neg_distrib]
    refine Finset.sum_congr rfl fun r _ => ?_
    split <;> simp [neg_div]
  · rw [(vStd_spec P X S B v i).1 (hpos i).ne', sum_votes' P (fun j i r => Mle.cell2 (v i) 0 (X j i r - S j - B i)) i]
    congr 1
    refine Finset.sum_congr rfl fun j _ => Finset.sum_congr rfl fun r _ => ?_
    split
    · congr 1; ring
    · rfl

/-- **C136.** In both solvers the standard deviation of a bias is the inconsistency of the observer over the root of their number of votes. That of a score is,
in the first solver, one over the root of the sum of `1 / inconsistency ^ 2` over the votes on the video, and 0 if a vote comes from an observer with
inconsistency 0. In the second solver (P910) it is the spread of the residuals of the votes on the video over the root of their number; inconsistencies and
spreads are those of the residuals from the same scores `S0` and biases `B0`, at which the last pass started. -/
theorem C136_scores (alt : Bool) (hr : (if alt then runAP2 rd o else runAP rd o) = .ok res) :
    ∃ (v : Fin a.S → ℝ) (S0 : Fin a.E → ℝ) (B0 : Fin a.S → ℝ) (sq : Fin a.E → ℝ),
      res.observerInconsistency = some (List.ofFn fun i => .fin (v i)) ∧ res.qualityScoresStd = some (List.ofFn fun j => .fin (sq j)) ∧
      res.observerBiasStd = some (List.ofFn fun i => .fin (v i / Real.sqrt (votesOfObserver P i).card)) ∧
      (∀ i, v i = spread (votesOfObserver P i) fun c => X c.1 i c.2 - S0 c.1 - B0 i) ∧
      (∀ j, alt = true → sq j = (spread (votesOnVideo P j) fun c => X j c.1 c.2 - S0 j - B0 c.1) / Real.sqrt (votesOnVideo P j).card) ∧
      (∀ j, alt = false → (∀ i r, P j i r = true → v i ≠ 0) → sq j = 1 / Real.sqrt (∑ c ∈ votesOnVideo P j, 1 / v c.1 ^ 2)) ∧
      (∀ j, alt = false → (∃ i r, P j i r = true ∧ v i = 0) → sq j = 0) := by
  cases alt with
  | true =>
    obtain ⟨hV, S0, B0, S, B, t, -, -, e3, e4, e5, -⟩ := ap_params (sd := sStdAlt) h1 h2 hr ha hx ho
    refine ⟨_, S0, B0, fun j => apSpreadJ P X S0 B0 j / Real.sqrt (votesOnVideo P j).card, e3, ?_, ?_, fun _ => rfl, fun _ _ => rfl, fun _ h => (by cases h), fun _ h => (by cases h)⟩
    · rw [e4]
      congr 2
      funext j
      exact sStdAlt_spec P X _ _ j (hV.videos j) (Real.sqrt_nonneg _)
    · rw [e5]
      congr 2
      funext i
      exact bStd_spec P X _ i (hV.observers i) (Real.sqrt_nonneg _)
  | false =>
    obtain ⟨hV, S0, B0, S, B, t, -, -, e3, e4, e5, -⟩ := ap_params (sd := sStd) h1 h2 hr ha hx ho
    generalize hv : apSpread P X S0 B0 = v at *
    have hv0 : ∀ i, 0 ≤ v i := fun i => by rw [← hv]; exact Real.sqrt_nonneg _
    classical
    refine ⟨v, S0, B0, fun j => if ∃ i r, P j i r = true ∧ v i = 0 then 0 else 1 / Real.sqrt (∑ c ∈ votesOnVideo P j, 1 / v c.1 ^ 2), e3, ?_, ?_,
      fun i => by rw [← hv]; rfl, fun _ h => (by cases h), fun j _ h => ?_, fun j _ h => if_pos h⟩
    · rw [e4]
      congr 2
      funext j
      dsimp only
      by_cases h : ∃ i r, P j i r = true ∧ v i = 0
      · rw [if_pos h]; exact (sStd_spec P X v _ j).2 h
      · rw [if_neg h]
        push Not at h
        refine ((sStd_spec P X v _ j).1 h).trans ?_
        unfold fisherStd
        rw [neg_neg, if_pos]
        refine Finset.sum_pos (fun c hc => ?_) (hV.videos j)
        have := h c.1 c.2 (by simpa [votesOnVideo] using hc)
        positivity
    · rw [e5]
      congr 2
      funext i
      exact bStd_spec P X _ i (hV.observers i) (hv0 i)
    · dsimp only
      rw [if_neg]
      push Not
      exact h

/-- **C136.** Where the mean squared residual of an observer is the square of their positive inconsistency, as it is where the passes change nothing any more, the
standard deviation of the inconsistency is the inconsistency over the root of twice their number of votes; for inconsistency 0 it is infinite. -/
theorem C136_inconsistency (sd : StdFormula) (hr : runAPWith sd rd o = .ok res) (q : Fin a.E → ℝ) (b v : Fin a.S → ℝ)
    (hq : res.qualityScores = List.ofFn fun j => .fin (q j)) (hb : res.observerBias = some (List.ofFn fun i => .fin (b i)))
    (hv : res.observerInconsistency = some (List.ofFn fun i => .fin (v i))) :
    ∃ sv : Fin a.S → Fl ℝ, res.observerInconsistencyStd = some (List.ofFn sv) ∧
      (∀ i, 0 < v i → (avg (votesOfObserver P i) fun c => (X c.1 i c.2 - q c.1 - b i) ^ 2) = v i ^ 2 →
        sv i = .fin (v i / Real.sqrt (2 * (votesOfObserver P i).card))) ∧
      (∀ i, 0 < v i → 3 * (avg (votesOfObserver P i) fun c => (X c.1 i c.2 - q c.1 - b i) ^ 2) ≤ v i ^ 2 → sv i = .pinf) ∧
      ∀ i, v i = 0 → sv i = .pinf := by
  obtain ⟨hV, S0, B0, S, B, t, e1, e2, e3, -, -, e6⟩ := ap_params h1 h2 hr ha hx ho
  have hv' : apSpread P X S0 B0 = v := fin_inj (ofFn_inj (Option.some.inj (e3.symm.trans hv)))
  obtain rfl : (fun j => S j + t) = q := fin_inj (ofFn_inj (e1.symm.trans hq))
  obtain rfl : (fun i => B i - t) = b := fin_inj (ofFn_inj (Option.some.inj (e2.symm.trans hb)))
  rw [hv'] at e6
  have hsum : ∀ i, 0 < v i → ∑ c ∈ votesOfObserver P i, Mle.cell2 (v i) 0 (X c.1 i c.2 - S c.1 - B i) =
      (votesOfObserver P i).card * (1 / v i ^ 2 - 3 * (avg (votesOfObserver P i) fun c => (X c.1 i c.2 - (S c.1 + t) - (B i - t)) ^ 2) / v i ^ 4) := by
    intro i hi
    have hc : ((votesOfObserver P i).card : ℝ) ≠ 0 := by
      have := Finset.card_pos.mpr (hV.observers i)
      positivity
    have h3 : ∀ c ∈ votesOfObserver P i, Mle.cell2 (v i) 0 (X c.1 i c.2 - S c.1 - B i) =
        1 / v i ^ 2 - 3 / v i ^ 4 * (X c.1 i c.2 - (S c.1 + t) - (B i - t)) ^ 2 := by
      intro c _
      unfold Mle.cell2
      have := hi.ne'
      field_simp
      ring
    rw [Finset.sum_congr rfl h3, Finset.sum_sub_distrib, ← Finset.mul_sum, Finset.sum_const, nsmul_eq_mul]
    unfold avg
    field_simp
  refine ⟨_, e6, fun i hi he => ?_, fun i hi he => ?_, fun i hi => (vStd_spec P X S B v i).2 hi⟩
  · have hc : (0 : ℝ) < (votesOfObserver P i).card := by exact_mod_cast Finset.card_pos.mpr (hV.observers i)
    rw [(vStd_spec P X S B v i).1 hi.ne', hsum i hi, he]
    have h4 : ((votesOfObserver P i).card : ℝ) * (1 / v i ^ 2 - 3 * v i ^ 2 / v i ^ 4) = -((2 * (votesOfObserver P i).card) / v i ^ 2) := by
      have := hi.ne'
      field_simp
      ring
    rw [h4]
    unfold fisherStd
    rw [neg_neg, if_pos (by positivity), Real.sqrt_div (by positivity), Real.sqrt_sq hi.le, one_div_div]
  · rw [(vStd_spec P X S B v i).1 hi.ne', hsum i hi]
    unfold fisherStd
    rw [if_neg]
    rw [not_lt, neg_nonpos]
    refine mul_nonneg (Nat.cast_nonneg _) ?_
    have h4 : 1 / v i ^ 2 = v i ^ 2 / v i ^ 4 := by
      have := hi.ne'
      field_simp
    rw [h4, ← sub_div]
    exact div_nonneg (by linarith) (by positivity)
end

theorem cross_spread (i : Fin 2) : apSpread everyVote crossX (fun _ => 1 / 2) (fun _ => 0) i = 1 / 2 := by
  unfold apSpread spread
  rw [complete_observers everyVote fun _ _ _ => rfl]
  have h : (avg Finset.univ fun c : Fin 2 × Fin 1 => crossX c.1 i c.2 - 1 / 2 - 0) = 0 := by
    fin_cases i <;> simp [avg, crossX, Fintype.sum_prod_type, Fin.sum_univ_succ] <;> norm_num
  rw [h]
  have h2 : (avg Finset.univ fun c : Fin 2 × Fin 1 => (crossX c.1 i c.2 - 1 / 2 - 0 - 0) ^ 2) = (1 / 2) ^ 2 := by
    fin_cases i <;> simp [avg, crossX, Fintype.sum_prod_type, Fin.sum_univ_succ] <;> norm_num
  rw [h2, Real.sqrt_sq (by norm_num)]

/-- Two observers vote 0, 1 and 1, 0 on two videos: scores 1/2, biases 0, inconsistencies 1/2; all hypotheses of the three theorems are met. The standard deviations
of the inconsistencies are 1/4 and those of the biases are `1/2 / √2`. -/
example : ∃ res, runAP (arrReader 2 2 1 fun j i r => .fin (crossX j i r)) {} = .ok res ∧
    res.observerInconsistencyStd = some [.fin (1 / 4), .fin (1 / 4)] ∧
    res.observerBiasStd = some [.fin (1 / 2 / Real.sqrt 2), .fin (1 / 2 / Real.sqrt 2)] ∧
    ∃ d1 d2, Derivs (fun t => apLogLik everyVote crossX (setEntry (fun _ => 1 / 2) 0 t) (fun _ => 0) fun _ => 1 / 2) (1 / 2) d1 d2 ∧
      (res.qualityScoresStd.bind fun l => l[0]?) = some (fisherStd d2) := by
  obtain ⟨res, hr, hq, hb, hv⟩ := cross_run sStd
  have ha : res.rawScores = some ⟨2, 2, 1, fun j i r => .fin (crossX j i r)⟩ := by
    obtain ⟨p, f, hp, _, hres⟩ := ap_run hr
    have hp' := preprocess_zeromean (rd := arrReader 2 2 1 fun j i r => .fin (crossX j i r)) (a := ⟨2, 2, 1, fun j i r => .fin (crossX j i r)⟩) rfl none
    obtain rfl := Except.ok.inj (hp.symm.trans hp')
    rw [hres]
    rfl
  have hx : Holds (fun j i r => (Fl.fin (crossX j i r) : Fl ℝ)) everyVote crossX := fun _ _ _ => rfl
  have hq' : res.qualityScores = List.ofFn fun _ : Fin 2 => .fin (1 / 2) := by rw [hq]; simp [List.ofFn_succ]
  have hb' : res.observerBias = some (List.ofFn fun _ : Fin 2 => .fin 0) := by rw [hb]; simp [List.ofFn_succ]
  have hv' : res.observerInconsistency = some (List.ofFn fun _ : Fin 2 => .fin (1 / 2)) := by
    rw [hv]; congr 2; funext i; rw [cross_spread]
  have hcard : ∀ i, (votesOfObserver everyVote i).card = 2 := by
    intro i
    rw [complete_observers everyVote fun _ _ _ => rfl]
    rfl
  obtain ⟨sv, g1, g2, -⟩ := C136_inconsistency _ _ rfl rfl res _ ha everyVote crossX hx allVotes_voted.2 sStd hr _ _ _ hq' hb' hv'
  obtain ⟨sq, sb, _, k1, k2, -, k4, -⟩ := C136_curvature _ _ rfl rfl res _ ha everyVote crossX hx allVotes_voted.2 hr _ _ _ hq' hb' hv' fun _ => by norm_num
  obtain ⟨v, S0, B0, sq', l1, l2, l3, -⟩ := C136_scores _ _ rfl rfl res _ ha everyVote crossX hx allVotes_voted.2 false hr
  have hvv : v = fun _ => 1 / 2 := fin_inj (ofFn_inj (Option.some.inj (l1.symm.trans hv')))
  have h4 : Real.sqrt (2 * (2 : ℕ)) = 2 := by
    rw [show (2 * ((2 : ℕ) : ℝ)) = 2 ^ 2 by norm_num]
    exact Real.sqrt_sq (by norm_num)
  have hsv : ∀ i, sv i = .fin (1 / 4) := by
    intro i
    rw [g2 i (by norm_num) ((cross_meanSq i).trans (by norm_num)), hcard, h4]
    norm_num
  obtain ⟨d1, d2, hd, he⟩ := k4 0
  refine ⟨res, hr, ?_, ?_, d1, d2, hd, ?_⟩
  · rw [g1, List.ofFn_succ, List.ofFn_succ, List.ofFn_zero, hsv, hsv]
  · rw [l3, hvv]
    simp [hcard, List.ofFn_succ]
  · rw [k1, ← he]
    simp [List.ofFn_succ]

/-- Votes without noise: the inconsistencies are 0, the standard deviations of the scores and the biases are 0 and those of the inconsistencies are infinite. -/
example : ∃ res, runAP (arrReader 2 2 1 fun j i _ => .fin ((j.val : ℝ) + i.val)) {} = .ok res ∧
    res.qualityScoresStd = some [.fin 0, .fin 0] ∧ res.observerBiasStd = some [.fin 0, .fin 0] ∧ res.observerInconsistencyStd = some [.pinf, .pinf] := by
  obtain ⟨res, hr, hq, hb, hv, -⟩ := C28_additive_recovery sStd (arrReader 2 2 1 fun j i _ => .fin ((j.val : ℝ) + i.val)) (arr_harmless 2 2 1 _) 2 2 1
    (by norm_num) (by norm_num) (by norm_num) (fun j => j.val) (fun i => i.val) rfl none
  have ha : res.rawScores = some ⟨2, 2, 1, fun j i _ => .fin ((j.val : ℝ) + i.val)⟩ := by
    obtain ⟨p, f, hp, _, hres⟩ := ap_run hr
    have hp' := preprocess_zeromean (rd := arrReader 2 2 1 fun j i _ => .fin ((j.val : ℝ) + i.val)) (a := ⟨2, 2, 1, fun j i _ => .fin ((j.val : ℝ) + i.val)⟩) rfl none
    obtain rfl := Except.ok.inj (hp.symm.trans hp')
    rw [hres]
    rfl
  have hx : Holds (fun j i r => (Fl.fin ((j.val : ℝ) + i.val) : Fl ℝ) : Arr3 (Fl ℝ) 2 2 1) everyVote (fun j i _ => (j.val : ℝ) + i.val) :=
    fun _ _ _ => rfl
  obtain ⟨sv, g1, -, -, g2⟩ := C136_inconsistency _ _ rfl rfl res _ ha everyVote _ hx allVotes_voted.2 sStd hr _ _ _ hq hb hv
  obtain ⟨v, S0, B0, sq, l1, l2, l3, -, -, -, l4⟩ := C136_scores _ _ rfl rfl res _ ha everyVote _ hx allVotes_voted.2 false hr
  have hvv : v = fun _ => 0 := fin_inj (ofFn_inj (Option.some.inj (l1.symm.trans hv)))
  refine ⟨res, hr, ?_, ?_, ?_⟩
  · rw [l2, List.ofFn_succ, List.ofFn_succ, List.ofFn_zero, l4 _ rfl ⟨0, 0, rfl, by rw [hvv]⟩, l4 _ rfl ⟨0, 0, rfl, by rw [hvv]⟩]
  · rw [l3, hvv]
    simp [List.ofFn_succ]
  · rw [g1, List.ofFn_succ, List.ofFn_succ, List.ofFn_zero, g2 _ rfl, g2 _ rfl]
end Sureal.Props
