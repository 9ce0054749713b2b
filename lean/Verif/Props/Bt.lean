import Verif.Lemmas.BtFl
import Mathlib.Data.Fin.VecNotation
import Mathlib.Algebra.BigOperators.Fin
/-!
# Properties C55, C56, C57, C76: the Bradley-Terry maximum likelihood model

`mat A` is the win matrix with entries `A i j`.
-/
set_option linter.unusedSectionVars false
namespace Sureal.Props
open Spec.BT BtMath
variable {M : ℕ} {A : Fin M → Fin M → ℝ} {p q : Fin M → ℝ}

/-- The win matrix of an array whose cells are missing or non-negative. -/
theorem bt_winMatrix (a : Arr3D (Fl ℝ)) (hsq : a.E = a.S) (hc : ∀ i j r, Spec.NumOrNan (a.get i j r)) :
    Bt.winMatrix a = .ok ⟨a.E, mat fun i j => (Spec.present (List.ofFn (a.get i (Fin.cast hsq j)))).sum⟩ := by
  unfold Bt.winMatrix
  rw [dif_pos hsq]
  congr 2
  funext i j
  exact Np.nansum_eq (Np.clean_ofFn.mpr fun r => hc i _ r)

/-- An array of another shape is refused. -/
theorem bt_winMatrix_error (a : Arr3D (Fl ℝ)) (h : a.E ≠ a.S) : Bt.winMatrix a = .error .assertion := dif_neg h

/-! ## C55 -/

/-- If every video wins at least once, every iterate is a probability vector with positive entries. -/
theorem C55_partial (h : Table A) (hM : M ≠ 0) (k : ℕ) :
    ∃ p : Fin M → ℝ, (∀ i, 0 < p i) ∧ ∑ i, p i = 1 ∧ (Bt.iter (mat A))^[k] (Bt.start M) = vec p := by
  obtain ⟨p, hp, he⟩ := Bt.iterate_fl h hM k
  exact ⟨p, hp.pos, hp.sum, he⟩

/-- So is what the model reports: `quality_scores_p` is a positive probability vector, `quality_scores` its logarithm. -/
theorem C55_result_partial (h : Table A) (hM : M ≠ 0) {pinv display} (hd : display ≠ some none) {r : Bt.MleResult ℝ M}
    (hr : Bt.Resolve pinv display (mat A) (.ok r)) :
    ∃ p : Fin M → ℝ, (∀ i, 0 < p i) ∧ ∑ i, p i = 1 ∧ r.p = vec p ∧ r.v = vec (fun i => Real.log (p i)) := by
  generalize hr' : (Except.ok r : Py (Bt.MleResult ℝ M)) = r' at hr
  cases hr with
  | badFlag hb => exact absurd hb hd
  | empty _ h0 => exact absurd h0 hM
  | fail _ _ _ => cases hr'
  | done _ _ hl =>
    rw [Bt.start_vec hM] at hl
    obtain ⟨p0, hp0, -, he, -⟩ := Bt.loop_ok h hl _ (Bt.start_posProb hM) rfl
    cases he
    have hp := next_posProb h hp0
    unfold Bt.finish at hr'
    cases hpi : pinv (M + 1) (Bt.bordered (Bt.lambda (mat A) (vec (next A p0)))) with
    | error e => rw [hpi] at hr'; cases hr'
    | ok c =>
      rw [hpi] at hr'
      dsimp only at hr'
      cases hr'
      refine ⟨next A p0, hp.pos, hp.sum, rfl, ?_⟩
      funext i
      exact Fl.log_fin (hp.pos i)

/-- The unconditional half of the claim fails: if some video never wins (and there are fewer than 10^8 videos), the model
does not produce a probability vector.  It divides 0 by 0 and raises ValueError. -/
theorem C55_refuted (hA : ∀ i j, 0 ≤ A i j) (hM : M < 10 ^ 8) {i : Fin M} (hw : wins A i = 0) {pinv display}
    (hd : display ≠ some none) (r : Py (Bt.MleResult ℝ M)) :
    Bt.Resolve pinv display (mat A) r ↔ r = .error .value := by
  have hM0 : M ≠ 0 := fun h => by subst h; exact i.elim0
  have hl := Bt.loop_noWin hA hM hw
  constructor
  · intro hr
    cases hr with
    | badFlag hb => exact absurd hb hd
    | empty _ h0 => exact absurd h0 hM0
    | fail _ _ hl' => cases Bt.loop_det hl hl'; rfl
    | done _ _ hl' => cases Bt.loop_det hl hl'
  · rintro rfl
    exact .fail hd hM0 hl

/-- two videos, the first beats the second three times out of four -/
def threeOne : Fin 2 → Fin 2 → ℝ := ![![0, 3], ![1, 0]]

theorem threeOne_table : Table threeOne := by
  constructor
  · intro i j
    fin_cases i <;> fin_cases j <;> simp [threeOne]
  · intro i
    fin_cases i <;> simp [threeOne, wins]

/-- two videos, the first always beats the second -/
def shutOut : Fin 2 → Fin 2 → ℝ := ![![0, 3], ![0, 0]]

example : (∀ i j, 0 ≤ shutOut i j) ∧ wins shutOut 1 = 0 := by
  refine ⟨fun i j => ?_, ?_⟩
  · fin_cases i <;> fin_cases j <;> simp [shutOut]
  · simp [shutOut, wins]

/-! ## C56 -/

/-- One pass does not decrease the likelihood of the comparisons. -/
theorem C56_ascent (h : Table A) (hp : PosProb p) :
    ∃ p' : Fin M → ℝ, PosProb p' ∧ Bt.iter (mat A) (vec p) = vec p' ∧ logLik A p ≤ logLik A p' := by
  refine ⟨next A p, next_posProb h hp, Bt.iter_fl h hp, ?_⟩
  have := next_gain h hp
  have h0 : 0 ≤ ∑ i, wins A i * (Real.sqrt (p i / update A p i) - 1) ^ 2 :=
    Finset.sum_nonneg fun i _ => mul_nonneg (h.wins i).le (sq_nonneg _)
  linarith

/-- A pass that changes the vector strictly increases it. -/
theorem C56_strict (h : Table A) (hp : PosProb p) (hne : Bt.iter (mat A) (vec p) ≠ vec p) :
    ∃ p' : Fin M → ℝ, Bt.iter (mat A) (vec p) = vec p' ∧ logLik A p < logLik A p' := by
  refine ⟨next A p, Bt.iter_fl h hp, ?_⟩
  have hg := next_gain h hp
  have h0 : 0 < ∑ i, wins A i * (Real.sqrt (p i / update A p i) - 1) ^ 2 := by
    refine lt_of_le_of_ne (Finset.sum_nonneg fun i _ => mul_nonneg (h.wins i).le (sq_nonneg _)) fun he => hne ?_
    have hz := (Finset.sum_eq_zero_iff_of_nonneg fun i _ => mul_nonneg (h.wins i).le (sq_nonneg _)).mp he.symm
    have hu : ∀ i, update A p i = p i := by
      intro i
      have h1 := (mul_eq_zero.mp (hz i (Finset.mem_univ i))).resolve_left (h.wins i).ne'
      have h2 : Real.sqrt (p i / update A p i) = 1 := by
        have := pow_eq_zero_iff (two_ne_zero) |>.mp h1
        linarith
      have h3 : p i / update A p i = 1 := Real.sqrt_eq_one.mp h2
      exact ((div_eq_one_iff_eq (update_pos h hp.pos i).ne').mp h3).symm
    rw [Bt.iter_fl h hp]
    congr 1
    funext i
    unfold next
    simp only [hu]
    rw [hp.sum, div_one]
  linarith

/-- Hence the likelihood of the reported vector is at least that of the starting vector. -/
theorem C56_result (h : Table A) (hM : M ≠ 0) {x : Arr1 (Fl ℝ) M} (hl : Bt.Loop (mat A) (Bt.start M) (.ok x)) :
    ∃ p : Fin M → ℝ, PosProb p ∧ x = vec p ∧ logLik A (fun _ => 1 / M) ≤ logLik A p := by
  have key : ∀ {x : Arr1 (Fl ℝ) M} {r}, Bt.Loop (mat A) x r → ∀ p, PosProb p → x = vec p →
      ∃ p', PosProb p' ∧ r = .ok (vec p') ∧ logLik A p ≤ logLik A p' := by
    intro x r hl
    induction hl with
    | fail hc =>
      rintro p hp rfl
      rw [Bt.iter_fl h hp, Bt.change_fl] at hc
      cases hc
    | stop hc ht =>
      rintro p hp rfl
      obtain ⟨p', hp', he, hle⟩ := C56_ascent h hp
      exact ⟨p', hp', by rw [he], hle⟩
    | next hc ht hr ih =>
      rintro p hp rfl
      obtain ⟨p', hp', he, hle⟩ := C56_ascent h hp
      obtain ⟨p'', hp'', hr, hle'⟩ := ih p' hp' he
      exact ⟨p'', hp'', hr, hle.trans hle'⟩
  rw [Bt.start_vec hM] at hl
  obtain ⟨p, hp, he, hle⟩ := key hl _ (Bt.start_posProb hM) rfl
  exact ⟨p, hp, Except.ok.inj he, hle⟩

/-- the log-likelihood is the logarithm of the product of the probabilities of the single outcomes -/
example : logLik threeOne ![3 / 4, 1 / 4] = Real.log ((3 / 4) ^ 3 * (1 / 4)) := by
  have : logLik threeOne ![3 / 4, 1 / 4] = 3 * Real.log (3 / 4) + Real.log (1 / 4) := by
    simp [logLik, threeOne, Fin.sum_univ_two]
    norm_num
    rw [← Real.log_inv]
    norm_num
  rw [this, Real.log_mul (by norm_num) (by norm_num), Real.log_pow]
  norm_num

/-! ## C57 -/

/-- A probability vector is left unchanged by a pass iff it solves the likelihood equations. -/
theorem C57_fixed_iff (h : Table A) (hp : PosProb p) :
    Bt.iter (mat A) (vec p) = vec p ↔ ∀ i, ∑ j, (A i j + A j i) * (p i / (p i + p j)) = ∑ j, A i j := by
  rw [Bt.iter_fl h hp]
  have h1 : vec (next A p) = vec p ↔ next A p = p := by
    constructor
    · intro he
      funext i
      exact Fl.fin_inj.mp (congrFun he i)
    · intro he
      rw [he]
  rw [h1]
  exact fixed_iff h hp

/-- Such a vector maximises the likelihood over all positive vectors. -/
theorem C57_fixed_max (h : Table A) (hp : PosProb p) (hfix : Bt.iter (mat A) (vec p) = vec p) (hq : ∀ i, 0 < q i) :
    logLik A q ≤ logLik A p :=
  likEq_max h.nonneg ((C57_fixed_iff h hp).mp hfix) hp.pos hq

/-- Conversely a maximiser is left unchanged. -/
theorem C57_max_fixed (h : Table A) (hp : PosProb p) (hmax : ∀ q : Fin M → ℝ, PosProb q → logLik A q ≤ logLik A p) :
    Bt.iter (mat A) (vec p) = vec p := by
  by_contra hne
  obtain ⟨p', he, hlt⟩ := C56_strict h hp hne
  obtain ⟨p'', hp'', he', -⟩ := C56_ascent h hp
  have : p' = p'' := by
    rw [he] at he'
    funext i
    exact Fl.fin_inj.mp (congrFun he' i)
  subst this
  exact absurd (hmax p' hp'') (not_le.mpr hlt)

/-- If all videos are linked by comparisons, there is at most one such vector. -/
theorem C57_unique (h : Table A) (hc : Connected A) (hp : PosProb p) (hq : PosProb q)
    (hfp : Bt.iter (mat A) (vec p) = vec p) (hfq : Bt.iter (mat A) (vec q) = vec q) : p = q :=
  (likEq_unique h.nonneg hc ((C57_fixed_iff h hp).mp hfp) hp hq (C57_fixed_max h hq hfq hp.pos)).symm

theorem threeOne_prob : PosProb ![(3 / 4 : ℝ), 1 / 4] := by
  constructor
  · intro i
    fin_cases i <;> simp
  · simp [Fin.sum_univ_two]
    norm_num

theorem threeOne_fixed : Bt.iter (mat threeOne) (vec ![3 / 4, 1 / 4]) = vec ![3 / 4, 1 / 4] := by
  rw [C57_fixed_iff threeOne_table threeOne_prob]
  intro i
  fin_cases i <;> simp [threeOne] <;> norm_num

example : Connected threeOne := by
  intro i j
  fin_cases i <;> fin_cases j
  · exact .refl
  · exact .single (by simp [Spec.BT.games, threeOne]; norm_num)
  · exact .single (by simp [Spec.BT.games, threeOne]; norm_num)
  · exact .refl

/-! ## C76 -/

/-- If every video wins at least once, the loop of the model ends, in exactly one way, and not with an exception.  In the
last pass the vector moved by at most 10^-8. -/
theorem C76_terminates (h : Table A) (hM : M ≠ 0) :
    ∃ p₀ p : Fin M → ℝ, PosProb p₀ ∧ PosProb p ∧ (∃ k, (Bt.iter (mat A))^[k] (Bt.start M) = vec p₀) ∧
      Bt.iter (mat A) (vec p₀) = vec p ∧ Real.sqrt (∑ i, (p i - p₀ i) ^ 2) ≤ 1 / 10 ^ 8 ∧
      ∀ r, Bt.Loop (mat A) (Bt.start M) r ↔ r = .ok (vec p) := by
  obtain ⟨r, hr⟩ := Bt.loop_total h (Bt.start_posProb hM)
  obtain ⟨p0, hp0, ⟨k, -, hk⟩, he, hs⟩ := Bt.loop_ok h hr _ (Bt.start_posProb hM) rfl
  rw [← Bt.start_vec hM] at hk hr
  refine ⟨p0, next A p0, hp0, next_posProb h hp0, ⟨k, hk⟩, Bt.iter_fl h hp0, hs, fun r' => ⟨fun hr' => ?_, ?_⟩⟩
  · rw [← he]
    exact Bt.loop_det hr' hr
  · rintro rfl
    rw [← he]
    exact hr

/-- so the model returns a result whenever `numpy.linalg.pinv` does -/
theorem C76_result (h : Table A) (hM : M ≠ 0) {pinv display} (hd : display ≠ some none)
    (hpinv : ∀ k m, ∃ c, pinv k m = .ok c) : ∃ r, Bt.Resolve pinv display (mat A) (.ok r) := by
  obtain ⟨-, p, -, -, -, -, -, hl⟩ := C76_terminates h hM
  obtain ⟨c, hc⟩ := hpinv (M + 1) (Bt.bordered (Bt.lambda (mat A) (vec p)))
  have := Bt.Resolve.done (pinv := pinv) hd hM ((hl _).mpr rfl)
  unfold Bt.finish at this
  rw [hc] at this
  exact ⟨_, this⟩

/-- on the example the result is (3/4, 1/4) -/
example : Bt.Loop (mat threeOne) (Bt.start 2) (.ok (vec ![3 / 4, 1 / 4])) := by
  have hs := Bt.start_vec (M := 2) (by norm_num)
  have hsp := Bt.start_posProb (M := 2) (by norm_num)
  have h1 : next threeOne (fun _ => (1 : ℝ) / (2 : ℕ)) = ![3 / 4, 1 / 4] := by
    funext i
    fin_cases i <;> simp [next, update, wins, Spec.BT.games, threeOne, Fin.sum_univ_two] <;> norm_num
  rw [hs]
  refine Bt.Loop.next (by rw [Bt.iter_fl threeOne_table hsp, Bt.change_fl]) ?_ ?_
  · rw [h1, Bt.thr_fl, Fl.lt_fin, decide_eq_true_iff]
    refine Real.lt_sqrt_of_sq_lt ?_
    simp [Fin.sum_univ_two]
    norm_num
  · rw [Bt.iter_fl threeOne_table hsp, h1]
    have hf := threeOne_fixed
    have : Bt.Loop (mat threeOne) (vec ![3 / 4, 1 / 4]) (.ok (Bt.iter (mat threeOne) (vec ![3 / 4, 1 / 4]))) := by
      refine Bt.Loop.stop (by rw [hf, Bt.change_fl]) ?_
      rw [Bt.thr_fl, Fl.lt_fin, decide_eq_false_iff_not]
      simp
    rwa [hf] at this

end Sureal.Props
