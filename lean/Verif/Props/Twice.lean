import Verif.Props.TwoPanels
/-!
# C169: votes counted twice
-/
set_option linter.unusedSectionVars false
namespace Sureal.Props
open Sureal Spec Spec.BT BtMath
variable {κ : Type} {E S R M : ℕ}

theorem mean_twice {l : List ℝ} (h : l ≠ []) : mean (l ++ l) = mean l := by
  have : (l.length : ℝ) ≠ 0 := by
    intro h0
    exact h (List.length_eq_zero_iff.mp (by exact_mod_cast h0))
  unfold mean
  rw [List.sum_append, List.length_append]
  push_cast
  field_simp

theorem sqDev_twice {l : List ℝ} (h : l ≠ []) : sqDev (l ++ l) = 2 * sqDev l := by
  unfold sqDev
  rw [mean_twice h, List.map_append, List.sum_append]
  ring

/-- **C169, mean opinion scores.**  If every observer is entered twice, the scores stay the same.  The ambiguity `σ` of a video with `n ≥ 2` votes becomes `τ` with
`(2 n - 1) τ² = 2 (n - 1) σ²`, and its standard error `δ` becomes `ε` with `(2 n - 1) ε² = (n - 1) δ²`: the interval shrinks by more than the factor √2, unless all votes are
equal. -/
theorem C169_mos {rd rd' : Reader κ ℝ} {a : Arr3 (Fl ℝ) E S R} (hc : ∀ e s r, NumOrNan (a e s r)) (ha : rd.scores = .ok ⟨E, S, R, a⟩)
    (ha' : rd'.scores = .ok ⟨E, S + S, R, together a a⟩) {res res' : Result κ ℝ} (hr : runMOS rd {} = .ok res) (hr' : runMOS rd' {} = .ok res') :
    res'.qualityScores = res.qualityScores ∧
    ∃ amb amb' se se' lo lo' hi hi', res.qualityAmbiguity = some amb ∧ res'.qualityAmbiguity = some amb' ∧ res.qualityScoresStd = some se ∧
      res'.qualityScoresStd = some se' ∧ res.qualityScoresCi95 = some (lo, hi) ∧ res'.qualityScoresCi95 = some (lo', hi') ∧
      ∀ (e : Fin E) (n : ℕ), (present (videoCells a e)).length = n → 2 ≤ n → ∃ σ τ δ ε : ℝ, amb[e.val]? = some (.fin σ) ∧ amb'[e.val]? = some (.fin τ) ∧
        se[e.val]? = some (.fin δ) ∧ se'[e.val]? = some (.fin ε) ∧ lo[e.val]? = some (.fin (195996 / 100000 * δ)) ∧ lo'[e.val]? = some (.fin (195996 / 100000 * ε)) ∧
        hi = lo ∧ hi' = lo' ∧ 0 ≤ σ ∧ 0 ≤ τ ∧ 0 ≤ δ ∧ 0 ≤ ε ∧ (2 * n - 1) * τ ^ 2 = 2 * (n - 1) * σ ^ 2 ∧ (2 * n - 1) * ε ^ 2 = (n - 1) * δ ^ 2 ∧
        (δ ≠ 0 → √2 * ε < δ) := by
  have hc' := together_clean hc hc
  constructor
  · rw [mos_scores ha hc hr, mos_scores ha' hc' hr']
    congr 1
    funext e
    by_cases h : present (videoCells a e) = []
    · unfold meanOrNan
      rw [together_present, h]
      rfl
    · rw [meanOrNan_eq h, meanOrNan_eq (by rw [together_present]; simp [h]), together_present, mean_twice h]
  · obtain ⟨amb, se, lo, hi, k1, k2, k3, -, -, k4, k5, k6⟩ := C12_mos_uncertainty rd ⟨E, S, R, a⟩ res ha hr hc
    obtain ⟨amb', se', lo', hi', k1', k2', k3', -, -, k4', k5', k6'⟩ := C12_mos_uncertainty rd' ⟨E, S + S, R, together a a⟩ res' ha' hr' hc'
    refine ⟨amb, amb', se, se', lo, lo', hi, hi', k1, k1', k2, k2', k3, k3', fun e n hn hn2 => ?_⟩
    have hp := together_present a a e
    set l := present (videoCells a e) with hl
    have hne : l ≠ [] := by
      intro h
      rw [h] at hn
      simp at hn
      omega
    have hlen : (l ++ l).length = 2 * n := by rw [List.length_append, hn]; ring
    obtain ⟨u1, u2, u3⟩ := (k6 e l hl.symm).1 (by rw [hn]; exact hn2)
    obtain ⟨w1, w2, w3⟩ := (k6' e _ hp).1 (by rw [hlen]; omega)
    have hnR : (2 : ℝ) ≤ n := by exact_mod_cast hn2
    have hv : 0 ≤ sampleVar l := by
      unfold sampleVar
      rw [hn]
      exact div_nonneg (Np.sqDev_nonneg _) (by linarith)
    have hvv : (2 * (n : ℝ) - 1) * sampleVar (l ++ l) = 2 * (n - 1) * sampleVar l := by
      unfold sampleVar
      rw [sqDev_twice hne, hn, hlen]
      push_cast
      have h1 : (n : ℝ) - 1 ≠ 0 := by intro; linarith
      have h2 : 2 * (n : ℝ) - 1 ≠ 0 := by intro; linarith
      field_simp
    have hv' : 0 ≤ sampleVar (l ++ l) := by
      by_contra hneg
      have h1 := mul_neg_of_pos_of_neg (show (0 : ℝ) < 2 * n - 1 by linarith) (not_le.mp hneg)
      have h2 := mul_nonneg (show (0 : ℝ) ≤ 2 * (n - 1) by linarith) hv
      linarith
    have hδ : (√(sampleVar l) / √(l.length : ℝ)) ^ 2 = sampleVar l / n := by
      rw [div_pow, Real.sq_sqrt hv, Real.sq_sqrt (Nat.cast_nonneg _), hn]
    have hε : (√(sampleVar (l ++ l)) / √((l ++ l).length : ℝ)) ^ 2 = sampleVar (l ++ l) / (2 * n) := by
      rw [div_pow, Real.sq_sqrt hv', Real.sq_sqrt (Nat.cast_nonneg _), hlen]
      push_cast
      rfl
    have hn0 : (n : ℝ) ≠ 0 := by intro; linarith
    have hse : (2 * (n : ℝ) - 1) * (√(sampleVar (l ++ l)) / √((l ++ l).length : ℝ)) ^ 2 = (n - 1) * (√(sampleVar l) / √(l.length : ℝ)) ^ 2 := by
      rw [hδ, hε, ← mul_div_assoc, hvv]
      field_simp
    refine ⟨_, _, _, _, u1, w1, u2, w2, ?_, ?_, k4.symm, k4'.symm, Real.sqrt_nonneg _, Real.sqrt_nonneg _, u3, w3, ?_, hse, ?_⟩
    · rw [k5, List.getElem?_map, u2]
      rfl
    · rw [k5', List.getElem?_map, w2]
      rfl
    · rw [Real.sq_sqrt hv, Real.sq_sqrt hv', hvv]
    · intro h0
      set δ := √(sampleVar l) / √(l.length : ℝ)
      set ε := √(sampleVar (l ++ l)) / √((l ++ l).length : ℝ)
      have hδp : 0 < δ ^ 2 := by positivity
      refine lt_of_pow_lt_pow_left₀ 2 u3 ?_
      rw [mul_pow, Real.sq_sqrt (by norm_num)]
      nlinarith

/-- two votes, 1 and 3, counted twice -/
example : ∃ res res' : Result String ℝ, runMOS (arrReader 1 3 1 twoVotes) {} = .ok res ∧ runMOS (arrReader 1 (3 + 3) 1 (together twoVotes twoVotes)) {} = .ok res' ∧
    res'.qualityScores = res.qualityScores ∧ (present (videoCells twoVotes 0)).length = 2 := by
  obtain ⟨res, hr⟩ := mos_runs twoVotes
  obtain ⟨res', hr'⟩ := mos_runs (together twoVotes twoVotes)
  exact ⟨res, res', hr, hr', (C169_mos twoVotes_clean rfl rfl hr hr').1, by rw [twoVotes_present]; rfl⟩

/-! ## paired comparisons -/

theorem table_scale {A : Fin M → Fin M → ℝ} {c : ℝ} (h : Table A) (hc : 0 < c) : Table fun i j => A i j / c where
  nonneg i j := div_nonneg (h.nonneg i j) hc.le
  wins i := by
    have := h.wins i
    unfold wins at *
    rw [← Finset.sum_div]
    exact div_pos this hc

theorem loop_scale {A : Fin M → Fin M → ℝ} {c : ℝ} (h : Table A) (hc : 0 < c) {x : Arr1 (Fl ℝ) M} {r} (hl : Bt.Loop (mat A) x r) :
    ∀ p, PosProb p → x = vec p → Bt.Loop (mat fun i j => A i j / c) x r := by
  have key : ∀ p, PosProb p → Bt.iter (mat fun i j => A i j / c) (vec p) = Bt.iter (mat A) (vec p) := fun p hp => by
    rw [Bt.iter_fl h hp, Bt.iter_fl (table_scale h hc) hp, next_scale hc.ne']
  induction hl with
  | fail hf =>
    rintro p hp rfl
    exact .fail (by rw [key p hp]; exact hf)
  | stop hs ht =>
    rintro p hp rfl
    rw [← key p hp] at hs ⊢
    exact .stop hs ht
  | next hn ht hr ih =>
    rintro p hp rfl
    have := ih (next A p) (next_posProb h hp) (Bt.iter_fl h hp)
    rw [← key p hp] at hn this
    exact .next hn ht this

/-- **C169, Bradley-Terry strengths.**  If every comparison is counted `c` times, the model reports the same strengths. -/
theorem C169_strengths {A : Fin M → Fin M → ℝ} (h : Table A) (hM : M ≠ 0) {c : ℝ} (hc : 0 < c) (r) :
    Bt.Loop (mat fun i j => c * A i j) (Bt.start M) r ↔ Bt.Loop (mat A) (Bt.start M) r := by
  have e : (fun i j => c * A i j) = fun i j => A i j / c⁻¹ := by
    funext i j
    rw [div_inv_eq_mul, mul_comm]
  have e' : (fun i j => (A i j / c⁻¹) / c) = A := by
    funext i j
    rw [div_inv_eq_mul, mul_div_cancel_right₀ _ hc.ne']
  have hc' := inv_pos.mpr hc
  rw [Bt.start_vec hM, e]
  constructor
  · intro hl
    have := loop_scale (table_scale h hc') hc hl _ (Bt.start_posProb hM) rfl
    rwa [e'] at this
  · intro hl
    exact loop_scale h hc' hl _ (Bt.start_posProb hM) rfl

/-- the hypotheses are met by a table of four videos -/
example : Table slow := Ford.table slow_nonneg slow_ford (by norm_num)

end Sureal.Props
