import Verif.Lemmas.AddedVote
import Verif.Props.Raised
import Verif.Props.ApSym
/-!
# C165: what one more vote does to a mean opinion score and to its interval

The vote is put into a cell that was empty.  A new observer is a column of empty cells, which change nothing (C10).
-/
set_option linter.unusedSectionVars false
namespace Sureal.Props
open Sureal Spec AddedVote
variable {κ : Type} {E S R : ℕ}

theorem added_split {a : Arr3 (Fl ℝ) E S R} {e : Fin E} {s : Fin S} {r : Fin R} (h0 : a e s r = .nan) (v : ℝ) :
    ∃ l₁ l₂, present (videoCells a e) = l₁ ++ l₂ ∧ present (videoCells (withVote a e s r v) e) = l₁ ++ v :: l₂ :=
  split_empty (a e) (withVote a e s r v e) s r h0 (withVote_self a e s r v) fun s' r' h => (withVote_other a e s r v fun k => h k.2).symm

/-- **C165, the score.**  One more vote moves the score of its video towards the vote, by the part of the distance that one vote is among all of them.  The
scores of the other videos stay as they are. -/
theorem C165_score (rd rd' : Reader κ ℝ) (a : Arr3 (Fl ℝ) E S R) (hc : ∀ e s r, NumOrNan (a e s r)) (e : Fin E) (s : Fin S) (r : Fin R) (h0 : a e s r = .nan)
    (v : ℝ) (ha : rd.scores = .ok ⟨E, S, R, a⟩) (ha' : rd'.scores = .ok ⟨E, S, R, withVote a e s r v⟩) (res res' : Result κ ℝ)
    (hr : runMOS rd {} = .ok res) (hr' : runMOS rd' {} = .ok res') {n : ℕ} (hn : (present (videoCells a e)).length = n) (hn0 : 1 ≤ n) :
    (∃ m, res.qualityScores[e.val]? = some (.fin m) ∧ res'.qualityScores[e.val]? = some (.fin (m + (v - m) / (n + 1)))) ∧
      ∀ e' : Fin E, e' ≠ e → res'.qualityScores[e'.val]? = res.qualityScores[e'.val]? := by
  rw [mos_scores ha hc hr, mos_scores ha' (withVote_clean hc e s r v) hr']
  refine ⟨?_, fun e' he => ?_⟩
  · obtain ⟨l₁, l₂, h1, h2⟩ := added_split h0 v
    have hne : l₁ ++ l₂ ≠ [] := by
      intro hl
      rw [h1, hl] at hn
      simp at hn
      omega
    refine ⟨mean (l₁ ++ l₂), ?_, ?_⟩
    · rw [List.getElem?_ofFn, dif_pos e.isLt, meanOrNan_eq (by rw [h1]; exact hne), h1]
    · rw [List.getElem?_ofFn, dif_pos e.isLt, meanOrNan_eq (by rw [h2]; simp), h2, mean_added _ _ _ hne, ← hn, h1]
  · rw [List.getElem?_ofFn, List.getElem?_ofFn, dif_pos e'.isLt, dif_pos e'.isLt]
    congr 2
    unfold videoCells
    congr 2
    funext s'
    congr 1
    funext r'
    rw [withVote_other a e s r v fun k => he k.1]

theorem narrower {n σ τ d : ℝ} (hn : 0 < n) (hσ : 0 ≤ σ) (hτ : 0 ≤ τ) (h : n * τ ^ 2 = (n - 1) * σ ^ 2 + n / (n + 1) * d ^ 2) :
    τ / √(n + 1) < σ / √n ↔ d ^ 2 < 2 * ((n + 1) / n) * σ ^ 2 := by
  have hσ' : 0 ≤ σ / √n := by positivity
  have hn1 : 0 < n + 1 := by positivity
  have hτ' : 0 ≤ τ / √(n + 1) := by positivity
  rw [← pow_lt_pow_iff_left₀ hτ' hσ' two_ne_zero, div_pow, div_pow, Real.sq_sqrt hn.le, Real.sq_sqrt hn1.le, div_lt_div_iff₀ hn1 hn]
  have e1 : 2 * ((n + 1) / n) * σ ^ 2 = (n + 1) / n * (2 * σ ^ 2) := by ring
  have e2 : d ^ 2 = (n + 1) / n * (n / (n + 1) * d ^ 2) := by field_simp
  rw [e1, e2, mul_lt_mul_iff_right₀ (by positivity)]
  constructor <;> intro k <;> nlinarith

/-- **C165, ambiguity and interval.**  From `n ≥ 2` votes with score `m` and ambiguity `σ`, one more vote `v` makes the ambiguity `τ` with
`n τ² = (n - 1) σ² + n / (n + 1) (v - m)²`.  The standard error, and with it the interval, becomes smaller if and only if the vote is less than
`sqrt (2 (n + 1) / n)` ambiguities away from the score.  Missing: votes farther away, for which it is refuted by the same equivalence and below. -/
theorem C165_interval_partial (rd rd' : Reader κ ℝ) (a : Arr3 (Fl ℝ) E S R) (hc : ∀ e s r, NumOrNan (a e s r)) (e : Fin E) (s : Fin S) (r : Fin R)
    (h0 : a e s r = .nan) (v : ℝ) (ha : rd.scores = .ok ⟨E, S, R, a⟩) (ha' : rd'.scores = .ok ⟨E, S, R, withVote a e s r v⟩) (res res' : Result κ ℝ)
    (hr : runMOS rd {} = .ok res) (hr' : runMOS rd' {} = .ok res') {n : ℕ} (hn : (present (videoCells a e)).length = n) (hn2 : 2 ≤ n) :
    ∃ (amb amb' se se' lo lo' hi hi' : List (Fl ℝ)) (m σ τ δ ε : ℝ), res.qualityAmbiguity = some amb ∧ res'.qualityAmbiguity = some amb' ∧
      res.qualityScoresStd = some se ∧ res'.qualityScoresStd = some se' ∧ res.qualityScoresCi95 = some (lo, hi) ∧ res'.qualityScoresCi95 = some (lo', hi') ∧
      res.qualityScores[e.val]? = some (.fin m) ∧ amb[e.val]? = some (.fin σ) ∧ amb'[e.val]? = some (.fin τ) ∧
      se[e.val]? = some (.fin δ) ∧ se'[e.val]? = some (.fin ε) ∧
      lo[e.val]? = some (.fin (195996 / 100000 * δ)) ∧ lo'[e.val]? = some (.fin (195996 / 100000 * ε)) ∧ hi = lo ∧ hi' = lo' ∧
      0 ≤ σ ∧ 0 ≤ τ ∧ n * τ ^ 2 = (n - 1) * σ ^ 2 + n / (n + 1) * (v - m) ^ 2 ∧ (ε < δ ↔ (v - m) ^ 2 < 2 * ((n + 1) / n) * σ ^ 2) := by
  obtain ⟨l₁, l₂, h1, h2⟩ := added_split h0 v
  have hlen : (l₁ ++ l₂).length = n := by rw [← h1]; exact hn
  have hne : l₁ ++ l₂ ≠ [] := by
    intro hl
    rw [hl] at hlen
    simp at hlen
    omega
  have hlen' : (l₁ ++ v :: l₂).length = n + 1 := by
    rw [← hlen]
    simp only [List.length_append, List.length_cons]
    omega
  obtain ⟨amb, se, lo, hi, k1, k2, k3, -, -, k4, k5, k6⟩ := C12_mos_uncertainty rd ⟨E, S, R, a⟩ res ha hr hc
  obtain ⟨amb', se', lo', hi', k1', k2', k3', -, -, k4', k5', k6'⟩ :=
    C12_mos_uncertainty rd' ⟨E, S, R, withVote a e s r v⟩ res' ha' hr' (withVote_clean hc e s r v)
  obtain ⟨u1, u2, -⟩ := (k6 e _ h1).1 (by rw [hlen]; exact hn2)
  obtain ⟨u1', u2', -⟩ := (k6' e _ h2).1 (by rw [hlen']; omega)
  have hnR : (2 : ℝ) ≤ n := by exact_mod_cast hn2
  have hv1 : 0 ≤ sampleVar (l₁ ++ l₂) := by
    unfold sampleVar
    rw [hlen]
    exact div_nonneg (Np.sqDev_nonneg _) (by linarith)
  have hv2 : 0 ≤ sampleVar (l₁ ++ v :: l₂) := by
    unfold sampleVar
    rw [hlen']
    exact div_nonneg (Np.sqDev_nonneg _) (by push_cast; linarith)
  have key : (n : ℝ) * √(sampleVar (l₁ ++ v :: l₂)) ^ 2 = (n - 1) * √(sampleVar (l₁ ++ l₂)) ^ 2 + n / (n + 1) * (v - mean (l₁ ++ l₂)) ^ 2 := by
    rw [Real.sq_sqrt hv1, Real.sq_sqrt hv2]
    unfold sampleVar
    rw [sqDev_added _ _ _ hne, hlen, hlen']
    push_cast
    have n1 : (n : ℝ) - 1 ≠ 0 := by intro; linarith
    have n0 : (n : ℝ) ≠ 0 := by intro; linarith
    rw [add_sub_cancel_right, mul_div_cancel₀ _ n0, mul_div_cancel₀ _ n1]
  refine ⟨amb, amb', se, se', lo, lo', hi, hi', mean (l₁ ++ l₂), _, _, _, _, k1, k1', k2, k2', k3, k3', ?_, u1, u1', u2, u2', ?_, ?_, k4.symm, k4'.symm,
    Real.sqrt_nonneg _, Real.sqrt_nonneg _, key, ?_⟩
  · rw [mos_scores ha hc hr, List.getElem?_ofFn, dif_pos e.isLt, meanOrNan_eq (by rw [h1]; exact hne), h1]
  · rw [k5, List.getElem?_map, u2]
    rfl
  · rw [k5', List.getElem?_map, u2']
    rfl
  · rw [hlen, hlen']
    push_cast
    exact narrower (by linarith) (Real.sqrt_nonneg _) (Real.sqrt_nonneg _) key

/-- a vote equal to the score keeps the score and makes the interval smaller, unless all votes are the same -/
theorem C165_agreeing (rd rd' : Reader κ ℝ) (a : Arr3 (Fl ℝ) E S R) (hc : ∀ e s r, NumOrNan (a e s r)) (e : Fin E) (s : Fin S) (r : Fin R)
    (h0 : a e s r = .nan) (m : ℝ) (ha : rd.scores = .ok ⟨E, S, R, a⟩) (ha' : rd'.scores = .ok ⟨E, S, R, withVote a e s r m⟩) (res res' : Result κ ℝ)
    (hr : runMOS rd {} = .ok res) (hr' : runMOS rd' {} = .ok res') (hm : res.qualityScores[e.val]? = some (.fin m)) (hn2 : 2 ≤ (present (videoCells a e)).length)
    {se : List (Fl ℝ)} (hse : res.qualityScoresStd = some se) {δ : ℝ} (hδ : se[e.val]? = some (.fin δ)) (hpos : δ ≠ 0) :
    res'.qualityScores = res.qualityScores ∧ ∃ se' ε, res'.qualityScoresStd = some se' ∧ se'[e.val]? = some (.fin ε) ∧ ε < δ := by
  obtain ⟨⟨m1, q1, q2⟩, q3⟩ := C165_score rd rd' a hc e s r h0 m ha ha' res res' hr hr' rfl (by omega)
  obtain ⟨amb, amb', se1, se1', lo, lo', hi, hi', m2, σ, τ, δ1, ε, k1, -, k2, k2', -, -, k3, k4, -, k5, k5', -, -, -, -, hσ, -, -, k6⟩ :=
    C165_interval_partial rd rd' a hc e s r h0 m ha ha' res res' hr hr' rfl hn2
  rw [hm] at q1 k3
  obtain rfl : m = m1 := by injection q1 with q; injection q
  obtain rfl : m = m2 := by injection k3 with q; injection q
  rw [hse] at k2
  obtain rfl : se = se1 := by injection k2
  rw [hδ] at k5
  obtain rfl : δ = δ1 := by injection k5 with q; injection q
  refine ⟨?_, se1', ε, k2', k5', k6.mpr ?_⟩
  · apply List.ext_getElem?
    intro i
    by_cases hi : i < E
    · by_cases hie : i = e.val
      · subst hie
        rw [q2, hm]
        simp
      · exact q3 ⟨i, hi⟩ fun h => hie (congrArg Fin.val h)
    · rw [mos_scores ha hc hr, mos_scores ha' (withVote_clean hc e s r m) hr', List.getElem?_eq_none (by simpa using hi), List.getElem?_eq_none (by simpa using hi)]
  · obtain ⟨amb2, se2, lo2, hi2, g1, g2, -, -, -, -, -, g3⟩ := C12_mos_uncertainty rd ⟨E, S, R, a⟩ res ha hr hc
    obtain ⟨w1, w2, -⟩ := (g3 e _ rfl).1 hn2
    rw [k1] at g1
    rw [hse] at g2
    cases g1
    cases g2
    rw [k4] at w1
    rw [hδ] at w2
    have hσe : σ = √(sampleVar (present (videoCells a e))) := by injection w1 with w; injection w
    have hδe : δ = √(sampleVar (present (videoCells a e))) / √((present (videoCells a e)).length : ℝ) := by injection w2 with w; injection w
    have : σ ≠ 0 := by
      intro h
      rw [← hσe, h, zero_div] at hδe
      exact hpos hδe
    have hn0 : (0 : ℝ) < (present (videoCells a e)).length := by exact_mod_cast (by omega : 0 < (present (videoCells a e)).length)
    have h2 : 0 < 2 * ((((present (videoCells a e)).length : ℝ) + 1) / (present (videoCells a e)).length) * σ ^ 2 := by positivity
    rwa [sub_self, zero_pow two_ne_zero]

/-! ## a vote far away -/

/-- two votes, 1 and 3, and an empty cell -/
noncomputable def twoVotes : Arr3 (Fl ℝ) 1 3 1 := fun _ s _ => ![.fin 1, .fin 3, .nan] s

theorem twoVotes_clean (e s r) : NumOrNan (twoVotes e s r) := by
  fin_cases s <;> simp [twoVotes, NumOrNan]

theorem twoVotes_present : present (videoCells twoVotes 0) = [1, 3] := by
  simp [videoCells, present, twoVotes, List.ofFn_succ, Fl.val?, List.filterMap_cons]

theorem mos_runs (a : Arr3 (Fl ℝ) E S R) : ∃ res, runMOS (arrReader E S R a) {} = .ok res := by
  obtain ⟨mos, hm, -⟩ := (runModeling_ok (arr_harmless _ _ _ _) mosRunModeling {}).1 (mosAndStats (fun E _ _ => E * 2) ⟨E, S, R, a⟩ ⟨E, S, R, a⟩) (by
    unfold mosRunModeling
    rw [preprocess_default (a := ⟨E, S, R, a⟩) rfl]
    rfl)
  exact ⟨mos, hm⟩

/-- **C165 for votes far away is refuted.**  After the votes 1 and 3 a third vote of 10 makes the standard error larger. -/
theorem C165_far_refuted : ∃ (res res' : Result String ℝ) (se se' : List (Fl ℝ)) (δ ε : ℝ), runMOS (arrReader 1 3 1 twoVotes) {} = .ok res ∧
    runMOS (arrReader 1 3 1 (withVote twoVotes 0 2 0 10)) {} = .ok res' ∧ res.qualityScores = [.fin 2] ∧ res.qualityScoresStd = some se ∧ res'.qualityScoresStd = some se' ∧
    se[0]? = some (.fin δ) ∧ se'[0]? = some (.fin ε) ∧ δ ≤ ε := by
  obtain ⟨res, hr⟩ := mos_runs twoVotes
  obtain ⟨res', hr'⟩ := mos_runs (withVote twoVotes 0 2 0 10)
  have hq : res.qualityScores = [.fin 2] := by
    rw [mos_scores rfl twoVotes_clean hr]
    simp only [List.ofFn_succ, List.ofFn_zero]
    rw [meanOrNan_eq (by rw [twoVotes_present]; simp), twoVotes_present]
    norm_num [mean]
  obtain ⟨amb, amb', se, se', lo, lo', hi, hi', m, σ, τ, δ, ε, k1, -, k2, k2', -, -, k3, k4, -, k5, k5', -, -, -, -, hσ, -, -, k6⟩ :=
    C165_interval_partial _ _ twoVotes twoVotes_clean 0 2 0 rfl 10 rfl rfl res res' hr hr' (by rw [twoVotes_present]; rfl) (le_refl 2)
  refine ⟨res, res', se, se', δ, ε, hr, hr', hq, k2, k2', k5, k5', ?_⟩
  by_contra hlt
  have h := k6.mp (lt_of_not_ge hlt)
  obtain ⟨amb2, se2, lo2, hi2, g1, -, -, -, -, -, -, g3⟩ := C12_mos_uncertainty _ ⟨1, 3, 1, twoVotes⟩ res rfl hr twoVotes_clean
  obtain ⟨w1, -⟩ := (g3 0 _ twoVotes_present).1 (le_refl 2)
  rw [k1] at g1
  cases g1
  have k4' : amb[0]? = some (.fin σ) := k4
  have w1' : amb[0]? = some (.fin √(sampleVar [1, 3])) := w1
  rw [k4'] at w1'
  have hσe : σ = √(sampleVar [1, 3]) := by injection w1' with w; injection w
  have hv : sampleVar [(1 : ℝ), 3] = 2 := by norm_num [sampleVar, sqDev, mean]
  have hm : m = 2 := by
    have k3' : res.qualityScores[0]? = some (.fin m) := k3
    rw [hq] at k3'
    injection k3' with w
    injection w with w
    exact w.symm
  rw [hσe, hv, Real.sq_sqrt (by norm_num), hm] at h
  norm_num at h

/-- a third vote of 2 leaves the score 2 and makes the interval smaller -/
example : ∃ (res res' : Result String ℝ) (se se' : List (Fl ℝ)) (δ ε : ℝ), runMOS (arrReader 1 3 1 twoVotes) {} = .ok res ∧
    runMOS (arrReader 1 3 1 (withVote twoVotes 0 2 0 2)) {} = .ok res' ∧ res'.qualityScores = res.qualityScores ∧ res.qualityScoresStd = some se ∧
    res'.qualityScoresStd = some se' ∧ se[0]? = some (.fin δ) ∧ se'[0]? = some (.fin ε) ∧ ε < δ := by
  obtain ⟨res, hr⟩ := mos_runs twoVotes
  obtain ⟨res', hr'⟩ := mos_runs (withVote twoVotes 0 2 0 2)
  have hq : res.qualityScores = [.fin 2] := by
    rw [mos_scores rfl twoVotes_clean hr]
    simp only [List.ofFn_succ, List.ofFn_zero]
    rw [meanOrNan_eq (by rw [twoVotes_present]; simp), twoVotes_present]
    norm_num [mean]
  obtain ⟨amb2, se, lo2, hi2, -, g2, -, -, -, -, -, g3⟩ := C12_mos_uncertainty _ ⟨1, 3, 1, twoVotes⟩ res rfl hr twoVotes_clean
  obtain ⟨-, w2, -⟩ := (g3 0 _ twoVotes_present).1 (le_refl 2)
  have hv : sampleVar [(1 : ℝ), 3] = 2 := by norm_num [sampleVar, sqDev, mean]
  obtain ⟨h1, se', ε, h2, h3, h4⟩ := C165_agreeing _ _ twoVotes twoVotes_clean 0 2 0 rfl 2 rfl rfl res res' hr hr' (by rw [hq]; rfl)
    (by rw [twoVotes_present]; exact le_refl 2) g2 w2 (by
      rw [hv]
      have : (0 : ℝ) < √2 / √(([1, 3] : List ℝ).length : ℝ) := div_pos (by positivity) (Real.sqrt_pos.mpr (by norm_num))
      exact this.ne')
  exact ⟨res, res', se, se', _, ε, hr, hr', h1, g2, h2, w2, h3, h4⟩

end Sureal.Props
