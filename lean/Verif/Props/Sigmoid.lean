import Verif.Lemmas.Sigmoid
import Verif.Props.Perf
/-! # C86: the sigmoid mapping is the logistic curve of best fit -/
namespace Sureal.Props
open Spec Perf Fl

/-- the truths in logits, with the predictions -/
noncomputable def logits (lo hi : ℝ) (ps : List (ℝ × ℝ)) : List (ℝ × ℝ) := ps.map fun p => (logit lo hi p.1, p.2)

theorem logits_vary {ps : List (ℝ × ℝ)} {lo hi : ℝ × ℝ} (hlo : lo ∈ ps) (hhi : hi ∈ ps) (hne : lo.1 < hi.1) :
    ∃ p ∈ logits (lo.1 - 1 / 10) (hi.1 + 1 / 10) ps, ∃ q ∈ logits (lo.1 - 1 / 10) (hi.1 + 1 / 10) ps, p.1 ≠ q.1 :=
  ⟨_, List.mem_map_of_mem hlo, _, List.mem_map_of_mem hhi, (logit_strictMono (by linarith) (by linarith) hne).ne⟩

/-- the metrics with the mapping, given what the fit returns -/
theorem evaluate_fit (m : Metric) (aggr : List (Fl ℝ) → Fl ℝ) {fit : List (Fl ℝ) → List (Fl ℝ) → Fl ℝ × Fl ℝ} {ps : List (ℝ × ℝ)}
    {lo hi : ℝ × ℝ} (hlo : lo ∈ ps) (hhi : hi ∈ ps) (hb : ∀ p ∈ ps, lo.1 ≤ p.1 ∧ p.1 ≤ hi.1) {a b : ℝ} (hb0 : b ≠ 0)
    (hfit : fit ((logits (lo.1 - 1 / 10) (hi.1 + 1 / 10) ps).map fun p => .fin p.1)
      ((logits (lo.1 - 1 / 10) (hi.1 + 1 / 10) ps).map fun p => .fin p.2) = (fin a, fin b)) :
    evaluate m aggr (some fit) (truths ps) (predictions ps) =
      evaluate m aggr none (truths (mapped id (logistic (lo.1 - 1 / 10) (hi.1 + 1 / 10) a b) ps))
        (predictions (mapped id (logistic (lo.1 - 1 / 10) (hi.1 + 1 / 10) a b) ps)) := by
  have e2 : (truths ps).map (aggregate aggr) = ps.map fun p => fin p.1 := by simp [truths, aggregate]
  simp only [logits, List.map_map, Function.comp_def] at hfit
  rw [evaluate_pairs]
  unfold evaluate assertArgs
  rw [if_pos (by simp [truths, predictions])]
  dsimp only
  rw [e2, sigmoidAdjust_fit hlo hhi hb hb0 hfit]
  dsimp only
  congr 1
  · simp [mapped]
  · simp [mapped]

/-- **C86.** Let `lo`, `hi` be a smallest and a largest truth, not equal.  With a least-squares fit, the mapping is a logistic
curve from `lo - 0.1` to `hi + 0.1`, whose midpoint and scale minimise the squared distances between the predictions and the
line through the logits of the truths; the metrics are computed of the truths and the values of that curve. -/
theorem C86_fit (aggr : List (Fl ℝ) → Fl ℝ) (fit : List (Fl ℝ) → List (Fl ℝ) → Fl ℝ × Fl ℝ) (hls : LeastSquares fit)
    {ps : List (ℝ × ℝ)} {lo hi : ℝ × ℝ} (hlo : lo ∈ ps) (hhi : hi ∈ ps) (hb : ∀ p ∈ ps, lo.1 ≤ p.1 ∧ p.1 ≤ hi.1) (hne : lo.1 < hi.1) :
    ∃ a b, (∀ a' b', (ps.map fun p => (p.2 - a - b * logit (lo.1 - 1 / 10) (hi.1 + 1 / 10) p.1) ^ 2).sum ≤
        (ps.map fun p => (p.2 - a' - b' * logit (lo.1 - 1 / 10) (hi.1 + 1 / 10) p.1) ^ 2).sum) ∧
      (b ≠ 0 → ∀ m : Metric, evaluate m aggr (some fit) (truths ps) (predictions ps) =
        evaluate m aggr none (truths (mapped id (logistic (lo.1 - 1 / 10) (hi.1 + 1 / 10) a b) ps))
          (predictions (mapped id (logistic (lo.1 - 1 / 10) (hi.1 + 1 / 10) a b) ps))) := by
  obtain ⟨a, b, hfit, hmin⟩ := hls _ (logits_vary hlo hhi hne)
  refine ⟨a, b, fun a' b' => ?_, fun hb0 m => evaluate_fit m aggr hlo hhi hb hb0 hfit⟩
  have := hmin a' b'
  simpa only [squaredResiduals, logits, List.map_map, Function.comp_def] using this

/-- **C86.** If the truths lie on a logistic curve of the predictions with those limits, increasing or decreasing, the
mapping recovers it: the root mean squared error is zero. -/
theorem C86_recovers (aggr : List (Fl ℝ) → Fl ℝ) (fit : List (Fl ℝ) → List (Fl ℝ) → Fl ℝ × Fl ℝ) (hls : LeastSquares fit)
    {ps : List (ℝ × ℝ)} {lo hi : ℝ × ℝ} (hlo : lo ∈ ps) (hhi : hi ∈ ps) (hb : ∀ p ∈ ps, lo.1 ≤ p.1 ∧ p.1 ≤ hi.1) (hne : lo.1 < hi.1)
    {a b : ℝ} (hb0 : b ≠ 0) (hcurve : ∀ p ∈ ps, p.1 = logistic (lo.1 - 1 / 10) (hi.1 + 1 / 10) a b p.2) :
    evaluate .rmse aggr (some fit) (truths ps) (predictions ps) = .ok (fin 0) := by
  obtain ⟨a', b', hfit, hmin⟩ := hls _ (logits_vary hlo hhi hne)
  have hL : lo.1 - 1 / 10 < hi.1 + 1 / 10 := by linarith
  have hlog : ∀ p ∈ ps, logit (lo.1 - 1 / 10) (hi.1 + 1 / 10) p.1 = (p.2 - a) / b := by
    intro p hp
    rw [hcurve p hp]
    exact logit_of_logistic hL
  have h0 : squaredResiduals (logits (lo.1 - 1 / 10) (hi.1 + 1 / 10) ps) a b = 0 := by
    unfold squaredResiduals logits
    rw [List.map_map]
    apply List.sum_eq_zero
    intro x hx
    obtain ⟨p, hp, rfl⟩ := List.mem_map.mp hx
    simp only [Function.comp]
    rw [hlog p hp, mul_div_cancel₀ _ hb0]
    ring
  have h1 := hmin a b
  rw [h0] at h1
  have hres : ∀ p ∈ ps, p.2 = a' + b' * logit (lo.1 - 1 / 10) (hi.1 + 1 / 10) p.1 := by
    intro p hp
    have hnn : ∀ x ∈ (logits (lo.1 - 1 / 10) (hi.1 + 1 / 10) ps).map fun p => (p.2 - a' - b' * p.1) ^ 2, (0 : ℝ) ≤ x := by
      intro x hx
      obtain ⟨q, _, rfl⟩ := List.mem_map.mp hx
      positivity
    have h2 : (p.2 - a' - b' * logit (lo.1 - 1 / 10) (hi.1 + 1 / 10) p.1) ^ 2 ≤ 0 := by
      refine le_trans (List.single_le_sum hnn _ ?_) h1
      exact List.mem_map_of_mem (f := fun p : ℝ × ℝ => (p.2 - a' - b' * p.1) ^ 2) (List.mem_map_of_mem hp)
    have h3 := pow_eq_zero_iff (two_ne_zero) |>.mp (le_antisymm h2 (sq_nonneg _))
    linarith
  have hb' : b' ≠ 0 := by
    rintro rfl
    have e1 := hres lo hlo
    have e2 := hres hi hhi
    have l1 := hlog lo hlo
    have l2 := hlog hi hhi
    have := logit_strictMono (lo := lo.1 - 1 / 10) (hi := hi.1 + 1 / 10) (by linarith) (by linarith) hne
    rw [l1, l2] at this
    rw [e1, e2] at this
    simp at this
  rw [evaluate_fit _ aggr hlo hhi hb hb' hfit]
  have hps : mapped id (logistic (lo.1 - 1 / 10) (hi.1 + 1 / 10) a' b') ps ≠ [] := by
    have : ps ≠ [] := List.ne_nil_of_mem hlo
    simpa [mapped] using this
  have h := C68_rmse aggr hps
  rw [h.1, h.2.2.2.2.mpr]
  intro q hq
  obtain ⟨p, hp, rfl⟩ := List.mem_map.mp hq
  have h1 : lo.1 - 1 / 10 < p.1 := by linarith [(hb p hp).1]
  have h2 : p.1 < hi.1 + 1 / 10 := by linarith [(hb p hp).2]
  have e : (p.2 - a') / b' = logit (lo.1 - 1 / 10) (hi.1 + 1 / 10) p.1 := by
    rw [div_eq_iff hb']
    linarith [hres p hp]
  change p.1 = logistic _ _ _ _ p.2
  unfold logistic
  rw [e]
  exact (logistic_logit h1 h2).symm

/-- **C86.** If the predictions never order two entries against the truths, and the truths of two entries with different
predictions differ somewhere, the curve increases, and the mapping leaves the rank correlations alone. If the predictions
never order two entries with the truths, the curve decreases, and the mapping turns the sign of the rank correlations around. -/
theorem C86_order (aggr : List (Fl ℝ) → Fl ℝ) (fit : List (Fl ℝ) → List (Fl ℝ) → Fl ℝ × Fl ℝ) (hls : LeastSquares fit)
    {ps : List (ℝ × ℝ)} {p₀ q₀ : ℝ × ℝ} (hp : p₀ ∈ ps) (hq : q₀ ∈ ps) (h1 : p₀.1 < q₀.1) (h2 : p₀.2 ≠ q₀.2) :
    ((∀ p ∈ ps, ∀ q ∈ ps, p.1 < q.1 → p.2 ≤ q.2) →
      evaluate .srcc aggr (some fit) (truths ps) (predictions ps) = evaluate .srcc aggr none (truths ps) (predictions ps) ∧
      evaluate .kendall aggr (some fit) (truths ps) (predictions ps) = evaluate .kendall aggr none (truths ps) (predictions ps)) ∧
    ((∀ p ∈ ps, ∀ q ∈ ps, p.1 < q.1 → q.2 ≤ p.2) →
      evaluate .srcc aggr (some fit) (truths ps) (predictions ps) = .ok (numOrNanOf ((correlation (rankPairs ps)).map (-·))) ∧
      evaluate .kendall aggr (some fit) (truths ps) (predictions ps) = .ok (numOrNanOf ((kendallTau ps).map (-·)))) := by
  obtain ⟨lo, hlo, hlob⟩ : ∃ lo ∈ ps, ∀ p ∈ ps, lo.1 ≤ p.1 := by
    obtain ⟨y, l, rfl⟩ := List.exists_cons_of_ne_nil (List.ne_nil_of_mem hp)
    obtain ⟨m, -, hm, hb⟩ := npMin_fin y.1 (l.map (·.1))
    change m ∈ (y :: l).map (fun p => p.1) at hm
    change ∀ z ∈ (y :: l).map (fun p => p.1), m ≤ z at hb
    obtain ⟨p, hp, rfl⟩ := List.mem_map.mp hm
    exact ⟨p, hp, fun q hq => hb _ (List.mem_map_of_mem hq)⟩
  obtain ⟨hi, hhi, hhib⟩ : ∃ hi ∈ ps, ∀ p ∈ ps, p.1 ≤ hi.1 := by
    obtain ⟨y, l, rfl⟩ := List.exists_cons_of_ne_nil (List.ne_nil_of_mem hp)
    obtain ⟨m, -, hm, hb⟩ := npMax_fin y.1 (l.map (·.1))
    change m ∈ (y :: l).map (fun p => p.1) at hm
    change ∀ z ∈ (y :: l).map (fun p => p.1), z ≤ m at hb
    obtain ⟨p, hp, rfl⟩ := List.mem_map.mp hm
    exact ⟨p, hp, fun q hq => hb _ (List.mem_map_of_mem hq)⟩
  have hb : ∀ p ∈ ps, lo.1 ≤ p.1 ∧ p.1 ≤ hi.1 := fun p hp => ⟨hlob p hp, hhib p hp⟩
  have hne : lo.1 < hi.1 := (hlob _ hp).trans_lt (h1.trans_le (hhib _ hq))
  obtain ⟨a, b, hfit, hmin⟩ := hls _ (logits_vary hlo hhi hne)
  have hcross := normal_cross (normal_of_min hmin)
  have hsq : 0 ≤ ((logits (lo.1 - 1 / 10) (hi.1 + 1 / 10) ps).map fun p =>
      ((logits (lo.1 - 1 / 10) (hi.1 + 1 / 10) ps).map fun q => (p.1 - q.1) * (p.1 - q.1)).sum).sum := by
    apply List.sum_nonneg
    intro x hx
    obtain ⟨p, _, rfl⟩ := List.mem_map.mp hx
    apply List.sum_nonneg
    intro x hx
    obtain ⟨q, _, rfl⟩ := List.mem_map.mp hx
    exact mul_self_nonneg _
  have hlt : ∀ p ∈ ps, ∀ q ∈ ps, p.1 < q.1 → logit (lo.1 - 1 / 10) (hi.1 + 1 / 10) p.1 < logit (lo.1 - 1 / 10) (hi.1 + 1 / 10) q.1 :=
    fun p hp q hq h => logit_strictMono (by linarith [hlob p hp]) (by linarith [hhib q hq]) h
  have hL : lo.1 - 1 / 10 < hi.1 + 1 / 10 := by linarith
  have hps : ps ≠ [] := List.ne_nil_of_mem hp
  have hmono : ∀ x, logistic (lo.1 - 1 / 10) (hi.1 + 1 / 10) a b x = sigmoidReal (hi.1 + 1 / 10) (lo.1 - 1 / 10) a b x := by
    intro x
    unfold logistic sigmoidReal
    rw [neg_div]
    ring
  constructor
  · intro hord
    have hpos : 0 < b := by
      by_contra hb0
      have : 0 < ((logits (lo.1 - 1 / 10) (hi.1 + 1 / 10) ps).map fun p =>
          ((logits (lo.1 - 1 / 10) (hi.1 + 1 / 10) ps).map fun q => (p.2 - q.2) * (p.1 - q.1)).sum).sum := by
        refine pairs_pos (f := fun p q => (p.2 - q.2) * (p.1 - q.1)) ?_ (List.mem_map_of_mem hq) (List.mem_map_of_mem hp) ?_
        · intro p' hp' q' hq'
          obtain ⟨p, hp, rfl⟩ := List.mem_map.mp hp'
          obtain ⟨q, hq, rfl⟩ := List.mem_map.mp hq'
          dsimp only
          rcases lt_trichotomy p.1 q.1 with h | h | h
          · exact mul_nonneg_of_nonpos_of_nonpos (by linarith [hord p hp q hq h]) (by linarith [hlt p hp q hq h])
          · rw [h]; simp
          · exact mul_nonneg (by linarith [hord q hq p hp h]) (by linarith [hlt q hq p hp h])
        · dsimp only
          have := lt_of_le_of_ne (hord _ hp _ hq h1) h2
          exact mul_pos (by linarith) (by linarith [hlt _ hp _ hq h1])
      rw [hcross] at this
      nlinarith
    have hψ : StrictMono (logistic (lo.1 - 1 / 10) (hi.1 + 1 / 10) a b) := by
      rw [show logistic (lo.1 - 1 / 10) (hi.1 + 1 / 10) a b = sigmoidReal (hi.1 + 1 / 10) (lo.1 - 1 / 10) a b from funext hmono]
      exact sigmoidReal_mono hL hpos
    rw [evaluate_fit _ aggr hlo hhi hb hpos.ne' hfit, evaluate_fit _ aggr hlo hhi hb hpos.ne' hfit]
    exact ⟨(C68_srcc aggr ps).2.2.2 id _ strictMono_id hψ, (C68_kendall aggr ps).2.2.2 id _ strictMono_id hψ⟩
  · intro hord
    have hneg : b < 0 := by
      by_contra hb0
      have : 0 < ((logits (lo.1 - 1 / 10) (hi.1 + 1 / 10) ps).map fun p =>
          ((logits (lo.1 - 1 / 10) (hi.1 + 1 / 10) ps).map fun q => (q.2 - p.2) * (p.1 - q.1)).sum).sum := by
        refine pairs_pos (f := fun p q => (q.2 - p.2) * (p.1 - q.1)) ?_ (List.mem_map_of_mem hq) (List.mem_map_of_mem hp) ?_
        · intro p' hp' q' hq'
          obtain ⟨p, hp, rfl⟩ := List.mem_map.mp hp'
          obtain ⟨q, hq, rfl⟩ := List.mem_map.mp hq'
          dsimp only
          rcases lt_trichotomy p.1 q.1 with h | h | h
          · exact mul_nonneg_of_nonpos_of_nonpos (by linarith [hord p hp q hq h]) (by linarith [hlt p hp q hq h])
          · rw [h]; simp
          · exact mul_nonneg (by linarith [hord q hq p hp h]) (by linarith [hlt q hq p hp h])
        · dsimp only
          have := lt_of_le_of_ne (hord _ hp _ hq h1) h2.symm
          exact mul_pos (by linarith) (by linarith [hlt _ hp _ hq h1])
      have e : ((logits (lo.1 - 1 / 10) (hi.1 + 1 / 10) ps).map fun p =>
          ((logits (lo.1 - 1 / 10) (hi.1 + 1 / 10) ps).map fun q => (q.2 - p.2) * (p.1 - q.1)).sum).sum =
          (-1) * ((logits (lo.1 - 1 / 10) (hi.1 + 1 / 10) ps).map fun p =>
          ((logits (lo.1 - 1 / 10) (hi.1 + 1 / 10) ps).map fun q => (p.2 - q.2) * (p.1 - q.1)).sum).sum := by
        rw [← List.sum_map_mul_left]
        congr 1
        apply List.map_congr_left
        intro p _
        rw [← List.sum_map_mul_left]
        congr 1
        apply List.map_congr_left
        intro q _
        ring
      rw [e, hcross] at this
      nlinarith
    have hψ : StrictAnti (logistic (lo.1 - 1 / 10) (hi.1 + 1 / 10) a b) := by
      rw [show logistic (lo.1 - 1 / 10) (hi.1 + 1 / 10) a b = sigmoidReal (hi.1 + 1 / 10) (lo.1 - 1 / 10) a b from funext hmono]
      exact sigmoidReal_anti hL hneg
    rw [evaluate_fit _ aggr hlo hhi hb hneg.ne hfit, evaluate_fit _ aggr hlo hhi hb hneg.ne hfit,
      (C68_srcc aggr _).1, (C68_kendall aggr _).1, rankPairs_anti hψ, correlation_neg, kendall_anti hψ]
    exact ⟨rfl, rfl⟩

/-- truths 0 and 1, predicted as `∓log 11`, lie on such a curve -/
example : ∃ fit : List (Fl ℝ) → List (Fl ℝ) → Fl ℝ × Fl ℝ, LeastSquares fit ∧
    evaluate .rmse Np.mean (some fit) (truths [(0, -Real.log 11), (1, Real.log 11)]) (predictions [(0, -Real.log 11), (1, Real.log 11)]) =
      .ok (fin 0) := by
  obtain ⟨fit, hfit⟩ := exists_leastSquares
  refine ⟨fit, hfit, C86_recovers Np.mean fit hfit (lo := (0, -Real.log 11)) (hi := (1, Real.log 11)) (by simp) (by simp) ?_ (by norm_num)
    (a := 0) (b := 1) one_ne_zero ?_⟩
  · simp
  · intro p hp
    simp only [List.mem_cons, List.not_mem_nil, or_false] at hp
    rcases hp with rfl | rfl
    · simp only [logistic]
      rw [sub_zero, div_one, neg_neg, Real.exp_log (by norm_num)]
      norm_num
    · simp only [logistic]
      rw [sub_zero, div_one, Real.exp_neg, Real.exp_log (by norm_num)]
      norm_num

/-- the hypotheses of `C86_order`, in both directions -/
example : (∀ p ∈ ([(1, 2), (2, 3), (3, 3)] : List (ℝ × ℝ)), ∀ q ∈ ([(1, 2), (2, 3), (3, 3)] : List (ℝ × ℝ)), p.1 < q.1 → p.2 ≤ q.2) ∧
    (∀ p ∈ ([(1, 4), (2, 3)] : List (ℝ × ℝ)), ∀ q ∈ ([(1, 4), (2, 3)] : List (ℝ × ℝ)), p.1 < q.1 → q.2 ≤ p.2) := by
  norm_num

end Sureal.Props
