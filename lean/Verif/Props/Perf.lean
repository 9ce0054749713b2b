import Verif.Lemmas.Perf
import Verif.Props.Dscore
/-! # C68, C79: the performance metrics -/
namespace Sureal.Props
open Spec Perf Fl

/-- **C68.** Lists of different lengths are refused, by every metric, with or without mapping. -/
theorem C68_lengths (m : Metric) (aggr : List (Fl ℝ) → Fl ℝ) (mapping : Option (List (Fl ℝ) → List (Fl ℝ) → Fl ℝ × Fl ℝ))
    (gts : List (Truth ℝ)) (preds : List (Fl ℝ)) :
    gts.length ≠ preds.length → evaluate m aggr mapping gts preds = .error .assertion := by
  intro h
  unfold evaluate assertArgs
  rw [if_neg h]

example : ([.num (.fin 1)] : List (Truth ℝ)).length ≠ ([] : List (Fl ℝ)).length := by simp

/-- **C68.** Raw votes count as their mean: a list of raw finite votes can be replaced by the list of their means. -/
theorem C68_raw_scores (m : Metric) (mapping : Option (List (Fl ℝ) → List (Fl ℝ) → Fl ℝ × Fl ℝ)) (votes : List (List ℝ))
    (hne : ∀ v ∈ votes, v ≠ []) (preds : List (Fl ℝ)) :
    evaluate m Np.mean mapping (votes.map fun v => .votes (v.map fin)) preds =
      evaluate m Np.mean mapping (votes.map fun v => .num (fin (mean v))) preds := by
  unfold evaluate assertArgs
  simp only [List.length_map, List.map_map]
  have : (votes.map (aggregate (Np.mean (K := ℝ)) ∘ fun v => Truth.votes (v.map fin))) =
      votes.map (aggregate (Np.mean (K := ℝ)) ∘ fun v => Truth.num (fin (mean v))) := by
    apply List.map_congr_left
    intro v hv
    exact Np.mean_map_fin (hne v hv)
  rw [this]

example : ∀ v ∈ ([[1, 2], [3]] : List (List ℝ)), v ≠ [] := by simp

/-- **C68, RMSE.** The root of the mean squared difference. It is symmetric and not negative, and zero exactly when the
predictions are the truths. -/
theorem C68_rmse (aggr : List (Fl ℝ) → Fl ℝ) {ps : List (ℝ × ℝ)} (hne : ps ≠ []) :
    evaluate .rmse aggr none (truths ps) (predictions ps) = .ok (fin (rmsError ps)) ∧
    evaluate .rmse aggr none (truths (exchanged ps)) (predictions (exchanged ps)) = .ok (fin (rmsError ps)) ∧
    0 ≤ rmsError ps ∧ rmsError ps ^ 2 = mean (ps.map fun p => (p.1 - p.2) ^ 2) ∧
    (rmsError ps = 0 ↔ ∀ p ∈ ps, p.1 = p.2) := by
  have hlen : (0 : ℝ) < ps.length := by exact_mod_cast List.length_pos_iff.mpr hne
  have hnn : 0 ≤ (ps.map fun p => (p.1 - p.2) ^ 2).sum := by
    apply List.sum_nonneg
    intro y hy
    obtain ⟨z, _, rfl⟩ := List.mem_map.mp hy
    positivity
  have hm : 0 ≤ mean (ps.map fun p => (p.1 - p.2) ^ 2) := by
    unfold mean
    exact div_nonneg hnn (by positivity)
  refine ⟨?_, ?_, Real.sqrt_nonneg _, Real.sq_sqrt hm, ?_⟩
  · rw [evaluate_pairs]; exact rmse_spec hne
  · rw [evaluate_pairs]
    have h := rmse_spec (ps := exchanged ps) (by simpa [exchanged] using hne)
    have : rmsError (exchanged ps) = rmsError ps := by
      unfold rmsError exchanged
      rw [List.map_map]
      congr 2
      apply List.map_congr_left
      intro p _
      simp only [Function.comp]; ring
    rw [this] at h
    exact h
  · unfold rmsError
    rw [Real.sqrt_eq_zero hm]
    unfold mean
    rw [List.length_map, div_eq_zero_iff, or_iff_left hlen.ne']
    clear hne hlen hm hnn
    induction ps with
    | nil => simp
    | cons p ps ih =>
      have h1 : 0 ≤ (p.1 - p.2) ^ 2 := sq_nonneg _
      have h2 : 0 ≤ (ps.map fun p => (p.1 - p.2) ^ 2).sum := by
        apply List.sum_nonneg
        intro y hy
        obtain ⟨z, _, rfl⟩ := List.mem_map.mp hy
        positivity
      rw [List.map_cons, List.sum_cons, List.forall_mem_cons, ← ih, add_eq_zero_iff_of_nonneg h1 h2]
      simp [sub_eq_zero]

example : ([(1, 2), (3, 3)] : List (ℝ × ℝ)) ≠ [] := by simp

/-- **C68, PCC.** For at least two entries: the correlation of truths and predictions (NaN when a side is constant),
in [-1, 1], symmetric, and unchanged by positive affine maps of both sides. Fewer than two entries are refused. -/
theorem C68_pcc (aggr : List (Fl ℝ) → Fl ℝ) {ps : List (ℝ × ℝ)} (hn : 2 ≤ ps.length) :
    evaluate .pcc aggr none (truths ps) (predictions ps) = .ok (numOrNanOf (correlation ps)) ∧
    (∀ r, correlation ps = some r → -1 ≤ r ∧ r ≤ 1) ∧
    evaluate .pcc aggr none (truths (exchanged ps)) (predictions (exchanged ps)) =
      evaluate .pcc aggr none (truths ps) (predictions ps) ∧
    ∀ a b c d : ℝ, 0 < a → 0 < c →
      evaluate .pcc aggr none (truths (mapped (fun x => a * x + b) (fun y => c * y + d) ps))
        (predictions (mapped (fun x => a * x + b) (fun y => c * y + d) ps)) =
      evaluate .pcc aggr none (truths ps) (predictions ps) := by
  have key : ∀ qs : List (ℝ × ℝ), qs.length = ps.length →
      evaluate .pcc aggr none (truths qs) (predictions qs) = .ok (numOrNanOf (correlation qs)) := by
    intro qs hq
    rw [evaluate_pairs]
    exact pcc_spec (by omega)
  refine ⟨key ps rfl, fun r hr => correlation_range hr, ?_, ?_⟩
  · rw [key _ (by simp [exchanged]), key _ rfl, correlation_exchanged]
  · intro a b c d ha hc
    rw [key _ (by simp [mapped]), key _ rfl, correlation_affine ha hc]

theorem C68_pcc_short (aggr : List (Fl ℝ) → Fl ℝ) {ps : List (ℝ × ℝ)} (hn : ps.length < 2) :
    evaluate .pcc aggr none (truths ps) (predictions ps) = .error .value := by
  rw [evaluate_pairs]
  show Stats.pearsonr _ _ = _
  unfold Stats.pearsonr
  rw [if_neg (by simp), List.length_map, if_pos hn]

example : 2 ≤ ([(1, 2), (3, 3)] : List (ℝ × ℝ)).length := by simp
example : ([(1, 2)] : List (ℝ × ℝ)).length < 2 := by simp

/-- **C68, SRCC.** The correlation of the ranks: in [-1, 1], symmetric, and unchanged by strictly increasing maps of the
two sides. -/
theorem C68_srcc (aggr : List (Fl ℝ) → Fl ℝ) (ps : List (ℝ × ℝ)) :
    evaluate .srcc aggr none (truths ps) (predictions ps) = .ok (numOrNanOf (correlation (rankPairs ps))) ∧
    (∀ r, correlation (rankPairs ps) = some r → -1 ≤ r ∧ r ≤ 1) ∧
    evaluate .srcc aggr none (truths (exchanged ps)) (predictions (exchanged ps)) =
      evaluate .srcc aggr none (truths ps) (predictions ps) ∧
    ∀ φ ψ : ℝ → ℝ, StrictMono φ → StrictMono ψ →
      evaluate .srcc aggr none (truths (mapped φ ψ ps)) (predictions (mapped φ ψ ps)) =
      evaluate .srcc aggr none (truths ps) (predictions ps) := by
  have key : ∀ qs : List (ℝ × ℝ),
      evaluate .srcc aggr none (truths qs) (predictions qs) = .ok (numOrNanOf (correlation (rankPairs qs))) := by
    intro qs
    rw [evaluate_pairs]
    exact srcc_spec qs
  refine ⟨key ps, fun r hr => correlation_range hr, ?_, ?_⟩
  · rw [key, key, rankPairs_exchanged, correlation_exchanged]
  · intro φ ψ hφ hψ
    rw [key, key, rankPairs_mono hφ hψ]

/-- **C68, KENDALL.** Kendall's tau-b: in [-1, 1], symmetric, and unchanged by strictly increasing maps of the two sides. -/
theorem C68_kendall (aggr : List (Fl ℝ) → Fl ℝ) (ps : List (ℝ × ℝ)) :
    evaluate .kendall aggr none (truths ps) (predictions ps) = .ok (numOrNanOf (kendallTau ps)) ∧
    (∀ r, kendallTau ps = some r → -1 ≤ r ∧ r ≤ 1) ∧
    evaluate .kendall aggr none (truths (exchanged ps)) (predictions (exchanged ps)) =
      evaluate .kendall aggr none (truths ps) (predictions ps) ∧
    ∀ φ ψ : ℝ → ℝ, StrictMono φ → StrictMono ψ →
      evaluate .kendall aggr none (truths (mapped φ ψ ps)) (predictions (mapped φ ψ ps)) =
      evaluate .kendall aggr none (truths ps) (predictions ps) := by
  have key : ∀ qs : List (ℝ × ℝ),
      evaluate .kendall aggr none (truths qs) (predictions qs) = .ok (numOrNanOf (kendallTau qs)) := by
    intro qs
    rw [evaluate_pairs]
    exact kendalltau_spec qs
  refine ⟨key ps, fun r hr => kendall_range hr, ?_, ?_⟩
  · rw [key, key, kendall_exchanged]
  · intro φ ψ hφ hψ
    rw [key, key, kendall_mono hφ hψ]

example : StrictMono (fun x : ℝ => 2 * x + 1) := fun _ _ h => by dsimp only; linarith
/-- the correlation of two points on an increasing line is defined -/
example : correlation [(1, 2), (3, 4)] = some 1 := by
  unfold correlation sqDev mean
  norm_num

/-- **C79.** With the mapping enabled and a fit of finite intercept and nonzero slope, the metrics see predictions
strictly between the smallest truth minus 0.1 and the largest truth plus 0.1. The mapping is increasing if the slope is
positive, and then the rank correlations are unchanged. If the slope is negative they change sign. -/
theorem C79_mapping (aggr : List (Fl ℝ) → Fl ℝ) (fit : List (Fl ℝ) → List (Fl ℝ) → Fl ℝ × Fl ℝ) {ps : List (ℝ × ℝ)} (hne : ps ≠ [])
    {a b : ℝ} (hb : b ≠ 0) (hfit : ∀ zs, fit zs (predictions ps) = (fin a, fin b)) :
    ∃ ψ : ℝ → ℝ,
      (∀ m : Metric, evaluate m aggr (some fit) (truths ps) (predictions ps) =
        evaluate m aggr none (truths (mapped id ψ ps)) (predictions (mapped id ψ ps))) ∧
      (∃ lo ∈ ps, ∃ hi ∈ ps, (∀ p ∈ ps, lo.1 ≤ p.1 ∧ p.1 ≤ hi.1) ∧ ∀ x, lo.1 - 1 / 10 < ψ x ∧ ψ x < hi.1 + 1 / 10) ∧
      (0 < b → StrictMono ψ) ∧ (b < 0 → StrictAnti ψ) := by
  have e1 : predictions ps = (ps.map (·.2)).map fin := by simp [predictions]
  have e2 : (truths ps).map (aggregate aggr) = (ps.map (·.1)).map fin := by simp [truths, aggregate]
  obtain ⟨mx, mn, hmx, hmn, hb2, hs⟩ := sigmoidAdjust_fin (fit := fit) (xs := ps.map (·.2)) (ys := ps.map (·.1))
    (by simpa using hne) hb (by rw [← e1]; exact hfit)
  obtain ⟨lo, hlo, rfl⟩ := List.mem_map.mp hmn
  obtain ⟨hi, hhi, rfl⟩ := List.mem_map.mp hmx
  have hb3 : ∀ p ∈ ps, lo.1 ≤ p.1 ∧ p.1 ≤ hi.1 := fun p hp => hb2 _ (List.mem_map_of_mem hp)
  have hlt : lo.1 - 1 / 10 < hi.1 + 1 / 10 := by linarith [(hb3 lo hlo).2]
  refine ⟨sigmoidReal (hi.1 + 1 / 10) (lo.1 - 1 / 10) a b, ?_, ⟨lo, hlo, hi, hhi, hb3, fun x => sigmoidReal_range hlt a b x⟩,
    fun h => sigmoidReal_mono hlt h, fun h => sigmoidReal_anti hlt h⟩
  intro m
  rw [evaluate_pairs]
  unfold evaluate assertArgs
  rw [if_pos (by simp [truths, predictions])]
  dsimp only
  rw [e2, e1, hs]
  dsimp only
  congr 1
  · simp [mapped]
  · simp [mapped]

/-- **C79.** The rank correlations with the mapping, in terms of those without it. -/
theorem C79_ranks (aggr : List (Fl ℝ) → Fl ℝ) (fit : List (Fl ℝ) → List (Fl ℝ) → Fl ℝ × Fl ℝ) {ps : List (ℝ × ℝ)} (hne : ps ≠ [])
    {a b : ℝ} (hfit : ∀ zs, fit zs (predictions ps) = (fin a, fin b)) :
    (0 < b → evaluate .srcc aggr (some fit) (truths ps) (predictions ps) = evaluate .srcc aggr none (truths ps) (predictions ps) ∧
      evaluate .kendall aggr (some fit) (truths ps) (predictions ps) = evaluate .kendall aggr none (truths ps) (predictions ps)) ∧
    (b < 0 → evaluate .srcc aggr (some fit) (truths ps) (predictions ps) =
        .ok (numOrNanOf ((correlation (rankPairs ps)).map (-·))) ∧
      evaluate .kendall aggr (some fit) (truths ps) (predictions ps) = .ok (numOrNanOf ((kendallTau ps).map (-·)))) := by
  constructor
  · intro h
    obtain ⟨ψ, h1, _, h2, _⟩ := C79_mapping aggr fit hne h.ne' hfit
    rw [h1, h1]
    exact ⟨(C68_srcc aggr ps).2.2.2 id ψ strictMono_id (h2 h), (C68_kendall aggr ps).2.2.2 id ψ strictMono_id (h2 h)⟩
  · intro h
    obtain ⟨ψ, h1, _, _, h2⟩ := C79_mapping aggr fit hne h.ne hfit
    rw [h1, h1, (C68_srcc aggr _).1, (C68_kendall aggr _).1, rankPairs_anti (h2 h), correlation_neg, kendall_anti (h2 h)]
    exact ⟨rfl, rfl⟩

example : ∃ fit : List (Fl ℝ) → List (Fl ℝ) → Fl ℝ × Fl ℝ, ∀ zs, fit zs (predictions [(1, 2), (3, 4)]) = (fin 0, fin 2) :=
  ⟨fun _ _ => (fin 0, fin 2), fun _ => rfl⟩

/-- **C79.** With no entries the mapping raises, since there is no largest truth. -/
theorem C79_empty (m : Metric) (aggr : List (Fl ℝ) → Fl ℝ) (fit : List (Fl ℝ) → List (Fl ℝ) → Fl ℝ × Fl ℝ) :
    evaluate m aggr (some fit) [] [] = .error .value := rfl

end Sureal.Props
