import Verif.Lemmas.StrongLaw
import Verif.Props.ApComplete
import Verif.Props.Coverage
/-!
# C148: more votes bring the estimates to the truth

Every theorem speaks of a sequence of panels that grows; the noise in the votes is random, and the convergence is almost sure.
-/
set_option linter.unusedSectionVars false
namespace Sureal.Props
open Sureal Spec Lemmas MeasureTheory ProbabilityTheory Filter Ap Consistent
open scoped Topology
variable {κ : Type} {Ω : Type*} [MeasurableSpace Ω] {P : Measure Ω} [IsProbabilityMeasure P]

/-- the score of a video is the mean of the votes on it -/
theorem mos_score {rd : Reader κ ℝ} {res : Result κ ℝ} {e : ℕ} {l : List ℝ} (hv : VotesOn rd e l) (h1 : 1 ≤ l.length)
    (hr : runMOS rd {} = .ok res) : res.qualityScores[e]? = some (.fin (Spec.mean l)) := by
  obtain ⟨a, h, ha, hc, hp⟩ := hv
  rw [runMOS_default ha hr]
  show (List.ofFn (meanAlongS a.get))[e]? = _
  rw [List.getElem?_ofFn, dif_pos h, meanAlongS_spec a.get ⟨e, h⟩ (hc _)]
  unfold meanOrNan
  match hl : present (videoCells a.get ⟨e, h⟩) with
  | [] =>
    rw [hl] at hp
    have := hp.length_eq
    simp at this
    omega
  | y :: ys =>
    rw [hl] at hp
    dsimp only
    rw [mean_perm hp]

/-- **C148.** Mean opinion scores: if the votes on a video are pairwise independent and identically distributed and have a mean, then the score of the
video goes to the expected vote when the number of votes on it grows, whatever happens to the votes on the other videos. -/
theorem C148_mos (X : ℕ → Ω → ℝ) (hX : Integrable (X 0) P) (hindep : Pairwise fun i k => IndepFun (X i) (X k) P)
    (hident : ∀ i, IdentDistrib (X i) (X 0) P P) (e : ℕ) (rd : ℕ → Ω → Reader κ ℝ) (res : ℕ → Ω → Result κ ℝ)
    (hv : ∀ n ≥ 1, ∀ ω, VotesOn (rd n ω) e (firstN (X · ω) n)) (hr : ∀ n ≥ 1, ∀ ω, runMOS (rd n ω) {} = .ok (res n ω)) :
    ∃ score : ℕ → Ω → ℝ, (∀ n ≥ 1, ∀ ω, (res n ω).qualityScores[e]? = some (.fin (score n ω))) ∧
      ∀ᵐ ω ∂P, Tendsto (fun n => score n ω) atTop (𝓝 P[X 0]) := by
  refine ⟨fun n ω => Spec.mean (firstN (X · ω) n), fun n hn ω => mos_score (hv n hn ω) (by rw [firstN_length]; exact hn) (hr n hn ω), ?_⟩
  filter_upwards [strong_law_ae_real X hX hindep hident] with ω h
  simpa only [firstN_mean] using h

/-- **C148.** If the variance is finite too, the intervals around the scores shrink to the expected vote: any other number is covered by finitely many
of them only. -/
theorem C148_mos_intervals (X : ℕ → Ω → ℝ) (hX : MemLp (X 0) 2 P) (hindep : Pairwise fun i k => IndepFun (X i) (X k) P)
    (hident : ∀ i, IdentDistrib (X i) (X 0) P P) (e : ℕ) (rd : ℕ → Ω → Reader κ ℝ) (res : ℕ → Ω → Result κ ℝ)
    (hv : ∀ n ≥ 2, ∀ ω, VotesOn (rd n ω) e (firstN (X · ω) n)) (hr : ∀ n ≥ 2, ∀ ω, runMOS (rd n ω) {} = .ok (res n ω)) :
    ∀ᵐ ω ∂P, ∀ x, x ≠ P[X 0] → ∃ n₀, ∀ n ≥ n₀, ¬ Covers (res n ω) e x := by
  have h1 := strong_law_ae_real X (hX.integrable (by norm_num)) hindep hident
  have hsq : Measurable fun x : ℝ => x ^ 2 := by fun_prop
  have h2 := strong_law_ae_real (fun i ω => X i ω ^ 2) hX.integrable_sq (fun _ _ h => (hindep h).comp hsq hsq) fun i => (hident i).comp hsq
  filter_upwards [h1, h2] with ω a b x hx
  have hs := sampleVar_tendsto (X · ω) a b
  have hn : Tendsto (fun n : ℕ => √(n : ℝ)) atTop atTop := Real.tendsto_sqrt_atTop.comp tendsto_natCast_atTop_atTop
  have hw : Tendsto (fun n => 1.95996 * (√(sampleVar (firstN (X · ω) n)) / √(n : ℝ))) atTop (𝓝 0) := by
    have := ((Real.continuous_sqrt.tendsto _).comp hs).div_atTop hn
    simpa using this.const_mul 1.95996
  have hd : Tendsto (fun n => |Spec.mean (firstN (X · ω) n) - x|) atTop (𝓝 |P[X 0] - x|) := by
    have : Tendsto (fun n => Spec.mean (firstN (X · ω) n)) atTop (𝓝 P[X 0]) := by simpa only [firstN_mean] using a
    exact (this.sub_const x).abs
  have hev := hw.eventually_lt hd (abs_pos.mpr (sub_ne_zero.mpr hx.symm))
  rw [← eventually_atTop]
  filter_upwards [hev, eventually_ge_atTop 2] with n hlt h2
  have := covers_iff_near (hv n h2 ω) (by rw [firstN_length]; exact h2) (hr n h2 ω) x
  rw [firstN_length] at this
  rw [this]
  exact not_le.mpr hlt

/-- **C148 (partial).** P.910, more and more observers who all vote on the same videos.  The vote of observer `i` on video `j` in repetition `r` is the
quality of the video plus the bias of the observer plus noise; the noises of the observers (each one a table over videos and repetitions) are pairwise
independent and identically distributed, with a finite variance and a symmetric law.  The score of every video goes to its quality plus the mean bias,
whatever the biases are, so differences of scores go to differences of qualities.  What is missing is noise that has mean zero but is not symmetric
(`C148_skewed_refuted`). -/
theorem C148_p910_partial {J R : ℕ} (hJ : 0 < J) (hR : 0 < R) (N : ℕ → Ω → Fin J → Fin R → ℝ)
    (hindep : Pairwise fun i k => IndepFun (N i) (N k) P) (hident : ∀ i, IdentDistrib (N i) (N 0) P P)
    (hsym : IdentDistrib (N 0) (fun ω => -N 0 ω) P P) (hN : ∀ j r, MemLp (fun ω => N 0 ω j r) 2 P)
    (q : Fin J → ℝ) (b : ℕ → ℝ) (sd : StdFormula) (rd : ℕ → Ω → Reader κ ℝ) (hob : ∀ n ω, ObserversHarmless (rd n ω))
    (ha : ∀ n ≥ 1, ∀ ω, (rd n ω).scores = .ok ⟨J, n, R, fun j i r => .fin (q j + b i + N i ω j r)⟩) :
    ∃ score : ℕ → Ω → Fin J → ℝ,
      (∀ n ≥ 1, ∀ ω, ∃ res, runAPWith sd (rd n ω) {} = .ok res ∧ res.qualityScores = List.ofFn fun j => .fin (score n ω j)) ∧
      ∀ᵐ ω ∂P, (∀ j, Tendsto (fun n => score n ω j - (q j + (∑ i ∈ Finset.range n, b i) / n)) atTop (𝓝 0)) ∧
        ∀ j k, Tendsto (fun n => score n ω j - score n ω k) atTop (𝓝 (q j - q k)) := by
  refine ⟨fun n ω => estQ (allP J n R) (additive q b (fun i => N i ω) n), fun n hn ω => ?_, ?_⟩
  · obtain ⟨res, h1, h2, -⟩ := run_real (allP J n R) (additive q b (fun i => N i ω) n) sd (rd n ω) (hob n ω) (ha n hn ω) (allP_voted hJ hn hR) hn
    exact ⟨res, h1, h2⟩
  · filter_upwards [dev_ae hJ hR hindep hident hsym hN] with ω h
    have key : ∀ j, Tendsto (fun n => estQ (allP J n R) (additive q b (fun i => N i ω) n) j - (q j + (∑ i ∈ Finset.range n, b i) / n)) atTop (𝓝 0) := by
      intro j
      have h1 := dev_stop h.1 j (fun n => stopAt (allP J n R) (additive q b (fun i => N i ω) n) + 1) fun n => by
        have := stopAt_le (allP J n R) (additive q b (fun i => N i ω) n)
        omega
      have h2 := h.2.add h1
      rw [add_zero] at h2
      refine h2.congr' ?_
      filter_upwards [eventually_ge_atTop 1] with n hn
      rw [estQ_votes hJ hR hn]
      ring
    refine ⟨key, fun j k => ?_⟩
    have h3 := ((key j).sub (key k)).add_const (q j - q k)
    rw [sub_zero, zero_add] at h3
    refine h3.congr fun n => ?_
    ring

/-- **C148.** P.910, fixed observers who all vote on more and more videos.  The noises of the videos (each one a table over observers and repetitions) are
pairwise independent and identically distributed and have mean zero.  The bias of every observer goes to the true bias minus the mean of the true biases,
whatever the qualities of the videos are. -/
theorem C148_p910_biases {I R : ℕ} (hI : 0 < I) (hR : 0 < R) (N : ℕ → Ω → Fin I → Fin R → ℝ)
    (hindep : Pairwise fun j k => IndepFun (N j) (N k) P) (hident : ∀ j, IdentDistrib (N j) (N 0) P P)
    (hint : ∀ i r, Integrable (fun ω => N 0 ω i r) P) (hzero : ∀ i r, ∫ ω, N 0 ω i r ∂P = 0)
    (q : ℕ → ℝ) (b : Fin I → ℝ) (sd : StdFormula) (rd : ℕ → Ω → Reader κ ℝ) (hob : ∀ n ω, ObserversHarmless (rd n ω))
    (ha : ∀ n ≥ 1, ∀ ω, (rd n ω).scores = .ok ⟨n, I, R, fun j i r => .fin (q j + b i + N j ω i r)⟩) :
    ∃ bias : ℕ → Ω → Fin I → ℝ,
      (∀ n ≥ 1, ∀ ω, ∃ res, runAPWith sd (rd n ω) {} = .ok res ∧ res.observerBias = some (List.ofFn fun i => .fin (bias n ω i))) ∧
      ∀ᵐ ω ∂P, ∀ i, Tendsto (fun n => bias n ω i) atTop (𝓝 (b i - (∑ k, b k) / I)) := by
  have hI' : (I : ℝ) ≠ 0 := by positivity
  have hR' : (R : ℝ) ≠ 0 := by positivity
  refine ⟨fun n ω i => observerMean (J := n) (fun j i r => q j + b i + N j ω i r) i - grandMean (J := n) (fun j i r => q j + b i + N j ω i r),
    fun n hn ω => ?_, ?_⟩
  · obtain ⟨res, -, h1, -, h2, -⟩ := C143_closed_form sd (rd n ω) (hob n ω) hn hI hR (ha n hn ω)
    exact ⟨res, h1, h2⟩
  · have hs := ae_all_iff.mpr fun i => ae_all_iff.mpr fun r => slln hindep hident (f := fun z => z i r) (by fun_prop) (hint i r)
    filter_upwards [hs] with ω h i
    have hc : ∀ i, Tendsto (fun n : ℕ => (∑ r, (∑ j ∈ Finset.range n, N j ω i r) / (n : ℝ)) / (R : ℝ)) atTop (𝓝 0) := by
      intro i
      have := (tendsto_finsetSum (s := (Finset.univ : Finset (Fin R))) fun r _ => h i r).div_const (R : ℝ)
      simpa only [hzero, Finset.sum_const_zero, zero_div] using this
    have hg : Tendsto (fun n : ℕ => (∑ i, (∑ r, (∑ j ∈ Finset.range n, N j ω i r) / (n : ℝ)) / (R : ℝ)) / (I : ℝ)) atTop (𝓝 0) := by
      have := (tendsto_finsetSum (s := (Finset.univ : Finset (Fin I))) fun i _ => hc i).div_const (I : ℝ)
      simpa only [Finset.sum_const_zero, zero_div] using this
    have h3 := ((hc i).sub hg).const_add (b i - (∑ k, b k) / I)
    rw [sub_zero, add_zero] at h3
    refine h3.congr' ?_
    filter_upwards [eventually_ge_atTop 1] with n hn
    have hn' : (n : ℝ) ≠ 0 := by positivity
    have ho : ∀ i, observerMean (J := n) (fun j i r => q j + b i + N j ω i r) i =
        (∑ j : Fin n, q j) / n + b i + (∑ r, (∑ j ∈ Finset.range n, N j ω i r) / (n : ℝ)) / (R : ℝ) := by
      intro i
      unfold observerMean
      simp only [Finset.sum_add_distrib, Finset.sum_const, Finset.card_univ, Fintype.card_fin, nsmul_eq_mul]
      rw [← Finset.mul_sum, Finset.sum_comm, ← Finset.sum_div]
      simp only [Finset.sum_range]
      field_simp
    rw [← observerMean_mean hn hI hR]
    simp only [ho, Finset.sum_add_distrib, Finset.sum_const, Finset.card_univ, Fintype.card_fin, nsmul_eq_mul]
    rw [add_div, add_div, mul_div_cancel_left₀ _ hI']
    ring

/-! ## what does not converge -/

/-- **C148 (refuted).** The inconsistencies do not go to the true ones: of two observers who vote once on every video, the solver reports the same
inconsistency for both, whatever the votes are and however many videos there are. -/
theorem C148_inconsistency_refuted {J : ℕ} (hJ : 0 < J) (Y : Fin J → Fin 2 → Fin 1 → ℝ) (sd : StdFormula) (rd : Reader κ ℝ) (hob : ObserversHarmless rd)
    (ha : rd.scores = .ok ⟨J, 2, 1, fun j i r => .fin (Y j i r)⟩) :
    ∃ (res : Result κ ℝ) (v : ℝ), runAPWith sd rd {} = .ok res ∧ res.observerInconsistency = some [.fin v, .fin v] := by
  obtain ⟨res, h1, -, -, h2, -⟩ := run_real (allP J 2 1) Y sd rd hob ha (allP_voted hJ two_pos one_pos) two_pos
  have he : estV (allP J 2 1) Y 0 = estV (allP J 2 1) Y 1 := by
    have hw := two_equal (Y := Y) hJ (two_seq hJ (stopAt (allP J 2 1) Y))
    unfold passWeight at hw
    change apWeight (estV (allP J 2 1) Y 0) = apWeight (estV (allP J 2 1) Y 1) at hw
    have p0 : 0 ≤ estV (allP J 2 1) Y 0 := Real.sqrt_nonneg _
    have p1 : 0 ≤ estV (allP J 2 1) Y 1 := Real.sqrt_nonneg _
    unfold apWeight at hw
    rw [div_eq_div_iff (by positivity) (by positivity)] at hw
    exact (sq_eq_sq₀ p0 p1).mp (by linarith)
  refine ⟨res, estV (allP J 2 1) Y 1, h1, ?_⟩
  rw [h2]
  simp [List.ofFn_succ, he]

/-- a third of the observers gives 5 and 1, the others give 2 and 4: both videos have the mean 3 -/
def skewed (j : Fin 2) (i : ℕ) : ℝ := if i % 3 = 0 then ![5, 1] j else ![2, 4] j

/-- what is left of the votes without the quality 3 -/
def skewNoise (i : ℕ) (j : Fin 2) (_ : Fin 1) : ℝ := if i % 3 = 0 then ![2, -2] j else ![-1, 1] j

theorem sum_thirds (m : ℕ) (a b : ℝ) : ∑ i ∈ Finset.range (3 * m), (if i % 3 = 0 then a else b) = m * (a + 2 * b) := by
  induction m with
  | zero => simp
  | succ m ih =>
    rw [show 3 * (m + 1) = 3 * m + 1 + 1 + 1 by ring, Finset.sum_range_succ, Finset.sum_range_succ, Finset.sum_range_succ, ih,
      if_pos (by omega), if_neg (by omega), if_neg (by omega)]
    push_cast
    ring

theorem skew_weight (i : ℕ) {u : Fin 2 → ℝ} (hu : u 1 = -u 0) :
    wOf (skewNoise i) u = if i % 3 = 0 then 1 / ((2 - u 0) ^ 2 + 1 / 100000000) else 1 / ((1 + u 0) ^ 2 + 1 / 100000000) := by
  have hsp : spread Finset.univ (fun c : Fin 2 × Fin 1 => skewNoise i c.1 c.2 - u c.1) ^ 2 = (skewNoise i 0 0 - u 0) ^ 2 := by
    unfold spread
    rw [Real.sq_sqrt]
    · unfold avg
      rw [Fintype.sum_prod_type, Fintype.sum_prod_type]
      simp only [Fin.sum_univ_two, Fin.sum_univ_one, Finset.card_univ, Fintype.card_prod, Fintype.card_fin, hu]
      have : skewNoise i 1 0 = -skewNoise i 0 0 := by
        unfold skewNoise
        split <;> simp
      rw [this]
      push_cast
      ring
    · unfold avg
      positivity
  unfold wOf apWeight
  rw [hsp]
  unfold skewNoise
  split
  · simp
  · congr 2
    simp
    ring

theorem skew_c (i : ℕ) (j : Fin 2) : cOf (skewNoise i) j = if i % 3 = 0 then (![2, -2] : Fin 2 → ℝ) j else (![-1, 1] : Fin 2 → ℝ) j := by
  unfold cOf skewNoise
  split <;> fin_cases j <;> norm_num [Fin.sum_univ_two]

/-- the passes stay with the majority -/
theorem skew_dev {m : ℕ} (hm : 0 < m) (k : ℕ) :
    dev skewNoise (3 * m) k 1 = -dev skewNoise (3 * m) k 0 ∧ -1 ≤ dev skewNoise (3 * m) k 0 ∧ dev skewNoise (3 * m) k 0 ≤ 0 ∧
      (0 < k → dev skewNoise (3 * m) k 0 < -(1 / 2)) := by
  have hm' : (0 : ℝ) < m := by exact_mod_cast hm
  induction k with
  | zero =>
    have h : ∀ j, dev skewNoise (3 * m) 0 j = 0 := by
      intro j
      show (∑ i ∈ Finset.range (3 * m), cOf (skewNoise i) j) / _ = 0
      simp only [skew_c]
      rw [sum_thirds]
      fin_cases j <;> norm_num
    rw [h, h]
    norm_num
  | succ k ih =>
    obtain ⟨hu, h1, h2, -⟩ := ih
    set x := dev skewNoise (3 * m) k 0 with hx
    set w2 : ℝ := 1 / ((2 - x) ^ 2 + 1 / 100000000) with hw2
    set w1 : ℝ := 1 / ((1 + x) ^ 2 + 1 / 100000000) with hw1
    have hp2 : 0 < w2 := by positivity
    have hp1 : 0 < w1 := by positivity
    have hle2 : w2 ≤ 1 / 4 := by
      rw [hw2]
      exact one_div_le_one_div_of_le (by norm_num) (by nlinarith)
    have hle1 : 9 / 10 ≤ w1 := by
      rw [hw1, le_div_iff₀ (by positivity)]
      nlinarith
    have hval : ∀ j, dev skewNoise (3 * m) (k + 1) j = (w2 * (![2, -2] : Fin 2 → ℝ) j + 2 * (w1 * (![-1, 1] : Fin 2 → ℝ) j)) / (w2 + 2 * w1) := by
      intro j
      show (∑ i ∈ Finset.range (3 * m), wOf (skewNoise i) (dev skewNoise (3 * m) k) * cOf (skewNoise i) j) /
        (∑ i ∈ Finset.range (3 * m), wOf (skewNoise i) (dev skewNoise (3 * m) k)) = _
      simp only [skew_weight _ hu, skew_c, ← hx, ← hw1, ← hw2]
      have hmul : ∀ i : ℕ, (if i % 3 = 0 then w2 else w1) * (if i % 3 = 0 then (![2, -2] : Fin 2 → ℝ) j else (![-1, 1] : Fin 2 → ℝ) j) =
          if i % 3 = 0 then w2 * (![2, -2] : Fin 2 → ℝ) j else w1 * (![-1, 1] : Fin 2 → ℝ) j := by
        intro i
        split <;> rfl
      simp only [hmul]
      rw [sum_thirds, sum_thirds, mul_div_mul_left _ _ hm'.ne']
    have hW : 0 < w2 + 2 * w1 := by positivity
    rw [hval, hval]
    norm_num
    refine ⟨?_, ?_, ?_, ?_⟩
    · rw [← neg_div]
      congr 1
      ring
    · rw [le_div_iff₀ hW]
      linarith
    · exact div_nonpos_of_nonpos_of_nonneg (by linarith) hW.le
    · rw [div_lt_iff₀ hW]
      linarith

/-- **C148 (refuted).** Noise that is not symmetric: of any number of observers a third gives 5 to the first video and 1 to the second, the others give
2 and 4.  Both videos have quality 3, the biases are zero, and the noise averages to zero on each video.  Mean opinion scores are 3 and 3; P.910 puts
the first below 2.5 and the second above 3.5, and more observers do not help. -/
theorem C148_skewed_refuted {m : ℕ} (hm : 0 < m) (sd : StdFormula) (rd : Reader κ ℝ) (hob : ObserversHarmless rd)
    (ha : rd.scores = .ok ⟨2, 3 * m, 1, fun j i _ => .fin (skewed j i)⟩) :
    (∃ mos, runMOS rd {} = .ok mos ∧ mos.qualityScores = [.fin 3, .fin 3]) ∧
    ∃ (res : Result κ ℝ) (x y : ℝ), runAPWith sd rd {} = .ok res ∧ res.qualityScores = [.fin x, .fin y] ∧ x < 5 / 2 ∧ 7 / 2 < y := by
  have hn : 0 < 3 * m := by omega
  have hm' : (m : ℝ) ≠ 0 := by positivity
  have hX : (fun (j : Fin 2) (i : Fin (3 * m)) (_ : Fin 1) => skewed j i) = additive (fun _ => 3) (fun _ => 0) skewNoise (3 * m) := by
    funext j i r
    unfold skewed additive skewNoise
    split <;> fin_cases j <;> norm_num
  have ha' : rd.scores = .ok ⟨2, 3 * m, 1, maskX (allP 2 (3 * m) 1) (additive (fun _ => 3) (fun _ => 0) skewNoise (3 * m))⟩ := by
    rw [ha, ← hX]
    rfl
  constructor
  · obtain ⟨mos, hr, -⟩ := (runModeling_ok hob mosRunModeling {}).1 (mosAndStats (fun E _ _ => E * 2) ⟨2, 3 * m, 1, _⟩ ⟨2, 3 * m, 1, _⟩) (by
      unfold mosRunModeling
      rw [preprocess_default ha]
      rfl)
    refine ⟨mos, hr, ?_⟩
    rw [runMOS_default ha' hr]
    show List.ofFn (meanAlongS (maskX (allP 2 (3 * m) 1) _)) = _
    rw [init_spec, maskS_fin (allP_voted two_pos hn one_pos)]
    have : ∀ j, (avg (votesOnVideo (allP 2 (3 * m) 1) j) fun c => additive (fun _ => (3 : ℝ)) (fun _ => 0) skewNoise (3 * m) j c.1 c.2) = 3 := by
      intro j
      rw [← hX]
      unfold avg skewed
      rw [allP_video, Fintype.sum_prod_type, Finset.card_univ, Fintype.card_prod, Fintype.card_fin, Fintype.card_fin]
      simp only [Fin.sum_univ_one]
      have := sum_thirds m ((![5, 1] : Fin 2 → ℝ) j) ((![2, 4] : Fin 2 → ℝ) j)
      rw [Finset.sum_range] at this
      rw [this]
      push_cast
      field_simp
      fin_cases j <;> norm_num
    simp [List.ofFn_succ, this]
  · obtain ⟨res, h1, h2, -⟩ := run_real (allP 2 (3 * m) 1) _ sd rd hob ha' (allP_voted two_pos hn one_pos) hn
    have hz : (∑ i ∈ Finset.range (3 * m), (∑ j, ∑ r, skewNoise i j r) / ((2 : ℕ) * (1 : ℕ) : ℝ)) = 0 := by
      refine Finset.sum_eq_zero fun i _ => ?_
      unfold skewNoise
      split <;> simp [Fin.sum_univ_two]
    have hq := fun j => estQ_votes two_pos one_pos hn (fun _ => 3) (fun _ => 0) skewNoise j
    obtain ⟨d1, -, -, d2⟩ := skew_dev hm (stopAt (allP 2 (3 * m) 1) (additive (fun _ => 3) (fun _ => 0) skewNoise (3 * m)) + 1)
    have d3 := d2 (Nat.succ_pos _)
    refine ⟨res, _, _, h1, by rw [h2]; simp only [List.ofFn_succ, List.ofFn_zero]; rfl, ?_, ?_⟩
    · rw [hq, hz]
      simp only [Finset.sum_const_zero, zero_div, add_zero]
      linarith
    · show _ < estQ _ _ 1
      rw [hq, hz, d1]
      simp only [Finset.sum_const_zero, zero_div, add_zero]
      linarith

/-! ## examples -/

/-- normal noise on two videos meets the hypotheses of `C148_p910_partial` and, with two observers in place of two videos, of `C148_p910_biases` -/
example : ∃ (Ω : Type) (_ : MeasurableSpace Ω) (P : Measure Ω) (_ : IsProbabilityMeasure P) (N : ℕ → Ω → Fin 2 → Fin 1 → ℝ)
    (rd : ℕ → Ω → Reader String ℝ) (rd' : ℕ → Ω → Reader String ℝ),
    (Pairwise fun i k => IndepFun (N i) (N k) P) ∧ (∀ i, IdentDistrib (N i) (N 0) P P) ∧ IdentDistrib (N 0) (fun ω => -N 0 ω) P P ∧
      (∀ j r, MemLp (fun ω => N 0 ω j r) 2 P) ∧ (∀ j r, Integrable (fun ω => N 0 ω j r) P) ∧ (∀ j r, ∫ ω, N 0 ω j r ∂P = 0) ∧
      (∀ n ω, ObserversHarmless (rd n ω)) ∧ (∀ n ω, ObserversHarmless (rd' n ω)) ∧
      (∀ n ≥ 1, ∀ ω, (rd n ω).scores = .ok ⟨2, n, 1, fun j i r => .fin (![2, 4] j + (-1) ^ (i : ℕ) + N i ω j r)⟩) ∧
      ∀ n ≥ 1, ∀ ω, (rd' n ω).scores = .ok ⟨n, 2, 1, fun j i r => .fin ((-1) ^ (j : ℕ) + ![0, 1] i + N j ω i r)⟩ := by
  obtain ⟨Ω, mΩ, P, X, h1, h2, h3, h4⟩ := exists_iid ℕ (gaussianReal 0 1)
  have hl : MemLp (X 0) 2 P := by
    have := (memLp_id_gaussianReal (μ := 0) (v := 1) 2)
    rw [← (h2 0).map_eq] at this
    exact (memLp_map_measure_iff (by fun_prop) (h2 0).aemeasurable).mp this
  have hf : Measurable fun (x : ℝ) (j : Fin 2) (_ : Fin 1) => (![1, 2] : Fin 2 → ℝ) j * x := by fun_prop
  have hs : IdentDistrib (X 0) (fun ω => -X 0 ω) P P := by
    refine ⟨(h2 0).aemeasurable, (h2 0).aemeasurable.neg, ?_⟩
    have hneg := gaussianReal_map_neg (μ := 0) (v := 1)
    rw [neg_zero] at hneg
    have hmm : Measure.map (fun ω => -X 0 ω) P = Measure.map (fun x => -x) (Measure.map (X 0) P) := (Measure.map_map measurable_neg (h1 0)).symm
    rw [hmm, (h2 0).map_eq, hneg]
  have hN : ∀ (j : Fin 2) (r : Fin 1), MemLp (fun ω => (![1, 2] : Fin 2 → ℝ) j * X 0 ω) 2 P := fun j _ => hl.const_mul _
  have h0 : ∫ ω, X 0 ω ∂P = 0 := by rw [(h2 0).integral_eq, integral_id_gaussianReal]
  refine ⟨Ω, mΩ, P, h4, fun i ω j _ => (![1, 2] : Fin 2 → ℝ) j * X i ω,
    fun n ω => arrReader 2 n 1 fun j i r => .fin (![2, 4] j + (-1) ^ (i : ℕ) + ![1, 2] j * X i ω),
    fun n ω => arrReader n 2 1 fun j i r => .fin ((-1) ^ (j : ℕ) + ![0, 1] i + ![1, 2] i * X j ω),
    fun i k hik => (h3.indepFun hik).comp hf hf, fun i => ((h2 i).identDistrib (h2 0)).comp hf, ?_, hN,
    fun j r => (hN j r).integrable (by norm_num), fun j r => by rw [integral_const_mul, h0, mul_zero],
    fun _ _ => arr_harmless _ _ _ _, fun _ _ => arr_harmless _ _ _ _, fun _ _ _ => rfl, fun _ _ _ => rfl⟩
  have := hs.comp hf
  have he : (fun ω => -fun (j : Fin 2) (_ : Fin 1) => (![1, 2] : Fin 2 → ℝ) j * X 0 ω) =
      (fun (x : ℝ) (j : Fin 2) (_ : Fin 1) => (![1, 2] : Fin 2 → ℝ) j * x) ∘ fun ω => -X 0 ω := by
    funext ω j r
    show -(_ * _) = _ * -_
    ring
  rw [he]
  exact this

/-- normal votes around 3 meet the hypotheses of `C148_mos` and `C148_mos_intervals` -/
example : ∃ (Ω : Type) (_ : MeasurableSpace Ω) (P : Measure Ω) (_ : IsProbabilityMeasure P) (X : ℕ → Ω → ℝ)
    (rd : ℕ → Ω → Reader String ℝ) (res : ℕ → Ω → Result String ℝ),
    MemLp (X 0) 2 P ∧ (Pairwise fun i k => IndepFun (X i) (X k) P) ∧ (∀ i, IdentDistrib (X i) (X 0) P P) ∧
      (∀ n ≥ 1, ∀ ω, VotesOn (rd n ω) 0 (firstN (X · ω) n)) ∧ ∀ n ≥ 1, ∀ ω, runMOS (rd n ω) {} = .ok (res n ω) := by
  obtain ⟨Ω, mΩ, P, X, h1, h2, h3, h4⟩ := exists_iid ℕ (gaussianReal 3 1)
  refine ⟨Ω, mΩ, P, h4, X, fun n ω => arrReader 1 n 1 fun _ s _ => .fin (X s ω),
    fun n ω => (panel_votes (X · ω) n).2.choose, ?_, fun _ _ h => h3.indepFun h, fun i => (h2 i).identDistrib (h2 0),
    fun n _ ω => (panel_votes (X · ω) n).1, fun n _ ω => (panel_votes (X · ω) n).2.choose_spec⟩
  have := (memLp_id_gaussianReal (μ := 3) (v := 1) 2)
  rw [← (h2 0).map_eq] at this
  exact (memLp_map_measure_iff (by fun_prop) (h2 0).aemeasurable).mp this

/-- the hypotheses of `C148_inconsistency_refuted` and `C148_skewed_refuted` are met -/
example (sd : StdFormula) : (∃ (res : Result String ℝ) (v : ℝ),
      runAPWith sd (arrReader 2 2 1 fun j i _ => .fin ((![![1, 5], ![3, 3]] : Fin 2 → Fin 2 → ℝ) j i)) {} = .ok res ∧
        res.observerInconsistency = some [.fin v, .fin v]) ∧
    ∃ (res : Result String ℝ) (x y : ℝ), runAPWith sd (arrReader 2 (3 * 10) 1 fun j i _ => .fin (skewed j i)) {} = .ok res ∧
      res.qualityScores = [.fin x, .fin y] ∧ x < 5 / 2 ∧ 7 / 2 < y :=
  ⟨C148_inconsistency_refuted two_pos (fun j i _ => (![![1, 5], ![3, 3]] : Fin 2 → Fin 2 → ℝ) j i) sd _ (arr_harmless _ _ _ _) rfl,
    (C148_skewed_refuted (m := 10) (by norm_num) sd _ (arr_harmless _ _ _ _) rfl).2⟩

end Sureal.Props
