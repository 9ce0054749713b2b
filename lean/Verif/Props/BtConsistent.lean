import Mathlib.Probability.HasLawExists
import Verif.Lemmas.BtConsistent
import Verif.Props.BtFord
/-!
# C153: more comparisons bring the Bradley-Terry estimates to the true strengths, but not the reported vector

Observers hand in tables of wins one after the other (`Contest`).  The comparisons are random and follow the Bradley-Terry law with strengths `p`.
-/
set_option linter.unusedSectionVars false
namespace Sureal.Props
open Spec.BT BtMath Filter Topology MeasureTheory ProbabilityTheory
variable {M : ℕ} {w : Fin M → Fin M → ℝ} {p : Fin M → ℝ} {Ω : Type*} [MeasurableSpace Ω] {P : Measure Ω} [IsProbabilityMeasure P]
  {X : ℕ → Ω → Fin M → Fin M → ℝ}

theorem firstTables_nonneg (hX : Contest P w p X) (ω : Ω) (n : ℕ) (i j : Fin M) : 0 ≤ firstTables (X · ω) n i j :=
  Finset.sum_nonneg fun t _ => hX.nonneg t ω i j

theorem firstTables_ford (hX : Contest P w p X) (hw : Linked w) (hp : PosProb p) : ∀ᵐ ω ∂P, ∀ᶠ n in atTop, Ford (firstTables (X · ω) n) := by
  filter_upwards [contest_ae hX] with ω h
  filter_upwards [ford_eventually hw hp.pos (A := fun n i j => firstTables (X · ω) n i j / (n : ℝ)) h] with n hn
  intro i j
  refine Relation.ReflTransGen.mono (fun a b hab => ?_) i j (hn i j)
  rcases (firstTables_nonneg hX ω n a b).lt_or_eq with h | h
  · exact h
  · dsimp only at hab
    rw [← h, zero_div] at hab
    exact absurd hab (lt_irrefl _)

theorem mle_likEq {A : Fin M → Fin M → ℝ} {q : Fin M → ℝ} (hM : 2 ≤ M) (hA : ∀ i j, 0 ≤ A i j) (hf : Ford A) (hq : IsMle A q) : LikEq A q := by
  have ht := Ford.table hA hf hM
  exact (fixed_iff ht hq.1).mp (next_eq_of_le ht hq.1 (hq.2 _ (next_posProb ht hq.1).pos))

/-- **C153, the estimate.** Almost surely, the maximum likelihood estimate exists when enough observers have voted, and it goes to the true strengths. -/
theorem C153_mle (hM : 2 ≤ M) (hw : Linked w) (hp : PosProb p) (hX : Contest P w p X) :
    ∀ᵐ ω ∂P, (∀ᶠ n in atTop, ∃ q, IsMle (firstTables (X · ω) n) q) ∧
      ∀ q : ℕ → Fin M → ℝ, (∀ᶠ n in atTop, IsMle (firstTables (X · ω) n) (q n)) → ∀ i, Tendsto (fun n => q n i) atTop (𝓝 (p i)) := by
  filter_upwards [contest_ae hX, firstTables_ford hX hw hp] with ω h hf
  constructor
  · filter_upwards [hf] with n hn
    obtain ⟨q, h1, h2⟩ := exists_max (firstTables_nonneg hX ω n) hn (by omega)
    exact ⟨q, h1, h2⟩
  · intro q hq i
    refine likEq_tendsto hw hp (A := fun n i j => firstTables (X · ω) n i j / (n : ℝ)) h ?_ ?_ i
    · exact Eventually.of_forall fun n i j => div_nonneg (firstTables_nonneg hX ω n i j) n.cast_nonneg
    · filter_upwards [hq, hf] with n hn hfn
      exact ⟨hn.1, likEq_scale _ (mle_likEq hM (firstTables_nonneg hX ω n) hfn hn)⟩

/-- **C153, the passes.** Almost surely, when enough observers have voted, the vectors of the passes of the model converge, and their limits go to the true
strengths.  So do the logarithms, which are the scores. -/
theorem C153_passes (hM : 2 ≤ M) (hw : Linked w) (hp : PosProb p) (hX : Contest P w p X) :
    ∀ᵐ ω ∂P, ∃ (x : ℕ → ℕ → Fin M → ℝ) (q : ℕ → Fin M → ℝ),
      (∀ᶠ n in atTop, (∀ k, (Bt.iter (mat (firstTables (X · ω) n)))^[k] (Bt.start M) = vec (x n k)) ∧
        ∀ i, Tendsto (fun k => x n k i) atTop (𝓝 (q n i))) ∧
      ∀ i, Tendsto (fun n => q n i) atTop (𝓝 (p i)) ∧ Tendsto (fun n => Real.log (q n i)) atTop (𝓝 (Real.log (p i))) := by
  filter_upwards [C153_mle hM hw hp hX, firstTables_ford hX hw hp] with ω h hf
  have key : ∀ n, ∃ (x : ℕ → Fin M → ℝ) (q : Fin M → ℝ), Ford (firstTables (X · ω) n) → IsMle (firstTables (X · ω) n) q ∧
      (∀ k, (Bt.iter (mat (firstTables (X · ω) n)))^[k] (Bt.start M) = vec (x k)) ∧ ∀ i, Tendsto (fun k => x k i) atTop (𝓝 (q i)) := by
    intro n
    by_cases hn : Ford (firstTables (X · ω) n)
    · obtain ⟨q, x, h1, h2, h3⟩ := C99_converges (firstTables_nonneg hX ω n) hn hM
      exact ⟨x, q, fun _ => ⟨h1, h2, h3⟩⟩
    · exact ⟨fun _ _ => 0, fun _ => 0, fun h => absurd h hn⟩
  choose x q hxq using key
  refine ⟨x, q, ?_, fun i => ?_⟩
  · filter_upwards [hf] with n hn using (hxq n hn).2
  · have := h.2 q (by filter_upwards [hf] with n hn using (hxq n hn).1) i
    exact ⟨this, (Real.continuousAt_log (hp.pos i).ne').tendsto.comp this⟩

/-- the loop stops where a pass moves the vector by at most 10^-8 -/
theorem loop_first {A : Fin M → Fin M → ℝ} (h : Table A) {p : Fin M → ℝ} (hp : PosProb p)
    (hs : Real.sqrt (∑ i, (next A p i - p i) ^ 2) ≤ 1 / 10 ^ 8) : Bt.Loop (mat A) (vec p) (.ok (vec (next A p))) := by
  rw [← Bt.iter_fl h hp]
  refine Bt.Loop.stop (by rw [Bt.iter_fl h hp, Bt.change_fl]) ?_
  rw [Bt.thr_fl, Fl.lt_fin, decide_eq_false_iff_not, not_lt]
  exact hs

/-- for two videos the first pass computes the shares of the wins -/
theorem next_two {A : Fin 2 → Fin 2 → ℝ} (h : Table A) (h0 : A 0 0 = 0) (h1 : A 1 1 = 0) {q : Fin 2 → ℝ} (hq : PosProb q) :
    next A q = ![A 0 1 / (A 0 1 + A 1 0), A 1 0 / (A 0 1 + A 1 0)] := by
  have w0 := h.wins 0
  have w1 := h.wins 1
  simp only [wins, Fin.sum_univ_two, h0, h1, zero_add, add_zero] at w0 w1
  have hs := hq.sum
  rw [Fin.sum_univ_two] at hs
  have hs' : q 1 + q 0 = 1 := by linarith
  funext i
  fin_cases i <;> simp [next, update, wins, games, Fin.sum_univ_two, h0, h1, hs, hs'] <;> field_simp <;> ring

/-- **C153, two videos.** If there are two videos only (not compared with themselves), the reported vector itself goes to the true strengths. -/
theorem C153_two_partial {w : Fin 2 → Fin 2 → ℝ} {p : Fin 2 → ℝ} {X : ℕ → Ω → Fin 2 → Fin 2 → ℝ} (hw : Linked w) (hp : PosProb p) (hX : Contest P w p X)
    (hd : ∀ t ω i, X t ω i i = 0) :
    ∀ᵐ ω ∂P, ∃ q : ℕ → Fin 2 → ℝ, (∀ᶠ n in atTop, ∀ r, Bt.Loop (mat (firstTables (X · ω) n)) (Bt.start 2) r ↔ r = .ok (vec (q n))) ∧
      ∀ i, Tendsto (fun n => q n i) atTop (𝓝 (p i)) := by
  filter_upwards [C153_mle (le_refl 2) hw hp hX, firstTables_ford hX hw hp] with ω h hf
  have hdiag : ∀ n i, firstTables (X · ω) n i i = 0 := fun n i => Finset.sum_eq_zero fun t _ => hd t ω i
  let q : ℕ → Fin 2 → ℝ := fun n => ![firstTables (X · ω) n 0 1 / (firstTables (X · ω) n 0 1 + firstTables (X · ω) n 1 0),
    firstTables (X · ω) n 1 0 / (firstTables (X · ω) n 0 1 + firstTables (X · ω) n 1 0)]
  refine ⟨q, ?_, h.2 q ?_⟩
  · filter_upwards [hf] with n hn
    have ht := Ford.table (firstTables_nonneg hX ω n) hn (le_refl 2)
    have hsp := Bt.start_posProb (M := 2) (by norm_num)
    have hq1 : next (firstTables (X · ω) n) (fun _ => (1 : ℝ) / (2 : ℕ)) = q n := next_two ht (hdiag n 0) (hdiag n 1) hsp
    have hqp : PosProb (q n) := hq1 ▸ next_posProb ht hsp
    have hq2 : next (firstTables (X · ω) n) (q n) = q n := next_two ht (hdiag n 0) (hdiag n 1) hqp
    obtain ⟨p0, p', hp0, -, ⟨k, hk⟩, he, -, hl⟩ := C76_terminates ht (by norm_num : (2 : ℕ) ≠ 0)
    have : p' = q n := by
      have h1 := next_two ht (hdiag n 0) (hdiag n 1) hp0
      rw [Bt.iter_fl ht hp0] at he
      funext i
      have := Fl.fin_inj.mp (congrFun he i)
      rw [← this, h1]
    rw [← this]
    exact hl
  · filter_upwards [hf] with n hn
    have ht := Ford.table (firstTables_nonneg hX ω n) hn (le_refl 2)
    have hsp := Bt.start_posProb (M := 2) (by norm_num)
    have hq1 : next (firstTables (X · ω) n) (fun _ => (1 : ℝ) / (2 : ℕ)) = q n := next_two ht (hdiag n 0) (hdiag n 1) hsp
    have hqp : PosProb (q n) := hq1 ▸ next_posProb ht hsp
    have hq2 : next (firstTables (X · ω) n) (q n) = q n := next_two ht (hdiag n 0) (hdiag n 1) hqp
    exact ⟨hqp, fun r hr => likEq_max (firstTables_nonneg hX ω n) ((fixed_iff ht hqp).mp hq2) hqp.pos hr⟩

theorem update_tendsto {A : ℕ → Fin M → Fin M → ℝ} {B : Fin M → Fin M → ℝ} (hB : Table B) (hA : ∀ i j, Tendsto (fun n => A n i j) atTop (𝓝 (B i j)))
    (hp : ∀ i, 0 < p i) (i : Fin M) : Tendsto (fun n => update (A n) p i) atTop (𝓝 (update B p i)) := by
  unfold update
  refine Tendsto.div (tendsto_finsetSum _ fun j _ => hA i j) (tendsto_finsetSum _ fun j _ => ?_) (den_pos hB hp i).ne'
  exact ((hA i j).add (hA j i)).div_const _

theorem next_tendsto {A : ℕ → Fin M → Fin M → ℝ} {B : Fin M → Fin M → ℝ} (hB : Table B) (hA : ∀ i j, Tendsto (fun n => A n i j) atTop (𝓝 (B i j)))
    (hp : PosProb p) (i : Fin M) : Tendsto (fun n => next (A n) p i) atTop (𝓝 (next B p i)) :=
  (update_tendsto hB hA hp.pos i).div (tendsto_finsetSum _ fun k _ => update_tendsto hB hA hp.pos k) (total_pos hB hp).ne'

/-- a pass does not depend on the unit in which comparisons are counted -/
theorem next_scale {A : Fin M → Fin M → ℝ} {c : ℝ} (hc : c ≠ 0) : next (fun i j => A i j / c) p = next A p := by
  have h : ∀ i, update (fun i j => A i j / c) p i = update A p i := by
    intro i
    unfold update wins games
    rw [← Finset.sum_div]
    have : ∀ j, (A i j / c + A j i / c) / (p i + p j) = (A i j + A j i) / (p i + p j) / c := fun j => by ring
    simp only [this]
    rw [← Finset.sum_div, div_div_div_cancel_right₀ hc]
  funext i
  unfold next
  simp only [h]

/-- how often the pairs are compared in the slow design: the videos of a good pair and the videos of a bad pair very often, a good one and a bad one rarely -/
noncomputable def slowDesign (c : ℝ) : Fin 4 → Fin 4 → ℝ := fun i j => c * games slow i j

theorem slowDesign_linked {c : ℝ} (hc : 0 < c) : Linked (slowDesign c) := by
  refine ⟨fun i j => ?_, fun i j => mul_nonneg hc.le (games_nonneg slow_nonneg i j), fun i j => ?_⟩
  · unfold slowDesign
    rw [games_symm]
  · exact Relation.ReflTransGen.mono (fun a b hab => mul_pos hc (add_pos_of_pos_of_nonneg hab (slow_nonneg b a))) i j (slow_ford i j)

/-- **C153, refuted: more comparisons bring the reported vector to the true strengths.** Two of the four videos are three times as strong as the other two,
but pairs of equal strength are compared much more often.  However many observers vote, from some number on the model reports that all four have practically
the same strength. -/
theorem C153_reported_refuted {c : ℝ} (hc : 0 < c) {X : ℕ → Ω → Fin 4 → Fin 4 → ℝ} (hX : Contest P (slowDesign c) ![3 / 8, 3 / 8, 1 / 8, 1 / 8] X) :
    ∀ᵐ ω ∂P, ∀ᶠ n in atTop, ∃ q : Fin 4 → ℝ, (∀ r, Bt.Loop (mat (firstTables (X · ω) n)) (Bt.start 4) r ↔ r = .ok (vec q)) ∧
      ∀ i, |q i - 1 / 4| < 1 / 10 ^ 8 := by
  have hp : PosProb ![(3 / 8 : ℝ), 3 / 8, 1 / 8, 1 / 8] := slow_mle.1
  have hB : expected (slowDesign c) ![3 / 8, 3 / 8, 1 / 8, 1 / 8] = fun i j => c * slow i j := by
    funext i j
    fin_cases i <;> fin_cases j <;> simp [expected, slowDesign, slow, games] <;> norm_num <;> ring
  have hBf : Ford fun i j => c * slow i j := fun i j => Relation.ReflTransGen.mono (fun a b hab => mul_pos hc hab) i j (slow_ford i j)
  have hBt : Table fun i j => c * slow i j := Ford.table (fun i j => mul_nonneg hc.le (slow_nonneg i j)) hBf (by norm_num)
  have hsp := Bt.start_posProb (M := 4) (by norm_num)
  have h1 : next (fun i j => c * slow i j) (fun _ => (1 : ℝ) / (4 : ℕ)) =
      ![1 / 4, (10 ^ 10 + 3) / (4 * 10 ^ 10 + 8), (10 ^ 10 + 1) / (4 * 10 ^ 10 + 8), 1 / 4] := by
    have e : (fun i j => c * slow i j) = fun i j => slow i j / c⁻¹ := by
      funext i j
      rw [div_inv_eq_mul, mul_comm]
    rw [e, next_scale (inv_ne_zero hc.ne')]
    funext i
    fin_cases i <;> simp [next, update, wins, games, slow, Fin.sum_univ_four] <;> norm_num
  filter_upwards [contest_ae hX, firstTables_ford hX (slowDesign_linked hc) hp] with ω h hford
  rw [hB] at h
  have hlim := fun i => next_tendsto (p := fun _ => (1 : ℝ) / (4 : ℕ)) hBt (A := fun n i j => firstTables (X · ω) n i j / (n : ℝ)) h hsp i
  rw [h1] at hlim
  have hnorm : Tendsto (fun n => Real.sqrt (∑ i, (next (fun i j => firstTables (X · ω) n i j / (n : ℝ)) (fun _ => (1 : ℝ) / (4 : ℕ)) i - 1 / (4 : ℕ)) ^ 2)) atTop
      (𝓝 (Real.sqrt (∑ i, ((![1 / 4, (10 ^ 10 + 3) / (4 * 10 ^ 10 + 8), (10 ^ 10 + 1) / (4 * 10 ^ 10 + 8), 1 / 4] : Fin 4 → ℝ) i - 1 / (4 : ℕ)) ^ 2))) :=
    (tendsto_finsetSum Finset.univ fun i _ => ((hlim i).sub_const _).pow 2).sqrt
  have hlt : Real.sqrt (∑ i, ((![1 / 4, (10 ^ 10 + 3) / (4 * 10 ^ 10 + 8), (10 ^ 10 + 1) / (4 * 10 ^ 10 + 8), 1 / 4] : Fin 4 → ℝ) i - 1 / (4 : ℕ)) ^ 2) < 1 / 10 ^ 8 := by
    rw [Real.sqrt_lt' (by norm_num)]
    simp [Fin.sum_univ_four]
    norm_num
  filter_upwards [hnorm.eventually (gt_mem_nhds hlt), hford, eventually_ge_atTop 1] with n hn hf hn1
  have ht := Ford.table (firstTables_nonneg hX ω n) hf (by norm_num)
  have hn0 : (n : ℝ) ≠ 0 := by
    have : n ≠ 0 := by omega
    exact_mod_cast this
  rw [next_scale hn0] at hn
  have hloop := loop_first ht hsp hn.le
  rw [← Bt.start_vec (by norm_num)] at hloop
  refine ⟨next (firstTables (X · ω) n) fun _ => (1 : ℝ) / (4 : ℕ), fun r => ⟨fun hr => Bt.loop_det hr hloop, fun hr => hr ▸ hloop⟩, fun i => ?_⟩
  refine lt_of_le_of_lt ?_ hn
  have e : (1 / 4 : ℝ) = 1 / (4 : ℕ) := by norm_num
  rw [e]
  refine Real.le_sqrt_of_sq_le ?_
  rw [sq_abs]
  exact Finset.single_le_sum (f := fun i => (next (firstTables (X · ω) n) (fun _ => (1 : ℝ) / (4 : ℕ)) i - 1 / (4 : ℕ)) ^ 2)
    (fun i _ => sq_nonneg _) (Finset.mem_univ i)

/-! ## examples -/

/-- one random number decides all comparisons of an observer -/
noncomputable def draw (w : Fin M → Fin M → ℝ) (p : Fin M → ℝ) (u : ℝ) : Fin M → Fin M → ℝ := fun i j =>
  w i j * (if i < j then Set.indicator (Set.Iic (p i / (p i + p j))) 1 u
    else if j < i then 1 - Set.indicator (Set.Iic (p j / (p i + p j))) 1 u else 1 / 2)

theorem draw_measurable : Measurable (draw w p) := by
  refine measurable_pi_iff.mpr fun i => measurable_pi_iff.mpr fun j => ?_
  unfold draw
  have h : ∀ a : ℝ, Measurable (Set.indicator (Set.Iic a) (1 : ℝ → ℝ)) := fun a => measurable_one.indicator measurableSet_Iic
  split_ifs
  · exact (h _).const_mul _
  · exact ((h _).const_sub _).const_mul _
  · exact measurable_const

/-- such contests exist for every design and all strengths; their observers split the comparisons of a video with itself evenly -/
theorem contest_exists (hw : Linked w) (hp : PosProb p) : ∃ (Ω : Type) (_ : MeasurableSpace Ω) (P : Measure Ω) (_ : IsProbabilityMeasure P)
    (X : ℕ → Ω → Fin M → Fin M → ℝ), Contest P w p X ∧ ∀ t ω i, X t ω i i = w i i * (1 / 2) := by
  have hprob : IsProbabilityMeasure ((volume : Measure ℝ).restrict (Set.Icc 0 1)) := ⟨by simp⟩
  obtain ⟨Ω, mΩ, P, U, h1, h2, h3, h4⟩ := exists_iid ℕ ((volume : Measure ℝ).restrict (Set.Icc 0 1))
  have hb : ∀ a u : ℝ, 0 ≤ Set.indicator (Set.Iic a) (1 : ℝ → ℝ) u ∧ Set.indicator (Set.Iic a) (1 : ℝ → ℝ) u ≤ 1 := by
    intro a u
    by_cases h : u ∈ Set.Iic a <;> simp [h]
  have hE : ∀ a : ℝ, 0 ≤ a → a ≤ 1 → ∫ ω, Set.indicator (Set.Iic a) (1 : ℝ → ℝ) (U 0 ω) ∂P = a := by
    intro a h0 ha
    have e := integral_map (μ := P) (h1 0).aemeasurable (f := Set.indicator (Set.Iic a) (1 : ℝ → ℝ))
      (measurable_one.indicator measurableSet_Iic).aestronglyMeasurable
    rw [← e, (h2 0).map_eq, integral_indicator_one measurableSet_Iic, measureReal_restrict_apply measurableSet_Iic]
    have : Set.Iic a ∩ Set.Icc 0 1 = Set.Icc 0 a := by
      ext x
      simp only [Set.mem_inter_iff, Set.mem_Iic, Set.mem_Icc]
      constructor
      · rintro ⟨a, b, c⟩
        exact ⟨b, a⟩
      · rintro ⟨b, a⟩
        exact ⟨a, b, by linarith⟩
    rw [this, Real.volume_real_Icc, sub_zero, max_eq_left h0]
  have hI : ∀ a : ℝ, Integrable (fun ω => Set.indicator (Set.Iic a) (1 : ℝ → ℝ) (U 0 ω)) P := by
    intro a
    refine Integrable.of_bound (((measurable_one.indicator measurableSet_Iic).comp (h1 0)).aestronglyMeasurable) 1 (Eventually.of_forall fun ω => ?_)
    rw [Real.norm_eq_abs, abs_of_nonneg (hb _ _).1]
    exact (hb _ _).2
  refine ⟨Ω, mΩ, P, h4, fun t ω => draw w p (U t ω), ⟨fun i j => ?_, fun s t h => (h3.indepFun h).comp draw_measurable draw_measurable,
    fun t => ((h2 t).identDistrib (h2 0)).comp draw_measurable, fun t ω i j => ?_, fun i j => ?_⟩, fun t ω i => by simp [draw]⟩
  · unfold draw
    split_ifs
    · exact (hI _).const_mul _
    · exact ((integrable_const _).sub (hI _)).const_mul _
    · exact integrable_const _
  · unfold draw
    refine mul_nonneg (hw.nonneg i j) ?_
    split_ifs
    · exact (hb _ _).1
    · exact sub_nonneg.mpr (hb _ _).2
    · norm_num
  · have a := hp.pos i
    have b := hp.pos j
    unfold draw
    split_ifs with hij hji
    · rw [integral_const_mul, hE _ (by positivity) ((div_le_one (by positivity)).mpr (by linarith))]
    · rw [integral_const_mul, integral_sub (integrable_const _) (hI _), hE _ (by positivity) ((div_le_one (by positivity)).mpr (by linarith))]
      congr 1
      simp
      field_simp
      ring
    · have : i = j := le_antisymm (not_lt.mp hji) (not_lt.mp hij)
      subst this
      simp
      left
      field_simp
      norm_num

/-- a design for three videos: 0 and 1 are compared by every observer, 1 and 2 twice, 0 and 2 never -/
def chainDesign : Fin 3 → Fin 3 → ℝ := ![![0, 1, 0], ![1, 0, 2], ![0, 2, 0]]

theorem chainDesign_linked : Linked chainDesign := by
  have e01 : (0 : ℝ) < chainDesign 0 1 := by simp [chainDesign]
  have e10 : (0 : ℝ) < chainDesign 1 0 := by simp [chainDesign]
  have e12 : (0 : ℝ) < chainDesign 1 2 := by simp [chainDesign]
  have e21 : (0 : ℝ) < chainDesign 2 1 := by simp [chainDesign]
  have to1 : ∀ i, Relation.ReflTransGen (fun i j => 0 < chainDesign i j) i 1 := by
    intro i
    fin_cases i
    · exact .single e01
    · exact .refl
    · exact .single e21
  have from1 : ∀ j, Relation.ReflTransGen (fun i j => 0 < chainDesign i j) 1 j := by
    intro j
    fin_cases j
    · exact .single e10
    · exact .refl
    · exact .single e12
  refine ⟨fun i j => ?_, fun i j => ?_, fun i j => (to1 i).trans (from1 j)⟩ <;> fin_cases i <;> fin_cases j <;> simp [chainDesign]

/-- the hypotheses of `C153_mle` and `C153_passes` are met -/
example : Linked chainDesign ∧ PosProb ![(1 / 2 : ℝ), 1 / 3, 1 / 6] ∧ ∃ (Ω : Type) (_ : MeasurableSpace Ω) (P : Measure Ω) (_ : IsProbabilityMeasure P)
    (X : ℕ → Ω → Fin 3 → Fin 3 → ℝ), Contest P chainDesign ![1 / 2, 1 / 3, 1 / 6] X := by
  have hp : PosProb ![(1 / 2 : ℝ), 1 / 3, 1 / 6] := by
    constructor
    · intro i
      fin_cases i <;> simp
    · simp [Fin.sum_univ_three]
      norm_num
  obtain ⟨Ω, mΩ, P, hP, X, hX, -⟩ := contest_exists chainDesign_linked hp
  exact ⟨chainDesign_linked, hp, Ω, mΩ, P, hP, X, hX⟩

/-- the hypotheses of `C153_reported_refuted` are met -/
example : ∃ (Ω : Type) (_ : MeasurableSpace Ω) (P : Measure Ω) (_ : IsProbabilityMeasure P) (X : ℕ → Ω → Fin 4 → Fin 4 → ℝ),
    Contest P (slowDesign 1) ![3 / 8, 3 / 8, 1 / 8, 1 / 8] X := by
  obtain ⟨Ω, mΩ, P, hP, X, hX, -⟩ := contest_exists (slowDesign_linked one_pos) slow_mle.1
  exact ⟨Ω, mΩ, P, hP, X, hX⟩

/-- the hypotheses of `C153_two_partial` are met -/
example : ∃ (Ω : Type) (_ : MeasurableSpace Ω) (P : Measure Ω) (_ : IsProbabilityMeasure P) (X : ℕ → Ω → Fin 2 → Fin 2 → ℝ),
    Linked ![![(0 : ℝ), 1], ![1, 0]] ∧ PosProb ![(2 / 3 : ℝ), 1 / 3] ∧ Contest P ![![0, 1], ![1, 0]] ![2 / 3, 1 / 3] X ∧ ∀ t ω i, X t ω i i = 0 := by
  have hp : PosProb ![(2 / 3 : ℝ), 1 / 3] := by
    constructor
    · intro i
      fin_cases i <;> simp
    · simp [Fin.sum_univ_two]
      norm_num
  have hw : Linked ![![(0 : ℝ), 1], ![1, 0]] := by
    refine ⟨fun i j => ?_, fun i j => ?_, fun i j => ?_⟩ <;> fin_cases i <;> fin_cases j
    any_goals simp
    · exact .refl
    · exact .single (by simp)
    · exact .single (by simp)
    · exact .refl
  obtain ⟨Ω, mΩ, P, hP, X, hX, hd⟩ := contest_exists hw hp
  refine ⟨Ω, mΩ, P, hP, X, hw, hp, hX, fun t ω i => ?_⟩
  rw [hd]
  fin_cases i <;> simp

end Sureal.Props
