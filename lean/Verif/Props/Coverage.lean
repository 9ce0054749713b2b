import Verif.Lemmas.Coverage
import Verif.Lemmas.TwoNormals
import Verif.Lemmas.UnderCoverage
import Verif.Props.Mos
import Mathlib.Probability.HasLawExists
/-! # C121: how often the intervals of mean opinion scores cover the expected vote -/
set_option linter.unusedSectionVars false
namespace Sureal.Props
open Sureal Spec Lemmas MeasureTheory ProbabilityTheory Filter
open scoped Topology
variable {κ : Type}

/-- the interval is `mean ± 1.95996·s/√n` -/
theorem covers_iff_near {rd : Reader κ ℝ} {res : Result κ ℝ} {e : ℕ} {l : List ℝ} (hv : VotesOn rd e l) (h2 : 2 ≤ l.length)
    (hr : runMOS rd {} = .ok res) (x : ℝ) :
    Covers res e x ↔ |mean l - x| ≤ 1.95996 * (√(sampleVar l) / √(l.length : ℝ)) := by
  obtain ⟨a, h, ha, hc, hp⟩ := hv
  obtain ⟨amb, se, lo, hi, _, h3, h4, _, _, rfl, h7, h8⟩ := C12_mos_uncertainty rd a res ha hr hc
  obtain ⟨_, h9, _⟩ := (h8 ⟨e, h⟩ _ rfl).1 (by rw [hp.length_eq]; exact h2)
  have hvar : sampleVar (present (videoCells a.get ⟨e, h⟩)) = sampleVar l := by
    simp only [sampleVar, sqDev_perm hp, hp.length_eq]
  rw [hvar, hp.length_eq] at h9
  have hlo : lo[e]? = some (.fin (1.95996 * (√(sampleVar l) / √(l.length : ℝ)))) := by
    rw [h7, List.getElem?_map, h9]
    norm_num [Fl.fin_mul]
  have hq : res.qualityScores[e]? = some (.fin (mean l)) := by
    rw [runMOS_default ha hr]
    show (List.ofFn (meanAlongS a.get))[e]? = _
    rw [List.getElem?_ofFn, dif_pos h, meanAlongS_spec a.get ⟨e, h⟩ (hc _)]
    unfold meanOrNan
    match hl : present (videoCells a.get ⟨e, h⟩) with
    | [] =>
      rw [hl] at hp
      have := hp.length_eq
      simp at this
      omega
    | y :: ys =>
      rw [hl] at hp
      dsimp only
      rw [mean_perm hp]
  constructor
  · rintro ⟨q, l', u', L, U, c1, c2, c3, c4, c5, c6⟩
    rw [h4] at c2
    cases c2
    rw [hq] at c1
    rw [hlo] at c3 c4
    cases c1; cases c3; cases c4
    rw [abs_le]
    constructor <;> linarith
  · intro hx
    rw [abs_le] at hx
    exact ⟨_, _, _, _, _, hq, h4, hlo, hlo, by linarith, by linarith⟩

variable {Ω : Type*} [MeasurableSpace Ω] {P : Measure Ω} [IsProbabilityMeasure P]

/-- **C121 (partial).** Votes that are independent and identically distributed, with a finite variance other than zero: the
probability that the interval of the mean opinion score of a video covers the expected vote is, for every large enough number of
votes, within a millionth of 95%. -/
theorem C121_coverage_partial (X : ℕ → Ω → ℝ) (hX : MemLp (X 0) 2 P) (hindep : iIndepFun X P)
    (hident : ∀ i, IdentDistrib (X i) (X 0) P P) (hvar : Var[X 0; P] ≠ 0) (e : ℕ) (rd : ℕ → Ω → Reader κ ℝ)
    (res : ℕ → Ω → Result κ ℝ) (hv : ∀ n ≥ 2, ∀ ω, VotesOn (rd n ω) e (firstN (X · ω) n))
    (hr : ∀ n ≥ 2, ∀ ω, runMOS (rd n ω) {} = .ok (res n ω)) :
    ∃ N, ∀ n ≥ N, |P.real {ω | Covers (res n ω) e P[X 0]} - 0.95| < 1 / 10 ^ 6 := by
  have hlim := coverage_limit (c := 1.95996) (by norm_num) hX hindep hident hvar
  have hlim' := (ENNReal.tendsto_toReal (measure_ne_top _ _)).comp hlim
  have hg := gaussian_ci95
  have hev := (Metric.tendsto_nhds.mp hlim') (5 / 10 ^ 7) (by norm_num)
  rw [← eventually_atTop]
  filter_upwards [hev, eventually_ge_atTop 2] with n hn h2
  have e1 : {ω | Covers (res n ω) e P[X 0]} = {ω | |mean (firstN (X · ω) n) - P[X 0]| ≤
      1.95996 * (√(sampleVar (firstN (X · ω) n)) / √(n : ℝ))} := by
    ext ω
    have := covers_iff_near (hv n h2 ω) (by rw [firstN_length]; exact h2) (hr n h2 ω) P[X 0]
    rw [firstN_length] at this
    exact this
  rw [e1]
  rw [Real.dist_eq] at hn
  rw [measureReal_def] at hg ⊢
  have := abs_add_le (a := (P {ω | |mean (firstN (X · ω) n) - P[X 0]| ≤
      1.95996 * (√(sampleVar (firstN (X · ω) n)) / √(n : ℝ))}).toReal - (gaussianReal 0 1 (Set.Icc (-1.95996) 1.95996)).toReal)
      (b := (gaussianReal 0 1 (Set.Icc (-1.95996) 1.95996)).toReal - 0.95)
  rw [sub_add_sub_cancel] at this
  have h10 : (1 : ℝ) / 10 ^ 6 = 5 / 10 ^ 7 + 5 / 10 ^ 7 := by norm_num
  rw [h10]
  exact lt_of_le_of_lt this (add_lt_add hn hg)

/-- **C121 (refuted).** Normal votes: whatever their number, the interval covers the expected vote with a probability below 95%. -/
theorem C121_coverage_refuted (X : ℕ → Ω → ℝ) {m : ℝ} {v : NNReal} (hvar : v ≠ 0) (hlaw : ∀ i, HasLaw (X i) (gaussianReal m v) P)
    (hindep : iIndepFun X P) (n : ℕ) (h2 : 2 ≤ n) (e : ℕ) (rd : Ω → Reader κ ℝ) (res : Ω → Result κ ℝ)
    (hv : ∀ ω, VotesOn (rd ω) e (firstN (X · ω) n)) (hr : ∀ ω, runMOS (rd ω) {} = .ok (res ω)) :
    P[X 0] = m ∧ P.real {ω | Covers (res ω) e m} < 0.95 := by
  refine ⟨by rw [(hlaw 0).integral_eq, integral_id_gaussianReal], ?_⟩
  have e1 : {ω | Covers (res ω) e m} = {ω | |mean (firstN (X · ω) n) - m| ≤
      1.95996 * (√(sampleVar (firstN (X · ω) n)) / √(n : ℝ))} := by
    ext ω
    have := covers_iff_near (hv ω) (by rw [firstN_length]; exact h2) (hr ω) m
    rw [firstN_length] at this
    exact this
  rw [e1]
  exact lt_of_le_of_lt (normal_panel hvar hlaw hindep h2 (by norm_num)) within_ci95

/-- **C121 (refuted).** Of two independent normal votes the interval covers the expected vote with probability at most 3/4. -/
theorem C121_two_votes (X : ℕ → Ω → ℝ) {m : ℝ} {v : NNReal} (hvar : v ≠ 0) (hlaw : ∀ i, HasLaw (X i) (gaussianReal m v) P)
    (hindep : iIndepFun X P) (e : ℕ) (rd : Ω → Reader κ ℝ) (res : Ω → Result κ ℝ)
    (hv : ∀ ω, VotesOn (rd ω) e [X 0 ω, X 1 ω]) (hr : ∀ ω, runMOS (rd ω) {} = .ok (res ω)) :
    P[X 0] = m ∧ P.real {ω | Covers (res ω) e m} ≤ 3 / 4 := by
  refine ⟨by rw [(hlaw 0).integral_eq, integral_id_gaussianReal], ?_⟩
  have h0 := (hlaw 0).aemeasurable
  have h1 := (hlaw 1).aemeasurable
  have hN : NullMeasurableSet {ω | 1.95996 * |X 0 ω - X 1 ω| < |X 0 ω + X 1 ω - 2 * m|} P :=
    nullMeasurableSet_lt (by fun_prop) (by fun_prop)
  have hq := two_normals (X := fun i : Fin 2 => X i) hvar (fun i => hlaw i) (hindep.precomp Fin.val_injective)
    (c := 1.95996) (by norm_num) (by norm_num)
  have e1 : {ω | Covers (res ω) e m} = {ω | 1.95996 * |X 0 ω - X 1 ω| < |X 0 ω + X 1 ω - 2 * m|}ᶜ := by
    ext ω
    have hcov := covers_iff_near (hv ω) (by simp) (hr ω) m
    have e2 : √(sampleVar [X 0 ω, X 1 ω]) / √((2 : ℕ) : ℝ) = |X 0 ω - X 1 ω| / 2 := by
      have : sampleVar [X 0 ω, X 1 ω] = (X 0 ω - X 1 ω) ^ 2 / 2 := by
        simp [sampleVar, sqDev, mean]
        ring
      rw [this, ← Real.sqrt_div (by positivity), ← Real.sqrt_sq (by positivity : 0 ≤ |X 0 ω - X 1 ω| / 2)]
      congr 1
      rw [div_pow, sq_abs]
      push_cast
      ring
    have e3 : |mean [X 0 ω, X 1 ω] - m| = |X 0 ω + X 1 ω - 2 * m| / 2 := by
      rw [← abs_two, ← abs_div]
      congr 1
      simp [mean]
      ring
    rw [show [X 0 ω, X 1 ω].length = 2 from rfl, e2, e3] at hcov
    show Covers (res ω) e m ↔ ¬ (1.95996 * |X 0 ω - X 1 ω| < |X 0 ω + X 1 ω - 2 * m|)
    rw [hcov, not_lt, mul_div_assoc', div_le_div_iff_of_pos_right (by norm_num)]
  rw [e1, measureReal_def, prob_compl_eq_one_sub₀ hN]
  have h4 : (1 : ENNReal) - P {ω | 1.95996 * |X 0 ω - X 1 ω| < |X 0 ω + X 1 ω - 2 * m|} ≤ 1 - 1 / 4 := tsub_le_tsub_left hq 1
  have h5 := ENNReal.toReal_mono (by simp) h4
  refine h5.trans (le_of_eq ?_)
  rw [ENNReal.toReal_sub_of_le (by simp) (by simp)]
  norm_num

/-- a panel of `n` observers who vote once on one video -/
theorem panel_votes (x : ℕ → ℝ) (n : ℕ) :
    VotesOn (arrReader 1 n 1 fun _ s _ => .fin (x s)) 0 (firstN x n) ∧
      ∃ res, runMOS (arrReader 1 n 1 fun _ s _ => .fin (x s)) {} = .ok res := by
  refine ⟨⟨_, Nat.zero_lt_one, rfl, fun _ _ _ => Or.inr ⟨_, rfl⟩, ?_⟩, arrReader_runs _ _ _ _⟩
  refine List.Perm.of_eq ?_
  have key : ∀ (n : ℕ) (g : Fin n → ℝ), (List.ofFn fun s => List.ofFn fun _ : Fin 1 => Fl.fin (g s)).flatten.filterMap Fl.val? = List.ofFn g := by
    intro n
    induction n with
    | zero => intro g; rfl
    | succ n ih =>
      intro g
      rw [List.ofFn_succ, List.ofFn_succ (f := g), List.flatten_cons, List.filterMap_append, ih]
      rfl
  exact key n fun s => x s

/-- normal votes around 3 meet the hypotheses of both theorems -/
example : ∃ (Ω : Type) (_ : MeasurableSpace Ω) (P : Measure Ω) (_ : IsProbabilityMeasure P) (X : ℕ → Ω → ℝ)
    (rd : ℕ → Ω → Reader String ℝ) (res : ℕ → Ω → Result String ℝ),
    MemLp (X 0) 2 P ∧ iIndepFun X P ∧ (∀ i, IdentDistrib (X i) (X 0) P P) ∧ Var[X 0; P] ≠ 0 ∧
      (∀ i, HasLaw (X i) (gaussianReal 3 1) P) ∧ (∀ n ≥ 2, ∀ ω, VotesOn (rd n ω) 0 (firstN (X · ω) n)) ∧
      ∀ n ≥ 2, ∀ ω, runMOS (rd n ω) {} = .ok (res n ω) := by
  obtain ⟨Ω, mΩ, P, X, h1, h2, h3, h4⟩ := exists_iid ℕ (gaussianReal 3 1)
  refine ⟨Ω, mΩ, P, h4, X, fun n ω => arrReader 1 n 1 fun _ s _ => .fin (X s ω),
    fun n ω => (panel_votes (X · ω) n).2.choose, ?_, h3, fun i => (h2 i).identDistrib (h2 0), ?_, h2,
    fun n _ ω => (panel_votes (X · ω) n).1, fun n _ ω => (panel_votes (X · ω) n).2.choose_spec⟩
  · have := (memLp_id_gaussianReal (μ := 3) (v := 1) 2)
    rw [← (h2 0).map_eq] at this
    exact (memLp_map_measure_iff (by fun_prop) (h2 0).aemeasurable).mp this
  · rw [(h2 0).variance_eq, variance_id_gaussianReal]
    simp

end Sureal.Props
