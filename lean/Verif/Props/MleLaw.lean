import Verif.Props.MleSym
import Mathlib.MeasureTheory.Group.MeasurableEquiv
import Mathlib.MeasureTheory.Integral.Bochner.Basic
import Mathlib.MeasureTheory.Constructions.BorelSpace.Real
import Mathlib.MeasureTheory.Measure.Dirac
/-!
# C126: the errors of the maximum likelihood models have a symmetric distribution
-/
set_option linter.unusedSectionVars false
namespace Sureal.Props
open Sureal Spec Mle MeasureTheory
variable {κ : Type} {E S R : ℕ}

/-- the noise of an experiment: a number for each video, observer and repetition -/
abbrev Noise (E S R : ℕ) : Type := Fin E → Fin S → Fin R → ℝ

/-- the readers of all experiments with qualities `q` and present votes `P`: only the noise differs -/
structure Experiments (rd : Noise E S R → Reader κ ℝ) (P : Fin E → Fin S → Fin R → Bool) (q : Fin E → ℝ) (id : Fin E → Int) (refs : List Int) :
    Prop where
  scores : ∀ n, (rd n).scores = .ok ⟨E, S, R, fun e s r => mask (P e s r) (q e + n e s r)⟩
  contents : ∀ n, (rd n).disVideos.map (·.contentId) = List.ofFn id
  references : ∀ n, (rd n).dataset.refVideos.map (·.contentId) = refs
  observers : ∀ n, (∃ l, (rd n).observers = .ok l) ∨ (rd n).observers = .error .assertion

/-- **C126.**  The run on the noise `-n` raises the exception of the run on the noise `n`, or each of its qualities is as much too high as that of the run on `n` is
too low, each bias is the negative, and all other parameters and standard deviations are the same. -/
theorem C126_mirrored_noise (mode : Mode) (rd : Noise E S R → Reader κ ℝ) (P : Fin E → Fin S → Fin R → Bool) (q : Fin E → ℝ) (id : Fin E → Int)
    (refs : List Int) (h : Experiments rd P q id refs) (z : Flag) (g pdf : Option String) (thr : Option (Fl ℝ)) (o : Mle.Opts ℝ)
    (ho : o = { base := { forceSubjbiasZeromean := z }, gradientMethod := g, numericalPdf := pdf, deltaThr := thr })
    (hpdf : pdf ≠ some "uniform") (n : Noise E S R) (hg : g = some "original" ∨ g = some "numerical" ∨ VariancesStayPositive mode (rd n) o) :
    (∃ e, Mle.run mode (rd n) o = .error e ∧ Mle.run mode (rd (-n)) o = .error e) ∨
    ∃ (res res' : Result κ ℝ) (y : Fin E → Fl ℝ) (b : Fin S → Fl ℝ), Mle.run mode (rd n) o = .ok res ∧ Mle.run mode (rd (-n)) o = .ok res' ∧
      res.qualityScores = List.ofFn y ∧ res'.qualityScores = List.ofFn (fun e => -(y e + .fin (-(2 * q e)))) ∧
      res.observerBias = (if mode = .subjectOblivious then none else some (List.ofFn b)) ∧
      res'.observerBias = (if mode = .subjectOblivious then none else some (List.ofFn fun s => -b s)) ∧
      res'.qualityScoresStd = res.qualityScoresStd ∧ res'.observerInconsistency = res.observerInconsistency ∧
      res'.contentAmbiguity = res.contentAmbiguity := by
  let x : Fin E → Fin S → Fin R → Fl ℝ := fun e s r => mask (P e s r) (q e + n e s r)
  let mid : Reader κ ℝ := { rd n with scores := .ok ⟨E, S, R, fun e s r => x (Equiv.refl _ e) (Equiv.refl _ s) r + .fin (-(2 * q e))⟩ }
  have hclean : ∀ e s r, NumOrNan (x e s r) := by
    intro e s r
    show NumOrNan (mask (P e s r) _)
    cases P e s r
    · exact Or.inl rfl
    · exact Or.inr ⟨_, rfl⟩
  have h1 := C125_symmetry mode (rd n) mid (h.observers n) (h.observers n) x hclean (Equiv.refl _) (Equiv.refl _) (fun e => -(2 * q e))
    (h.scores n) rfl id (h.contents n) (h.contents n) rfl z g pdf thr o ho (Or.inr ⟨hpdf, hg⟩)
  have hlen : mid.disVideos.length = E := by
    have := congrArg List.length (h.contents n)
    simpa using this
  have hsc : (rd (-n)).scores = .ok ⟨E, S, R, fun e s r => -(x (Equiv.refl _ e) (Equiv.refl _ s) r + .fin (-(2 * q e)))⟩ := by
    rw [h.scores (-n)]
    congr 2
    funext e s r
    show mask (P e s r) (q e + -n e s r) = -(mask (P e s r) (q e + n e s r) + .fin (-(2 * q e)))
    cases P e s r
    · rfl
    · show Fl.fin _ = Fl.fin _
      congr 1
      ring
  have h2 := C125_mirror mode mid (rd (-n)) (h.observers n) (h.observers (-n)) _ rfl hsc hlen
    ((h.contents (-n)).trans (h.contents n).symm) ((h.references (-n)).trans (h.references n).symm) z g pdf hpdf thr o ho
  rcases h1 with ⟨e, he, he'⟩ | ⟨res, res', y, sq, w, b, sb, v, sv, r1, r2, q1, q2, s1, s2, -, -, b1, b2, -, -, v1, v2, -, -, a1, -⟩
  · rcases h2 with ⟨e', g1, g2⟩ | ⟨_, _, g1, _⟩
    · have := Except.error.inj (he'.symm.trans g1)
      subst this
      exact Or.inl ⟨e, he, g2⟩
    · rw [he'] at g1; cases g1
  · rcases h2 with ⟨e', g1, g2⟩ | ⟨m1, m2, g1, g2, gq, gb, gs, -, -, gv, -, ga, -⟩
    · rw [r2] at g1; cases g1
    · have := Except.ok.inj (r2.symm.trans g1)
      subst this
      refine Or.inr ⟨res, m2, y, b, r1, g2, q1, ?_, b1, ?_, ?_, ?_, ?_⟩
      · rw [gq, q2, List.map_ofFn]
        rfl
      · rw [gb, b2]
        split
        · rfl
        · show some (List.map _ _) = _
          rw [List.map_ofFn]
          rfl
      · rw [gs, s2, s1]
        rfl
      · rw [gv, v2, v1]
        rfl
      · rw [ga, a1]

/-- the run on these votes reports numbers as qualities and they are `y` -/
def Reports (mode : Mode) (rd : Reader κ ℝ) (o : Mle.Opts ℝ) (y : Fin E → ℝ) : Prop :=
  ∃ res, Mle.run mode rd o = .ok res ∧ res.qualityScores = List.ofFn fun e => .fin (y e)

/-- the run on these votes reports numbers as biases and they are `b` -/
def ReportsBiases (mode : Mode) (rd : Reader κ ℝ) (o : Mle.Opts ℝ) (b : Fin S → ℝ) : Prop :=
  ∃ res, Mle.run mode rd o = .ok res ∧ res.observerBias = some (List.ofFn fun s => .fin (b s))

section
variable (mode : Mode) (rd : Noise E S R → Reader κ ℝ) (P : Fin E → Fin S → Fin R → Bool) (q : Fin E → ℝ) (id : Fin E → Int)
    (refs : List Int) (h : Experiments rd P q id refs) (z : Flag) (g pdf : Option String) (thr : Option (Fl ℝ)) (o : Mle.Opts ℝ)
    (ho : o = { base := { forceSubjbiasZeromean := z }, gradientMethod := g, numericalPdf := pdf, deltaThr := thr })
    (hpdf : pdf ≠ some "uniform")
include h ho hpdf

theorem reports_mirrored (n : Noise E S R) (hg : g = some "original" ∨ g = some "numerical" ∨ VariancesStayPositive mode (rd n) o) (y : Fin E → ℝ)
    (hy : Reports mode (rd n) o y) : Reports mode (rd (-n)) o fun e => 2 * q e - y e := by
  obtain ⟨res, hr, hq⟩ := hy
  rcases C126_mirrored_noise mode rd P q id refs h z g pdf thr o ho hpdf n hg with ⟨e, he, _⟩ | ⟨r1, r2, y', b, g1, g2, k1, k2, -⟩
  · rw [hr] at he; cases he
  · have := Except.ok.inj (hr.symm.trans g1)
    subst this
    have hy' := List.ofFn_injective (k1.symm.trans hq)
    refine ⟨r2, g2, ?_⟩
    rw [k2, hy']
    congr 1
    funext e
    show Fl.fin _ = Fl.fin _
    congr 1
    ring

theorem biases_mirrored (n : Noise E S R) (hg : g = some "original" ∨ g = some "numerical" ∨ VariancesStayPositive mode (rd n) o) (b : Fin S → ℝ)
    (hb : ReportsBiases mode (rd n) o b) : ReportsBiases mode (rd (-n)) o fun s => -b s := by
  obtain ⟨res, hr, hq⟩ := hb
  rcases C126_mirrored_noise mode rd P q id refs h z g pdf thr o ho hpdf n hg with ⟨e, he, _⟩ | ⟨r1, r2, y', b', g1, g2, -, -, k1, k2, -⟩
  · rw [hr] at he; cases he
  · have := Except.ok.inj (hr.symm.trans g1)
    subst this
    by_cases hm : mode = .subjectOblivious
    · rw [if_pos hm] at k1; rw [k1] at hq; cases hq
    · rw [if_neg hm] at k1 k2
      have hb' := List.ofFn_injective (Option.some.inj (k1.symm.trans hq))
      refine ⟨r2, g2, ?_⟩
      rw [k2, hb']
      rfl

variable (μ : Measure (Noise E S R)) (hμ : μ.map (fun n => -n) = μ)
  (hg : g = some "original" ∨ g = some "numerical" ∨ ∀ᵐ n ∂μ, VariancesStayPositive mode (rd n) o)
include hμ hg

omit h ho hpdf hg in
/-- sets that correspond to each other under the change of all signs have the same measure -/
theorem measure_mirror (A B : Set (Noise E S R)) (hAB : ∀ᵐ n ∂μ, n ∈ A ↔ -n ∈ B) : μ A = μ B := by
  have h1 : μ A = μ ((fun n => -n) ⁻¹' B) := measure_congr (by filter_upwards [hAB] with n hn; exact propext hn)
  rw [h1]
  have hmp : MeasurePreserving (MeasurableEquiv.neg (Noise E S R)) μ μ := ⟨(MeasurableEquiv.neg _).measurable, hμ⟩
  exact hmp.measure_preimage_equiv B

omit h ho hpdf in
theorem method_ae : ∀ᵐ n ∂μ, (g = some "original" ∨ g = some "numerical" ∨ VariancesStayPositive mode (rd n) o) ∧
    (g = some "original" ∨ g = some "numerical" ∨ VariancesStayPositive mode (rd (-n)) o) := by
  rcases hg with hg | hg | hg
  · exact Filter.Eventually.of_forall fun n => ⟨Or.inl hg, Or.inl hg⟩
  · exact Filter.Eventually.of_forall fun n => ⟨Or.inr (Or.inl hg), Or.inr (Or.inl hg)⟩
  · have h2 : ∀ᵐ n ∂μ, VariancesStayPositive mode (rd (-n)) o := by
      have hmp : MeasurePreserving (MeasurableEquiv.neg (Noise E S R)) μ μ := ⟨(MeasurableEquiv.neg _).measurable, hμ⟩
      exact hmp.quasiMeasurePreserving.ae hg
    filter_upwards [hg, h2] with n h1 h2
    exact ⟨Or.inr (Or.inr h1), Or.inr (Or.inr h2)⟩

/-- **C126.**  The votes are the qualities `q` plus noise, some votes may be missing, and the distribution `μ` of the noise does not change when all signs are
changed.  Then the joint distribution of the errors of the reported qualities is symmetric. -/
theorem C126_qualities (A : Set (Fin E → ℝ)) :
    μ {n | ∃ y, Reports mode (rd n) o y ∧ (fun e => y e - q e) ∈ A} = μ {n | ∃ y, Reports mode (rd n) o y ∧ (fun e => q e - y e) ∈ A} := by
  apply measure_mirror μ hμ
  filter_upwards [method_ae mode rd g o μ hμ hg] with n hn
  constructor
  · rintro ⟨y, hy, hA⟩
    refine ⟨_, reports_mirrored mode rd P q id refs h z g pdf thr o ho hpdf n hn.1 y hy, ?_⟩
    convert hA using 2
    ring
  · rintro ⟨y, hy, hA⟩
    have := reports_mirrored mode rd P q id refs h z g pdf thr o ho hpdf (-n) hn.2 y hy
    rw [neg_neg] at this
    refine ⟨_, this, ?_⟩
    convert hA using 2
    ring

/-- **C126.**  So is the joint distribution of the reported biases. -/
theorem C126_biases (A : Set (Fin S → ℝ)) :
    μ {n | ∃ b, ReportsBiases mode (rd n) o b ∧ b ∈ A} = μ {n | ∃ b, ReportsBiases mode (rd n) o b ∧ (fun s => -b s) ∈ A} := by
  apply measure_mirror μ hμ
  filter_upwards [method_ae mode rd g o μ hμ hg] with n hn
  constructor
  · rintro ⟨b, hb, hA⟩
    refine ⟨_, biases_mirrored mode rd P q id refs h z g pdf thr o ho hpdf n hn.1 b hb, ?_⟩
    convert hA using 2
    ring
  · rintro ⟨b, hb, hA⟩
    have := biases_mirrored mode rd P q id refs h z g pdf thr o ho hpdf (-n) hn.2 b hb
    rw [neg_neg] at this
    exact ⟨_, this, hA⟩

/-- **C126.**  A quality is reported too high as often as too low. -/
theorem C126_median (e : Fin E) :
    μ {n | ∃ y, Reports mode (rd n) o y ∧ q e < y e} = μ {n | ∃ y, Reports mode (rd n) o y ∧ y e < q e} := by
  have := C126_qualities mode rd P q id refs h z g pdf thr o ho hpdf μ hμ hg {d | 0 < d e}
  simpa only [Set.mem_setOf_eq, sub_pos] using this

/-- **C126.**  The expectation of a reported quality is the quality, provided that the models report almost surely and that the expectation exists. -/
theorem C126_unbiased [IsProbabilityMeasure μ] (est : Noise E S R → Fin E → ℝ) (hest : ∀ᵐ n ∂μ, Reports mode (rd n) o (est n)) (e : Fin E)
    (hint : Integrable (fun n => est n e) μ) : ∫ n, est n e ∂μ = q e := by
  have hmp : MeasurePreserving (MeasurableEquiv.neg (Noise E S R)) μ μ := ⟨(MeasurableEquiv.neg _).measurable, hμ⟩
  have h1 : ∫ n, est (-n) e ∂μ = ∫ n, est n e ∂μ := hmp.integral_comp' (g := fun n => est n e)
  have hest' : ∀ᵐ n ∂μ, Reports mode (rd (-n)) o (est (-n)) := hmp.quasiMeasurePreserving.ae hest
  have h2 : ∫ n, est (-n) e ∂μ = ∫ n, (2 * q e - est n e) ∂μ := by
    apply integral_congr_ae
    filter_upwards [hest, hest', method_ae mode rd g o μ hμ hg] with n k1 k2 hn
    obtain ⟨r1, p1, p2⟩ := reports_mirrored mode rd P q id refs h z g pdf thr o ho hpdf n hn.1 _ k1
    obtain ⟨r2, p3, p4⟩ := k2
    have := Except.ok.inj (p1.symm.trans p3)
    subst this
    have := congrFun (List.ofFn_injective (p4.symm.trans p2)) e
    exact Fl.fin.inj this
  rw [integral_sub (integrable_const _) hint, integral_const] at h2
  rw [h1] at h2
  simp at h2
  linarith
end

/-! ### an example: the quality 1, and the noise is 0 and 2 or 0 and -2 with probability one half each, so that the votes are 1, 3 or 1, -1 -/

def exNoise : Noise 1 2 1 := fun _ s _ => if s = 0 then 0 else 2

noncomputable def exLaw : Measure (Noise 1 2 1) := (2⁻¹ : ENNReal) • (Measure.dirac exNoise + Measure.dirac (-exNoise))

noncomputable def exExperiment (n : Noise 1 2 1) : Reader String ℝ :=
  { exMleReader with scores := .ok ⟨1, 2, 1, fun e s r => mask true (1 + n e s r)⟩ }

theorem exExperiments : Experiments exExperiment (fun _ _ _ => true) (fun _ => 1) (fun _ => 0) [0] :=
  ⟨fun _ => rfl, fun _ => rfl, fun _ => rfl, fun _ => Or.inr rfl⟩

theorem exLaw_symmetric : exLaw.map (fun n => -n) = exLaw := by
  unfold exLaw
  rw [Measure.map_smul, Measure.map_add _ _ measurable_neg, Measure.map_dirac' measurable_neg, Measure.map_dirac' measurable_neg, neg_neg, add_comm]

instance : IsProbabilityMeasure exLaw := ⟨by
  unfold exLaw
  rw [Measure.smul_apply, Measure.add_apply, measure_univ, measure_univ, smul_eq_mul, one_add_one_eq_two]
  exact ENNReal.inv_mul_cancel (by norm_num) (by norm_num)⟩

theorem exNoise_reader : exExperiment exNoise = exMleReader := by
  have h : (fun e s r => mask true (1 + exNoise e s r)) = exVotes := by
    funext e s r
    unfold exVotes exNoise mask
    simp only [if_true]
    split
    · rw [add_zero]
    · norm_num
  show ({ exMleReader with scores := .ok ⟨1, 2, 1, fun e s r => mask true (1 + exNoise e s r)⟩ } : Reader String ℝ) = _
  rw [h]
  rfl

theorem exNoise_reports : Reports .default (exExperiment exNoise) { gradientMethod := some "original" } (fun _ : Fin 1 => 2) := by
  obtain ⟨res, hr, -, hq, -⟩ := ex_run
  refine ⟨res, ?_, hq⟩
  rw [exNoise_reader]
  exact (C34_methods .default exMleReader {} ex_positive).trans hr

/-- the other noise leads to the report 0 -/
theorem exNoise_mirrored : Reports .default (exExperiment (-exNoise)) { gradientMethod := some "original" } (fun _ : Fin 1 => 0) := by
  have := reports_mirrored .default exExperiment _ _ _ _ exExperiments none (some "original") none none _ rfl (by decide) exNoise (Or.inl rfl) _ exNoise_reports
  simpa using this

/-- the reported quality -/
noncomputable def exEst (n : Noise 1 2 1) (_ : Fin 1) : ℝ := 1 + n 0 1 0 / 2

theorem exLaw_ae {p : Noise 1 2 1 → Prop} (h1 : p exNoise) (h2 : p (-exNoise)) : ∀ᵐ n ∂exLaw, p n := by
  unfold exLaw
  refine Measure.ae_smul_measure ?_ _
  rw [ae_add_measure_iff]
  exact ⟨by rw [ae_dirac_eq]; exact h1, by rw [ae_dirac_eq]; exact h2⟩

/-- all hypotheses hold: the report is 2 or 0, and on average it is 1 -/
example : ∫ n, exEst n 0 ∂exLaw = 1 := by
  refine C126_unbiased .default exExperiment _ _ _ _ exExperiments none (some "original") none none _ rfl (by decide) exLaw exLaw_symmetric (Or.inl rfl) exEst ?_ 0 ?_
  · apply exLaw_ae
    · convert exNoise_reports using 2
      unfold exEst exNoise
      norm_num
    · convert exNoise_mirrored using 2
      unfold exEst exNoise
      norm_num
  · unfold exLaw
    refine Integrable.smul_measure ?_ (by simp)
    exact (integrable_dirac (by simp)).add_measure (integrable_dirac (by simp))

/-- the event that the quality is reported too high is not null -/
example : exLaw {n | ∃ y : Fin 1 → ℝ, Reports .default (exExperiment n) { gradientMethod := some "original" } y ∧ 1 < y 0} ≠ 0 := by
  intro h0
  have h1 : exLaw {exNoise} = 0 := measure_mono_null (by
    rintro n rfl
    exact ⟨_, exNoise_reports, by norm_num⟩) h0
  unfold exLaw at h1
  rw [Measure.smul_apply, Measure.add_apply, Measure.dirac_apply_of_mem (Set.mem_singleton _), smul_eq_mul] at h1
  simp at h1

end Sureal.Props
