import Mathlib.Probability.Distributions.Gaussian.Multivariate
import Mathlib.Analysis.Complex.Isometry
import Mathlib.Analysis.SpecialFunctions.Complex.Circle
import Mathlib.Analysis.SpecialFunctions.Trigonometric.Basic

/-! Two independent standard normal numbers: a cone around an axis that is wider than 45° has probability at least a quarter,
as four turned copies of it cover the plane. -/

namespace Sureal.Lemmas
open MeasureTheory ProbabilityTheory

theorem cone_aux {c p q : ℝ} (hc0 : 0 ≤ c) (hc : c ^ 2 < 2 * c + 1) (hq : 0 ≤ q) (hpq : q ≤ p) (h1 : p ≤ c * q)
    (h2 : p + q ≤ c * (p - q)) : p = 0 ∧ q = 0 := by
  have h3 : 0 ≤ (c ^ 2 - 2 * c - 1) * q := by
    have : (1 + c) * q ≤ (c - 1) * p := by linarith
    rcases le_total c 1 with h | h
    · have : (c - 1) * p ≤ 0 := mul_nonpos_of_nonpos_of_nonneg (by linarith) (by linarith)
      have : 0 ≤ (1 + c) * q := by positivity
      have : q = 0 := by nlinarith
      simp [this]
    · have : (c - 1) * p ≤ (c - 1) * (c * q) := mul_le_mul_of_nonneg_left h1 (by linarith)
      nlinarith
  have hq0 : q = 0 := by
    by_contra hne
    have : 0 < q := lt_of_le_of_ne hq (Ne.symm hne)
    nlinarith
  subst hq0
  exact ⟨by linarith, rfl⟩

theorem cone_cover {c a b : ℝ} (hc0 : 0 ≤ c) (hc : c ^ 2 < 2 * c + 1) (h1 : |a| ≤ c * |b|) (h2 : |b| ≤ c * |a|)
    (h3 : |a + b| ≤ c * |a - b|) (h4 : |a - b| ≤ c * |a + b|) : a = 0 ∧ b = 0 := by
  have key : (|a + b| = |a| + |b| ∧ |a - b| = abs (|a| - |b|)) ∨ (|a - b| = |a| + |b| ∧ |a + b| = abs (|a| - |b|)) := by
    rcases le_total 0 a with ha | ha <;> rcases le_total 0 b with hb | hb
    · left
      rw [abs_of_nonneg ha, abs_of_nonneg hb, abs_of_nonneg (add_nonneg ha hb)]
      simp
    · right
      rw [abs_of_nonneg ha, abs_of_nonpos hb, abs_of_nonneg (by linarith)]
      simp [sub_eq_add_neg]
    · right
      rw [abs_of_nonpos ha, abs_of_nonneg hb, abs_of_nonpos (by linarith)]
      refine ⟨by ring, ?_⟩
      rw [← abs_neg]
      congr 1
      ring
    · left
      rw [abs_of_nonpos ha, abs_of_nonpos hb, abs_of_nonpos (by linarith)]
      refine ⟨by ring, ?_⟩
      rw [← abs_neg]
      congr 1
      ring
  have h5 : |a| + |b| ≤ c * abs (|a| - |b|) := by
    rcases key with ⟨e1, e2⟩ | ⟨e1, e2⟩
    · rw [← e1, ← e2]
      exact h3
    · rw [← e1, ← e2]
      exact h4
  have pa := abs_nonneg a
  have pb := abs_nonneg b
  have : |a| = 0 ∧ |b| = 0 := by
    rcases le_total (|b|) (|a|) with h | h
    · rw [abs_of_nonneg (by linarith : (0 : ℝ) ≤ |a| - |b|)] at h5
      exact cone_aux hc0 hc pb h h1 h5
    · rw [abs_of_nonpos (by linarith : |a| - |b| ≤ (0 : ℝ))] at h5
      exact (cone_aux hc0 hc pa h h2 (by linarith)).symm
  exact ⟨abs_eq_zero.mp this.1, abs_eq_zero.mp this.2⟩

/-- the cone around the real axis -/
def cone (c : ℝ) : Set ℂ := {z | c * |z.im| < |z.re|}

theorem cone_measurable (c : ℝ) : MeasurableSet (cone c) :=
  measurableSet_lt (by fun_prop) (by fun_prop)

theorem turn (t : ℝ) (s : Set ℂ) (hs : MeasurableSet s) :
    stdGaussian ℂ ((fun z => (⟨Real.cos t * z.re - Real.sin t * z.im, Real.cos t * z.im + Real.sin t * z.re⟩ : ℂ)) ⁻¹' s) =
      stdGaussian ℂ s := by
  have h := stdGaussian_map (rotation (Circle.exp t))
  have e : ⇑(rotation (Circle.exp t)) =
      fun z : ℂ => (⟨Real.cos t * z.re - Real.sin t * z.im, Real.cos t * z.im + Real.sin t * z.re⟩ : ℂ) := by
    funext z
    rw [rotation_apply, Circle.coe_exp]
    apply Complex.ext <;> simp [Complex.exp_re, Complex.exp_im]
  conv_rhs => rw [← h]
  rw [Measure.map_apply (rotation (Circle.exp t)).continuous.measurable hs, e]

theorem cone_quarter {c : ℝ} (hc0 : 0 ≤ c) (hc : c ^ 2 < 2 * c + 1) : 1 / 4 ≤ stdGaussian ℂ {z | c * |z.re - z.im| < |z.re + z.im|} := by
  have hs2 : (0 : ℝ) < √2 := by positivity
  set A := cone c with hA
  set B : Set ℂ := {z | c * |z.re| < |z.im|} with hB
  set C : Set ℂ := {z | c * |z.re + z.im| < |z.re - z.im|} with hC
  set D : Set ℂ := {z | c * |z.re - z.im| < |z.re + z.im|} with hD
  have mA : MeasurableSet A := cone_measurable c
  have mC : MeasurableSet C := measurableSet_lt (by fun_prop) (by fun_prop)
  have eB : stdGaussian ℂ B = stdGaussian ℂ A := by
    rw [← turn (Real.pi / 2) A mA]
    congr 1
    ext z
    simp [hA, hB, cone]
  have eC : stdGaussian ℂ C = stdGaussian ℂ A := by
    rw [← turn (Real.pi / 4) A mA]
    congr 1
    ext z
    simp only [hA, hC, cone, Set.mem_preimage, Set.mem_ofPred_eq, Real.cos_pi_div_four, Real.sin_pi_div_four]
    rw [← mul_sub, ← mul_add, abs_mul, abs_mul, abs_of_pos (by positivity : (0 : ℝ) < √2 / 2), mul_left_comm,
      mul_lt_mul_iff_right₀ (by positivity), add_comm]
  have eD : stdGaussian ℂ D = stdGaussian ℂ A := by
    rw [← eC, ← turn (Real.pi / 2) C mC]
    congr 1
    ext z
    simp only [hC, hD, Set.mem_preimage, Set.mem_ofPred_eq, Real.cos_pi_div_two, Real.sin_pi_div_two]
    have e1 : |0 * z.re - 1 * z.im + (0 * z.im + 1 * z.re)| = |z.re - z.im| := by
      congr 1
      ring
    have e2 : |0 * z.re - 1 * z.im - (0 * z.im + 1 * z.re)| = |z.re + z.im| := by
      rw [← abs_neg]
      congr 1
      ring
    rw [e1, e2]
  have h0 : stdGaussian ℂ {0} = 0 := by
    rw [stdGaussian_eq_map_pi_orthonormalBasis Complex.orthonormalBasisOneI,
      Measure.map_apply (by fun_prop) (measurableSet_singleton _)]
    have := nullSingletonClass_gaussianReal (μ := 0) (v := 1) one_ne_zero
    refine measure_mono_null (t := {x | x 0 = 0}) ?_ (Measure.pi_hyperplane _ 0 0)
    intro x hx
    have := congrArg Complex.re (Set.mem_singleton_iff.mp hx)
    simpa [Fin.sum_univ_two] using this
  have hu : (Set.univ : Set ℂ) ⊆ {0} ∪ (A ∪ B ∪ (C ∪ D)) := by
    intro z _
    by_contra hz
    simp only [Set.mem_union, not_or, hA, hB, hC, hD, cone, Set.mem_ofPred_eq, not_lt, Set.mem_singleton_iff] at hz
    obtain ⟨hz0, ⟨h1, h2⟩, h3, h4⟩ := hz
    have := cone_cover hc0 hc h1 h2 h4 h3
    exact hz0 (Complex.ext this.1 this.2)
  have h1 : (1 : ENNReal) ≤ 4 * stdGaussian ℂ A := by
    calc (1 : ENNReal) = stdGaussian ℂ Set.univ := (measure_univ).symm
      _ ≤ stdGaussian ℂ ({0} ∪ (A ∪ B ∪ (C ∪ D))) := measure_mono hu
      _ ≤ stdGaussian ℂ {0} + (stdGaussian ℂ A + stdGaussian ℂ B + (stdGaussian ℂ C + stdGaussian ℂ D)) :=
          (measure_union_le _ _).trans (add_le_add le_rfl ((measure_union_le _ _).trans
            (add_le_add (measure_union_le _ _) (measure_union_le _ _))))
      _ = 4 * stdGaussian ℂ A := by
          rw [h0, eB, eC, eD]
          ring
  rw [eD, ENNReal.div_le_iff (by norm_num) (by norm_num), mul_comm]
  exact h1

variable {Ω : Type*} [MeasurableSpace Ω] {P : Measure Ω} [IsProbabilityMeasure P]

theorem pair_law {Z : Fin 2 → Ω → ℝ} (hZ : ∀ i, HasLaw (Z i) (gaussianReal 0 1) P) (hi : iIndepFun Z P) :
    P.map (fun ω => (⟨Z 0 ω, Z 1 ω⟩ : ℂ)) = stdGaussian ℂ := by
  rw [stdGaussian_eq_map_pi_orthonormalBasis Complex.orthonormalBasisOneI]
  have h := (iIndepFun_iff_map_fun_eq_pi_map fun i => (hZ i).aemeasurable).mp hi
  simp_rw [(hZ _).map_eq] at h
  rw [← h, AEMeasurable.map_map_of_aemeasurable
    (by fun_prop : Measurable fun x : Fin 2 → ℝ => ∑ i, x i • Complex.orthonormalBasisOneI i).aemeasurable (aemeasurable_pi_lambda _ fun i => (hZ i).aemeasurable)]
  congr 1
  funext ω
  apply Complex.ext <;> simp [Fin.sum_univ_two]

/-- of two normal votes, the mean is further than `c` standard errors from the expectation with probability at least `1/4` -/
theorem two_normals {X : Fin 2 → Ω → ℝ} {m : ℝ} {v : NNReal} (hv : v ≠ 0) (hX : ∀ i, HasLaw (X i) (gaussianReal m v) P)
    (hi : iIndepFun X P) {c : ℝ} (hc0 : 0 ≤ c) (hc : c ^ 2 < 2 * c + 1) :
    1 / 4 ≤ P {ω | c * |X 0 ω - X 1 ω| < |X 0 ω + X 1 ω - 2 * m|} := by
  have hv0 : (0 : ℝ) < v := by positivity
  have hs : (0 : ℝ) < √(v : ℝ) := Real.sqrt_pos.mpr hv0
  set Z : Fin 2 → Ω → ℝ := fun i ω => (X i ω - m) / √(v : ℝ) with hZd
  have hZ : ∀ i, HasLaw (Z i) (gaussianReal 0 1) P := by
    intro i
    have h := gaussianReal_div_const (gaussianReal_sub_const (hX i) m) (√(v : ℝ))
    have e : v / v = 1 := div_self hv
    simpa [e, sub_self, hZd] using h
  have hZi : iIndepFun Z P := hi.comp (fun _ x => (x - m) / √(v : ℝ)) (fun _ => by fun_prop)
  have hU : AEMeasurable (fun ω => (⟨Z 0 ω, Z 1 ω⟩ : ℂ)) P := by
    have e : (fun ω => (⟨Z 0 ω, Z 1 ω⟩ : ℂ)) = fun ω => ((Z 0 ω : ℂ) + (Z 1 ω : ℂ) * Complex.I) := by
      funext ω
      apply Complex.ext <;> simp
    rw [e]
    have := (hZ 0).aemeasurable
    have := (hZ 1).aemeasurable
    fun_prop
  have h := cone_quarter hc0 hc
  rw [← pair_law hZ hZi, Measure.map_apply_of_aemeasurable hU (measurableSet_lt (by fun_prop) (by fun_prop))] at h
  refine h.trans (le_of_eq ?_)
  congr 1
  ext ω
  simp only [Set.mem_preimage, Set.mem_ofPred_eq, hZd]
  rw [← sub_div, ← add_div, abs_div, abs_div, abs_of_pos hs, mul_div_assoc', div_lt_div_iff_of_pos_right hs]
  have e1 : X 0 ω - m - (X 1 ω - m) = X 0 ω - X 1 ω := by ring
  have e2 : X 0 ω - m + (X 1 ω - m) = X 0 ω + X 1 ω - 2 * m := by ring
  rw [e1, e2]

end Sureal.Lemmas
