import Verif.Lemmas.Uniform
/-!
# C67: the convolution of two uniform densities

The function is right when the locations add up to zero, on the flat part and outside the support; on the two slopes it is
wrong whenever they do not, because lines 111 and 117 of `sureal/tools/stats.py` use `x` where `z = x - loc1 - loc2` is meant.
-/
namespace Sureal.Props
open Spec MeasureTheory

/-- the argument is on one of the two slopes of the trapezoid -/
def OnSlope (z s1 s2 : ℝ) : Prop :=
  (-(s1 + s2) / 2 ≤ z ∧ z < -|s1 - s2| / 2) ∨ (|s1 - s2| / 2 ≤ z ∧ z < (s1 + s2) / 2)

/-- C67 (exactly where it holds): the value is the density of the sum of two independent uniform random variables if and only
if the locations add up to zero or the argument is off the slopes.  The full statement has no such condition. -/
theorem C67_density_partial (x loc1 loc2 : ℝ) {s1 s2 : ℝ} (h1 : 0 < s1) (h2 : 0 < s2) :
    convUniforms (Fl.fin x) (.fin loc1) (.fin s1) (.fin loc2) (.fin s2) = .fin (sumOfUniforms loc1 s1 loc2 s2 x) ↔
      loc1 + loc2 = 0 ∨ ¬ OnSlope (x - loc1 - loc2) s1 s2 := by
  rw [convUniforms_fin x loc1 loc2 h1 h2, sumOfUniforms_trapezoid loc1 loc2 x h1 h2, Fl.fin_inj,
    convReal_eq x _ h1 h2, add_eq_left]
  have hc : (1 / s1 * (1 / s2)) ≠ 0 := by positivity
  unfold OnSlope
  generalize hz : x - loc1 - loc2 = z
  by_cases a : -(s1 + s2) / 2 ≤ z ∧ z < -|s1 - s2| / 2
  · rw [if_pos a, mul_eq_zero, or_iff_left hc]
    simp only [a, and_self, true_or, not_true_eq_false, or_false]
    constructor <;> intro h <;> linarith
  · rw [if_neg a]
    by_cases b : |s1 - s2| / 2 ≤ z ∧ z < (s1 + s2) / 2
    · rw [if_pos b, mul_eq_zero, or_iff_left hc]
      simp only [b, and_self, or_true, not_true_eq_false, or_false]
      constructor <;> intro h <;> linarith
    · rw [if_neg b]
      simp only [a, b, or_self, not_false_eq_true, or_true]

/-- the density itself: not negative, symmetric about the sum of the locations, a function of `x - loc1 - loc2`, of total
mass one -/
theorem C67_spec (loc1 loc2 : ℝ) {s1 s2 : ℝ} (h1 : 0 < s1) (h2 : 0 < s2) :
    (∀ x, 0 ≤ sumOfUniforms loc1 s1 loc2 s2 x) ∧
    (∀ u, sumOfUniforms loc1 s1 loc2 s2 (loc1 + loc2 + u) = sumOfUniforms loc1 s1 loc2 s2 (loc1 + loc2 - u)) ∧
    (∀ x, sumOfUniforms loc1 s1 loc2 s2 x = sumOfUniforms 0 s1 0 s2 (x - loc1 - loc2)) ∧
    ∫ x, sumOfUniforms loc1 s1 loc2 s2 x = 1 := by
  refine ⟨?_, ?_, ?_, sumOfUniforms_integral loc1 loc2 h1 h2⟩
  · intro x
    rw [sumOfUniforms_closed]
    have := le_max_left 0 (min (loc1 + s1 / 2) (x - loc2 + s2 / 2) - max (loc1 - s1 / 2) (x - loc2 - s2 / 2))
    positivity
  · intro u
    rw [sumOfUniforms_trapezoid _ _ _ h1 h2, sumOfUniforms_trapezoid _ _ _ h1 h2]
    unfold trapezoid
    rw [show loc1 + loc2 + u - loc1 - loc2 = u by ring, show loc1 + loc2 - u - loc1 - loc2 = -u by ring, abs_neg]
  · intro x
    rw [sumOfUniforms_trapezoid _ _ _ h1 h2, sumOfUniforms_trapezoid _ _ _ h1 h2, sub_zero, sub_zero]

/-- C67 (centred, the documented examples): when both locations are zero the function is a density of total mass one. -/
theorem C67_centred_mass {s1 s2 : ℝ} (h1 : 0 < s1) (h2 : 0 < s2) : ∃ p : ℝ → ℝ,
    (∀ x, convUniforms (Fl.fin x) (.fin 0) (.fin s1) (.fin 0) (.fin s2) = .fin (p x)) ∧ (∀ x, 0 ≤ p x) ∧
    (∀ x, p (-x) = p x) ∧ ∫ x, p x = 1 := by
  obtain ⟨a, b, c, d⟩ := C67_spec 0 0 h1 h2
  refine ⟨sumOfUniforms 0 s1 0 s2, fun x => (C67_density_partial x 0 0 h1 h2).mpr (Or.inl (by ring)), a, ?_, d⟩
  intro x
  have := b x
  simpa using this.symm

/-- C67 is false: with locations -10 and 0 the "density" is negative, and it is not a function of `x - loc1 - loc2`. -/
theorem C67_refuted :
    convUniforms (Fl.fin (-11 : ℝ)) (.fin (-10)) (.fin 1) (.fin 0) (.fin 2) = .fin (-(19 / 4)) ∧
    convUniforms (Fl.fin (-1 : ℝ)) (.fin 0) (.fin 1) (.fin 0) (.fin 2) = .fin (1 / 4) := by
  constructor
  · rw [convUniforms_fin _ _ _ (by norm_num) (by norm_num)]
    congr 1
    unfold convReal
    norm_num [abs_of_neg]
  · rw [convUniforms_fin _ _ _ (by norm_num) (by norm_num)]
    congr 1
    unfold convReal
    norm_num [abs_of_neg]

/-- both sides of `C67_density_partial` occur -/
example : OnSlope (-1) 1 2 ∧ ¬ OnSlope 0 1 2 := by
  unfold OnSlope
  norm_num [abs_of_neg]

end Sureal.Props
