import Verif.Spec.Uniform
import Verif.Model.Mle
import Verif.Lemmas.Fl
import Mathlib.Analysis.Convolution
import Mathlib.MeasureTheory.Integral.Bochner.Set
import Mathlib.Tactic.FieldSimp
import Mathlib.Tactic.Linarith
import Mathlib.Tactic.Positivity
/-! The density of a sum of uniforms in closed form. -/
namespace Sureal
open Spec MeasureTheory

theorem uniform_integrable (loc s : ℝ) : Integrable (uniformPdf loc s) := by
  unfold uniformPdf
  rw [integrable_indicator_iff measurableSet_Icc]
  exact integrableOn_const (by simp)

theorem uniform_integral (loc : ℝ) {s : ℝ} (h : 0 < s) : ∫ t, uniformPdf loc s t = 1 := by
  unfold uniformPdf
  rw [integral_indicator measurableSet_Icc, setIntegral_const]
  rw [measureReal_def, Real.volume_Icc, ENNReal.toReal_ofReal (by linarith)]
  rw [smul_eq_mul]
  field_simp
  ring

theorem sumOfUniforms_integral (loc1 loc2 : ℝ) {s1 s2 : ℝ} (h1 : 0 < s1) (h2 : 0 < s2) :
    ∫ x, sumOfUniforms loc1 s1 loc2 s2 x = 1 := by
  have := integral_convolution (ContinuousLinearMap.mul ℝ ℝ) (μ := volume) (ν := volume)
    (uniform_integrable loc1 s1) (uniform_integrable loc2 s2)
  rw [uniform_integral loc1 h1, uniform_integral loc2 h2] at this
  simpa [convolution_def, sumOfUniforms] using this

theorem sumOfUniforms_closed (loc1 s1 loc2 s2 x : ℝ) :
    sumOfUniforms loc1 s1 loc2 s2 x =
      max 0 (min (loc1 + s1 / 2) (x - loc2 + s2 / 2) - max (loc1 - s1 / 2) (x - loc2 - s2 / 2)) * (1 / s1 * (1 / s2)) := by
  unfold sumOfUniforms
  have hfun : (fun t => uniformPdf loc1 s1 t * uniformPdf loc2 s2 (x - t)) =
      Set.indicator (Set.Icc (max (loc1 - s1 / 2) (x - loc2 - s2 / 2)) (min (loc1 + s1 / 2) (x - loc2 + s2 / 2)))
        (fun _ => 1 / s1 * (1 / s2)) := by
    funext t
    unfold uniformPdf
    simp only [Set.indicator_apply, Set.mem_Icc, max_le_iff, le_min_iff]
    by_cases ha : loc1 - s1 / 2 ≤ t ∧ t ≤ loc1 + s1 / 2 <;> by_cases hb : loc2 - s2 / 2 ≤ x - t ∧ x - t ≤ loc2 + s2 / 2
    · rw [if_pos ha, if_pos hb, if_pos]
      exact ⟨⟨ha.1, by linarith⟩, ⟨ha.2, by linarith⟩⟩
    · rw [if_pos ha, if_neg hb, if_neg, mul_zero]
      rintro ⟨⟨_, h1⟩, ⟨_, h2⟩⟩
      exact hb ⟨by linarith, by linarith⟩
    · rw [if_neg ha, zero_mul, if_neg]
      rintro ⟨⟨h1, _⟩, ⟨h2, _⟩⟩
      exact ha ⟨h1, h2⟩
    · rw [if_neg ha, zero_mul, if_neg]
      rintro ⟨⟨h1, _⟩, ⟨h2, _⟩⟩
      exact ha ⟨h1, h2⟩
  rw [hfun, integral_indicator measurableSet_Icc, setIntegral_const, measureReal_def, Real.volume_Icc, smul_eq_mul]
  congr 1
  rw [ENNReal.toReal_ofReal', max_comm]

/-- the closed form in terms of `z`, the half-difference and the half-sum of the widths -/
noncomputable def trapezoid (s1 s2 z : ℝ) : ℝ :=
  if |z| ≤ |s1 - s2| / 2 then 2 / (|s1 - s2| + (s1 + s2))
  else if |z| < (s1 + s2) / 2 then ((s1 + s2) / 2 - |z|) * (1 / s1 * (1 / s2))
  else 0

theorem inv_max {s1 s2 : ℝ} : 2 / (|s1 - s2| + (s1 + s2)) = 1 / max s1 s2 := by
  rcases le_total s1 s2 with h | h
  · rw [abs_of_nonpos (by linarith), max_eq_right h]
    rw [show -(s1 - s2) + (s1 + s2) = 2 * s2 by ring]
    rcases eq_or_ne s2 0 with e | e
    · subst e; simp
    · field_simp
  · rw [abs_of_nonneg (by linarith), max_eq_left h]
    rw [show (s1 - s2) + (s1 + s2) = 2 * s1 by ring]
    rcases eq_or_ne s1 0 with e | e
    · subst e; simp
    · field_simp

theorem sumOfUniforms_trapezoid (loc1 loc2 x : ℝ) {s1 s2 : ℝ} (h1 : 0 < s1) (h2 : 0 < s2) :
    sumOfUniforms loc1 s1 loc2 s2 x = trapezoid s1 s2 (x - loc1 - loc2) := by
  rw [sumOfUniforms_closed]
  unfold trapezoid
  rw [inv_max]
  have key : min (loc1 + s1 / 2) (x - loc2 + s2 / 2) - max (loc1 - s1 / 2) (x - loc2 - s2 / 2) =
      min (min s1 s2) ((s1 + s2) / 2 - |x - loc1 - loc2|) := by
    rcases le_total s1 s2 with h | h
    · rw [min_eq_left h]
      rcases le_total 0 (x - loc1 - loc2) with hz | hz
      · rw [abs_of_nonneg hz, min_eq_left (by linarith)]
        rcases le_total (loc1 - s1 / 2) (x - loc2 - s2 / 2) with h' | h'
        · rw [max_eq_right h', min_eq_right (by linarith)]; ring
        · rw [max_eq_left h', min_eq_left (by linarith)]; ring
      · rw [abs_of_nonpos hz, max_eq_left (by linarith)]
        rcases le_total (loc1 + s1 / 2) (x - loc2 + s2 / 2) with h' | h'
        · rw [min_eq_left h', min_eq_left (by linarith)]; ring
        · rw [min_eq_right h', min_eq_right (by linarith)]; ring
    · rw [min_eq_right h]
      rcases le_total 0 (x - loc1 - loc2) with hz | hz
      · rw [abs_of_nonneg hz, max_eq_right (by linarith)]
        rcases le_total (loc1 + s1 / 2) (x - loc2 + s2 / 2) with h' | h'
        · rw [min_eq_left h', min_eq_right (by linarith)]; ring
        · rw [min_eq_right h', min_eq_left (by linarith)]; ring
      · rw [abs_of_nonpos hz, min_eq_right (by linarith)]
        rcases le_total (loc1 - s1 / 2) (x - loc2 - s2 / 2) with h' | h'
        · rw [max_eq_right h', min_eq_left (by linarith)]; ring
        · rw [max_eq_left h', min_eq_right (by linarith)]; ring
  rw [key]
  generalize hz : |x - loc1 - loc2| = z
  have hz0 : 0 ≤ z := hz ▸ abs_nonneg _
  rcases le_total s1 s2 with h | h
  · rw [min_eq_left h, max_eq_right h, abs_of_nonpos (sub_nonpos.mpr h)]
    split
    · rw [min_eq_left (by linarith), max_eq_right h1.le]; field_simp
    · rw [min_eq_right (by linarith)]
      split
      · rw [max_eq_right (by linarith)]
      · rw [max_eq_left (by linarith), zero_mul]
  · rw [min_eq_right h, max_eq_left h, abs_of_nonneg (sub_nonneg.mpr h)]
    split
    · rw [min_eq_left (by linarith), max_eq_right h2.le]; field_simp
    · rw [min_eq_right (by linarith)]
      split
      · rw [max_eq_right (by linarith)]
      · rw [max_eq_left (by linarith), zero_mul]

/-- the code on numbers, branch by branch -/
noncomputable def convReal (x z s1 s2 : ℝ) : ℝ :=
  let d := |s1 - s2|
  let s := s1 + s2
  let h := 2 / (d + s)
  if -s / 2 ≤ z ∧ z < -d / 2 then h / (-d / 2 - -s / 2) * (x - -s / 2)
  else if -d / 2 ≤ z ∧ z < d / 2 then h
  else if d / 2 ≤ z ∧ z < s / 2 then h / (d / 2 - s / 2) * (x - s / 2)
  else 0

theorem Fl.abs_fin (a : ℝ) : (Fl.fin a).abs = Fl.fin |a| := by
  show (if a < 0 then Fl.fin (-a) else Fl.fin a) = _
  split
  · rename_i h; rw [abs_of_neg h]
  · rename_i h; rw [abs_of_nonneg (not_lt.mp h)]

theorem convUniforms_fin (x loc1 loc2 : ℝ) {s1 s2 : ℝ} (h1 : 0 < s1) (h2 : 0 < s2) :
    convUniforms (Fl.fin x) (.fin loc1) (.fin s1) (.fin loc2) (.fin s2) = Fl.fin (convReal x (x - loc1 - loc2) s1 s2) := by
  have hd : |s1 - s2| < s1 + s2 := by rw [abs_lt]; constructor <;> linarith
  have h2' : ((2 : Nat) : Fl ℝ) = Fl.fin 2 := rfl
  have hsum : |s1 - s2| + (s1 + s2) ≠ 0 := by positivity
  unfold convUniforms convReal
  simp only [h2', Fl.fin_sub, Fl.fin_add, Fl.fin_neg, Fl.abs_fin, Fl.fin_div hsum, Fl.fin_div (two_ne_zero (α := ℝ)),
    Fl.le_fin, Fl.lt_fin, Bool.and_eq_true, decide_eq_true_eq, Fl.zero_def]
  rw [Fl.fin_div (by intro h; linarith : -|s1 - s2| / 2 - -(s1 + s2) / 2 ≠ 0),
    Fl.fin_div (by intro h; linarith : |s1 - s2| / 2 - (s1 + s2) / 2 ≠ 0)]
  simp only [Fl.fin_mul, Fl.fin_add, sub_zero, add_zero]
  split
  · rfl
  · split
    · rfl
    · split <;> rfl

theorem slope_eq {s1 s2 : ℝ} (h1 : 0 < s1) (h2 : 0 < s2) :
    2 / (|s1 - s2| + (s1 + s2)) / (((s1 + s2) - |s1 - s2|) / 2) = 1 / s1 * (1 / s2) := by
  have hd : |s1 - s2| < s1 + s2 := by rw [abs_lt]; constructor <;> linarith
  have hd0 : 0 ≤ |s1 - s2| := abs_nonneg _
  have hprod : (|s1 - s2| + (s1 + s2)) * ((s1 + s2) - |s1 - s2|) = 4 * (s1 * s2) := by
    have : |s1 - s2| * |s1 - s2| = (s1 - s2) * (s1 - s2) := abs_mul_abs_self _
    nlinarith
  have hpos : 0 < (s1 + s2) - |s1 - s2| := by linarith
  rw [div_div, div_mul_div_comm, one_mul, div_eq_div_iff (by positivity) (by positivity)]
  linarith

/-- the code is the trapezoid plus an error on the slopes -/
theorem convReal_eq (x z : ℝ) {s1 s2 : ℝ} (h1 : 0 < s1) (h2 : 0 < s2) : convReal x z s1 s2 = trapezoid s1 s2 z +
    (if -(s1 + s2) / 2 ≤ z ∧ z < -|s1 - s2| / 2 then (x - z) * (1 / s1 * (1 / s2))
     else if |s1 - s2| / 2 ≤ z ∧ z < (s1 + s2) / 2 then (z - x) * (1 / s1 * (1 / s2)) else 0) := by
  have hs := slope_eq h1 h2
  have hd : |s1 - s2| < s1 + s2 := by rw [abs_lt]; constructor <;> linarith
  have hd0 : 0 ≤ |s1 - s2| := abs_nonneg _
  have e1 : -|s1 - s2| / 2 - -(s1 + s2) / 2 = ((s1 + s2) - |s1 - s2|) / 2 := by ring
  have e2 : |s1 - s2| / 2 - (s1 + s2) / 2 = -(((s1 + s2) - |s1 - s2|) / 2) := by ring
  have hedge : 2 / (|s1 - s2| + (s1 + s2)) = ((s1 + s2) / 2 - |s1 - s2| / 2) * (1 / s1 * (1 / s2)) := by
    rw [← hs]
    have : ((s1 + s2) - |s1 - s2|) / 2 ≠ 0 := by intro h; linarith
    rw [show (s1 + s2) / 2 - |s1 - s2| / 2 = ((s1 + s2) - |s1 - s2|) / 2 by ring, mul_div_cancel₀ _ this]
  unfold convReal trapezoid
  simp only [e1, e2, div_neg, hs]
  generalize 1 / s1 * (1 / s2) = c at *
  rw [hedge]
  generalize |s1 - s2| = d at *
  by_cases a : -(s1 + s2) / 2 ≤ z ∧ z < -d / 2
  · have hz : |z| = -z := abs_of_neg (by linarith [a.2])
    rw [if_pos a, if_pos a, hz, if_neg (by linarith [a.2])]
    split
    · ring
    · have : z = -(s1 + s2) / 2 := by linarith [a.1]
      rw [this]; ring
  · rw [if_neg a, if_neg a]
    by_cases b : -d / 2 ≤ z ∧ z < d / 2
    · have hz : |z| ≤ d / 2 := by rw [abs_le]; constructor <;> linarith [b.1, b.2]
      have hr : ¬ (d / 2 ≤ z ∧ z < (s1 + s2) / 2) := fun h => by linarith [h.1, b.2]
      rw [if_pos b, if_pos hz, if_neg hr]
      ring
    · rw [if_neg b]
      by_cases c' : d / 2 ≤ z ∧ z < (s1 + s2) / 2
      · have hz : |z| = z := abs_of_nonneg (by linarith [c'.1])
        rw [if_pos c', if_pos c', hz]
        split
        · have : z = d / 2 := by linarith [c'.1]
          rw [this]; ring
        · rw [if_pos c'.2]; ring
      · rw [if_neg c', if_neg c']
        have hz : (s1 + s2) / 2 ≤ |z| := by
          rw [le_abs]
          by_cases h0 : (s1 + s2) / 2 ≤ z
          · exact Or.inl h0
          · right
            by_contra hn
            push Not at hn h0
            have h3 : z < d / 2 := by by_contra h; push Not at h; exact c' ⟨h, h0⟩
            have h4 : z < -d / 2 := by by_contra h; push Not at h; exact b ⟨h, h3⟩
            exact a ⟨by linarith, h4⟩
        rw [if_neg (by linarith), if_neg (by linarith)]
        ring

end Sureal
