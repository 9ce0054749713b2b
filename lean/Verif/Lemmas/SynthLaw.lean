import Verif.Spec.SynthLaw
import Mathlib.Algebra.BigOperators.Fin
import Mathlib.Tactic.FieldSimp
import Mathlib.Tactic.LinearCombination
/-! # Mean and variance of averages of uncorrelated votes -/
namespace Sureal.SynthLaw
open MeasureTheory Spec
variable {Ω : Type} [MeasurableSpace Ω] {P : Measure Ω} {S : ℕ}

/-- uncorrelated noise of mean 0 and variances `τ` -/
structure Noise (P : Measure Ω) (Y : Fin S → Ω → ℝ) (τ : Fin S → ℝ) : Prop where
  sq : ∀ s, MemLp (Y s) 2 P
  mean : ∀ s, ∫ ω, Y s ω ∂P = 0
  cov : ∀ s t, ∫ ω, Y s ω * Y t ω ∂P = if s = t then τ s else 0

variable [IsProbabilityMeasure P]

theorem noise_of {g : ℕ → Ω → ℝ} (hg : Standard P g) (idx : Fin 3 → Fin S → ℕ)
    (hi : ∀ u s v t, idx u s = idx v t → u = v ∧ s = t) (w : Fin 3 → Fin S → ℝ) :
    Noise P (fun s ω => ∑ u, w u s * g (idx u s) ω) fun s => ∑ u, w u s ^ 2 := by
  have hint : ∀ i, Integrable (g i) P := fun i => (hg.sq i).integrable one_le_two
  have hmul : ∀ i j, Integrable (fun ω => g i ω * g j ω) P := fun i j => (hg.sq i).integrable_mul (hg.sq j)
  refine ⟨?_, ?_, ?_⟩
  · intro s
    exact memLp_finset_sum _ fun u _ => (hg.sq _).const_mul _
  · intro s
    rw [integral_finsetSum _ fun u _ => (hint _).const_mul _]
    refine Finset.sum_eq_zero fun u _ => ?_
    rw [integral_const_mul, hg.mean, mul_zero]
  · intro s t
    have e : (fun ω => (∑ u, w u s * g (idx u s) ω) * ∑ u, w u t * g (idx u t) ω) =
        fun ω => ∑ u, ∑ v, w u s * w v t * (g (idx u s) ω * g (idx v t) ω) := by
      funext ω
      rw [Finset.sum_mul_sum]
      refine Finset.sum_congr rfl fun u _ => Finset.sum_congr rfl fun v _ => ?_
      ring
    rw [e, integral_finsetSum _ fun u _ => integrable_finsetSum _ fun v _ => (hmul _ _).const_mul _]
    have e2 : ∀ u, ∫ ω, ∑ v, w u s * w v t * (g (idx u s) ω * g (idx v t) ω) ∂P = if s = t then w u s ^ 2 else 0 := by
      intro u
      rw [integral_finsetSum _ fun v _ => (hmul _ _).const_mul _]
      simp only [integral_const_mul, hg.cov]
      by_cases hst : s = t
      · subst hst
        rw [if_pos rfl, Finset.sum_eq_single u]
        · rw [if_pos rfl]; ring
        · intro v _ hv
          rw [if_neg fun h => hv (hi _ _ _ _ h).1.symm, mul_zero]
        · intro h; exact absurd (Finset.mem_univ _) h
      · rw [if_neg hst]
        refine Finset.sum_eq_zero fun v _ => ?_
        rw [if_neg fun h => hst (hi _ _ _ _ h).2, mul_zero]
    simp only [e2]
    split_ifs
    · rfl
    · exact Finset.sum_const_zero

/-- average of the noise -/
noncomputable def avg (Y : Fin S → ℝ) : ℝ := (∑ s, Y s) / S

theorem mean_ofFn (x : Fin S → ℝ) : mean (List.ofFn x) = avg x := by
  unfold mean avg
  rw [List.sum_ofFn, List.length_ofFn]

theorem sqDev_ofFn (x : Fin S → ℝ) : sqDev (List.ofFn x) = ∑ s, (x s - avg x) ^ 2 := by
  unfold sqDev
  rw [mean_ofFn, List.map_ofFn, List.sum_ofFn]
  rfl

theorem avg_add (x y : Fin S → ℝ) : avg (fun s => x s + y s) = avg x + avg y := by
  unfold avg
  rw [Finset.sum_add_distrib, add_div]

theorem sqDev_add (hS : S ≠ 0) (c y : Fin S → ℝ) :
    sqDev (List.ofFn fun s => c s + y s) = sqDev (List.ofFn c) + ∑ s, 2 * (c s - avg c) * y s + (∑ s, y s ^ 2 - S * avg y ^ 2) := by
  have hS' : (S : ℝ) ≠ 0 := Nat.cast_ne_zero.mpr hS
  rw [sqDev_ofFn, sqDev_ofFn, avg_add]
  have hc : ∑ s, (c s - avg c) = 0 := by
    rw [Finset.sum_sub_distrib]
    simp only [Finset.sum_const, Finset.card_univ, Fintype.card_fin, nsmul_eq_mul]
    unfold avg
    field_simp
    ring
  have hy : ∑ s, y s = S * avg y := by
    unfold avg
    field_simp
  have e : ∀ s, (c s + y s - (avg c + avg y)) ^ 2 = (c s - avg c) ^ 2 + 2 * (c s - avg c) * y s + y s ^ 2
      - 2 * avg y * (c s - avg c) - 2 * avg y * y s + avg y ^ 2 := fun s => by ring
  simp only [e, Finset.sum_add_distrib, Finset.sum_sub_distrib, ← Finset.mul_sum]
  rw [hy]
  have h2 : ∑ i, c i - ∑ _i : Fin S, avg c = 0 := by rw [← Finset.sum_sub_distrib]; exact hc
  rw [h2]
  simp only [Finset.sum_const, Finset.card_univ, Fintype.card_fin, nsmul_eq_mul]
  ring

section
variable {Y : Fin S → Ω → ℝ} {τ : Fin S → ℝ} (h : Noise P Y τ)
include h

theorem avg_memLp : MemLp (fun ω => avg fun s => Y s ω) 2 P := by
  unfold avg
  simp only [div_eq_inv_mul]
  exact (memLp_finset_sum _ fun s _ => h.sq s).const_mul _

theorem avg_mean : ∫ ω, avg (fun s => Y s ω) ∂P = 0 := by
  unfold avg
  rw [integral_div, integral_finsetSum _ fun s _ => (h.sq s).integrable one_le_two]
  simp [h.mean]

theorem avg_sq : ∫ ω, avg (fun s => Y s ω) ^ 2 ∂P = (∑ s, τ s) / S ^ 2 := by
  have hmul : ∀ s t, Integrable (fun ω => Y s ω * Y t ω) P := fun s t => (h.sq s).integrable_mul (h.sq t)
  have e : (fun ω => avg (fun s => Y s ω) ^ 2) = fun ω => (∑ s, ∑ t, Y s ω * Y t ω) / (S : ℝ) ^ 2 := by
    funext ω
    unfold avg
    rw [div_pow, sq (∑ s, Y s ω), Finset.sum_mul_sum]
  rw [e, integral_div, integral_finsetSum _ fun s _ => integrable_finsetSum _ fun t _ => hmul s t]
  congr 1
  refine Finset.sum_congr rfl fun s _ => ?_
  rw [integral_finsetSum _ fun t _ => hmul s t]
  simp only [h.cov, Finset.sum_ite_eq, Finset.mem_univ, if_true]

variable (hS : S ≠ 0) (c : Fin S → ℝ)

theorem mean_memLp : MemLp (fun ω => mean (List.ofFn fun s => c s + Y s ω)) 2 P := by
  have e : (fun ω => mean (List.ofFn fun s => c s + Y s ω)) = fun ω => avg c + avg fun s => Y s ω := by
    funext ω
    rw [mean_ofFn, avg_add]
  rw [e]
  exact MemLp.add (f := fun _ => avg c) (memLp_const _) (avg_memLp h)

theorem mean_mean : ∫ ω, mean (List.ofFn fun s => c s + Y s ω) ∂P = mean (List.ofFn c) := by
  simp only [mean_ofFn, avg_add]
  rw [integral_add (integrable_const _) ((avg_memLp h).integrable one_le_two), avg_mean h]
  simp

theorem mean_var : ∫ ω, (mean (List.ofFn fun s => c s + Y s ω) - mean (List.ofFn c)) ^ 2 ∂P = (∑ s, τ s) / S ^ 2 := by
  simp only [mean_ofFn, avg_add, add_sub_cancel_left]
  exact avg_sq h

include hS

theorem sqDev_integrable : Integrable (fun ω => sqDev (List.ofFn fun s => c s + Y s ω)) P := by
  simp only [sqDev_add hS]
  refine ((integrable_const _).add (integrable_finsetSum _ fun s _ => ((h.sq s).integrable one_le_two).const_mul _)).add
    ((integrable_finsetSum _ fun s _ => (h.sq s).integrable_sq).sub ((avg_memLp h).integrable_sq.const_mul _))

theorem sqDev_mean : ∫ ω, sqDev (List.ofFn fun s => c s + Y s ω) ∂P = sqDev (List.ofFn c) + (S - 1) / S * ∑ s, τ s := by
  have hS' : (S : ℝ) ≠ 0 := Nat.cast_ne_zero.mpr hS
  simp only [sqDev_add hS]
  have i1 : Integrable (fun ω => ∑ s, 2 * (c s - avg c) * Y s ω) P :=
    integrable_finsetSum _ fun s _ => ((h.sq s).integrable one_le_two).const_mul _
  have i2 : Integrable (fun ω => ∑ s, Y s ω ^ 2) P := integrable_finsetSum _ fun s _ => (h.sq s).integrable_sq
  have i3 : Integrable (fun ω => (S : ℝ) * avg (fun s => Y s ω) ^ 2) P := (avg_memLp h).integrable_sq.const_mul _
  have hsq : ∀ s, ∫ ω, Y s ω ^ 2 ∂P = τ s := by
    intro s
    have := h.cov s s
    rw [if_pos rfl] at this
    simpa only [sq] using this
  have i0 : Integrable (fun ω => sqDev (List.ofFn c) + ∑ s, 2 * (c s - avg c) * Y s ω) P := (integrable_const _).add i1
  have i4 : Integrable (fun ω => ∑ s, Y s ω ^ 2 - (S : ℝ) * avg (fun s => Y s ω) ^ 2) P := i2.sub i3
  rw [integral_add i0 i4, integral_add (integrable_const _) i1, integral_sub i2 i3,
    integral_finsetSum _ fun s _ => ((h.sq s).integrable one_le_two).const_mul _,
    integral_finsetSum _ fun s _ => (h.sq s).integrable_sq, integral_const_mul, avg_sq h]
  simp only [integral_const_mul, h.mean, hsq, mul_zero, Finset.sum_const_zero, add_zero]
  simp only [integral_const, probReal_univ, one_smul]
  field_simp

end
end Sureal.SynthLaw
