import Verif.Props.Rounding
import Verif.Model.SampleStats
import Mathlib.Algebra.Order.Floor.Ring
/-!
# C116: the number of observers drawn by `get_sample_stats`, in floating-point arithmetic
-/
set_option linter.unusedSectionVars false
namespace Sureal.Props
open Spec Routine

/-- how many of `1, ..., n` do not exceed a limit between two neighbours -/
theorem countP_upto (n k : ℕ) (hk : k ≤ n) (p : ℕ → Bool) (h : ∀ i < n, p i = true ↔ i < k) : (List.range n).countP p = k := by
  induction n generalizing k with
  | zero => simp; omega
  | succ n ih =>
    rw [List.range_succ, List.countP_append]
    have hn := h n (by omega)
    rcases Nat.lt_or_ge n k with hlt | hge
    · have : k = n + 1 := by omega
      subst this
      rw [ih n le_rfl fun i hi => by rw [h i (by omega)]; omega]
      simp [hn]
    · rw [ih k (by omega) fun i hi => h i (by omega)]
      have : p n = false := by
        rw [← Bool.not_eq_true, hn]; omega
      simp [this]

section
variable {F : Type} [Field F] [LinearOrder F] [IsStrictOrderedRing F] [MathFn F] {ρ : F → F} {N : ℕ}

/-- the number is the whole part of the rounded product -/
theorem fracNum_rd (h : Rounds ρ N) (n k : ℕ) (hn : n ≤ N) (hk : k ≤ n) (f : F) (h1 : (k : F) ≤ ρ (n * f)) (h2 : k < n → ρ (n * f) < k + 1) :
    fracNum n (.fin (⟨f⟩ : Rd ρ)) = k := by
  have hc : ∀ i : ℕ, i ≤ N → ρ (i : F) = i := by
    intro i hi
    have := h.whole (i : ℤ) (by rw [abs_of_nonneg (by positivity)]; exact_mod_cast hi)
    simpa using this
  unfold fracNum
  refine countP_upto n k hk _ fun i hi => ?_
  change decide (ρ ((i + 1 : ℕ) : F) ≤ ρ (ρ (n : F) * f)) = true ↔ _
  rw [decide_eq_true_iff, hc _ (by omega), hc n hn]
  constructor
  · intro hle
    by_contra hcon
    have h3 := h2 (by omega)
    have : (k : F) ≤ i := by exact_mod_cast (by omega : k ≤ i)
    push_cast at hle
    linarith
  · intro hlt
    refine le_trans ?_ h1
    exact_mod_cast hlt

/-- **C116, one off at most.** Of `n` observers and the double `f`, the number drawn is `n f` rounded down or up; `n f` itself if this is whole. -/
theorem C116_bounds (h : Rounds ρ N) (n : ℕ) (hn : n ≤ N) (f : F) (h0 : 0 < f) (h1 : f ≤ 1) :
    ((fracNum n (.fin (⟨f⟩ : Rd ρ)) : ℕ) : F) < n * f + 1 ∧ n * f < (fracNum n (.fin (⟨f⟩ : Rd ρ)) : ℕ) + 1 := by
  have hc : ∀ i : ℕ, i ≤ N → ρ (i : F) = i := by
    intro i hi
    have := h.whole (i : ℤ) (by rw [abs_of_nonneg (by positivity)]; exact_mod_cast hi)
    simpa using this
  have hnf0 : 0 ≤ (n : F) * f := by positivity
  have hnf1 : (n : F) * f ≤ n := by
    have : (0 : F) ≤ n := by positivity
    nlinarith
  have hr1 : ρ (n * f) ≤ n := by
    have := h.mono hnf1
    rwa [hc n hn] at this
  have hr0 : 0 ≤ ρ (n * f) := by
    have := h.mono hnf0
    have h00 := hc 0 (by omega)
    rw [Nat.cast_zero] at h00
    rwa [h00] at this
  -- the largest whole number up to the rounded product
  obtain ⟨k, hk, h3, h4⟩ : ∃ k ≤ n, (k : F) ≤ ρ (n * f) ∧ (k < n → ρ (n * f) < k + 1) := by
    clear hnf0 hnf1 hn
    have key : ∀ m ≤ n, ∃ k ≤ m, (k : F) ≤ ρ (n * f) ∧ (k < m → ρ (n * f) < k + 1) := by
      intro m
      induction m with
      | zero => exact fun _ => ⟨0, le_rfl, by simpa using hr0, by omega⟩
      | succ m ih =>
        intro hm
        obtain ⟨k, hk, h3, h4⟩ := ih (by omega)
        rcases lt_or_ge (ρ (n * f)) ((m : F) + 1) with hlt | hge
        · rcases Nat.lt_or_ge k m with hkm | hkm
          · exact ⟨k, by omega, h3, fun _ => h4 hkm⟩
          · have : k = m := by omega
            subst this
            exact ⟨k, by omega, h3, fun _ => hlt⟩
        · exact ⟨m + 1, le_rfl, by push_cast; exact hge, by omega⟩
    exact key n le_rfl
  rw [fracNum_rd h n k hn hk f h3 h4]
  constructor
  · -- if `n f + 1 ≤ k` the rounded product would not exceed `k - 1`
    by_contra hcon
    push Not at hcon
    have hk1 : 1 ≤ k := by
      by_contra hc
      have : k = 0 := by omega
      subst this
      rw [Nat.cast_zero] at hcon
      linarith
    have : (n : F) * f ≤ ((k - 1 : ℕ) : F) := by rw [Nat.cast_sub hk1, Nat.cast_one]; linarith
    have := h.mono this
    rw [hc (k - 1) (by omega), Nat.cast_sub hk1, Nat.cast_one] at this
    linarith
  · rcases hk.lt_or_eq with hlt | rfl
    · have h5 := h4 hlt
      by_contra hcon
      push Not at hcon
      have : ((k + 1 : ℕ) : F) ≤ n * f := by push_cast; exact hcon
      have := h.mono this
      rw [hc (k + 1) (by omega)] at this
      push_cast at this
      linarith
    · linarith

/-- **C116, away from whole numbers.** If `n f` keeps from whole numbers the distance that rounding `f` and rounding the product can bridge, the number drawn is the whole part of `n f`. -/
theorem C116_floor_partial (h : Rounds ρ N) {u : F} (hu : 0 ≤ u) (hu1 : u ≤ 1) (hru : RelErr ρ u) (n k : ℕ) (hn : n ≤ N) (f : F) (h0 : 0 < f) (h1 : f ≤ 1)
    (hk : (k : F) ≤ (1 - u) ^ 2 * (n * f)) (hk' : (1 + u) ^ 2 * (n * f) < k + 1) : fracNum n (.fin (⟨ρ f⟩ : Rd ρ)) = k := by
  have hn0 : (0 : F) ≤ n := by positivity
  have rel : ∀ {y : F}, 0 ≤ y → (1 - u) * y ≤ ρ y ∧ ρ y ≤ (1 + u) * y := by
    intro y hy
    have := abs_le.mp (hru y)
    rw [abs_of_nonneg hy] at this
    constructor <;> linarith [this.1, this.2]
  obtain ⟨a1, a2⟩ := rel h0.le
  have hf0 : 0 ≤ ρ f := le_trans (mul_nonneg (by linarith) h0.le) a1
  obtain ⟨b1, b2⟩ := rel (mul_nonneg hn0 hf0)
  have lo : (1 - u) ^ 2 * (n * f) ≤ ρ (n * ρ f) := by
    calc (1 - u) ^ 2 * (n * f) = (1 - u) * (n * ((1 - u) * f)) := by ring
      _ ≤ (1 - u) * (n * ρ f) := mul_le_mul_of_nonneg_left (mul_le_mul_of_nonneg_left a1 hn0) (by linarith)
      _ ≤ _ := b1
  have hi : ρ (n * ρ f) ≤ (1 + u) ^ 2 * (n * f) := by
    calc ρ (n * ρ f) ≤ (1 + u) * (n * ρ f) := b2
      _ ≤ (1 + u) * (n * ((1 + u) * f)) := mul_le_mul_of_nonneg_left (mul_le_mul_of_nonneg_left a2 hn0) (by linarith)
      _ = _ := by ring
  have hkn : k ≤ n := by
    have h3 : (1 - u) ^ 2 ≤ 1 := pow_le_one₀ (by linarith) (by linarith)
    have h4 : (n : F) * f ≤ n := by nlinarith
    have h5 : (1 - u) ^ 2 * (n * f) ≤ n := by
      have : 0 ≤ (n : F) * f := by positivity
      nlinarith
    exact_mod_cast hk.trans h5
  exact fracNum_rd h n k hn hkn _ (hk.trans lo) fun _ => lt_of_le_of_lt hi hk'

end

/-- **C116, refuted.** 0.29 of 100 observers are 28 observers, and of 49 observers `1 / 49` is none. -/
theorem C116_refuted : fracNum 100 (.fin (⟨binary64 (29 / 100)⟩ : Rd (binary64 : ℚ → ℚ))) = 28 ∧
    fracNum 49 (.fin (⟨binary64 (1 / 49)⟩ : Rd (binary64 : ℚ → ℚ))) = 0 := by
  constructor <;> decide +kernel

/-- the hypotheses of `C116_bounds` and `C116_floor_partial` are met: 0.7 of 24 observers are 16 -/
example : fracNum 24 (.fin (⟨binary64 (7 / 10)⟩ : Rd (binary64 : ℚ → ℚ))) = 16 :=
  haveI := ratMath
  C116_floor_partial binary64_rounds (by positivity) (by norm_num) binary64_err 24 16 (by norm_num) (7 / 10) (by norm_num) (by norm_num) (by norm_num) (by norm_num)

end Sureal.Props
