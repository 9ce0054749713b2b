import Verif.Model.Rounded
import Verif.Spec.Rounding
import Mathlib.Tactic.Linarith
import Mathlib.Tactic.Ring
import Mathlib.Tactic.FieldSimp
import Mathlib.Tactic.Positivity
import Mathlib.Tactic.NormNum
/-! Rounding to double precision keeps the order, whole numbers, and has relative error `2^-53`. -/
set_option linter.unusedSectionVars false
namespace Sureal
open Spec
variable {F : Type} [Field F] [LinearOrder F] [IsStrictOrderedRing F] [FloorRing F]

theorem nearestEven_int (n : ℤ) : nearestEven (n : F) = n := by
  unfold nearestEven
  simp

theorem nearestEven_err (x : F) : |(nearestEven x : F) - x| ≤ 1 / 2 := by
  unfold nearestEven
  have h1 := Int.floor_le x
  have h2 := Int.lt_floor_add_one x
  dsimp only
  rw [abs_le]
  split_ifs <;> push_cast <;> constructor <;> linarith

theorem nearestEven_mono : Monotone (nearestEven : F → ℤ) := by
  intro x y h
  have hf := Int.floor_le_floor h
  rcases hf.lt_or_eq with hlt | heq
  · have : nearestEven x ≤ ⌊x⌋ + 1 := by
      unfold nearestEven
      dsimp only
      split_ifs <;> omega
    have : ⌊y⌋ ≤ nearestEven y := by
      unfold nearestEven
      dsimp only
      split_ifs <;> omega
    omega
  · unfold nearestEven
    dsimp only
    rw [heq]
    split_ifs <;> first | omega | (exfalso; linarith)

theorem nearestEven_neg (x : F) : nearestEven (-x) = -nearestEven x := by
  unfold nearestEven
  dsimp only
  rw [Int.floor_neg]
  by_cases hx : (⌊x⌋ : F) = x
  · have : ⌈x⌉ = ⌊x⌋ := by rw [← hx]; simp
    rw [this]
    have e1 : -x - ((-⌊x⌋ : ℤ) : F) = 0 := by push_cast; linarith
    have e2 : x - (⌊x⌋ : F) = 0 := by linarith
    rw [e1, e2]
    simp
  · have hc : ⌈x⌉ = ⌊x⌋ + 1 := by
      rw [Int.ceil_eq_iff]
      have h1 := Int.floor_le x
      have h2 := Int.lt_floor_add_one x
      push_cast
      refine ⟨?_, h2.le⟩
      rw [add_sub_cancel_right]
      exact lt_of_le_of_ne h1 hx
    rw [hc]
    have e1 : -x - ((-(⌊x⌋ + 1) : ℤ) : F) = 1 - (x - ⌊x⌋) := by push_cast; ring
    rw [e1]
    split_ifs <;> first | omega | (exfalso; linarith)

theorem ulp_pos (x : F) : 0 < ulp x := by unfold ulp; positivity

theorem ulp_neg (x : F) : ulp (-x) = ulp x := by unfold ulp; rw [abs_neg]

theorem binary64_neg (x : F) : binary64 (-x) = -binary64 x := by
  unfold binary64
  rw [ulp_neg, neg_div, nearestEven_neg]
  push_cast
  ring

theorem binary64_zero : binary64 (0 : F) = 0 := by
  unfold binary64
  rw [zero_div, show (0 : F) = ((0 : ℤ) : F) by simp, nearestEven_int]
  simp

/-- the relative error is at most `2^-53` -/
theorem binary64_err : RelErr (binary64 : F → F) (2 ^ (-53 : ℤ)) := by
  intro x
  by_cases hx : x = 0
  · subst hx; simp [binary64_zero]
  have hp : 0 < |x| := abs_pos.mpr hx
  have hu := ulp_pos x
  have h1 := nearestEven_err (x / ulp x)
  have h2 : binary64 x - x = ((nearestEven (x / ulp x) : F) - x / ulp x) * ulp x := by
    unfold binary64
    field_simp
  rw [h2, abs_mul, abs_of_pos hu]
  have h3 : (2 : F) ^ Int.log 2 |x| ≤ |x| := by
    have := Int.zpow_log_le_self (R := F) (b := 2) (r := |x|) (by norm_num) hp
    simpa using this
  have h4 : ulp x = 2 ^ (-52 : ℤ) * 2 ^ Int.log 2 |x| := by
    unfold ulp
    rw [← zpow_add₀ (by norm_num)]
    congr 1
    ring
  have h5 : (2 : F) ^ (-53 : ℤ) = 2 ^ (-52 : ℤ) / 2 := by norm_num
  calc |(nearestEven (x / ulp x) : F) - x / ulp x| * ulp x ≤ 1 / 2 * ulp x := by gcongr
    _ = 2 ^ (-53 : ℤ) * 2 ^ Int.log 2 |x| := by rw [h4, h5]; ring
    _ ≤ _ := by gcongr

/-- numbers `m 2^k` with `|m| ≤ 2^53` are doubles -/
theorem binary64_exact (m : ℤ) (k : ℤ) (hm : |m| ≤ 2 ^ 53) : binary64 ((m : F) * 2 ^ k) = m * 2 ^ k := by
  have key : ∀ (m : ℤ) (k : ℤ), |m| < 2 ^ 53 → binary64 ((m : F) * 2 ^ k) = m * 2 ^ k := by
    intro m k hm
    by_cases h0 : m = 0
    · subst h0; simp [binary64_zero]
    set x : F := (m : F) * 2 ^ k with hx
    have hx0 : 0 < |x| := by
      rw [hx]
      exact abs_pos.mpr (mul_ne_zero (by exact_mod_cast h0) (by positivity))
    have hlog : Int.log 2 |x| < k + 53 := by
      rw [← Int.lt_zpow_iff_log_lt (R := F) (b := 2) (by norm_num) hx0, hx, abs_mul, abs_of_pos (show (0 : F) < 2 ^ k by positivity)]
      have : |(m : F)| < 2 ^ 53 := by exact_mod_cast hm
      push_cast
      rw [zpow_add₀ (by norm_num), mul_comm]
      have h53 : (2 : F) ^ (53 : ℤ) = 2 ^ 53 := by norm_cast
      rw [h53]
      gcongr
    obtain ⟨d, hd⟩ : ∃ d : ℕ, k = Int.log 2 |x| - 52 + d := ⟨(k - (Int.log 2 |x| - 52)).toNat, by omega⟩
    have hq : x / ulp x = ((m * 2 ^ d : ℤ) : F) := by
      rw [div_eq_iff (ulp_pos x).ne']
      push_cast
      conv_lhs => rw [hx, hd, zpow_add₀ (by norm_num)]
      unfold ulp
      rw [zpow_natCast]
      ring
    unfold binary64
    rw [hq, nearestEven_int, ← hq]
    exact div_mul_cancel₀ _ (ulp_pos x).ne'
  rcases hm.lt_or_eq with h | h
  · exact key m k h
  · rcases abs_eq (show (0 : ℤ) ≤ 2 ^ 53 by norm_num) |>.mp h with rfl | rfl
    · have := key (2 ^ 52) (k + 1) (by norm_num)
      have e : (((2 ^ 53 : ℤ)) : F) * 2 ^ k = ((2 ^ 52 : ℤ) : F) * 2 ^ (k + 1) := by
        rw [zpow_add₀ (by norm_num)]; push_cast; ring
      rw [e, this]
    · have := key (-2 ^ 52) (k + 1) (by norm_num)
      have e : (((-2 ^ 53 : ℤ)) : F) * 2 ^ k = ((-2 ^ 52 : ℤ) : F) * 2 ^ (k + 1) := by
        rw [zpow_add₀ (by norm_num)]; push_cast; ring
      rw [e, this]

theorem binary64_nonneg {x : F} (h : 0 ≤ x) : 0 ≤ binary64 x := by
  unfold binary64
  have : (0 : ℤ) ≤ nearestEven (x / ulp x) := by
    have h0 : nearestEven (0 : F) = 0 := by have := nearestEven_int (F := F) 0; simpa using this
    rw [← h0]
    exact nearestEven_mono (div_nonneg h (ulp_pos x).le)
  have : (0 : F) ≤ nearestEven (x / ulp x) := by exact_mod_cast this
  exact mul_nonneg this (ulp_pos x).le

theorem binary64_mono : Monotone (binary64 : F → F) := by
  have pos : ∀ x y : F, 0 < x → x ≤ y → binary64 x ≤ binary64 y := by
    intro x y hx h
    have hy := hx.trans_le h
    have hlog := Int.log_mono_right (b := 2) hx h
    rcases hlog.lt_or_eq with hlt | heq
    · -- a power of two lies between
      set e := Int.log 2 y with he
      have h1 : x ≤ 2 ^ e := by
        have := (Int.lt_zpow_iff_log_lt (R := F) (b := 2) (by norm_num) hx).mpr hlt
        simpa using this.le
      have h2 : (2 : F) ^ e ≤ y := by
        have := Int.zpow_log_le_self (R := F) (b := 2) (r := y) (by norm_num) hy
        simpa using this
      have hx2 : binary64 x ≤ 2 ^ e := by
        obtain ⟨d, hd⟩ : ∃ d : ℕ, e = Int.log 2 x - 52 + d := ⟨(e - (Int.log 2 x - 52)).toNat, by omega⟩
        have hu : (2 : F) ^ e = ((2 ^ d : ℤ) : F) * ulp x := by
          unfold ulp
          rw [abs_of_pos hx]
          conv_lhs => rw [hd, zpow_add₀ (by norm_num), zpow_natCast]
          push_cast
          ring
        rw [hu]
        unfold binary64
        refine mul_le_mul_of_nonneg_right ?_ (ulp_pos x).le
        have : nearestEven (x / ulp x) ≤ 2 ^ d := by
          rw [← nearestEven_int (F := F) (2 ^ d)]
          refine nearestEven_mono ?_
          rw [div_le_iff₀ (ulp_pos x), ← hu]
          exact h1
        exact_mod_cast this
      have hy2 : (2 : F) ^ e ≤ binary64 y := by
        have hu : (2 : F) ^ e = ((2 ^ 52 : ℤ) : F) * ulp y := by
          unfold ulp
          rw [abs_of_pos hy, ← he, show e = (52 : ℕ) + (e - 52) by push_cast; ring]
          rw [zpow_add₀ (by norm_num), zpow_natCast]
          push_cast
          rw [show (52 : ℤ) + (e - 52) - 52 = e - 52 by ring]
          norm_num
        rw [hu]
        unfold binary64
        refine mul_le_mul_of_nonneg_right ?_ (ulp_pos y).le
        have : (2 ^ 52 : ℤ) ≤ nearestEven (y / ulp y) := by
          rw [← nearestEven_int (F := F) (2 ^ 52)]
          refine nearestEven_mono ?_
          rw [le_div_iff₀ (ulp_pos y), ← hu]
          exact h2
        exact_mod_cast this
      exact hx2.trans hy2
    · have hu : ulp x = ulp y := by unfold ulp; rw [abs_of_pos hx, abs_of_pos hy, heq]
      unfold binary64
      rw [hu]
      refine mul_le_mul_of_nonneg_right ?_ (ulp_pos y).le
      have : nearestEven (x / ulp y) ≤ nearestEven (y / ulp y) := nearestEven_mono (div_le_div_of_nonneg_right h (ulp_pos y).le)
      exact_mod_cast this
  intro x y h
  rcases lt_trichotomy x 0 with hx | rfl | hx
  · rcases lt_or_ge y 0 with hy | hy
    · have := pos (-y) (-x) (by linarith) (by linarith)
      rw [binary64_neg, binary64_neg] at this
      linarith
    · have h1 := binary64_nonneg (F := F) (x := -x) (by linarith)
      rw [binary64_neg] at h1
      have h2 := binary64_nonneg hy
      linarith
  · rw [binary64_zero]; exact binary64_nonneg h
  · exact pos x y hx h

/-- rounding to double precision keeps the order and whole numbers up to `2^53` -/
theorem binary64_rounds : Rounds (binary64 : F → F) (2 ^ 53) where
  mono := binary64_mono
  whole n hn := by
    have := binary64_exact (F := F) n 0 (by exact_mod_cast hn)
    simpa using this

end Sureal
