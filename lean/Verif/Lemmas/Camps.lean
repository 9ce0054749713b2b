import Verif.Lemmas.Erratic
/-! The passes of the alternating projection on a panel of two camps. -/
set_option linter.unusedSectionVars false
namespace Sureal.Camps
open Sureal Spec Props Ap Consistent

variable {J R : ℕ}

/-- the numbers `d` as the noise of an observer -/
def steady (d : Fin J → ℝ) : Fin J → Fin R → ℝ := fun j _ => d j

/-- the noise of the observers in `A` is `d`, the others have none -/
def camp (A : Finset ℕ) (d : Fin J → ℝ) : ℕ → Fin J → Fin R → ℝ := fun i => if i ∈ A then steady d else 0

theorem sum_camp {A : Finset ℕ} {n : ℕ} (hA : A ⊆ Finset.range n) (d : Fin J → ℝ) (f : (Fin J → Fin R → ℝ) → ℝ) :
    ∑ i ∈ Finset.range n, f (camp A d i) = A.card * f (steady d) + (n - A.card) * f 0 := by
  have h1 : ∀ i, f (camp A d i) = (if i ∈ A then f (steady d) - f 0 else 0) + f 0 := by
    intro i
    unfold camp
    split <;> ring
  rw [Finset.sum_congr rfl fun i _ => h1 i, Finset.sum_add_distrib, ← Finset.sum_filter, Finset.filter_mem_eq_inter,
    Finset.inter_eq_right.mpr hA]
  simp only [Finset.sum_const, Finset.card_range, nsmul_eq_mul]
  ring

/-- the weight of an observer whose residuals have mean square `v` -/
noncomputable def wt (v : ℝ) : ℝ := 1 / (v + 1 / 100000000)

/-- the share of the camp of `t` among `n` observers in the scores; `B` is the variance of the difference of opinion -/
noncomputable def campShare (t n B : ℝ) : ℕ → ℝ
  | 0 => t / n
  | k + 1 => t * wt ((1 - campShare t n B k) ^ 2 * B) / (t * wt ((1 - campShare t n B k) ^ 2 * B) + (n - t) * wt (campShare t n B k ^ 2 * B))

section
variable (hJ : 0 < J) (hR : 0 < R) (d : Fin J → ℝ)

include hJ hR in
theorem cOf_steady (j : Fin J) : cOf (steady d : Fin J → Fin R → ℝ) j = d j - (∑ j, d j) / J := by
  have hJ' : (J : ℝ) ≠ 0 := by positivity
  have hR' : (R : ℝ) ≠ 0 := by positivity
  unfold cOf steady
  simp only [Finset.sum_const, Finset.card_univ, Fintype.card_fin, nsmul_eq_mul]
  rw [← Finset.mul_sum]
  field_simp

include hJ hR in
theorem wOf_steady (y : ℝ) : wOf (steady d : Fin J → Fin R → ℝ) (fun j => y * cOf (steady d : Fin J → Fin R → ℝ) j)
    = wt ((1 - y) ^ 2 * between (steady d : Fin J → Fin R → ℝ)) := by
  have h := wOf_others hJ hR (steady d : Fin J → Fin R → ℝ) (y - 1)
  have e : wOf (steady d : Fin J → Fin R → ℝ) (fun j => y * cOf (steady d : Fin J → Fin R → ℝ) j)
      = wOf (0 : Fin J → Fin R → ℝ) (fun j => (y - 1) * cOf (steady d : Fin J → Fin R → ℝ) j) := by
    unfold wOf
    congr 1
    rw [← spread_add ⟨(⟨0, hJ⟩, ⟨0, hR⟩), Finset.mem_univ _⟩ _ (-((∑ j, d j) / J))]
    congr 1
    funext c
    have := cOf_steady hJ hR d c.1
    simp only [Pi.zero_apply]
    show d c.1 - _ + _ = _
    linear_combination -this
  rw [e, h]
  unfold wt
  congr 2
  ring

include hJ hR in
theorem dev_camp {A : Finset ℕ} {n : ℕ} (hA : A ⊆ Finset.range n) (k : ℕ) (j : Fin J) :
    dev (camp A d : ℕ → Fin J → Fin R → ℝ) n k j =
      campShare A.card n (between (steady d : Fin J → Fin R → ℝ)) k * cOf (steady d : Fin J → Fin R → ℝ) j := by
  induction k generalizing j with
  | zero =>
    show (∑ i ∈ Finset.range n, cOf (camp A d i) j) / n = A.card / n * _
    rw [sum_camp hA d fun z => cOf z j, cOf_zero]
    ring
  | succ k ih =>
    have hu : dev (camp A d : ℕ → Fin J → Fin R → ℝ) n k =
      fun j => campShare A.card n (between (steady d : Fin J → Fin R → ℝ)) k * cOf (steady d : Fin J → Fin R → ℝ) j := funext ih
    show (∑ i ∈ Finset.range n, wOf (camp A d i) (dev (camp A d) n k) * cOf (camp A d i) j) /
      (∑ i ∈ Finset.range n, wOf (camp A d i) (dev (camp A d) n k)) = campShare _ _ _ (k + 1) * _
    rw [hu]
    set y := campShare A.card n (between (steady d : Fin J → Fin R → ℝ)) k with hy
    rw [sum_camp hA d fun z' => wOf z' (fun j => y * cOf (steady d : Fin J → Fin R → ℝ) j) * cOf z' j,
      sum_camp hA d fun z' => wOf z' (fun j => y * cOf (steady d : Fin J → Fin R → ℝ) j), cOf_zero, wOf_steady hJ hR, wOf_others hJ hR]
    rw [campShare, ← hy]
    show _ = _ / (_ + _ * (1 / (y ^ 2 * _ + 1 / 100000000))) * _
    ring

end

/-! ## the shares -/

theorem wt_pos {v : ℝ} (hv : 0 ≤ v) : 0 < wt v := by unfold wt; positivity

/-- an even split stays an even split -/
theorem share_tie {t n B : ℝ} (ht : 0 < t) (hn : n = 2 * t) (hB : 0 ≤ B) (k : ℕ) : campShare t n B k = 1 / 2 := by
  induction k with
  | zero => show t / n = _; rw [hn]; field_simp
  | succ k ih =>
    rw [campShare, ih]
    have hw : 0 < wt ((1 / 2 : ℝ) ^ 2 * B) := wt_pos (by positivity)
    rw [show (1 - 1 / 2 : ℝ) = 1 / 2 by norm_num, hn, show 2 * t - t = t by ring, ← two_mul]
    generalize wt ((1 / 2 : ℝ) ^ 2 * B) = w at hw
    field_simp

/-- a minority's share, relative to the rest: never more than at the start, and shrinking down to what the regularisation leaves -/
theorem share_minority {t n B : ℝ} (ht : 0 ≤ t) (hn : 2 * t < n) (hB : 0 < B) (k : ℕ) :
    0 ≤ campShare t n B k ∧ campShare t n B k < 1 / 2 ∧ campShare t n B k / (1 - campShare t n B k) ≤ t / (n - t) ∧
      campShare t n B (k + 1) / (1 - campShare t n B (k + 1)) ≤
        (t / (n - t)) ^ 2 * (campShare t n B k / (1 - campShare t n B k)) + 4 * (1 / 100000000 / B) := by
  have hnt : 0 < n - t := by linarith
  set ρ := t / (n - t) with hρ
  have hρ0 : 0 ≤ ρ := div_nonneg ht hnt.le
  have hρ1 : ρ < 1 := by rw [hρ, div_lt_one hnt]; linarith
  -- one pass
  have key : ∀ y : ℝ, 0 ≤ y → y < 1 / 2 → y / (1 - y) ≤ ρ →
      let y' := t * wt ((1 - y) ^ 2 * B) / (t * wt ((1 - y) ^ 2 * B) + (n - t) * wt (y ^ 2 * B))
      0 ≤ y' ∧ y' < 1 / 2 ∧ y' / (1 - y') ≤ ρ ∧ y' / (1 - y') ≤ ρ ^ 2 * (y / (1 - y)) + 4 * (1 / 100000000 / B) := by
    intro y h0 h1 h2 y'
    have hy1 : 0 < 1 - y := by linarith
    set u := y ^ 2 * B + 1 / 100000000 with hu
    set v := (1 - y) ^ 2 * B + 1 / 100000000 with hv
    have hu0 : 0 < u := by positivity
    have hv0 : 0 < v := by positivity
    have huv : u ≤ v := by
      have : y ^ 2 ≤ (1 - y) ^ 2 := by nlinarith
      rw [hu, hv]
      nlinarith
    have hden : 0 < t * u + (n - t) * v := by positivity
    have hy' : y' = t * u / (t * u + (n - t) * v) := by
      show t * (1 / v) / (t * (1 / v) + (n - t) * (1 / u)) = _
      have h3 : 0 < t * (1 / v) + (n - t) * (1 / u) := by positivity
      rw [div_eq_div_iff h3.ne' hden.ne']
      field_simp
    have h1y' : 1 - y' = (n - t) * v / (t * u + (n - t) * v) := by
      rw [hy', eq_div_iff hden.ne']
      field_simp
      ring
    have hr : y' / (1 - y') = ρ * (u / v) := by
      rw [h1y', hy', hρ]
      field_simp
    have huv1 : u / v ≤ 1 := (div_le_one hv0).mpr huv
    refine ⟨by rw [hy']; positivity, ?_, ?_, ?_⟩
    · rw [hy', div_lt_iff₀ hden]
      nlinarith
    · rw [hr]
      nlinarith
    · rw [hr]
      have h3 : u / v ≤ u / ((1 - y) ^ 2 * B) := by
        refine div_le_div_of_nonneg_left hu0.le (by positivity) ?_
        rw [hv]
        linarith
      have h4 : u / ((1 - y) ^ 2 * B) = (y / (1 - y)) ^ 2 + 1 / 100000000 / B / (1 - y) ^ 2 := by
        rw [hu]
        field_simp
      have h5 : 1 / 100000000 / B / (1 - y) ^ 2 ≤ 4 * (1 / 100000000 / B) := by
        rw [div_le_iff₀ (by positivity)]
        have : 0 < 1 / 100000000 / B := by positivity
        have : 1 / 4 ≤ (1 - y) ^ 2 := by nlinarith
        nlinarith
      have h6 : (y / (1 - y)) ^ 2 ≤ ρ * (y / (1 - y)) := by
        rw [pow_two]
        exact mul_le_mul_of_nonneg_right h2 (div_nonneg h0 hy1.le)
      have h7 : u / v ≤ ρ * (y / (1 - y)) + 4 * (1 / 100000000 / B) := by linarith
      have h8 : 0 < 4 * (1 / 100000000 / B) := by positivity
      calc ρ * (u / v) ≤ ρ * (ρ * (y / (1 - y)) + 4 * (1 / 100000000 / B)) := mul_le_mul_of_nonneg_left h7 hρ0
        _ ≤ _ := by nlinarith
  have hinv : 0 ≤ campShare t n B k ∧ campShare t n B k < 1 / 2 ∧ campShare t n B k / (1 - campShare t n B k) ≤ ρ := by
    induction k with
    | zero =>
      have hn0 : 0 < n := by linarith
      show 0 ≤ t / n ∧ t / n < 1 / 2 ∧ t / n / (1 - t / n) ≤ ρ
      refine ⟨by positivity, by rw [div_lt_iff₀ hn0]; linarith, le_of_eq ?_⟩
      rw [hρ, show 1 - t / n = (n - t) / n by field_simp]
      field_simp
    | succ k ih =>
      obtain ⟨a1, a2, a3, -⟩ := key _ ih.1 ih.2.1 ih.2.2
      exact ⟨a1, a2, a3⟩
  exact ⟨hinv.1, hinv.2.1, hinv.2.2, (key _ hinv.1 hinv.2.1 hinv.2.2).2.2.2⟩

theorem share_small {t n B : ℝ} (ht : 0 ≤ t) (hn : 2 * t < n) (hB : 0 < B) (k : ℕ) :
    campShare t n B k / (1 - campShare t n B k) * (1 - (t / (n - t)) ^ 2) ≤
      ((t / (n - t)) ^ 2) ^ k * (t / (n - t)) * (1 - (t / (n - t)) ^ 2) + 4 * (1 / 100000000 / B) := by
  have hnt : 0 < n - t := by linarith
  have hρ0 : 0 ≤ t / (n - t) := div_nonneg ht hnt.le
  have hρ1 : t / (n - t) < 1 := by rw [div_lt_one hnt]; linarith
  set ρ := t / (n - t) with hρ
  have h2 : 0 < 1 - ρ ^ 2 := by nlinarith
  have h8 : 0 < 4 * (1 / 100000000 / B) := by positivity
  induction k with
  | zero =>
    have := (share_minority ht hn hB 0).2.2.1
    rw [pow_zero, one_mul]
    nlinarith
  | succ k ih =>
    have h := (share_minority ht hn hB k).2.2.2
    rw [← hρ] at h
    have e := mul_le_mul_of_nonneg_right h h2.le
    have e2 := mul_le_mul_of_nonneg_left ih (sq_nonneg ρ)
    rw [pow_succ (ρ ^ 2) k]
    generalize (ρ ^ 2) ^ k = p at ih e2 ⊢
    generalize campShare t n B (k + 1) / (1 - campShare t n B (k + 1)) = r' at *
    generalize campShare t n B k / (1 - campShare t n B k) = r at *
    generalize 4 * (1 / 100000000 / B) = δ at *
    clear_value ρ
    calc r' * (1 - ρ ^ 2) ≤ (ρ ^ 2 * r + δ) * (1 - ρ ^ 2) := e
      _ = ρ ^ 2 * (r * (1 - ρ ^ 2)) + δ * (1 - ρ ^ 2) := by ring
      _ ≤ ρ ^ 2 * (p * ρ * (1 - ρ ^ 2) + δ) + δ * (1 - ρ ^ 2) := by linarith only [e2]
      _ = _ := by ring

/-- what is left when a pass changes little -/
theorem rest_change {x y ρ N T f δ : ℝ} (x0 : 0 ≤ x) (x1 : x < 1 / 2) (y0 : 0 ≤ y) (y1 : y < 1 / 2) (hρ0 : 0 ≤ ρ) (hρ1 : ρ < 1) (hN : 0 ≤ N)
    (hρ2 : 1 ≤ N * (1 - ρ ^ 2)) (hT : 0 < T) (hδ : δ * T = 4 / 10 ^ 8 * f) (hs : y / (1 - y) ≤ ρ ^ 2 * (x / (1 - x)) + δ)
    (hc : (x - y) * T ≤ 1 / 100000000) : y / (1 - y) * T ≤ 4 * N / 10 ^ 8 * (1 + f) := by
  have hx' : 0 < 1 - x := by linarith
  have hy' : 0 < 1 - y := by linarith
  have e : x / (1 - x) - y / (1 - y) = (x - y) / ((1 - x) * (1 - y)) := by
    field_simp
    ring
  have hq : 1 / 4 ≤ (1 - x) * (1 - y) := by nlinarith
  have hdiff : x / (1 - x) * T ≤ y / (1 - y) * T + 4 / 100000000 := by
    have : (x - y) / ((1 - x) * (1 - y)) * T ≤ 4 / 100000000 := by
      rw [div_mul_eq_mul_div, div_le_iff₀ (by positivity)]
      nlinarith
    rw [← e] at this
    linarith
  have hr0 : 0 ≤ y / (1 - y) := div_nonneg y0 hy'.le
  generalize x / (1 - x) = a at *
  generalize y / (1 - y) = c at *
  have h5 : ρ ^ 2 ≤ 1 := by nlinarith
  have h3 := mul_le_mul_of_nonneg_right hs hT.le
  have h4 := mul_le_mul_of_nonneg_left hdiff (sq_nonneg ρ)
  have h6 : ρ ^ 2 * (4 / 100000000) ≤ 4 / 10 ^ 8 := by
    rw [show (4 / 10 ^ 8 : ℝ) = 1 * (4 / 100000000) by norm_num]
    exact mul_le_mul_of_nonneg_right h5 (by norm_num)
  have hmain : c * T * (1 - ρ ^ 2) ≤ 4 / 10 ^ 8 * (1 + f) := by
    calc c * T * (1 - ρ ^ 2) = c * T - ρ ^ 2 * (c * T) := by ring
      _ ≤ (ρ ^ 2 * a + δ) * T - ρ ^ 2 * (c * T) := by linarith only [h3]
      _ = ρ ^ 2 * (a * T) + δ * T - ρ ^ 2 * (c * T) := by ring
      _ ≤ ρ ^ 2 * (c * T + 4 / 100000000) + δ * T - ρ ^ 2 * (c * T) := by linarith only [h4]
      _ = ρ ^ 2 * (4 / 100000000) + 4 / 10 ^ 8 * f := by rw [hδ]; ring
      _ ≤ 4 / 10 ^ 8 + 4 / 10 ^ 8 * f := by linarith only [h6]
      _ = _ := by ring
  have h7 : c * T * 1 ≤ c * T * (N * (1 - ρ ^ 2)) := mul_le_mul_of_nonneg_left hρ2 (mul_nonneg hr0 hT.le)
  have h8 := mul_le_mul_of_nonneg_left hmain hN
  calc c * T ≤ N * (c * T * (1 - ρ ^ 2)) := by linarith only [h7]
    _ ≤ N * (4 / 10 ^ 8 * (1 + f)) := h8
    _ = _ := by ring

/-- what is left after many passes -/
theorem rest_passes {r P ρ N T f δ : ℝ} (hN : 0 ≤ N) (hρ2 : 1 ≤ N * (1 - ρ ^ 2)) (hT : 0 < T) (hf : 0 ≤ f) (hδ : δ * T = 4 / 10 ^ 8 * f)
    (hs : r * (1 - ρ ^ 2) ≤ P * (1 - ρ ^ 2) + δ) : r * T ≤ 4 * N / 10 ^ 8 * (1 + f) + T * P := by
  by_contra hcon
  push Not at hcon
  have h3 := mul_le_mul_of_nonneg_right hs hT.le
  have h7 : (r * T - T * P) * (1 - ρ ^ 2) ≤ 4 / 10 ^ 8 * f := by
    calc _ = r * (1 - ρ ^ 2) * T - P * (1 - ρ ^ 2) * T := by ring
      _ ≤ δ * T := by linarith only [h3]
      _ = _ := hδ
  have h8 : 4 * N / 10 ^ 8 * (1 + f) < r * T - T * P := by linarith only [hcon]
  have h9 : 0 ≤ r * T - T * P := le_trans (by positivity) h8.le
  have h10 := mul_le_mul_of_nonneg_left hρ2 h9
  have h11 := mul_le_mul_of_nonneg_left h7 hN
  have h12 : 4 * N / 10 ^ 8 * (1 + f) = N * (4 / 10 ^ 8 * f) + 4 * N / 10 ^ 8 := by ring
  have h13 : (0 : ℝ) ≤ 4 * N / 10 ^ 8 := by positivity
  have h14 : (r * T - T * P) * (N * (1 - ρ ^ 2)) = N * ((r * T - T * P) * (1 - ρ ^ 2)) := by ring
  linarith only [h8, h10, h11, h12, h13, h14]

end Sureal.Camps
