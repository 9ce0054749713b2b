import Verif.Lemmas.ApComplete
import Mathlib.Topology.Algebra.Order.Field
import Mathlib.Analysis.SpecificLimits.Basic
/-! The passes of the alternating projection on complete panels, written as what they make of the noise in the votes; they go to zero if the
averages over the observers do. -/
set_option linter.unusedSectionVars false
namespace Sureal.Consistent
open Sureal Spec Props Ap Filter
open scoped Topology

variable {J R : ℕ}

/-- the weight of an observer with noise `z` against scores that are off by `u` -/
noncomputable def wOf (z : Fin J → Fin R → ℝ) (u : Fin J → ℝ) : ℝ :=
  apWeight (spread Finset.univ fun c : Fin J × Fin R => z c.1 c.2 - u c.1)

/-- how far the noise on video `j` is above the mean noise of the observer -/
noncomputable def cOf (z : Fin J → Fin R → ℝ) (j : Fin J) : ℝ := (∑ r, z j r) / R - (∑ j, ∑ r, z j r) / (J * R)

/-- the sum of the absolute values -/
noncomputable def tot (z : Fin J → Fin R → ℝ) : ℝ := ∑ j, ∑ r, |z j r|

/-- the passes on the noise of `n` observers -/
noncomputable def dev (z : ℕ → Fin J → Fin R → ℝ) (n : ℕ) : ℕ → Fin J → ℝ
  | 0 => fun j => (∑ i ∈ Finset.range n, cOf (z i) j) / n
  | k + 1 => fun j => (∑ i ∈ Finset.range n, wOf (z i) (dev z n k) * cOf (z i) j) / ∑ i ∈ Finset.range n, wOf (z i) (dev z n k)

/-- the votes -/
def additive (q : Fin J → ℝ) (b : ℕ → ℝ) (z : ℕ → Fin J → Fin R → ℝ) (n : ℕ) : Fin J → Fin n → Fin R → ℝ := fun j i r => q j + b i + z i j r

theorem wOf_pos (z : Fin J → Fin R → ℝ) (u : Fin J → ℝ) : 0 < wOf z u := apWeight_pos _

theorem tot_nonneg (z : Fin J → Fin R → ℝ) : 0 ≤ tot z := Finset.sum_nonneg fun _ _ => Finset.sum_nonneg fun _ _ => abs_nonneg _

theorem le_tot (z : Fin J → Fin R → ℝ) (j : Fin J) (r : Fin R) : |z j r| ≤ tot z := by
  have h1 : |z j r| ≤ ∑ r, |z j r| := Finset.single_le_sum (f := fun r => |z j r|) (fun _ _ => abs_nonneg _) (Finset.mem_univ r)
  have h2 : ∑ r, |z j r| ≤ tot z :=
    Finset.single_le_sum (f := fun j => ∑ r, |z j r|) (fun _ _ => Finset.sum_nonneg fun _ _ => abs_nonneg _) (Finset.mem_univ j)
  linarith

theorem spread_add {ι : Type} {A : Finset ι} (hA : A.Nonempty) (f : ι → ℝ) (c : ℝ) : spread A (fun x => f x + c) = spread A f := by
  have hc : (A.card : ℝ) ≠ 0 := by exact_mod_cast hA.card_ne_zero
  have h : avg A (fun x => f x + c) = avg A f + c := by
    unfold avg
    rw [Finset.sum_add_distrib, Finset.sum_const, nsmul_eq_mul, add_div, mul_div_cancel_left₀ _ hc]
  unfold spread
  rw [h]
  congr 2
  funext x
  ring

section seq
variable (hJ : 0 < J) (hR : 0 < R) {n : ℕ} (hn : 0 < n) (q : Fin J → ℝ) (b : ℕ → ℝ) (z : ℕ → Fin J → Fin R → ℝ)

include hJ hR in
theorem cell_votes (j : Fin J) (i : Fin n) :
    cellMean (additive q b z n) j i - observerMean (additive q b z n) i = q j - (∑ j, q j) / J + cOf (z i) j := by
  have hJ' : (J : ℝ) ≠ 0 := by positivity
  have hR' : (R : ℝ) ≠ 0 := by positivity
  unfold cellMean observerMean additive cOf
  simp only [Finset.sum_add_distrib, Finset.sum_const, Finset.card_univ, Fintype.card_fin, nsmul_eq_mul]
  rw [← Finset.mul_sum]
  field_simp
  ring

include hJ hR in
theorem weight_votes (S u : Fin J → ℝ) (k : ℝ) (hS : ∀ j, S j = q j + k + u j) (i : Fin n) : passWeight (additive q b z n) S i = wOf (z i) u := by
  unfold passWeight wOf apSpread
  rw [allP_observer]
  congr 1
  rw [← spread_add ⟨(⟨0, hJ⟩, ⟨0, hR⟩), Finset.mem_univ _⟩ (fun c : Fin J × Fin R => z i c.1 c.2 - u c.1)
    (b i - k - apBias (allP J n R) (additive q b z n) S i)]
  congr 1
  funext c
  rw [hS]
  unfold additive
  ring

include hJ hR hn in
theorem seq_votes (k : ℕ) (j : Fin J) :
    seq (allP J n R) (additive q b z n) k j = q j + (grandMean (additive q b z n) - (∑ j, q j) / J) + dev z n k j := by
  have hn' : (n : ℝ) ≠ 0 := by positivity
  have hJ' : (J : ℝ) ≠ 0 := by positivity
  have hR' : (R : ℝ) ≠ 0 := by positivity
  induction k generalizing j with
  | zero =>
    have h0 : seq (allP J n R) (additive q b z n) 0 j = (∑ i, cellMean (additive q b z n) j i) / n := by
      show mos0 (allP J n R) _ j = _
      unfold mos0 avg cellMean
      rw [allP_video, Fintype.sum_prod_type, Finset.card_univ, Fintype.card_prod, Fintype.card_fin, Fintype.card_fin, ← Finset.sum_div, div_div]
      push_cast
      rw [mul_comm (n : ℝ)]
    have h1 : ∀ i, cellMean (additive q b z n) j i = observerMean (additive q b z n) i + (q j - (∑ j, q j) / J) + cOf (z i) j := by
      intro i
      have := cell_votes hJ hR q b z j i
      linarith
    rw [h0, Finset.sum_congr rfl fun i _ => h1 i, Finset.sum_add_distrib, Finset.sum_add_distrib, add_div, add_div, observerMean_mean hJ hn hR]
    simp only [Finset.sum_const, Finset.card_univ, Fintype.card_fin, nsmul_eq_mul]
    rw [mul_div_cancel_left₀ _ hn']
    show _ = q j + _ + (∑ i ∈ Finset.range n, cOf (z i) j) / n
    rw [Finset.sum_range]
    ring
  | succ k ih =>
    show next (allP J n R) (additive q b z n) (seq (allP J n R) (additive q b z n) k) j = _
    rw [next_complete hJ hn hR, seq_sum hJ hn hR]
    have hw : ∀ i, passWeight (additive q b z n) (seq (allP J n R) (additive q b z n) k) i = wOf (z i) (dev z n k) :=
      fun i => weight_votes hJ hR q b z _ (dev z n k) _ ih i
    have hW : (∑ i : Fin n, wOf (z i) (dev z n k)) ≠ 0 :=
      (Finset.sum_pos (fun i _ => wOf_pos _ _) ⟨⟨0, hn⟩, Finset.mem_univ _⟩).ne'
    simp only [hw, cell_votes hJ hR q b z, mul_add, Finset.sum_add_distrib]
    rw [← Finset.sum_mul, add_div, mul_div_cancel_left₀ _ hW]
    show _ = q j + _ + (∑ i ∈ Finset.range n, wOf (z i) (dev z n k) * cOf (z i) j) / ∑ i ∈ Finset.range n, wOf (z i) (dev z n k)
    rw [Finset.sum_range, Finset.sum_range]
    ring

include hJ hR hn in
theorem grand_votes : grandMean (additive q b z n) - (∑ j, q j) / J =
    (∑ i ∈ Finset.range n, b i) / n + (∑ i ∈ Finset.range n, (∑ j, ∑ r, z i j r) / (J * R)) / n := by
  have hn' : (n : ℝ) ≠ 0 := by positivity
  have hJ' : (J : ℝ) ≠ 0 := by positivity
  have hR' : (R : ℝ) ≠ 0 := by positivity
  rw [← observerMean_mean hJ hn hR, Finset.sum_range, Finset.sum_range]
  have h : ∀ i : Fin n, observerMean (additive q b z n) i = (∑ j, q j) / J + b i + (∑ j, ∑ r, z i j r) / (J * R) := by
    intro i
    unfold observerMean additive
    simp only [Finset.sum_add_distrib, Finset.sum_const, Finset.card_univ, Fintype.card_fin, nsmul_eq_mul]
    rw [← Finset.mul_sum]
    field_simp
  rw [Finset.sum_congr rfl fun i _ => h i, Finset.sum_add_distrib, Finset.sum_add_distrib, add_div, add_div]
  simp only [Finset.sum_const, Finset.card_univ, Fintype.card_fin, nsmul_eq_mul]
  rw [mul_div_cancel_left₀ _ hn']
  ring

include hJ hR hn in
theorem estQ_votes (j : Fin J) : estQ (allP J n R) (additive q b z n) j = q j + (∑ i ∈ Finset.range n, b i) / n +
    (∑ i ∈ Finset.range n, (∑ j, ∑ r, z i j r) / (J * R)) / n + dev z n (stopAt (allP J n R) (additive q b z n) + 1) j := by
  have h := grand_votes hJ hR hn q b z
  unfold estQ lastS
  rw [meanB_complete hJ hn hR, add_zero, seq_votes hJ hR hn, h]
  ring

end seq

/-! ## bounds -/

section bounds
variable (hJ : 0 < J) (hR : 0 < R)

include hJ hR in
theorem cOf_le (z : Fin J → Fin R → ℝ) (j : Fin J) : |cOf z j| ≤ 2 * tot z := by
  have hJ' : (1 : ℝ) ≤ J := by exact_mod_cast hJ
  have hR' : (1 : ℝ) ≤ R := by exact_mod_cast hR
  have h1 : |(∑ r, z j r) / (R : ℝ)| ≤ tot z := by
    rw [abs_div, abs_of_pos (by linarith : (0 : ℝ) < R)]
    refine (div_le_self (abs_nonneg _) hR').trans ((Finset.abs_sum_le_sum_abs _ _).trans ?_)
    exact Finset.single_le_sum (f := fun j => ∑ r, |z j r|) (fun _ _ => Finset.sum_nonneg fun _ _ => abs_nonneg _) (Finset.mem_univ j)
  have h2 : |(∑ j, ∑ r, z j r) / ((J : ℝ) * R)| ≤ tot z := by
    have hp : (1 : ℝ) ≤ (J : ℝ) * R := by nlinarith
    rw [abs_div, abs_of_pos (by linarith : (0 : ℝ) < (J : ℝ) * R)]
    refine (div_le_self (abs_nonneg _) hp).trans ((Finset.abs_sum_le_sum_abs _ _).trans ?_)
    exact Finset.sum_le_sum fun j _ => Finset.abs_sum_le_sum_abs _ _
  unfold cOf
  have := abs_sub ((∑ r, z j r) / (R : ℝ)) ((∑ j, ∑ r, z j r) / ((J : ℝ) * R))
  linarith

theorem wOf_le (z : Fin J → Fin R → ℝ) (u : Fin J → ℝ) : wOf z u ≤ 100000000 := by
  unfold wOf apWeight
  rw [div_le_iff₀ (by positivity)]
  nlinarith [sq_nonneg (spread Finset.univ fun c : Fin J × Fin R => z c.1 c.2 - u c.1)]

include hJ hR in
theorem wOf_near (z : Fin J → Fin R → ℝ) (u : Fin J → ℝ) {δ : ℝ} (hδ : δ ≤ 1) (hu : ∀ j, |u j| ≤ δ) :
    |wOf z u - wOf z 0| ≤ 8 * 10 ^ 16 * δ * (1 + tot z) := by
  have hne : (Finset.univ : Finset (Fin J × Fin R)).Nonempty := ⟨(⟨0, hJ⟩, ⟨0, hR⟩), Finset.mem_univ _⟩
  have hδ0 : 0 ≤ δ := (abs_nonneg _).trans (hu ⟨0, hJ⟩)
  have ht := tot_nonneg z
  set g : Fin J × Fin R → ℝ := fun c => z c.1 c.2 with hg
  set h : Fin J × Fin R → ℝ := fun c => u c.1 with hh
  set A : Finset (Fin J × Fin R) := Finset.univ with hA
  have hsub : ∀ f1 f2 : Fin J × Fin R → ℝ, avg A (fun c => f1 c - f2 c) = avg A f1 - avg A f2 := by
    intro f1 f2
    unfold avg
    rw [Finset.sum_sub_distrib, sub_div]
  have hsp : ∀ f : Fin J × Fin R → ℝ, spread A f ^ 2 = avg A fun c => (f c - avg A f) ^ 2 := by
    intro f
    unfold spread
    refine Real.sq_sqrt ?_
    unfold avg
    exact div_nonneg (Finset.sum_nonneg fun _ _ => sq_nonneg _) (Nat.cast_nonneg _)
  have hV : |spread A (fun c => g c - h c) ^ 2 - spread A g ^ 2| ≤ 8 * δ * (1 + tot z) := by
    rw [hsp, hsp, hsub g h, ← hsub]
    refine avg_abs_le hne fun c _ => ?_
    have hgc : |g c| ≤ tot z := le_tot z c.1 c.2
    have hga : |avg A g| ≤ tot z := avg_abs_le hne fun c _ => le_tot z c.1 c.2
    have hhc : |h c| ≤ δ := hu c.1
    have hha : |avg A h| ≤ δ := avg_abs_le hne fun c _ => hu c.1
    have he : (g c - h c - (avg A g - avg A h)) ^ 2 - (g c - avg A g) ^ 2 = (h c - avg A h) * ((h c - avg A h) - 2 * (g c - avg A g)) := by ring
    rw [he, abs_mul]
    have e1 : |h c - avg A h| ≤ 2 * δ := (abs_sub _ _).trans (by linarith)
    have e2 : |g c - avg A g| ≤ 2 * tot z := (abs_sub _ _).trans (by linarith)
    have e3 : |h c - avg A h - 2 * (g c - avg A g)| ≤ 2 * δ + 4 * tot z := by
      refine (abs_sub _ _).trans ?_
      rw [abs_mul, abs_two]
      linarith
    calc _ ≤ (2 * δ) * (2 * δ + 4 * tot z) := mul_le_mul e1 e3 (abs_nonneg _) (by linarith)
      _ ≤ (2 * δ) * (4 * (1 + tot z)) := mul_le_mul_of_nonneg_left (by linarith) (by linarith)
      _ = 8 * δ * (1 + tot z) := by ring
  have e0 : wOf z 0 = apWeight (spread A g) := by
    unfold wOf
    simp [hg, hA]
  have e1 : wOf z u = apWeight (spread A fun c => g c - h c) := rfl
  rw [e0, e1]
  unfold apWeight
  set a := spread A (fun c => g c - h c) ^ 2
  set b := spread A g ^ 2
  have ha : 0 ≤ a := sq_nonneg _
  have hb : 0 ≤ b := sq_nonneg _
  rw [div_sub_div _ _ (by positivity) (by positivity), abs_div, abs_of_pos (by positivity : 0 < (a + 1 / 100000000) * (b + 1 / 100000000)),
    div_le_iff₀ (by positivity)]
  have e2 : |1 * (b + 1 / 100000000) - (a + 1 / 100000000) * 1| = |a - b| := by
    rw [← abs_neg]
    congr 1
    ring
  rw [e2]
  refine hV.trans ?_
  have e3 : (1 : ℝ) / 10 ^ 16 ≤ (a + 1 / 100000000) * (b + 1 / 100000000) := by nlinarith
  have e4 : 0 ≤ 8 * δ * (1 + tot z) := by positivity
  calc 8 * δ * (1 + tot z) = (8 * δ * (1 + tot z)) * (10 ^ 16 * (1 / 10 ^ 16)) := by norm_num
    _ ≤ (8 * δ * (1 + tot z)) * (10 ^ 16 * ((a + 1 / 100000000) * (b + 1 / 100000000))) :=
        mul_le_mul_of_nonneg_left (mul_le_mul_of_nonneg_left e3 (by norm_num)) e4
    _ = _ := by ring

end bounds

/-! ## limits -/

/-- averages that differ little have the same limit -/
theorem near_limit {f g h : ℕ → ℕ → ℝ} {δ : ℕ → ℝ} {a m : ℝ} (hg : Tendsto (fun n => (∑ i ∈ Finset.range n, g n i) / n) atTop (𝓝 a))
    (hh : Tendsto (fun n => (∑ i ∈ Finset.range n, h n i) / n) atTop (𝓝 m)) (hδ : Tendsto δ atTop (𝓝 0))
    (hb : ∀ᶠ n in atTop, ∀ i, |f n i - g n i| ≤ δ n * h n i) : Tendsto (fun n => (∑ i ∈ Finset.range n, f n i) / n) atTop (𝓝 a) := by
  have h0 : Tendsto (fun n => (∑ i ∈ Finset.range n, f n i) / n - (∑ i ∈ Finset.range n, g n i) / n) atTop (𝓝 0) := by
    refine squeeze_zero_norm' (a := fun n => δ n * ((∑ i ∈ Finset.range n, h n i) / n)) ?_ (by simpa using hδ.mul hh)
    filter_upwards [hb] with n hn
    rw [← sub_div, ← Finset.sum_sub_distrib, Real.norm_eq_abs, abs_div, abs_of_nonneg (Nat.cast_nonneg n : (0 : ℝ) ≤ n), ← mul_div_assoc, Finset.mul_sum]
    exact div_le_div_of_nonneg_right ((Finset.abs_sum_le_sum_abs _ _).trans (Finset.sum_le_sum fun i _ => hn i)) (Nat.cast_nonneg n)
  have := h0.add hg
  simpa using this

theorem dev_limit (hJ : 0 < J) (hR : 0 < R) {z : ℕ → Fin J → Fin R → ℝ} {w m : ℝ} (hw : 0 < w)
    (hA : ∀ j, Tendsto (fun n : ℕ => (∑ i ∈ Finset.range n, cOf (z i) j) / n) atTop (𝓝 0))
    (hB : ∀ j, Tendsto (fun n : ℕ => (∑ i ∈ Finset.range n, wOf (z i) 0 * cOf (z i) j) / n) atTop (𝓝 0))
    (hC : Tendsto (fun n : ℕ => (∑ i ∈ Finset.range n, wOf (z i) 0) / n) atTop (𝓝 w))
    (hD : Tendsto (fun n : ℕ => (∑ i ∈ Finset.range n, (1 + tot (z i)) ^ 2) / (n : ℝ)) atTop (𝓝 m)) (k : ℕ) (j : Fin J) :
    Tendsto (fun n => dev z n k j) atTop (𝓝 0) := by
  induction k generalizing j with
  | zero => exact hA j
  | succ k ih =>
    have hs : Tendsto (fun n => ∑ j, |dev z n k j|) atTop (𝓝 0) := by
      have := tendsto_finsetSum (s := (Finset.univ : Finset (Fin J))) (f := fun j n => |dev z n k j|) (a := fun _ => 0) (x := atTop)
        fun j _ => by simpa using (ih j).abs
      simpa using this
    have hle : ∀ n j, |dev z n k j| ≤ ∑ j, |dev z n k j| := fun n j =>
      Finset.single_le_sum (f := fun j => |dev z n k j|) (fun _ _ => abs_nonneg _) (Finset.mem_univ j)
    have hev : ∀ᶠ n in atTop, ∑ j, |dev z n k j| ≤ 1 := (hs.eventually_lt_const one_pos).mono fun _ h => h.le
    have hδ : Tendsto (fun n => 16 * 10 ^ 16 * ∑ j, |dev z n k j|) atTop (𝓝 0) := by simpa using hs.const_mul (16 * 10 ^ 16)
    have h1 : Tendsto (fun n : ℕ => (∑ i ∈ Finset.range n, wOf (z i) (dev z n k) * cOf (z i) j) / n) atTop (𝓝 0) := by
      refine near_limit (f := fun n i => wOf (z i) (dev z n k) * cOf (z i) j) (hB j) hD hδ (hev.mono fun n hn i => ?_)
      have a1 := wOf_near hJ hR (z i) (dev z n k) hn (hle n)
      have a2 := cOf_le hJ hR (z i) j
      have a3 := tot_nonneg (z i)
      have a4 : 0 ≤ ∑ j, |dev z n k j| := Finset.sum_nonneg fun _ _ => abs_nonneg _
      rw [← sub_mul, abs_mul]
      calc _ ≤ (8 * 10 ^ 16 * (∑ j, |dev z n k j|) * (1 + tot (z i))) * (2 * (1 + tot (z i))) :=
            mul_le_mul a1 (by linarith) (abs_nonneg _) (by positivity)
        _ = _ := by ring
    have h2 : Tendsto (fun n : ℕ => (∑ i ∈ Finset.range n, wOf (z i) (dev z n k)) / n) atTop (𝓝 w) := by
      refine near_limit (f := fun n i => wOf (z i) (dev z n k)) hC hD hδ (hev.mono fun n hn i => ?_)
      have a1 := wOf_near hJ hR (z i) (dev z n k) hn (hle n)
      have a3 := tot_nonneg (z i)
      have a4 : 0 ≤ ∑ j, |dev z n k j| := Finset.sum_nonneg fun _ _ => abs_nonneg _
      refine a1.trans ?_
      have a5 : 1 + tot (z i) ≤ 2 * (1 + tot (z i)) ^ 2 := by nlinarith
      calc _ ≤ 8 * 10 ^ 16 * (∑ j, |dev z n k j|) * (2 * (1 + tot (z i)) ^ 2) := mul_le_mul_of_nonneg_left a5 (by positivity)
        _ = _ := by ring
    have h3 := h1.div h2 hw.ne'
    rw [zero_div] at h3
    refine h3.congr fun n => ?_
    show _ / (n : ℝ) / (_ / (n : ℝ)) = _ / _
    rcases Nat.eq_zero_or_pos n with rfl | hn
    · simp
    · have : (n : ℝ) ≠ 0 := by positivity
      rw [div_div_div_cancel_right₀ this]

/-- however the passes stop -/
theorem dev_stop {z : ℕ → Fin J → Fin R → ℝ} (h : ∀ k j, Tendsto (fun n => dev z n k j) atTop (𝓝 0)) (j : Fin J)
    (K : ℕ → ℕ) (hK : ∀ n, K n ≤ 1000) : Tendsto (fun n => dev z n (K n) j) atTop (𝓝 0) := by
  have hs : Tendsto (fun n => ∑ k ∈ Finset.range 1001, |dev z n k j|) atTop (𝓝 0) := by
    have := tendsto_finsetSum (s := Finset.range 1001) (f := fun k n => |dev z n k j|) (a := fun _ => 0) (x := atTop)
      fun k _ => by simpa using (h k j).abs
    simpa using this
  refine squeeze_zero_norm (fun n => ?_) hs
  rw [Real.norm_eq_abs]
  exact Finset.single_le_sum (f := fun k => |dev z n k j|) (fun _ _ => abs_nonneg _) (Finset.mem_range.mpr (by have := hK n; omega))

end Sureal.Consistent
