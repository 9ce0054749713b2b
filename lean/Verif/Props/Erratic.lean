import Verif.Lemmas.Erratic
import Verif.Props.ApComplete
/-!
# C149: one erratic observer does not spoil the scores of P.910

All observers but one vote without noise: quality plus bias.  One votes anything.
-/
set_option linter.unusedSectionVars false
namespace Sureal.Props
open Sureal Spec Ap Consistent

variable {κ : Type} {J n R : ℕ}

/-- the votes of a panel in which observer `i₀` votes `Z` and the others vote quality plus bias -/
def oneErratic (q : Fin J → ℝ) (b : Fin n → ℝ) (i₀ : Fin n) (Z : Fin J → Fin R → ℝ) : Fin J → Fin n → Fin R → ℝ :=
  fun j i r => if i = i₀ then Z j r else q j + b i

theorem oneErratic_additive (q : Fin J → ℝ) (b : Fin n → ℝ) (i₀ : Fin n) (Z : Fin J → Fin R → ℝ) :
    ∃ b' : ℕ → ℝ, oneErratic q b i₀ Z = additive q b' (lone i₀ fun j r => Z j r - q j) n := by
  refine ⟨fun i => if h : i < n then (if (⟨i, h⟩ : Fin n) = i₀ then 0 else b ⟨i, h⟩) else 0, ?_⟩
  funext j i r
  unfold oneErratic additive lone
  dsimp only
  rw [dif_pos i.isLt]
  by_cases h : i = i₀
  · subst h
    simp
  · have h2 : (i : ℕ) ≠ i₀ := fun e => h (Fin.ext e)
    simp [h, h2]

theorem cOf_bound (hJ : 0 < J) (hR : 0 < R) {z : Fin J → Fin R → ℝ} {M : ℝ} (hz : ∀ j r, |z j r| ≤ M) (j : Fin J) : |cOf z j| ≤ 2 * M := by
  have hR0 : (0 : ℝ) < R := by positivity
  have hJ0 : (0 : ℝ) < J := by positivity
  have h1 : ∀ j, |∑ r, z j r| ≤ R * M := fun j =>
    (Finset.abs_sum_le_sum_abs _ _).trans ((Finset.sum_le_sum fun r _ => hz j r).trans (by simp))
  have h2 : |∑ j, ∑ r, z j r| ≤ J * (R * M) :=
    (Finset.abs_sum_le_sum_abs _ _).trans ((Finset.sum_le_sum fun j _ => h1 j).trans (by simp))
  have e1 : |(∑ r, z j r) / (R : ℝ)| ≤ M := by
    rw [abs_div, abs_of_pos hR0, div_le_iff₀ hR0]
    linarith [h1 j]
  have e2 : |(∑ j, ∑ r, z j r) / ((J : ℝ) * R)| ≤ M := by
    rw [abs_div, abs_of_pos (by positivity : (0 : ℝ) < J * R), div_le_iff₀ (by positivity)]
    linarith
  unfold cOf
  have := abs_sub ((∑ r, z j r) / (R : ℝ)) ((∑ j, ∑ r, z j r) / ((J : ℝ) * R))
  linarith

/-- **C149.** At least three observers, nothing missing; all but one vote quality plus bias, one votes any numbers (below 10^400, as doubles are).  P.910
reports the qualities, all shifted by the same number, up to an error of at most `√J/10000` where `J` is the number of videos. -/
theorem C149_p910 (hJ : 0 < J) (hR : 0 < R) (hn : 3 ≤ n) (q : Fin J → ℝ) (b : Fin n → ℝ) (i₀ : Fin n) (Z : Fin J → Fin R → ℝ)
    (hZ : ∀ j r, |Z j r - q j| ≤ 10 ^ 400) (sd : StdFormula) (rd : Reader κ ℝ) (hob : ObserversHarmless rd)
    (ha : rd.scores = .ok ⟨J, n, R, fun j i r => .fin (oneErratic q b i₀ Z j i r)⟩) :
    ∃ (res : Result κ ℝ) (score : Fin J → ℝ) (shift : ℝ), runAPWith sd rd {} = .ok res ∧ res.qualityScores = List.ofFn (fun j => .fin (score j)) ∧
      ∀ j, |score j - (q j + shift)| ≤ √J / 10000 := by
  have hn0 : 0 < n := by omega
  obtain ⟨b', hb'⟩ := oneErratic_additive q b i₀ Z
  rw [hb'] at ha
  set z : Fin J → Fin R → ℝ := fun j r => Z j r - q j with hz
  set X := additive q b' (lone i₀ z) n with hX
  obtain ⟨res, h1, h2, -⟩ := run_real (allP J n R) X sd rd hob ha (allP_voted hJ hn0 hR) hn0
  refine ⟨res, _, (∑ i ∈ Finset.range n, b' i) / n + (∑ i ∈ Finset.range n, (∑ j, ∑ r, lone i₀ z i j r) / (J * R)) / n, h1, h2, fun j => ?_⟩
  rw [estQ_votes hJ hR hn0, dev_lone i₀.isLt]
  set K := stopAt (allP J n R) X with hK
  have hJ1 : (1 : ℝ) ≤ J := by exact_mod_cast hJ
  have hs1 : 1 ≤ √(J : ℝ) := Real.one_le_sqrt.mpr hJ1
  have hss : √(J : ℝ) ^ 2 = J := Real.sq_sqrt (by linarith)
  have hT : ∑ j, cOf z j ^ 2 = J * between z := by
    unfold between
    field_simp
  have hBn := between_nonneg z
  set T := √(J * between z) with hTd
  have hT2 : T ^ 2 = J * between z := Real.sq_sqrt (by positivity)
  have hT0 : 0 ≤ T := Real.sqrt_nonneg _
  have hcj : ∀ j, |cOf z j| ≤ T := by
    intro j
    refine Real.le_sqrt_of_sq_le ?_
    rw [sq_abs, ← hT]
    exact Finset.single_le_sum (f := fun j => cOf z j ^ 2) (fun _ _ => sq_nonneg _) (Finset.mem_univ j)
  obtain ⟨y0, y1, -⟩ := share_step hJ hR z hn (K + 1)
  obtain ⟨x0, x1, x2⟩ := share_step hJ hR z hn K
  have hgoal : share z n (K + 1) * T ≤ √(J : ℝ) / 10000 → |q j + (∑ i ∈ Finset.range n, b' i) / n +
      (∑ i ∈ Finset.range n, (∑ j, ∑ r, lone i₀ z i j r) / (J * R)) / n + share z n (K + 1) * cOf z j -
      (q j + ((∑ i ∈ Finset.range n, b' i) / n + (∑ i ∈ Finset.range n, (∑ j, ∑ r, lone i₀ z i j r) / (J * R)) / n))| ≤ √(J : ℝ) / 10000 := by
    intro h
    rw [show ∀ a b c d : ℝ, a + b + c + d - (a + (b + c)) = d from fun a b c d => by ring, abs_mul, abs_of_nonneg y0]
    exact (mul_le_mul_of_nonneg_left (hcj j) y0).trans h
  apply hgoal
  by_cases hsmall : T ≤ 3 / 10000 * √(J : ℝ)
  · calc share z n (K + 1) * T ≤ 1 / 3 * T := mul_le_mul_of_nonneg_right y1 hT0
      _ ≤ √(J : ℝ) / 10000 := by linarith
  · push Not at hsmall
    have hTp : 0 < T := by nlinarith
    have hB : 0 < between z := by
      rcases hBn.lt_or_eq with h | h
      · exact h
      · rw [← h, mul_zero] at hT2
        nlinarith
    have hTB : 9 / 5 * (1 / 100000000 / between z) * T = 9 / 5 * (1 / 100000000) * (√(J : ℝ) * (√(J : ℝ) / T)) := by
      have : between z = T ^ 2 / √(J : ℝ) ^ 2 := by
        rw [hT2, hss]
        field_simp
      rw [this]
      field_simp
    have hr : √(J : ℝ) / T ≤ 10000 / 3 := by
      rw [div_le_div_iff₀ hTp (by norm_num)]
      linarith
    have hmain : 9 / 5 * (1 / 100000000 / between z) * T ≤ 6 / 100000 * √(J : ℝ) := by
      rw [hTB]
      nlinarith
    rcases stop_spec (allP J n R) X with hc | hc
    · have hch : change (allP J n R) X K = (share z n K - share z n (K + 1)) ^ 2 * T ^ 2 := by
        unfold change
        rw [hT2, ← hT, Finset.mul_sum]
        refine Finset.sum_congr rfl fun j _ => ?_
        rw [hX, seq_votes hJ hR hn0, seq_votes hJ hR hn0, dev_lone i₀.isLt, dev_lone i₀.isLt]
        ring
      rw [hch, ← mul_pow, Real.sqrt_sq_eq_abs] at hc
      have hd := (abs_lt.mp hc).2
      have hx2 := x2 hB
      have : share z n (K + 1) * T ≤ 3 / 8 * (share z n K * T) + 9 / 8 * (1 / 100000000 / between z) * T := by nlinarith
      nlinarith
    · have hK9 : K = 999 := le_antisymm (stopAt_le _ _) hc
      have hsm := share_small hJ hR z hn hB (K + 1)
      rw [hK9] at hsm ⊢
      have hTle : T ≤ √(J : ℝ) * (2 * 10 ^ 400) := by
        refine Real.sqrt_le_iff.mpr ⟨by positivity, ?_⟩
        rw [mul_pow, hss, ← hT]
        calc ∑ j, cOf z j ^ 2 ≤ ∑ _j : Fin J, (2 * 10 ^ 400 : ℝ) ^ 2 := by
              refine Finset.sum_le_sum fun j _ => ?_
              rw [← sq_abs]
              exact pow_le_pow_left₀ (abs_nonneg _) (cOf_bound hJ hR hZ j) 2
          _ = _ := by rw [Finset.sum_const, Finset.card_univ, Fintype.card_fin, nsmul_eq_mul]
      have hp : (3 / 8 : ℝ) ^ (999 + 1) * (2 * 10 ^ 400) ≤ 1 / 100000 := by
        have e1 : (3 / 8 : ℝ) ^ (999 + 1) = ((3 / 8) ^ 250) ^ 4 := by rw [← pow_mul]
        have e2 : (10 : ℝ) ^ 400 = (10 ^ 100) ^ 4 := by rw [← pow_mul]
        have e3 : (3 / 8 : ℝ) ^ 250 * 10 ^ 100 ≤ 1 / 1000000 := by norm_num
        have e4 := pow_le_pow_left₀ (by positivity) e3 4
        rw [mul_pow, ← e1, ← e2] at e4
        calc (3 / 8 : ℝ) ^ (999 + 1) * (2 * 10 ^ 400) = 2 * ((3 / 8 : ℝ) ^ (999 + 1) * 10 ^ 400) := by ring
          _ ≤ 2 * (1 / 1000000) ^ 4 := mul_le_mul_of_nonneg_left e4 (by norm_num)
          _ ≤ _ := by norm_num
      have h4 : (3 / 8 : ℝ) ^ (999 + 1) * T ≤ √(J : ℝ) * (1 / 100000) := by
        calc (3 / 8 : ℝ) ^ (999 + 1) * T ≤ (3 / 8 : ℝ) ^ (999 + 1) * (√(J : ℝ) * (2 * 10 ^ 400)) := mul_le_mul_of_nonneg_left hTle (by positivity)
          _ = √(J : ℝ) * ((3 / 8 : ℝ) ^ (999 + 1) * (2 * 10 ^ 400)) := by ring
          _ ≤ _ := mul_le_mul_of_nonneg_left hp (Real.sqrt_nonneg _)
      generalize (3 / 8 : ℝ) ^ (999 + 1) = p at *
      have h5 : share z n (999 + 1) * T ≤ p * T / 3 + 9 / 5 * (1 / 100000000 / between z) * T := by nlinarith
      linarith

/-- **C149 (contrast).** On the same panels the mean opinion scores follow the erratic observer: a difference of scores is off by the difference of what
this observer is off, divided by the number of observers. -/
theorem C149_mos (hJ : 0 < J) (hR : 0 < R) (q : Fin J → ℝ) (b : Fin n → ℝ) (i₀ : Fin n) (Z : Fin J → Fin R → ℝ)
    (rd : Reader κ ℝ) (hob : ObserversHarmless rd) (ha : rd.scores = .ok ⟨J, n, R, fun j i r => .fin (oneErratic q b i₀ Z j i r)⟩) :
    ∃ (res : Result κ ℝ) (score : Fin J → ℝ), runMOS rd {} = .ok res ∧ res.qualityScores = List.ofFn (fun j => .fin (score j)) ∧
      ∀ j k, score j - score k - (q j - q k) = ((∑ r, Z j r) / R - q j - ((∑ r, Z k r) / R - q k)) / n := by
  have hn0 : 0 < n := i₀.pos
  obtain ⟨b', hb'⟩ := oneErratic_additive q b i₀ Z
  rw [hb'] at ha
  set z : Fin J → Fin R → ℝ := fun j r => Z j r - q j with hz
  set X := additive q b' (lone i₀ z) n with hX
  obtain ⟨mos, hr, -⟩ := (runModeling_ok hob mosRunModeling {}).1 (mosAndStats (fun E _ _ => E * 2) ⟨J, n, R, _⟩ ⟨J, n, R, _⟩) (by
    unfold mosRunModeling
    rw [preprocess_default ha]
    rfl)
  have ha' : rd.scores = .ok ⟨J, n, R, maskX (allP J n R) X⟩ := ha
  refine ⟨mos, seq (allP J n R) X 0, hr, ?_, fun j k => ?_⟩
  · rw [runMOS_default ha' hr]
    show List.ofFn (meanAlongS (maskX (allP J n R) X)) = _
    rw [init_spec, maskS_fin (allP_voted hJ hn0 hR)]
    rfl
  · rw [hX, seq_votes hJ hR hn0, seq_votes hJ hR hn0, dev_lone i₀.isLt, dev_lone i₀.isLt]
    have hR' : (R : ℝ) ≠ 0 := by positivity
    have hc : ∀ j, cOf z j = (∑ r, Z j r) / R - q j - (∑ j, ∑ r, z j r) / (J * R) := by
      intro j
      unfold cOf
      rw [hz]
      dsimp only
      simp only [Finset.sum_sub_distrib, Finset.sum_const, Finset.card_univ, Fintype.card_fin, nsmul_eq_mul]
      field_simp
    rw [hc, hc]
    show _ + 1 / (n : ℝ) * _ - (_ + 1 / (n : ℝ) * _) - _ = _
    ring

/-! ## examples -/

/-- three observers on two videos; the third gives 1 to the good one and 5 to the bad one.  P.910 is off by at most `√2/10000`, the difference of the mean
opinion scores by 2 -/
example (sd : StdFormula) : ∃ (rd : Reader String ℝ) (res mos : Result String ℝ) (s m : Fin 2 → ℝ) (c : ℝ),
    runAPWith sd rd {} = .ok res ∧ runMOS rd {} = .ok mos ∧ res.qualityScores = List.ofFn (fun j => .fin (s j)) ∧
      mos.qualityScores = List.ofFn (fun j => .fin (m j)) ∧ (∀ j, |s j - (![4, 2] j + c)| ≤ √(2 : ℕ) / 10000) ∧ m 0 - m 1 = 0 := by
  obtain ⟨res, s, c, h1, h2, h3⟩ := C149_p910 (J := 2) (n := 3) (R := 1) two_pos one_pos le_rfl ![4, 2] ![0, 1, 0] 2 (fun j _ => ![1, 5] j)
    (by
      intro j r
      refine le_trans (b := 3) ?_ (le_trans (by norm_num) (pow_le_pow_right₀ (by norm_num : (1 : ℝ) ≤ 10) (by norm_num : 1 ≤ 400)))
      fin_cases j <;> norm_num [abs_le]) sd
    (arrReader 2 3 1 fun j i r => .fin (oneErratic ![4, 2] ![0, 1, 0] 2 (fun j _ => ![1, 5] j) j i r)) (arr_harmless _ _ _ _) rfl
  obtain ⟨mos, m, g1, g2, g3⟩ := C149_mos (J := 2) (n := 3) (R := 1) two_pos one_pos ![4, 2] ![0, 1, 0] 2 (fun j _ => ![1, 5] j)
    (arrReader 2 3 1 fun j i r => .fin (oneErratic ![4, 2] ![0, 1, 0] 2 (fun j _ => ![1, 5] j) j i r)) (arr_harmless _ _ _ _) rfl
  refine ⟨_, res, mos, s, m, c, h1, g1, h2, g2, h3, ?_⟩
  have := g3 0 1
  norm_num at this
  linarith

end Sureal.Props
