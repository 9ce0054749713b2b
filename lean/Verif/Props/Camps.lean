import Verif.Lemmas.Camps
import Verif.Spec.Camps
import Verif.Props.Erratic
/-!
# C159: of two camps P.910 follows the larger one
-/
set_option linter.unusedSectionVars false
namespace Sureal.Props
open Sureal Spec Ap Consistent Camps

variable {κ : Type} {J n R : ℕ}

theorem twoCamps_additive (q : Fin J → ℝ) (b : Fin n → ℝ) (d : Fin J → ℝ) (D : Finset (Fin n)) :
    ∃ b' : ℕ → ℝ, (∑ i ∈ Finset.range n, b' i) = ∑ i, b i ∧ (D.map Fin.valEmbedding) ⊆ Finset.range n ∧
      (twoCamps q b d D : Fin J → Fin n → Fin R → ℝ) = additive q b' (camp (D.map Fin.valEmbedding) d) n := by
  refine ⟨fun i => if h : i < n then b ⟨i, h⟩ else 0, ?_, ?_, ?_⟩
  · rw [Finset.sum_range]
    exact Finset.sum_congr rfl fun i _ => dif_pos i.isLt
  · intro i hi
    obtain ⟨a, -, rfl⟩ := Finset.mem_map.mp hi
    exact Finset.mem_range.mpr a.isLt
  · funext j i r
    unfold twoCamps additive camp
    dsimp only
    rw [dif_pos i.isLt]
    have hm : ((i : ℕ) ∈ D.map Fin.valEmbedding) ↔ i ∈ D := by
      rw [Finset.mem_map]
      constructor
      · rintro ⟨a, ha, he⟩
        rwa [← Fin.ext (show (a : ℕ) = i from he)]
      · intro h; exact ⟨i, h, rfl⟩
    by_cases h : i ∈ D
    · rw [if_pos h, if_pos (hm.mpr h)]; rfl
    · rw [if_neg h, if_neg fun hh => h (hm.mp hh)]; rfl

theorem between_steady (hJ : 0 < J) (hR : 0 < R) (d : Fin J → ℝ) : between (steady d : Fin J → Fin R → ℝ) = spread Finset.univ d ^ 2 := by
  rw [spread_sq']
  unfold between avg
  rw [Finset.card_univ, Fintype.card_fin]
  congr 1
  refine Finset.sum_congr rfl fun j _ => ?_
  rw [cOf_steady hJ hR]

theorem camp_mean (hJ : 0 < J) (hR : 0 < R) (d : Fin J → ℝ) {A : Finset ℕ} (hA : A ⊆ Finset.range n) :
    (∑ i ∈ Finset.range n, (∑ j, ∑ r, (camp A d i : Fin J → Fin R → ℝ) j r) / (J * R)) / n = A.card / n * ((∑ j, d j) / J) := by
  have hR' : (R : ℝ) ≠ 0 := by positivity
  have hJ' : (J : ℝ) ≠ 0 := by positivity
  rw [sum_camp hA d fun z : Fin J → Fin R → ℝ => (∑ j, ∑ r, z j r) / (J * R)]
  unfold steady
  simp only [Pi.zero_apply, Finset.sum_const_zero, zero_div, mul_zero, add_zero, Finset.sum_const, Finset.card_univ, Fintype.card_fin, nsmul_eq_mul]
  rw [← Finset.mul_sum]
  field_simp

/-- **C159.**  A complete panel of two camps: everybody votes quality plus their own bias, but to fewer than half of the observers (`D`) the videos look
different by `d`, not the same on all videos (standard deviation `σ > 0`).  P.910 reports, up to a common shift, the qualities the larger camp sees; the
error is below `4n/10⁸ (1 + √J/σ)`, plus a term for panels that use all 1000 passes.  The smaller camp has no influence, however large a minority it is. -/
theorem C159_majority (hJ : 0 < J) (hR : 0 < R) (q : Fin J → ℝ) (b : Fin n → ℝ) (d : Fin J → ℝ) (D : Finset (Fin n)) (h2 : 2 * D.card < n)
    (hd : 0 < spread Finset.univ d) (sd : StdFormula) (rd : Reader κ ℝ) (hob : ObserversHarmless rd)
    (ha : rd.scores = .ok ⟨J, n, R, fun j i r => .fin (twoCamps q b d D j i r)⟩) :
    ∃ (res : Result κ ℝ) (score : Fin J → ℝ), runAPWith sd rd {} = .ok res ∧ res.qualityScores = List.ofFn (fun j => .fin (score j)) ∧
      ∀ j, |score j - (q j + ((∑ i, b i) / n + D.card / n * ((∑ j, d j) / J)))| ≤ 4 * n / 10 ^ 8 * (1 + √J / spread Finset.univ d)
        + √J * spread Finset.univ d * ((D.card : ℝ) / (n - D.card)) ^ 2001 := by
  have hn0 : 0 < n := by omega
  obtain ⟨b', hb', hA, hX'⟩ := twoCamps_additive (R := R) q b d D
  rw [hX'] at ha
  set A := D.map Fin.valEmbedding with hAd
  have hcard : A.card = D.card := Finset.card_map _
  set z : Fin J → Fin R → ℝ := steady d with hz
  set X := additive q b' (camp A d : ℕ → Fin J → Fin R → ℝ) n with hX
  obtain ⟨res, h1, h2', -⟩ := run_real (allP J n R) X sd rd hob ha (allP_voted hJ hn0 hR) hn0
  refine ⟨res, _, h1, h2', fun j => ?_⟩
  rw [estQ_votes hJ hR hn0, camp_mean hJ hR d hA, dev_camp hJ hR d hA, hcard, hb']
  set K := stopAt (allP J n R) X with hK
  set σ := spread Finset.univ d with hσ
  have hB : between z = σ ^ 2 := between_steady hJ hR d
  rw [← hz, hB]
  have hBp : 0 < σ ^ 2 := by positivity
  set t : ℝ := (D.card : ℝ) with ht
  have ht0 : 0 ≤ t := Nat.cast_nonneg _
  have htn : 2 * t + 1 ≤ n := by
    have h3 : 2 * D.card + 1 ≤ n := h2
    have h4 : ((2 * D.card + 1 : ℕ) : ℝ) ≤ n := Nat.cast_le.mpr h3
    rw [ht]
    push_cast at h4
    exact h4
  have htn' : 2 * t < n := by linarith
  have hnt : 0 < (n : ℝ) - t := by linarith
  set ρ := t / (n - t) with hρ
  have hρ0 : 0 ≤ ρ := div_nonneg ht0 hnt.le
  have hρ1 : ρ < 1 := by rw [hρ, div_lt_one hnt]; linarith
  have hρ2 : 1 ≤ n * (1 - ρ ^ 2) := by
    have e : (n : ℝ) * (1 - ρ ^ 2) = n * (n * (n - 2 * t)) / (n - t) ^ 2 := by
      rw [hρ]
      field_simp
      ring
    rw [e, le_div_iff₀ (by positivity)]
    have : (n : ℝ) * n * 1 ≤ n * n * (n - 2 * t) := mul_le_mul_of_nonneg_left (by linarith) (by positivity)
    nlinarith
  have hJ1 : (1 : ℝ) ≤ J := by exact_mod_cast hJ
  have hsJ : 0 < √(J : ℝ) := Real.sqrt_pos.mpr (by linarith)
  have hss : √(J : ℝ) ^ 2 = J := Real.sq_sqrt (by linarith)
  have hcsum : ∑ j, cOf z j ^ 2 = (√(J : ℝ) * σ) ^ 2 := by
    rw [mul_pow, hss, ← hB]
    unfold between
    field_simp
  have hcj : ∀ j, |cOf z j| ≤ √(J : ℝ) * σ := by
    intro j
    refine abs_le_of_sq_le_sq ?_ (by positivity)
    rw [← hcsum]
    exact Finset.single_le_sum (f := fun j => cOf z j ^ 2) (fun _ _ => sq_nonneg _) (Finset.mem_univ j)
  obtain ⟨x0, x1, x2, x3⟩ := share_minority ht0 htn' hBp K
  obtain ⟨y0, y1, y2, -⟩ := share_minority ht0 htn' hBp (K + 1)
  have hsmall := Camps.share_small ht0 htn' hBp (K + 1)
  rw [← hρ] at x2 x3 y2 hsmall
  set x := campShare t n (σ ^ 2) K with hx
  set y := campShare t n (σ ^ 2) (K + 1) with hy
  have hx' : 0 < 1 - x := by linarith
  have hy' : 0 < 1 - y := by linarith
  have hr0 : 0 ≤ y / (1 - y) := div_nonneg y0 hy'.le
  have hyr : y ≤ y / (1 - y) := by
    rw [le_div_iff₀ hy']
    nlinarith
  -- the error is at most `r √J σ`
  have hgoal : y / (1 - y) * (√(J : ℝ) * σ) ≤ 4 * n / 10 ^ 8 * (1 + √J / σ) + √J * σ * ρ ^ 2001 →
      |q j + (∑ i, b i) / n + t / n * ((∑ j, d j) / J) + y * cOf z j - (q j + ((∑ i, b i) / n + t / n * ((∑ j, d j) / J)))|
      ≤ 4 * n / 10 ^ 8 * (1 + √J / σ) + √J * σ * ρ ^ 2001 := by
    intro h
    rw [show ∀ a b c d : ℝ, a + b + c + d - (a + (b + c)) = d from fun a b c d => by ring, abs_mul, abs_of_nonneg y0]
    refine le_trans ?_ h
    exact mul_le_mul hyr (hcj j) (abs_nonneg _) hr0
  apply hgoal
  have hδ : 4 * (1 / 100000000 / σ ^ 2) * (√(J : ℝ) * σ) = 4 / 10 ^ 8 * (√J / σ) := by
    field_simp
    norm_num
  have hpow : 0 ≤ √(J : ℝ) * σ * ρ ^ 2001 := by positivity
  rcases stop_spec (allP J n R) X with hc | hc
  · have hch : change (allP J n R) X K = ((x - y) * (√(J : ℝ) * σ)) ^ 2 := by
      unfold change
      rw [mul_pow, ← hcsum, Finset.mul_sum]
      refine Finset.sum_congr rfl fun j _ => ?_
      rw [hX, seq_votes hJ hR hn0, seq_votes hJ hR hn0, dev_camp hJ hR d hA, dev_camp hJ hR d hA, hcard, ← hz, hB]
      ring
    rw [hch, Real.sqrt_sq_eq_abs] at hc
    have := rest_change x0 x1 y0 y1 hρ0 hρ1 (Nat.cast_nonneg n) hρ2 (by positivity) hδ x3 (abs_lt.mp hc).2.le
    linarith only [this, hpow]
  · have hK9 : K + 1 = 1000 := by
      have := stopAt_le (allP J n R) X
      omega
    rw [hK9] at hsmall
    rw [← pow_mul, ← pow_succ] at hsmall
    exact rest_passes (Nat.cast_nonneg n) hρ2 (by positivity) (by positivity) hδ hsmall

/-- **C159 (contrast).**  The mean opinion scores give each camp its share. -/
theorem C159_mos (hJ : 0 < J) (hR : 0 < R) (hn : 0 < n) (q : Fin J → ℝ) (b : Fin n → ℝ) (d : Fin J → ℝ) (D : Finset (Fin n))
    (rd : Reader κ ℝ) (hob : ObserversHarmless rd) (ha : rd.scores = .ok ⟨J, n, R, fun j i r => .fin (twoCamps q b d D j i r)⟩) :
    ∃ res : Result κ ℝ, runMOS rd {} = .ok res ∧
      res.qualityScores = List.ofFn (fun j => .fin (q j + (∑ i, b i) / n + D.card / n * d j)) := by
  obtain ⟨b', hb', hA, hX'⟩ := twoCamps_additive (R := R) q b d D
  rw [hX'] at ha
  set A := D.map Fin.valEmbedding with hAd
  have hcard : A.card = D.card := Finset.card_map _
  set X := additive q b' (camp A d : ℕ → Fin J → Fin R → ℝ) n with hX
  obtain ⟨mos, hr, -⟩ := (runModeling_ok hob mosRunModeling {}).1 (mosAndStats (fun E _ _ => E * 2) ⟨J, n, R, _⟩ ⟨J, n, R, _⟩) (by
    unfold mosRunModeling
    rw [preprocess_default ha]
    rfl)
  have ha' : rd.scores = .ok ⟨J, n, R, maskX (allP J n R) X⟩ := ha
  refine ⟨mos, hr, ?_⟩
  rw [runMOS_default ha' hr]
  show List.ofFn (meanAlongS (maskX (allP J n R) X)) = _
  rw [init_spec, maskS_fin (allP_voted hJ hn hR)]
  congr 1
  funext j
  congr 1
  show seq (allP J n R) X 0 j = _
  rw [hX, seq_votes hJ hR hn, grand_votes hJ hR hn, camp_mean hJ hR d hA, dev_camp hJ hR d hA, cOf_steady hJ hR, hcard, hb']
  show _ + (D.card : ℝ) / n * _ = _
  ring

/-- **C159 (tie).**  If the camps are of the same size, P.910 reports the mean opinion scores: halfway between the camps, exactly. -/
theorem C159_tie (hJ : 0 < J) (hR : 0 < R) (hn : 0 < n) (q : Fin J → ℝ) (b : Fin n → ℝ) (d : Fin J → ℝ) (D : Finset (Fin n)) (h2 : 2 * D.card = n)
    (sd : StdFormula) (rd : Reader κ ℝ) (hob : ObserversHarmless rd)
    (ha : rd.scores = .ok ⟨J, n, R, fun j i r => .fin (twoCamps q b d D j i r)⟩) :
    ∃ res : Result κ ℝ, runAPWith sd rd {} = .ok res ∧ res.qualityScores = List.ofFn (fun j => .fin (q j + (∑ i, b i) / n + d j / 2)) := by
  obtain ⟨b', hb', hA, hX'⟩ := twoCamps_additive (R := R) q b d D
  rw [hX'] at ha
  set A := D.map Fin.valEmbedding with hAd
  have hcard : A.card = D.card := Finset.card_map _
  set X := additive q b' (camp A d : ℕ → Fin J → Fin R → ℝ) n with hX
  obtain ⟨res, h1, h2', -⟩ := run_real (allP J n R) X sd rd hob ha (allP_voted hJ hn hR) hn
  refine ⟨res, h1, ?_⟩
  rw [h2']
  congr 1
  funext j
  congr 1
  have hn2 : (n : ℝ) = 2 * D.card := by exact_mod_cast h2.symm
  have ht : (0 : ℝ) < D.card := by
    have : 0 < D.card := by omega
    exact_mod_cast this
  have hhalf : (D.card : ℝ) / n = 1 / 2 := by rw [hn2]; field_simp
  rw [estQ_votes hJ hR hn, camp_mean hJ hR d hA, dev_camp hJ hR d hA, cOf_steady hJ hR, hcard, hb', share_tie ht hn2 (between_nonneg _), hhalf]
  ring

/-! ## examples -/

/-- five observers on two videos: three vote 2 and 4, two vote 4 and 2.  The mean opinion scores are 0.4 apart; P.910 reports what the three see, 2 apart up to
a millionth -/
example (sd : StdFormula) : ∃ (rd : Reader String ℝ) (res mos : Result String ℝ) (s : Fin 2 → ℝ),
    runAPWith sd rd {} = .ok res ∧ runMOS rd {} = .ok mos ∧ res.qualityScores = List.ofFn (fun j => .fin (s j)) ∧
      |s 1 - s 0 - 2| ≤ 1 / 10 ^ 6 ∧ mos.qualityScores = [.fin (14 / 5), .fin (16 / 5)] := by
  have hσ : spread Finset.univ (![2, -2] : Fin 2 → ℝ) = 2 := by
    unfold spread avg
    simp only [Fin.sum_univ_two, Finset.card_univ, Fintype.card_fin]
    norm_num
    rw [show (4 : ℝ) = 2 ^ 2 by norm_num]
    exact Real.sqrt_sq (by norm_num)
  have hcard : ({3, 4} : Finset (Fin 5)).card = 2 := by decide
  obtain ⟨res, s, h1, h2, h3⟩ := C159_majority (J := 2) (n := 5) (R := 1) two_pos one_pos ![2, 4] (fun _ => 0) ![2, -2] {3, 4}
    (by rw [hcard]; norm_num) (by rw [hσ]; norm_num) sd
    (arrReader 2 5 1 fun j i r => .fin (twoCamps ![2, 4] (fun _ => 0) ![2, -2] {3, 4} j i r)) (arr_harmless _ _ _ _) rfl
  obtain ⟨mos, g1, g2⟩ := C159_mos (J := 2) (n := 5) (R := 1) two_pos one_pos (by norm_num) ![2, 4] (fun _ => 0) ![2, -2] {3, 4}
    (arrReader 2 5 1 fun j i r => .fin (twoCamps ![2, 4] (fun _ => 0) ![2, -2] {3, 4} j i r)) (arr_harmless _ _ _ _) rfl
  refine ⟨_, res, mos, s, h1, g1, h2, ?_, ?_⟩
  · have hb : 4 * ((5 : ℕ) : ℝ) / 10 ^ 8 * (1 + √((2 : ℕ) : ℝ) / spread Finset.univ (![2, -2] : Fin 2 → ℝ))
        + √((2 : ℕ) : ℝ) * spread Finset.univ (![2, -2] : Fin 2 → ℝ) * ((({3, 4} : Finset (Fin 5)).card : ℝ) / ((5 : ℕ) - ({3, 4} : Finset (Fin 5)).card)) ^ 2001
        ≤ 5 / 10 ^ 7 := by
      rw [hσ, hcard]
      have hs : √((2 : ℕ) : ℝ) ≤ 3 / 2 := by
        rw [Real.sqrt_le_iff]
        norm_num
      have hs0 := Real.sqrt_nonneg ((2 : ℕ) : ℝ)
      have hp : (((2 : ℕ) : ℝ) / ((5 : ℕ) - (2 : ℕ))) ^ 2001 ≤ 1 / 10 ^ 10 := by
        have e : (((2 : ℕ) : ℝ) / ((5 : ℕ) - (2 : ℕ))) = 2 / 3 := by norm_num
        rw [e]
        refine le_trans (pow_le_pow_of_le_one (by norm_num) (by norm_num) (by norm_num : 100 ≤ 2001)) ?_
        norm_num
      have hp0 : 0 ≤ (((2 : ℕ) : ℝ) / ((5 : ℕ) - (2 : ℕ))) ^ 2001 := by
        apply pow_nonneg
        norm_num
      generalize (((2 : ℕ) : ℝ) / ((5 : ℕ) - (2 : ℕ))) ^ 2001 = p at *
      generalize √((2 : ℕ) : ℝ) = w at *
      have hwp : w * 2 * p ≤ 3 * (1 / 10 ^ 10) := by nlinarith
      norm_num at *
      linarith
    have e0 := abs_le.mp ((h3 0).trans hb)
    have e1 := abs_le.mp ((h3 1).trans hb)
    simp only [Matrix.cons_val_zero, Matrix.cons_val_one] at e0 e1
    rw [abs_le]
    constructor <;> linarith [e0.1, e0.2, e1.1, e1.2]
  · rw [g2, hcard]
    norm_num [List.ofFn_succ]

/-- four observers, two and two: halfway -/
example (sd : StdFormula) : ∃ res : Result String ℝ,
    runAPWith sd (arrReader 2 4 1 fun j i r => .fin (twoCamps ![2, 4] (fun _ => 0) ![2, -1] {2, 3} j i r)) {} = .ok res ∧
      res.qualityScores = [.fin 3, .fin (7 / 2)] := by
  obtain ⟨res, h1, h2⟩ := C159_tie (J := 2) (n := 4) (R := 1) two_pos one_pos (by norm_num) ![2, 4] (fun _ => 0) ![2, -1] {2, 3} (by decide) sd
    (arrReader 2 4 1 fun j i r => .fin (twoCamps ![2, 4] (fun _ => 0) ![2, -1] {2, 3} j i r)) (arr_harmless _ _ _ _) rfl
  refine ⟨res, h1, ?_⟩
  rw [h2]
  norm_num [List.ofFn_succ]

end Sureal.Props
