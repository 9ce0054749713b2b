import Verif.Spec.Perf
import Verif.Lemmas.Corr
import Verif.Lemmas.Mos
import Mathlib.Algebra.Order.BigOperators.Ring.Finset
import Mathlib.Algebra.BigOperators.Fin
import Mathlib.Analysis.SpecialFunctions.Exp
/-! Lemmas on the performance metrics. -/
namespace Sureal
open Spec Perf Fl

theorem list_cauchy {α : Type} (l : List α) (f g : α → ℝ) :
    (l.map fun x => f x * g x).sum ^ 2 ≤ (l.map fun x => f x ^ 2).sum * (l.map fun x => g x ^ 2).sum := by
  rw [← Fin.sum_univ_fun_getElem l fun x => f x * g x, ← Fin.sum_univ_fun_getElem l fun x => f x ^ 2,
    ← Fin.sum_univ_fun_getElem l fun x => g x ^ 2]
  exact Finset.sum_mul_sq_le_sq_mul_sq _ _ _

theorem abs_ratio_le_one {a b c : ℝ} (hb : 0 < b) (hc : 0 < c) (h : a ^ 2 ≤ b * c) :
    -1 ≤ a / (Real.sqrt b * Real.sqrt c) ∧ a / (Real.sqrt b * Real.sqrt c) ≤ 1 := by
  rw [← abs_le, abs_div, abs_of_pos (mul_pos (Real.sqrt_pos.mpr hb) (Real.sqrt_pos.mpr hc))]
  rw [div_le_one (mul_pos (Real.sqrt_pos.mpr hb) (Real.sqrt_pos.mpr hc)), ← Real.sqrt_mul hb.le]
  exact Real.abs_le_sqrt h

theorem correlation_range {ps : List (ℝ × ℝ)} {r : ℝ} (h : correlation ps = some r) : -1 ≤ r ∧ r ≤ 1 := by
  unfold correlation at h
  split at h
  · cases h
  · rename_i hne
    push Not at hne
    cases h
    have h1 : 0 < sqDev (ps.map (·.1)) := lt_of_le_of_ne (Np.sqDev_nonneg _) (Ne.symm hne.1)
    have h2 : 0 < sqDev (ps.map (·.2)) := lt_of_le_of_ne (Np.sqDev_nonneg _) (Ne.symm hne.2)
    refine abs_ratio_le_one h1 h2 ?_
    have := list_cauchy ps (fun p => p.1 - mean (ps.map (·.1))) (fun p => p.2 - mean (ps.map (·.2)))
    simpa [sqDev, List.map_map, Function.comp_def] using this

theorem correlation_exchanged (ps : List (ℝ × ℝ)) : correlation (exchanged ps) = correlation ps := by
  unfold correlation exchanged
  simp only [List.map_map, Function.comp_def]
  by_cases h : sqDev (ps.map (·.1)) = 0 ∨ sqDev (ps.map (·.2)) = 0
  · rw [if_pos h, if_pos h.symm]
  · rw [if_neg h, if_neg (fun h' => h h'.symm)]
    congr 1
    rw [mul_comm (Real.sqrt (sqDev (ps.map fun x => x.2)))]
    congr 2
    apply List.map_congr_left
    intro p _
    ring

theorem correlation_affine {ps : List (ℝ × ℝ)} {a c : ℝ} (ha : 0 < a) (hc : 0 < c) (b d : ℝ) :
    correlation (mapped (fun x => a * x + b) (fun y => c * y + d) ps) = correlation ps := by
  by_cases hne : ps = []
  · subst hne; rfl
  · have h1 : ps.map (·.1) ≠ [] := by simpa using hne
    have h2 : ps.map (·.2) ≠ [] := by simpa using hne
    have e1 : (mapped (fun x => a * x + b) (fun y => c * y + d) ps).map (·.1) = (ps.map (·.1)).map fun x => a * x + b := by
      simp [mapped]
    have e2 : (mapped (fun x => a * x + b) (fun y => c * y + d) ps).map (·.2) = (ps.map (·.2)).map fun x => c * x + d := by
      simp [mapped]
    unfold correlation
    rw [e1, e2, sqDev_affine, sqDev_affine, mean_affine a b h1, mean_affine c d h2]
    have ha2 : a ^ 2 ≠ 0 := by positivity
    have hc2 : c ^ 2 ≠ 0 := by positivity
    simp only [mul_eq_zero, ha2, hc2, false_or]
    split
    · rfl
    · rename_i hn
      push Not at hn
      congr 1
      rw [Real.sqrt_mul (by positivity), Real.sqrt_mul (by positivity), Real.sqrt_sq ha.le, Real.sqrt_sq hc.le]
      have : ((mapped (fun x => a * x + b) (fun y => c * y + d) ps).map fun p =>
          (p.1 - (a * mean (ps.map (·.1)) + b)) * (p.2 - (c * mean (ps.map (·.2)) + d))).sum =
          (a * c) * (ps.map fun p => (p.1 - mean (ps.map (·.1))) * (p.2 - mean (ps.map (·.2)))).sum := by
        rw [← List.sum_map_mul_left]
        unfold mapped
        rw [List.map_map]
        congr 1
        apply List.map_congr_left
        intro p _
        simp only [Function.comp]
        ring
      rw [this]
      have hs1 : Real.sqrt (sqDev (ps.map (·.1))) ≠ 0 := by rw [Real.sqrt_ne_zero (Np.sqDev_nonneg _)]; exact hn.1
      have hs2 : Real.sqrt (sqDev (ps.map (·.2))) ≠ 0 := by rw [Real.sqrt_ne_zero (Np.sqDev_nonneg _)]; exact hn.2
      field_simp

theorem avgRank_mono {φ : ℝ → ℝ} (hφ : StrictMono φ) (l : List ℝ) (x : ℝ) : avgRank (l.map φ) (φ x) = avgRank l x := by
  unfold avgRank
  simp only [List.countP_map, Function.comp_def, hφ.lt_iff_lt, hφ.injective.eq_iff]

theorem rankPairs_mono {φ ψ : ℝ → ℝ} (hφ : StrictMono φ) (hψ : StrictMono ψ) (ps : List (ℝ × ℝ)) :
    rankPairs (mapped φ ψ ps) = rankPairs ps := by
  unfold rankPairs mapped
  rw [List.map_map]
  apply List.map_congr_left
  intro p _
  simp only [Function.comp, List.map_map]
  have e1 := avgRank_mono hφ (ps.map (·.1)) p.1
  have e2 := avgRank_mono hψ (ps.map (·.2)) p.2
  simp only [List.map_map] at e1 e2
  exact Prod.ext e1 e2

theorem rankPairs_exchanged (ps : List (ℝ × ℝ)) : rankPairs (exchanged ps) = exchanged (rankPairs ps) := by
  unfold rankPairs exchanged
  simp only [List.map_map, Function.comp_def]

/-! ### Kendall -/

theorem double_sum {α : Type} (F : α → α → ℝ) (hs : ∀ a b, F a b = F b a) (h0 : ∀ a, F a a = 0) (l : List α) :
    (l.map fun a => (l.map fun b => F a b).sum).sum = 2 * ((pairs l).map fun q => F q.1 q.2).sum := by
  induction l with
  | nil => simp [pairs]
  | cons a l ih =>
    have hp : ((pairs (a :: l)).map fun q => F q.1 q.2).sum = (l.map fun b => F a b).sum + ((pairs l).map fun q => F q.1 q.2).sum := by
      rw [pairs, List.map_append, List.sum_append, List.map_map]
      rfl
    rw [hp, List.map_cons, List.sum_cons, List.map_cons, List.sum_cons, h0]
    have : (l.map fun c => ((a :: l).map fun b => F c b).sum).sum =
        (l.map fun b => F a b).sum + (l.map fun c => (l.map fun b => F c b).sum).sum := by
      simp only [List.map_cons, List.sum_cons]
      rw [List.sum_map_add]
      congr 1
      congr 1
      apply List.map_congr_left
      intro b _
      exact hs b a
    rw [this, ih]
    ring

theorem sign_sub_comm (x y : ℝ) : Real.sign (x - y) = -Real.sign (y - x) := by
  rw [← Real.sign_neg, neg_sub]

theorem orderSum_pairs (ps : List (ℝ × ℝ)) : orderSum ps =
    2 * ((pairs ps).map fun q => Real.sign (q.1.1 - q.2.1) * Real.sign (q.1.2 - q.2.2)).sum := by
  unfold orderSum
  refine double_sum (fun p q : ℝ × ℝ => Real.sign (p.1 - q.1) * Real.sign (p.2 - q.2)) ?_ ?_ ps
  · intro a b; rw [sign_sub_comm a.1, sign_sub_comm a.2]; ring
  · intro a; simp

theorem pairs_map {α β : Type} (f : α → β) (l : List α) : pairs (l.map f) = (pairs l).map fun q => (f q.1, f q.2) := by
  induction l with
  | nil => rfl
  | cons a l ih => simp [pairs, ih, List.map_map, Function.comp_def]

theorem sign_mul_self_eq (x : ℝ) : Real.sign x * Real.sign x = if x = 0 then 0 else 1 := by
  rcases lt_trichotomy x 0 with h | h | h
  · rw [Real.sign_of_neg h, if_neg h.ne]; ring
  · subst h; simp
  · rw [Real.sign_of_pos h, if_neg h.ne']; ring

theorem sum_ite_count {α : Type} (l : List α) (P : α → Prop) [DecidablePred P] :
    (l.map fun a => if P a then (0 : ℝ) else 1).sum = ((l.length - l.countP (fun a => decide (P a)) : ℕ) : ℝ) := by
  induction l with
  | nil => simp
  | cons a l ih =>
    have hle : l.countP (fun a => decide (P a)) ≤ l.length := List.countP_le_length
    rw [List.map_cons, List.sum_cons, ih, List.length_cons, List.countP_cons]
    by_cases h : P a
    · simp only [h, if_true, decide_true]
      rw [show l.length + 1 - (l.countP (fun a => decide (P a)) + 1) = l.length - l.countP (fun a => decide (P a)) by omega]
      ring
    · simp only [h, if_false, decide_false, Bool.false_eq_true]
      rw [show l.length + 1 - (l.countP (fun a => decide (P a)) + 0) = l.length - l.countP (fun a => decide (P a)) + 1 by omega]
      push_cast; ring

theorem sum_sign_count (qs : List ((ℝ × ℝ) × (ℝ × ℝ))) :
    (qs.map fun q => Real.sign (q.1.1 - q.2.1) * Real.sign (q.1.2 - q.2.2)).sum =
      ((qs.map fun q => ((fin q.1.1, fin q.1.2), (fin q.2.1, fin q.2.2))).countP concordant : ℝ) -
      ((qs.map fun q => ((fin q.1.1, fin q.1.2), (fin q.2.1, fin q.2.2))).countP discordant : ℝ) := by
  induction qs with
  | nil => simp
  | cons q qs ih =>
    rw [List.map_cons, List.sum_cons, ih, List.map_cons, List.countP_cons, List.countP_cons]
    obtain ⟨⟨x, y⟩, ⟨x', y'⟩⟩ := q
    have hc : concordant ((fin x, fin y), (fin x', fin y')) = ((decide (x < x') && decide (y < y')) || (decide (x' < x) && decide (y' < y))) := rfl
    have hd : discordant ((fin x, fin y), (fin x', fin y')) = ((decide (x < x') && decide (y' < y)) || (decide (x' < x) && decide (y < y'))) := rfl
    rw [hc, hd]
    dsimp only
    rcases lt_trichotomy x x' with h | h | h <;> rcases lt_trichotomy y y' with h' | h' | h'
    all_goals first | subst h | skip
    all_goals first | subst h' | skip
    all_goals try simp only [lt_irrefl, sub_self, Real.sign_zero, zero_mul, mul_zero, decide_false, Bool.and_false, Bool.false_and,
      Bool.or_false, Bool.false_eq_true, if_false, add_zero, zero_add]
    · rw [Real.sign_of_neg (by linarith), Real.sign_of_neg (by linarith)]; simp [h, h', h.not_gt, h'.not_gt]; ring
    · rw [Real.sign_of_neg (by linarith), Real.sign_of_pos (by linarith)]; simp [h, h', h.not_gt, h'.not_gt]; ring
    · rw [Real.sign_of_pos (by linarith), Real.sign_of_neg (by linarith)]; simp [h, h', h.not_gt, h'.not_gt]; ring
    · rw [Real.sign_of_pos (by linarith), Real.sign_of_pos (by linarith)]; simp [h, h', h.not_gt, h'.not_gt]; ring

theorem tied_fin (a b : ℝ) : tied (fin a) (fin b) = decide (a - b = 0) := by
  unfold tied
  rw [Fl.le_fin, Fl.le_fin, ← Bool.decide_and, decide_eq_decide, sub_eq_zero]
  exact ⟨fun h => le_antisymm h.1 h.2, fun h => ⟨h.le, h.ge⟩⟩

theorem kendalltau_spec (ps : List (ℝ × ℝ)) :
    kendalltau (ps.map fun p => (fin p.1 : Fl ℝ)) (ps.map fun p => fin p.2) = .ok (numOrNanOf (kendallTau ps)) := by
  unfold kendalltau
  rw [if_neg (by simp)]
  have hzip : ((ps.map fun p => (fin p.1 : Fl ℝ)).zip (ps.map fun p => fin p.2)) = ps.map fun p => (fin p.1, fin p.2) := by
    rw [List.zip_map']
  simp only [hzip, pairs_map, List.length_map]
  set qs := pairs ps with hqs
  have ht1 : (qs.map fun q : (ℝ × ℝ) × (ℝ × ℝ) => (((fin q.1.1 : Fl ℝ), (fin q.1.2 : Fl ℝ)), ((fin q.2.1 : Fl ℝ), (fin q.2.2 : Fl ℝ)))).countP
      (fun q => tied q.1.1 q.2.1) = qs.countP (fun q => decide (q.1.1 - q.2.1 = 0)) := by
    rw [List.countP_map]; congr 1; funext q; exact tied_fin _ _
  have ht2 : (qs.map fun q : (ℝ × ℝ) × (ℝ × ℝ) => (((fin q.1.1 : Fl ℝ), (fin q.1.2 : Fl ℝ)), ((fin q.2.1 : Fl ℝ), (fin q.2.2 : Fl ℝ)))).countP
      (fun q => tied q.1.2 q.2.2) = qs.countP (fun q => decide (q.1.2 - q.2.2 = 0)) := by
    rw [List.countP_map]; congr 1; funext q; exact tied_fin _ _
  rw [ht1, ht2]
  have ho1 : orderSum (ps.map fun p => (p.1, p.1)) = 2 * ((qs.length - qs.countP (fun q => decide (q.1.1 - q.2.1 = 0)) : ℕ) : ℝ) := by
    rw [orderSum_pairs, pairs_map, List.map_map, ← sum_ite_count qs (fun q => q.1.1 - q.2.1 = 0)]
    congr 2
    apply List.map_congr_left
    intro q _
    exact sign_mul_self_eq _
  have ho2 : orderSum (ps.map fun p => (p.2, p.2)) = 2 * ((qs.length - qs.countP (fun q => decide (q.1.2 - q.2.2 = 0)) : ℕ) : ℝ) := by
    rw [orderSum_pairs, pairs_map, List.map_map, ← sum_ite_count qs (fun q => q.1.2 - q.2.2 = 0)]
    congr 2
    apply List.map_congr_left
    intro q _
    exact sign_mul_self_eq _
  have hn : orderSum ps = 2 * ((qs.map fun q => Real.sign (q.1.1 - q.2.1) * Real.sign (q.1.2 - q.2.2)).sum) := orderSum_pairs ps
  rw [sum_sign_count] at hn
  have hl1 : qs.countP (fun q => decide (q.1.1 - q.2.1 = 0)) ≤ qs.length := List.countP_le_length
  have hl2 : qs.countP (fun q => decide (q.1.2 - q.2.2 = 0)) ≤ qs.length := List.countP_le_length
  unfold kendallTau
  rw [ho1, ho2, hn]
  generalize qs.countP (fun q => decide (q.1.1 - q.2.1 = 0)) = t1 at *
  generalize qs.countP (fun q => decide (q.1.2 - q.2.2 = 0)) = t2 at *
  generalize qs.length = tot at *
  have z : ∀ t, t ≤ tot → (2 * ((tot - t : ℕ) : ℝ) = 0 ↔ t = tot) := by
    intro t ht
    rw [mul_eq_zero, or_iff_right two_ne_zero, Nat.cast_eq_zero]
    omega
  simp only [z t1 hl1, z t2 hl2]
  by_cases h : t1 = tot ∨ t2 = tot
  · rw [if_pos h, if_pos h]; rfl
  · rw [if_neg h, if_neg h]
    push Not at h
    have p1 : (0 : ℝ) < ((tot - t1 : ℕ) : ℝ) := by rw [Nat.cast_pos]; omega
    have p2 : (0 : ℝ) < ((tot - t2 : ℕ) : ℝ) := by rw [Nat.cast_pos]; omega
    have s1 : Real.sqrt ((tot - t1 : ℕ) : ℝ) ≠ 0 := (Real.sqrt_pos.mpr p1).ne'
    have s2 : Real.sqrt ((tot - t2 : ℕ) : ℝ) ≠ 0 := (Real.sqrt_pos.mpr p2).ne'
    rw [Fl.sqrt_fin p1.le, Fl.sqrt_fin p2.le]
    show Except.ok _ = _
    congr 1
    rw [Fl.fin_sub, show (MathFn.sqrt ((tot - t1 : ℕ) : ℝ)) = Real.sqrt _ from rfl,
      show (MathFn.sqrt ((tot - t2 : ℕ) : ℝ)) = Real.sqrt _ from rfl, Fl.fin_div s1, Fl.fin_div s2]
    simp only [numOrNanOf]
    congr 1
    rw [Real.sqrt_mul (by norm_num), Real.sqrt_mul (by norm_num)]
    have h2 : Real.sqrt 2 * Real.sqrt 2 = 2 := Real.mul_self_sqrt (by norm_num)
    rw [show Real.sqrt 2 * Real.sqrt ((tot - t1 : ℕ) : ℝ) * (Real.sqrt 2 * Real.sqrt ((tot - t2 : ℕ) : ℝ)) =
      2 * (Real.sqrt ((tot - t1 : ℕ) : ℝ) * Real.sqrt ((tot - t2 : ℕ) : ℝ)) by linear_combination (Real.sqrt ((tot - t1 : ℕ) : ℝ) * Real.sqrt ((tot - t2 : ℕ) : ℝ)) * h2]
    rw [mul_div_mul_left _ _ two_ne_zero, div_div]

theorem kendall_range {ps : List (ℝ × ℝ)} {r : ℝ} (h : kendallTau ps = some r) : -1 ≤ r ∧ r ≤ 1 := by
  have nn : ∀ f : ℝ × ℝ → ℝ, orderSum (ps.map fun p => (f p, f p)) = 2 * ((pairs ps).map fun q => Real.sign (f q.1 - f q.2) ^ 2).sum := by
    intro f
    rw [orderSum_pairs, pairs_map, List.map_map]
    congr 2
    apply List.map_congr_left
    intro q _
    simp only [Function.comp]; ring
  unfold kendallTau at h
  split at h
  · cases h
  · rename_i hne
    push Not at hne
    cases h
    have pos : ∀ f : ℝ × ℝ → ℝ, 0 ≤ orderSum (ps.map fun p => (f p, f p)) := by
      intro f
      rw [nn f]
      apply mul_nonneg (by norm_num)
      apply List.sum_nonneg
      intro y hy
      obtain ⟨z, _, rfl⟩ := List.mem_map.mp hy
      positivity
    refine abs_ratio_le_one (lt_of_le_of_ne (pos (·.1)) (Ne.symm hne.1)) (lt_of_le_of_ne (pos (·.2)) (Ne.symm hne.2)) ?_
    rw [nn (·.1), nn (·.2), orderSum_pairs]
    have := list_cauchy (pairs ps) (fun q => Real.sign (q.1.1 - q.2.1)) (fun q => Real.sign (q.1.2 - q.2.2))
    nlinarith

theorem orderSum_exchanged (ps : List (ℝ × ℝ)) : orderSum (exchanged ps) = orderSum ps := by
  unfold orderSum exchanged
  simp only [List.map_map, Function.comp_def, mul_comm]

theorem kendall_exchanged (ps : List (ℝ × ℝ)) : kendallTau (exchanged ps) = kendallTau ps := by
  unfold kendallTau
  rw [orderSum_exchanged]
  simp only [exchanged, List.map_map, Function.comp_def]
  by_cases h : orderSum (ps.map fun p => (p.1, p.1)) = 0 ∨ orderSum (ps.map fun p => (p.2, p.2)) = 0
  · rw [if_pos h, if_pos h.symm]
  · rw [if_neg h, if_neg (fun h' => h h'.symm), mul_comm]

theorem sign_mono {φ : ℝ → ℝ} (hφ : StrictMono φ) (x y : ℝ) : Real.sign (φ x - φ y) = Real.sign (x - y) := by
  rcases lt_trichotomy x y with h | h | h
  · rw [Real.sign_of_neg (by linarith [hφ h]), Real.sign_of_neg (by linarith)]
  · subst h; simp
  · rw [Real.sign_of_pos (by linarith [hφ h]), Real.sign_of_pos (by linarith)]

theorem orderSum_mono {φ ψ : ℝ → ℝ} (hφ : StrictMono φ) (hψ : StrictMono ψ) (ps : List (ℝ × ℝ)) :
    orderSum (mapped φ ψ ps) = orderSum ps := by
  unfold orderSum mapped
  simp only [List.map_map, Function.comp_def, sign_mono hφ, sign_mono hψ]

theorem kendall_mono {φ ψ : ℝ → ℝ} (hφ : StrictMono φ) (hψ : StrictMono ψ) (ps : List (ℝ × ℝ)) :
    kendallTau (mapped φ ψ ps) = kendallTau ps := by
  unfold kendallTau
  rw [orderSum_mono hφ hψ]
  have e1 : (mapped φ ψ ps).map (fun p => (p.1, p.1)) = mapped φ φ (ps.map fun p => (p.1, p.1)) := by
    simp [mapped, Function.comp_def]
  have e2 : (mapped φ ψ ps).map (fun p => (p.2, p.2)) = mapped ψ ψ (ps.map fun p => (p.2, p.2)) := by
    simp [mapped, Function.comp_def]
  rw [e1, e2, orderSum_mono hφ hφ, orderSum_mono hψ hψ]

/-! ### the metrics on finite numbers -/

theorem pcc_spec {ps : List (ℝ × ℝ)} (h : 2 ≤ ps.length) :
    Stats.pearsonr (ps.map fun p => (fin p.1 : Fl ℝ)) (ps.map fun p => fin p.2) = .ok (numOrNanOf (correlation ps)) := by
  unfold Stats.pearsonr
  rw [if_neg (by simp), List.length_map, if_neg (by omega), corr_spec (by intro h0; rw [h0] at h; simp at h)]

theorem srcc_spec (ps : List (ℝ × ℝ)) :
    Stats.spearmanr (ps.map fun p => (fin p.1 : Fl ℝ)) (ps.map fun p => fin p.2) = .ok (numOrNanOf (correlation (rankPairs ps))) := by
  have hx : (ps.map fun p => (fin p.1 : Fl ℝ)) = (ps.map (·.1)).map fin := by simp
  have hy : (ps.map fun p => (fin p.2 : Fl ℝ)) = (ps.map (·.2)).map fin := by simp
  unfold Stats.spearmanr
  rw [if_neg (by simp), List.length_map]
  by_cases hl : ps.length < 2
  · rw [if_pos hl]
    unfold correlation
    rw [if_pos]
    · rfl
    · left; apply sqDev_short; simpa [rankPairs] using hl
  · rw [if_neg hl]
    have hne : rankPairs ps ≠ [] := by
      intro h0
      have : (rankPairs ps).length = 0 := by rw [h0]; rfl
      simp [rankPairs] at this
      rw [this] at hl; simp at hl
    rw [← corr_spec hne]
    congr 2
    · rw [hx, rank_map]
      simp [rankPairs, Function.comp_def]
    · rw [hy, rank_map]
      simp [rankPairs, Function.comp_def]

theorem rmse_spec {ps : List (ℝ × ℝ)} (h : ps ≠ []) :
    Perf.rmse (ps.map fun p => (fin p.1 : Fl ℝ)) (ps.map fun p => fin p.2) = .ok (fin (rmsError ps)) := by
  unfold Perf.rmse rmsError
  have : List.zipWith (fun a b : Fl ℝ => (a - b).sq) (ps.map fun p => (fin p.1 : Fl ℝ)) (ps.map fun p => fin p.2) =
      (ps.map fun p => (p.1 - p.2) ^ 2).map fin := by
    rw [List.zipWith_map, List.zipWith_self, List.map_map]
    apply List.map_congr_left
    intro p _
    simp [pow_two]
  rw [this, Np.mean_map_fin (by simpa using h), Fl.sqrt_fin]
  · rfl
  · unfold mean
    apply div_nonneg
    · apply List.sum_nonneg
      intro y hy
      obtain ⟨z, _, rfl⟩ := List.mem_map.mp hy
      positivity
    · positivity

theorem evaluate_pairs (m : Metric) (aggr : List (Fl ℝ) → Fl ℝ) (ps : List (ℝ × ℝ)) :
    evaluate m aggr none (truths ps) (predictions ps) = m.score (ps.map fun p => (fin p.1 : Fl ℝ)) (ps.map fun p => fin p.2) := by
  unfold evaluate assertArgs truths predictions
  rw [if_pos (by simp)]
  dsimp only
  rw [List.map_map]
  rfl

/-! ### order reversed on one side -/

theorem avgRank_anti {ψ : ℝ → ℝ} (hψ : StrictAnti ψ) {l : List ℝ} (x : ℝ) :
    avgRank (l.map ψ) (ψ x) = (-1) * avgRank l x + (l.length + 1) := by
  unfold avgRank
  simp only [List.countP_map, Function.comp_def, hψ.lt_iff_gt, hψ.injective.eq_iff]
  have : l.length = l.countP (fun y => decide (y < x)) + l.countP (fun y => decide (y = x)) + l.countP (fun y => decide (x < y)) := by
    induction l with
    | nil => simp
    | cons y l ih =>
      simp only [List.length_cons, List.countP_cons, ih]
      rcases lt_trichotomy y x with h | h | h
      · simp [h, h.ne, h.not_gt]; omega
      · simp [h]; omega
      · simp [h, h.ne', h.not_gt]; omega
  have h' : (l.length : ℝ) = l.countP (fun y => decide (y < x)) + l.countP (fun y => decide (y = x)) + l.countP (fun y => decide (x < y)) := by
    exact_mod_cast this
  rw [h']; ring

theorem rankPairs_anti {ψ : ℝ → ℝ} (hψ : StrictAnti ψ) (ps : List (ℝ × ℝ)) :
    rankPairs (mapped id ψ ps) = mapped id (fun y => (-1) * y + (ps.length + 1)) (rankPairs ps) := by
  unfold rankPairs mapped
  rw [List.map_map (l := ps), List.map_map (l := ps) (g := fun p : ℝ × ℝ => (id p.1, (fun y => -1 * y + ((ps.length : ℝ) + 1)) p.2))]
  apply List.map_congr_left
  intro p _
  simp only [Function.comp, List.map_map]
  have e2 := avgRank_anti hψ (l := ps.map (·.2)) p.2
  simp only [List.map_map, List.length_map] at e2
  exact Prod.ext rfl e2

theorem correlation_neg (d : ℝ) (ps : List (ℝ × ℝ)) :
    correlation (mapped id (fun y => (-1) * y + d) ps) = (correlation ps).map (-·) := by
  by_cases hne : ps = []
  · subst hne; simp [mapped, correlation, sqDev]
  · have h2 : ps.map (·.2) ≠ [] := by simpa using hne
    have e1 : (mapped id (fun y => (-1) * y + d) ps).map (·.1) = ps.map (·.1) := by simp [mapped]
    have e2 : (mapped id (fun y => (-1) * y + d) ps).map (·.2) = (ps.map (·.2)).map fun x => (-1) * x + d := by simp [mapped]
    unfold correlation
    rw [e1, e2, sqDev_affine, mean_affine (-1) d h2]
    rw [show ((-1 : ℝ)) ^ 2 * sqDev (ps.map (·.2)) = sqDev (ps.map (·.2)) by ring]
    split
    · rfl
    · simp only [Option.map_some]
      congr 1
      rw [← neg_div]
      congr 1
      rw [← neg_one_mul (List.sum _), ← List.sum_map_mul_left]
      unfold mapped
      rw [List.map_map]
      congr 1
      apply List.map_congr_left
      intro p _
      simp only [Function.comp, id]
      ring

theorem kendall_anti {ψ : ℝ → ℝ} (hψ : StrictAnti ψ) (ps : List (ℝ × ℝ)) :
    kendallTau (mapped id ψ ps) = (kendallTau ps).map (-·) := by
  have hs : ∀ x y, Real.sign (ψ x - ψ y) = -Real.sign (x - y) := by
    intro x y
    rcases lt_trichotomy x y with h | h | h
    · rw [Real.sign_of_pos (by linarith [hψ h]), Real.sign_of_neg (by linarith)]; ring
    · subst h; simp
    · rw [Real.sign_of_neg (by linarith [hψ h]), Real.sign_of_pos (by linarith)]
  have h0 : orderSum (mapped id ψ ps) = -orderSum ps := by
    rw [show ∀ x : ℝ, -x = (-1) * x from fun x => by ring]
    unfold orderSum mapped
    rw [← List.sum_map_mul_left]
    simp only [List.map_map, Function.comp_def, hs, id]
    congr 1
    apply List.map_congr_left
    intro p _
    rw [← List.sum_map_mul_left]
    congr 1
    apply List.map_congr_left
    intro q _
    ring
  have h1 : orderSum ((mapped id ψ ps).map fun p => (p.1, p.1)) = orderSum (ps.map fun p => (p.1, p.1)) := by
    simp [mapped, Function.comp_def]
  have h2 : orderSum ((mapped id ψ ps).map fun p => (p.2, p.2)) = orderSum (ps.map fun p => (p.2, p.2)) := by
    unfold orderSum mapped
    simp only [List.map_map, Function.comp_def, hs, neg_mul_neg]
  unfold kendallTau
  rw [h0, h1, h2]
  split
  · rfl
  · simp only [Option.map_some, neg_div]

/-! ### the sigmoid mapping -/

/-- the mapping the code applies, on the reals -/
noncomputable def sigmoidReal (hi lo a b x : ℝ) : ℝ := 1 / (1 + Real.exp (-(x - a) / b)) * (hi - lo) + lo

theorem sigmoidReal_range {hi lo : ℝ} (h : lo < hi) (a b x : ℝ) : lo < sigmoidReal hi lo a b x ∧ sigmoidReal hi lo a b x < hi := by
  unfold sigmoidReal
  have he := Real.exp_pos (-(x - a) / b)
  have h1 : 0 < 1 / (1 + Real.exp (-(x - a) / b)) := by positivity
  have h2 : 1 / (1 + Real.exp (-(x - a) / b)) < 1 := by rw [div_lt_one (by linarith)]; linarith
  constructor <;> nlinarith

theorem sigmoidReal_mono {hi lo a b : ℝ} (h : lo < hi) (hb : 0 < b) : StrictMono (sigmoidReal hi lo a b) := by
  intro x y hxy
  unfold sigmoidReal
  have hlt : Real.exp (-(y - a) / b) < Real.exp (-(x - a) / b) := by
    rw [Real.exp_lt_exp, div_lt_div_iff_of_pos_right hb]; linarith
  have h1 : 1 / (1 + Real.exp (-(x - a) / b)) < 1 / (1 + Real.exp (-(y - a) / b)) :=
    one_div_lt_one_div_of_lt (by linarith [Real.exp_pos (-(y - a) / b)]) (by linarith)
  nlinarith

theorem sigmoidReal_anti {hi lo a b : ℝ} (h : lo < hi) (hb : b < 0) : StrictAnti (sigmoidReal hi lo a b) := by
  intro x y hxy
  unfold sigmoidReal
  have hlt : Real.exp (-(x - a) / b) < Real.exp (-(y - a) / b) := by
    rw [Real.exp_lt_exp, div_lt_div_right_of_neg hb]; linarith
  have h1 : 1 / (1 + Real.exp (-(y - a) / b)) < 1 / (1 + Real.exp (-(x - a) / b)) :=
    one_div_lt_one_div_of_lt (by linarith [Real.exp_pos (-(x - a) / b)]) (by linarith)
  nlinarith

theorem npMax_fin (x : ℝ) (l : List ℝ) :
    ∃ m, npMax ((x :: l).map fun y => (fin y : Fl ℝ)) = .ok (fin m) ∧ m ∈ x :: l ∧ ∀ y ∈ x :: l, y ≤ m := by
  rw [List.map_cons]
  unfold npMax
  induction l generalizing x with
  | nil => exact ⟨x, rfl, by simp, by simp⟩
  | cons z l ih =>
    rw [List.map_cons]
    dsimp only at ih ⊢
    rw [List.foldl_cons]
    simp only [isNan_fin, Bool.false_eq_true, if_false, lt_fin, decide_eq_true_eq]
    by_cases h : x < z
    · rw [if_pos h]
      obtain ⟨m, h1, h2, h3⟩ := ih z
      refine ⟨m, h1, by simp only [List.mem_cons] at h2 ⊢; tauto, ?_⟩
      intro y hy
      rcases List.mem_cons.mp hy with rfl | hy
      · exact h.le.trans (h3 z (by simp))
      · exact h3 y hy
    · rw [if_neg h]
      obtain ⟨m, h1, h2, h3⟩ := ih x
      refine ⟨m, h1, by simp only [List.mem_cons] at h2 ⊢; tauto, ?_⟩
      intro y hy
      rcases List.mem_cons.mp hy with rfl | hy
      · exact h3 y (by simp)
      · rcases List.mem_cons.mp hy with rfl | hy
        · exact (not_lt.mp h).trans (h3 x (by simp))
        · exact h3 y (by simp [hy])

theorem npMin_fin (x : ℝ) (l : List ℝ) :
    ∃ m, npMin ((x :: l).map fun y => (fin y : Fl ℝ)) = .ok (fin m) ∧ m ∈ x :: l ∧ ∀ y ∈ x :: l, m ≤ y := by
  rw [List.map_cons]
  unfold npMin
  induction l generalizing x with
  | nil => exact ⟨x, rfl, by simp, by simp⟩
  | cons z l ih =>
    rw [List.map_cons]
    dsimp only at ih ⊢
    rw [List.foldl_cons]
    simp only [isNan_fin, Bool.false_eq_true, if_false, lt_fin, decide_eq_true_eq]
    by_cases h : z < x
    · rw [if_pos h]
      obtain ⟨m, h1, h2, h3⟩ := ih z
      refine ⟨m, h1, by simp only [List.mem_cons] at h2 ⊢; tauto, ?_⟩
      intro y hy
      rcases List.mem_cons.mp hy with rfl | hy
      · exact (h3 z (by simp)).trans h.le
      · exact h3 y hy
    · rw [if_neg h]
      obtain ⟨m, h1, h2, h3⟩ := ih x
      refine ⟨m, h1, by simp only [List.mem_cons] at h2 ⊢; tauto, ?_⟩
      intro y hy
      rcases List.mem_cons.mp hy with rfl | hy
      · exact h3 y (by simp)
      · rcases List.mem_cons.mp hy with rfl | hy
        · exact (h3 x (by simp)).trans (not_lt.mp h)
        · exact h3 y (by simp [hy])

theorem sigmoidAdjust_fin {fit : List (Fl ℝ) → List (Fl ℝ) → Fl ℝ × Fl ℝ} {xs ys : List ℝ} (hy : ys ≠ [])
    {a b : ℝ} (hb : b ≠ 0) (hfit : ∀ zs, fit zs (xs.map fin) = (fin a, fin b)) :
    ∃ mx mn, mx ∈ ys ∧ mn ∈ ys ∧ (∀ y ∈ ys, mn ≤ y ∧ y ≤ mx) ∧
      sigmoidAdjust fit (xs.map fin) (ys.map fin) = .ok ((xs.map (sigmoidReal (mx + 1 / 10) (mn - 1 / 10) a b)).map fin) := by
  obtain ⟨y, l, rfl⟩ := List.exists_cons_of_ne_nil hy
  obtain ⟨mx, e1, m1, b1⟩ := npMax_fin y l
  obtain ⟨mn, e2, m2, b2⟩ := npMin_fin y l
  refine ⟨mx, mn, m1, m2, fun z hz => ⟨b2 z hz, b1 z hz⟩, ?_⟩
  unfold sigmoidAdjust
  rw [e1, e2]
  dsimp only
  rw [hfit]
  have hd : (Fl.dec 1 10 : Fl ℝ) = fin (1 / 10) := by unfold Fl.dec; norm_num
  congr 1
  rw [List.map_map, List.map_map]
  apply List.map_congr_left
  intro x _
  simp only [Function.comp, hd]
  unfold sigmoidReal
  have hpos : (1 + Real.exp (-(x - a) / b)) ≠ 0 := by positivity
  rw [Fl.fin_sub, Fl.fin_neg, Fl.fin_div hb, Fl.exp_fin, Fl.one_def, Fl.fin_add]
  rw [show (MathFn.exp (-(x - a) / b) : ℝ) = Real.exp (-(x - a) / b) from rfl, Fl.fin_div hpos, Fl.fin_add, Fl.fin_sub, Fl.fin_sub, Fl.fin_mul, Fl.fin_add]

end Sureal
