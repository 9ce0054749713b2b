import Verif.Props.TwoVideos
import Verif.Props.BtNr
/-!
# C166 for the Newton-Raphson variant of the Bradley-Terry model: what it reports
-/
set_option linter.unusedSectionVars false
namespace Sureal.Props
open Spec Spec.BT BtMath AddedWin
variable {M n : ℕ}

/-- moving the scores one way moves the balances the other way -/
theorem pull_monotone {s : ℝ → ℝ} (hs : Antitone s) {A : Fin M → Fin M → ℝ} (hA : ∀ i j, 0 ≤ A i j) (v v' : Fin M → ℝ) :
    ∑ k, (v' k - v k) * (pull s A v' k - pull s A v k) ≤ 0 := by
  have e : ∑ k, (v' k - v k) * (pull s A v' k - pull s A v k) =
      ∑ k, ∑ l, A k l * (s (v' k - v' l) - s (v k - v l)) * ((v' k - v k) - (v' l - v l)) := by
    have e1 : ∀ k, (v' k - v k) * (pull s A v' k - pull s A v k) = ∑ l, (v' k - v k) * (A k l * (s (v' k - v' l) - s (v k - v l))) -
        ∑ l, (v' k - v k) * (A l k * (s (v' l - v' k) - s (v l - v k))) := by
      intro k
      unfold pull
      rw [← Finset.sum_sub_distrib, Finset.mul_sum, ← Finset.sum_sub_distrib]
      exact Finset.sum_congr rfl fun l _ => by ring
    rw [Finset.sum_congr rfl fun k _ => e1 k, Finset.sum_sub_distrib]
    rw [Finset.sum_comm (f := fun k l => (v' k - v k) * (A l k * (s (v' l - v' k) - s (v l - v k)))), ← Finset.sum_sub_distrib]
    refine Finset.sum_congr rfl fun k _ => ?_
    rw [← Finset.sum_sub_distrib]
    exact Finset.sum_congr rfl fun l _ => by ring
  rw [e]
  refine Finset.sum_nonpos fun k _ => Finset.sum_nonpos fun l _ => ?_
  rw [mul_assoc]
  refine mul_nonpos_of_nonneg_of_nonpos (hA k l) ?_
  rcases le_total (v' k - v' l) (v k - v l) with h | h
  · exact mul_nonpos_of_nonneg_of_nonpos (by linarith [hs h]) (by linarith)
  · exact mul_nonpos_of_nonpos_of_nonneg (by linarith [hs h]) (by linarith)

theorem loseChance_exp (x y : ℝ) : loseChance (x - y) = Real.exp y / (Real.exp x + Real.exp y) := by
  have := loseChance_log (Real.exp_pos x) (Real.exp_pos y)
  rwa [Real.log_exp, Real.log_exp] at this

theorem pull_gradG (A : Fin M → Fin M → ℝ) (γ : Fin M → ℝ) (k : Fin M) : pull loseChance A γ k = gradG A k γ := by
  unfold pull gradG wins games
  rw [← Finset.sum_sub_distrib]
  refine Finset.sum_congr rfl fun l _ => ?_
  rw [loseChance_exp, loseChance_exp]
  have := Real.exp_pos (γ k)
  have := Real.exp_pos (γ l)
  rw [add_comm (Real.exp (γ l))]
  field_simp
  ring

/-- what the model reports: the last score is 0, and the balances are small -/
theorem nr_reported {A : Fin (n + 1) → Fin (n + 1) → ℝ} {pinv} (hpi : InverseWhereExists pinv) (hA : ∀ i j, 0 ≤ A i j) (hD : ∀ i, A i i = 0) (hc : Connected A)
    {zscore : Flag} (hz : zscore.isTrue = false) {g} (h : Bt.NrRun pinv zscore (mat A) (.ok g)) :
    ∃ γ : Fin (n + 1) → ℝ, g = vec γ ∧ γ (Fin.last n) = 0 ∧ ∀ i : Fin n, |gradG A i.castSucc γ| ≤ 1 / 10 ^ 8 * ∑ j, games A i.castSucc j := by
  cases h with
  | done h =>
    rename_i ga
    have hp := C59_last_invariant h rfl
    obtain ⟨γ, hr, hg⟩ := C59_stop hpi hA hD hc h
    have hga : ga = vec γ := Except.ok.inj hr
    subst hga
    rw [hz]
    refine ⟨γ, ?_, ?_, fun i => ?_⟩
    · rw [hp]
      rfl
    · have := congrFun hp (Fin.last n)
      unfold Bt.pinLast at this
      rw [if_pos (Fin.val_last n)] at this
      exact (Fl.fin_inj.mp this).symm
    · obtain ⟨x, h1, h2⟩ := hg i
      have : x = gradG A i.castSucc γ := (Fl.fin_inj.mp ((congrFun (Bt.grad_fl hA) i).symm.trans h1)).symm
      rw [← this]
      exact h2

/-- **C166, the Newton-Raphson variant (partial).**  Whatever the two runs report, with additional wins of `i` over `j` the lead of `i` over `j` can only be smaller by as much as
the stopping rule leaves open: `w` times the chance that `i` loses against `j` times the growth of the lead is at least -10⁻⁸ times the changes of the scores,
weighted with the numbers of comparisons.

Missing: that the lead becomes larger, which holds for the exact estimates (`C166_estimate`), and that the runs end. -/
theorem C166_newton_partial {A : Fin (n + 1) → Fin (n + 1) → ℝ} {pinv} (hpi : InverseWhereExists pinv) (hA : ∀ i j, 0 ≤ A i j) (hD : ∀ i, A i i = 0) (hc : Connected A)
    {i j : Fin (n + 1)} (hij : i ≠ j) {w : ℝ} (hw : 0 < w) {zscore : Flag} (hz : zscore.isTrue = false) {g g'}
    (h : Bt.NrRun pinv zscore (mat A) (.ok g)) (h' : Bt.NrRun pinv zscore (mat (withWins A i j w)) (.ok g')) :
    ∃ γ γ' : Fin (n + 1) → ℝ, g = vec γ ∧ g' = vec γ' ∧
      -(1 / 10 ^ 8 * ∑ k, (∑ l, (games A k l + games (withWins A i j w) k l)) * |γ' k - γ k|) ≤
        w * (1 / (1 + Real.exp (γ' i - γ' j))) * ((γ' i - γ' j) - (γ i - γ j)) := by
  have hA' := withWins_nonneg hA i j hw
  have hD' : ∀ k, withWins A i j w k k = 0 := by
    intro k
    unfold withWins
    rw [if_neg (fun hk => hij (hk.1.symm.trans hk.2)), hD, add_zero]
  have hc' : Connected (withWins A i j w) := by
    intro a b
    refine Relation.ReflTransGen.mono (fun k l hkl => ?_) a b (hc a b)
    unfold games withWins at *
    split_ifs <;> linarith
  obtain ⟨γ, rfl, h0, hg⟩ := nr_reported hpi hA hD hc hz h
  obtain ⟨γ', rfl, h0', hg'⟩ := nr_reported hpi hA' hD' hc' hz h'
  refine ⟨γ, γ', rfl, rfl, ?_⟩
  have hmono := pull_monotone (s := loseChance) (fun x y hxy => loseChance_anti.antitoneOn (Set.mem_univ x) (Set.mem_univ y) hxy) hA γ γ'
  set c := w * loseChance (γ' i - γ' j) with hcdef
  have hpull : ∀ k, pull loseChance A γ' k = gradG (withWins A i j w) k γ' - c * ((if k = i then 1 else 0) - if k = j then 1 else 0) := by
    intro k
    rw [← pull_gradG, pull_withWins]
    ring
  have hsum : ∑ k, (γ' k - γ k) * (pull loseChance A γ' k - pull loseChance A γ k) =
      ∑ k, (γ' k - γ k) * (gradG (withWins A i j w) k γ' - gradG A k γ) - c * ((γ' i - γ i) - (γ' j - γ j)) := by
    have e : ∀ k, (γ' k - γ k) * (pull loseChance A γ' k - pull loseChance A γ k) = (γ' k - γ k) * (gradG (withWins A i j w) k γ' - gradG A k γ) -
        ((if k = i then c * (γ' k - γ k) else 0) - if k = j then c * (γ' k - γ k) else 0) := by
      intro k
      rw [hpull, pull_gradG]
      split_ifs <;> ring
    rw [Finset.sum_congr rfl fun k _ => e k, Finset.sum_sub_distrib, Finset.sum_sub_distrib, Finset.sum_ite_eq' Finset.univ i, Finset.sum_ite_eq' Finset.univ j,
      if_pos (Finset.mem_univ i), if_pos (Finset.mem_univ j)]
    ring
  have hterm : ∀ k, -(1 / 10 ^ 8 * ((∑ l, (games A k l + games (withWins A i j w) k l)) * |γ' k - γ k|)) ≤
      (γ' k - γ k) * (gradG (withWins A i j w) k γ' - gradG A k γ) := by
    intro k
    rcases Fin.eq_castSucc_or_eq_last k with ⟨m, rfl⟩ | rfl
    · have b : |gradG (withWins A i j w) m.castSucc γ' - gradG A m.castSucc γ| ≤ 1 / 10 ^ 8 * ∑ l, (games A m.castSucc l + games (withWins A i j w) m.castSucc l) := by
        rw [Finset.sum_add_distrib, mul_add]
        have := abs_sub (gradG (withWins A i j w) m.castSucc γ') (gradG A m.castSucc γ)
        linarith [hg m, hg' m]
      have b2 := mul_le_mul_of_nonneg_left b (abs_nonneg (γ' m.castSucc - γ m.castSucc))
      rw [← abs_mul] at b2
      have := neg_abs_le ((γ' m.castSucc - γ m.castSucc) * (gradG (withWins A i j w) m.castSucc γ' - gradG A m.castSucc γ))
      linarith
    · rw [h0, h0', sub_self, abs_zero, mul_zero, mul_zero, neg_zero, zero_mul]
  have hall := Finset.sum_le_sum fun k (_ : k ∈ Finset.univ) => hterm k
  rw [Finset.sum_neg_distrib, ← Finset.mul_sum] at hall
  have hfin : ∑ k, (γ' k - γ k) * (gradG (withWins A i j w) k γ' - gradG A k γ) ≤ c * ((γ' i - γ i) - (γ' j - γ j)) := by linarith
  have hge := hall.trans hfin
  have e1 : c = w * (1 / (1 + Real.exp (γ' i - γ' j))) := rfl
  rw [← e1]
  have e2 : (γ' i - γ' j) - (γ i - γ j) = (γ' i - γ i) - (γ' j - γ j) := by ring
  rw [e2]
  exact hge

/-! ## example -/

/-- two videos compared so often and so evenly that the first pass is the last -/
theorem even_newton {pinv} (hp : InverseWhereExists pinv) {x y : ℝ} (hx : 0 < x) (hy : 0 < y) (hxy : 2 * |x - y| ≤ 1 / 10 ^ 8 * (x + y)) :
    ∃ g : Fin 2 → Fl ℝ, Bt.NrRun pinv none (mat (![![0, x], ![y, 0]] : Fin 2 → Fin 2 → ℝ)) (.ok g) := by
  set A : Fin 2 → Fin 2 → ℝ := ![![0, x], ![y, 0]] with hA
  have hb : BothWon A := ⟨by simpa [hA] using hx, by simpa [hA] using hy, fun i => by fin_cases i <;> simp [hA]⟩
  obtain ⟨c, h1, h2⟩ := Bt.nrChange_fl (n := 1) (γ := fun _ : Fin 2 => (0 : ℝ)) hp hb.nonneg hb.diag (ford_connected hb.nonneg hb.ford)
  have h3 := h2 0
  have hc : c 0 * (x + y) = -2 * (x - y) := by
    simp [hessR, curvG, winP, gradG, games, wins, hA, Fin.sum_univ_two] at h3
    linarith
  refine ⟨_, .done (.stop h1 (Bt.norm_vec (M := 2) (ext0 c)) ?_)⟩
  rw [Bt.thr_fl]
  refine decide_eq_false (not_lt.mpr ?_)
  have e0 : ext0 c 0 = c 0 := ext0_castSucc c 0
  have e1 : ext0 c 1 = 0 := rfl
  rw [Fin.sum_univ_two, e0, e1, zero_pow two_ne_zero, add_zero, Real.sqrt_sq_eq_abs]
  have hs : 0 < x + y := add_pos hx hy
  have : |c 0| * (x + y) = 2 * |x - y| := by
    rw [← abs_of_pos hs, ← abs_mul, hc, abs_mul]
    norm_num
  rw [← this] at hxy
  exact le_of_mul_le_mul_right hxy hs

/-- the theorem applies: a thousand million comparisons, and one more -/
example {pinv} (hp : InverseWhereExists pinv) : ∃ g g' : Fin 2 → Fl ℝ, Bt.NrRun pinv none (mat (![![0, 10 ^ 9], ![10 ^ 9, 0]] : Fin 2 → Fin 2 → ℝ)) (.ok g) ∧
    Bt.NrRun pinv none (mat (withWins (![![0, 10 ^ 9], ![10 ^ 9, 0]] : Fin 2 → Fin 2 → ℝ) 0 1 1)) (.ok g') := by
  obtain ⟨g, h⟩ := even_newton hp (x := 10 ^ 9) (y := 10 ^ 9) (by norm_num) (by norm_num) (by norm_num)
  obtain ⟨g', h'⟩ := even_newton hp (x := 10 ^ 9 + 1) (y := 10 ^ 9) (by norm_num) (by norm_num) (by norm_num)
  refine ⟨g, g', h, ?_⟩
  have : withWins (![![0, 10 ^ 9], ![10 ^ 9, 0]] : Fin 2 → Fin 2 → ℝ) 0 1 1 = ![![0, 10 ^ 9 + 1], ![10 ^ 9, 0]] := by
    funext k l
    fin_cases k <;> fin_cases l <;> simp [withWins]
  rw [this]
  exact h'

end Sureal.Props
