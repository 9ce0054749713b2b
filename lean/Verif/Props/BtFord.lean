import Verif.Props.Bt
import Verif.Lemmas.BtFord
/-!
# C99: the Bradley-Terry maximum likelihood model and its estimate
-/
set_option linter.unusedSectionVars false
namespace Sureal.Props
open Spec.BT BtMath Filter Topology
variable {M : ℕ} {A : Fin M → Fin M → ℝ} {p q : Fin M → ℝ}

/-- **C99, existence.** For videos linked by comparisons, there is a maximum likelihood estimate if and only if Ford's condition holds, and then
only one. -/
theorem C99_exists_iff (hA : ∀ i j, 0 ≤ A i j) (hc : Connected A) (hM : 2 ≤ M) :
    ((∃ p, IsMle A p) ↔ Ford A) ∧ ∀ p q, IsMle A p → IsMle A q → p = q := by
  have hiff : (∃ p, IsMle A p) ↔ Ford A := by
    constructor
    · rintro ⟨p, hp, hmax⟩
      by_contra hf
      obtain ⟨q, hq, hlt⟩ := improve hA hc hf hp.pos
      exact absurd (hmax q hq) (not_le.mpr hlt)
    · intro hf
      obtain ⟨p, hp, hmax⟩ := exists_max hA hf (by omega)
      exact ⟨p, hp, hmax⟩
  refine ⟨hiff, fun p q hp hq => ?_⟩
  have ht := Ford.table hA (hiff.mp ⟨p, hp⟩) hM
  have hfix := next_eq_of_le ht hp.1 (hp.2 _ (next_posProb ht hp.1).pos)
  exact (likEq_unique hA hc ((fixed_iff ht hp.1).mp hfix) hp.1 hq.1 (hq.2 p hp.1.pos)).symm

/-- **C99, convergence.** Under Ford's condition the vectors of the passes converge to the maximum likelihood estimate. -/
theorem C99_converges (hA : ∀ i j, 0 ≤ A i j) (hf : Ford A) (hM : 2 ≤ M) :
    ∃ (p : Fin M → ℝ) (x : ℕ → Fin M → ℝ), IsMle A p ∧ (∀ k, (Bt.iter (mat A))^[k] (Bt.start M) = vec (x k)) ∧
      ∀ i, Tendsto (fun k => x k i) atTop (𝓝 (p i)) := by
  have hM0 : M ≠ 0 := by omega
  have ht := Ford.table hA hf hM
  obtain ⟨p, hp, hmax⟩ := exists_max hA hf hM0
  refine ⟨p, fun k => (next A)^[k] fun _ => (1 : ℝ) / M, ⟨hp, hmax⟩, fun k => ?_, ?_⟩
  · induction k with
    | zero => exact Bt.start_vec hM0
    | succ k ih =>
      rw [Function.iterate_succ_apply', ih, Bt.iter_fl ht (iterate_posProb ht (Bt.start_posProb hM0) k)]
      dsimp only
      rw [Function.iterate_succ_apply']
  · exact tendsto_pi_nhds.mp (iterate_tendsto ht hf hM0 (Bt.start_posProb hM0) hp hmax)

/-- four videos: many undecided comparisons of 0 and 1 and of 2 and 3, few comparisons of 1 and 2, of which 1 wins three out of four -/
def slow : Fin 4 → Fin 4 → ℝ :=
  ![![0, 10 ^ 10, 0, 0], ![10 ^ 10, 0, 3, 0], ![0, 1, 0, 10 ^ 10], ![0, 0, 10 ^ 10, 0]]

theorem slow_ford : Ford slow := by
  have e01 : (0 : ℝ) < slow 0 1 := by simp [slow]
  have e10 : (0 : ℝ) < slow 1 0 := by simp [slow]
  have e12 : (0 : ℝ) < slow 1 2 := by simp [slow]
  have e21 : (0 : ℝ) < slow 2 1 := by simp [slow]
  have e23 : (0 : ℝ) < slow 2 3 := by simp [slow]
  have e32 : (0 : ℝ) < slow 3 2 := by simp [slow]
  have to1 : ∀ i, Relation.ReflTransGen (fun i j => 0 < slow i j) i 1 := by
    intro i
    fin_cases i
    · exact .single e01
    · exact .refl
    · exact .single e21
    · exact .head e32 (.single e21)
  have from1 : ∀ j, Relation.ReflTransGen (fun i j => 0 < slow i j) 1 j := by
    intro j
    fin_cases j
    · exact .single e10
    · exact .refl
    · exact .single e12
    · exact .head e12 (.single e23)
  exact fun i j => (to1 i).trans (from1 j)

theorem slow_nonneg : ∀ i j, 0 ≤ slow i j := by
  intro i j
  fin_cases i <;> fin_cases j <;> simp [slow]

theorem slow_mle : IsMle slow ![3 / 8, 3 / 8, 1 / 8, 1 / 8] := by
  have hp : PosProb ![(3 / 8 : ℝ), 3 / 8, 1 / 8, 1 / 8] := by
    constructor
    · intro i
      fin_cases i <;> simp
    · simp [Fin.sum_univ_four]
      norm_num
  refine ⟨hp, fun q hq => likEq_max slow_nonneg ?_ hp.pos hq⟩
  intro i
  fin_cases i <;> simp [slow, games, wins, Fin.sum_univ_four] <;> norm_num

/-- **C99, refuted: the reported vector is close to the estimate.** The passes can be so slow that the model stops after the first one. -/
theorem C99_refuted_accuracy : ∃ p : Fin 4 → ℝ, Bt.Loop (mat slow) (Bt.start 4) (.ok (vec p)) ∧
    IsMle slow ![3 / 8, 3 / 8, 1 / 8, 1 / 8] ∧ p 0 = 1 / 4 ∧ p 3 = 1 / 4 := by
  have ht := Ford.table slow_nonneg slow_ford (by norm_num)
  have hs := Bt.start_vec (M := 4) (by norm_num)
  have hsp := Bt.start_posProb (M := 4) (by norm_num)
  have h1 : next slow (fun _ => (1 : ℝ) / (4 : ℕ)) =
      ![1 / 4, (10 ^ 10 + 3) / (4 * 10 ^ 10 + 8), (10 ^ 10 + 1) / (4 * 10 ^ 10 + 8), 1 / 4] := by
    funext i
    fin_cases i <;> simp [next, update, wins, games, slow, Fin.sum_univ_four] <;> norm_num
  refine ⟨next slow (fun _ => (1 : ℝ) / (4 : ℕ)), ?_, slow_mle, by rw [h1]; rfl, by rw [h1]; rfl⟩
  rw [hs, ← Bt.iter_fl ht hsp]
  refine Bt.Loop.stop (by rw [Bt.iter_fl ht hsp, Bt.change_fl]) ?_
  rw [h1, Bt.thr_fl, Fl.lt_fin, decide_eq_false_iff_not, not_lt]
  refine Real.sqrt_le_iff.mpr ⟨by positivity, ?_⟩
  simp [Fin.sum_univ_four]
  norm_num

/-- the theorems apply: the example satisfies Ford's condition -/
example : (∀ i j, 0 ≤ slow i j) ∧ Ford slow ∧ Connected slow := ⟨slow_nonneg, slow_ford, Ford.connected slow_nonneg slow_ford⟩

/-- linked videos without Ford's condition, although every video wins: 0 and 1 beat each other, as do 2 and 3, but 1 always beats 2 -/
example : ∃ A : Fin 4 → Fin 4 → ℝ, Table A ∧ Connected A ∧ ¬ Ford A := by
  refine ⟨![![0, 1, 0, 0], ![1, 0, 1, 0], ![0, 0, 0, 1], ![0, 0, 1, 0]], ⟨?_, ?_⟩, ?_, ?_⟩
  · intro i j
    fin_cases i <;> fin_cases j <;> simp
  · intro i
    fin_cases i <;> simp [wins, Fin.sum_univ_four]
  · have to1 : ∀ i, Relation.ReflTransGen (fun i j => 0 < games
        (![![0, 1, 0, 0], ![1, 0, 1, 0], ![0, 0, 0, 1], ![0, 0, 1, 0]] : Fin 4 → Fin 4 → ℝ) i j) i 1 := by
      intro i
      fin_cases i
      · exact .single (by simp [games])
      · exact .refl
      · exact .single (by simp [games])
      · exact (Relation.ReflTransGen.single (b := 2) (by simp [games])).tail (by simp [games])
    intro i j
    refine (to1 i).trans ?_
    have := to1 j
    rw [← Relation.reflTransGen_swap] at this
    refine Relation.ReflTransGen.mono (fun a b hab => ?_) _ _ this
    rw [games_symm]
    exact hab
  · intro hf
    have : ∀ j : Fin 4, Relation.ReflTransGen (fun i j => 0 <
        (![![0, 1, 0, 0], ![1, 0, 1, 0], ![0, 0, 0, 1], ![0, 0, 1, 0]] : Fin 4 → Fin 4 → ℝ) i j) 2 j → 2 ≤ j.val := by
      intro j hj
      induction hj with
      | refl => exact le_rfl
      | tail _ h ih =>
        rename_i b c _
        fin_cases b <;> fin_cases c <;> simp_all
    have := this 0 (hf 2 0)
    simp at this

end Sureal.Props
