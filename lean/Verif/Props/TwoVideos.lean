import Verif.Props.AddedTie
/-!
# C166 and C167 for two videos: what the Bradley-Terry model reports
-/
set_option linter.unusedSectionVars false
namespace Sureal.Props
open Spec Spec.BT BtMath AddedWin
variable {A : Fin 2 → Fin 2 → ℝ}

/-- a table of two videos that have both won -/
structure BothWon (A : Fin 2 → Fin 2 → ℝ) : Prop where
  first : 0 < A 0 1
  second : 0 < A 1 0
  diag : ∀ i, A i i = 0

theorem BothWon.nonneg (h : BothWon A) (i j : Fin 2) : 0 ≤ A i j := by
  fin_cases i <;> fin_cases j
  · exact (h.diag 0).ge
  · exact h.first.le
  · exact h.second.le
  · exact (h.diag 1).ge

theorem BothWon.ford (h : BothWon A) : Ford A := by
  intro i j
  fin_cases i <;> fin_cases j
  · exact .refl
  · exact .single h.first
  · exact .single h.second
  · exact .refl

theorem BothWon.wins (h : BothWon A) {i j : Fin 2} (hij : i ≠ j) {w : ℝ} (hw : 0 < w) : BothWon (withWins A i j w) where
  first := by unfold withWins; have := h.first; split_ifs <;> linarith
  second := by unfold withWins; have := h.second; split_ifs <;> linarith
  diag k := by
    unfold withWins
    rw [if_neg (fun hk => hij (hk.1.symm.trans hk.2)), h.diag, add_zero]

theorem BothWon.ties (h : BothWon A) {i j : Fin 2} (hij : i ≠ j) {t : ℝ} (ht : 0 < t) : BothWon (withTies A i j t) := by
  rw [withTies_wins A hij]
  exact (h.wins hij (by linarith)).wins hij.symm (by linarith)

/-- with two videos the model reports the estimate -/
theorem BothWon.reported (h : BothWon A) : ∃ q, IsMle A q ∧ ∀ r, Bt.Loop (mat A) (Bt.start 2) r ↔ r = .ok (vec q) := by
  have ht := Ford.table h.nonneg h.ford (le_refl 2)
  obtain ⟨p0, p', hp0, -, -, he, -, hl⟩ := C76_terminates ht (by norm_num : (2 : ℕ) ≠ 0)
  have h1 : next A p0 = p' := by
    rw [Bt.iter_fl ht hp0] at he
    funext i
    exact Fl.fin_inj.mp (congrFun he i)
  have hp' : PosProb p' := h1 ▸ next_posProb ht hp0
  have h2 : next A p' = p' := by
    rw [next_two ht (h.diag 0) (h.diag 1) hp', ← h1, next_two ht (h.diag 0) (h.diag 1) hp0]
  exact ⟨p', ⟨hp', fun r hr => likEq_max h.nonneg ((fixed_iff ht hp').mp h2) hp'.pos hr⟩, hl⟩

/-- **C166 for two videos, partial.**  The Bradley-Terry model reports a larger strength of `i` and a smaller one of `j` with additional wins of `i` over `j`.

Missing: more than two videos, for which only the limits of the passes are compared. -/
theorem C166_two_partial (h : BothWon A) {i j : Fin 2} (hij : i ≠ j) {w : ℝ} (hw : 0 < w) :
    ∃ p p', (∀ r, Bt.Loop (mat A) (Bt.start 2) r ↔ r = .ok (vec p)) ∧ (∀ r, Bt.Loop (mat (withWins A i j w)) (Bt.start 2) r ↔ r = .ok (vec p')) ∧
      p i < p' i ∧ p' j < p j := by
  obtain ⟨p, hp, hl⟩ := h.reported
  obtain ⟨p', hp', hl'⟩ := (h.wins hij hw).reported
  obtain ⟨k1, k2, -⟩ := C166_estimate (le_refl 2) h.nonneg h.ford hij hw hp hp'
  exact ⟨p, p', hl, hl', k1, k2⟩

/-- **C167 for two videos, partial.**  With additional ties of the two the Bradley-Terry model reports strengths that are closer together and in the same order.

Missing: more than two videos, for which only the limits of the passes are compared. -/
theorem C167_two_partial (h : BothWon A) {i j : Fin 2} (hij : i ≠ j) {t : ℝ} (ht : 0 < t) :
    ∃ p p', (∀ r, Bt.Loop (mat A) (Bt.start 2) r ↔ r = .ok (vec p)) ∧ (∀ r, Bt.Loop (mat (withTies A i j t)) (Bt.start 2) r ↔ r = .ok (vec p')) ∧
      (p j < p i → p j < p' j ∧ p' j < p' i ∧ p' i < p i) ∧ (p i = p j → p' = p) := by
  obtain ⟨p, hp, hl⟩ := h.reported
  obtain ⟨p', hp', hl'⟩ := (h.ties hij ht).reported
  obtain ⟨k1, k2⟩ := C167_estimate (le_refl 2) h.nonneg h.ford hij ht hp hp'
  exact ⟨p, p', hl, hl', fun hlt => ⟨(k1 hlt).2.2.1, (k1 hlt).1, (k1 hlt).2.1⟩, k2⟩

/-- three wins to one -/
example : BothWon (cOne 3) := ⟨by norm_num [cOne], by norm_num [cOne], fun i => by fin_cases i <;> simp [cOne]⟩

end Sureal.Props
