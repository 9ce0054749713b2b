import Verif.Lemmas.RejectSym
import Verif.Spec.Dissent
import Mathlib.Algebra.Order.Chebyshev
/-!
# Lemmas: how far a vote can be from the mean of the votes, and a panel with one dissenter
-/
set_option linter.unusedSectionVars false
namespace Sureal.Dissent
open Sureal Spec
variable {E S R : ℕ}

theorem list_sq_sum (l : List ℝ) : l.sum ^ 2 ≤ l.length * (l.map fun x => x ^ 2).sum := by
  have := sq_sum_le_card_mul_sum_sq (s := (Finset.univ : Finset (Fin l.length))) (f := fun i => l.get i)
  have h1 : ∑ i, l.get i = l.sum := by
    conv_rhs => rw [← List.ofFn_get l]
    rw [List.sum_ofFn]
  have h2 : ∑ i, l.get i ^ 2 = (l.map fun x => x ^ 2).sum := by
    conv_rhs => rw [← List.ofFn_get l]
    rw [List.map_ofFn, List.sum_ofFn]
    rfl
  rw [h1, h2] at this
  simpa using this

theorem sum_sub_mean (l : List ℝ) (h : l ≠ []) : (l.map fun x => x - Spec.mean l).sum = 0 := by
  have key : ∀ (m : ℝ) (l : List ℝ), (l.map fun x => x - m).sum = l.sum - l.length * m := by
    intro m l
    induction l with
    | nil => simp
    | cons x l ih => simp [ih]; ring
  rw [key]
  have := Np.length_ne_zero (K := ℝ) h
  unfold Spec.mean
  field_simp
  ring

/-- No number of a list is farther from the mean than `√(n - 1)` standard deviations. -/
theorem samuelson (l : List ℝ) (x : ℝ) (hx : x ∈ l) : (x - Spec.mean l) ^ 2 ≤ ((l.length : ℝ) - 1) * popVar l := by
  have hne : l ≠ [] := List.ne_nil_of_mem hx
  have hn := Np.length_ne_zero (K := ℝ) hne
  have hp : 0 < (l.length : ℝ) := by positivity
  set m := Spec.mean l with hm
  have hperm : (l.map fun y => y - m).Perm ((x - m) :: ((l.erase x).map fun y => y - m)) := by
    rw [← List.map_cons (f := fun y => y - m)]
    exact (List.perm_cons_erase hx).map _
  have h0 : ((l.erase x).map fun y => y - m).sum = -(x - m) := by
    have h1 := hperm.sum_eq
    rw [sum_sub_mean l hne, List.sum_cons] at h1
    linarith
  have h2 : sqDev l = (x - m) ^ 2 + (((l.erase x).map fun y => y - m).map fun y => y ^ 2).sum := by
    have h1 := (hperm.map fun y => y ^ 2).sum_eq
    rw [List.map_cons, List.sum_cons] at h1
    unfold sqDev
    rw [← hm, ← h1, List.map_map]
    rfl
  have hc := list_sq_sum ((l.erase x).map fun y => y - m)
  have hlen : ((((l.erase x).map fun y => y - m).length : ℕ) : ℝ) = (l.length : ℝ) - 1 := by
    rw [List.length_map, List.length_erase_of_mem hx, Nat.cast_sub (List.length_pos_iff.mpr hne)]
    simp
  rw [h0, hlen] at hc
  unfold popVar
  rw [h2, ← mul_div_assoc, le_div_iff₀ hp]
  nlinarith [hc]

theorem fin_votes (x : Fin E → Fin S → Fin 1 → ℝ) (e : Fin E) : votesOn (fun e s r => .fin (x e s r)) e = List.ofFn fun s => x e s 0 := by
  unfold votesOn videoCells present
  have h : (List.ofFn fun s : Fin S => List.ofFn fun r : Fin 1 => (Fl.fin (x e s r) : Fl ℝ)) = List.ofFn fun s => [Fl.fin (x e s 0)] := by
    congr 1
  rw [h, RejectSym.ofFn_flatten, List.ofFn_eq_map]
  induction List.finRange S with
  | nil => rfl
  | cons s l ih => simp [Fl.val?, ih]

variable (q d : Fin E → ℝ) (s0 : Fin S)

theorem sum_one (c t : ℝ) (f : Fin S → ℝ) (h : ∀ s, f s = c + if s = s0 then t else 0) : (List.ofFn f).sum = S * c + t := by
  rw [List.sum_ofFn, Finset.sum_congr rfl fun s _ => h s, Finset.sum_add_distrib]
  simp

theorem dissent_mean (e : Fin E) (hS : 2 ≤ S) : Spec.mean (votesOn (fun e s r => .fin (dissent q d s0 e s r)) e) = q e + d e / S := by
  have : (S : ℝ) ≠ 0 := by positivity
  rw [fin_votes]
  unfold Spec.mean
  rw [sum_one s0 (q e) (d e) (fun s => dissent q d s0 e s 0) fun s => rfl, List.length_ofFn]
  field_simp

theorem dissent_var (e : Fin E) (hS : 2 ≤ S) :
    popVar (votesOn (fun e s r => .fin (dissent q d s0 e s r)) e) = (d e / S) ^ 2 * (S - 1) := by
  have h0 : (S : ℝ) ≠ 0 := by positivity
  unfold popVar sqDev
  rw [dissent_mean q d s0 e hS, fin_votes, List.map_ofFn,
    sum_one s0 ((d e / S) ^ 2) ((d e - d e / S) ^ 2 - (d e / S) ^ 2) _ fun s => by
      simp only [Function.comp, dissent]
      split_ifs <;> ring, List.length_ofFn]
  field_simp
  ring

theorem dissent_m4 (e : Fin E) (hS : 2 ≤ S) :
    moment4 (votesOn (fun e s r => .fin (dissent q d s0 e s r)) e) = (d e / S) ^ 4 * ((S - 1) * (S ^ 2 - 3 * S + 3)) := by
  have h0 : (S : ℝ) ≠ 0 := by positivity
  unfold moment4
  rw [dissent_mean q d s0 e hS, fin_votes, List.map_ofFn,
    sum_one s0 ((d e / S) ^ 4) ((d e - d e / S) ^ 4 - (d e / S) ^ 4) _ fun s => by
      simp only [Function.comp, dissent]
      split_ifs <;> ring, List.length_ofFn]
  field_simp
  ring

/-- the factor depends on the size of the panel only -/
theorem dissent_factor (e : Fin E) (hS : 2 ≤ S) (hd : d e ≠ 0) :
    outlierFactor (votesOn (fun e s r => .fin (dissent q d s0 e s r)) e) = if S = 4 ∨ S = 5 then 2 else Real.sqrt 20 := by
  have h0 : (S : ℝ) ≠ 0 := by positivity
  have h2 : (2 : ℝ) ≤ S := by exact_mod_cast hS
  have h1 : 0 < (S : ℝ) - 1 := by linarith
  unfold outlierFactor
  rw [dissent_m4 q d s0 e hS, dissent_var q d s0 e hS]
  have hk : (d e / S) ^ 4 * ((S - 1) * ((S : ℝ) ^ 2 - 3 * S + 3)) / ((d e / S) ^ 2 * ((S : ℝ) - 1)) ^ 2 = ((S : ℝ) ^ 2 - 3 * S + 3) / (S - 1) := by
    have : d e / (S : ℝ) ≠ 0 := div_ne_zero hd h0
    field_simp
  rw [hk]
  have key : (2 ≤ ((S : ℝ) ^ 2 - 3 * S + 3) / (S - 1) ∧ ((S : ℝ) ^ 2 - 3 * S + 3) / (S - 1) ≤ 4) ↔ (S = 4 ∨ S = 5) := by
    rw [le_div_iff₀ h1, div_le_iff₀ h1]
    constructor
    · rintro ⟨ha, hb⟩
      have h6 : S < 6 := by
        by_contra hc
        have : (6 : ℝ) ≤ S := by exact_mod_cast not_lt.mp hc
        nlinarith
      have h3 : 3 < S := by
        by_contra hc
        have h3' : (S : ℝ) ≤ 3 := by exact_mod_cast not_lt.mp hc
        nlinarith
      omega
    · rintro (rfl | rfl) <;> norm_num
  simp only [key]

theorem dissent_reach (hS : 2 ≤ S) : (if S = 4 ∨ S = 5 then (2 : ℝ) else Real.sqrt 20) ≤ Real.sqrt (S - 1) ↔ (S = 5 ∨ 21 ≤ S) := by
  split_ifs with h
  · rw [Real.le_sqrt' (by norm_num)]
    rcases h with rfl | rfl <;> norm_num
  · rw [Real.sqrt_le_sqrt_iff (by have : (2 : ℝ) ≤ S := by exact_mod_cast hS
                                  linarith)]
    constructor
    · intro h'
      right
      have : (21 : ℝ) ≤ S := by linarith
      exact_mod_cast this
    · intro h'
      have : 21 ≤ S := by omega
      have : (21 : ℝ) ≤ S := by exact_mod_cast this
      linarith

end Sureal.Dissent
