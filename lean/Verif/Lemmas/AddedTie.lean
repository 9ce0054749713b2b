import Verif.Spec.AddedTie
import Verif.Lemmas.AddedWin
/-!
# Lemmas for C167: balance equations of paired comparisons with additional ties
-/
set_option linter.unusedSectionVars false
namespace Sureal.AddedWin
open Spec.BT
variable {M : ℕ}

theorem withTies_wins (A : Fin M → Fin M → ℝ) {i j : Fin M} (hij : i ≠ j) (t : ℝ) : withTies A i j t = withWins (withWins A i j (t / 2)) j i (t / 2) := by
  funext k l
  unfold withTies withWins
  by_cases h1 : k = i ∧ l = j
  · obtain ⟨rfl, rfl⟩ := h1
    simp [hij]
  · by_cases h2 : k = j ∧ l = i
    · obtain ⟨rfl, rfl⟩ := h2
      simp [hij.symm]
    · simp [h1, h2]

theorem pull_withTies (s : ℝ → ℝ) (A : Fin M → Fin M → ℝ) (v : Fin M → ℝ) {i j : Fin M} (hij : i ≠ j) (t : ℝ) (k : Fin M) :
    pull s (withTies A i j t) v k = pull s A v k + t / 2 * (s (v i - v j) - s (v j - v i)) * ((if k = i then 1 else 0) - if k = j then 1 else 0) := by
  rw [withTies_wins A hij, pull_withWins, pull_withWins]
  ring

/-- the scores of `A` and those with additional ties -/
structure TieChange (s : ℝ → ℝ) (D : Set ℝ) (A : Fin M → Fin M → ℝ) (i j : Fin M) (t : ℝ) (v v' : Fin M → ℝ) : Prop where
  anti : StrictAntiOn s D
  pos : ∀ x ∈ D, 0 < s x
  mem : ∀ k l, v k - v l ∈ D
  mem' : ∀ k l, v' k - v' l ∈ D
  nonneg : ∀ k l, 0 ≤ A k l
  conn : Connected A
  ne : i ≠ j
  tpos : 0 < t
  eq : ∀ k, pull s A v k = 0
  eq' : ∀ k, pull s (withTies A i j t) v' k = 0

theorem TieChange.swap {s D A i j t} {v v' : Fin M → ℝ} (h : TieChange s D A i j t v v') : TieChange s D A j i t v v' :=
  { h with
    ne := h.ne.symm
    eq' := fun k => by
      have : withTies A j i t = withTies A i j t := by
        funext k l
        unfold withTies
        simp only [or_comm]
      rw [this]
      exact h.eq' k }

/-- if `i` is behind with the ties, these act like wins of `i` -/
theorem TieChange.change {s D A i j t} {v v' : Fin M → ℝ} (h : TieChange s D A i j t v v') (hlt : v' i < v' j) : ∃ w, Change s D A i j w v v' := by
  have hs := h.pos _ (h.mem' i j)
  have hd : s (v' j - v' i) < s (v' i - v' j) := h.anti (h.mem' i j) (h.mem' j i) (by linarith)
  refine ⟨t / 2 * (s (v' i - v' j) - s (v' j - v' i)) / s (v' i - v' j), ⟨h.anti, h.pos, h.mem, h.mem', h.nonneg, h.conn, h.ne, ?_, h.eq, fun k => ?_⟩⟩
  · exact div_pos (mul_pos (by linarith [h.tpos]) (by linarith)) hs
  · rw [pull_withWins, div_mul_cancel₀ _ hs.ne', ← pull_withTies s A v' h.ne]
    exact h.eq' k

/-- two solutions of the same equations differ by a constant -/
theorem same_change {s : ℝ → ℝ} {D : Set ℝ} {A : Fin M → Fin M → ℝ} {v v' : Fin M → ℝ} (anti : StrictAntiOn s D) (mem : ∀ k l, v k - v l ∈ D)
    (mem' : ∀ k l, v' k - v' l ∈ D) (nonneg : ∀ k l, 0 ≤ A k l) (conn : Connected A) (eq : ∀ k, pull s A v k = 0) (eq' : ∀ k, pull s A v' k = 0) (a b : Fin M) :
    v' a - v a = v' b - v b := by
  have : Nonempty (Fin M) := ⟨a⟩
  obtain ⟨m, hm⟩ := Finite.exists_max fun k => v' k - v k
  have step : ∀ k, (∀ l, v' l - v l ≤ v' k - v k) → ∀ l, 0 < games A k l → v' l - v l = v' k - v k := by
    intro k hk l hl
    have hterm : ∀ l, A k l * s (v' k - v' l) - A l k * s (v' l - v' k) ≤ A k l * s (v k - v l) - A l k * s (v l - v k) := by
      intro l
      have h1 : s (v' k - v' l) ≤ s (v k - v l) := anti.antitoneOn (mem k l) (mem' k l) (by linarith [hk l])
      have h2 : s (v l - v k) ≤ s (v' l - v' k) := anti.antitoneOn (mem' l k) (mem l k) (by linarith [hk l])
      have h3 := mul_le_mul_of_nonneg_left h1 (nonneg k l)
      have h4 := mul_le_mul_of_nonneg_left h2 (nonneg l k)
      linarith
    by_contra hne
    have hlt : v' l - v l < v' k - v k := lt_of_le_of_ne (hk l) hne
    have h1 : s (v' k - v' l) < s (v k - v l) := anti (mem k l) (mem' k l) (by linarith)
    have h2 : s (v l - v k) < s (v' l - v' k) := anti (mem' l k) (mem l k) (by linarith)
    have hst : A k l * s (v' k - v' l) - A l k * s (v' l - v' k) < A k l * s (v k - v l) - A l k * s (v l - v k) := by
      unfold games at hl
      have h3 := mul_le_mul_of_nonneg_left h1.le (nonneg k l)
      have h4 := mul_le_mul_of_nonneg_left h2.le (nonneg l k)
      rcases (nonneg k l).lt_or_eq with hp' | hp'
      · have := mul_lt_mul_of_pos_left h1 hp'
        linarith
      · have := mul_lt_mul_of_pos_left h2 (show 0 < A l k by linarith)
        linarith
    have : pull s A v' k < pull s A v k := Finset.sum_lt_sum (fun l _ => hterm l) ⟨l, Finset.mem_univ l, hst⟩
    rw [eq, eq'] at this
    exact lt_irrefl _ this
  have key : ∀ l, Relation.ReflTransGen (fun a b => 0 < games A a b) m l → v' l - v l = v' m - v m := by
    intro l hl
    induction hl with
    | refl => rfl
    | tail _ hbc ih =>
      rename_i b c _
      exact (step b (fun l => by rw [ih]; exact hm l) c hbc).trans ih
  rw [key a (conn m a), key b (conn m b)]

theorem TieChange.level {s D A i j t} {v v' : Fin M → ℝ} (h : TieChange s D A i j t v v') (he : v' i = v' j) (a b : Fin M) : v' a - v a = v' b - v b := by
  refine same_change h.anti h.mem h.mem' h.nonneg h.conn h.eq (fun k => ?_) a b
  have := h.eq' k
  rw [pull_withTies s A v' h.ne, he, sub_self, mul_zero, zero_mul, add_zero] at this
  exact this

/-- who was ahead stays ahead, with a smaller lead -/
theorem TieChange.ahead {s D A i j t} {v v' : Fin M → ℝ} (h : TieChange s D A i j t v v') (hlt : v j < v i) :
    v' j < v' i ∧ v' i - v i < v' j - v j ∧ (∀ k, v' i - v i ≤ v' k - v k) ∧ ∀ k, v' k - v k ≤ v' j - v j := by
  rcases lt_trichotomy (v' i) (v' j) with h1 | h1 | h1
  · obtain ⟨w, hw⟩ := h.change h1
    have := hw.strict
    linarith
  · have := h.level h1 i j
    linarith
  · obtain ⟨w, hw⟩ := h.swap.change h1
    exact ⟨h1, hw.strict, hw.bottom, hw.top⟩

/-- between equals nothing changes -/
theorem TieChange.equal {s D A i j t} {v v' : Fin M → ℝ} (h : TieChange s D A i j t v v') (he : v i = v j) (a b : Fin M) : v' a - v a = v' b - v b := by
  rcases lt_trichotomy (v' i) (v' j) with h1 | h1 | h1
  · obtain ⟨w, hw⟩ := h.change h1
    have := hw.strict
    linarith
  · exact h.level h1 a b
  · obtain ⟨w, hw⟩ := h.swap.change h1
    have := hw.strict
    linarith

end Sureal.AddedWin
