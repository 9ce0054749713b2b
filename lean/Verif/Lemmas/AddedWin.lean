import Verif.Spec.AddedWin
import Verif.Lemmas.Bt
/-!
# Lemmas for C166: balance equations of paired comparisons

Both models for paired comparisons have scores `v` with `∑ l, (A k l * s (v k - v l) - A l k * s (v l - v k)) = 0` for all videos `k`, with a decreasing
function `s`.
-/
set_option linter.unusedSectionVars false
namespace Sureal.AddedWin
open Spec.BT
variable {M : ℕ}

/-- the left-hand side of the equation of video `k` -/
def pull (s : ℝ → ℝ) (A : Fin M → Fin M → ℝ) (v : Fin M → ℝ) (k : Fin M) : ℝ := ∑ l, (A k l * s (v k - v l) - A l k * s (v l - v k))

theorem pull_withWins (s : ℝ → ℝ) (A : Fin M → Fin M → ℝ) (v : Fin M → ℝ) {i j : Fin M} (w : ℝ) (k : Fin M) :
    pull s (withWins A i j w) v k = pull s A v k + w * s (v i - v j) * ((if k = i then 1 else 0) - if k = j then 1 else 0) := by
  unfold pull withWins
  have t1 : ∀ a b : Fin M, (if a = i ∧ b = j then w else 0) * s (v a - v b) = if b = j then (if a = i then w * s (v i - v j) else 0) else 0 := by
    intro a b
    by_cases h2 : b = j
    · subst h2
      by_cases h1 : a = i
      · subst h1
        simp
      · simp [h1]
    · simp [h2]
  have t2 : ∀ a b : Fin M, (if a = i ∧ b = j then w else 0) * s (v a - v b) = if a = i then (if b = j then w * s (v i - v j) else 0) else 0 := by
    intro a b
    rw [t1]
    split_ifs <;> rfl
  have e : ∀ l, (A k l + if k = i ∧ l = j then w else 0) * s (v k - v l) - (A l k + if l = i ∧ k = j then w else 0) * s (v l - v k) =
      (A k l * s (v k - v l) - A l k * s (v l - v k)) + ((if l = j then (if k = i then w * s (v i - v j) else 0) else 0) -
        if l = i then (if k = j then w * s (v i - v j) else 0) else 0) := by
    intro l
    rw [← t1 k l, ← t2 l k]
    ring
  have e2 : ∑ l : Fin M, ((if l = j then (if k = i then w * s (v i - v j) else 0) else 0) - if l = i then (if k = j then w * s (v i - v j) else 0) else 0) =
      (if k = i then w * s (v i - v j) else 0) - if k = j then w * s (v i - v j) else 0 := by
    rw [Finset.sum_sub_distrib, Finset.sum_ite_eq' Finset.univ j fun _ => if k = i then w * s (v i - v j) else 0,
      Finset.sum_ite_eq' Finset.univ i fun _ => if k = j then w * s (v i - v j) else 0, if_pos (Finset.mem_univ j), if_pos (Finset.mem_univ i)]
  rw [Finset.sum_congr rfl fun l _ => e l, Finset.sum_add_distrib, e2]
  split_ifs <;> ring

/-- the scores of `A` and those with additional wins -/
structure Change (s : ℝ → ℝ) (D : Set ℝ) (A : Fin M → Fin M → ℝ) (i j : Fin M) (w : ℝ) (v v' : Fin M → ℝ) : Prop where
  anti : StrictAntiOn s D
  pos : ∀ x ∈ D, 0 < s x
  mem : ∀ k l, v k - v l ∈ D
  mem' : ∀ k l, v' k - v' l ∈ D
  nonneg : ∀ k l, 0 ≤ A k l
  conn : Connected A
  ne : i ≠ j
  wpos : 0 < w
  eq : ∀ k, pull s A v k = 0
  eq' : ∀ k, pull s (withWins A i j w) v' k = 0

theorem Change.pull' {s D A i j w} {v v' : Fin M → ℝ} (h : Change s D A i j w v v') (k : Fin M) :
    pull s A v' k = w * s (v' i - v' j) * ((if k = j then 1 else 0) - if k = i then 1 else 0) := by
  have h1 := h.eq' k
  rw [pull_withWins] at h1
  linear_combination h1

/-- where the change is largest, the equation can only hold if the neighbours change as much -/
theorem Change.step {s D A i j w} {v v' : Fin M → ℝ} (h : Change s D A i j w v v') {k : Fin M} (hk : ∀ l, v' l - v l ≤ v' k - v k) (hi : k ≠ i) {l : Fin M}
    (hl : 0 < games A k l) : v' l - v l = v' k - v k := by
  have hterm : ∀ l, A k l * s (v' k - v' l) - A l k * s (v' l - v' k) ≤ A k l * s (v k - v l) - A l k * s (v l - v k) := by
    intro l
    have h1 : s (v' k - v' l) ≤ s (v k - v l) := h.anti.antitoneOn (h.mem k l) (h.mem' k l) (by linarith [hk l])
    have h2 : s (v l - v k) ≤ s (v' l - v' k) := h.anti.antitoneOn (h.mem' l k) (h.mem l k) (by linarith [hk l])
    have h3 := mul_le_mul_of_nonneg_left h1 (h.nonneg k l)
    have h4 := mul_le_mul_of_nonneg_left h2 (h.nonneg l k)
    linarith
  have hp := h.pull' k
  rw [if_neg hi, sub_zero] at hp
  have hs := h.pos _ (h.mem' i j)
  have hge : 0 ≤ pull s A v' k := by
    rw [hp]
    have := mul_pos h.wpos hs
    split_ifs <;> linarith
  have heq := h.eq k
  by_contra hne
  have hlt : v' l - v l < v' k - v k := lt_of_le_of_ne (hk l) hne
  have h1 : s (v' k - v' l) < s (v k - v l) := h.anti (h.mem k l) (h.mem' k l) (by linarith)
  have h2 : s (v l - v k) < s (v' l - v' k) := h.anti (h.mem' l k) (h.mem l k) (by linarith)
  have hst : A k l * s (v' k - v' l) - A l k * s (v' l - v' k) < A k l * s (v k - v l) - A l k * s (v l - v k) := by
    unfold games at hl
    have h3 := mul_le_mul_of_nonneg_left h1.le (h.nonneg k l)
    have h4 := mul_le_mul_of_nonneg_left h2.le (h.nonneg l k)
    rcases (h.nonneg k l).lt_or_eq with hp' | hp'
    · have := mul_lt_mul_of_pos_left h1 hp'
      linarith
    · have := mul_lt_mul_of_pos_left h2 (show 0 < A l k by linarith)
      linarith
  have : pull s A v' k < pull s A v k := Finset.sum_lt_sum (fun l _ => hterm l) ⟨l, Finset.mem_univ l, hst⟩
  linarith

theorem Change.top {s D A i j w} {v v' : Fin M → ℝ} (h : Change s D A i j w v v') (k : Fin M) : v' k - v k ≤ v' i - v i := by
  have : Nonempty (Fin M) := ⟨i⟩
  obtain ⟨m, hm⟩ := Finite.exists_max fun k => v' k - v k
  by_cases hmi : m = i
  · subst hmi
    exact hm k
  have key : ∀ l, Relation.ReflTransGen (fun a b => 0 < games A a b) m l → v' l - v l = v' m - v m ∨ v' i - v i = v' m - v m := by
    intro l hl
    induction hl with
    | refl => exact Or.inl rfl
    | tail _ hbc ih =>
      rename_i b c _
      rcases ih with ih | ih
      · by_cases hbi : b = i
        · subst hbi
          exact Or.inr ih
        · refine Or.inl ((h.step (k := b) (fun l => ?_) hbi hbc).trans ih)
          rw [ih]
          exact hm l
      · exact Or.inr ih
  have : v' i - v i = v' m - v m := (key i (h.conn m i)).elim id id
  rw [this]
  exact hm k

theorem pull_neg (s : ℝ → ℝ) (A : Fin M → Fin M → ℝ) (v : Fin M → ℝ) (k : Fin M) : pull s (fun a b => A b a) (fun a => -v a) k = -pull s A v k := by
  unfold pull
  rw [← Finset.sum_neg_distrib]
  refine Finset.sum_congr rfl fun l _ => ?_
  rw [show -v k - -v l = v l - v k by ring, show -v l - -v k = v k - v l by ring]
  ring

theorem Change.flip {s D A i j w} {v v' : Fin M → ℝ} (h : Change s D A i j w v v') : Change s D (fun a b => A b a) j i w (fun a => -v a) (fun a => -v' a) where
  anti := h.anti
  pos := h.pos
  mem k l := by rw [show -v k - -v l = v l - v k by ring]; exact h.mem l k
  mem' k l := by rw [show -v' k - -v' l = v' l - v' k by ring]; exact h.mem' l k
  nonneg k l := h.nonneg l k
  conn k l := Relation.ReflTransGen.mono (fun a b hab => by unfold games at *; linarith) k l (h.conn k l)
  ne := h.ne.symm
  wpos := h.wpos
  eq k := by rw [pull_neg, h.eq, neg_zero]
  eq' k := by
    have : withWins (fun a b => A b a) j i w = fun a b => withWins A i j w b a := by
      funext a b
      unfold withWins
      simp only [and_comm]
    rw [this, pull_neg, h.eq', neg_zero]

theorem Change.bottom {s D A i j w} {v v' : Fin M → ℝ} (h : Change s D A i j w v v') (k : Fin M) : v' j - v j ≤ v' k - v k := by
  have := h.flip.top k
  linarith

theorem Change.strict {s D A i j w} {v v' : Fin M → ℝ} (h : Change s D A i j w v v') : v' j - v j < v' i - v i := by
  refine lt_of_le_of_ne (h.top j) fun he => ?_
  have hall : ∀ k, v' k - v k = v' i - v i := fun k => le_antisymm (h.top k) (by rw [← he]; exact h.bottom k)
  have hp : pull s A v' i = pull s A v i := by
    unfold pull
    refine Finset.sum_congr rfl fun l _ => ?_
    have h1 : v' i - v' l = v i - v l := by linarith [hall l]
    have h2 : v' l - v' i = v l - v i := by linarith [hall l]
    rw [h1, h2]
  rw [h.eq, h.pull', if_neg h.ne, if_pos rfl] at hp
  have := mul_pos h.wpos (h.pos _ (h.mem' i j))
  linarith

end Sureal.AddedWin
