import Verif.Model.Ci
import Verif.Lemmas.Fl
import Verif.Props.Dscore
import Mathlib.Data.Fintype.Card
import Mathlib.Algebra.Order.BigOperators.Group.Finset
/-! # C70: coverage of confidence intervals -/
set_option linter.unusedSectionVars false
namespace Sureal.Props
open Sureal Ci
variable {K : Type} [Field K] [LinearOrder K] [IsStrictOrderedRing K]

theorem indInCi_ofFn {n : ℕ} (x y l u : Fin n → Fl K) :
    indInCi (List.ofFn x) (List.ofFn y) (List.ofFn l) (List.ofFn u) = List.ofFn fun i => inCi (x i) (y i) (l i) (u i) := by
  induction n with
  | zero => simp [indInCi]
  | succ n ih => simp only [List.ofFn_succ, indInCi, ih]

theorem count_ofFn {n : ℕ} (f : Fin n → Bool) : (List.ofFn f).count true = (Finset.univ.filter fun i => f i = true).card := by
  induction n with
  | zero => simp
  | succ n ih =>
    rw [List.ofFn_succ, List.count_cons, ih, Finset.card_filter, Finset.card_filter, Fin.sum_univ_succ, add_comm]
    congr 1
    cases f 0 <;> rfl

theorem ciPercentage_ofFn {n : ℕ} (hn : 0 < n) (x y l u : Fin n → Fl K) :
    ciPercentage (some (List.ofFn x)) (some (List.ofFn y)) (some [List.ofFn l, List.ofFn u]) =
      .ok (.fin (100 * ((Finset.univ.filter fun i => inCi (x i) (y i) (l i) (u i) = true).card : K) / n)) := by
  unfold ciPercentage shape2
  simp only [List.all_cons, List.all_nil, List.length_ofFn, beq_self_eq_true, Bool.and_self, if_true, List.length_cons,
    List.length_nil, Nat.zero_add, Nat.reduceAdd, and_self]
  have h0 : ([List.ofFn l, List.ofFn u][0]?).getD [] = List.ofFn l := rfl
  have h1 : ([List.ofFn l, List.ofFn u][1]?).getD [] = List.ofFn u := rfl
  rw [h0, h1, indInCi_ofFn, List.length_ofFn, if_neg hn.ne', count_ofFn, Fl.natCast_def, Fl.natCast_def, Fl.natCast_def,
    Fl.fin_div (by exact_mod_cast hn.ne'), Fl.fin_mul]
  congr 2
  push_cast
  ring

/-- **C70.** For any numbers, the coverage is `100 |I| / n` where `I` is a set of indices. An index at which all four
numbers are finite is in `I` exactly if the true value is within its interval; an index at which any of them is NaN is not
in `I`; an unbounded interval around a finite estimate contains every finite value. -/
theorem C70_coverage {n : ℕ} (hn : 0 < n) (x y l u : Fin n → Fl K) :
    ∃ I : Finset (Fin n),
      ciPercentage (some (List.ofFn x)) (some (List.ofFn y)) (some [List.ofFn l, List.ofFn u]) = .ok (.fin (100 * (I.card : K) / n)) ∧
      (∀ i a b c d, x i = .fin a → y i = .fin b → l i = .fin c → u i = .fin d → (i ∈ I ↔ b - c ≤ a ∧ a ≤ b + d)) ∧
      (∀ i, x i = .nan ∨ y i = .nan ∨ l i = .nan ∨ u i = .nan → i ∉ I) ∧
      (∀ i a b, x i = .fin a → y i = .fin b → l i = .pinf → u i = .pinf → i ∈ I) := by
  refine ⟨_, ciPercentage_ofFn hn x y l u, ?_, ?_, ?_⟩
  · intro i a b c d hx hy hl hu
    simp [inCi, hx, hy, hl, hu, Fl.fin_sub, Fl.fin_add]
  · intro i h
    simp only [Finset.mem_filter, Finset.mem_univ, true_and, inCi, Bool.and_eq_true, not_and]
    rcases h with h | h | h | h <;> rw [h]
    · simp
    · intro hc
      have : (Fl.nan - l i : Fl K) = .nan := by cases l i <;> rfl
      rw [this] at hc
      cases hx : x i <;> rw [hx] at hc <;> cases hc
    · intro hc
      have : (y i - Fl.nan : Fl K) = .nan := by cases y i <;> rfl
      rw [this] at hc
      cases hx : x i <;> rw [hx] at hc <;> cases hc
    · intro _
      cases y i <;> cases x i <;> exact Bool.false_ne_true
  · intro i a b hx hy hl hu
    rw [Finset.mem_filter]
    refine ⟨Finset.mem_univ _, ?_⟩
    rw [hx, hy, hl, hu]
    rfl

/-- **C70.** A coverage is between 0 and 100, whatever the input. -/
theorem C70_range (xs ys : Option (List (Fl K))) (ci : Option (List (List (Fl K)))) (v : Fl K)
    (h : ciPercentage xs ys ci = .ok v) : ∃ p : K, v = .fin p ∧ 0 ≤ p ∧ p ≤ 100 := by
  unfold ciPercentage at h
  split at h
  · split at h
    · cases h
    · split at h
      · split at h
        · dsimp only at h
          split at h
          · cases h
          · rename_i hne
            cases h
            rename_i xs ys ci _ _ _ _ _ _
            set ind := indInCi xs ys ((ci[0]?).getD []) ((ci[1]?).getD []) with hind
            have hlen : (0 : K) < ind.length := by exact_mod_cast Nat.pos_of_ne_zero hne
            refine ⟨(ind.count true : K) / ind.length * 100, ?_, by positivity, ?_⟩
            · rw [Fl.natCast_def, Fl.natCast_def, Fl.natCast_def, Fl.fin_div hlen.ne', Fl.fin_mul]
              push_cast; rfl
            · have hle : (ind.count true : K) ≤ ind.length := by exact_mod_cast List.count_le_length
              have := (div_le_one hlen).mpr hle
              linarith
        · cases h
      · cases h
  · cases h

theorem le_of_wider {x l l' : Fl K} {b : K} (hl : l.le l' = true) (h : (Fl.fin b - l).le x = true) : (Fl.fin b - l').le x = true := by
  cases l <;> cases l' <;> simp only [Fl.le, Bool.false_eq_true] at hl <;>
    cases x <;> first | rfl | cases h | skip
  rename_i p q r
  simp only [Fl.fin_sub, Fl.le_fin, decide_eq_true_eq] at h ⊢
  simp only [decide_eq_true_eq] at hl
  linarith

theorem ge_of_wider {x u u' : Fl K} {b : K} (hu : u.le u' = true) (h : x.le (Fl.fin b + u) = true) : x.le (Fl.fin b + u') = true := by
  cases u <;> cases u' <;> simp only [Fl.le, Bool.false_eq_true] at hu <;>
    cases x <;> first | rfl | cases h | skip
  rename_i p q r
  simp only [Fl.fin_add, Fl.le_fin, decide_eq_true_eq] at h ⊢
  simp only [decide_eq_true_eq] at hu
  linarith

/-- **C70.** Widening the intervals around finite estimates never lowers the coverage. The half-widths may be infinite. -/
theorem C70_widening {n : ℕ} (hn : 0 < n) (x : Fin n → Fl K) (y : Fin n → K) (l u l' u' : Fin n → Fl K)
    (hl : ∀ i, (l i).le (l' i) = true) (hu : ∀ i, (u i).le (u' i) = true) :
    ∃ p p' : K,
      ciPercentage (some (List.ofFn x)) (some (List.ofFn fun i => .fin (y i))) (some [List.ofFn l, List.ofFn u]) = .ok (.fin p) ∧
      ciPercentage (some (List.ofFn x)) (some (List.ofFn fun i => .fin (y i))) (some [List.ofFn l', List.ofFn u']) = .ok (.fin p') ∧
      p ≤ p' := by
  refine ⟨_, _, ciPercentage_ofFn hn _ _ _ _, ciPercentage_ofFn hn _ _ _ _, ?_⟩
  have hnK : (0 : K) < n := by exact_mod_cast hn
  rw [div_le_div_iff_of_pos_right hnK]
  refine mul_le_mul_of_nonneg_left ?_ (by norm_num)
  refine Nat.cast_le.mpr (Finset.card_le_card fun i hi => ?_)
  simp only [Finset.mem_filter, Finset.mem_univ, true_and, inCi, Bool.and_eq_true] at hi ⊢
  exact ⟨le_of_wider (hl i) hi.1, ge_of_wider (hu i) hi.2⟩

/-- **C70.** The errors: a missing key; two rows are needed, of equal length; all lengths must agree; and there is no
coverage of nothing. With everything else, there is a coverage. -/
theorem C70_errors (xs ys : Option (List (Fl K))) (ci : Option (List (List (Fl K)))) :
    (∃ v, ciPercentage xs ys ci = .ok v) ↔
      ∃ x y l u, xs = some x ∧ ys = some y ∧ ci = some [l, u] ∧ x ≠ [] ∧ x.length = y.length ∧ y.length = l.length ∧ l.length = u.length := by
  constructor
  · rintro ⟨v, h⟩
    unfold ciPercentage at h
    split at h
    · rename_i x y c
      match c, h with
      | [], h => cases h
      | [l], h => cases h
      | [l, u], h =>
        refine ⟨x, y, l, u, rfl, rfl, rfl, ?_⟩
        simp only [shape2, List.all_cons, List.all_nil, Bool.and_true, beq_iff_eq, List.length_cons, List.length_nil,
          Nat.zero_add, Nat.reduceAdd] at h
        by_cases hu : u.length = l.length
        · simp only [if_pos hu, if_true] at h
          by_cases hx : x.length = y.length ∧ y.length = l.length
          · rw [if_pos hx] at h
            refine ⟨?_, hx.1, hx.2, hu.symm⟩
            rintro rfl
            simp [indInCi] at h
          · rw [if_neg hx] at h; cases h
        · rw [if_neg hu] at h; cases h
      | l :: u :: w :: t, h =>
        unfold shape2 at h
        by_cases hall : (u :: w :: t).all (fun q => q.length == l.length) = true
        · simp only [if_pos hall] at h
          simp at h
        · simp only [if_neg hall] at h; cases h
    · cases h
  · rintro ⟨x, y, l, u, rfl, rfl, rfl, hne, h1, h2, h3⟩
    obtain ⟨n, x, rfl⟩ : ∃ (n : ℕ) (f : Fin n → Fl K), List.ofFn f = x := ⟨_, x.get, List.ofFn_get x⟩
    rw [List.length_ofFn] at h1
    have e : ∀ q : List (Fl K), n = q.length → ∃ f : Fin n → Fl K, q = List.ofFn f := by
      rintro q rfl
      exact ⟨q.get, (List.ofFn_get q).symm⟩
    obtain ⟨y, rfl⟩ := e y h1
    rw [List.length_ofFn] at h2
    obtain ⟨l, rfl⟩ := e l h2
    rw [List.length_ofFn] at h3
    obtain ⟨u, rfl⟩ := e u h3
    have hn : 0 < n := by
      rcases Nat.eq_zero_or_pos n with rfl | h
      · exact absurd (by simp) hne
      · exact h
    exact ⟨_, ciPercentage_ofFn hn x y l u⟩

/-- two values, the first on the edge of its interval and the second NaN: a half is covered -/
example : ciPercentage (K := ℚ) (some [.fin 3, .nan]) (some [.fin 2, .fin 2]) (some [[.fin 1, .pinf], [.fin 1, .pinf]]) = .ok (.fin 50) := by
  decide +kernel

/-- the hypotheses of `C70_widening`; the coverage rises from 0 to 50 -/
example : ciPercentage (K := ℚ) (some [.fin 3, .nan]) (some [.fin 2, .fin 2]) (some [[.fin 1, .fin 1], [.fin (1 / 2), .fin 1]]) = .ok (.fin 0) ∧
    (Fl.fin (1 / 2 : ℚ)).le (.fin 1) = true ∧ (Fl.fin (1 : ℚ)).le .pinf = true := by
  decide +kernel

/-- lengths that differ -/
example : ciPercentage (K := ℚ) (some [.fin 3]) (some [.fin 2, .fin 2]) (some [[.fin 1, .fin 1], [.fin 1, .fin 1]]) = .error .assertion := by
  decide +kernel

end Sureal.Props
