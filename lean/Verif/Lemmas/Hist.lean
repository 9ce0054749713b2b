import Verif.Model.Hist
import Verif.Lemmas.Fl
import Mathlib.Algebra.BigOperators.Group.List.Basic
import Mathlib.Algebra.Order.Field.Basic
import Mathlib.Tactic.FieldSimp
import Mathlib.Tactic.Ring
import Mathlib.Tactic.Linarith
/-! Lemmas on histograms. -/
set_option linter.unusedSectionVars false
namespace Sureal.Hist

section histc
variable {K : Type} [DecidableEq K]

/-- what the dictionary says about `y` -/
def value (dd : List (Fl K × Nat)) (y : Fl K) : Nat := ((dd.filter fun p => decide (p.1 = y)).map Prod.snd).sum

theorem value_bump (dd : List (Fl K × Nat)) (x y : Fl K) : value (bump dd x) y = value dd y + if x = y then 1 else 0 := by
  induction dd with
  | nil => by_cases h : x = y <;> simp [bump, value, h]
  | cons p dd ih =>
    obtain ⟨k, n⟩ := p
    unfold bump
    by_cases hk : k = x
    · subst hk
      rw [if_pos rfl]
      by_cases hy : k = y
      · simp [value, hy]; omega
      · simp [value, hy]
    · rw [if_neg hk]
      unfold value at ih ⊢
      by_cases hy : k = y
      · simp only [List.filter_cons, hy, decide_true, if_true, List.map_cons, List.sum_cons, ih]; omega
      · simp only [List.filter_cons, hy, decide_false, Bool.false_eq_true, if_false, ih]

theorem keys_bump (dd : List (Fl K × Nat)) (x : Fl K) (hn : (dd.map Prod.fst).Nodup) :
    ((bump dd x).map Prod.fst).Nodup ∧ (∀ y, y ∈ (bump dd x).map Prod.fst ↔ y ∈ dd.map Prod.fst ∨ y = x) := by
  induction dd with
  | nil => simp [bump]
  | cons p dd ih =>
    obtain ⟨k, n⟩ := p
    unfold bump
    rw [List.map_cons, List.nodup_cons] at hn
    by_cases hk : k = x
    · subst hk
      rw [if_pos rfl]
      refine ⟨by simpa using hn, fun y => ?_⟩
      simp only [List.map_cons, List.mem_cons]
      tauto
    · rw [if_neg hk]
      obtain ⟨h1, h2⟩ := ih hn.2
      refine ⟨?_, fun y => ?_⟩
      · rw [List.map_cons, List.nodup_cons]
        refine ⟨fun h => ?_, h1⟩
        rcases (h2 k).mp h with h | h
        · exact hn.1 h
        · exact hk h
      · simp only [List.map_cons, List.mem_cons, h2]
        tauto

/-- invariant of the loop of `histc` -/
theorem histc_inv (l : List (Fl K)) (dd : List (Fl K × Nat)) (hn : (dd.map Prod.fst).Nodup) :
    let r := l.foldl (fun dd x => if x.isNan then dd else bump dd x) dd
    (r.map Prod.fst).Nodup ∧
    (∀ y, y ∈ r.map Prod.fst ↔ y ∈ dd.map Prod.fst ∨ (y ∈ l ∧ y.isNan = false)) ∧
    ∀ y, value r y = value dd y + if y.isNan then 0 else l.count y := by
  induction l generalizing dd with
  | nil => simp [hn]
  | cons x l ih =>
    simp only [List.foldl_cons]
    by_cases hx : x.isNan = true
    · rw [if_pos hx]
      obtain ⟨h1, h2, h3⟩ := ih dd hn
      refine ⟨h1, fun y => ?_, fun y => ?_⟩
      · rw [h2]
        constructor
        · rintro (h | ⟨h, h'⟩)
          · exact Or.inl h
          · exact Or.inr ⟨List.mem_cons_of_mem _ h, h'⟩
        · rintro (h | ⟨h, h'⟩)
          · exact Or.inl h
          · rcases List.mem_cons.mp h with h | h
            · subst h; rw [hx] at h'; cases h'
            · exact Or.inr ⟨h, h'⟩
      · rw [h3]
        by_cases hy : y.isNan = true
        · simp [hy]
        · rw [if_neg hy, if_neg hy, List.count_cons, if_neg]
          · simp
          · intro h
            rw [beq_iff_eq] at h
            subst h
            exact hy hx
    · rw [if_neg hx]
      obtain ⟨h1, h2, h3⟩ := ih (bump dd x) (keys_bump dd x hn).1
      have hx' : x.isNan = false := by simpa using hx
      refine ⟨h1, fun y => ?_, fun y => ?_⟩
      · rw [h2, (keys_bump dd x hn).2]
        constructor
        · rintro ((h | h) | ⟨h, h'⟩)
          · exact Or.inl h
          · subst h; exact Or.inr ⟨List.mem_cons_self, hx'⟩
          · exact Or.inr ⟨List.mem_cons_of_mem _ h, h'⟩
        · rintro (h | ⟨h, h'⟩)
          · exact Or.inl (Or.inl h)
          · rcases List.mem_cons.mp h with h | h
            · exact Or.inl (Or.inr h)
            · exact Or.inr ⟨h, h'⟩
      · rw [h3, value_bump]
        by_cases hy : y.isNan = true
        · rw [if_pos hy, if_pos hy, if_neg]
          intro h; subst h; exact hx hy
        · rw [if_neg hy, if_neg hy, List.count_cons]
          by_cases h : x = y
          · simp [h]; omega
          · simp [h]

/-- with distinct keys the value is the entry -/
theorem value_eq {dd : List (Fl K × Nat)} (hn : (dd.map Prod.fst).Nodup) {y : Fl K} {c : Nat} (h : (y, c) ∈ dd) : value dd y = c := by
  induction dd with
  | nil => cases h
  | cons p dd ih =>
    obtain ⟨k, n⟩ := p
    rw [List.map_cons, List.nodup_cons] at hn
    unfold value
    rcases List.mem_cons.mp h with h | h
    · injection h with h1 h2
      subst h1; subst h2
      have : dd.filter (fun p => decide (p.1 = y)) = [] := by
        rw [List.filter_eq_nil_iff]
        intro q hq
        simp only [decide_eq_true_eq]
        intro hqy
        exact hn.1 (List.mem_map.mpr ⟨q, hq, hqy⟩)
      rw [List.filter_cons, if_pos (by simp), this]
      simp
    · have hne : k ≠ y := by
        intro hk
        subst hk
        exact hn.1 (List.mem_map.mpr ⟨_, h, rfl⟩)
      rw [List.filter_cons, if_neg (by simpa using hne)]
      exact ih hn.2 h

theorem sum_bump (dd : List (Fl K × Nat)) (x : Fl K) : ((bump dd x).map Prod.snd).sum = (dd.map Prod.snd).sum + 1 := by
  induction dd with
  | nil => rfl
  | cons p dd ih =>
    obtain ⟨k, n⟩ := p
    unfold bump
    split
    · simp; omega
    · simp [ih]; omega

theorem sum_histc (l : List (Fl K)) (dd : List (Fl K × Nat)) :
    ((l.foldl (fun dd x => if x.isNan then dd else bump dd x) dd).map Prod.snd).sum
      = (dd.map Prod.snd).sum + (l.filter fun x => !x.isNan).length := by
  induction l generalizing dd with
  | nil => simp
  | cons x l ih =>
    rw [List.foldl_cons, ih]
    by_cases hx : x.isNan = true
    · rw [if_pos hx, List.filter_cons, if_neg (by simp [hx])]
    · rw [if_neg hx, sum_bump, List.filter_cons, if_pos (by simpa using hx), List.length_cons]
      omega

/-- the dictionary of `histc` -/
theorem histc_spec (l : List (Fl K)) :
    ((histc l).map Prod.fst).Nodup ∧ (∀ x c, (x, c) ∈ histc l ↔ x.isNan = false ∧ x ∈ l ∧ c = l.count x) ∧
    ((histc l).map Prod.snd).sum = (l.filter fun x => !x.isNan).length := by
  obtain ⟨h1, h2, h3⟩ := histc_inv l [] (by simp)
  refine ⟨h1, fun x c => ?_, by
    have := sum_histc l []
    simp only [List.map_nil, List.sum_nil, zero_add] at this
    exact this⟩
  constructor
  · intro h
    rcases (h2 x).mp (List.mem_map.mpr ⟨_, h, rfl⟩) with h' | ⟨h', h''⟩
    · cases h'
    · refine ⟨h'', h', ?_⟩
      have := h3 x
      rw [value_eq h1 h, h''] at this
      simpa [value] using this
  · rintro ⟨hx, hm, rfl⟩
    obtain ⟨⟨y, c⟩, hp, hy⟩ := List.mem_map.mp ((h2 x).mpr (Or.inr ⟨hm, hx⟩))
    dsimp only at hy
    subst hy
    have := h3 y
    rw [value_eq h1 hp, hx] at this
    have hc : c = l.count y := by simpa [value] using this
    rw [← hc]
    exact hp

end histc

variable {K : Type} [Field K] [LinearOrder K] [IsStrictOrderedRing K]

theorem finite_map (l : List K) : finite (l.map Fl.fin) = some l := by
  induction l with
  | nil => rfl
  | cons x l ih => simp [finite, ih]

theorem finite_none {x : List (Fl K)} (h : ∃ y ∈ x, y.isFinite = false) : finite x = none := by
  induction x with
  | nil => obtain ⟨y, hy, _⟩ := h; cases hy
  | cons z x ih =>
    obtain ⟨y, hy, hf⟩ := h
    cases z with
    | fin a =>
      rcases List.mem_cons.mp hy with h | h
      · subst h; simp at hf
      · simp [finite, ih ⟨y, h, hf⟩]
    | nan => rfl
    | pinf => rfl
    | ninf => rfl

theorem foldl_min (xs : List K) (x : K) :
    let m := xs.foldl (fun a b => if b < a then b else a) x
    m ∈ x :: xs ∧ ∀ y ∈ x :: xs, m ≤ y := by
  induction xs generalizing x with
  | nil => simp
  | cons z xs ih =>
    simp only [List.foldl_cons]
    obtain ⟨h1, h2⟩ := ih (if z < x then z else x)
    split at h1 <;> rename_i hz
    · rw [if_pos hz] at h2 ⊢
      refine ⟨List.mem_cons_of_mem _ h1, fun y hy => ?_⟩
      rcases List.mem_cons.mp hy with h | h
      · subst h; exact (h2 z List.mem_cons_self).trans hz.le
      · exact h2 y h
    · rw [if_neg hz] at h2 ⊢
      refine ⟨?_, fun y hy => ?_⟩
      · rcases List.mem_cons.mp h1 with h | h
        · rw [h]; exact List.mem_cons_self
        · exact List.mem_cons_of_mem _ (List.mem_cons_of_mem _ h)
      · rcases List.mem_cons.mp hy with h | h
        · subst h; exact h2 y List.mem_cons_self
        · rcases List.mem_cons.mp h with h | h
          · subst h; exact (h2 x List.mem_cons_self).trans (not_lt.mp hz)
          · exact h2 y (List.mem_cons_of_mem _ h)

theorem foldl_max (xs : List K) (x : K) :
    let m := xs.foldl (fun a b => if a < b then b else a) x
    m ∈ x :: xs ∧ ∀ y ∈ x :: xs, y ≤ m := by
  induction xs generalizing x with
  | nil => simp
  | cons z xs ih =>
    simp only [List.foldl_cons]
    obtain ⟨h1, h2⟩ := ih (if x < z then z else x)
    split at h1 <;> rename_i hz
    · rw [if_pos hz] at h2 ⊢
      refine ⟨List.mem_cons_of_mem _ h1, fun y hy => ?_⟩
      rcases List.mem_cons.mp hy with h | h
      · subst h; exact hz.le.trans (h2 z List.mem_cons_self)
      · exact h2 y h
    · rw [if_neg hz] at h2 ⊢
      refine ⟨?_, fun y hy => ?_⟩
      · rcases List.mem_cons.mp h1 with h | h
        · rw [h]; exact List.mem_cons_self
        · exact List.mem_cons_of_mem _ (List.mem_cons_of_mem _ h)
      · rcases List.mem_cons.mp hy with h | h
        · subst h; exact h2 y List.mem_cons_self
        · rcases List.mem_cons.mp h with h | h
          · subst h; exact (not_lt.mp hz).trans (h2 x List.mem_cons_self)
          · exact h2 y (List.mem_cons_of_mem _ h)

/-- the outer edges -/
theorem outer_spec (l : List K) (hl : l ≠ []) :
    (outer l).1 < (outer l).2 ∧ (∀ x ∈ l, (outer l).1 ≤ x ∧ x ≤ (outer l).2) ∧
    (((outer l).1 ∈ l ∧ (outer l).2 ∈ l) ∨ ∃ v, (∀ x ∈ l, x = v) ∧ (outer l).1 = v - 1 / 2 ∧ (outer l).2 = v + 1 / 2) := by
  cases l with
  | nil => exact absurd rfl hl
  | cons x xs =>
    obtain ⟨h1, h2⟩ := foldl_min xs x
    obtain ⟨h3, h4⟩ := foldl_max xs x
    unfold outer
    dsimp only at h1 h2 h3 h4 ⊢
    generalize xs.foldl (fun a b => if b < a then b else a) x = lo at *
    generalize xs.foldl (fun a b => if a < b then b else a) x = hi at *
    by_cases h : lo < hi
    · rw [if_pos h]
      exact ⟨h, fun y hy => ⟨h2 y hy, h4 y hy⟩, Or.inl ⟨h1, h3⟩⟩
    · rw [if_neg h]
      have heq : lo = hi := le_antisymm (h2 hi h3) (not_lt.mp h)
      subst heq
      have hh : (0:K) < 1 / ((2:ℕ):K) := by positivity
      refine ⟨by dsimp only; linarith, fun y hy => ?_, Or.inr ⟨lo, fun y hy => le_antisymm (h4 y hy) (h2 y hy), ?_, ?_⟩⟩
      · have := h2 y hy; have := h4 y hy; dsimp only; constructor <;> linarith
      · simp
      · simp

theorem outer_lt (l : List K) : (outer l).1 < (outer l).2 := by
  cases l with
  | nil => simp [outer]
  | cons x xs => exact (outer_spec (x :: xs) (by simp)).1

variable {o : K × K} {n : ℕ}

theorem edge_zero : edge o n 0 = o.1 := by simp [edge]

theorem edge_last (hn : n ≠ 0) : edge o n n = o.2 := by
  have : (n : K) ≠ 0 := by exact_mod_cast hn
  unfold edge
  field_simp
  ring

theorem edge_step (k : ℕ) : edge o n (k + 1) = edge o n k + (o.2 - o.1) / n := by
  unfold edge
  push_cast
  ring

theorem width_pos (ho : o.1 < o.2) (hn : n ≠ 0) : 0 < (o.2 - o.1) / (n : K) := by
  have : (0 : K) < n := by exact_mod_cast Nat.pos_of_ne_zero hn
  exact div_pos (by linarith) this

theorem edge_strictMono (ho : o.1 < o.2) (hn : n ≠ 0) : StrictMono (edge o n) :=
  strictMono_nat_of_lt_succ fun k => by
    rw [edge_step]
    linarith [width_pos ho hn]

/-- below the edges of the first bins -/
theorem countP_below (ho : o.1 < o.2) (hn : n ≠ 0) (l : List K) (hl : ∀ x ∈ l, o.1 ≤ x ∧ x ≤ o.2) (k : ℕ) (hk : k < n) :
    (((List.range k).map fun k => l.countP (inBin o n k)).sum) = l.countP fun x => decide (x < edge o n k) := by
  induction k with
  | zero =>
    simp only [List.range_zero, List.map_nil, List.sum_nil]
    symm
    rw [List.countP_eq_zero]
    intro x hx
    simp only [edge_zero, decide_eq_true_eq, not_lt]
    exact (hl x hx).1
  | succ k ih =>
    rw [List.range_succ, List.map_append, List.sum_append, ih (by omega)]
    simp only [List.map_cons, List.map_nil, List.sum_cons, List.sum_nil, add_zero]
    have hs := edge_strictMono ho hn (Nat.lt_succ_self k)
    have hkn : ¬ k + 1 = n := by omega
    clear ih hl
    induction l with
    | nil => rfl
    | cons x l ih =>
      simp only [List.countP_cons]
      have : (if decide (x < edge o n k) = true then 1 else 0) + (if inBin o n k x = true then 1 else 0)
          = if decide (x < edge o n (k + 1)) = true then 1 else 0 := by
        unfold inBin
        by_cases h1 : x < edge o n k
        · have h2 : x < edge o n (k + 1) := h1.trans hs
          simp [h1, h2, not_le.mpr h1]
        · have h2 := not_lt.mp h1
          simp [h1, h2, hkn]
      omega

theorem countP_all (ho : o.1 < o.2) (hn : n ≠ 0) (l : List K) (hl : ∀ x ∈ l, o.1 ≤ x ∧ x ≤ o.2) :
    (((List.range n).map fun k => l.countP (inBin o n k)).sum) = l.length := by
  obtain ⟨m, rfl⟩ := Nat.exists_eq_succ_of_ne_zero hn
  rw [List.range_succ, List.map_append, List.sum_append, countP_below ho hn l hl m (Nat.lt_succ_self m)]
  simp only [List.map_cons, List.map_nil, List.sum_cons, List.sum_nil, add_zero]
  have hlast : edge o (m + 1) (m + 1) = o.2 := edge_last hn
  induction l with
  | nil => rfl
  | cons x l ih =>
    simp only [List.countP_cons, List.length_cons]
    have := ih fun y hy => hl y (List.mem_cons_of_mem _ hy)
    have hx := (hl x List.mem_cons_self).2
    have : (if decide (x < edge o (m + 1) m) = true then 1 else 0) + (if inBin o (m + 1) m x = true then 1 else 0) = 1 := by
      unfold inBin
      rw [hlast]
      by_cases h1 : x < edge o (m + 1) m
      · simp [h1, not_le.mpr h1]
      · have h2 := not_lt.mp h1
        simp [h1, h2, hx]
    simp only [Nat.succ_eq_add_one] at *
    omega

theorem cumsum_length (acc : ℕ) (l : List ℕ) : (cumsum acc l).length = l.length := by
  induction l generalizing acc with
  | nil => rfl
  | cons c l ih => simp [cumsum, ih]

theorem cumsum_get (acc : ℕ) (l : List ℕ) (k : ℕ) (hk : k < (cumsum acc l).length) :
    (cumsum acc l)[k] = acc + (l.take (k + 1)).sum := by
  induction l generalizing acc k with
  | nil => simp [cumsum] at hk
  | cons c l ih =>
    cases k with
    | zero => simp [cumsum]
    | succ k =>
      simp only [cumsum, List.getElem_cons_succ, List.take_succ_cons, List.sum_cons]
      rw [ih]
      omega

end Sureal.Hist
