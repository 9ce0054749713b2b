import Verif.Lemmas.Hist
import Mathlib.Algebra.BigOperators.Fin
import Mathlib.Algebra.BigOperators.Field
/-!
# C103: histograms
-/
set_option linter.unusedSectionVars false
namespace Sureal.Props
open Sureal Hist

/-- **C103.** The dictionary of `histc` has one entry for each number of the series, which is the number of its occurrences; NaN is
not counted, and the entries add up to the length without the NaNs. -/
theorem C103_histc {K : Type} [DecidableEq K] (l : List (Fl K)) :
    ((histc l).map Prod.fst).Nodup ∧ (∀ x c, (x, c) ∈ histc l ↔ x.isNan = false ∧ x ∈ l ∧ c = l.count x) ∧
    ((histc l).map Prod.snd).sum = (l.filter fun x => !x.isNan).length :=
  histc_spec l

example : histc [.fin 3, .fin 4, .nan, .fin (3 : ℚ), .pinf] = [(.fin 3, 2), (.fin 4, 1), (.pinf, 1)] := by decide +kernel

variable {K : Type} [Field K] [LinearOrder K] [IsStrictOrderedRing K]

/-- the bins of `np.histogram` for the data `l`: from the minimum to the maximum, or half a unit to either side of the only value -/
def BinsOf (l : List K) (lo hi : K) : Prop :=
  lo < hi ∧ (∀ x ∈ l, lo ≤ x ∧ x ≤ hi) ∧ ((lo ∈ l ∧ hi ∈ l) ∨ ∃ v, (∀ x ∈ l, x = v) ∧ lo = v - 1 / 2 ∧ hi = v + 1 / 2)

theorem counts_take (o : K × K) (l : List K) (n k : ℕ) (hk : k < n) :
    (((List.range n).map fun k => l.countP (inBin o n k)).take (k + 1)).sum
      = ((List.range (k + 1)).map fun k => l.countP (inBin o n k)).sum := by
  rw [← List.map_take, List.take_range, Nat.min_eq_left (by omega)]

/-- **C103, partial.** The full claim, that `get_cdf` gives the empirical distribution function at the edges it returns, is refuted by
`C103_refuted_cdf`.  Proved: the edges are equally spaced and end at the maximum, the last value is 1, and every other value is the
fraction of the data strictly below its edge. -/
theorem C103_cdf_partial (l : List K) (hl : l ≠ []) (n : ℕ) (hn : n ≠ 0) :
    ∃ (lo hi : K) (cdf edges : Fin n → K), BinsOf l lo hi ∧
      getCdf (l.map Fl.fin) n = .ok (List.ofFn fun k => Fl.fin (cdf k), List.ofFn edges) ∧
      (∀ k, edges k = lo + (k + 1 : ℕ) * ((hi - lo) / n)) ∧ StrictMono edges ∧
      (∀ k : Fin n, k + 1 < n → cdf k = (l.countP fun x => decide (x < edges k)) / l.length) ∧
      (∀ k : Fin n, k + 1 = n → cdf k = 1 ∧ edges k = hi) := by
  obtain ⟨ho, hb, hm⟩ := outer_spec l hl
  have hlen : (l.length : K) ≠ 0 := by
    have : l.length ≠ 0 := by simpa using hl
    exact_mod_cast this
  have hst := edge_strictMono ho hn
  have hsum : ∀ k, k < n → ((List.range (k + 1)).map fun k => l.countP (inBin (outer l) n k)).sum
      = if k + 1 = n then l.length else l.countP fun x => decide (x < edge (outer l) n (k + 1)) := by
    intro k hk
    by_cases h : k + 1 = n
    · rw [if_pos h, h]
      exact countP_all ho hn l hb
    · rw [if_neg h]
      exact countP_below ho hn l hb (k + 1) (by omega)
  refine ⟨(outer l).1, (outer l).2,
    fun k => (((List.range (k + 1)).map fun k => l.countP (inBin (outer l) n k)).sum : ℕ) / (l.length : K),
    fun k => edge (outer l) n (k + 1), ⟨ho, hb, hm⟩, ?_, fun k => rfl, ?_, ?_, ?_⟩
  · unfold getCdf histogram
    rw [if_neg hn, finite_map]
    dsimp only
    have hlast : (cumsum 0 ((List.range n).map fun k => l.countP (inBin (outer l) n k))).getLast? = some l.length := by
      rw [List.getLast?_eq_getElem?, List.getElem?_eq_getElem (by simp [cumsum_length]; omega), cumsum_get]
      simp only [cumsum_length, List.length_map, List.length_range, zero_add]
      rw [counts_take _ _ _ _ (by omega), hsum _ (by omega), if_pos (by omega)]
    rw [hlast]
    dsimp only
    congr 2
    · apply List.ext_getElem
      · simp [cumsum_length]
      · intro k h1 h2
        have hk : k < n := by simpa using h2
        rw [List.getElem_map, cumsum_get, List.getElem_ofFn, Fl.natCast_def, Fl.natCast_def, Fl.fin_div hlen, zero_add,
          counts_take _ _ _ _ hk]
    · apply List.ext_getElem
      · simp
      · intro k h1 h2
        simp
  · intro i j hij
    exact hst (by simpa using hij)
  · intro k hk
    dsimp only
    rw [hsum _ k.2, if_neg (by omega)]
  · intro k hk
    dsimp only
    rw [hsum _ k.2, if_pos hk, hk]
    exact ⟨div_self hlen, edge_last hn⟩

/-- if no datum lies on an inner edge, the values are those of the empirical distribution function -/
theorem C103_cdf_empirical (l : List K) (hl : l ≠ []) (n : ℕ) (hn : n ≠ 0) (cdf edges : Fin n → K)
    (h : getCdf (l.map Fl.fin) n = .ok (List.ofFn fun k => Fl.fin (cdf k), List.ofFn edges))
    (hoff : ∀ k : Fin n, k + 1 < n → edges k ∉ l) (k : Fin n) :
    cdf k = (l.countP fun x => decide (x ≤ edges k)) / l.length := by
  obtain ⟨lo, hi, cdf', edges', hb, h', -, -, h1, h2⟩ := C103_cdf_partial l hl n hn
  rw [h] at h'
  obtain ⟨e1, e2⟩ := Prod.mk.inj (Except.ok.inj h')
  have e2 : edges = edges' := List.ofFn_injective e2
  have e1 : cdf = cdf' := by
    have := List.ofFn_injective e1
    funext k
    exact Fl.fin.inj (congrFun this k)
  subst e1; subst e2
  have hlen : (l.length : K) ≠ 0 := by
    have : l.length ≠ 0 := by simpa using hl
    exact_mod_cast this
  by_cases hk : k + 1 = n
  · rw [(h2 k hk).1, (h2 k hk).2]
    have : (l.countP fun x => decide (x ≤ hi)) = l.length := by
      rw [List.countP_eq_length]
      intro x hx
      simpa using (hb.2.1 x hx).2
    rw [this, div_self hlen]
  · have hk' : k + 1 < n := by omega
    rw [h1 k hk']
    congr 2
    apply List.countP_congr
    intro x hx
    have hne : x ≠ edges k := fun he => hoff k hk' (he ▸ hx)
    simp only [decide_eq_true_eq]
    exact ⟨le_of_lt, fun hle => lt_of_le_of_ne hle hne⟩

/-- **C103, refuted.** Of 0, 1, 2 two thirds are at most 1, but `get_cdf` with two bins gives one third at the edge 1. -/
theorem C103_refuted_cdf :
    getCdf [.fin 0, .fin 1, .fin (2 : ℚ)] 2 = .ok ([.fin (1 / 3), .fin 1], [1, 2]) ∧
    (([0, 1, 2] : List ℚ).countP fun x => decide (x ≤ 1)) / (3 : ℚ) = 2 / 3 := by
  decide +kernel

example : getCdf ([1, 2, 4, 5].map (Fl.fin : ℚ → _)) 3 = .ok ([.fin (1 / 2), .fin (1 / 2), .fin 1], [7 / 3, 11 / 3, 5]) ∧
    (∀ e ∈ [(7 : ℚ) / 3, 11 / 3], e ∉ [(1 : ℚ), 2, 4, 5]) := by decide +kernel

/-- **C103.** A datum that is not a finite number, or no bins, is a ValueError. -/
theorem C103_errors (x : List (Fl K)) (n : ℕ) (h : n = 0 ∨ ∃ y ∈ x, y.isFinite = false) (density : Bool) :
    getCdf x n = .error .value ∧ getPdf x n density = .error .value := by
  have : histogram x n = .error .value := by
    unfold histogram
    split
    · rfl
    · rename_i hn
      rcases h with h | h
      · exact absurd h hn
      · rw [finite_none h]
  exact ⟨by unfold getCdf; rw [this], by unfold getPdf; rw [this]⟩

/-- **C103.** Without data nothing fails: `get_cdf` gives a NaN for each bin of the interval from 0 to 1. -/
theorem C103_empty (n : ℕ) (hn : n ≠ 0) :
    ∃ edges : List K, getCdf ([] : List (Fl K)) n = .ok (List.replicate n .nan, edges) := by
  refine ⟨((List.range (n + 1)).map fun k => edge (outer ([] : List K)) n k).tail, ?_⟩
  unfold getCdf histogram
  rw [if_neg hn]
  simp only [finite, List.countP_nil]
  have hz : ∀ m, cumsum 0 ((List.range m).map fun _ => 0) = List.replicate m 0 := by
    intro m
    apply List.ext_getElem
    · simp [cumsum_length]
    · intro k h1 h2
      rw [cumsum_get]
      simp
  rw [hz]
  have : (List.replicate n 0).getLast? = some 0 := by
    rw [List.getLast?_replicate, if_neg hn]
  rw [this]
  dsimp only
  congr 2
  rw [List.map_replicate]
  congr 1
  rw [Fl.natCast_def]
  simp only [Nat.cast_zero]
  exact Fl.zero_div_zero

theorem diffs_range (o : K × K) (n m s : ℕ) :
    diffs ((List.range' s (m + 1)).map fun k => edge o n k) = List.replicate m ((o.2 - o.1) / n) := by
  induction m generalizing s with
  | zero => rfl
  | succ m ih =>
    have := ih (s + 1)
    rw [List.range'_succ, List.map_cons] at this ⊢
    rw [List.range'_succ, List.map_cons, diffs, this, List.replicate_succ, edge_step]
    congr 1
    ring

theorem centres_range (o : K × K) (n m s : ℕ) :
    centres ((List.range' s (m + 1)).map fun k => edge o n k)
      = (List.range' s m).map fun k : ℕ => edge o n k + (o.2 - o.1) / n / 2 := by
  induction m generalizing s with
  | zero => rfl
  | succ m ih =>
    have := ih (s + 1)
    rw [List.range'_succ, List.map_cons] at this ⊢
    rw [List.range'_succ, List.map_cons, centres, this, List.range'_succ, List.map_cons, edge_step]
    congr 1
    push_cast
    ring

/-- **C103.** `get_pdf` with `density` is a probability density: not negative, and with the width of the bins it integrates to 1;
its value in a bin is the fraction of the data in the bin over the width, and it is given at the midpoints.  Without `density` it
is the number of data in the bin, and these add up to all data. -/
theorem C103_pdf (l : List K) (hl : l ≠ []) (n : ℕ) (hn : n ≠ 0) :
    ∃ (lo hi w : K) (cnt : Fin n → ℕ) (mid : Fin n → K), BinsOf l lo hi ∧ w = (hi - lo) / n ∧
      getPdf (l.map Fl.fin) n true = .ok (List.ofFn fun k => Fl.fin (cnt k / l.length / w), List.ofFn mid) ∧
      getPdf (l.map Fl.fin) n false = .ok (List.ofFn fun k => Fl.fin (cnt k : K), List.ofFn mid) ∧
      (∀ k, mid k = lo + (k : ℕ) * w + w / 2) ∧
      (∀ k : Fin n, k + 1 < n → cnt k = l.countP fun x => decide (lo + (k : ℕ) * w ≤ x ∧ x < lo + (k + 1 : ℕ) * w)) ∧
      (∀ k : Fin n, k + 1 = n → cnt k = l.countP fun x => decide (lo + (k : ℕ) * w ≤ x)) ∧
      ∑ k, cnt k = l.length ∧ (∑ k, (cnt k : K) / l.length / w * w) = 1 ∧ ∀ k, 0 ≤ (cnt k : K) / l.length / w := by
  obtain ⟨ho, hb, hm⟩ := outer_spec l hl
  have hlen : (l.length : K) ≠ 0 := by
    have : l.length ≠ 0 := by simpa using hl
    exact_mod_cast this
  have hw := width_pos ho hn
  have hsum : ∑ k : Fin n, l.countP (inBin (outer l) n k) = l.length := by
    rw [← countP_all ho hn l hb, ← List.sum_ofFn]
    congr 1
    apply List.ext_getElem <;> simp
  have hcnt : ((List.range n).map fun k => l.countP (inBin (outer l) n k)).sum = l.length := countP_all ho hn l hb
  refine ⟨(outer l).1, (outer l).2, _, fun k => l.countP (inBin (outer l) n k),
    fun k => edge (outer l) n k + ((outer l).2 - (outer l).1) / n / 2, ⟨ho, hb, hm⟩, rfl, ?_, ?_, fun k => rfl, ?_, ?_, hsum, ?_, ?_⟩
  · unfold getPdf histogram
    rw [if_neg hn, finite_map]
    simp only [if_true, hcnt]
    rw [List.range_eq_range' (n := n + 1), diffs_range, centres_range]
    congr 2
    · apply List.ext_getElem
      · simp
      · intro k h1 h2
        simp only [List.getElem_map, List.getElem_zip, List.getElem_range, List.getElem_replicate, List.getElem_ofFn]
        rw [Fl.natCast_def, Fl.natCast_def, Fl.fin_div hw.ne', Fl.fin_div hlen]
        congr 1
        field_simp
    · apply List.ext_getElem <;> simp
  · unfold getPdf histogram
    rw [if_neg hn, finite_map]
    simp only [Bool.false_eq_true, if_false]
    rw [List.range_eq_range' (n := n + 1), centres_range]
    congr 2
    · apply List.ext_getElem
      · simp
      · intro k h1 h2
        simp [Fl.natCast_def]
    · apply List.ext_getElem <;> simp
  · intro k hk
    apply List.countP_congr
    intro x hx
    have hk' : ¬ (k : ℕ) + 1 = n := by omega
    unfold inBin
    rw [beq_false_of_ne hk']
    simp only [Bool.false_and, Bool.or_false, Bool.and_eq_true, decide_eq_true_eq]
    exact Iff.rfl
  · intro k hk
    apply List.countP_congr
    intro x hx
    have hx2 := (hb x hx).2
    have hle : x ≤ edge (outer l) n (k + 1) := by rw [hk, edge_last hn]; exact hx2
    unfold inBin
    rw [beq_iff_eq.mpr hk, decide_eq_true hle]
    simp only [Bool.true_and, Bool.or_true, Bool.and_true, decide_eq_true_eq]
    exact Iff.rfl
  · have : ∀ k : Fin n, (l.countP (inBin (outer l) n k) : K) / l.length / (((outer l).2 - (outer l).1) / n)
        * (((outer l).2 - (outer l).1) / n) = (l.countP (inBin (outer l) n k) : K) / l.length := fun k =>
      div_mul_cancel₀ _ hw.ne'
    simp only [this]
    rw [← Finset.sum_div, ← Nat.cast_sum, hsum, div_self hlen]
  · intro k
    positivity

example : getPdf ([1, 2, 4, 5].map (Fl.fin : ℚ → _)) 2 true = .ok ([.fin (1 / 4), .fin (1 / 4)], [2, 4]) := by decide +kernel
example : getPdf ([1, 1].map (Fl.fin : ℚ → _)) 2 true = .ok ([.fin 0, .fin 2], [3 / 4, 5 / 4]) := by decide +kernel
example : getCdf [.fin 1, .nan, .fin (2 : ℚ)] 10 = .error .value := (C103_errors _ _ (.inr ⟨.nan, by simp, rfl⟩) true).1

end Sureal.Props
