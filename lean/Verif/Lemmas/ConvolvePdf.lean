import Verif.Model.ConvolvePdf
import Verif.Spec.ConvolvePdf
import Verif.Props.Inverse
import Mathlib.Tactic.FieldSimp
import Mathlib.Algebra.Order.BigOperators.Ring.Finset
/-! # Lemmas on `ConvolveTwoPdf` -/
set_option linter.unusedSectionVars false
namespace Sureal.ConvolvePdf
open Spec.Convolve
variable {K : Type} [Field K] [LinearOrder K] [IsStrictOrderedRing K] [FloorRing K]

theorem inverseAt_eq {solver : (K → Py (Fl K)) → K → K → Py (Fl K)} {f : K → K} {y : K} {r : Fl K} (h : f 0 ≠ f 1)
    (hs : solver (fun x => .ok (.fin ((f x - y) * (f x - y)))) 0 1 = .ok r) : inverseAt solver f y = .ok r := by
  obtain ⟨inv, e, hi⟩ := Props.no_domain_answers solver h
  obtain ⟨r', hr, o, ho, hx⟩ := hi y
  unfold inverseAt
  rw [e]
  dsimp only
  rw [hr]
  dsimp only
  have : o = fun x => (f x - y) * (f x - y) := funext ho
  rw [this] at hx
  rw [hx r hs]
  rfl

theorem cells_eq (f : K → K) (δ r : K) {n : ℕ} (hn : 0 < n) :
    cells f δ ((List.range n).map fun i : ℕ => -r + (i : K) * δ) = .ok ((List.range n).map fun i => mass f r δ n i) := by
  obtain ⟨m, rfl⟩ := Nat.exists_eq_succ_of_ne_zero hn.ne'
  unfold cells
  have hl : (((List.range (m + 1)).map fun i : ℕ => -r + (i : K) * δ).map fun x => f x * δ).getLast? = some (f (-r + (m : K) * δ) * δ) := by
    rw [List.range_succ]
    simp
  rw [hl]
  dsimp only
  congr 1
  apply List.ext_getElem
  · simp
  · intro i h1 h2
    simp only [List.length_map, List.length_range] at h2
    simp only [List.getElem_zipWith, List.getElem_map, List.getElem_range]
    unfold mass point
    by_cases h : i < m
    · rw [List.getElem_append_left (by simpa using h)]
      simp only [List.getElem_tail, List.getElem_map, List.getElem_range]
      rw [show min (i + 1) (m + 1 - 1) = i + 1 by omega]
      ring
    · have : i = m := by omega
      subst this
      rw [List.getElem_append_right (by simp)]
      simp only [List.getElem_singleton]
      rw [show min (i + 1) (i + 1 - 1) = i by omega]
      ring

theorem sum_range_list (h : ℕ → K) (n : ℕ) : ((List.range n).map h).sum = ∑ i ∈ Finset.range n, h i := by
  induction n with
  | zero => rfl
  | succ n ih => rw [List.range_succ, List.map_append, List.sum_append, ih, Finset.sum_range_succ]; simp

theorem convSame_eq (f g : K → K) (δ r : K) (n : ℕ) :
    ((convSame ((List.range n).map fun i => mass f r δ n i) ((List.range n).map fun i => mass g r δ n i)).map fun p => p / δ) =
      (List.range n).map fun k => conv f g r δ n k := by
  unfold convSame
  rw [List.length_map, List.length_range, List.map_map]
  refine List.map_congr_left fun k _ => ?_
  rw [Function.comp_apply]
  unfold conv
  congr 1
  have hget : ∀ (h : ℕ → K) (j : ℕ), ((List.range n).map h).getD j 0 = if j < n then h j else 0 := by
    intro h j
    rw [List.getD_eq_getElem?_getD, List.getElem?_map]
    by_cases hj : j < n
    · simp [hj]
    · simp [hj]
  rw [Finset.sum_filter, Finset.Nat.sum_antidiagonal_eq_sum_range_succ_mk]
  have e1 : ((List.range n).map fun i => if i ≤ k + (n - 1) / 2 then
      ((List.range n).map fun i => mass f r δ n i).getD i 0 * ((List.range n).map fun i => mass g r δ n i).getD (k + (n - 1) / 2 - i) 0
        else 0).sum =
      ∑ i ∈ Finset.range n, if i ≤ k + (n - 1) / 2 ∧ i < n ∧ k + (n - 1) / 2 - i < n then
        mass f r δ n i * mass g r δ n (k + (n - 1) / 2 - i) else 0 := by
    rw [sum_range_list]
    refine Finset.sum_congr rfl fun i hi => ?_
    have hi := Finset.mem_range.mp hi
    rw [hget, hget]
    by_cases h1 : (i : ℕ) ≤ k + (n - 1) / 2
    · by_cases h3 : k + (n - 1) / 2 - (i : ℕ) < n
      · simp [h1, h3, hi]
      · simp [h3]
    · simp [h1]
  rw [e1]
  set s := k + (n - 1) / 2
  rw [← Finset.sum_filter, ← Finset.sum_filter]
  refine Finset.sum_congr ?_ fun _ _ => rfl
  ext i
  simp only [Finset.mem_filter, Finset.mem_range, Nat.lt_succ_iff]
  omega

theorem interpIn_cell {p c : ℕ → K} (hp : StrictMono p) {x : K} (k : ℕ) : ∀ (s n : ℕ), k + 1 < n → p (s + k) ≤ x → x < p (s + k + 1) →
    interpIn x ((List.range' s n).map fun i => (p i, c i)) =
      (c (s + k + 1) - c (s + k)) / (p (s + k + 1) - p (s + k)) * (x - p (s + k)) + c (s + k) := by
  induction k with
  | zero =>
    intro s n hn h1 h2
    obtain ⟨m, rfl⟩ : ∃ m, n = m + 2 := ⟨n - 2, by omega⟩
    simp only [List.range'_succ, List.map_cons, interpIn]
    rw [if_pos h2]
    rfl
  | succ k ih =>
    intro s n hn h1 h2
    obtain ⟨m, rfl⟩ : ∃ m, n = m + 2 := ⟨n - 2, by omega⟩
    have hle : p (s + 1) ≤ x := (hp.monotone (by omega)).trans h1
    have := ih (s + 1) (m + 1) (by omega) (by rwa [show s + 1 + k = s + (k + 1) by omega])
      (by rwa [show s + 1 + k + 1 = s + (k + 1) + 1 by omega])
    rw [show s + 1 + k + 1 = s + (k + 1) + 1 by omega, show s + 1 + k = s + (k + 1) by omega] at this
    rw [← this]
    simp only [List.range'_succ, List.map_cons]
    conv_lhs => unfold interpIn
    rw [if_neg (not_lt.mpr hle)]

theorem interpIn_last {p c : ℕ → K} (hp : StrictMono p) {x : K} (n : ℕ) : ∀ (s : ℕ), p (s + n) ≤ x →
    interpIn x ((List.range' s (n + 1)).map fun i => (p i, c i)) = c (s + n) := by
  induction n with
  | zero =>
    intro s _
    simp [List.range'_succ, interpIn]
  | succ n ih =>
    intro s h1
    have hle : p (s + 1) ≤ x := (hp.monotone (by omega)).trans h1
    have := ih (s + 1) (by rwa [show s + 1 + n = s + (n + 1) by omega])
    rw [show s + 1 + n = s + (n + 1) by omega] at this
    rw [← this]
    simp only [List.range'_succ, List.map_cons]
    conv_lhs => unfold interpIn
    rw [if_neg (not_lt.mpr hle)]

theorem point_mono {r δ : K} (hδ : 0 < δ) : StrictMono (point r δ) := by
  intro i j hij
  have : (i : K) < j := Nat.cast_lt.mpr hij
  unfold point
  nlinarith

theorem interp_eq {r δ e : K} (hδ : 0 < δ) {n : ℕ} (hn : 0 < n) (c : ℕ → K) (x : K) :
    ∃ v, interp x e ((List.range n).map (point r δ), (List.range n).map c) = .ok v ∧
      (x < -r → v = e) ∧ (point r δ (n - 1) < x → v = e) ∧ (∀ k < n, x = point r δ k → v = c k) ∧
      (∀ k, k + 1 < n → point r δ k ≤ x → x ≤ point r δ (k + 1) → v = c k + (x - point r δ k) / δ * (c (k + 1) - c k)) := by
  obtain ⟨m, rfl⟩ := Nat.exists_eq_succ_of_ne_zero hn.ne'
  have hm := point_mono (r := r) hδ
  have h0 : point r δ 0 = -r := by simp [point]
  have hh : ((List.range (m + 1)).map (point r δ)).head? = some (-r) := by rw [← h0]; simp [List.range_succ_eq_map]
  have hl : ((List.range (m + 1)).map (point r δ)).getLast? = some (point r δ m) := by rw [List.range_succ]; simp
  have hz : ((List.range (m + 1)).map (point r δ)).zip ((List.range (m + 1)).map c) =
      (List.range' 0 (m + 1)).map fun i => (point r δ i, c i) := by
    rw [← List.range_eq_range', List.zip_map']
  have hd : ∀ k, point r δ (k + 1) - point r δ k = δ := by
    intro k
    unfold point
    push_cast
    ring
  unfold interp
  rw [Nat.succ_eq_add_one, hh, hl, hz]
  dsimp only
  by_cases h1 : x < -r
  · rw [if_pos h1]
    have lt : ∀ k, x < point r δ k := fun k => h1.trans_le (h0 ▸ hm.monotone (Nat.zero_le k))
    exact ⟨_, rfl, fun _ => rfl, fun _ => rfl, fun k _ he => absurd he (lt k).ne, fun k _ he => absurd he (lt k).not_ge⟩
  · rw [if_neg h1]
    by_cases h2 : point r δ m < x
    · rw [if_pos h2]
      have lt : ∀ k, k < m + 1 → point r δ k < x := fun k hk => (hm.monotone (by omega : k ≤ m)).trans_lt h2
      exact ⟨_, rfl, fun _ => rfl, fun _ => rfl, fun k hk he => absurd he (lt k hk).ne', fun k hk _ he => absurd he (lt _ hk).not_ge⟩
    · rw [if_neg h2]
      have cell : ∀ k, k + 1 < m + 1 → point r δ k ≤ x → x < point r δ (k + 1) →
          interpIn x ((List.range' 0 (m + 1)).map fun i => (point r δ i, c i)) = c k + (x - point r δ k) / δ * (c (k + 1) - c k) := by
        intro k hk h3 h4
        have := interpIn_cell (c := c) hm (x := x) k 0 (m + 1) hk (by rw [Nat.zero_add]; exact h3) (by rw [Nat.zero_add]; exact h4)
        rw [Nat.zero_add, hd] at this
        rw [this]
        field_simp
        ring
      have pt : ∀ k < m + 1, x = point r δ k → interpIn x ((List.range' 0 (m + 1)).map fun i => (point r δ i, c i)) = c k := by
        intro k hk he
        by_cases hkm : k = m
        · subst hkm
          have := interpIn_last (c := c) hm (x := x) k 0 (by rw [Nat.zero_add, he])
          rwa [Nat.zero_add] at this
        · rw [cell k (by omega) he.ge (he ▸ hm (by omega)), he]
          simp
      refine ⟨_, rfl, fun h => absurd h h1, fun h => absurd h h2, pt, fun k hk h3 h4 => ?_⟩
      rcases h4.lt_or_eq with h4 | h4
      · exact cell k hk h3 h4
      · rw [pt (k + 1) hk h4, h4, hd]
        field_simp
        ring

end Sureal.ConvolvePdf
