import Verif.Model.WinRate
import Verif.Props.PcReader
import Mathlib.Algebra.BigOperators.Fin
import Mathlib.Algebra.Order.BigOperators.Ring.Finset
/-!
# C108: the winning rates of paired comparisons
-/
set_option linter.unusedSectionVars false
namespace Sureal.Props
open Sureal Spec PcReader WinRate
variable {κ K : Type} [LinearOrder κ] [Field K] [LinearOrder K] [IsStrictOrderedRing K]

/-- the number in a cell, 0 if there is none -/
def numOf : Option (Fl K) → K
  | some (.fin q) => q
  | _ => 0

/-- the observers who compared the videos -/
def judges (a : Arr3D (Fl K)) (i j : ℕ) : Finset ℕ := (Finset.range a.R).filter fun s => cell a i j s ≠ some .nan

/-- entry of a matrix given by rows -/
def entryAt (m : List (List (Fl K))) (i j : ℕ) : Option (Fl K) := m[i]?.bind fun r => r[j]?

theorem nansum_cells {n : ℕ} (f : Fin n → Fl K) (h : ∀ s, NumOrNan (f s)) :
    Np.nansum (List.ofFn f) = .fin (∑ s, numOf (some (f s))) := by
  rw [Np.nansum_eq (Np.clean_ofFn.mpr h)]
  congr 1
  rw [← List.sum_ofFn]
  induction n with
  | zero => simp [present]
  | succ n ih =>
    rw [List.ofFn_succ, List.ofFn_succ, List.sum_cons, ← ih _ fun s => h s.succ]
    rcases h 0 with h0 | ⟨q, h0⟩ <;> rw [h0] <;> simp [numOf]

theorem cell_get (a : Arr3D (Fl K)) (i : Fin a.E) (j : Fin a.S) (s : Fin a.R) : cell a i j s = some (a.get i j s) := by
  unfold cell
  rw [dif_pos ⟨i.2, j.2, s.2⟩]

/-- the sum over the observers -/
theorem wins_eq (a : Arr3D (Fl K)) (i : Fin a.E) (j : Fin a.S) (h : ∀ s : Fin a.R, NumOrNan (a.get i j s)) :
    wins a.get i j = .fin (∑ s ∈ Finset.range a.R, numOf (cell a i j s)) := by
  unfold wins
  rw [nansum_cells _ h, Finset.sum_range]
  simp only [cell_get]

/-- **C108.** The plot of winning rates exists exactly if all comparisons are legal. -/
theorem C108_exists (d : Dataset (κ × Int) K) (rd : PcRd κ K) (h : pcReader d = .ok rd) :
    (∃ m, visualize d = .ok m) ↔ RecordsLegal d.disVideos := by
  rw [← (C49_illegal_raises d rd h).1]
  unfold visualize
  rw [h]
  dsimp only
  cases hs : rd.scores with
  | error e => simp
  | ok a =>
    obtain ⟨hE, hS, -⟩ := C49_complementary d rd h a hs
    dsimp only
    rw [rates, dif_pos (hS.trans hE.symm)]
    exact iff_of_true ⟨_, rfl⟩ ⟨a, rfl⟩

/-- **C108.** For two different videos that somebody
compared, the rate is the mean outcome for the first one over the observers who compared them; it lies between 0 and 1, and the
rates of the two orders add up to 1.  For videos nobody compared it is NaN. -/
theorem C108_rates (d : Dataset (κ × Int) K) (rd : PcRd κ K) (h : pcReader d = .ok rd) (a : Arr3D (Fl K)) (hs : rd.scores = .ok a) :
    ∃ m, visualize d = .ok m ∧ m.length = d.disVideos.length ∧ (∀ r ∈ m, r.length = d.disVideos.length) ∧
      ∀ i j, i < d.disVideos.length → j < d.disVideos.length → i ≠ j →
        (judges a i j = ∅ → entryAt m i j = some .nan ∧ entryAt m j i = some .nan) ∧
        (judges a i j ≠ ∅ → ∃ q q' : K, entryAt m i j = some (.fin q) ∧ entryAt m j i = some (.fin q') ∧
          q = (∑ s ∈ judges a i j, numOf (cell a i j s)) / ((judges a i j).card : K) ∧ 0 ≤ q ∧ q ≤ 1 ∧ q + q' = 1) := by
  obtain ⟨hE, hS, hcell⟩ := C49_complementary d rd h a hs
  have hSE : a.S = a.E := by rw [hE, hS]
  have hnum : ∀ (i : Fin a.E) (j : Fin a.S) (s : Fin a.R), NumOrNan (a.get i j s) := by
    intro i j s
    have h0 := hcell i j s i.2 (hSE ▸ j.2) s.2
    by_cases hij : (i : ℕ) = j
    · have h1 := h0.2
      have e : cell a i i s = cell a i j s := by rw [← hij]
      rw [e, cell_get] at h1
      rcases h1 with h1 | ⟨q, -, h1⟩
      · exact Or.inl (Option.some.inj h1)
      · exact Or.inr ⟨q, Option.some.inj h1⟩
    · rcases h0.1 hij with ⟨h1, -⟩ | ⟨q, q', -, -, -, h1, -⟩
      · rw [cell_get] at h1
        exact Or.inl (Option.some.inj h1)
      · rw [cell_get] at h1
        exact Or.inr ⟨q, Option.some.inj h1⟩
  have hv : visualize d = rates a := by
    unfold visualize
    rw [h]
    dsimp only
    rw [hs]
  refine ⟨_, by rw [hv, rates, dif_pos hSE], by simp [hE], ?_, ?_⟩
  · intro r hr
    rw [List.mem_ofFn] at hr
    obtain ⟨i, rfl⟩ := hr
    simp [hE]
  intro i j hi hj hij
  rw [← hE] at hi hj
  have hent : ∀ i j (hi : i < a.E) (hj : j < a.E), entryAt (List.ofFn fun i : Fin a.E => List.ofFn fun j : Fin a.E =>
      wins a.get i (j.cast hSE.symm) / (wins a.get i (j.cast hSE.symm) + wins a.get j (i.cast hSE.symm))) i j =
      some (.fin (∑ s ∈ Finset.range a.R, numOf (cell a i j s)) /
        (.fin (∑ s ∈ Finset.range a.R, numOf (cell a i j s)) + .fin (∑ s ∈ Finset.range a.R, numOf (cell a j i s)))) := by
    intro i j hi hj
    unfold entryAt
    rw [List.getElem?_ofFn, dif_pos hi]
    change (List.ofFn _)[j]? = _
    rw [List.getElem?_ofFn, dif_pos hj, wins_eq a _ _ (hnum _ _), wins_eq a _ _ (hnum _ _)]
    rfl
  rw [hent i j hi hj, hent j i hj hi]
  -- sums over the observers who compared
  have hsum : ∀ i j, ∑ s ∈ Finset.range a.R, numOf (cell a i j s) = ∑ s ∈ judges a i j, numOf (cell a i j s) := by
    intro i j
    unfold judges
    rw [Finset.sum_filter_of_ne]
    intro s _ hne h0
    rw [h0] at hne
    exact hne rfl
  have hjj : judges a j i = judges a i j := by
    unfold judges
    apply Finset.filter_congr
    intro s hs'
    rcases (hcell i j s hi hj (Finset.mem_range.mp hs')).1 hij with ⟨h1, h2⟩ | ⟨q, q', -, -, -, h1, h2⟩
    · rw [h1, h2]
    · rw [h1, h2]; simp
  have hout : ∀ s ∈ judges a i j, ∃ q q' : K, 0 ≤ q ∧ 0 ≤ q' ∧ q + q' = 1 ∧ cell a i j s = some (.fin q) ∧ cell a j i s = some (.fin q') := by
    intro s hs'
    obtain ⟨hr, hne⟩ := Finset.mem_filter.mp hs'
    rcases (hcell i j s hi hj (Finset.mem_range.mp hr)).1 hij with ⟨h1, -⟩ | ⟨q, q', ho, ho', hq, h1, h2⟩
    · exact absurd h1 hne
    · have hpos : ∀ x : K, Outcome3 x → 0 ≤ x := by rintro x (rfl | rfl | rfl) <;> norm_num
      exact ⟨q, q', hpos q ho, hpos q' ho', hq, h1, h2⟩
  rw [hsum i j, hsum j i, hjj]
  generalize hw : ∑ s ∈ judges a i j, numOf (cell a i j s) = w
  generalize hw' : ∑ s ∈ judges a i j, numOf (cell a j i s) = w'
  have htot : w + w' = ((judges a i j).card : K) := by
    rw [← hw, ← hw', ← Finset.sum_add_distrib, Finset.card_eq_sum_ones, Nat.cast_sum]
    refine Finset.sum_congr rfl fun s hs' => ?_
    obtain ⟨q, q', -, -, hq, h1, h2⟩ := hout s hs'
    rw [h1, h2]
    simpa [numOf] using hq
  constructor
  · intro he
    have e1 : w = 0 := by rw [← hw, he]; simp
    have e2 : w' = 0 := by rw [← hw', he]; simp
    rw [e1, e2, Fl.fin_add, add_zero]
    exact ⟨congrArg some Fl.zero_div_zero, congrArg some Fl.zero_div_zero⟩
  · intro he
    have hc : (0 : K) < ((judges a i j).card : K) := by
      exact_mod_cast Finset.card_pos.mpr (Finset.nonempty_iff_ne_empty.mpr he)
    have hw0 : 0 ≤ w := by
      rw [← hw]
      refine Finset.sum_nonneg fun s hs' => ?_
      obtain ⟨q, q', h0, -, -, h1, -⟩ := hout s hs'
      rw [h1]; exact h0
    have hw0' : 0 ≤ w' := by
      rw [← hw']
      refine Finset.sum_nonneg fun s hs' => ?_
      obtain ⟨q, q', -, h0, -, -, h1⟩ := hout s hs'
      rw [h1]; exact h0
    rw [Fl.fin_add, Fl.fin_add, add_comm w' w, htot, Fl.fin_div hc.ne', Fl.fin_div hc.ne']
    refine ⟨_, _, rfl, rfl, rfl, div_nonneg hw0 hc.le, ?_, ?_⟩
    · rw [div_le_one hc]; linarith
    · rw [← add_div, htot, div_self hc.ne']

/-- three observers compare videos 0 and 1: two prefer 0, one is undecided -/
def exRates : Dataset (String × Int) ℚ :=
  pcSet [pcVid 0 [(("Ann", 1), .one (.fin 1)), (("Bob", 1), .one (.fin 1)), (("Cy", 1), .one (.fin (1 / 2)))], pcVid 1 [], pcVid 2 []]

example : (okWith (visualize exRates) fun m => decide (entryAt m 0 1 = some (.fin (5 / 6))) && decide (entryAt m 1 0 = some (.fin (1 / 6)))
    && decide (entryAt m 0 2 = some .nan)) = true := by decide +kernel

example : ∃ rd a, pcReader exRates = .ok rd ∧ rd.scores = .ok a ∧ judges a 0 1 ≠ ∅ := by
  obtain ⟨rd, hrd⟩ : ∃ rd, pcReader exRates = .ok rd := ⟨_, rfl⟩
  have hrd' := hrd
  rw [pcReader_ok] at hrd'
  obtain ⟨-, rfl⟩ := hrd'
  obtain ⟨a, h, hP⟩ := okWith_elim (x := pcScores (K := ℚ) exRates.disVideos)
    (P := fun a => decide (cell a 0 1 0 = some (.fin 1)) && decide (0 < a.R)) (by decide +kernel)
  simp only [Bool.and_eq_true, decide_eq_true_eq] at hP
  refine ⟨_, a, hrd, h, ?_⟩
  apply Finset.ne_empty_of_mem (a := 0)
  unfold judges
  rw [Finset.mem_filter, Finset.mem_range, hP.1]
  exact ⟨hP.2, by simp⟩

end Sureal.Props
