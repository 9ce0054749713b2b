import Verif.Model.Plots
import Verif.Lemmas.Ap
import Verif.Lemmas.Hist
/-! Lemmas on the data of the plots. -/
set_option linter.unusedSectionVars false
namespace Sureal.Plots
open Sureal Spec
variable {K : Type} [Field K] [LinearOrder K] [IsStrictOrderedRing K]

theorem present_sub (l : List (Fl K)) (h : Np.Clean l) (c : K) :
    present (l.map fun x => x - Fl.fin c) = (present l).map fun x => x - c := by
  induction l with
  | nil => rfl
  | cons x l ih =>
    rw [Np.Clean.cons] at h
    rcases h with ⟨h | ⟨v, h⟩, hl⟩ <;> subst h
    · simpa using ih hl
    · simp [ih hl]

theorem clean_sub {l : List (Fl K)} (h : Np.Clean l) (c : K) : Np.Clean (l.map fun x => x - Fl.fin c) := by
  intro y hy
  obtain ⟨x, hx, rfl⟩ := List.mem_map.mp hy
  rcases h x hx with h | ⟨v, h⟩ <;> subst h
  · exact Or.inl rfl
  · exact Or.inr ⟨v - c, Fl.fin_sub v c⟩

theorem nanmean_sub {l : List (Fl K)} (h : Np.Clean l) (c : K) :
    Np.nanmean (l.map fun x => x - Fl.fin c) = Np.nanmean l - Fl.fin c := by
  by_cases hp : present l = []
  · rw [Np.nanmean_empty h hp, Np.nanmean_empty (clean_sub h c) (by rw [present_sub l h, hp]; rfl)]
    rfl
  · rw [Np.nanmean_eq h hp, Np.nanmean_eq (clean_sub h c) (by rw [present_sub l h]; simpa using hp), present_sub l h, Fl.fin_sub]
    congr 1
    have hl := Np.length_ne_zero hp
    unfold Spec.mean
    rw [List.length_map]
    have : ∀ m : List K, (m.map fun x => x - c).sum = m.sum - m.length * c := by
      intro m
      induction m with
      | nil => simp
      | cons x m ih => simp only [List.map_cons, List.sum_cons, ih, List.length_cons, Nat.cast_succ]; ring
    rw [this]
    field_simp

theorem nanmean_one (x : Fl K) (h : NumOrNan x) : Np.nanmean [x] = x := by
  have hc : Np.Clean [x] := by intro y hy; rw [List.mem_singleton] at hy; subst hy; exact h
  rcases h with h | ⟨v, h⟩ <;> subst h
  · exact Np.nanmean_empty hc rfl
  · rw [Np.nanmean_eq hc (by simp)]
    simp [Spec.mean, present, Np.present_nil]

/-- an order on all floats that agrees with `<=` on numbers -/
def leN (p q : Fl K × Nat) : Prop := p.1.isNan = true ∨ q.1.isNan = false ∧ Fl.le p.1 q.1 = true

instance : DecidableRel (leN (K := K)) := fun p q => by unfold leN; infer_instance

instance : Std.Total (leN (K := K)) := ⟨fun p q => by
  obtain ⟨p, _⟩ := p
  obtain ⟨q, _⟩ := q
  unfold leN
  cases p <;> cases q <;> simp [Fl.isNan, Fl.le, le_total]⟩

instance : IsTrans (Fl K × Nat) leN := ⟨fun p q r => by
  obtain ⟨p, _⟩ := p
  obtain ⟨q, _⟩ := q
  obtain ⟨r, _⟩ := r
  unfold leN
  cases p <;> cases q <;> cases r <;> simp [Fl.isNan, Fl.le]
  exact le_trans⟩

theorem insertionSort_eq (l : List (Fl K × Nat)) (h : ∀ p ∈ l, p.1.isNan = false) :
    (l.insertionSort fun p q => Fl.le p.1 q.1 = true) = l.insertionSort leN := by
  have := List.map_insertionSort (r := fun p q : Fl K × Nat => Fl.le p.1 q.1 = true) (s := leN) id l fun p hp q hq => by
    unfold leN
    simp [h p hp, h q hq]
  simpa using this

theorem entries_mem (ih : ℕ) (h : List (Fl K × Nat)) (p : Nat × Fl K × Nat) : p ∈ entries ih h ↔ p.1 = ih ∧ p.2 ∈ h := by
  obtain ⟨i, x, c⟩ := p
  unfold entries
  simp only [List.mem_map, List.mem_insertionSort]
  constructor
  · rintro ⟨q, hq, he⟩
    cases he
    exact ⟨rfl, hq⟩
  · rintro ⟨h1, h2⟩
    exact ⟨(x, c), h2, by rw [h1]⟩

theorem entries_sorted (ih : ℕ) (h : List (Fl K × Nat)) (hn : ∀ p ∈ h, p.1.isNan = false) (hd : (h.map Prod.fst).Nodup) :
    (entries ih h).Pairwise fun p q => Fl.lt p.2.1 q.2.1 = true := by
  unfold entries
  rw [List.pairwise_map, insertionSort_eq h hn]
  have h1 := List.pairwise_insertionSort leN h
  have h2 : ((h.insertionSort leN).map Prod.fst).Nodup := ((List.perm_insertionSort leN h).map _).nodup_iff.mpr hd
  rw [List.Nodup, List.pairwise_map] at h2
  have h3 := (List.pairwise_and_iff.mpr ⟨h1, h2⟩)
  refine List.Pairwise.imp_of_mem ?_ h3
  rintro p q hp hq ⟨hle, hne⟩
  have hpn := hn p (by rwa [List.mem_insertionSort] at hp)
  unfold leN at hle
  rw [hpn] at hle
  obtain ⟨p, _⟩ := p
  obtain ⟨q, _⟩ := q
  revert hle hne
  cases p <;> cases q <;> simp [Fl.isNan, Fl.le, Fl.lt]
  intro h1 h2
  exact lt_of_le_of_ne h1 h2

theorem entries_sum (ih : ℕ) (h : List (Fl K × Nat)) : ((entries ih h).map fun p => p.2.2).sum = (h.map Prod.snd).sum := by
  unfold entries
  rw [List.map_map]
  exact ((List.perm_insertionSort _ h).map _).sum_eq

/-- the points before a plot of the histograms of some series is drawn, from index `k` on -/
theorem datas_spec (ls : List (List (Fl K))) (k : ℕ) :
    let d := ((ls.map Hist.histc).zipIdx k).flatMap fun p => entries p.2 p.1
    (∀ j x c, (j, x, c) ∈ d ↔ k ≤ j ∧ ∃ l, ls[j - k]? = some l ∧ x.isNan = false ∧ x ∈ l ∧ c = l.count x) ∧
    d.Pairwise (fun p q => p.1 < q.1 ∨ p.1 = q.1 ∧ Fl.lt p.2.1 q.2.1 = true) ∧
    (d.map fun p => p.2.2).sum = (ls.flatten.filter fun x => !x.isNan).length := by
  induction ls generalizing k with
  | nil => simp
  | cons l ls ih =>
    obtain ⟨h1, h2, h3⟩ := ih (k + 1)
    dsimp only at h1 h2 h3 ⊢
    rw [List.map_cons, List.zipIdx_cons, List.flatMap_cons]
    generalize ((ls.map Hist.histc).zipIdx (k + 1)).flatMap (fun p => entries p.2 p.1) = d at h1 h2 h3 ⊢
    obtain ⟨g1, g2, g3⟩ := Hist.histc_spec l
    have hn : ∀ p ∈ Hist.histc l, p.1.isNan = false := fun p hp => ((g2 p.1 p.2).mp hp).1
    refine ⟨fun j x c => ?_, ?_, ?_⟩
    · rw [List.mem_append, entries_mem, h1]
      dsimp only
      rw [g2]
      constructor
      · rintro (⟨rfl, h⟩ | ⟨h, m, hm, hr⟩)
        · exact ⟨le_refl _, l, by simp, h⟩
        · refine ⟨by omega, m, ?_, hr⟩
          rw [show j - k = (j - (k + 1)) + 1 by omega]
          simpa using hm
      · rintro ⟨h, m, hm, hr⟩
        by_cases hj : j = k
        · subst hj
          simp only [Nat.sub_self, List.getElem?_cons_zero, Option.some.injEq] at hm
          subst hm
          exact Or.inl ⟨rfl, hr⟩
        · refine Or.inr ⟨by omega, m, ?_, hr⟩
          rw [show j - k = (j - (k + 1)) + 1 by omega] at hm
          simpa using hm
    · rw [List.pairwise_append]
      refine ⟨?_, h2, ?_⟩
      · refine List.Pairwise.imp_of_mem ?_ (entries_sorted k _ hn g1)
        intro p q hp hq h
        rw [entries_mem] at hp hq
        exact Or.inr ⟨hp.1.trans hq.1.symm, h⟩
      · rintro p hp ⟨j, x, c⟩ hq
        rw [entries_mem] at hp
        have := ((h1 j x c).mp hq).1
        left
        dsimp only
        omega
    · rw [List.map_append, List.sum_append, entries_sum, h3, g3, List.flatten_cons, List.filter_append, List.length_append]

end Sureal.Plots
