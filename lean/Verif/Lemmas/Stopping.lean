import Mathlib.Probability.Independence.InfinitePi
import Mathlib.Probability.HasLaw
/-!
# Independent draws read up to a stopping time

A stream of independent, identically distributed draws, shifted by a number of draws that is determined by the draws read so
far, has the same law as the stream.
-/
namespace Sureal.Stop
open MeasureTheory ProbabilityTheory
variable {X : Type} [mX : MeasurableSpace X] (ρ : Measure X) [IsProbabilityMeasure ρ]

/-- the law of a stream of independent draws -/
noncomputable abbrev law : Measure (ℕ → X) := Measure.infinitePi fun _ => ρ

def shift (n : ℕ) (v : ℕ → X) : ℕ → X := fun k => v (n + k)

theorem shift_shift (m n : ℕ) (v : ℕ → X) : shift n (shift m v) = shift (m + n) v := by
  funext k; simp [shift, Nat.add_assoc]

theorem measurable_shift (n : ℕ) : Measurable (shift (X := X) n) := by
  apply measurable_pi_iff.mpr
  intro k
  exact measurable_pi_apply _

/-- the event depends on the first `n` draws only -/
def Local (n : ℕ) (C : Set (ℕ → X)) : Prop := ∀ v v', (∀ k < n, v k = v' k) → v ∈ C → v' ∈ C

theorem iIndep_coord : iIndepFun (fun (i : ℕ) (v : ℕ → X) => v i) (law ρ) :=
  iIndepFun_infinitePi (P := fun _ => ρ) (X := fun _ x => x) (fun _ => measurable_id)

theorem map_shift (n : ℕ) : (law ρ).map (shift n) = law ρ := by
  have h : iIndepFun (fun (i : ℕ) (v : ℕ → X) => v (n + i)) (law ρ) :=
    (iIndep_coord ρ).precomp (g := fun i => n + i) (fun a b h => by simpa using h)
  have := h.map_fun_eq_infinitePi_map (fun i => measurable_pi_apply _)
  change (law ρ).map (shift n) = _ at this
  rw [this]
  congr 1
  funext i
  exact (measurePreserving_eval_infinitePi (fun _ : ℕ => ρ) (n + i)).map_eq

theorem shift_measure (n : ℕ) {B : Set (ℕ → X)} (hB : MeasurableSet B) : law ρ {v | shift n v ∈ B} = law ρ B := by
  conv_rhs => rw [← map_shift ρ n]
  rw [Measure.map_apply (measurable_shift n) hB]
  rfl

/-- the first `n` draws are independent of the others -/
theorem head_tail (n : ℕ) {C B : Set (ℕ → X)} (hC : MeasurableSet C) (hl : Local n C) (hB : MeasurableSet B) :
    law ρ (C ∩ {v | shift n v ∈ B}) = law ρ C * law ρ B := by
  classical
  rw [← shift_measure ρ n hB]
  let m : ℕ → MeasurableSpace (ℕ → X) := fun i => mX.comap (fun v => v i)
  have hm : ∀ i, m i ≤ MeasurableSpace.pi := fun i => (measurable_pi_apply i).comap_le
  have hind := indep_iSup_of_disjoint hm (iIndep_coord ρ) (S := {i | i < n}) (T := {i | n ≤ i}) (by
    rw [Set.disjoint_left]
    intro i h1 h2
    simp only [Set.mem_setOf_eq] at h1 h2
    omega)
  rw [Indep_iff] at hind
  apply hind
  · by_cases hne : Nonempty X
    · obtain ⟨x0⟩ := hne
      let t : (ℕ → X) → (ℕ → X) := fun v k => if k < n then v k else x0
      have ht : @Measurable _ _ (⨆ i ∈ {i | i < n}, m i) MeasurableSpace.pi t := by
        refine (@measurable_pi_iff _ _ _ (⨆ i ∈ {i | i < n}, m i) _ _).mpr ?_
        intro k
        by_cases hk : k < n
        · have : (fun v => t v k) = fun v => v k := by funext v; simp [t, hk]
          rw [this]
          have h1 : @Measurable _ _ (m k) mX (fun v : ℕ → X => v k) := comap_measurable _
          exact h1.mono (le_biSup m (show k ∈ {i | i < n} from hk)) le_rfl
        · have : (fun v => t v k) = fun _ => x0 := by funext v; simp [t, hk]
          rw [this]
          exact measurable_const
      have : C = t ⁻¹' C := by
        ext v
        constructor
        · intro hv; exact hl v _ (fun k hk => by simp [t, hk]) hv
        · intro hv; exact hl _ v (fun k hk => by simp [t, hk]) hv
      rw [this]
      exact ht hC
    · have : C = ∅ := by
        ext v
        exact (hne ⟨v 0⟩).elim
      rw [this]
      exact @MeasurableSet.empty _ (⨆ i ∈ {i | i < n}, m i)
  · have ht : @Measurable _ _ (⨆ i ∈ {i | n ≤ i}, m i) MeasurableSpace.pi (shift (X := X) n) := by
      refine (@measurable_pi_iff _ _ _ (⨆ i ∈ {i | n ≤ i}, m i) _ _).mpr ?_
      intro k
      have h1 : @Measurable _ _ (m (n + k)) mX (fun v : ℕ → X => v (n + k)) := comap_measurable _
      exact h1.mono (le_biSup m (show n + k ∈ {i | n ≤ i} from Nat.le_add_right _ _)) le_rfl
    exact ht hB

/-- a number of draws determined by the draws themselves, so that one knows when to stop -/
structure Stopping (F : (ℕ → X) → ℕ) : Prop where
  measurable : ∀ n, MeasurableSet {v | F v = n}
  loc : ∀ n, Local n {v | F v = n}

theorem measurable_stop {F : (ℕ → X) → ℕ} (hF : Stopping F) {B : Set (ℕ → X)} (hB : MeasurableSet B) :
    MeasurableSet {v | shift (F v) v ∈ B} := by
  have : {v | shift (F v) v ∈ B} = ⋃ n, ({v | F v = n} ∩ {v | shift n v ∈ B}) := by
    ext v
    simp
  rw [this]
  exact MeasurableSet.iUnion fun n => (hF.measurable n).inter (measurable_shift n hB)

/-- the draws after the stopping time have the law of the whole stream -/
theorem law_stop {F : (ℕ → X) → ℕ} (hF : Stopping F) {B : Set (ℕ → X)} (hB : MeasurableSet B) :
    law ρ {v | shift (F v) v ∈ B} = law ρ B := by
  have hd : Pairwise (Function.onFun Disjoint fun n => ({v : ℕ → X | F v = n} ∩ {v | shift n v ∈ B})) := by
    intro a b hab
    rw [Function.onFun, Set.disjoint_left]
    rintro v ⟨h1, -⟩ ⟨h2, -⟩
    exact hab (h1.symm.trans h2)
  have hd' : Pairwise (Function.onFun Disjoint fun n => {v : ℕ → X | F v = n}) := by
    intro a b hab
    rw [Function.onFun, Set.disjoint_left]
    intro v h1 h2
    exact hab (h1.symm.trans h2)
  have : {v | shift (F v) v ∈ B} = ⋃ n, ({v | F v = n} ∩ {v | shift n v ∈ B}) := by
    ext v
    simp
  rw [this, measure_iUnion hd fun n => (hF.measurable n).inter (measurable_shift n hB)]
  simp_rw [fun n => head_tail ρ n (hF.measurable n) (hF.loc n) hB]
  rw [ENNReal.tsum_mul_right, ← measure_iUnion hd' hF.measurable]
  have : (⋃ n, {v : ℕ → X | F v = n}) = Set.univ := by
    ext v; simp
  rw [this, measure_univ, one_mul]

end Sureal.Stop
