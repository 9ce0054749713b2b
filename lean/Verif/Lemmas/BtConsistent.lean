import Mathlib.Probability.StrongLaw
import Verif.Lemmas.BtFord
import Verif.Spec.BtConsistent
/-!
# Lemmas: solutions of the likelihood equations depend continuously on the table at tables that follow the Bradley-Terry law
-/
set_option linter.unusedSectionVars false
namespace Sureal.BtMath
open Spec.BT Filter Topology MeasureTheory ProbabilityTheory
variable {M : ℕ} {A : ℕ → Fin M → Fin M → ℝ} {B w : Fin M → Fin M → ℝ} {p : Fin M → ℝ} {q : ℕ → Fin M → ℝ}

/-- expected wins against the true strengths -/
noncomputable def expected (w : Fin M → Fin M → ℝ) (p : Fin M → ℝ) : Fin M → Fin M → ℝ := fun i j => w i j * (p i / (p i + p j))

theorem games_expected (hw : Linked w) (hp : ∀ i, 0 < p i) (i j : Fin M) : games (expected w p) i j = w i j := by
  unfold games expected
  rw [hw.symm j i]
  have := hp i
  have := hp j
  field_simp
  ring

theorem expected_nonneg (hw : Linked w) (hp : ∀ i, 0 < p i) (i j : Fin M) : 0 ≤ expected w p i j :=
  mul_nonneg (hw.nonneg i j) (div_nonneg (hp i).le (add_pos (hp i) (hp j)).le)

theorem expected_ford (hw : Linked w) (hp : ∀ i, 0 < p i) : Ford (expected w p) := fun i j =>
  Relation.ReflTransGen.mono (fun a b hab => mul_pos hab (div_pos (hp a) (add_pos (hp a) (hp b)))) i j (hw.chain i j)

theorem expected_likEq (hw : Linked w) (hp : ∀ i, 0 < p i) : LikEq (expected w p) p := by
  intro i
  simp only [games_expected hw hp]
  rfl

/-- a table close to the expected one meets Ford's condition -/
theorem ford_eventually {l : Filter ℕ} (hw : Linked w) (hp : ∀ i, 0 < p i)
    (hA : ∀ i j, Tendsto (fun n => A n i j) l (𝓝 (expected w p i j))) : ∀ᶠ n in l, Ford (A n) := by
  have h : ∀ᶠ n in l, ∀ i j, 0 < expected w p i j → 0 < A n i j := by
    refine eventually_all.mpr fun i => eventually_all.mpr fun j => ?_
    by_cases hij : 0 < expected w p i j
    · filter_upwards [(hA i j).eventually (lt_mem_nhds hij)] with n hn _ using hn
    · exact Eventually.of_forall fun n h => absurd h hij
  filter_upwards [h] with n hn i j
  exact Relation.ReflTransGen.mono (fun a b hab => hn a b hab) i j (expected_ford hw hp i j)

section step
variable {l : Filter ℕ} {h : ℕ → Fin M → ℝ}

/-- probability that `i` beats `j` when the strengths are `p i * h i` -/
noncomputable def beat (p h : Fin M → ℝ) (i j : Fin M) : ℝ := p i * h i / (p i * h i + p j * h j)

/-- One step along the chain: the relative error `h` is at most one, and one for video `i`; then it is one for the videos that are compared with `i`. -/
theorem step (hw : Linked w) (hp : ∀ i, 0 < p i) (hA : ∀ i j, Tendsto (fun n => A n i j) l (𝓝 (expected w p i j)))
    (hA0 : ∀ᶠ n in l, ∀ i j, 0 ≤ A n i j) (hpos : ∀ᶠ n in l, ∀ i, 0 < h n i ∧ h n i ≤ 1)
    (heq : ∀ᶠ n in l, ∀ i, ∑ j, games (A n) i j * beat p (h n) i j = wins (A n) i) {i j : Fin M}
    (hi : Tendsto (fun n => h n i) l (𝓝 1)) (hij : 0 < w i j) : Tendsto (fun n => h n j) l (𝓝 1) := by
  have hG : ∀ k, Tendsto (fun n => games (A n) i k) l (𝓝 (w i k)) := fun k => by
    have := (hA i k).add (hA k i)
    rwa [← games_expected hw hp i k]
  have hW : Tendsto (fun n => wins (A n) i) l (𝓝 (∑ k, w i k * (p i / (p i + p k)))) :=
    tendsto_finsetSum _ fun k _ => hA i k
  -- the sum of the deviations vanishes
  have hdev : Tendsto (fun n => ∑ k, games (A n) i k * (beat p (h n) i k - p i / (p i + p k))) l (𝓝 0) := by
    have h1 : Tendsto (fun n => wins (A n) i - ∑ k, games (A n) i k * (p i / (p i + p k))) l (𝓝 0) := by
      have := hW.sub (tendsto_finsetSum Finset.univ fun k _ => (hG k).mul_const (p i / (p i + p k)))
      rwa [sub_self] at this
    refine h1.congr' ?_
    filter_upwards [heq] with n hn
    rw [← hn i, ← Finset.sum_sub_distrib]
    exact Finset.sum_congr rfl fun k _ => by ring
  -- no deviation is much below zero
  have hlow : ∀ k, Tendsto (fun n => games (A n) i k * (p i * h n i / (p i * h n i + p k) - p i / (p i + p k))) l (𝓝 0) := by
    intro k
    have h1 : Tendsto (fun n => p i * h n i / (p i * h n i + p k)) l (𝓝 (p i * 1 / (p i * 1 + p k))) :=
      (hi.const_mul _).div ((hi.const_mul _).add_const _) (by rw [mul_one]; exact (add_pos (hp i) (hp k)).ne')
    have := (hG k).mul (h1.sub_const (p i / (p i + p k)))
    rwa [mul_one, sub_self, mul_zero] at this
  have hge : ∀ᶠ n in l, ∀ k, games (A n) i k * (p i * h n i / (p i * h n i + p k) - p i / (p i + p k)) ≤
      games (A n) i k * (beat p (h n) i k - p i / (p i + p k)) := by
    filter_upwards [hA0, hpos] with n h0 hn k
    refine mul_le_mul_of_nonneg_left (sub_le_sub_right ?_ _) (games_nonneg h0 i k)
    have a := mul_pos (hp i) (hn i).1
    refine div_le_div_of_nonneg_left a.le (add_pos a (mul_pos (hp k) (hn k).1)) ?_
    have := mul_le_mul_of_nonneg_left (hn k).2 (hp k).le
    linarith
  -- so each deviation vanishes
  have hup : Tendsto (fun n => ∑ k, games (A n) i k * (beat p (h n) i k - p i / (p i + p k)) -
      ∑ k ∈ Finset.univ.erase j, games (A n) i k * (p i * h n i / (p i * h n i + p k) - p i / (p i + p k))) l (𝓝 0) := by
    have := hdev.sub (tendsto_finsetSum (Finset.univ.erase j) fun k _ => hlow k)
    simpa using this
  have hone : Tendsto (fun n => games (A n) i j * (beat p (h n) i j - p i / (p i + p j))) l (𝓝 0) := by
    refine tendsto_of_tendsto_of_tendsto_of_le_of_le' (hlow j) hup ?_ ?_
    · filter_upwards [hge] with n hn using hn j
    · filter_upwards [hge] with n hn
      rw [← Finset.add_sum_erase Finset.univ _ (Finset.mem_univ j)]
      have := Finset.sum_le_sum fun k (_ : k ∈ Finset.univ.erase j) => hn k
      linarith
  have hbeat : Tendsto (fun n => beat p (h n) i j) l (𝓝 (p i / (p i + p j))) := by
    have h1 := (hone.div (hG j) hij.ne').add_const (p i / (p i + p j))
    rw [zero_div, zero_add] at h1
    refine h1.congr' ?_
    filter_upwards [(hG j).eventually (lt_mem_nhds hij)] with n hn
    rw [Pi.div_apply, mul_div_cancel_left₀ _ hn.ne']
    ring
  have hb0 : p i / (p i + p j) ≠ 0 := (div_pos (hp i) (add_pos (hp i) (hp j))).ne'
  have hfin := ((hi.const_mul (p i)).div_const (p j)).mul ((hbeat.inv₀ hb0).sub_const 1)
  have e : p i * 1 / p j * ((p i / (p i + p j))⁻¹ - 1) = 1 := by
    have := hp i
    have := hp j
    field_simp
    ring
  rw [e] at hfin
  refine hfin.congr' ?_
  filter_upwards [hpos] with n hn
  unfold beat
  have := hp i
  have := hp j
  have := (hn i).1
  have := (hn j).1
  field_simp
  ring

end step

/-- **Stability.** If the tables converge to the one expected under strengths `p`, then all solutions of the likelihood equations converge to `p`. -/
theorem likEq_tendsto (hw : Linked w) (hp : PosProb p) (hA : ∀ i j, Tendsto (fun n => A n i j) atTop (𝓝 (expected w p i j)))
    (hA0 : ∀ᶠ n in atTop, ∀ i j, 0 ≤ A n i j) (hq : ∀ᶠ n in atTop, PosProb (q n) ∧ LikEq (A n) (q n)) (i : Fin M) :
    Tendsto (fun n => q n i) atTop (𝓝 (p i)) := by
  have : Nonempty (Fin M) := ⟨i⟩
  choose top htop using fun n => Finite.exists_max fun k => q n k / p k
  -- along the indices with the same largest relative error
  have key : ∀ m, Tendsto (fun n => q n i) (atTop ⊓ 𝓟 {n | top n = m}) (𝓝 (p i)) := by
    intro m
    set l := atTop ⊓ 𝓟 {n | top n = m} with hl
    have hle : l ≤ atTop := inf_le_left
    have htm : ∀ᶠ n in l, top n = m := eventually_inf_principal.mpr (Eventually.of_forall fun n h => h)
    let h : ℕ → Fin M → ℝ := fun n k => q n k / p k / (q n m / p m)
    have hpos : ∀ᶠ n in l, ∀ k, 0 < h n k ∧ h n k ≤ 1 := by
      filter_upwards [htm, hq.filter_mono hle] with n hn hqn k
      have a := div_pos (hqn.1.pos m) (hp.pos m)
      refine ⟨div_pos (div_pos (hqn.1.pos k) (hp.pos k)) a, (div_le_one a).mpr ?_⟩
      have := htop n k
      rwa [hn] at this
    have heq : ∀ᶠ n in l, ∀ i, ∑ j, games (A n) i j * beat p (h n) i j = wins (A n) i := by
      filter_upwards [hq.filter_mono hle] with n hqn i
      rw [← hqn.2 i]
      refine Finset.sum_congr rfl fun j _ => ?_
      congr 1
      have h1 := hqn.1.pos i
      have h2 := hqn.1.pos j
      have h3 := hqn.1.pos m
      have h4 := hp.pos i
      have h5 := hp.pos j
      have h6 := hp.pos m
      have e : ∀ k, p k * h n k = q n k * (p m / q n m) := fun k => by
        have := hp.pos k
        show p k * (q n k / p k / (q n m / p m)) = _
        field_simp
      unfold beat
      rw [e, e, ← add_mul, mul_div_mul_right _ _ (div_pos h6 h3).ne']
    have hm : Tendsto (fun n => h n m) l (𝓝 1) := by
      refine (tendsto_const_nhds (x := (1 : ℝ))).congr' ?_
      filter_upwards [hq.filter_mono hle] with n hqn
      exact (div_self (div_pos (hqn.1.pos m) (hp.pos m)).ne').symm
    have hall : ∀ k, Tendsto (fun n => h n k) l (𝓝 1) := by
      intro k
      induction hw.chain m k with
      | refl => exact hm
      | tail _ hjk ih => exact step hw hp.pos (fun i j => (hA i j).mono_left hle) (hA0.filter_mono hle) hpos heq ih hjk
    have hsum : Tendsto (fun n => ∑ k, p k * h n k) l (𝓝 1) := by
      have := tendsto_finsetSum Finset.univ fun k _ => (hall k).const_mul (p k)
      simpa [hp.sum] using this
    have hfin := ((hall i).const_mul (p i)).div hsum one_ne_zero
    rw [mul_one, div_one] at hfin
    refine hfin.congr' ?_
    filter_upwards [hq.filter_mono hle] with n hqn
    have h3 := hqn.1.pos m
    have h6 := hp.pos m
    have e : ∀ k, p k * h n k = q n k * (p m / q n m) := fun k => by
      have := hp.pos k
      show p k * (q n k / p k / (q n m / p m)) = _
      field_simp
    rw [Pi.div_apply]
    simp only [e]
    rw [← Finset.sum_mul, hqn.1.sum, one_mul, mul_div_assoc, div_self (div_pos h6 h3).ne', mul_one]
  rw [tendsto_iff_forall_eventually_mem]
  intro s hs
  have := eventually_all.mpr fun m => eventually_inf_principal.mp ((key m).eventually hs)
  filter_upwards [this] with n hn
  exact hn (top n) rfl

/-- the likelihood equations do not depend on the unit in which comparisons are counted -/
theorem likEq_scale {A : Fin M → Fin M → ℝ} {p : Fin M → ℝ} (c : ℝ) (h : LikEq A p) : LikEq (fun i j => A i j / c) p := by
  intro i
  have := congrArg (· / c) (h i)
  simp only [wins, games, Finset.sum_div] at this ⊢
  rw [← this]
  exact Finset.sum_congr rfl fun j _ => by ring

section random
variable {Ω : Type*} [MeasurableSpace Ω] {P : Measure Ω} [IsProbabilityMeasure P] {X : ℕ → Ω → Fin M → Fin M → ℝ}

/-- the average table goes to the expected one -/
theorem contest_ae (hX : Contest P w p X) :
    ∀ᵐ ω ∂P, ∀ i j, Tendsto (fun n : ℕ => firstTables (X · ω) n i j / (n : ℝ)) atTop (𝓝 (expected w p i j)) := by
  refine ae_all_iff.mpr fun i => ae_all_iff.mpr fun j => ?_
  have hm : Measurable fun x : Fin M → Fin M → ℝ => x i j := by fun_prop
  have := strong_law_ae_real (fun t ω => X t ω i j) (hX.integrable i j) (fun _ _ h => (hX.indep h).comp hm hm) fun t => (hX.ident t).comp hm
  rw [hX.law i j] at this
  exact this

end random
end Sureal.BtMath
