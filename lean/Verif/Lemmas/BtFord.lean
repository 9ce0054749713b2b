import Verif.Lemmas.Bt
import Verif.Spec.BtFord
import Mathlib.Topology.Order.Compact
import Mathlib.Topology.Order.MonotoneConvergence
import Mathlib.Topology.Bases
import Mathlib.Topology.Instances.Real.Lemmas
import Mathlib.Topology.MetricSpace.ProperSpace.Real
import Mathlib.Analysis.SpecialFunctions.Log.Basic
/-! # Existence of the Bradley-Terry estimate and convergence of the passes -/
set_option linter.unusedSectionVars false
namespace Sureal.BtMath
open Spec.BT Filter Topology
variable {M : ℕ} {A : Fin M → Fin M → ℝ} {p q : Fin M → ℝ}

theorem Ford.connected (hA : ∀ i j, 0 ≤ A i j) (hf : Ford A) : Connected A := by
  intro i j
  refine Relation.ReflTransGen.mono (fun a b hab => ?_) i j (hf i j)
  exact add_pos_of_pos_of_nonneg hab (hA b a)

theorem Ford.table (hA : ∀ i j, 0 ≤ A i j) (hf : Ford A) (hM : 2 ≤ M) : Table A := by
  refine ⟨hA, fun i => ?_⟩
  obtain ⟨j, hj⟩ : ∃ j : Fin M, i ≠ j := by
    by_cases h : i = ⟨0, by omega⟩
    · exact ⟨⟨1, by omega⟩, by rw [h]; simp⟩
    · exact ⟨⟨0, by omega⟩, h⟩
  rcases Relation.ReflTransGen.cases_head (hf i j) with h | ⟨k, hk, -⟩
  · exact absurd h hj
  · exact Finset.sum_pos' (fun l _ => hA i l) ⟨k, Finset.mem_univ _, hk⟩

theorem term_nonpos (hA : ∀ i j, 0 ≤ A i j) (hp : ∀ i, 0 < p i) (i j : Fin M) : A i j * Real.log (p i / (p i + p j)) ≤ 0 := by
  refine mul_nonpos_of_nonneg_of_nonpos (hA i j) (Real.log_nonpos ?_ ?_)
  · exact div_nonneg (hp i).le (add_pos (hp i) (hp j)).le
  · rw [div_le_one (add_pos (hp i) (hp j))]
    linarith [hp j]

/-- a likelihood of at least `c` bounds the ratio of the winner to the loser from below -/
theorem edge_bound (hA : ∀ i j, 0 ≤ A i j) (hp : ∀ i, 0 < p i) {c : ℝ} (hc : c ≤ logLik A p) {i j : Fin M} (hij : 0 < A i j) :
    Real.exp (c / A i j) * p j ≤ p i := by
  have h1 : logLik A p ≤ A i j * Real.log (p i / (p i + p j)) := by
    unfold logLik
    calc ∑ i, ∑ j, A i j * Real.log (p i / (p i + p j)) ≤ ∑ j, A i j * Real.log (p i / (p i + p j)) := by
          rw [← Finset.add_sum_erase _ _ (Finset.mem_univ i)]
          have h0 : ∑ x ∈ Finset.univ.erase i, ∑ j, A x j * Real.log (p x / (p x + p j)) ≤ 0 :=
            Finset.sum_nonpos fun x _ => Finset.sum_nonpos fun y _ => term_nonpos hA hp x y
          linarith
      _ ≤ A i j * Real.log (p i / (p i + p j)) := by
          rw [← Finset.add_sum_erase _ _ (Finset.mem_univ j)]
          have h0 : ∑ y ∈ Finset.univ.erase j, A i y * Real.log (p i / (p i + p y)) ≤ 0 :=
            Finset.sum_nonpos fun y _ => term_nonpos hA hp i y
          linarith
  have hs := add_pos (hp i) (hp j)
  have h2 : c / A i j ≤ Real.log (p i / (p i + p j)) := by
    rw [div_le_iff₀ hij]
    linarith
  have h3 : Real.exp (c / A i j) ≤ p i / (p i + p j) := by
    rw [← Real.exp_log (div_pos (hp i) hs)]
    exact Real.exp_le_exp.mpr h2
  rw [le_div_iff₀ hs] at h3
  have := mul_pos (Real.exp_pos (c / A i j)) (hp i)
  linarith [mul_add (Real.exp (c / A i j)) (p i) (p j)]

theorem path_bound (hA : ∀ i j, 0 ≤ A i j) (c : ℝ) {i j : Fin M} (h : Relation.ReflTransGen (fun i j => 0 < A i j) i j) :
    ∃ r : ℝ, 0 < r ∧ ∀ p : Fin M → ℝ, (∀ i, 0 < p i) → c ≤ logLik A p → r * p j ≤ p i := by
  induction h with
  | refl => exact ⟨1, one_pos, fun p _ _ => by rw [one_mul]⟩
  | tail _ hjk ih =>
    rename_i j k _
    obtain ⟨r, hr, ih⟩ := ih
    refine ⟨r * Real.exp (c / A j k), mul_pos hr (Real.exp_pos _), fun p hp hc => ?_⟩
    rw [mul_assoc]
    exact (mul_le_mul_of_nonneg_left (edge_bound hA hp hc hjk) hr.le).trans (ih p hp hc)

/-- under Ford's condition the probability vectors with likelihood at least `c` stay away from the boundary -/
theorem floor (hA : ∀ i j, 0 ≤ A i j) (hf : Ford A) (hM : M ≠ 0) (c : ℝ) :
    ∃ ρ : ℝ, 0 < ρ ∧ ∀ p : Fin M → ℝ, PosProb p → c ≤ logLik A p → ∀ i, ρ ≤ p i := by
  have : NeZero M := ⟨hM⟩
  choose r hr hb using fun i j => path_bound hA c (hf i j)
  obtain ⟨x, -, hx⟩ := Finset.exists_min_image (Finset.univ : Finset (Fin M × Fin M)) (fun x => r x.1 x.2)
    ⟨(0, 0), Finset.mem_univ _⟩
  have hM0 : (0 : ℝ) < M := by exact_mod_cast Nat.pos_of_ne_zero hM
  refine ⟨r x.1 x.2 / M, div_pos (hr _ _) hM0, fun p hp hc i => ?_⟩
  rw [div_le_iff₀ hM0]
  calc r x.1 x.2 = ∑ j, r x.1 x.2 * p j := by rw [← Finset.mul_sum, hp.sum, mul_one]
    _ ≤ ∑ _j : Fin M, p i := Finset.sum_le_sum fun j _ =>
        (mul_le_mul_of_nonneg_right (hx (i, j) (Finset.mem_univ _)) (hp.pos j).le).trans (hb i j p hp.pos hc)
    _ = p i * M := by rw [Finset.sum_const, Finset.card_univ, Fintype.card_fin, nsmul_eq_mul, mul_comm]

/-- probability vectors with entries of at least `ρ` -/
def box (M : ℕ) (ρ : ℝ) : Set (Fin M → ℝ) := {p | (∀ i, ρ ≤ p i) ∧ ∑ i, p i = 1}

theorem box_posProb {ρ : ℝ} (hρ : 0 < ρ) (hp : p ∈ box M ρ) : PosProb p := ⟨fun i => hρ.trans_le (hp.1 i), hp.2⟩

theorem box_compact {ρ : ℝ} (hρ : 0 < ρ) : IsCompact (box M ρ) := by
  have h1 : IsCompact (Set.pi Set.univ fun _ : Fin M => Set.Icc ρ 1) := isCompact_univ_pi fun _ => isCompact_Icc
  refine h1.of_isClosed_subset ?_ ?_
  · have : box M ρ = (⋂ i, {p | ρ ≤ p i}) ∩ {p | ∑ i, p i = 1} := by
      ext p
      simp [box]
    rw [this]
    refine IsClosed.inter (isClosed_iInter fun i => isClosed_le continuous_const (continuous_apply i)) ?_
    exact isClosed_eq (continuous_finsetSum _ fun i _ => continuous_apply i) continuous_const
  · intro p hp i _
    refine ⟨hp.1 i, ?_⟩
    rw [← hp.2]
    exact Finset.single_le_sum (fun j _ => hρ.le.trans (hp.1 j)) (Finset.mem_univ i)

theorem logLik_continuousAt (hp : ∀ i, 0 < p i) : ContinuousAt (logLik A) p := by
  unfold logLik
  refine tendsto_finsetSum _ fun i _ => tendsto_finsetSum _ fun j _ => ?_
  refine Tendsto.const_mul _ (Tendsto.log ?_ ?_)
  · exact ((continuous_apply i).tendsto p).div (((continuous_apply i).add (continuous_apply j)).tendsto p)
      (add_pos (hp i) (hp j)).ne'
  · exact (div_pos (hp i) (add_pos (hp i) (hp j))).ne'

theorem update_continuousAt (h : Table A) (hp : ∀ i, 0 < p i) (i : Fin M) : ContinuousAt (fun q => update A q i) p := by
  unfold update
  refine ContinuousAt.div continuousAt_const ?_ (den_pos h hp i).ne'
  refine tendsto_finsetSum _ fun j _ => ?_
  exact Tendsto.div tendsto_const_nhds (((continuous_apply i).add (continuous_apply j)).tendsto p) (add_pos (hp i) (hp j)).ne'

theorem next_continuousAt (h : Table A) (hp : PosProb p) : ContinuousAt (next A) p := by
  unfold next
  refine continuousAt_pi.mpr fun i => ?_
  refine ContinuousAt.div (update_continuousAt h hp.pos i) ?_ (total_pos h hp).ne'
  exact tendsto_finsetSum _ fun k _ => update_continuousAt h hp.pos k

theorem exists_max (hA : ∀ i j, 0 ≤ A i j) (hf : Ford A) (hM : M ≠ 0) :
    ∃ p, PosProb p ∧ ∀ q : Fin M → ℝ, (∀ i, 0 < q i) → logLik A q ≤ logLik A p := by
  have hM0 : (0 : ℝ) < M := by exact_mod_cast Nat.pos_of_ne_zero hM
  have hs : PosProb (fun _ : Fin M => (1 : ℝ) / M) := by
    refine ⟨fun i => by positivity, ?_⟩
    rw [Finset.sum_const, Finset.card_univ, Fintype.card_fin, nsmul_eq_mul]
    field_simp
  obtain ⟨ρ, hρ, hfl⟩ := floor hA hf hM (logLik A fun _ => (1 : ℝ) / M)
  have hmem : (fun _ : Fin M => (1 : ℝ) / M) ∈ box M ρ := ⟨hfl _ hs le_rfl, hs.sum⟩
  obtain ⟨p, hp, hmax⟩ := (box_compact hρ).exists_isMaxOn ⟨_, hmem⟩
    (f := logLik A) fun q hq => (logLik_continuousAt (box_posProb hρ hq).pos).continuousWithinAt
  refine ⟨p, box_posProb hρ hp, ?_⟩
  have key : ∀ q : Fin M → ℝ, PosProb q → logLik A q ≤ logLik A p := by
    intro q hq
    rcases le_total (logLik A fun _ => (1 : ℝ) / M) (logLik A q) with h | h
    · exact hmax (show q ∈ box M ρ from ⟨hfl q hq h, hq.sum⟩)
    · exact h.trans (hmax hmem)
  intro q hq
  have : NeZero M := ⟨hM⟩
  have hsum : 0 < ∑ i, q i := Finset.sum_pos (fun i _ => hq i) ⟨0, Finset.mem_univ _⟩
  rw [← logLik_scale (A := A) hq hsum]
  refine key _ ⟨fun i => div_pos (hq i) hsum, ?_⟩
  rw [← Finset.sum_div, div_self hsum.ne']

/-- a pass that gains nothing changes nothing -/
theorem next_eq_of_le (h : Table A) (hp : PosProb p) (hle : logLik A (next A p) ≤ logLik A p) : next A p = p := by
  have hg := next_gain h hp
  have h0 : ∑ i, wins A i * (Real.sqrt (p i / update A p i) - 1) ^ 2 = 0 :=
    le_antisymm (by linarith) (Finset.sum_nonneg fun i _ => mul_nonneg (h.wins i).le (sq_nonneg _))
  have hz := (Finset.sum_eq_zero_iff_of_nonneg fun i _ => mul_nonneg (h.wins i).le (sq_nonneg _)).mp h0
  have hu : ∀ i, update A p i = p i := by
    intro i
    have h1 := (mul_eq_zero.mp (hz i (Finset.mem_univ i))).resolve_left (h.wins i).ne'
    have h2 : Real.sqrt (p i / update A p i) = 1 := by
      have := pow_eq_zero_iff (two_ne_zero) |>.mp h1
      linarith
    exact ((div_eq_one_iff_eq (update_pos h hp.pos i).ne').mp (Real.sqrt_eq_one.mp h2)).symm
  funext i
  unfold next
  simp only [hu]
  rw [hp.sum, div_one]

theorem iterate_posProb (h : Table A) (hp : PosProb p) (k : ℕ) : PosProb ((next A)^[k] p) := by
  induction k with
  | zero => exact hp
  | succ k ih => rw [Function.iterate_succ_apply']; exact next_posProb h ih

theorem next_mono (h : Table A) (hp : PosProb p) : logLik A p ≤ logLik A (next A p) := by
  have hg := next_gain h hp
  have : 0 ≤ ∑ i, wins A i * (Real.sqrt (p i / update A p i) - 1) ^ 2 :=
    Finset.sum_nonneg fun i _ => mul_nonneg (h.wins i).le (sq_nonneg _)
  linarith

/-- under Ford's condition the passes converge to the maximiser, from everywhere -/
theorem iterate_tendsto (h : Table A) (hf : Ford A) (hM : M ≠ 0) {p₀ p : Fin M → ℝ} (h0 : PosProb p₀) (hp : PosProb p)
    (hmax : ∀ q : Fin M → ℝ, (∀ i, 0 < q i) → logLik A q ≤ logLik A p) :
    Tendsto (fun k => (next A)^[k] p₀) atTop (𝓝 p) := by
  have hpp := iterate_posProb h h0
  have hmono : Monotone fun k => logLik A ((next A)^[k] p₀) := by
    refine monotone_nat_of_le_succ fun k => ?_
    rw [Function.iterate_succ_apply']
    exact next_mono h (hpp k)
  obtain ⟨ρ, hρ, hfl⟩ := floor h.nonneg hf hM (logLik A p₀)
  have hmem : ∀ k, (next A)^[k] p₀ ∈ box M ρ := fun k => ⟨hfl _ (hpp k) (hmono (Nat.zero_le k)), (hpp k).sum⟩
  obtain ⟨L, hL⟩ : ∃ L, Tendsto (fun k => logLik A ((next A)^[k] p₀)) atTop (𝓝 L) :=
    ⟨_, tendsto_atTop_ciSup hmono ⟨0, by rintro _ ⟨k, rfl⟩; exact logLik_nonpos h (hpp k).pos⟩⟩
  refine (box_compact hρ).tendsto_nhds_of_unique_mapClusterPt (Eventually.of_forall hmem) fun x hx hcl => ?_
  have hxp := box_posProb hρ hx
  obtain ⟨φ, hφ, hlim⟩ := hcl.tendsto_subseq
  have e1 : logLik A x = L :=
    tendsto_nhds_unique ((logLik_continuousAt (A := A) hxp.pos).tendsto.comp hlim) (hL.comp hφ.tendsto_atTop)
  have hn : Tendsto (fun n => (next A)^[φ n + 1] p₀) atTop (𝓝 (next A x)) := by
    have := (next_continuousAt h hxp).tendsto.comp hlim
    refine this.congr fun n => ?_
    exact (Function.iterate_succ_apply' (next A) (φ n) p₀).symm
  have e2 : logLik A (next A x) = L :=
    tendsto_nhds_unique ((logLik_continuousAt (A := A) (next_posProb h hxp).pos).tendsto.comp hn)
      (hL.comp ((tendsto_add_atTop_nat 1).comp hφ.tendsto_atTop))
  have hfix := next_eq_of_le h hxp (by rw [e1, e2])
  exact (likEq_unique h.nonneg (Ford.connected h.nonneg hf) ((fixed_iff h hxp).mp hfix) hxp hp (hmax x hxp.pos)).symm

/-- without Ford's condition, but with linked videos, every vector can be improved -/
theorem improve (hA : ∀ i j, 0 ≤ A i j) (hc : Connected A) (hf : ¬ Ford A) (hp : ∀ i, 0 < p i) :
    ∃ q : Fin M → ℝ, (∀ i, 0 < q i) ∧ logLik A p < logLik A q := by
  classical
  unfold Ford at hf
  push Not at hf
  obtain ⟨i0, j0, hij⟩ := hf
  set X : Fin M → Prop := fun j => Relation.ReflTransGen (fun i j => 0 < A i j) i0 j with hX
  have hclosed : ∀ i j, X i → ¬ X j → A i j = 0 := by
    intro i j hi hj
    by_contra h0
    exact hj (hi.tail (lt_of_le_of_ne (hA i j) (Ne.symm h0)))
  obtain ⟨a, b, ha, hb, hab⟩ : ∃ a b, X a ∧ ¬ X b ∧ 0 < A b a := by
    by_contra hno
    push Not at hno
    have : ∀ j, Relation.ReflTransGen (fun i j => 0 < games A i j) i0 j → X j := by
      intro j hj
      induction hj with
      | refl => exact .refl
      | tail _ hjk ih =>
        rename_i j k _
        by_contra hk
        have h1 := hclosed j k ih hk
        have h2 := hno j k ih hk
        unfold games at hjk
        linarith
    exact hij (this j0 (hc i0 j0))
  refine ⟨fun i => if X i then p i / 2 else p i, fun i => ?_, ?_⟩
  · dsimp only
    split
    · exact half_pos (hp i)
    · exact hp i
  have hterm : ∀ i j, A i j * Real.log (p i / (p i + p j)) ≤
      A i j * Real.log ((if X i then p i / 2 else p i) / ((if X i then p i / 2 else p i) + (if X j then p j / 2 else p j))) := by
    intro i j
    have hi := hp i
    have hj := hp j
    by_cases h1 : X i
    · by_cases h2 : X j
      · rw [if_pos h1, if_pos h2]
        have : p i / 2 / (p i / 2 + p j / 2) = p i / (p i + p j) := by field_simp
        rw [this]
      · rw [hclosed i j h1 h2, zero_mul, zero_mul]
    · rw [if_neg h1]
      by_cases h2 : X j
      · rw [if_pos h2]
        refine mul_le_mul_of_nonneg_left (Real.log_le_log (by positivity) ?_) (hA i j)
        exact div_le_div_of_nonneg_left hi.le (by positivity) (by linarith)
      · rw [if_neg h2]
  unfold logLik
  refine Finset.sum_lt_sum (fun i _ => Finset.sum_le_sum fun j _ => hterm i j) ⟨b, Finset.mem_univ _, ?_⟩
  refine Finset.sum_lt_sum (fun j _ => hterm b j) ⟨a, Finset.mem_univ _, ?_⟩
  dsimp only
  rw [if_neg hb, if_pos ha]
  have hpa := hp a
  have hpb := hp b
  refine mul_lt_mul_of_pos_left (Real.log_lt_log (by positivity) ?_) hab
  exact div_lt_div_of_pos_left hpb (by positivity) (by linarith)

end Sureal.BtMath
