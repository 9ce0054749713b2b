import Verif.Lemmas.ApLik
import Verif.Spec.ApMean
import Verif.Props.ApLik
import Mathlib.MeasureTheory.Constructions.BorelSpace.Real
import Mathlib.MeasureTheory.Function.SpecialFunctions.Basic
/-! When the loop of the alternating projection stops, how its estimates depend on additive effects and on the sign of the noise, and that
they are measurable and bounded by the votes. -/
set_option linter.unusedSectionVars false
namespace Sureal.Ap
open Sureal Spec Props
variable {J I R : ℕ} (P : Fin J → Fin I → Fin R → Bool) (X : Fin J → Fin I → Fin R → ℝ)

theorem stop_exists : ∃ k, Real.sqrt (change P X k) < 1 / 100000000 ∨ 999 ≤ k := ⟨999, Or.inr le_rfl⟩

open Classical in
/-- the number of passes before the last one -/
noncomputable def stopAt : ℕ := Nat.find (stop_exists P X)

theorem stopAt_le : stopAt P X ≤ 999 := Nat.find_min' _ (Or.inr le_rfl)

theorem loop_stop (hv : ∀ j, (votesOnVideo P j).Nonempty) (n k : ℕ) (hk : k + n = stopAt P X) :
    loop (maskX P X) k (maskS P (seq P X k)) (maskB P (apBias P X (seq P X k))) =
      .ok (step (maskX P X) (stopAt P X) (maskS P (seq P X (stopAt P X))) (maskB P (apBias P X (seq P X (stopAt P X))))) := by
  induction n generalizing k with
  | zero =>
    have hk : k = stopAt P X := by omega
    have hs : Real.sqrt (change P X k) < 1 / 100000000 ∨ 999 ≤ k := by
      rw [hk]
      exact Nat.find_spec (stop_exists P X)
    rw [loop_unfold]
    have hn : Np.linalgNorm (List.ofFn fun j => maskS P (seq P X k) j - (step (maskX P X) k (maskS P (seq P X k)) (maskB P (apBias P X (seq P X k)))).s j)
        = .ok (.fin (Real.sqrt (change P X k))) := by
      rw [step_spec]
      exact norm_mask P _ _ hv
    rw [hn]
    dsimp only
    rw [← hk]
    by_cases hd : (Fl.fin (Real.sqrt (change P X k))).lt (deltaThr : Fl ℝ) = true
    · rw [if_pos hd]
    · rw [if_neg hd, if_pos]
      have : ¬ Real.sqrt (change P X k) < 1 / 100000000 := by
        intro h
        apply hd
        unfold deltaThr Fl.dec
        rw [Fl.lt_fin]
        simpa using h
      show maxItr ≤ k + 1
      have := hs.resolve_left this
      unfold maxItr
      omega
  | succ n ih =>
    have hlt : k < stopAt P X := by omega
    have hs := Nat.find_min (stop_exists P X) hlt
    push Not at hs
    rw [loop_unfold]
    have hn : Np.linalgNorm (List.ofFn fun j => maskS P (seq P X k) j - (step (maskX P X) k (maskS P (seq P X k)) (maskB P (apBias P X (seq P X k)))).s j)
        = .ok (.fin (Real.sqrt (change P X k))) := by
      rw [step_spec]
      exact norm_mask P _ _ hv
    rw [hn]
    dsimp only
    rw [if_neg, if_neg]
    · rw [← ih (k + 1) (by omega), step_spec]
      rfl
    · show ¬ maxItr ≤ k + 1
      unfold maxItr
      omega
    · unfold deltaThr Fl.dec
      rw [Fl.lt_fin]
      have := hs.1
      simpa using this

theorem fit_stop (hv : ∀ j, (votesOnVideo P j).Nonempty) :
    fit (maskX P X) = .ok (step (maskX P X) (stopAt P X) (maskS P (seq P X (stopAt P X))) (maskB P (apBias P X (seq P X (stopAt P X))))) := by
  unfold fit
  dsimp only
  rw [init_spec, biases_spec]
  exact loop_stop P X hv (stopAt P X) 0 (by omega)

/-- the quality scores before centring -/
noncomputable def lastS : Fin J → ℝ := seq P X (stopAt P X + 1)

/-- the mean of the last biases -/
noncomputable def meanB : ℝ := (∑ i, apBias P X (lastS P X) i) / I

/-- the reported quality scores -/
noncomputable def estQ (j : Fin J) : ℝ := lastS P X j + meanB P X

/-- the reported biases -/
noncomputable def estB (i : Fin I) : ℝ := apBias P X (lastS P X) i - meanB P X

/-- the reported inconsistencies -/
noncomputable def estV (i : Fin I) : ℝ := apSpread P X (seq P X (stopAt P X)) (apBias P X (seq P X (stopAt P X))) i

/-- what a run on the votes `X` reports -/
theorem run_real {κ : Type} (sd : StdFormula) (rd : Reader κ ℝ) (hob : ObserversHarmless rd)
    (hs : rd.scores = .ok ⟨J, I, R, maskX P X⟩) (h : Voted P) (hI : 0 < I) :
    ∃ res, runAPWith sd rd {} = .ok res ∧ res.qualityScores = List.ofFn (fun j => .fin (estQ P X j)) ∧
      res.observerBias = some (List.ofFn fun i => .fin (estB P X i)) ∧
      res.observerInconsistency = some (List.ofFn fun i => .fin (estV P X i)) ∧ res.numIter = some (stopAt P X + 1) := by
  have hp := preprocess_default hs
  have hf := fit_stop P X h.videos
  obtain ⟨res, hr⟩ := (ap_runs (sd := sd) hob hp).1 _ hf
  obtain ⟨p, f, hp', hf', he⟩ := ap_run hr
  rw [hp] at hp'
  cases hp'
  dsimp only at f hf' he
  rw [hf] at hf'
  injection hf' with hf'
  rw [step_spec] at hf'
  have e1 : f.s = fun j => .fin (lastS P X j) := by
    rw [← hf', ← maskS_fin h]
    rfl
  have e2 : f.b = fun i => .fin (apBias P X (lastS P X) i) := by
    rw [← hf', ← maskB_fin h]
    rfl
  have e3 : Np.mean (List.ofFn f.b) = .fin (meanB P X) := by
    rw [e2, ← maskB_fin h, mean_maskB, decide_eq_true ⟨hI, h.observers⟩]
    rfl
  have hcen : centre (forced ({} : Opts ℝ)) f.s f.b = (fun j => .fin (estQ P X j), fun i => .fin (estB P X i)) := by
    unfold centre
    rw [if_pos (by rfl)]
    dsimp only
    rw [e3, e1, e2]
    rfl
  refine ⟨res, hr, ?_, ?_, ?_, ?_⟩
  · rw [he, post_plain rfl rfl, hcen]
  · rw [he]
    show some (List.ofFn (centre (forced ({} : Opts ℝ)) f.s f.b).2) = _
    rw [hcen]
  · rw [he]
    show some (List.ofFn f.vi) = _
    rw [← hf']
    dsimp only
    rw [maskB_fin h]
    rfl
  · rw [he]
    show some f.itr = _
    rw [← hf']

/-! ## additive effects -/

section shift
variable {P} (N : Fin J → Fin I → Fin R → ℝ) (q : Fin J → ℝ) (b : Fin I → ℝ) (t : ℝ)

theorem bias_plus (h : Voted P) (S : Fin J → ℝ) (i : Fin I) :
    apBias P (plus N q b) (fun j => q j + t + S j) i = b i - t + apBias P N S i := by
  unfold apBias
  rw [add_comm, ← avg_add_const (h.observers i)]
  exact avg_congr fun c _ => by unfold plus; ring

theorem spread_plus (h : Voted P) (S : Fin J → ℝ) :
    apSpread P (plus N q b) (fun j => q j + t + S j) (apBias P (plus N q b) (fun j => q j + t + S j)) = apSpread P N S (apBias P N S) := by
  funext i
  unfold apSpread
  exact spread_congr fun c _ => by rw [bias_plus N q b t h]; unfold plus; ring

theorem next_plus (h : Voted P) (S : Fin J → ℝ) :
    next P (plus N q b) (fun j => q j + t + S j) = fun j => q j + t + next P N S j := by
  funext j
  unfold next
  rw [spread_plus N q b t h]
  unfold apQuality
  rw [add_comm, ← wavg_add_const (h.videos j) (fun c => apWeight_pos _)]
  exact wavg_congr (fun c _ => by rw [bias_plus N q b t h]; unfold plus; ring) fun _ _ => rfl

theorem seq_plus (h : Voted P) (ht : SamePanels P b t) (k : ℕ) :
    seq P (plus N q b) k = fun j => q j + t + seq P N k j := by
  induction k with
  | zero =>
    funext j
    show mos0 P (plus N q b) j = q j + t + mos0 P N j
    rw [← ht j]
    have hc : ((votesOnVideo P j).card : ℝ) ≠ 0 := by
      have := Finset.card_pos.mpr (h.videos j)
      positivity
    unfold mos0 avg plus
    rw [Finset.sum_add_distrib, Finset.sum_add_distrib, Finset.sum_const, nsmul_eq_mul]
    field_simp
  | succ k ih =>
    show next P (plus N q b) (seq P (plus N q b) k) = _
    rw [ih, next_plus N q b t h]
    rfl

theorem change_plus (h : Voted P) (ht : SamePanels P b t) (k : ℕ) : change P (plus N q b) k = change P N k := by
  unfold change
  rw [seq_plus N q b t h ht, seq_plus N q b t h ht]
  refine Finset.sum_congr rfl fun j _ => ?_
  ring

theorem stopAt_plus (h : Voted P) (ht : SamePanels P b t) : stopAt P (plus N q b) = stopAt P N := by
  unfold stopAt
  simp only [change_plus N q b t h ht]

theorem lastS_plus (h : Voted P) (ht : SamePanels P b t) : lastS P (plus N q b) = fun j => q j + t + lastS P N j := by
  unfold lastS
  rw [stopAt_plus N q b t h ht, seq_plus N q b t h ht]

theorem meanB_plus (h : Voted P) (ht : SamePanels P b t) (hI : 0 < I) : meanB P (plus N q b) = (∑ i, b i) / I - t + meanB P N := by
  unfold meanB
  rw [lastS_plus N q b t h ht]
  simp only [bias_plus N q b t h, Finset.sum_add_distrib, Finset.sum_sub_distrib, Finset.sum_const, Finset.card_univ, Fintype.card_fin,
    nsmul_eq_mul]
  have : (I : ℝ) ≠ 0 := by positivity
  field_simp

theorem estQ_plus (h : Voted P) (ht : SamePanels P b t) (hI : 0 < I) (j : Fin J) :
    estQ P (plus N q b) j = q j + (∑ i, b i) / I + estQ P N j := by
  unfold estQ
  rw [lastS_plus N q b t h ht, meanB_plus N q b t h ht hI]
  ring

theorem estB_plus (h : Voted P) (ht : SamePanels P b t) (hI : 0 < I) (i : Fin I) :
    estB P (plus N q b) i = b i - (∑ i, b i) / I + estB P N i := by
  unfold estB
  rw [lastS_plus N q b t h ht, meanB_plus N q b t h ht hI, bias_plus N q b t h]
  ring

theorem estV_plus (h : Voted P) (ht : SamePanels P b t) (i : Fin I) : estV P (plus N q b) i = estV P N i := by
  unfold estV
  rw [stopAt_plus N q b t h ht, seq_plus N q b t h ht, spread_plus N q b t h]

end shift

/-! ## the sign of the noise -/

section mirror
variable (N : Fin J → Fin I → Fin R → ℝ)

theorem avg_neg {ι : Type} (A : Finset ι) (f : ι → ℝ) : avg A (fun c => - f c) = - avg A f := by
  unfold avg
  rw [Finset.sum_neg_distrib, neg_div]

theorem bias_neg (S : Fin J → ℝ) : apBias P (-N) (-S) = - apBias P N S := by
  funext i
  show _ = - apBias P N S i
  unfold apBias
  rw [← avg_neg]
  exact avg_congr fun c _ => by simp only [Pi.neg_apply]; ring

theorem spread_neg (S : Fin J → ℝ) (B : Fin I → ℝ) : apSpread P (-N) (-S) (-B) = apSpread P N S B := by
  funext i
  unfold apSpread spread
  have e : (fun c : Fin J × Fin R => (-N) c.1 i c.2 - (-S) c.1 - (-B) i) = fun c => -(N c.1 i c.2 - S c.1 - B i) := by
    funext c
    simp only [Pi.neg_apply]
    ring
  rw [e, avg_neg]
  congr 2
  funext c
  ring

theorem next_neg (S : Fin J → ℝ) : next P (-N) (-S) = - next P N S := by
  funext j
  show _ = - next P N S j
  unfold next
  rw [bias_neg, spread_neg]
  unfold apQuality wavg
  rw [← neg_div, ← Finset.sum_neg_distrib]
  congr 1
  refine Finset.sum_congr rfl fun c _ => ?_
  simp only [Pi.neg_apply]
  ring

theorem seq_neg (k : ℕ) : seq P (-N) k = - seq P N k := by
  induction k with
  | zero =>
    funext j
    show mos0 P (-N) j = - mos0 P N j
    unfold mos0
    rw [← avg_neg]
    rfl
  | succ k ih =>
    show next P (-N) (seq P (-N) k) = _
    rw [ih, next_neg]
    rfl

theorem stopAt_neg : stopAt P (-N) = stopAt P N := by
  unfold stopAt
  have : ∀ k, change P (-N) k = change P N k := by
    intro k
    unfold change
    rw [seq_neg, seq_neg]
    refine Finset.sum_congr rfl fun j _ => ?_
    simp only [Pi.neg_apply]
    ring
  simp only [this]

theorem lastS_neg : lastS P (-N) = - lastS P N := by
  unfold lastS
  rw [stopAt_neg, seq_neg]

theorem meanB_neg : meanB P (-N) = - meanB P N := by
  unfold meanB
  rw [lastS_neg, bias_neg, ← neg_div, ← Finset.sum_neg_distrib]
  rfl

theorem estQ_neg (j : Fin J) : estQ P (-N) j = - estQ P N j := by
  unfold estQ
  rw [lastS_neg, meanB_neg]
  simp only [Pi.neg_apply]
  ring

theorem estB_neg (i : Fin I) : estB P (-N) i = - estB P N i := by
  unfold estB
  rw [lastS_neg, meanB_neg, bias_neg]
  simp only [Pi.neg_apply]
  ring

theorem estV_neg (i : Fin I) : estV P (-N) i = estV P N i := by
  unfold estV
  rw [stopAt_neg, seq_neg, bias_neg, spread_neg]

end mirror

/-! ## bounds and measurability -/

section measurable

/-- the sum of the absolute values of all votes -/
noncomputable def total (N : Fin J → Fin I → Fin R → ℝ) : ℝ := ∑ j, ∑ i, ∑ r, |N j i r|

theorem total_nonneg (N : Fin J → Fin I → Fin R → ℝ) : 0 ≤ total N :=
  Finset.sum_nonneg fun _ _ => Finset.sum_nonneg fun _ _ => Finset.sum_nonneg fun _ _ => abs_nonneg _

theorem le_total (N : Fin J → Fin I → Fin R → ℝ) (j : Fin J) (i : Fin I) (r : Fin R) : |N j i r| ≤ total N := by
  have h1 : |N j i r| ≤ ∑ r, |N j i r| := Finset.single_le_sum (f := fun r => |N j i r|) (fun _ _ => abs_nonneg _) (Finset.mem_univ r)
  have h2 : ∑ r, |N j i r| ≤ ∑ i, ∑ r, |N j i r| :=
    Finset.single_le_sum (f := fun i => ∑ r, |N j i r|) (fun _ _ => Finset.sum_nonneg fun _ _ => abs_nonneg _) (Finset.mem_univ i)
  have h3 : ∑ i, ∑ r, |N j i r| ≤ total N :=
    Finset.single_le_sum (f := fun j => ∑ i, ∑ r, |N j i r|) (fun _ _ => Finset.sum_nonneg fun _ _ => Finset.sum_nonneg fun _ _ => abs_nonneg _)
      (Finset.mem_univ j)
  linarith

theorem avg_abs_le {ι : Type} {A : Finset ι} (hA : A.Nonempty) {f : ι → ℝ} {c : ℝ} (h : ∀ x ∈ A, |f x| ≤ c) : |avg A f| ≤ c := by
  have hc : (0 : ℝ) < A.card := by
    have := Finset.card_pos.mpr hA
    positivity
  unfold avg
  rw [abs_div, abs_of_pos hc, div_le_iff₀ hc]
  calc |∑ x ∈ A, f x| ≤ ∑ x ∈ A, |f x| := Finset.abs_sum_le_sum_abs _ _
    _ ≤ ∑ x ∈ A, c := Finset.sum_le_sum h
    _ = c * A.card := by rw [Finset.sum_const, nsmul_eq_mul, mul_comm]

theorem wavg_abs_le {ι : Type} {A : Finset ι} (hA : A.Nonempty) {w f : ι → ℝ} (hw : ∀ x, 0 < w x) {c : ℝ} (h : ∀ x ∈ A, |f x| ≤ c) :
    |wavg A w f| ≤ c := by
  rw [abs_le]
  exact wavg_bounds hA hw fun x hx => abs_le.mp (h x hx)

variable {P}

theorem bias_le (h : Voted P) (N : Fin J → Fin I → Fin R → ℝ) {S : Fin J → ℝ} {c : ℝ} (hS : ∀ j, |S j| ≤ c) (i : Fin I) :
    |apBias P N S i| ≤ total N + c := by
  refine avg_abs_le (h.observers i) fun x _ => ?_
  have h1 := le_total N x.1 i x.2
  have h2 := hS x.1
  have := abs_sub (N x.1 i x.2) (S x.1)
  linarith

theorem seq_le (h : Voted P) (N : Fin J → Fin I → Fin R → ℝ) (k : ℕ) (j : Fin J) : |seq P N k j| ≤ (2 * k + 1) * total N := by
  induction k generalizing j with
  | zero =>
    have := avg_abs_le (h.videos j) (f := fun c => N j c.1 c.2) (c := total N) fun c _ => le_total N j c.1 c.2
    have e : (2 * ((0 : ℕ) : ℝ) + 1) * total N = total N := by push_cast; ring
    rw [e]
    exact this
  | succ k ih =>
    show |next P N (seq P N k) j| ≤ _
    refine wavg_abs_le (h.videos j) (fun c => apWeight_pos _) fun c _ => ?_
    have h1 := bias_le h N ih c.1
    have h2 := le_total N j c.1 c.2
    have h3 := abs_sub (N j c.1 c.2) (apBias P N (seq P N k) c.1)
    push_cast
    linarith

theorem lastS_le (h : Voted P) (N : Fin J → Fin I → Fin R → ℝ) (j : Fin J) : |lastS P N j| ≤ 2001 * total N := by
  refine (seq_le h N _ j).trans ?_
  have h1 : ((stopAt P N + 1 : ℕ) : ℝ) ≤ 1000 := by
    have := stopAt_le P N
    exact_mod_cast (by omega : stopAt P N + 1 ≤ 1000)
  have h2 := total_nonneg N
  nlinarith

theorem meanB_le (h : Voted P) (N : Fin J → Fin I → Fin R → ℝ) : |meanB P N| ≤ 2002 * total N := by
  have h0 := total_nonneg N
  unfold meanB
  rcases Nat.eq_zero_or_pos I with hI | hI
  · subst hI
    simp
    exact h0
  · have hI' : (0 : ℝ) < I := by positivity
    rw [abs_div, abs_of_pos hI', div_le_iff₀ hI']
    calc |∑ i, apBias P N (lastS P N) i| ≤ ∑ i, |apBias P N (lastS P N) i| := Finset.abs_sum_le_sum_abs _ _
      _ ≤ ∑ _i : Fin I, 2002 * total N := Finset.sum_le_sum fun i _ => by
          have := bias_le h N (lastS_le h N) i
          linarith
      _ = 2002 * total N * I := by
          rw [Finset.sum_const, Finset.card_univ, Fintype.card_fin, nsmul_eq_mul, mul_comm]

theorem estQ_le (h : Voted P) (N : Fin J → Fin I → Fin R → ℝ) (j : Fin J) : |estQ P N j| ≤ 4003 * total N := by
  have h1 := lastS_le h N j
  have h2 := meanB_le h N
  have := abs_add_le (lastS P N j) (meanB P N)
  unfold estQ
  linarith

theorem estB_le (h : Voted P) (N : Fin J → Fin I → Fin R → ℝ) (i : Fin I) : |estB P N i| ≤ 4004 * total N := by
  have h1 := bias_le h N (lastS_le h N) i
  have h2 := meanB_le h N
  have := abs_sub (apBias P N (lastS P N) i) (meanB P N)
  unfold estB
  linarith

variable (P) {α : Type*} [MeasurableSpace α]

theorem measurable_avg {ι : Type} (A : Finset ι) {f : α → ι → ℝ} (hf : ∀ c, Measurable fun x => f x c) : Measurable fun x => avg A (f x) := by
  unfold avg
  exact (Finset.measurable_sum _ fun c _ => hf c).div_const _

theorem measurable_bias {N : α → Fin J → Fin I → Fin R → ℝ} (hN : ∀ j i r, Measurable fun x => N x j i r) {S : α → Fin J → ℝ}
    (hS : ∀ j, Measurable fun x => S x j) (i : Fin I) : Measurable fun x => apBias P (N x) (S x) i := by
  unfold apBias
  exact measurable_avg _ fun c => (hN c.1 i c.2).sub (hS c.1)

theorem measurable_spread {N : α → Fin J → Fin I → Fin R → ℝ} (hN : ∀ j i r, Measurable fun x => N x j i r) {S : α → Fin J → ℝ}
    (hS : ∀ j, Measurable fun x => S x j) {B : α → Fin I → ℝ} (hB : ∀ i, Measurable fun x => B x i) (i : Fin I) :
    Measurable fun x => apSpread P (N x) (S x) (B x) i := by
  unfold apSpread spread
  have h1 : ∀ c : Fin J × Fin R, Measurable fun x => N x c.1 i c.2 - S x c.1 - B x i := fun c => ((hN c.1 i c.2).sub (hS c.1)).sub (hB i)
  exact (measurable_avg _ fun c => ((h1 c).sub (measurable_avg _ h1)).pow_const 2).sqrt

theorem measurable_next {N : α → Fin J → Fin I → Fin R → ℝ} (hN : ∀ j i r, Measurable fun x => N x j i r) {S : α → Fin J → ℝ}
    (hS : ∀ j, Measurable fun x => S x j) (j : Fin J) : Measurable fun x => next P (N x) (S x) j := by
  unfold next apQuality wavg apWeight
  have hB := measurable_bias P hN hS
  have hV := measurable_spread P hN hS hB
  have hw : ∀ i, Measurable fun x => 1 / (apSpread P (N x) (S x) (apBias P (N x) (S x)) i ^ 2 + 1 / 100000000) :=
    fun i => (measurable_const (a := (1 : ℝ))).div (((hV i).pow_const 2).add_const _)
  exact (Finset.measurable_sum _ fun c _ => ((hN j c.1 c.2).sub (hB c.1)).mul (hw c.1)).div (Finset.measurable_sum _ fun c _ => hw c.1)

theorem measurable_seq {N : α → Fin J → Fin I → Fin R → ℝ} (hN : ∀ j i r, Measurable fun x => N x j i r) (k : ℕ) (j : Fin J) :
    Measurable fun x => seq P (N x) k j := by
  induction k generalizing j with
  | zero => exact measurable_avg _ fun c => hN j c.1 c.2
  | succ k ih => exact measurable_next P hN ih j

theorem measurable_stopAt {N : α → Fin J → Fin I → Fin R → ℝ} (hN : ∀ j i r, Measurable fun x => N x j i r) :
    Measurable fun x => stopAt P (N x) := by
  classical
  have hc : ∀ k, Measurable fun x => Real.sqrt (change P (N x) k) := by
    intro k
    unfold change
    exact (Finset.measurable_sum _ fun j _ => ((measurable_seq P hN k j).sub (measurable_seq P hN (k + 1) j)).pow_const 2).sqrt
  have := measurable_find (p := fun x k => Real.sqrt (change P (N x) k) < 1 / 100000000 ∨ 999 ≤ k) (fun x => stop_exists P (N x)) (by
    intro k
    exact (measurableSet_lt (hc k) measurable_const).union (MeasurableSet.const _))
  unfold stopAt
  convert this

theorem measurable_lastS {N : α → Fin J → Fin I → Fin R → ℝ} (hN : ∀ j i r, Measurable fun x => N x j i r) (j : Fin J) :
    Measurable fun x => lastS P (N x) j := by
  unfold lastS
  have h1 : Measurable fun p : α × ℕ => seq P (N p.1) (p.2 + 1) j := measurable_from_prod_countable_left fun k => measurable_seq P hN (k + 1) j
  have h2 : Measurable fun x : α => (x, stopAt P (N x)) := measurable_id.prodMk (measurable_stopAt P hN)
  have h3 := h1.comp h2
  simp only [Function.comp_def] at h3
  exact h3

theorem measurable_meanB {N : α → Fin J → Fin I → Fin R → ℝ} (hN : ∀ j i r, Measurable fun x => N x j i r) :
    Measurable fun x => meanB P (N x) := by
  unfold meanB
  exact (Finset.measurable_sum _ fun i _ => measurable_bias P hN (measurable_lastS P hN) i).div_const _

theorem measurable_estQ {N : α → Fin J → Fin I → Fin R → ℝ} (hN : ∀ j i r, Measurable fun x => N x j i r) (j : Fin J) :
    Measurable fun x => estQ P (N x) j := (measurable_lastS P hN j).add (measurable_meanB P hN)

theorem measurable_estB {N : α → Fin J → Fin I → Fin R → ℝ} (hN : ∀ j i r, Measurable fun x => N x j i r) (i : Fin I) :
    Measurable fun x => estB P (N x) i := (measurable_bias P hN (measurable_lastS P hN) i).sub (measurable_meanB P hN)

end measurable

end Sureal.Ap
