import Verif.Lemmas.PcRandom
/-!
# The law of one paired comparison
-/
set_option linter.unusedSectionVars false
namespace Sureal.Pc
open Sureal Spec MeasureTheory ProbabilityTheory Stop
variable {κ : Type} [DecidableEq κ]

/-- streams of draws, uniform and normal -/
abbrev Str := ℕ → ℝ × ℝ

def drOf (v : Str) : Draws ℝ := ⟨fun n => (v n).1, fun n => (v n).2⟩

theorem drOf_shift (v : Str) (k : ℕ) : (drOf v).shift k = drOf (Stop.shift k v) := rfl

instance : IsProbabilityMeasure uniform01 := ⟨by
  rw [uniform01, Measure.restrict_apply MeasurableSet.univ, Set.univ_inter, Real.volume_Ico]
  simp⟩

instance : IsProbabilityMeasure normal01 := by unfold normal01; infer_instance

/-- the law of one draw, and of the stream -/
noncomputable abbrev drawLaw : Measure (ℝ × ℝ) := uniform01.prod normal01
noncomputable abbrev strLaw : Measure Str := Stop.law drawLaw

open Classical in
noncomputable def ind (p : Prop) : ℝ := if p then 1 else 0

theorem ind_true {p : Prop} (h : p) : ind p = 1 := by unfold ind; rw [if_pos h]
theorem ind_false {p : Prop} (h : ¬ p) : ind p = 0 := by unfold ind; rw [if_neg h]

/-- the assignments of a draw -/
noncomputable def halves (j : Job κ ℝ) : List (Write κ ℝ) :=
  [⟨j.x.asset, (j.subj, j.y.asset), Fl.dec 1 2⟩, ⟨j.y.asset, (j.subj, j.x.asset), Fl.dec 1 2⟩]

/-- the probabilities of: `x` wins, `y` wins, a draw, nothing -/
structure Law (j : Job κ ℝ) (f : Str → Py (ℕ × List (Write κ ℝ))) (a b t e : ℝ) : Prop where
  meas : ∀ Q : Py (ℕ × List (Write κ ℝ)) → Prop, MeasurableSet {v | Q (f v)}
  prob : ∀ Q : List (Write κ ℝ) → Prop, strLaw.real {v | ∃ n w, f v = .ok (n, w) ∧ Q w} =
    a * ind (Q [winX j]) + b * ind (Q [winY j]) + t * ind (Q (halves j)) + e * ind (Q [])

theorem unif_real {A : Set ℝ} (hA : MeasurableSet A) : strLaw.real {v | (v 0).1 ∈ A} = (uniform01 A).toReal := by
  have h1 : MeasurePreserving (Function.eval 0) strLaw drawLaw := measurePreserving_eval_infinitePi (fun _ : ℕ => drawLaw) 0
  have h2 : MeasurePreserving Prod.fst drawLaw uniform01 := measurePreserving_fst
  have := (h2.comp h1).measure_preimage hA.nullMeasurableSet
  rw [Measure.real]
  exact congrArg ENNReal.toReal this

theorem bump_ok {α : Type} {k : ℕ} {r : Py (ℕ × α)} {Q : α → Prop} :
    (∃ n w, bump k r = .ok (n, w) ∧ Q w) ↔ ∃ n w, r = .ok (n, w) ∧ Q w := by
  cases r with
  | error e => simp [bump]
  | ok r =>
    obtain ⟨n, w⟩ := r
    simp [bump]

/-- a first draw decides between two continuations -/
theorem Law.mix {j : Job κ ℝ} {f g h : Str → Py (ℕ × List (Write κ ℝ))} {a b t e a' b' t' e' c : ℝ} {A : Set ℝ}
    (hA : MeasurableSet A) (hc : (uniform01 A).toReal = c) (hg : Law j g a b t e) (hh : Law j h a' b' t' e')
    (hin : ∀ v : Str, (v 0).1 ∈ A → f v = bump 1 (g (Stop.shift 1 v)))
    (hout : ∀ v : Str, (v 0).1 ∉ A → f v = bump 1 (h (Stop.shift 1 v))) :
    Law j f (c * a + (1 - c) * a') (c * b + (1 - c) * b') (c * t + (1 - c) * t') (c * e + (1 - c) * e') := by
  have mA : MeasurableSet {v : Str | (v 0).1 ∈ A} := (measurable_fst.comp (measurable_pi_apply 0)) hA
  have lA : Local 1 {v : Str | (v 0).1 ∈ A} := by
    intro v v' hv h1
    simp only [Set.mem_ofPred_eq] at h1 ⊢
    rw [← hv 0 (by omega)]; exact h1
  have lA' : Local 1 {v : Str | (v 0).1 ∈ A}ᶜ := by
    intro v v' hv h1 h2
    exact h1 (lA v' v (fun k hk => (hv k hk).symm) h2)
  have hset : ∀ Q : Py (ℕ × List (Write κ ℝ)) → Prop, {v | Q (f v)} =
      ({v : Str | (v 0).1 ∈ A} ∩ {v | Stop.shift 1 v ∈ {v | Q (bump 1 (g v))}}) ∪
      ({v : Str | (v 0).1 ∈ A}ᶜ ∩ {v | Stop.shift 1 v ∈ {v | Q (bump 1 (h v))}}) := by
    intro Q
    ext v
    by_cases hv : (v 0).1 ∈ A
    · simp [hv, hin v hv]
    · simp [hv, hout v hv]
  constructor
  · intro Q
    rw [hset Q]
    exact (mA.inter (measurable_shift 1 (hg.meas fun r => Q (bump 1 r)))).union
      (mA.compl.inter (measurable_shift 1 (hh.meas fun r => Q (bump 1 r))))
  · intro Q
    have mg := hg.meas fun r => ∃ n w, bump 1 r = .ok (n, w) ∧ Q w
    have mh := hh.meas fun r => ∃ n w, bump 1 r = .ok (n, w) ∧ Q w
    rw [hset fun r => ∃ n w, r = .ok (n, w) ∧ Q w]
    have hdis : Disjoint ({v : Str | (v 0).1 ∈ A} ∩ {v | Stop.shift 1 v ∈ {v | ∃ n w, bump 1 (g v) = .ok (n, w) ∧ Q w}})
        ({v : Str | (v 0).1 ∈ A}ᶜ ∩ {v | Stop.shift 1 v ∈ {v | ∃ n w, bump 1 (h v) = .ok (n, w) ∧ Q w}}) := by
      rw [Set.disjoint_left]
      intro v h1 h2
      exact h2.1 h1.1
    rw [measureReal_union hdis (mA.compl.inter (measurable_shift 1 mh))]
    rw [Measure.real, Measure.real, head_tail drawLaw 1 mA lA mg, head_tail drawLaw 1 mA.compl lA' mh, ENNReal.toReal_mul,
      ENNReal.toReal_mul]
    change strLaw.real _ * strLaw.real _ + strLaw.real _ * strLaw.real _ = _
    rw [probReal_compl_eq_one_sub mA, unif_real hA, hc]
    simp only [bump_ok]
    rw [hg.prob Q, hh.prob Q]
    ring

/-- draws that are skipped -/
theorem Law.skip {j : Job κ ℝ} {f g : Str → Py (ℕ × List (Write κ ℝ))} {a b t e : ℝ} (k : ℕ) (hg : Law j g a b t e)
    (hf : ∀ v, f v = bump k (g (Stop.shift k v))) : Law j f a b t e := by
  constructor
  · intro Q
    simp only [hf]
    exact measurable_shift k (hg.meas fun r => Q (bump k r))
  · intro Q
    simp only [hf, bump_ok]
    rw [← hg.prob Q, Measure.real, Measure.real,
      ← shift_measure drawLaw k (hg.meas fun r => ∃ n w, r = .ok (n, w) ∧ Q w)]
    rfl

theorem Law.const {j : Job κ ℝ} (n : ℕ) (w : List (Write κ ℝ)) {a b t e : ℝ}
    (h : ∀ Q : List (Write κ ℝ) → Prop, ind (Q w) = a * ind (Q [winX j]) + b * ind (Q [winY j]) + t * ind (Q (halves j)) + e * ind (Q [])) :
    Law j (fun _ => .ok (n, w)) a b t e := by
  constructor
  · intro Q; exact MeasurableSet.const _
  · intro Q
    rw [← h Q]
    by_cases hQ : Q w
    · rw [ind_true hQ]
      have : {v : Str | ∃ n' w', (.ok (n, w) : Py _) = .ok (n', w') ∧ Q w'} = Set.univ := by
        ext v; simpa using hQ
      rw [this, probReal_univ]
    · rw [ind_false hQ]
      have : {v : Str | ∃ n' w', (.ok (n, w) : Py _) = .ok (n', w') ∧ Q w'} = ∅ := by
        ext v
        simp only [Set.mem_ofPred_eq, Set.mem_empty_iff_false, iff_false, not_exists, not_and]
        intro n' w' h hq
        cases h
        exact hQ hq
      rw [this, measureReal_empty]

theorem uniform_Ioi {c : ℝ} (h0 : 0 ≤ c) (h1 : c ≤ 1) : (uniform01 (Set.Ioi c)).toReal = 1 - c := by
  rw [uniform01, Measure.restrict_apply measurableSet_Ioi]
  have : Set.Ioi c ∩ Set.Ico 0 1 = Set.Ioo c 1 := by
    ext x; simp only [Set.mem_inter_iff, Set.mem_Ioi, Set.mem_Ico, Set.mem_Ioo]; constructor <;> intro hx <;> constructor <;> grind
  rw [this, Real.volume_Ioo, ENNReal.toReal_ofReal (by linarith)]

theorem uniform_Iio {c : ℝ} (h0 : 0 ≤ c) (h1 : c ≤ 1) : (uniform01 (Set.Iio c)).toReal = c := by
  rw [uniform01, Measure.restrict_apply measurableSet_Iio]
  have : Set.Iio c ∩ Set.Ico 0 1 = Set.Ico 0 c := by
    ext x; simp only [Set.mem_inter_iff, Set.mem_Iio, Set.mem_Ico]; constructor <;> intro hx <;> constructor <;> grind
  rw [this, Real.volume_Ico, ENNReal.toReal_ofReal (by linarith), sub_zero]

theorem uniform_Iic {c : ℝ} (h0 : 0 ≤ c) (h1 : c < 1) : (uniform01 (Set.Iic c)).toReal = c := by
  rw [uniform01, Measure.restrict_apply measurableSet_Iic]
  have : Set.Iic c ∩ Set.Ico 0 1 = Set.Icc 0 c := by
    ext x; simp only [Set.mem_inter_iff, Set.mem_Iic, Set.mem_Ico, Set.mem_Icc]; constructor <;> intro hx <;> constructor <;> grind
  rw [this, Real.volume_Icc, ENNReal.toReal_ofReal (by linarith), sub_zero]

theorem toss_law (j : Job κ ℝ) : Law j (fun v => .ok (toss (drOf v) j 0)) (1 / 2) (1 / 2) 0 0 := by
  have hA := uniform_Ioi (c := 1 / 2) (by norm_num) (by norm_num)
  have hd : (Fl.dec 1 2 : Fl ℝ) = .fin (1 / 2) := by simp [Fl.dec]
  have := Law.mix (j := j) (f := fun v => .ok (toss (drOf v) j 0)) measurableSet_Ioi hA
    (Law.const (j := j) 0 [winX j] (a := 1) (b := 0) (t := 0) (e := 0) (by intro Q; ring))
    (Law.const (j := j) 0 [winY j] (a := 0) (b := 1) (t := 0) (e := 0) (by intro Q; ring)) (by
      intro v hv
      simp only [toss, bump, drOf, hd, Fl.lt_fin]
      rw [if_pos (by simpa using hv)]) (by
      intro v hv
      simp only [toss, bump, drOf, hd, Fl.lt_fin]
      rw [if_neg (by simpa using hv)])
  convert this using 1 <;> norm_num

/-- without noise -/
theorem settle_law (kw : PcKw ℝ) (j : Job κ ℝ) (x y : ℝ) (coin : Bool) (hcoin : coin = !(kw.tie == "even_split")) :
    Law j (fun v => .ok (settle kw (drOf v) j (.fin x) (.fin y) 0)) (scoreWins 0 coin x y) (scoreWins 0 coin y x)
      (if x = y ∧ coin = false then 1 else 0) 0 := by
  unfold scoreWins
  rw [if_pos rfl, if_pos rfl]
  unfold settle
  simp only [Fl.lt_fin, decide_eq_true_eq]
  by_cases h1 : y < x
  · simp only [if_pos h1, if_neg (not_lt.mpr h1.le), if_neg (show ¬ (x = y ∧ coin = false) from fun h => h1.ne' h.1)]
    exact Law.const 0 _ (by intro Q; ring)
  by_cases h2 : x < y
  · simp only [if_pos h2, if_neg h1, if_neg (show ¬ (x = y ∧ coin = false) from fun h => h2.ne h.1)]
    exact Law.const 0 _ (by intro Q; ring)
  have hxy : x = y := le_antisymm (not_lt.mp h1) (not_lt.mp h2)
  simp only [if_neg h1, if_neg h2]
  cases ht : (kw.tie == "even_split") with
  | true =>
    rw [ht] at hcoin
    subst hcoin
    simp only [Bool.not_true, if_true, hxy, and_self]
    exact Law.const 0 _ (by intro Q; unfold halves; simp)
  | false =>
    rw [ht] at hcoin
    subst hcoin
    simp
    simpa using toss_law j

theorem gauss_law (n : ℕ) : HasLaw (fun v : Str => (v n).2) (gaussianReal 0 1) strLaw := by
  have h1 : MeasurePreserving (Function.eval n) strLaw drawLaw := measurePreserving_eval_infinitePi (fun _ : ℕ => drawLaw) n
  have h2 : MeasurePreserving Prod.snd drawLaw normal01 := measurePreserving_snd
  exact (h2.comp h1).hasLaw

/-- the difference of two noisy scores -/
theorem diff_law (x y σ : ℝ) : HasLaw (fun v : Str => (x + σ * (v 0).2) - (y + σ * (v 1).2))
    (gaussianReal (x - y) (Real.toNNReal (2 * σ ^ 2))) strLaw := by
  have h0 := gaussianReal_const_add (gaussianReal_const_mul (gauss_law 0) σ) x
  have h1 := gaussianReal_neg (gaussianReal_const_add (gaussianReal_const_mul (gauss_law 1) σ) y)
  have hi : IndepFun (fun v : Str => x + σ * (v 0).2) (-fun v : Str => y + σ * (v 1).2) strLaw := by
    have := (iIndep_coord drawLaw).indepFun (show (0 : ℕ) ≠ 1 by decide)
    exact this.comp (φ := fun p : ℝ × ℝ => x + σ * p.2) (ψ := fun p : ℝ × ℝ => -(y + σ * p.2)) (by fun_prop) (by fun_prop)
  have hm := gaussianReal_add_gaussianReal_of_indepFun hi h0.map_eq h1.map_eq
  refine ⟨by fun_prop, ?_⟩
  have hfun : (fun v : Str => (x + σ * (v 0).2) - (y + σ * (v 1).2)) = (fun v : Str => x + σ * (v 0).2) + (-fun v : Str => y + σ * (v 1).2) := by
    funext v; simp [sub_eq_add_neg]
  rw [hfun, hm]
  rw [show (σ * 0 + x + -(σ * 0 + y)) = x - y by ring]
  congr 1
  rw [← NNReal.coe_inj, Real.coe_toNNReal _ (by positivity)]
  simp
  ring

theorem noisy_eq (v : Str) (n : ℕ) (x σ : ℝ) : noisy (drOf v) n (.fin x) (.fin σ) = .fin (x + σ * (v n).2) := by
  unfold noisy drOf
  rw [Fl.fin_mul, Fl.zero_def, Fl.fin_add, Fl.fin_add]
  congr 1
  ring

theorem settle_tie {kw : PcKw ℝ} {dr : Draws ℝ} {j : Job κ ℝ} {a b : Fl ℝ} {n : ℕ} (h1 : ¬ b.lt a = true) (h2 : ¬ a.lt b = true) :
    settle kw dr j a b n = settle kw dr j (.fin 0) (.fin 0) n := by
  unfold settle
  have h3 : ¬ (Fl.fin (0 : ℝ)).lt (Fl.fin 0) = true := by simp [Fl.lt_fin]
  simp only [if_neg h1, if_neg h2, if_neg h3]

/-- with noise -/
theorem noise_law (kw : PcKw ℝ) (j : Job κ ℝ) (x y σ : ℝ) (coin : Bool) (hcoin : coin = !(kw.tie == "even_split")) :
    Law j (fun v => .ok (settle kw (drOf v) j (noisy (drOf v) 0 (.fin x) (.fin σ)) (noisy (drOf v) 1 (.fin y) (.fin σ)) 2))
      (scoreWins σ coin x y) (scoreWins σ coin y x) (if σ = 0 ∧ x = y ∧ coin = false then 1 else 0) 0 := by
  by_cases hσ : σ = 0
  · subst hσ
    have := (settle_law kw j x y coin hcoin).skip 2 (f := fun v => .ok (settle kw (drOf v) j (noisy (drOf v) 0 (.fin x) (.fin 0))
      (noisy (drOf v) 1 (.fin y) (.fin 0)) 2)) (by
        intro v
        rw [noisy_eq, noisy_eq, zero_mul, zero_mul, add_zero, add_zero, ← drOf_shift]
        rw [show (2 : ℕ) = 2 + 0 from rfl, settle_shift]
        rfl)
    simpa using this
  · have hv : Real.toNNReal (2 * σ ^ 2) ≠ 0 := by
      rw [Ne, Real.toNNReal_eq_zero, not_le]
      positivity
    have hp : ∀ x y : ℝ, scoreWins σ coin x y = (gaussianReal (x - y) (Real.toNNReal (2 * σ ^ 2)) (Set.Ioi 0)).toReal := by
      intro x y; unfold scoreWins; rw [if_neg hσ]
    have hD := diff_law x y σ
    have hX : strLaw.real {v : Str | 0 < (x + σ * (v 0).2) - (y + σ * (v 1).2)} = scoreWins σ coin x y := by
      rw [hp, Measure.real, hD.measure_eq (p := fun z => 0 < z) measurableSet_Ioi]
      rfl
    have hY : strLaw.real {v : Str | (x + σ * (v 0).2) - (y + σ * (v 1).2) < 0} = scoreWins σ coin y x := by
      have h1 := (gaussianReal_neg hD).measure_eq (p := fun z => 0 < z) measurableSet_Ioi
      rw [neg_sub] at h1
      rw [hp, Measure.real]
      refine congrArg ENNReal.toReal (Eq.trans ?_ h1)
      congr 1
      ext v
      simp
    have hZ : strLaw {v : Str | (x + σ * (v 0).2) - (y + σ * (v 1).2) = 0} = 0 := by
      rw [hD.measure_eq (p := fun z => z = 0) (measurableSet_singleton 0)]
      have := nullSingletonClass_gaussianReal (μ := x - y) hv
      exact measure_singleton 0
    rw [if_neg (show ¬ (σ = 0 ∧ x = y ∧ coin = false) from fun h => hσ h.1)]
    have mD : Measurable fun v : Str => (x + σ * (v 0).2) - (y + σ * (v 1).2) := by fun_prop
    have mX : MeasurableSet {v : Str | 0 < (x + σ * (v 0).2) - (y + σ * (v 1).2)} := mD measurableSet_Ioi
    have mY : MeasurableSet {v : Str | (x + σ * (v 0).2) - (y + σ * (v 1).2) < 0} := mD measurableSet_Iio
    have mZ : MeasurableSet {v : Str | (x + σ * (v 0).2) - (y + σ * (v 1).2) = 0} := mD (measurableSet_singleton 0)
    have hset : ∀ Q : Py (ℕ × List (Write κ ℝ)) → Prop,
        {v : Str | Q (.ok (settle kw (drOf v) j (noisy (drOf v) 0 (.fin x) (.fin σ)) (noisy (drOf v) 1 (.fin y) (.fin σ)) 2))} =
        ({v : Str | 0 < (x + σ * (v 0).2) - (y + σ * (v 1).2)} ∩ {_v : Str | Q (.ok (2, [winX j]))}) ∪
        ({v : Str | (x + σ * (v 0).2) - (y + σ * (v 1).2) < 0} ∩ {_v : Str | Q (.ok (2, [winY j]))}) ∪
        ({v : Str | (x + σ * (v 0).2) - (y + σ * (v 1).2) = 0} ∩
          {v : Str | Stop.shift 2 v ∈ {v | Q (bump 2 (.ok (settle kw (drOf v) j (.fin 0) (.fin 0) 0)))}}) := by
      intro Q
      ext v
      simp only [noisy_eq, Set.mem_union, Set.mem_inter_iff, Set.mem_ofPred_eq]
      have hlt : ∀ a b : ℝ, (Fl.fin a).lt (Fl.fin b) = true ↔ a < b := by intro a b; simp [Fl.lt_fin]
      rcases lt_trichotomy ((x + σ * (v 0).2) - (y + σ * (v 1).2)) 0 with h | h | h
      · have : settle kw (drOf v) j (.fin (x + σ * (v 0).2)) (.fin (y + σ * (v 1).2)) 2 = (2, [winY j]) := by
          unfold settle
          rw [if_neg (by rw [hlt]; linarith), if_pos (by rw [hlt]; linarith)]
        rw [this]
        have e1 := eq_false (not_lt.mpr h.le)
        have e2 := eq_false h.ne
        simp only [e1, e2, h, true_and, false_and, or_false, false_or]
      · have : (Except.ok (settle kw (drOf v) j (.fin (x + σ * (v 0).2)) (.fin (y + σ * (v 1).2)) 2) : Py _) =
            bump 2 (.ok (settle kw (drOf (Stop.shift 2 v)) j (.fin 0) (.fin 0) 0)) := by
          rw [settle_tie (by rw [hlt]; linarith) (by rw [hlt]; linarith)]
          rw [show (2 : ℕ) = 2 + 0 from rfl, settle_shift, ← drOf_shift]
          rfl
        rw [this]
        simp [h]
      · have : settle kw (drOf v) j (.fin (x + σ * (v 0).2)) (.fin (y + σ * (v 1).2)) 2 = (2, [winX j]) := by
          unfold settle
          rw [if_pos (by rw [hlt]; linarith)]
        rw [this]
        have e1 := eq_false (not_lt.mpr h.le)
        have e2 := eq_false h.ne'
        simp only [e1, e2, h, true_and, false_and, or_false, false_or]
    have hs := settle_law kw j 0 0 coin hcoin
    constructor
    · intro Q
      rw [hset]
      exact ((mX.inter (MeasurableSet.const _)).union (mY.inter (MeasurableSet.const _))).union
        (mZ.inter (measurable_shift 2 (hs.meas fun r => Q (bump 2 r))))
    · intro Q
      rw [hset fun r => ∃ n w, r = .ok (n, w) ∧ Q w]
      have hnull : strLaw ({v : Str | (x + σ * (v 0).2) - (y + σ * (v 1).2) = 0} ∩
          {v : Str | Stop.shift 2 v ∈ {v | ∃ n w, bump 2 (.ok (settle kw (drOf v) j (.fin 0) (.fin 0) 0)) = .ok (n, w) ∧ Q w}}) = 0 :=
        measure_mono_null Set.inter_subset_left hZ
      have hd1 : Disjoint ({v : Str | 0 < (x + σ * (v 0).2) - (y + σ * (v 1).2)} ∩ {_v : Str | ∃ n w, (.ok (2, [winX j]) : Py _) = .ok (n, w) ∧ Q w})
          ({v : Str | (x + σ * (v 0).2) - (y + σ * (v 1).2) < 0} ∩ {_v : Str | ∃ n w, (.ok (2, [winY j]) : Py _) = .ok (n, w) ∧ Q w}) := by
        rw [Set.disjoint_left]
        intro v h1 h2
        exact lt_asymm (show 0 < (x + σ * (v 0).2) - (y + σ * (v 1).2) from h1.1) h2.1
      have hd2 : Disjoint (({v : Str | 0 < (x + σ * (v 0).2) - (y + σ * (v 1).2)} ∩ {_v : Str | ∃ n w, (.ok (2, [winX j]) : Py _) = .ok (n, w) ∧ Q w}) ∪
          ({v : Str | (x + σ * (v 0).2) - (y + σ * (v 1).2) < 0} ∩ {_v : Str | ∃ n w, (.ok (2, [winY j]) : Py _) = .ok (n, w) ∧ Q w}))
          ({v : Str | (x + σ * (v 0).2) - (y + σ * (v 1).2) = 0} ∩
          {v : Str | Stop.shift 2 v ∈ {v | ∃ n w, bump 2 (.ok (settle kw (drOf v) j (.fin 0) (.fin 0) 0)) = .ok (n, w) ∧ Q w}}) := by
        rw [Set.disjoint_left]
        rintro v (h1 | h1) h2
        · exact h1.1.ne' h2.1
        · exact h1.1.ne h2.1
      rw [measureReal_union hd2 (mZ.inter (measurable_shift 2 (hs.meas fun r => ∃ n w, bump 2 r = .ok (n, w) ∧ Q w))),
        measureReal_union hd1 (mY.inter (MeasurableSet.const _))]
      have hz : strLaw.real ({v : Str | (x + σ * (v 0).2) - (y + σ * (v 1).2) = 0} ∩
          {v : Str | Stop.shift 2 v ∈ {v | ∃ n w, bump 2 (.ok (settle kw (drOf v) j (.fin 0) (.fin 0) 0)) = .ok (n, w) ∧ Q w}}) = 0 := by
        rw [Measure.real, hnull]; rfl
      have hconst : ∀ (S : Set Str) (w : List (Write κ ℝ)),
          strLaw.real (S ∩ {_v : Str | ∃ n w', (.ok (2, w) : Py _) = .ok (n, w') ∧ Q w'}) = strLaw.real S * ind (Q w) := by
        intro S w
        by_cases hq : Q w
        · rw [ind_true hq, mul_one]
          congr 1
          ext v
          simp [hq]
        · rw [ind_false hq, mul_zero]
          have : S ∩ {_v : Str | ∃ n w', (.ok (2, w) : Py _) = .ok (n, w') ∧ Q w'} = ∅ := by
            ext v
            simp [hq]
          rw [this, measureReal_empty]
      rw [hz, hconst, hconst, hX, hY]
      ring

/-- One value per setting for all pairs: sampling rate `q`, probability `c` of a coin instead of the scores, noise `σ`; the
defaults are 1, 0, 0. -/
structure Simple (kw : PcKw ℝ) (q c σ : ℝ) : Prop where
  sampling : kw.samplingRate = some (.fin q) ∨ (kw.samplingRate = none ∧ kw.perAssetSampling = none ∧ q = 1)
  cointoss : kw.cointossRate = some (.fin c) ∨ (kw.cointossRate = none ∧ kw.perAssetCointoss = none ∧ c = 0)
  noise : kw.noiseLevel = some (.fin σ) ∨ (kw.noiseLevel = none ∧ kw.perAssetNoise = none ∧ σ = 0)
  mean : kw.perAssetMean = none

theorem byScores_law {kw : PcKw ℝ} {q c σ : ℝ} (hk : Simple kw q c σ) {j : Job κ ℝ} {x y : ℝ} (hx : j.x.score = .one (.fin x))
    (hy : j.y.score = .one (.fin y)) {coin : Bool} (hcoin : coin = !(kw.tie == "even_split")) :
    Law j (fun v => byScores kw (drOf v) j 0) (scoreWins σ coin x y) (scoreWins σ coin y x)
      (if σ = 0 ∧ x = y ∧ coin = false then 1 else 0) 0 := by
  have hb : baseScores kw j = .ok (.fin x, .fin y) := by
    unfold baseScores
    rw [hk.mean, hx, hy]
    rfl
  unfold byScores
  rw [hb]
  dsimp only
  unfold compareScores
  rcases hk.noise with h | ⟨h, h2, rfl⟩
  · rw [h]
    exact noise_law kw j x y σ coin hcoin
  · rw [h, h2]
    simpa using settle_law kw j x y coin hcoin

theorem trial_law {kw : PcKw ℝ} {q c σ : ℝ} (hk : Simple kw q c σ) (h0 : 0 ≤ c) (h1 : c ≤ 1) {j : Job κ ℝ} {x y : ℝ}
    (hx : j.x.score = .one (.fin x)) (hy : j.y.score = .one (.fin y)) {coin : Bool} (hcoin : coin = !(kw.tie == "even_split")) :
    Law j (fun v => trial kw (drOf v) j 0) (winProb 1 c σ coin x y) (winProb 1 c σ coin y x) (drawProb 1 c σ coin x y) 0 := by
  have hs := byScores_law hk hx hy hcoin
  unfold trial
  rcases hk.cointoss with h | ⟨h, h2, rfl⟩
  · have hp : pairSetting kw.cointossRate kw.perAssetCointoss j = .ok (some (.fin c)) := by
      rw [h]; rfl
    rw [hp]
    dsimp only
    have := Law.mix (f := fun v => if (Fl.fin ((drOf v).unif 0)).lt (.fin c) = true then .ok (toss (drOf v) j (0 + 1))
      else byScores kw (drOf v) j (0 + 1)) measurableSet_Iio (uniform_Iio h0 h1) (toss_law j) hs (by
        intro v hv
        rw [if_pos (by simpa [Fl.lt_fin, drOf] using hv), ← drOf_shift, show 0 + 1 = 1 + 0 from rfl, toss_shift]
        rfl) (by
        intro v hv
        rw [if_neg (by simpa [Fl.lt_fin, drOf] using hv), ← drOf_shift, show 0 + 1 = 1 + 0 from rfl, byScores_shift])
    convert this using 1
    · unfold winProb; ring
    · unfold winProb; ring
    · unfold drawProb; split <;> ring
    · ring
  · have hp : pairSetting kw.cointossRate kw.perAssetCointoss j = .ok none := by
      rw [h, h2]; rfl
    rw [hp]
    dsimp only
    convert hs using 1
    · unfold winProb; ring
    · unfold winProb; ring
    · unfold drawProb; split <;> ring

theorem runJob_law {kw : PcKw ℝ} {q c σ : ℝ} (hk : Simple kw q c σ) (hq0 : 0 ≤ q) (hq1 : q ≤ 1) (h0 : 0 ≤ c) (h1 : c ≤ 1)
    {j : Job κ ℝ} {x y : ℝ} (hx : j.x.score = .one (.fin x)) (hy : j.y.score = .one (.fin y)) {coin : Bool}
    (hcoin : coin = !(kw.tie == "even_split")) (fuel : ℕ)
    (hc : kw.type = "within_subject_within_content" → j.x.content = j.y.content) :
    Law j (fun v => runJob kw (drOf v) (fuel + 1) j 0) (winProb q c σ coin x y) (winProb q c σ coin y x)
      (drawProb q c σ coin x y) (1 - q) := by
  have ht := trial_law hk h0 h1 hx hy hcoin
  have hset : pairSetting kw.samplingRate kw.perAssetSampling j = .ok kw.samplingRate := by
    rcases hk.sampling with h | ⟨h, h2, rfl⟩
    · rw [h]; rfl
    · rw [h, h2]; rfl
  have hget : kw.samplingRate.getD 1 = .fin q := by
    rcases hk.sampling with h | ⟨h, h2, rfl⟩ <;> rw [h] <;> rfl
  have hrun : ∀ v, runJob kw (drOf v) (fuel + 1) j 0 = sample kw (drOf v) j (fuel + 1) (.fin q) 0 := by
    intro v
    unfold runJob
    rw [if_neg (by
      intro h
      rw [Bool.and_eq_true, decide_eq_true_eq, beq_iff_eq] at h
      exact h.2 (hc h.1)), hset]
    dsimp only
    rw [hget]
  simp only [hrun]
  rcases hq0.eq_or_lt with rfl | hpos
  · simp only [sample_zero kw _ j (fuel + 1) 0 (le_refl (0 : ℝ))]
    exact Law.const 0 [] (by intro Q; unfold winProb drawProb; simp)
  have hfirst : (0 : Fl ℝ).lt (.fin q) = true := by simpa [Fl.lt_fin, Fl.zero_def] using hpos
  rcases hq1.eq_or_lt with rfl | hlt
  · have : ∀ v, sample kw (drOf v) j (fuel + 1) (.fin 1) 0 = trial kw (drOf v) j 0 := by
      intro v
      unfold sample
      rw [if_pos hfirst]
      dsimp only
      rw [if_pos (by simp [Fl.le_fin, Fl.one_def])]
      cases htr : trial kw (drOf v) j 0 with
      | error e => rfl
      | ok r =>
        dsimp only
        rw [show (Fl.fin (1 : ℝ) - 1) = .fin 0 by rw [Fl.one_def, Fl.fin_sub, sub_self], sample_zero _ _ _ _ _ (le_refl _)]
        simp
    simp only [this]
    simpa using ht
  · have hcase : ∀ v, sample kw (drOf v) j (fuel + 1) (.fin q) 0 =
        if (v 0).1 ≤ q then trial kw (drOf v) j (0 + 1) else .ok (0 + 1, []) := by
      intro v
      unfold sample
      rw [if_pos hfirst]
      dsimp only
      rw [if_neg (by simpa [Fl.le_fin, Fl.one_def] using hlt)]
      by_cases hu : (v 0).1 ≤ q
      · rw [if_pos hu, if_neg (by simpa [Fl.lt_fin, drOf] using hu)]
      · rw [if_neg hu, if_pos (by simpa [Fl.lt_fin, drOf] using hu)]
    have := Law.mix (f := fun v => sample kw (drOf v) j (fuel + 1) (.fin q) 0) measurableSet_Iic (uniform_Iic hq0 hlt) ht
      (Law.const (j := j) 0 [] (a := 0) (b := 0) (t := 0) (e := 1) (by intro Q; ring)) (by
        intro v hv
        rw [hcase, if_pos (Set.mem_Iic.mp hv), ← drOf_shift, show 0 + 1 = 1 + 0 from rfl, trial_shift]) (by
        intro v hv
        rw [hcase, if_neg (fun h => hv (Set.mem_Iic.mpr h))]
        rfl)
    convert this using 1
    · unfold winProb; ring
    · unfold winProb; ring
    · unfold drawProb; split <;> ring
    · ring

/-- a pair outside the content restriction -/
theorem runJob_excluded {kw : PcKw ℝ} {j : Job κ ℝ} (fuel : ℕ) (ht : kw.type = "within_subject_within_content")
    (hc : j.x.content ≠ j.y.content) : Law j (fun v => runJob kw (drOf v) (fuel + 1) j 0) 0 0 0 1 := by
  have : ∀ v, runJob kw (drOf v) (fuel + 1) j 0 = .ok (0, []) := by
    intro v
    unfold runJob
    rw [if_pos (by simp [ht, hc])]
  simp only [this]
  exact Law.const 0 [] (by intro Q; ring)

/-! ### where in the stream a comparison starts -/

/-- the position after the comparisons `l` -/
noncomputable def endOf (kw : PcKw ℝ) (fuel : ℕ) : List (Job κ ℝ) → Draws ℝ → ℕ → ℕ
  | [], _, n => n
  | j :: l, dr, n =>
    match runJob kw dr fuel j n with
    | .ok (n', _) => endOf kw fuel l dr n'
    | .error _ => n

theorem endOf_shift (kw : PcKw ℝ) (fuel : ℕ) : ∀ (l : List (Job κ ℝ)) (dr : Draws ℝ) (k n : ℕ),
    endOf kw fuel l dr (k + n) = k + endOf kw fuel l (dr.shift k) n
  | [], dr, k, n => rfl
  | j :: l, dr, k, n => by
    unfold endOf
    rw [runJob_shift]
    cases runJob kw (dr.shift k) fuel j n with
    | error e => rfl
    | ok r => exact endOf_shift kw fuel l dr k r.1

/-- the draws after some comparisons have the law of the whole stream -/
theorem endOf_law (kw : PcKw ℝ) (fuel : ℕ) : ∀ (l : List (Job κ ℝ)),
    (∀ j ∈ l, ∃ a b t e, Law j (fun v => runJob kw (drOf v) fuel j 0) a b t e) →
    (∀ j ∈ l, ∀ dr n, ∃ r, runJob kw dr fuel j n = .ok r) → ∀ B : Set Str, MeasurableSet B →
    MeasurableSet {v | Stop.shift (endOf kw fuel l (drOf v) 0) v ∈ B} ∧
    strLaw {v | Stop.shift (endOf kw fuel l (drOf v) 0) v ∈ B} = strLaw B
  | [], _, _, B, hB => by
    have : {v : Str | Stop.shift (endOf kw fuel ([] : List (Job κ ℝ)) (drOf v) 0) v ∈ B} = B := by
      ext v
      have : Stop.shift 0 v = v := by funext k; simp [Stop.shift]
      simp [endOf, this]
    rw [this]
    exact ⟨hB, rfl⟩
  | j :: l, hl, hok, B, hB => by
    obtain ⟨a, b, t, e, hj⟩ := hl j (by simp)
    obtain ⟨hm, hp⟩ := endOf_law kw fuel l (fun j hj => hl j (by simp [hj])) (fun j hj => hok j (by simp [hj])) B hB
    let F : Str → ℕ := fun v => match runJob kw (drOf v) fuel j 0 with | .ok (n, _) => n | .error _ => 0
    have hF : Stop.Stopping F := by
      constructor
      · intro n
        exact hj.meas fun r => (match r with | .ok (n, _) => n | .error _ => 0) = n
      · intro n v v' hv h
        obtain ⟨⟨n', w⟩, hr⟩ := hok j (by simp) (drOf v) 0
        have hFv : F v = n' := by simp only [F, hr]
        have hn : n' = n := hFv.symm.trans h
        subst hn
        have hr' := (runJob_local (dr' := drOf v') hr (fun i hi => by
          simp only [drOf]
          rw [hv i hi]
          exact ⟨rfl, rfl⟩)).1
        change F v' = n'
        simp only [F, hr']
    have hset : {v | Stop.shift (endOf kw fuel (j :: l) (drOf v) 0) v ∈ B} =
        {v | Stop.shift (F v) v ∈ {v | Stop.shift (endOf kw fuel l (drOf v) 0) v ∈ B}} := by
      ext v
      obtain ⟨⟨n', w⟩, hr⟩ := hok j (by simp) (drOf v) 0
      have hFv : F v = n' := by simp only [F, hr]
      have : endOf kw fuel (j :: l) (drOf v) 0 = n' + endOf kw fuel l (drOf (Stop.shift n' v)) 0 := by
        rw [endOf, hr]
        dsimp only
        rw [← drOf_shift]
        exact endOf_shift kw fuel l (drOf v) n' 0
      simp only [Set.mem_ofPred_eq, this, hFv, Stop.shift_shift]
    rw [hset]
    exact ⟨Stop.measurable_stop hF hm, (Stop.law_stop drawLaw hF hm).trans hp⟩

/-- a comparison that starts wherever the ones before it ended has the law of one that starts at the beginning -/
theorem Law.after {kw : PcKw ℝ} {fuel : ℕ} {l : List (Job κ ℝ)}
    (hl : ∀ j ∈ l, ∃ a b t e, Law j (fun v => runJob kw (drOf v) fuel j 0) a b t e)
    (hok : ∀ j ∈ l, ∀ dr n, ∃ r, runJob kw dr fuel j n = .ok r) {j : Job κ ℝ} {a b t e : ℝ}
    (hj : Law j (fun v => runJob kw (drOf v) fuel j 0) a b t e) (Q : List (Write κ ℝ) → Prop) :
    MeasurableSet {v | ∃ n w, runJob kw (drOf v) fuel j (endOf kw fuel l (drOf v) 0) = .ok (n, w) ∧ Q w} ∧
    strLaw.real {v | ∃ n w, runJob kw (drOf v) fuel j (endOf kw fuel l (drOf v) 0) = .ok (n, w) ∧ Q w} =
      a * ind (Q [winX j]) + b * ind (Q [winY j]) + t * ind (Q (halves j)) + e * ind (Q []) := by
  have heq : {v | ∃ n w, runJob kw (drOf v) fuel j (endOf kw fuel l (drOf v) 0) = .ok (n, w) ∧ Q w} =
      {v | Stop.shift (endOf kw fuel l (drOf v) 0) v ∈ {v | ∃ n w, runJob kw (drOf v) fuel j 0 = .ok (n, w) ∧ Q w}} := by
    ext v
    simp only [Set.mem_ofPred_eq]
    rw [← bump_ok (k := endOf kw fuel l (drOf v) 0) (r := runJob kw (drOf (Stop.shift (endOf kw fuel l (drOf v) 0) v)) fuel j 0),
      ← drOf_shift, ← runJob_shift, add_zero]
  obtain ⟨h1, h2⟩ := endOf_law kw fuel l hl hok _ (hj.meas fun r => ∃ n w, r = .ok (n, w) ∧ Q w)
  rw [heq]
  refine ⟨h1, ?_⟩
  rw [← hj.prob Q, Measure.real, Measure.real, h2]

/-- the assignments of the comparisons of a list, those of one of them with its position -/
theorem runJobs_at {kw : PcKw ℝ} {dr : Draws ℝ} {fuel : ℕ} {j : Job κ ℝ} : ∀ {l1 l2 : List (Job κ ℝ)} {n : ℕ} {ws},
    (∀ j' ∈ l1, j' ≠ j) → (∀ j' ∈ l2, j' ≠ j) → runJobs kw dr fuel (l1 ++ j :: l2) n = .ok ws →
    ∃ wss, List.Forall₂ (fun j' w => Ran kw dr fuel j' w ∧ (j' = j → ∃ n', runJob kw dr fuel j (endOf kw fuel l1 dr n) = .ok (n', w)))
      (l1 ++ j :: l2) wss ∧ ws = wss.flatten
  | [], l2, n, ws, _, hl2, h => by
    rw [List.nil_append] at h ⊢
    unfold runJobs at h
    split at h
    · cases h
    · rename_i hj
      split at h
      · cases h
      · rename_i hl
        cases h
        obtain ⟨wss, hf, rfl⟩ := runJobs_split hl
        refine ⟨_ :: wss, .cons ⟨⟨_, _, hj⟩, fun _ => ⟨_, hj⟩⟩ ?_, rfl⟩
        clear hl
        induction hf with
        | nil => exact .nil
        | cons h1 _ ih =>
          exact .cons ⟨h1, fun e => absurd e (hl2 _ (by simp))⟩ (ih fun j' hj' => hl2 j' (by simp [hj']))
  | j1 :: l1, l2, n, ws, hl1, hl2, h => by
    rw [List.cons_append] at h ⊢
    unfold runJobs at h
    split at h
    · cases h
    · rename_i n' w hj
      split at h
      · cases h
      · rename_i hl
        cases h
        obtain ⟨wss, hf, rfl⟩ := runJobs_at (fun j' hj' => hl1 j' (by simp [hj'])) hl2 hl
        refine ⟨_ :: wss, .cons ⟨⟨_, _, hj⟩, fun e => absurd e (hl1 _ (by simp))⟩ ?_, rfl⟩
        rw [endOf, hj]
        exact hf

end Sureal.Pc
