import Verif.Model.Mos
import Verif.Spec.Options
import Verif.Lemmas.Corr
import Verif.Props.CorrRejection
/-!
# C23-C25: options, named models, final normalisation and transform
-/
set_option linter.unusedSectionVars false
namespace Sureal.Props
open Sureal Spec Np
variable {κ : Type} {K : Type} [Field K] [LinearOrder K] [IsStrictOrderedRing K] [MathFn K]

theorem isTrue_iff (f : Flag) : f.isTrue = true ↔ f = some (some true) := by
  rcases f with _ | _ | _ | _ <;> simp [Flag.isTrue]

theorem isFalse_iff (f : Flag) : f.isFalse = true ↔ f = none ∨ f = some (some false) := by
  rcases f with _ | _ | _ | _ <;> simp [Flag.isFalse]

theorem known_iff (ty : String) : ["kurtosis", "pearson", "spearman"].contains ty = true ↔
    ty = "kurtosis" ∨ ty = "pearson" ∨ ty = "spearman" := by simp

theorem checkOpts_conflict {o : Opts K} (h : Conflicting o) : checkOpts o = .error .assertion := by
  unfold checkOpts
  rcases h with ⟨hz, hb⟩ | ⟨ty, ht, hr⟩ | ⟨ty, ht, h1, h2, h3⟩
  · rw [(isTrue_iff _).mpr hz, (isTrue_iff _).mpr hb]
    cases o.subjectRejectionType <;> simp
  · rw [if_pos ((isFalse_iff _).mpr hr), ht]
  · rw [ht]
    by_cases hf : o.subjectRejection.isFalse = true
    · rw [if_pos hf]
    · rw [if_neg hf]
      have : ¬ (["kurtosis", "pearson", "spearman"].contains ty = true) := by rw [known_iff]; tauto
      simp only [Option.getD_some]
      rw [if_neg this]

/-- the rejection type used by default is `kurtosis` -/
theorem checkOpts_fine {o : Opts K} (h : ¬ Conflicting o) :
    ∃ ty, checkOpts o = .ok ty ∧ (o.subjectRejection.isTrue = true → ty = some (o.subjectRejectionType.getD "kurtosis") ∧
      (o.subjectRejectionType.getD "kurtosis" = "kurtosis" ∨ o.subjectRejectionType.getD "kurtosis" = "pearson" ∨
       o.subjectRejectionType.getD "kurtosis" = "spearman")) := by
  have hzb : (o.zscoreMode.isTrue && o.biasOffset.isTrue) = false := by
    by_contra hc
    rw [Bool.not_eq_false, Bool.and_eq_true, isTrue_iff, isTrue_iff] at hc
    exact h (.zscoreAndBias hc.1 hc.2)
  unfold checkOpts
  by_cases hf : o.subjectRejection.isFalse = true
  · rw [if_pos hf]
    cases ht : o.subjectRejectionType with
    | some ty => exact absurd (.typeWithoutRejection ty ht ((isFalse_iff _).mp hf)) h
    | none =>
      refine ⟨none, by simp [hzb], fun h1 => ?_⟩
      rw [isTrue_iff] at h1; rw [isFalse_iff, h1] at hf; simp at hf
  · rw [if_neg hf]
    have hk : o.subjectRejectionType.getD "kurtosis" = "kurtosis" ∨ o.subjectRejectionType.getD "kurtosis" = "pearson" ∨
       o.subjectRejectionType.getD "kurtosis" = "spearman" := by
      cases ht : o.subjectRejectionType with
      | none => simp
      | some ty =>
        by_contra hc
        simp only [Option.getD_some] at hc
        push Not at hc
        exact h (.unknownType ty ht hc.1 hc.2.1 hc.2.2)
    refine ⟨some (o.subjectRejectionType.getD "kurtosis"), ?_, fun _ => ⟨rfl, hk⟩⟩
    dsimp only
    rw [if_pos ((known_iff _).mpr hk), hzb]; rfl

theorem pearson_errors {E S R : ℕ} (sp : Bool) (a : Arr3 (Fl K) E S R) (s : Fin S) (e : PyErr)
    (h : observerCorr sp a s = .error e) : e = .value ∧ sp = false := by
  unfold observerCorr Stats.spearmanr Stats.pearsonr at h
  cases sp <;> simp only [if_true] at h
  · repeat' split at h
    all_goals first | cases h; exact ⟨rfl, rfl⟩ | cases h
  · repeat' split at h
    all_goals first | (cases h; done) | (rename_i h1; exact absurd (by simp) h1)

theorem mapPy_errors {α β : Type} {f : α → Py β} {l : List α} {e : PyErr} (h : mapPy f l = .error e) :
    ∃ x ∈ l, f x = .error e := by
  induction l with
  | nil => simp [mapPy] at h
  | cons x l ih =>
    unfold mapPy at h
    cases hx : f x with
    | error e' => rw [hx] at h; cases h; exact ⟨x, by simp, hx⟩
    | ok b =>
      rw [hx] at h
      cases hl : mapPy f l with
      | error e' => rw [hl] at h; cases h; obtain ⟨y, hy, h⟩ := ih hl; exact ⟨y, by simp [hy], h⟩
      | ok bs => rw [hl] at h; cases h

theorem corrReject_errors {E S R : ℕ} (sp : Bool) (a : Arr3 (Fl K) E S R) (e : PyErr)
    (h : corrReject sp a = .error e) : e = .value ∧ sp = false := by
  unfold corrReject at h
  cases hm : mapPy (observerCorr sp a) (List.finRange S) with
  | error e' =>
    rw [hm] at h; cases h
    obtain ⟨s, _, hs⟩ := mapPy_errors hm
    exact pearson_errors sp a s _ hs
  | ok r => rw [hm] at h; cases h

/-- `reader._get_list_observers()` gives a list, or an exception `run_modeling` swallows -/
def ObserversHarmless (rd : Reader κ K) : Prop :=
  (∃ l, rd.observers = .ok l) ∨ rd.observers = .error .assertion ∨ rd.observers = .error .attribute

theorem runModeling_ok {rd : Reader κ K} (hob : ObserversHarmless rd) (run : Reader κ K → Opts K → Py (Result κ K)) (o : Opts K) :
    (∀ res, run rd o = .ok res → ∃ res', runModeling run rd o = .ok res' ∧ res'.qualityScores = postprocessScores o res.qualityScores) ∧
    (∀ e, run rd o = .error e → runModeling run rd o = .error e) := by
  unfold runModeling
  constructor
  · intro res h
    rw [h]
    rcases hob with ⟨l, hl⟩ | hl | hl <;> rw [hl] <;> exact ⟨_, rfl, rfl⟩
  · intro e h
    rw [h]

theorem mosRun_eq (rd : Reader κ K) (o : Opts K) :
    (∀ p, preprocess rd o = .ok p → ∃ res, mosRunModeling rd o = .ok res) ∧
    (∀ e, preprocess rd o = .error e → mosRunModeling rd o = .error e) := by
  unfold mosRunModeling
  exact ⟨fun p h => ⟨_, by rw [h]⟩, fun e h => by rw [h]⟩

theorem runMOS_prep {rd : Reader κ K} (hob : ObserversHarmless rd) (o : Opts K) :
    (∀ p, preprocess rd o = .ok p → ∃ res, runMOS rd o = .ok res) ∧
    (∀ e, preprocess rd o = .error e → runMOS rd o = .error e) := by
  constructor
  · intro p h
    obtain ⟨r, hr⟩ := (mosRun_eq rd o).1 p h
    obtain ⟨r', h', _⟩ := (runModeling_ok hob mosRunModeling o).1 r hr
    exact ⟨r', h'⟩
  · intro e h
    exact (runModeling_ok hob mosRunModeling o).2 e ((mosRun_eq rd o).2 e h)

/-- preprocessing with allowed options: what can still go wrong -/
theorem preprocess_fine {rd : Reader κ K} {a : Arr3D (Fl K)} (ha : rd.scores = .ok a) {o : Opts K} (h : ¬ Conflicting o) :
    (∀ e, o.dscoreMode = some (some true) → dscoreStep rd a = .error e → preprocess rd o = .error e) ∧
    ((o.dscoreMode = some (some true) → ∃ b, dscoreStep rd a = .ok b) →
      (∃ p, preprocess rd o = .ok p) ∨
      (preprocess rd o = .error .value ∧ o.subjectRejection = some (some true) ∧ o.subjectRejectionType = some "pearson")) := by
  obtain ⟨ty, hty, hr⟩ := checkOpts_fine h
  unfold preprocess
  rw [ha, hty]
  constructor
  · intro e hd he
    simp only [(isTrue_iff _).mpr hd, if_true, he]
  · intro hd
    have hstep : ∃ b, (if o.dscoreMode.isTrue then dscoreStep rd a else Except.ok a) = .ok b := by
      by_cases hdt : o.dscoreMode.isTrue = true
      · rw [if_pos hdt]; exact hd ((isTrue_iff _).mp hdt)
      · rw [if_neg hdt]; exact ⟨a, rfl⟩
    obtain ⟨b, hb⟩ := hstep
    simp only [hb]
    generalize (if o.biasOffset.isTrue = true then _ else _ : Arr3D (Fl K)) = a3
    unfold rejectStep
    by_cases hrt : o.subjectRejection.isTrue = true
    · obtain ⟨h1, h2⟩ := hr hrt
      rw [if_pos hrt, h1]
      rcases h2 with h2 | h2 | h2 <;> rw [h2]
      · exact Or.inl ⟨_, rfl⟩
      · rw [if_neg (by decide), if_pos (by decide)]
        cases hc : corrReject (decide (some "pearson" = some "spearman")) a3.get with
        | ok br => exact Or.inl ⟨_, rfl⟩
        | error e =>
          right
          obtain ⟨rfl, _⟩ := corrReject_errors _ _ _ hc
          refine ⟨rfl, (isTrue_iff _).mp hrt, ?_⟩
          cases ht : o.subjectRejectionType with
          | none => rw [ht] at h2; simp at h2
          | some t => rw [ht] at h2; simpa using h2
      · rw [if_neg (by decide), if_pos (by decide)]
        cases hc : corrReject (decide (some "spearman" = some "spearman")) a3.get with
        | ok br => exact Or.inl ⟨_, rfl⟩
        | error e =>
          obtain ⟨_, h3⟩ := corrReject_errors _ _ _ hc
          simp at h3
    · rw [if_neg hrt]; exact Or.inl ⟨_, rfl⟩

/-- **C23** (options of `MosModel`).  For a reader whose opinion scores can be read: conflicting options make
`run_modeling` raise AssertionError.  Any other combination never is refused: with differential scoring switched
on, the run fails with the error differential scoring alone fails with (no usable reference, see C11, C12), if
any; otherwise it succeeds, except that with the Pearson rule a ValueError of `scipy.stats.pearsonr` (observer
with fewer than two rated videos) can surface. -/
theorem C23_conflicts_refused (rd : Reader κ K) (a : Arr3D (Fl K)) (ha : rd.scores = .ok a) (hob : ObserversHarmless rd)
    (o : Opts K) :
    (Conflicting o → runMOS rd o = .error .assertion) ∧
    (¬ Conflicting o →
      (∀ e, o.dscoreMode = some (some true) → runMOS rd { dscoreMode := yes } = .error e → runMOS rd o = .error e) ∧
      ((o.dscoreMode = some (some true) → ∃ r, runMOS rd { dscoreMode := yes } = .ok r) →
        (∃ res, runMOS rd o = .ok res) ∨
        (runMOS rd o = .error .value ∧ o.subjectRejection = some (some true) ∧ o.subjectRejectionType = some "pearson"))) := by
  have hds : ∀ b, dscoreStep rd a = .ok b → ∃ r, runMOS rd { dscoreMode := yes } = .ok r := by
    intro b hb
    apply (runMOS_prep hob _).1 ⟨b, a, none, none⟩
    rw [preprocess_dscore ha, hb]
  have hde : ∀ e, dscoreStep rd a = .error e → runMOS rd { dscoreMode := yes } = .error e := by
    intro e hb
    apply (runMOS_prep hob _).2
    rw [preprocess_dscore ha, hb]
  constructor
  · intro h
    apply (runMOS_prep hob _).2
    unfold preprocess
    rw [ha, checkOpts_conflict h]
  · intro h
    obtain ⟨h1, h2⟩ := preprocess_fine ha h
    constructor
    · intro e hd he
      apply (runMOS_prep hob _).2
      apply h1 e hd
      cases hb : dscoreStep rd a with
      | ok b => obtain ⟨r, hr⟩ := hds b hb; rw [hr] at he; cases he
      | error e' => rw [hde e' hb] at he; cases he; rfl
    · intro hd
      have : o.dscoreMode = some (some true) → ∃ b, dscoreStep rd a = .ok b := by
        intro hdt
        obtain ⟨r, hr⟩ := hd hdt
        cases hb : dscoreStep rd a with
        | ok b => exact ⟨b, rfl⟩
        | error e' => rw [hde e' hb] at hr; cases hr
      rcases h2 this with ⟨p, hp⟩ | ⟨hp, h3⟩
      · exact Or.inl ((runMOS_prep hob _).1 p hp)
      · exact Or.inr ⟨(runMOS_prep hob _).2 _ hp, h3⟩

/-- the quality scores of a run, or its exception -/
def scoresOf (r : Py (Result κ K)) : Py (List (Fl K)) :=
  match r with
  | .error e => .error e
  | .ok res => .ok res.qualityScores

/-- **C23** (models that already apply an option).  Passing as `True` an option a model already applies raises
AssertionError, whatever the reader and the other options. -/
theorem C23_repeats_refused (rd : Reader κ K) (o : Opts K) :
    (o.dscoreMode = some (some true) → runDMOS rd o = .error .assertion ∧ runSR_DMOS rd o = .error .assertion ∧
      runZS_SR_DMOS rd o = .error .assertion ∧ runLIVE_DMOS rd o = .error .assertion) ∧
    (o.zscoreMode = some (some true) → runZS_MOS rd o = .error .assertion ∧ runZS_SR_MOS rd o = .error .assertion ∧
      runZS_SR_DMOS rd o = .error .assertion ∧ runLIVE_DMOS rd o = .error .assertion) ∧
    (o.subjectRejection = some (some true) → runSR_MOS rd o = .error .assertion ∧
      runSR_MOS_PCC rd o = .error .assertion ∧ runSR_MOS_SRCC rd o = .error .assertion ∧
      runZS_SR_MOS rd o = .error .assertion ∧ runSR_DMOS rd o = .error .assertion ∧
      runZS_SR_DMOS rd o = .error .assertion ∧ runBR_SR_MOS rd o = .error .assertion ∧
      runBR_SR_MOS_PCC rd o = .error .assertion ∧ runBR_SR_MOS_SRCC rd o = .error .assertion) ∧
    (o.biasOffset = some (some true) → runBR_MOS rd o = .error .assertion ∧ runBR_SR_MOS rd o = .error .assertion ∧
      runBR_SR_MOS_PCC rd o = .error .assertion ∧ runBR_SR_MOS_SRCC rd o = .error .assertion) := by
  refine ⟨fun h => ?_, fun h => ?_, fun h => ?_, fun h => ?_⟩
  all_goals
    have ht := (isTrue_iff _).mpr h
    simp only [runDMOS, runSR_DMOS, runZS_SR_DMOS, runLIVE_DMOS, runZS_MOS, runZS_SR_MOS, runSR_MOS, runSR_MOS_PCC,
      runSR_MOS_SRCC, runBR_SR_MOS, runBR_SR_MOS_PCC, runBR_SR_MOS_SRCC, runBR_MOS, runModeling, liveDmosRunModeling,
      ht, if_true, ite_self, and_self]

theorem preprocess_bias_some {rd : Reader κ K} {o : Opts K} {p : Prep K} (hb : o.biasOffset.isTrue = true)
    (h : preprocess rd o = .ok p) : ∃ b, p.bias = some b := by
  unfold preprocess at h
  simp only [hb, if_true] at h
  repeat' split at h
  all_goals first | cases h; exact ⟨_, rfl⟩ | cases h

theorem scores_bias {rd : Reader κ K} {o : Opts K} (hb : o.biasOffset.isTrue = true) :
    scoresOf (runModeling biasremvRunModeling rd o) = scoresOf (runMOS rd o) := by
  unfold runMOS runModeling biasremvRunModeling mosRunModeling
  cases h : preprocess rd o with
  | error e => rfl
  | ok p =>
    obtain ⟨b, hpb⟩ := preprocess_bias_some hb h
    dsimp only
    rw [hpb]
    dsimp only
    cases p.rejection <;> cases rd.observers with
    | ok l => rfl
    | error e => cases e <;> rfl

/-- **C24**.  When the caller does not repeat an option, each named model computes the quality scores of
`MosModel` with the options of its name added, on every reader and for every setting of the other options
(`BT500Model` is `SR_MOS`, `P913124Model` is `BR_SR_MOS`); apart from the bias removal models, the whole result is
the same. -/
theorem C24_named_models (rd : Reader κ K) (o : Opts K) :
    (o.dscoreMode ≠ some (some true) → runDMOS rd o = runMOS rd { o with dscoreMode := yes }) ∧
    (o.zscoreMode ≠ some (some true) → runZS_MOS rd o = runMOS rd { o with zscoreMode := yes }) ∧
    (o.subjectRejection ≠ some (some true) →
      runSR_MOS rd o = runMOS rd { o with subjectRejection := yes } ∧
      runSR_MOS_PCC rd o = runMOS rd { o with subjectRejection := yes, subjectRejectionType := some "pearson" } ∧
      runSR_MOS_SRCC rd o = runMOS rd { o with subjectRejection := yes, subjectRejectionType := some "spearman" }) ∧
    (o.zscoreMode ≠ some (some true) → o.subjectRejection ≠ some (some true) →
      runZS_SR_MOS rd o = runMOS rd { o with zscoreMode := yes, subjectRejection := yes }) ∧
    (o.dscoreMode ≠ some (some true) → o.subjectRejection ≠ some (some true) →
      runSR_DMOS rd o = runMOS rd { o with dscoreMode := yes, subjectRejection := yes }) ∧
    (o.dscoreMode ≠ some (some true) → o.zscoreMode ≠ some (some true) → o.subjectRejection ≠ some (some true) →
      runZS_SR_DMOS rd o = runMOS rd { o with dscoreMode := yes, zscoreMode := yes, subjectRejection := yes }) ∧
    (o.biasOffset ≠ some (some true) →
      scoresOf (runBR_MOS rd o) = scoresOf (runMOS rd { o with biasOffset := yes })) ∧
    (o.biasOffset ≠ some (some true) → o.subjectRejection ≠ some (some true) →
      scoresOf (runBR_SR_MOS rd o) = scoresOf (runMOS rd { o with biasOffset := yes, subjectRejection := yes }) ∧
      scoresOf (runBR_SR_MOS_PCC rd o) = scoresOf (runMOS rd { o with
        biasOffset := yes, subjectRejection := yes, subjectRejectionType := some "pearson" }) ∧
      scoresOf (runBR_SR_MOS_SRCC rd o) = scoresOf (runMOS rd { o with
        biasOffset := yes, subjectRejection := yes, subjectRejectionType := some "spearman" })) := by
  have hfl : ∀ f : Flag, f ≠ some (some true) → f.isTrue = false := by
    intro f hf; rw [Bool.eq_false_iff, ne_eq, isTrue_iff]; exact hf
  refine ⟨fun h => ?_, fun h => ?_, fun h => ⟨?_, ?_, ?_⟩, fun h h1 => ?_, fun h h1 => ?_, fun h h1 h2 => ?_, fun h => ?_,
    fun h h1 => ⟨?_, ?_, ?_⟩⟩
  · simp [runDMOS, runMOS, hfl _ h]
  · simp [runZS_MOS, runMOS, hfl _ h]
  · simp [runSR_MOS, runMOS, hfl _ h]
  · simp [runSR_MOS_PCC, runMOS, hfl _ h]
  · simp [runSR_MOS_SRCC, runMOS, hfl _ h]
  · simp [runZS_SR_MOS, runMOS, hfl _ h, hfl _ h1]
  · simp [runSR_DMOS, runMOS, hfl _ h, hfl _ h1]
  · simp [runZS_SR_DMOS, runMOS, hfl _ h, hfl _ h1, hfl _ h2]
  · unfold runBR_MOS
    rw [if_neg (by simp [hfl _ h])]
    exact scores_bias rfl
  · unfold runBR_SR_MOS
    rw [if_neg (by simp [hfl _ h]), if_neg (by simp [hfl _ h1])]
    exact scores_bias rfl
  · unfold runBR_SR_MOS_PCC runBR_MOS
    rw [if_neg (by simp [hfl _ h]), if_neg (by simp [hfl _ h1]), if_neg (by simp [hfl _ h])]
    exact scores_bias rfl
  · unfold runBR_SR_MOS_SRCC runBR_MOS
    rw [if_neg (by simp [hfl _ h]), if_neg (by simp [hfl _ h1]), if_neg (by simp [hfl _ h])]
    exact scores_bias rfl

/-! ## C25 -/

/-- `o` without final normalisation and transform -/
def plain (o : Opts K) : Opts K := { o with normalizeFinal := none, transformFinal := none }

/-- a `_run_modeling` that does not look at the options of the final step -/
def IgnoresFinal (run : Reader κ K → Opts K → Py (Result κ K)) : Prop := ∀ rd o, run rd o = run rd (plain o)

theorem mos_ignores : IgnoresFinal (mosRunModeling (κ := κ) (K := K)) := fun _ _ => rfl
theorem bias_ignores : IgnoresFinal (biasremvRunModeling (κ := κ) (K := K)) := fun _ _ => rfl
theorem live_ignores : IgnoresFinal (liveDmosRunModeling (κ := κ) (K := K)) := fun _ _ => rfl

theorem popVar_pos_of_ne {q : List K} {x y : K} (hx : x ∈ q) (hy : y ∈ q) (hne : x ≠ y) : 0 < popVar q := by
  have hq : q ≠ [] := List.ne_nil_of_mem hx
  rcases (popVar_nonneg q).lt_or_eq with h | h
  · exact h
  · exfalso
    have h0 : sqDev q = 0 := by
      have := h.symm
      unfold popVar at this
      rcases div_eq_zero_iff.mp this with h1 | h1
      · exact h1
      · exact absurd h1 (length_ne_zero hq)
    have hz : ∀ z ∈ q, z = Spec.mean q := by
      intro z hz
      by_contra hc
      have hp : 0 < (z - Spec.mean q) ^ 2 := by
        have : z - Spec.mean q ≠ 0 := sub_ne_zero.mpr hc
        positivity
      have hle : (z - Spec.mean q) ^ 2 ≤ sqDev q := by
        unfold sqDev
        apply List.single_le_sum
        · intro w hw
          obtain ⟨v, _, rfl⟩ := List.mem_map.mp hw
          positivity
        · exact List.mem_map.mpr ⟨z, hz, rfl⟩
      rw [h0] at hle
      exact absurd hp (not_lt.mpr hle)
    exact hne ((hz x hx).trans (hz y hy).symm)

theorem normalised (q : List ℝ) (h : 0 < popVar q) (hq : q ≠ []) :
    Spec.mean (q.map fun x => (x - Spec.mean q) / Real.sqrt (popVar q)) = 0 ∧
    popVar (q.map fun x => (x - Spec.mean q) / Real.sqrt (popVar q)) = 1 := by
  have hn := length_ne_zero hq
  have hsum : ∀ (c : ℝ) (l : List ℝ), (l.map fun x => x - c).sum = l.sum - l.length * c := by
    intro c l
    induction l with
    | nil => simp
    | cons x l ih => simp only [List.map_cons, List.sum_cons, ih, List.length_cons]; push_cast; ring
  have hm : Spec.mean (q.map fun x => (x - Spec.mean q) / Real.sqrt (popVar q)) = 0 := by
    rw [Spec.mean]
    simp only [div_eq_mul_inv (_ - _)]
    rw [List.sum_map_mul_right, hsum]
    have : q.sum - q.length * Spec.mean q = 0 := by unfold Spec.mean; field_simp; ring
    rw [this]; simp
  refine ⟨hm, ?_⟩
  have hv : sqDev q = popVar q * q.length := by unfold popVar; field_simp
  rw [popVar, sqDev, hm, List.map_map, List.length_map]
  have : ((fun x : ℝ => (x - 0) ^ 2) ∘ fun x => (x - Spec.mean q) / Real.sqrt (popVar q))
      = fun x => (x - Spec.mean q) ^ 2 * (popVar q)⁻¹ := by
    funext x
    simp only [Function.comp, sub_zero, div_pow]
    rw [Real.sq_sqrt h.le]; rfl
  have h2 : (q.map fun x => (x - Spec.mean q) ^ 2 * (popVar q)⁻¹).sum = sqDev q * (popVar q)⁻¹ := by
    rw [List.sum_map_mul_right]; rfl
  rw [this, h2, hv]
  field_simp

/-- **C25**.  Take any model whose core does not look at the final options (true of all of them, see
`mos_ignores`, ...), any reader and options, and suppose the plain run succeeds with numbers `q` as quality scores.
Then the run with the final options succeeds, differs from the plain one in the quality scores only, and these
come from `q` in two steps: a list `z`, equal to `q` without `normalize_final`, and otherwise (if the scores are
not all equal) of mean 0, population variance 1 and in the same order; then the polynomial of
`transform_final`, if given. -/
theorem C25_final_scores (run : Reader κ ℝ → Opts ℝ → Py (Result κ ℝ)) (hrun : IgnoresFinal run)
    (rd : Reader κ ℝ) (o : Opts ℝ) (r0 : Result κ ℝ) (q : List ℝ)
    (h0 : runModeling run rd (plain o) = .ok r0) (hq : r0.qualityScores = q.map .fin)
    (hne : o.normalizeFinal = none ∨ o.normalizeFinal = some (some false) ∨ ∃ x ∈ q, ∃ y ∈ q, x ≠ y) :
    ∃ res z, runModeling run rd o = .ok res ∧
      res = { r0 with qualityScores := res.qualityScores } ∧
      z.length = q.length ∧
      (o.normalizeFinal = none ∨ o.normalizeFinal = some (some false) → z = q) ∧
      (¬ (o.normalizeFinal = none ∨ o.normalizeFinal = some (some false)) →
        Spec.mean z = 0 ∧ popVar z = 1 ∧
        ∀ (i j : ℕ) (x y z1 z2 : ℝ), q[i]? = some x → q[j]? = some y → z[i]? = some z1 → z[j]? = some z2 → (z1 < z2 ↔ x < y)) ∧
      (o.transformFinal = none → res.qualityScores = z.map .fin) ∧
      (∀ p2 p1 p0, o.transformFinal = some ⟨p2.map .fin, p1.map .fin, p0.map .fin⟩ →
        res.qualityScores = z.map fun x => .fin (quadratic p2 p1 p0 x)) := by
  have hpost : ∀ l : List (Fl ℝ), postprocessScores (plain o) l = l := fun l => rfl
  have hres : ∃ res, runModeling run rd o = .ok res ∧ res = { r0 with qualityScores := postprocessScores o r0.qualityScores } := by
    unfold runModeling at h0 ⊢
    rw [hrun rd o]
    cases hr : run rd (plain o) with
    | error e => rw [hr] at h0; cases h0
    | ok r =>
      rw [hr] at h0
      simp only [hpost] at h0
      cases hob : rd.observers with
      | ok l => rw [hob] at h0; cases h0; exact ⟨_, rfl, rfl⟩
      | error e => rw [hob] at h0; cases e <;> first | cases h0; exact ⟨_, rfl, rfl⟩ | cases h0
  obtain ⟨res, hr, he⟩ := hres
  have hqs : res.qualityScores = postprocessScores o (q.map .fin) := by rw [he, ← hq]
  -- the normalised list
  have hz : ∃ z : List ℝ, (if o.normalizeFinal.isFalse then q.map Fl.fin
        else (q.map Fl.fin).map fun x => (x - Np.mean (q.map Fl.fin)) / Np.std (q.map Fl.fin)) = z.map Fl.fin ∧
      z.length = q.length ∧
      (o.normalizeFinal = none ∨ o.normalizeFinal = some (some false) → z = q) ∧
      (¬ (o.normalizeFinal = none ∨ o.normalizeFinal = some (some false)) →
        Spec.mean z = 0 ∧ popVar z = 1 ∧
        ∀ (i j : ℕ) (x y z1 z2 : ℝ), q[i]? = some x → q[j]? = some y → z[i]? = some z1 → z[j]? = some z2 → (z1 < z2 ↔ x < y)) := by
    by_cases hf : o.normalizeFinal.isFalse = true
    · refine ⟨q, by rw [if_pos hf], rfl, fun _ => rfl, fun h => absurd ((isFalse_iff _).mp hf) h⟩
    · rw [isFalse_iff] at hf
      obtain ⟨x, hx, y, hy, hxy⟩ : ∃ x ∈ q, ∃ y ∈ q, x ≠ y := by tauto
      have hv := popVar_pos_of_ne hx hy hxy
      have hqn : q ≠ [] := List.ne_nil_of_mem hx
      have hs : 0 < Real.sqrt (popVar q) := Real.sqrt_pos.mpr hv
      refine ⟨q.map fun x => (x - Spec.mean q) / Real.sqrt (popVar q), ?_, by simp, fun h => absurd h hf, fun _ => ?_⟩
      · rw [if_neg (by rw [isFalse_iff]; exact hf), List.map_map, List.map_map]
        apply List.map_congr_left
        intro v _
        have hstd : Np.std (q.map Fl.fin) = .fin (Real.sqrt (popVar q)) := by
          unfold Np.std
          rw [var_map_fin hqn, Fl.sqrt_fin (popVar_nonneg q)]; rfl
        simp only [Function.comp, hstd, mean_map_fin hqn, Fl.fin_sub]
        rw [Fl.fin_div hs.ne']
      · obtain ⟨h1, h2⟩ := normalised q hv hqn
        refine ⟨h1, h2, ?_⟩
        intro i j x y z1 z2 hi hj hzi hzj
        rw [List.getElem?_map, hi] at hzi
        rw [List.getElem?_map, hj] at hzj
        simp only [Option.map_some, Option.some.injEq] at hzi hzj
        rw [← hzi, ← hzj, div_lt_div_iff_of_pos_right hs]
        simp
  obtain ⟨z, hz1, hz2, hz3, hz4⟩ := hz
  refine ⟨res, z, hr, by rw [he], hz2, hz3, hz4, ?_, ?_⟩
  · intro ht
    rw [hqs]
    unfold postprocessScores
    simp only [ht, hz1]
  · intro p2 p1 p0 ht
    rw [hqs]
    unfold postprocessScores
    simp only [ht, hz1]
    rw [List.map_map]
    apply List.map_congr_left
    intro v _
    simp only [Function.comp]
    unfold quadratic
    cases p2 <;> cases p1 <;> cases p0 <;> simp [Fl.zero_def] <;> ring

/-- the hypotheses can be met: the two videos of `exArr` have different MOS -/
example : ∃ (r0 : Result String ℝ) (q : List ℝ), runModeling mosRunModeling (arrReader 2 2 1 exArr) (plain ({ normalizeFinal := yes } : Opts ℝ)) = .ok r0 ∧
    r0.qualityScores = q.map Fl.fin ∧ ∃ x ∈ q, ∃ y ∈ q, x ≠ y := by
  obtain ⟨r, hr⟩ := arrReader_runs 2 2 1 exArr
  refine ⟨r, [2, 4], hr, ?_, 2, by simp, 4, by simp, by norm_num⟩
  have hq : r.qualityScores = List.ofFn (meanAlongS exArr) := by
    have := runModeling_mos (preprocess_default (rd := arrReader 2 2 1 exArr) rfl) hr
    rw [this]; rfl
  rw [hq]
  have h0 := meanAlongS_spec exArr 0 (exArr_clean 0)
  have h1 := meanAlongS_spec exArr 1 (exArr_clean 1)
  rw [List.ofFn_succ, List.ofFn_succ, List.ofFn_zero]
  show [meanAlongS exArr 0, meanAlongS exArr 1] = _
  rw [h0, h1]
  simp [meanOrNan, videoCells, present, exArr, List.ofFn_succ, Spec.mean, Fl.val?, List.filterMap_cons]
  norm_num

end Sureal.Props

namespace Sureal.Props
open Sureal Spec
/-- both sides of C23 occur -/
example : Conflicting ({ zscoreMode := yes, biasOffset := yes } : Opts ℝ) ∧
    ¬ Conflicting ({ zscoreMode := yes, subjectRejection := yes, subjectRejectionType := some "spearman" } : Opts ℝ) := by
  refine ⟨.zscoreAndBias rfl rfl, ?_⟩
  rintro (⟨h1, h2⟩ | ⟨ty, h1, h2⟩ | ⟨ty, h1, h2, h3, h4⟩)
  · cases h2
  · simp [yes] at h2
  · simp only [Option.some.injEq] at h1; exact h4 h1.symm
example : ObserversHarmless (arrReader 2 2 1 exArr) := Or.inl ⟨_, rfl⟩
end Sureal.Props
