import Verif.Lemmas.Mle
import Verif.Props.Ls
import Verif.Props.Dscore
/-!
# C36: modes, signs, centring and iteration count of the MLE models
-/
set_option linter.unusedSectionVars false
namespace Sureal.Props
open Sureal Spec
variable {κ K : Type} [Field K] [LinearOrder K] [IsStrictOrderedRing K] [MathFn K]

/-- NaN, or at least 0 -/
def NanOrNonneg (x : Fl K) : Prop := x = .nan ∨ Fl.le 0 x = true

theorem maximum_zero_nonneg (x : Fl K) : NanOrNonneg (Fl.maximum x 0) := by
  cases x with
  | nan => left; simp
  | pinf => right; rfl
  | ninf => right; simp [Fl.maximum, Fl.isNan, Fl.le, Fl.zero_def]
  | fin a =>
    right
    rw [Fl.zero_def, Fl.maximum_fin, Fl.le_fin]
    simp

theorem zero_nonneg : NanOrNonneg (0 : Fl K) := by
  right; rw [Fl.zero_def, Fl.le_fin]; simp

theorem step_v_nonneg {E S R C : ℕ} (mode : Mle.Mode) (u : Mle.Updates K E S R C) (d : Mle.Data K E S R C)
    (p : Mle.Params K E S C) : (∀ s, NanOrNonneg ((Mle.step mode u d p).1.v s)) ∧ (∀ c, NanOrNonneg ((Mle.step mode u d p).1.a c)) := by
  unfold Mle.step
  dsimp only
  constructor <;> intro i <;> split
  · exact zero_nonneg
  · exact maximum_zero_nonneg _
  · exact zero_nonneg
  · exact maximum_zero_nonneg _

theorem centre_va {E S C : ℕ} (force : Bool) (p : Mle.Params K E S C) :
    (Mle.centre force p).v = p.v ∧ (Mle.centre force p).a = p.a := by
  unfold Mle.centre; split <;> exact ⟨rfl, rfl⟩

theorem fl_add_zero (x : Fl K) : x + 0 = x := by
  cases x <;> first | rfl | (rw [Fl.zero_def, Fl.fin_add, add_zero])

/-- **C36.** Every completed run of an MLE model, whatever the data, gradient method, density and threshold:
inconsistencies and ambiguities are never negative; the iteration count is between 1 and 10000; a content-oblivious
run reports no content ambiguity, but observer bias and inconsistency; a subject-oblivious run reports no bias and no
inconsistency, and its reconstruction of every vote is the quality score of the video. -/
theorem C36_invariants (mode : Mle.Mode) (rd : Reader κ K) (o : Mle.Opts K) (res : Result κ K)
    (h : Mle.run mode rd o = .ok res) :
    (∃ n, res.numIter = some n ∧ 1 ≤ n ∧ n ≤ 10000) ∧
    (∀ l, res.observerInconsistency = some l → ∀ v ∈ l, NanOrNonneg v) ∧
    (∀ l, res.contentAmbiguity = some l → ∀ a ∈ l, NanOrNonneg a) ∧
    (res.contentAmbiguity = none ↔ mode = .contentOblivious) ∧
    (res.observerInconsistency = none ↔ mode = .subjectOblivious) ∧
    (res.observerBias = none ↔ mode = .subjectOblivious) ∧
    (mode = .subjectOblivious → o.base.normalizeFinal = none → o.base.transformFinal = none →
      ∀ a, res.rawScores = some a → ∃ q : Fin a.E → Fl K, res.qualityScores = List.ofFn q ∧
        res.reconstructions = some ⟨a.E, a.S, a.R, fun e _ _ => q e⟩) := by
  obtain ⟨p, C, m, mos, cid, f, dens, obs, ⟨_, _, _, _, _, _, hf, _, _⟩, hres⟩ := Mle.run_inv h
  obtain ⟨u, hu, hl⟩ := Mle.fitArr_inv hf
  obtain ⟨⟨q, hq, hstd⟩, hi1, hi2⟩ := Mle.loop_out _ 0 rfl (by unfold Mle.maxItr; omega) _ hl
  obtain ⟨hv, ha⟩ := step_v_nonneg mode u ⟨p.arr.get, cid⟩ q
  have hcv := centre_va (Ap.forced o.base) f.p
  rw [hres]
  unfold Mle.result
  dsimp only
  refine ⟨⟨f.itr, rfl, hi1, hi2⟩, ?_, ?_, ?_, ?_, ?_, ?_⟩
  · intro l hl
    split at hl
    · cases hl
    · cases hl
      intro v hv'
      rw [hcv.1, hq, List.mem_ofFn] at hv'
      obtain ⟨s, rfl⟩ := hv'
      exact hv s
  · intro l hl
    split at hl
    · cases hl
    · cases hl
      intro v hv'
      rw [hcv.2, hq, List.mem_ofFn] at hv'
      obtain ⟨s, rfl⟩ := hv'
      exact ha s
  · split <;> simp_all
  · split <;> simp_all
  · split <;> simp_all
  · intro hmode hn ht a ha'
    cases ha'
    refine ⟨(Mle.centre (Ap.forced o.base) f.p).x, ?_, ?_⟩
    · unfold postprocessScores
      rw [hn, ht]; rfl
    · congr 2
      funext e s r
      have hb : ∀ s, f.p.b s = 0 := by
        intro s
        rw [hq, hmode]
        unfold Mle.step
        simp
      have hc : (Mle.centre (Ap.forced o.base) f.p).b s = 0 := by
        unfold Mle.centre
        split
        · show f.p.b s - Np.mean (List.ofFn f.p.b) = 0
          have : List.ofFn f.p.b = (List.replicate p.arr.S (0 : K)).map Fl.fin := by
            rw [List.map_replicate, show f.p.b = fun _ => Fl.fin 0 from funext hb, List.ofFn_const]
          rw [this, Np.mean_map_fin (by
            have := s.isLt
            intro h0
            have := congrArg List.length h0
            rw [List.length_replicate] at this
            simp at this
            omega), hb]
          unfold Spec.mean
          simp [Fl.zero_def]
        · exact hb s
      rw [hc, fl_add_zero]

theorem sub_fin {x y : Fl K} {c : K} (h : x - y = .fin c) : ∃ a b, x = .fin a ∧ y = .fin b := by
  cases x <;> cases y <;> first | exact ⟨_, _, rfl, rfl⟩ | (exfalso; revert h; intro h; cases h)

/-- numbers from which their mean has been subtracted add up to 0 -/
theorem centred_sum {n : ℕ} (b : Arr1 (Fl K) n) (c : List K)
    (h : (List.ofFn fun i => b i - Np.mean (List.ofFn b)) = c.map .fin) : c.sum = 0 := by
  have hlen : n = c.length := by simpa using congrArg List.length h
  subst hlen
  have hi : ∀ i : Fin c.length, b i - Np.mean (List.ofFn b) = .fin (c.get i) := by
    intro i
    have := congrArg (fun l => l[i.val]?) h
    simpa using this
  rcases Nat.eq_zero_or_pos c.length with h0 | h0
  · rw [List.length_eq_zero_iff] at h0; rw [h0]; rfl
  have hb : ∀ i, ∃ a, b i = .fin a := fun i => by obtain ⟨a, _, h1, _⟩ := sub_fin (hi i); exact ⟨a, h1⟩
  choose a ha using hb
  have hl : List.ofFn b = (List.ofFn a).map Fl.fin := by rw [List.map_ofFn]; congr 1; funext i; exact ha i
  have hne : List.ofFn a ≠ [] := by
    intro h1
    have := congrArg List.length h1
    rw [List.length_ofFn] at this
    simp only [List.length_nil] at this
    omega
  rw [hl, Np.mean_map_fin hne] at hi
  have hc : c = List.ofFn fun i => a i - mean (List.ofFn a) := by
    apply List.ext_getElem
    · simp
    · intro i h1 h2
      have := hi ⟨i, h1⟩
      rw [ha, Fl.fin_sub, Fl.fin_inj] at this
      simpa using this.symm
  rw [hc, List.sum_ofFn, Finset.sum_sub_distrib]
  unfold Spec.mean
  rw [List.sum_ofFn, List.length_ofFn]
  have : (c.length : K) ≠ 0 := by exact_mod_cast h0.ne'
  simp only [Finset.sum_const, Finset.card_univ, Fintype.card_fin, nsmul_eq_mul]
  rw [mul_div_cancel₀ _ this, sub_self]

/-- **C36** (partial: the biases are numbers).  By default the reported biases add up to 0 whenever they are numbers.
If the run without centring reports numbers `b0`, the default run reports `b0` minus their mean and quality scores
raised by that mean.  Missing: nothing ensures that the biases are numbers, see `C36_silent_observer_refuted`. -/
theorem C36_zero_mean_partial (mode : Mle.Mode) (rd : Reader κ K) (o : Mle.Opts K) (res : Result κ K)
    (hz : o.base.forceSubjbiasZeromean ≠ some (some false)) (h : Mle.run mode rd o = .ok res) :
    (∀ b : List K, res.observerBias = some (b.map .fin) → b.sum = 0) ∧
    ∃ res0, Mle.run mode rd { o with base := { o.base with forceSubjbiasZeromean := some (some false) } } = .ok res0 ∧
      (∀ b0 : List K, b0 ≠ [] → res0.observerBias = some (b0.map .fin) →
        res.observerBias = some (b0.map fun b => .fin (b - mean b0)) ∧
        (o.base.normalizeFinal = none → o.base.transformFinal = none →
          res.qualityScores = res0.qualityScores.map fun q => q + .fin (mean b0))) := by
  obtain ⟨p, C, m, mos, cid, f, dens, obs, hrun, hres⟩ := Mle.run_inv h
  have hforce : Ap.forced o.base = true := by unfold Ap.forced; simpa using hz
  have hrun0 : Mle.RunOf mode rd { o with base := { o.base with forceSubjbiasZeromean := some (some false) } }
      p C m mos cid f dens :=
    ⟨hrun.hsr, hrun.hm, hrun.hp, hrun.hC, hrun.hmos, hrun.hcid, hrun.hf, hrun.hdens, hrun.hobs⟩
  obtain ⟨obs0, h0⟩ := Mle.run_fwd hrun0
  rw [show Ap.forced { o.base with forceSubjbiasZeromean := some (some false) } = false from rfl] at h0
  rw [hforce] at hres
  rw [hres]
  refine ⟨?_, _, h0, ?_⟩
  · intro b hb
    unfold Mle.result Mle.centre at hb
    dsimp only at hb
    split at hb
    · cases hb
    have hb' := Option.some.inj hb
    exact centred_sum f.p.b b hb'
  · intro b0 hne hb0
    unfold Mle.result Mle.centre at hb0 ⊢
    dsimp only at hb0 ⊢
    by_cases hmode : mode = .subjectOblivious
    · rw [if_pos hmode] at hb0; cases hb0
    rw [if_neg hmode] at hb0 ⊢
    have hb0' : List.ofFn f.p.b = b0.map .fin := Option.some.inj hb0
    simp only [if_true]
    rw [hb0', Np.mean_map_fin hne]
    constructor
    · congr 1
      have : (List.ofFn fun s => f.p.b s - Fl.fin (mean b0)) = (List.ofFn f.p.b).map fun x => x - Fl.fin (mean b0) := by
        rw [List.map_ofFn]; rfl
      rw [this, hb0', List.map_map]
      rfl
    · intro hn ht
      unfold postprocessScores
      rw [hn, ht]
      show List.ofFn _ = List.map _ (List.ofFn f.p.x)
      rw [List.map_ofFn]
      rfl

/-- **C36 (refuted as stated).** One observer without any vote makes every reported quality score and every reported
bias NaN (default centring, 'simplified' or 'original' gradients, not the subject-oblivious model). -/
theorem C36_silent_observer_refuted (mode : Mle.Mode) (hmode : mode ≠ .subjectOblivious) (rd : Reader κ K)
    (o : Mle.Opts K) (res : Result κ K) (hz : o.base.forceSubjbiasZeromean ≠ some (some false))
    (h1 : o.base.normalizeFinal = none) (h2 : o.base.transformFinal = none)
    (hg : o.gradientMethod ≠ some "numerical") (h : Mle.run mode rd o = .ok res)
    (a : Arr3D (Fl K)) (ha : res.rawScores = some a) (hsil : ∃ s, ∀ e r, a.get e s r = .nan) :
    res.qualityScores = List.replicate a.E .nan ∧ res.observerBias = some (List.replicate a.S .nan) := by
  obtain ⟨p, C, m, mos, cid, f, dens, obs, hrun, hres⟩ := Mle.run_inv h
  have hpa : p.arr = a := by
    rw [hres] at ha
    simpa [Mle.result] using ha
  subst hpa
  obtain ⟨s, hs⟩ := hsil
  have hm : m ≠ .numerical := by
    intro hm
    have := hrun.hm
    rw [hm] at this
    unfold Mle.method at this
    split at this
    · cases this
    · rename_i g hgm
      split at this
      · cases this
      · split at this
        · cases this
        · split at this
          · rename_i hgn; exact hg (by rw [hgm, hgn])
          · cases this
  obtain ⟨u, hu, hl⟩ := Mle.fitArr_inv hrun.hf
  obtain ⟨⟨q, hq, _⟩, _⟩ := Mle.loop_out _ 0 rfl (by unfold Mle.maxItr; omega) _ hl
  have hb : f.p.b s = .nan := by
    rw [hq]
    show (if mode = .subjectOblivious then (fun _ => 0) else (u.b ⟨p.arr.get, cid⟩ q).1) s = .nan
    rw [if_neg hmode]
    exact Mle.silent_bias hm hu _ _ s hs
  have hmean : Np.mean (List.ofFn f.p.b) = .nan := by
    unfold Np.mean Np.sum
    rw [show (List.ofFn f.p.b).sum = .nan from Ls.sum_nan (by rw [List.mem_ofFn]; exact ⟨s, hb⟩)]
    simp
  have hforce : Ap.forced o.base = true := by unfold Ap.forced; simpa using hz
  rw [hforce] at hres
  rw [hres]
  unfold Mle.result Mle.centre postprocessScores
  dsimp only
  rw [if_neg hmode, h1, h2]
  simp [hmean]

/-! ### a concrete run -/

/-- two videos of one content, two observers who disagree, and a third who did not vote -/
def exMle (third : Bool) : Dataset String ℚ :=
  { refVideos := [⟨0, "r0", []⟩]
    disVideos := [
      { contentId := 0, assetId := 0, path := "d0", os := some (.seq false ([.one (.fin 1), .one (.fin 3)] ++ if third then [.one .nan] else [])) },
      { contentId := 0, assetId := 1, path := "d1", os := some (.seq false ([.one (.fin 3), .one (.fin 1)] ++ if third then [.one .nan] else [])) }] }

attribute [local instance] ratMath in
example : ∃ rd res, rawReader (exMle false) = .ok rd ∧ Mle.run .default rd {} = .ok res ∧
    res.qualityScores = [.fin 2, .fin 2] ∧ res.observerBias = some [.fin 0, .fin 0] := by
  obtain ⟨rd, hrd⟩ : ∃ rd, rawReader (exMle false) = .ok rd := ⟨_, rfl⟩
  have h : (match rawReader (exMle false) with
    | .ok rd => Mle.once .default rd {}
    | .error _ => none) = some ([.fin 2, .fin 2], some [.fin 0, .fin 0]) := by decide +kernel
  rw [hrd] at h
  obtain ⟨res, h1, h2, h3, _⟩ := Mle.run_of_once h
  exact ⟨rd, res, hrd, h1, h2, h3⟩

attribute [local instance] ratMath in
/-- the third observer did not vote: the run completes, and every score is NaN -/
example : ∃ rd res, rawReader (exMle true) = .ok rd ∧ Mle.run .default rd {} = .ok res ∧
    res.qualityScores = [.nan, .nan] := by
  obtain ⟨rd, hrd⟩ : ∃ rd, rawReader (exMle true) = .ok rd := ⟨_, rfl⟩
  have h : (match rawReader (exMle true) with
    | .ok rd => Mle.once .default rd {}
    | .error _ => none) = some ([.nan, .nan], some [.nan, .nan, .nan]) := by decide +kernel
  rw [hrd] at h
  obtain ⟨res, h1, h2, _⟩ := Mle.run_of_once h
  exact ⟨rd, res, hrd, h1, h2⟩

/-! ### the DMOS variants (C24) and the final step (C25) -/

/-- **C24 (MLE).** The DMOS variants are the MLE models with `dscore_mode` added, unless the caller repeats that
option, which is refused; every other option is passed on. -/
theorem C24_mle_wrappers (rd : Reader κ K) (o : Mle.Opts K) :
    (o.base.dscoreMode ≠ some (some true) →
      runDMOS_MLE rd o = runMLE rd { o with base := { o.base with dscoreMode := yes } } ∧
      runDMOS_MLE_CO rd o = runMLE_CO rd { o with base := { o.base with dscoreMode := yes } }) ∧
    (o.base.dscoreMode = some (some true) →
      runDMOS_MLE rd o = .error .assertion ∧ runDMOS_MLE_CO rd o = .error .assertion) := by
  constructor
  · intro h
    have : o.base.dscoreMode.isTrue = false := by rw [Bool.eq_false_iff, ne_eq, isTrue_iff]; exact h
    simp [runDMOS_MLE, runDMOS_MLE_CO, this, runMLE, runMLE_CO]
  · intro h
    have : o.base.dscoreMode.isTrue = true := by rw [isTrue_iff]; exact h
    simp [runDMOS_MLE, runDMOS_MLE_CO, this]

example (rd : Reader String ℚ) (m : MathFn ℚ) : runDMOS_MLE rd { gradientMethod := some "original" } =
    runMLE rd { base := { dscoreMode := yes }, gradientMethod := some "original" } :=
  ((C24_mle_wrappers rd { gradientMethod := some "original" }).1 (by decide)).1

/-- the MLE models do not look at the options of the final step, so `C25_final_scores` applies to them -/
theorem mle_ignores (mode : Mle.Mode) (o : Mle.Opts K) :
    IgnoresFinal (fun (rd : Reader κ K) b => Mle.runModelingWith mode rd { o with base := b }) := fun _ _ => rfl

end Sureal.Props
