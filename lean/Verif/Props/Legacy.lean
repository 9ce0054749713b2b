import Verif.Lemmas.LegacyGrad
import Verif.Props.MleMethods
/-!
# C81, C82, C83: the early maximum likelihood model
-/
set_option linter.unusedSectionVars false
namespace Sureal.Props
open Sureal Spec

section generic
variable {κ K : Type} [Field K] [LinearOrder K] [IsStrictOrderedRing K] [MathFn K]

/-- no differential scores, no z-scores, no bias offset, no subject rejection -/
def NoPreprocessing (o : Opts K) : Prop :=
  o.dscoreMode = none ∧ o.zscoreMode = none ∧ o.biasOffset = none ∧ o.subjectRejection = none ∧ o.subjectRejectionType = none

/-- the observers are listed, or the attempt fails in one of the two ways the program expects -/
def ObserversListed (rd : Reader κ K) : Prop :=
  ∀ e, rd.observers = .error e → e = .assertion ∨ e = .attribute

theorem preprocess_none {rd : Reader κ K} {a : Arr3D (Fl K)} {o : Opts K} (ho : NoPreprocessing o) (h : rd.scores = .ok a) :
    preprocess rd o = .ok { arr := a, orig := a } := by
  obtain ⟨d, z, b, sr, srt, n, t, f⟩ := o
  obtain ⟨h1, h2, h3, h4, h5⟩ := ho
  dsimp only at h1 h2 h3 h4 h5
  subst h1 h2 h3 h4 h5
  unfold preprocess
  rw [h]
  rfl

theorem not_rejecting {o : Opts K} (ho : NoPreprocessing o) : ¬ o.subjectRejection.isTrue = true := by
  rw [ho.2.2.2.1]; decide

/-- what the post-processing of `run_modeling` does to a result -/
theorem runModeling_listed {run : Reader κ K → Opts K → Py (Result κ K)} {rd : Reader κ K} {o : Opts K} {res0 : Result κ K}
    (hobs : ObserversListed rd) (h : run rd o = .ok res0) :
    ∃ obs, runModeling run rd o = .ok { res0 with observers := obs, qualityScores := postprocessScores o res0.qualityScores } := by
  unfold runModeling
  rw [h]
  dsimp only
  cases ho : rd.observers with
  | ok l => exact ⟨_, rfl⟩
  | error e => rcases hobs e ho with rfl | rfl <;> exact ⟨_, rfl⟩

/-- **C83.** A subject without any vote does not influence the early maximum likelihood model: for all votes, with and
without `use_log`, the run with the additional column of missing votes gives the same quality scores, the same biases and
inconsistencies of the others, and NaN for the silent subject; if the run without it raises an exception, so does the run
with it. -/
theorem C83_silent (o : Opts K) (ho : NoPreprocessing o) (useLog : Bool) (rd rd' : Reader κ K) {E S : ℕ} (i : Fin (S + 1))
    (a : Arr3 (Fl K) E S 1) (a' : Arr3 (Fl K) E (S + 1) 1) (h : rd.scores = .ok ⟨E, S, 1, a⟩)
    (h' : rd'.scores = .ok ⟨E, S + 1, 1, a'⟩) (hobs : ObserversListed rd) (hobs' : ObserversListed rd')
    (hi : ∀ e, a' e i 0 = .nan) (hd : ∀ e s, a' e (i.succAbove s) 0 = a e s 0) :
    (∀ err, runLegacy rd ⟨o, useLog⟩ = .error err → runLegacy rd' ⟨o, useLog⟩ = .error err) ∧
    ∀ res, runLegacy rd ⟨o, useLog⟩ = .ok res →
      ∃ res', runLegacy rd' ⟨o, useLog⟩ = .ok res' ∧ res'.qualityScores = res.qualityScores ∧
      ∃ b' v' : Fin (S + 1) → Fl K,
        res'.observerBias = some (List.ofFn b') ∧ b' i = .nan ∧ res.observerBias = some (List.ofFn fun s => b' (i.succAbove s)) ∧
        res'.observerInconsistency = some (List.ofFn v') ∧ v' i = .nan ∧
        res.observerInconsistency = some (List.ofFn fun s => v' (i.succAbove s)) := by
  have hp := preprocess_none ho h
  have hp' := preprocess_none ho h'
  set d : Arr2 (Fl K) E S := fun e s => a e s 0 with hdd
  set d' : Arr2 (Fl K) E (S + 1) := fun e s => a' e s 0 with hdd'
  have hrun : Legacy.runModelingWith rd ⟨o, useLog⟩ =
      match Legacy.loop useLog d 0 (Legacy.init d) with
      | .error e => .error e
      | .ok t => .ok { qualityScores := List.ofFn (Legacy.centre (Ap.forced o) t).x
                       observerBias := some (List.ofFn (Legacy.centre (Ap.forced o) t).b)
                       observerInconsistency := some (List.ofFn (Legacy.centre (Ap.forced o) t).v) } := by
    unfold Legacy.runModelingWith
    rw [if_neg (not_rejecting ho), hp]
    dsimp only
    rw [dif_pos rfl]
    have hl : Legacy.loop useLog (fun (e : Fin E) (s : Fin S) => a e s ⟨0, by omega⟩) 0 (Legacy.init fun e s => a e s ⟨0, by omega⟩) =
        Legacy.loop useLog d 0 (Legacy.init d) := rfl
    rw [hl]
    cases Legacy.loop useLog d 0 (Legacy.init d) <;> rfl
  have hrun' : Legacy.runModelingWith rd' ⟨o, useLog⟩ =
      match Legacy.loop useLog d' 0 (Legacy.init d') with
      | .error e => .error e
      | .ok t => .ok { qualityScores := List.ofFn (Legacy.centre (Ap.forced o) t).x
                       observerBias := some (List.ofFn (Legacy.centre (Ap.forced o) t).b)
                       observerInconsistency := some (List.ofFn (Legacy.centre (Ap.forced o) t).v) } := by
    unfold Legacy.runModelingWith
    rw [if_neg (not_rejecting ho), hp']
    dsimp only
    rw [dif_pos rfl]
    have hl : Legacy.loop useLog (fun (e : Fin E) (s : Fin (S + 1)) => a' e s ⟨0, by omega⟩) 0 (Legacy.init fun e s => a' e s ⟨0, by omega⟩) =
        Legacy.loop useLog d' 0 (Legacy.init d') := rfl
    rw [hl]
    cases Legacy.loop useLog d' 0 (Legacy.init d') <;> rfl
  obtain ⟨h1, h2⟩ := Legacy.loop_rel (d := d) (d' := d') useLog hi hd _ 0 rfl (Legacy.init_rel (d := d) (d' := d') hi hd)
  cases hl : Legacy.loop useLog d 0 (Legacy.init d) with
  | error e =>
    rw [hl] at hrun
    rw [h1 e hl] at hrun'
    have g : runLegacy rd ⟨o, useLog⟩ = .error e := by
      unfold runLegacy runModeling; dsimp only; rw [hrun]
    have g' : runLegacy rd' ⟨o, useLog⟩ = .error e := by
      unfold runLegacy runModeling; dsimp only; rw [hrun']
    rw [g, g']
    exact ⟨fun err he => he, fun res hr => by cases hr⟩
  | ok t =>
    obtain ⟨t', ht', hrel, q', hq'⟩ := h2 t hl
    rw [hl] at hrun
    rw [ht'] at hrun'
    have hsil := Legacy.step_silent (d' := d') useLog hi q'
    rw [← hq'] at hsil
    obtain ⟨hc, hcb, hcv⟩ := Legacy.centre_rel (Ap.forced o) hrel hsil.1 hsil.2
    obtain ⟨obs, g⟩ := runModeling_listed (run := fun rd b => Legacy.runModelingWith rd ⟨b, useLog⟩) hobs hrun
    obtain ⟨obs', g'⟩ := runModeling_listed (run := fun rd b => Legacy.runModelingWith rd ⟨b, useLog⟩) hobs' hrun'
    have e1 : runLegacy rd ⟨o, useLog⟩ = runModeling (fun rd b => Legacy.runModelingWith rd ⟨b, useLog⟩) rd o := rfl
    have e2 : runLegacy rd' ⟨o, useLog⟩ = runModeling (fun rd b => Legacy.runModelingWith rd ⟨b, useLog⟩) rd' o := rfl
    rw [e1, e2, g, g']
    refine ⟨fun err he => (by cases he), fun res hr => ?_⟩
    cases hr
    refine ⟨_, rfl, ?_, _, _, rfl, hcb, ?_, rfl, hcv, ?_⟩
    · dsimp only; rw [hc.x]
    · dsimp only; rw [funext hc.b]
    · dsimp only; rw [funext hc.v]

end generic

variable {κ : Type}

/-- **C81.** The early model agrees with the content oblivious maximum likelihood model: for every dataset with one vote per
observer and video, with votes of every observer, and without preprocessing, if the variances stay positive and the newer
program stops within 5000 passes, the older one gives the same quality scores, biases and inconsistencies. -/
theorem C81_agrees (rd : Reader κ ℝ) (o : Mle.Opts ℝ) (ho : NoPreprocessing o.base)
    (hg : o.gradientMethod = none ∨ o.gradientMethod = some "simplified") (hthr : o.deltaThr = none)
    {E S : ℕ} (a : Arr3 (Fl ℝ) E S 1) (ha : rd.scores = .ok ⟨E, S, 1, a⟩) (hall : ∀ s, ∃ e, a e s 0 ≠ .nan)
    (hpos : VariancesStayPositive .contentOblivious rd o) (res : Result κ ℝ) (h : runMLE_CO rd o = .ok res)
    (n : ℕ) (hn : res.numIter = some n) (hle : n ≤ 5000) :
    ∃ res', runLegacy rd { base := o.base } = .ok res' ∧ res'.qualityScores = res.qualityScores ∧
      res'.observerBias = res.observerBias ∧ res'.observerInconsistency = res.observerInconsistency := by
  have hp := preprocess_none ho ha
  obtain ⟨p, C, m, mos, cid, f, dens, obs, hrun, hres⟩ := Mle.run_inv h
  obtain ⟨_, hm, hp', hC, hmos, hcid, hf, _, hobs⟩ := hrun
  rw [hp] at hp'
  cases hp'
  have hm' : m = .simplified := by
    unfold Mle.method at hm
    rcases hg with hg | hg <;> rw [hg] at hm
    · exact (Except.ok.inj hm).symm
    · exact (Except.ok.inj hm).symm
  subst hm'
  obtain ⟨u, hu, hl⟩ := Mle.fitArr_inv hf
  obtain ⟨hclean, hvis⟩ := hpos _ C mos cid hp hC hmos hcid
  have hu' : u = Mle.simplifiedU := (Except.ok.inj hu).symm
  subst hu'
  rw [hthr] at hl hvis
  dsimp only [Option.getD_none] at hl hvis
  -- the initial values
  have hq : (fun e : Fin E => (mos.qualityScores[e.val]?).getD .nan) = fun e => Np.nanmean (rowL (fun e s => a e s 0) e) := by
    rw [runMOS_default ha hmos]
    funext e
    show ((List.ofFn (meanAlongS a))[e.val]?).getD .nan = _
    rw [List.getElem?_ofFn]
    simp only [Fin.is_lt, dif_pos, Fin.eta, Option.getD_some]
    unfold meanAlongS
    rw [rowL_stack1]
    simp [rowL]
  have hitr : f.itr ≤ 5000 := by
    rw [hres] at hn
    have : some f.itr = some n := hn
    have := Option.some.inj this
    omega
  have hmask : a = Ap.maskX (fun e s r => !(a e s r).isNan) (fun e s r => (a e s r).val?.getD 0) := exists_mask a hclean
  have hall' : ∀ s, ∃ e, (!(a e s 0).isNan) = true := by
    intro s
    obtain ⟨e, he⟩ := hall s
    refine ⟨e, ?_⟩
    cases hv : a e s 0 with
    | nan => exact absurd hv he
    | _ => rfl
  have hinit : (Mle.init .contentOblivious (⟨a, cid⟩ : Mle.Data ℝ E S 1 C) fun e => (mos.qualityScores[e.val]?).getD .nan).v =
      (Legacy.init fun e s => a e s 0).v := by
    rw [hq]
    funext s
    show Np.nanstd 0 (colL (stack0 _) s) = Np.nanstd 0 (colL _ s)
    rw [colL_stack0]
    simp [colL]
  have hvotes : (fun e s => a e s 0) = Legacy.votes (fun e s r => !(a e s r).isNan) (fun e s r => (a e s r).val?.getD 0) := by
    funext e s
    exact congrFun (congrFun (congrFun hmask e) s) 0
  have hcmp : ∃ t, Legacy.loop false (fun e s => a e s 0) 0 (Legacy.init fun e s => a e s 0) = .ok t ∧ t.x = f.p.x ∧ t.b = f.p.b ∧
      t.v = f.p.v ∧ ∀ s, ∃ v, f.p.b s = .fin v := by
    have hqx : (Legacy.init fun e s => a e s 0).x =
        (Mle.init .contentOblivious (⟨a, cid⟩ : Mle.Data ℝ E S 1 C) fun e => (mos.qualityScores[e.val]?).getD .nan).x := hq.symm
    have hqb : (Legacy.init fun e s => a e s 0).b =
        (Mle.init .contentOblivious (⟨a, cid⟩ : Mle.Data ℝ E S 1 C) fun e => (mos.qualityScores[e.val]?).getD .nan).b := rfl
    generalize hq0 : (Legacy.init fun e s => a e s 0) = q0 at hinit hqx hqb
    rw [hvotes]
    have hia : (Mle.init .contentOblivious (⟨a, cid⟩ : Mle.Data ℝ E S 1 C) fun e => (mos.qualityScores[e.val]?).getD .nan).a = fun _ => 0 := rfl
    have hib : ∀ s, ∃ v, (Mle.init .contentOblivious (⟨a, cid⟩ : Mle.Data ℝ E S 1 C) fun e => (mos.qualityScores[e.val]?).getD .nan).b s = .fin v :=
      fun s => ⟨0, rfl⟩
    generalize (Mle.init .contentOblivious (⟨a, cid⟩ : Mle.Data ℝ E S 1 C) fun e => (mos.qualityScores[e.val]?).getD .nan) = p0 at *
    clear hq hres hn hf hcid hp ha hq0 hvotes hclean hall
    change ∀ s, ∃ e, (fun e s r => !(a e s r).isNan) e s 0 = true at hall'
    generalize (fun e s r => !(a e s r).isNan) = P at hmask hall' ⊢
    generalize (fun e s r => (a e s r).val?.getD 0) = X at hmask ⊢
    subst hmask
    exact Legacy.loop_compare o.numericalPdf P X cid hall' p0 hvis _ 0 rfl p0 q0 Mle.Visited.start hqx hqb hinit.symm hia hib f
      (by unfold Legacy.maxItr; omega) hl hitr
  obtain ⟨t, ht, hx, hb, hv, hfin⟩ := hcmp
  have hcentre : (Legacy.centre (Ap.forced o.base) t).x = (Mle.centre (Ap.forced o.base) f.p).x ∧
      (Legacy.centre (Ap.forced o.base) t).b = (Mle.centre (Ap.forced o.base) f.p).b ∧
      (Legacy.centre (Ap.forced o.base) t).v = (Mle.centre (Ap.forced o.base) f.p).v := by
    have hm : Np.nanmean (List.ofFn f.p.b) = Np.mean (List.ofFn f.p.b) := by
      have : Np.notNan (List.ofFn f.p.b) = List.ofFn f.p.b := by
        unfold Np.notNan
        rw [List.filter_eq_self]
        intro x hx
        obtain ⟨s, rfl⟩ := List.mem_ofFn.mp hx
        obtain ⟨v, hv⟩ := hfin s
        rw [hv]; rfl
      unfold Np.nanmean Np.nansum Np.countNotNan Np.mean
      rw [this]
    cases Ap.forced o.base
    · exact ⟨hx, hb, hv⟩
    · unfold Legacy.centre Mle.centre
      simp only [if_true]
      rw [hb, hm, hx]
      exact ⟨rfl, rfl, hv⟩
  have hrunL : Legacy.runModelingWith rd { base := o.base } = .ok
      { qualityScores := List.ofFn (Legacy.centre (Ap.forced o.base) t).x
        observerBias := some (List.ofFn (Legacy.centre (Ap.forced o.base) t).b)
        observerInconsistency := some (List.ofFn (Legacy.centre (Ap.forced o.base) t).v) } := by
    unfold Legacy.runModelingWith
    rw [if_neg (not_rejecting ho), hp]
    dsimp only
    rw [dif_pos rfl]
    have ht' : Legacy.loop false (fun (e : Fin E) (s : Fin S) => a e s ⟨0, by omega⟩) 0 (Legacy.init fun e s => a e s ⟨0, by omega⟩) = .ok t := ht
    rw [ht']
  obtain ⟨obs', g⟩ := runModeling_listed (run := fun rd b => Legacy.runModelingWith rd { base := b })
    (fun e he => by
      rcases hobs with ⟨l, hl⟩ | hl <;> rw [hl] at he <;> cases he
      exact Or.inl rfl) hrunL
  refine ⟨_, g, ?_, ?_, ?_⟩
  · dsimp only; rw [hcentre.1, hres]
  · dsimp only; rw [hcentre.2.1, hres]; rfl
  · dsimp only; rw [hcentre.2.2, hres]; rfl

/-- **C82.** Every pass of the early model is a sequence of damped Newton steps `θ - d1/d2/10` on the Gaussian log-likelihood of
the votes (without ambiguity of the contents), where `d1`, `d2` are its first two derivatives in the parameter that is updated:
first the biases; then, at the new biases, the inconsistencies (with `use_log` their logarithms); then, at the new biases and
inconsistencies, the qualities. -/
theorem C82_newton_steps {E S : ℕ} (useLog : Bool) (d : Arr2 (Fl ℝ) E S) (P : Fin E → Fin S → Fin 1 → Bool)
    (X : Fin E → Fin S → Fin 1 → ℝ) (hX : ∀ e s, d e s = mask (P e s 0) (X e s 0)) (p : Legacy.St ℝ E S)
    (ξ : Fin E → ℝ) (β ν : Fin S → ℝ) (hx : ∀ e s, P e s 0 = true → p.x e = .fin (ξ e))
    (hb : ∀ e s, P e s 0 = true → p.b s = .fin (β s)) (hv : ∀ e s, P e s 0 = true → p.v s = .fin (ν s))
    (hpos : ∀ e s, P e s 0 = true → 0 < ν s)
    (hlog : useLog = true → ∀ e s, P e s 0 = true → p.lv s = .fin (Real.log (ν s))) :
    ∃ β' : Fin S → ℝ,
      (∀ s, (∃ e, P e s 0 = true) → (Legacy.step useLog d p).b s = .fin (β' s) ∧
        ∃ d1 d2, Derivs (fun t => logLik P X (fun _ => (0 : Fin 1)) ξ (setEntry β s t) ν (fun _ => 0)) (β s) d1 d2 ∧
          d2 < 0 ∧ β' s = β s - d1 / d2 / 10) ∧
      (useLog = false → ∀ s, (∃ e, P e s 0 = true) →
        ∃ d1 d2, Derivs (fun t => logLik P X (fun _ => (0 : Fin 1)) ξ β' (setEntry ν s t) (fun _ => 0)) (ν s) d1 d2 ∧
          (Legacy.step useLog d p).v s = newtonStep (ν s) d1 d2) ∧
      (useLog = true → ∀ s, (∃ e, P e s 0 = true) →
        ∃ d1 d2, Derivs (fun t => logLik P X (fun _ => (0 : Fin 1)) ξ β' (setEntry ν s (Real.exp t)) (fun _ => 0))
            (Real.log (ν s)) d1 d2 ∧
          (Legacy.step useLog d p).lv s = newtonStep (Real.log (ν s)) d1 d2 ∧
          (Legacy.step useLog d p).v s = (newtonStep (Real.log (ν s)) d1 d2).exp) ∧
      ∀ ν' : Fin S → ℝ, (∀ e s, P e s 0 = true → (Legacy.step useLog d p).v s = .fin (ν' s) ∧ ν' s ≠ 0) →
        ∀ e, (∃ s, P e s 0 = true) →
        ∃ d1 d2, Derivs (fun t => logLik P X (fun _ => (0 : Fin 1)) (setEntry ξ e t) β' ν' (fun _ => 0)) (ξ e) d1 d2 ∧
          d2 < 0 ∧ (Legacy.step useLog d p).x e = .fin (ξ e - d1 / d2 / 10) := by
  have hd : d = Legacy.votes P X := by funext e s; exact hX e s
  subst hd
  set β' : Fin S → ℝ := fun s => β s * (9 / 10) +
    (∑ e, if P e s 0 = true then X e s 0 - ξ e else 0) / Legacy.voteCount P s * (1 / 10) with hβ'
  have hB : ∀ s, (∃ e, P e s 0 = true) → Legacy.newB (Legacy.votes P X) p s = .fin (β' s) := by
    intro s hs
    have hbs : p.b s = .fin (β s) := by obtain ⟨e, he⟩ := hs; exact hb e s he
    exact Legacy.newB_val hx hs hbs
  refine ⟨β', ?_, ?_, ?_, ?_⟩
  · intro s hs
    refine ⟨hB s hs, _, _, Mle.derivs_b (fun e s r hP => ?_) s, ?_, ?_⟩
    · have := hpos e s (Subsingleton.elim r 0 ▸ hP); positivity
    · have hν : 0 < ν s := by obtain ⟨e, he⟩ := hs; exact hpos e s he
      have hc := Legacy.voteCount_pos (P := P) hs
      simp only [Finset.univ_unique, Finset.sum_singleton]
      rw [Legacy.sum_ite_div (fun e => P e s default = true) (fun _ => -1)]
      apply div_neg_of_neg_of_pos _ (by positivity)
      have : (∑ e, if P e s default = true then (-1 : ℝ) else 0) = -Legacy.voteCount P s := by
        unfold Legacy.voteCount
        rw [← Finset.sum_neg_distrib]
        refine Finset.sum_congr rfl fun e _ => ?_
        show (if P e s 0 = true then (-1 : ℝ) else 0) = -if P e s 0 = true then 1 else 0
        split <;> norm_num
      rw [this]; linarith
    · have hν : 0 < ν s := by obtain ⟨e, he⟩ := hs; exact hpos e s he
      have hc := Legacy.voteCount_pos (P := P) hs
      simp only [Finset.univ_unique, Finset.sum_singleton]
      rw [Legacy.sum_ite_div (fun e => P e s default = true) (fun _ => -1),
        Legacy.sum_ite_div (fun e => P e s default = true) (fun e => X e s default - ξ e - β s)]
      have h1 : (∑ e, if P e s default = true then (-1 : ℝ) else 0) = -Legacy.voteCount P s := by
        unfold Legacy.voteCount
        rw [← Finset.sum_neg_distrib]
        refine Finset.sum_congr rfl fun e _ => ?_
        show (if P e s 0 = true then (-1 : ℝ) else 0) = -if P e s 0 = true then 1 else 0
        split <;> norm_num
      have h2 : (∑ e, if P e s default = true then X e s default - ξ e - β s else 0) =
          (∑ e, if P e s 0 = true then X e s 0 - ξ e else 0) - β s * Legacy.voteCount P s := by
        unfold Legacy.voteCount
        rw [Finset.mul_sum, ← Finset.sum_sub_distrib]
        refine Finset.sum_congr rfl fun e _ => ?_
        show (if P e s 0 = true then X e s 0 - ξ e - β s else 0) = _
        split <;> simp
      rw [h1, h2, hβ']
      dsimp only
      field_simp
      ring
  · intro hu s hs
    subst hu
    have hνs : 0 < ν s := by obtain ⟨e, he⟩ := hs; exact hpos e s he
    have hvs : p.v s = .fin (ν s) := by obtain ⟨e, he⟩ := hs; exact hv e s he
    refine ⟨_, _, Mle.derivs_v (fun e s r hP => ?_) s, ?_⟩
    · have := hpos e s (Subsingleton.elim r 0 ▸ hP); positivity
    · simp only [Finset.univ_unique, Finset.sum_singleton]
      obtain ⟨hn, hden⟩ := Legacy.newV_sums (P := P) (X := X) (p := p) (b := Legacy.newB (Legacy.votes P X) p) (ξ := ξ) (β := β')
        (ν := ν) (s := s) hx (hB s hs) hvs
      show Mle.refresh (p.v s) (Legacy.sumE _ s / Legacy.sumE _ s) = _
      rw [hn, hden, hvs, ← Legacy.newton_fraction (c := ν s ^ 4) (by positivity)]
      congr 3
      · rw [Finset.mul_sum, ← Finset.sum_sub_distrib, Finset.mul_sum]
        refine Finset.sum_congr rfl fun e _ => ?_
        show _ = ν s ^ 4 * (ν s * (if P e s 0 = true then Mle.cell2 (ν s) 0 (X e s 0 - ξ e - β' s) else 0) -
          if P e s 0 = true then Mle.cell1 (ν s) 0 (X e s 0 - ξ e - β' s) else 0)
        split
        · unfold Mle.cell2 Mle.cell1
          field_simp
          ring
        · ring
      · rw [Finset.mul_sum]
        refine Finset.sum_congr rfl fun e _ => ?_
        show _ = ν s ^ 4 * if P e s 0 = true then Mle.cell2 (ν s) 0 (X e s 0 - ξ e - β' s) else 0
        split
        · unfold Mle.cell2
          field_simp
          ring
        · ring
  · intro hu s hs
    subst hu
    have hνs : 0 < ν s := by obtain ⟨e, he⟩ := hs; exact hpos e s he
    have hvs : p.v s = .fin (ν s) := by obtain ⟨e, he⟩ := hs; exact hv e s he
    have hlv : p.lv s = .fin (Real.log (ν s)) := by obtain ⟨e, he⟩ := hs; exact hlog rfl e s he
    obtain ⟨hn, hden⟩ := Legacy.newLv_sums (P := P) (X := X) (p := p) (b := Legacy.newB (Legacy.votes P X) p) (ξ := ξ) (β := β')
      (ν := ν) (s := s) hx (hB s hs) hvs hνs.ne'
    have key : Legacy.newLv (Legacy.votes P X) p (Legacy.newB (Legacy.votes P X) p) s = newtonStep (Real.log (ν s))
        (∑ e, if P e s 0 = true then -1 + (X e s 0 - ξ e - β' s) ^ 2 / ν s ^ 2 else 0)
        (∑ e, if P e s 0 = true then -2 * (X e s 0 - ξ e - β' s) ^ 2 / ν s ^ 2 else 0) := by
      show Mle.refresh (p.lv s) (p.lv s - Legacy.sumE _ s / Legacy.sumE _ s) = _
      rw [hn, hden, hlv, Mle.refresh_eq]
      rfl
    refine ⟨_, _, Legacy.derivs_lv s hνs, key, ?_⟩
    show (Legacy.newLv (Legacy.votes P X) p (Legacy.newB (Legacy.votes P X) p) s).exp = _
    rw [key]
  · intro ν' hν' e he
    have hxe : p.x e = .fin (ξ e) := by obtain ⟨s, hs⟩ := he; exact hx e s hs
    have hp' : ∀ (e : Fin E) (s : Fin S) (r : Fin 1), P e s r = true → 0 < ν' s ^ 2 + (0 : ℝ) ^ 2 := fun e s r hP => by
      have := (hν' e s (Subsingleton.elim r 0 ▸ hP)).2; positivity
    have hw : 0 < ∑ s, if P e s 0 = true then 1 / ν' s ^ 2 else 0 := by
      obtain ⟨s, hs⟩ := he
      refine Finset.sum_pos' (fun s _ => ?_) ⟨s, Finset.mem_univ _, ?_⟩
      · split
        · positivity
        · exact le_rfl
      · rw [if_pos hs]
        have := (hν' e s hs).2
        positivity
    obtain ⟨l1, l2⟩ := Legacy.newX_sums (P := P) (X := X) (b := Legacy.newB (Legacy.votes P X) p) (v := (Legacy.step useLog (Legacy.votes P X) p).v)
      (β := β') (ν := ν') (e := e) (fun s hs => hB s ⟨e, hs⟩) (fun s hs => (hν' e s hs).1) (fun s hs => (hν' e s hs).2)
    have hd2 : (∑ s, ∑ r, if P e s r = true then -1 / (ν' s ^ 2 + (0 : ℝ) ^ 2) else 0) = -∑ s, if P e s 0 = true then 1 / ν' s ^ 2 else 0 := by
      rw [← Finset.sum_neg_distrib]
      refine Finset.sum_congr rfl fun s _ => ?_
      simp only [Finset.univ_unique, Finset.sum_singleton]
      show (if P e s 0 = true then -1 / (ν' s ^ 2 + (0 : ℝ) ^ 2) else 0) = _
      split
      · rw [show ν' s ^ 2 + (0 : ℝ) ^ 2 = ν' s ^ 2 by ring]; ring
      · simp
    have hd1 : (∑ s, ∑ r, if P e s r = true then (X e s r - ξ e - β' s) / (ν' s ^ 2 + (0 : ℝ) ^ 2) else 0) =
        (∑ s, if P e s 0 = true then (X e s 0 - β' s) / ν' s ^ 2 else 0) - ξ e * ∑ s, if P e s 0 = true then 1 / ν' s ^ 2 else 0 := by
      rw [Finset.mul_sum, ← Finset.sum_sub_distrib]
      refine Finset.sum_congr rfl fun s _ => ?_
      simp only [Finset.univ_unique, Finset.sum_singleton]
      show (if P e s 0 = true then (X e s 0 - ξ e - β' s) / (ν' s ^ 2 + (0 : ℝ) ^ 2) else 0) = _
      split
      · rw [show ν' s ^ 2 + (0 : ℝ) ^ 2 = ν' s ^ 2 by ring]; ring
      · simp
    refine ⟨_, _, Mle.derivs_x hp' e, ?_, ?_⟩
    · rw [hd2]; linarith
    · rw [hd1, hd2]
      show Mle.refresh (p.x e) (Legacy.sumS _ e / Legacy.sumS _ e) = _
      erw [l1, l2]
      rw [hxe, Mle.newton_simplified hw, C35_newton_value _ _ _ (neg_ne_zero.mpr hw.ne')]

end Sureal.Props
