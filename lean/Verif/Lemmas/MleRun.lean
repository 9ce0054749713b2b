import Verif.Lemmas.MleScale
import Verif.Lemmas.Mle
import Verif.Lemmas.Mos
/-! # Two runs of the MLE models whose fits correspond -/
set_option linter.unusedSectionVars false
namespace Sureal.Mle
open Sureal Spec
variable {κ : Type} {E S R C : ℕ}

theorem contentIndex_perm (id : Fin E → Int) (τ : Equiv.Perm (Fin E)) (C : ℕ) :
    contentIndex (List.ofFn fun e => id (τ e)) E C = mapOk (fun cid e => cid (τ e)) (contentIndex (List.ofFn id) E C) := by
  unfold contentIndex
  by_cases h : ∀ e, 0 ≤ id e ∧ id e < (C : Int)
  · have h1 : (List.ofFn id).length = E ∧ ∀ c ∈ List.ofFn id, 0 ≤ c ∧ c < (C : Int) :=
      ⟨by simp, by intro c hc; obtain ⟨e, rfl⟩ := List.mem_ofFn.mp hc; exact h e⟩
    have h2 : (List.ofFn fun e => id (τ e)).length = E ∧ ∀ c ∈ (List.ofFn fun e => id (τ e)), 0 ≤ c ∧ c < (C : Int) :=
      ⟨by simp, by intro c hc; obtain ⟨e, rfl⟩ := List.mem_ofFn.mp hc; exact h (τ e)⟩
    rw [dif_pos h1, dif_pos h2]
    show Except.ok _ = Except.ok _
    congr 1
    funext e
    apply Fin.ext
    simp
  · have h1 : ¬ ((List.ofFn id).length = E ∧ ∀ c ∈ List.ofFn id, 0 ≤ c ∧ c < (C : Int)) :=
      fun hh => h fun e => hh.2 _ (List.mem_ofFn.mpr ⟨e, rfl⟩)
    have h2 : ¬ ((List.ofFn fun e => id (τ e)).length = E ∧ ∀ c ∈ (List.ofFn fun e => id (τ e)), 0 ≤ c ∧ c < (C : Int)) :=
      fun hh => h fun e => by
        have := hh.2 _ (List.mem_ofFn.mpr ⟨τ.symm e, rfl⟩)
        simpa using this
    rw [dif_neg h1, dif_neg h2]
    rfl

/-- the options of the runs: centring, gradient method, density, threshold -/
def optsOf (z : Flag) (g pdf : Option String) (thr : Option (Fl ℝ)) : Opts ℝ :=
  { base := { forceSubjbiasZeromean := z }, gradientMethod := g, numericalPdf := pdf, deltaThr := thr }

/-- the observers are a list, or listing them is refused -/
def Obs (rd : Reader κ ℝ) : Prop := (∃ l, rd.observers = .ok l) ∨ rd.observers = .error .assertion

theorem mos_run {rd : Reader κ ℝ} (hobs : Obs rd) {x : Arr3 (Fl ℝ) E S R} (ha : rd.scores = .ok ⟨E, S, R, x⟩) :
    ∃ mos, runMOS rd {} = .ok mos ∧ (fun e : Fin E => (mos.qualityScores[e.val]?).getD .nan) = meanAlongS x := by
  obtain ⟨mos, hm⟩ : ∃ res, runMOS rd {} = .ok res := by
    unfold runMOS runModeling mosRunModeling
    rw [preprocess_default ha]
    dsimp only
    rcases hobs with ⟨o, ho⟩ | ho <;> rw [ho]
    · exact ⟨_, rfl⟩
    · exact ⟨_, rfl⟩
  refine ⟨mos, hm, ?_⟩
  rw [runMOS_default ha hm]
  have hq : (mosAndStats (fun E _ _ => E * 2) ⟨E, S, R, x⟩ ⟨E, S, R, x⟩ : Result κ ℝ).qualityScores = List.ofFn (meanAlongS x) := rfl
  dsimp only
  rw [hq]
  funext e
  simp

theorem loop_dens {mode : Mode} {u : Updates ℝ E S R C} {pdf : Option String} {thr : Fl ℝ} {d : Data ℝ E S R C} {itr : ℕ}
    {p : Params ℝ E S C} {f : Fit ℝ E S C} (h : loop mode u pdf thr d itr p = .ok f) : ∃ dens, density (K := ℝ) pdf R = .ok dens := by
  rw [loop_unfold] at h
  cases hn : Np.linalgNorm (List.ofFn fun e => p.x e - (step mode u d p).1.x e) with
  | error e => rw [hn] at h; cases h
  | ok δ =>
    rw [hn] at h
    dsimp only at h
    cases hd : density (K := ℝ) pdf R with
    | error e => rw [hd] at h; cases h
    | ok dens => exact ⟨dens, rfl⟩

theorem run_error {mode : Mode} {rd : Reader κ ℝ} {o : Opts ℝ} {e : PyErr} (h : runModelingWith mode rd o = .error e) : run mode rd o = .error e := by
  unfold run runModeling
  have : runModelingWith mode rd { o with base := o.base } = .error e := h
  dsimp only
  rw [this]

/-- One run, in terms of the fit. -/
theorem run_fit (mode : Mode) {rd : Reader κ ℝ} (hobs : Obs rd) {x : Arr3 (Fl ℝ) E S R} (ha : rd.scores = .ok ⟨E, S, R, x⟩)
    (z : Flag) (g pdf : Option String) (thr : Option (Fl ℝ)) {m : Method} (hm : method (optsOf z g pdf thr) = .ok m)
    (hC : numContents rd = .ok C) {cid : Fin E → Fin C} (hcid : contentIndex (contentIdOfDisVideos rd.disVideos) E C = .ok cid) :
    (∀ e, fitArr mode m pdf (thr.getD defaultThr) (⟨x, cid⟩ : Data ℝ E S R C) (meanAlongS x) = .error e →
      run mode rd (optsOf z g pdf thr) = .error e) ∧
    (∀ f dens, fitArr mode m pdf (thr.getD defaultThr) (⟨x, cid⟩ : Data ℝ E S R C) (meanAlongS x) = .ok f → density pdf R = .ok dens →
      ∃ obs, run mode rd (optsOf z g pdf thr) =
        .ok { result (κ := κ) mode (Ap.forced (optsOf z g pdf thr).base) dens (⟨x, cid⟩ : Data ℝ E S R C) ⟨E, S, R, x⟩ f with observers := obs }) := by
  have hp : preprocess rd (optsOf z g pdf thr).base = .ok { arr := ⟨E, S, R, x⟩, orig := ⟨E, S, R, x⟩ } := by
    unfold preprocess
    rw [ha]
    rfl
  obtain ⟨mos, hmos, hq⟩ := mos_run hobs ha
  have hs : ¬ (optsOf z g pdf thr).base.subjectRejection.isTrue = true := by
    show ¬ Flag.isTrue none = true
    decide
  refine ⟨fun e he => ?_, fun f dens hf hd => ?_⟩
  · apply run_error
    unfold runModelingWith
    rw [if_neg hs, hm]
    dsimp only
    rw [hp]
    dsimp only
    rw [hC]
    dsimp only
    rw [hmos]
    dsimp only
    rw [hcid]
    dsimp only
    rw [hq]
    have he' : fitArr mode m (optsOf z g pdf thr).numericalPdf ((optsOf z g pdf thr).deltaThr.getD defaultThr)
      (⟨x, cid⟩ : Data ℝ E S R C) (meanAlongS x) = .error e := he
    rw [he']
  · obtain ⟨obs, hr⟩ := run_fwd (⟨hs, hm, hp, hC, hmos, hcid, by rw [← hq] at hf; exact hf, hd, hobs⟩ :
      RunOf mode rd (optsOf z g pdf thr) { arr := ⟨E, S, R, x⟩, orig := ⟨E, S, R, x⟩ } C m mos cid f dens)
    refine ⟨obs, hr.trans ?_⟩
    rfl

theorem optsOf_method (z z' : Flag) (g pdf pdf' : Option String) (thr thr' : Option (Fl ℝ)) :
    method (optsOf z g pdf thr) = method (optsOf z' g pdf' thr') := rfl

/-- Two runs whose fits correspond. -/
theorem run_lockstep (mode : Mode) {rd rd' : Reader κ ℝ} (hobs : Obs rd) (hobs' : Obs rd') {x x' : Arr3 (Fl ℝ) E S R}
    (ha : rd.scores = .ok ⟨E, S, R, x⟩) (ha' : rd'.scores = .ok ⟨E, S, R, x'⟩) (τ : Equiv.Perm (Fin E)) (id : Fin E → Int)
    (hid : rd.disVideos.map (·.contentId) = List.ofFn id) (hid' : rd'.disVideos.map (·.contentId) = List.ofFn fun e => id (τ e))
    (href : rd'.dataset.refVideos.map (·.contentId) = rd.dataset.refVideos.map (·.contentId))
    (z : Flag) (g pdf : Option String) (thr thr' : Option (Fl ℝ)) (F : ∀ {C}, Fit ℝ E S C → Fit ℝ E S C)
    (hF : ∀ m C (cid : Fin E → Fin C), method (optsOf z g pdf thr) = .ok m → numContents rd = .ok C →
      contentIndex (contentIdOfDisVideos rd.disVideos) E C = .ok cid →
      fitArr mode m pdf (thr'.getD defaultThr) (⟨x', fun e => cid (τ e)⟩ : Data ℝ E S R C) (meanAlongS x') =
        mapOk F (fitArr mode m pdf (thr.getD defaultThr) (⟨x, cid⟩ : Data ℝ E S R C) (meanAlongS x))) :
    (∃ e, run mode rd (optsOf z g pdf thr) = .error e ∧ run mode rd' (optsOf z g pdf thr') = .error e) ∨
    ∃ (C : ℕ) (cid : Fin E → Fin C) (f : Fit ℝ E S C) (dens : Fl ℝ → Fl ℝ → Fl ℝ → Fl ℝ → Fl ℝ → Fl ℝ) (obs obs' : Option (List κ)),
      numContents rd = .ok C ∧ density pdf R = .ok dens ∧
      run mode rd (optsOf z g pdf thr) =
        .ok { result (κ := κ) mode (Ap.forced (optsOf z g pdf thr).base) dens (⟨x, cid⟩ : Data ℝ E S R C) ⟨E, S, R, x⟩ f with observers := obs } ∧
      run mode rd' (optsOf z g pdf thr') =
        .ok { result (κ := κ) mode (Ap.forced (optsOf z g pdf thr).base) dens (⟨x', fun e => cid (τ e)⟩ : Data ℝ E S R C) ⟨E, S, R, x'⟩ (F f) with observers := obs' } := by
  have hp : ∀ (rd : Reader κ ℝ) (x : Arr3 (Fl ℝ) E S R) thr, rd.scores = .ok ⟨E, S, R, x⟩ →
      preprocess rd (optsOf z g pdf thr).base = .ok { arr := ⟨E, S, R, x⟩, orig := ⟨E, S, R, x⟩ } := by
    intro rd x thr ha
    unfold preprocess
    rw [ha]
    rfl
  have hs : ∀ thr, ¬ (optsOf z g pdf thr).base.subjectRejection.isTrue = true := by
    intro thr
    show ¬ Flag.isTrue none = true
    decide
  have hC' : numContents rd' = numContents rd := by unfold numContents; rw [href]
  have hc' : ∀ C, contentIndex (contentIdOfDisVideos rd'.disVideos) E C =
      mapOk (fun cid e => cid (τ e)) (contentIndex (contentIdOfDisVideos rd.disVideos) E C) := by
    intro C
    unfold contentIdOfDisVideos
    rw [hid, hid', contentIndex_perm]
  cases hm : method (optsOf z g pdf thr) with
  | error e =>
    have hm' : method (optsOf z g pdf thr') = .error e := hm
    exact Or.inl ⟨e, run_error (by unfold runModelingWith; rw [if_neg (hs _), hm]), run_error (by unfold runModelingWith; rw [if_neg (hs _), hm'])⟩
  | ok m =>
    have hm' : method (optsOf z g pdf thr') = .ok m := hm
    cases hC : numContents rd with
    | error e =>
      rw [hC] at hC'
      refine Or.inl ⟨e, run_error ?_, run_error ?_⟩
      · unfold runModelingWith
        rw [if_neg (hs _), hm]
        dsimp only
        rw [hp rd x thr ha]
        dsimp only
        rw [hC]
      · unfold runModelingWith
        rw [if_neg (hs _), hm']
        dsimp only
        rw [hp rd' x' thr' ha']
        dsimp only
        rw [hC']
    | ok C =>
      rw [hC] at hC'
      cases hcid : contentIndex (contentIdOfDisVideos rd.disVideos) E C with
      | error e =>
        have hcid' := hc' C
        rw [hcid] at hcid'
        obtain ⟨mos, hmos, hq⟩ := mos_run hobs ha
        obtain ⟨mos', hmos', hq'⟩ := mos_run hobs' ha'
        refine Or.inl ⟨e, run_error ?_, run_error ?_⟩
        · unfold runModelingWith
          rw [if_neg (hs _), hm]
          dsimp only
          rw [hp rd x thr ha]
          dsimp only
          rw [hC]
          dsimp only
          rw [hmos]
          dsimp only
          rw [hcid]
        · unfold runModelingWith
          rw [if_neg (hs _), hm']
          dsimp only
          rw [hp rd' x' thr' ha']
          dsimp only
          rw [hC']
          dsimp only
          rw [hmos']
          dsimp only
          rw [hcid']
          rfl
      | ok cid =>
        have hcid' := hc' C
        rw [hcid] at hcid'
        have hcid' : contentIndex (contentIdOfDisVideos rd'.disVideos) E C = .ok fun e => cid (τ e) := hcid'
        have hfit := hF m C cid hm hC hcid
        have r1 := run_fit mode hobs ha z g pdf thr hm hC hcid
        have r2 := run_fit mode hobs' ha' z g pdf thr' hm' hC' hcid'
        cases hf : fitArr mode m pdf (thr.getD defaultThr) (⟨x, cid⟩ : Data ℝ E S R C) (meanAlongS x) with
        | error e =>
          rw [hf] at hfit
          exact Or.inl ⟨e, r1.1 e hf, r2.1 e hfit⟩
        | ok f =>
          rw [hf] at hfit
          have hfit : _ = Except.ok (F f) := hfit
          obtain ⟨u, hu, hl⟩ := fitArr_inv hf
          obtain ⟨dens, hd⟩ := loop_dens hl
          obtain ⟨obs, h1⟩ := r1.2 f dens hf hd
          obtain ⟨obs', h2⟩ := r2.2 (F f) dens hfit hd
          exact Or.inr ⟨C, cid, f, dens, obs, obs', rfl, hd, h1, h2⟩

end Sureal.Mle
