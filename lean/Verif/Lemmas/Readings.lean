import Verif.Lemmas.Mle
import Verif.Model.Readings
/-!
# Runs of the maximum likelihood models that read the votes twice

As `run_inv`, `run_fwd` and `run_of_once` in `Lemmas/Mle`, where both readings are the same.
-/
set_option linter.unusedSectionVars false
namespace Sureal.Mle
variable {κ K : Type} [Field K] [LinearOrder K] [IsStrictOrderedRing K] [MathFn K] {E S R C : ℕ}

theorem runTwo_same (mode : Mode) (rd : Reader κ K) (o : Opts K) : runTwo mode rd rd o = run mode rd o := rfl

/-- what a completed run consists of -/
structure RunTwo (mode : Mode) (rd rd2 : Reader κ K) (o : Opts K) (p : Prep K) (C : ℕ) (m : Method) (mos : Result κ K)
    (cid : Fin p.arr.E → Fin C) (f : Fit K p.arr.E p.arr.S C)
    (dens : Fl K → Fl K → Fl K → Fl K → Fl K → Fl K) : Prop where
  hsr : ¬ o.base.subjectRejection.isTrue = true
  hm : method o = .ok m
  hp : preprocess rd o.base = .ok p
  hC : numContents rd = .ok C
  hmos : runMOS rd2 {} = .ok mos
  hcid : contentIndex (contentIdOfDisVideos rd.disVideos) p.arr.E C = .ok cid
  hf : fitArr mode m o.numericalPdf (o.deltaThr.getD defaultThr) (⟨p.arr.get, cid⟩ : Data K p.arr.E p.arr.S p.arr.R C)
    (fun e => (mos.qualityScores[e.val]?).getD .nan) = .ok f
  hdens : density o.numericalPdf p.arr.R = .ok dens
  hobs : (∃ l, rd.observers = .ok l) ∨ rd.observers = .error .assertion

theorem runTwo_inv {mode : Mode} {rd rd2 : Reader κ K} {o : Opts K} {res : Result κ K} (h : runTwo mode rd rd2 o = .ok res) :
    ∃ (p : Prep K) (C : ℕ) (m : Method) (mos : Result κ K) (cid : Fin p.arr.E → Fin C)
      (f : Fit K p.arr.E p.arr.S C) (dens : Fl K → Fl K → Fl K → Fl K → Fl K → Fl K) (obs : Option (List κ)),
      RunTwo mode rd rd2 o p C m mos cid f dens ∧
      res = { result (κ := κ) mode (Ap.forced o.base) dens ⟨p.arr.get, cid⟩ p.orig f with
        observers := obs
        qualityScores := postprocessScores o.base (List.ofFn (centre (Ap.forced o.base) f.p).x) } := by
  unfold runTwo runModeling at h
  cases hr : runModelingTwo mode rd rd2 { o with base := o.base } with
  | error e => simp only [hr] at h; cases h
  | ok res0 =>
    simp only [hr] at h
    have hres : ∃ obs', res = { res0 with observers := obs', qualityScores := postprocessScores o.base res0.qualityScores } := by
      cases hobs : rd.observers with
      | ok l =>
        rw [hobs] at h
        cases h
        exact ⟨_, rfl⟩
      | error e =>
        rw [hobs] at h
        cases e <;> dsimp only at h <;> cases h
        all_goals exact ⟨_, rfl⟩
    obtain ⟨obs', hres⟩ := hres
    unfold runModelingTwo at hr
    by_cases hsr : o.base.subjectRejection.isTrue = true
    · rw [if_pos hsr] at hr; cases hr
    rw [if_neg hsr] at hr
    cases hm : method o with
    | error e =>
      have hm' : method { o with base := o.base } = .error e := hm
      rw [hm'] at hr; cases hr
    | ok m =>
      have hm' : method { o with base := o.base } = .ok m := hm
      rw [hm'] at hr
      cases hp : preprocess rd o.base with
      | error e => rw [hp] at hr; cases hr
      | ok p =>
        rw [hp] at hr
        dsimp only at hr
        cases hC : numContents rd with
        | error e => rw [hC] at hr; cases hr
        | ok C =>
          rw [hC] at hr
          dsimp only at hr
          cases hmos : runMOS rd2 {} with
          | error e => rw [hmos] at hr; cases hr
          | ok mos =>
            rw [hmos] at hr
            dsimp only at hr
            cases hcid : contentIndex (contentIdOfDisVideos rd.disVideos) p.arr.E C with
            | error e => rw [hcid] at hr; cases hr
            | ok cid =>
              rw [hcid] at hr
              dsimp only at hr
              cases hf : fitArr mode m o.numericalPdf (o.deltaThr.getD defaultThr) (⟨p.arr.get, cid⟩ : Data K p.arr.E p.arr.S p.arr.R C)
                  (fun e => (mos.qualityScores[e.val]?).getD .nan) with
              | error e => rw [hf] at hr; cases hr
              | ok f =>
                rw [hf] at hr
                dsimp only at hr
                have key : ∀ obs, runModelingWith.finish mode { o with base := o.base } p C ⟨p.arr.get, cid⟩ f obs = .ok res0 →
                    ∃ dens, density o.numericalPdf p.arr.R = .ok dens ∧
                      res0 = { result (κ := κ) mode (Ap.forced o.base) dens ⟨p.arr.get, cid⟩ p.orig f with observers := obs } := by
                  intro obs hfin
                  unfold runModelingWith.finish at hfin
                  cases hdens : density (K := K) o.numericalPdf p.arr.R with
                  | error e => simp only [hdens] at hfin; cases hfin
                  | ok dens =>
                    simp only [hdens] at hfin
                    cases hfin
                    exact ⟨dens, rfl, rfl⟩
                have hex : ((∃ l, rd.observers = .ok l) ∨ rd.observers = .error .assertion) ∧
                    ∃ obs, runModelingWith.finish mode { o with base := o.base } p C ⟨p.arr.get, cid⟩ f obs = .ok res0 := by
                  cases hobs : rd.observers with
                  | ok l => rw [hobs] at hr; exact ⟨Or.inl ⟨l, rfl⟩, _, hr⟩
                  | error e =>
                    rw [hobs] at hr
                    dsimp only at hr
                    split at hr
                    · rename_i he; exact ⟨Or.inr (by rw [he]), _, hr⟩
                    · cases hr
                obtain ⟨hobs, obs, hfin⟩ := hex
                obtain ⟨dens, hdens, h0⟩ := key obs hfin
                refine ⟨p, C, m, mos, cid, f, dens, obs', ⟨hsr, hm, hp, hC, hmos, hcid, hf, hdens, hobs⟩, ?_⟩
                rw [hres, h0]
                rfl

theorem runTwo_fwd {mode : Mode} {rd rd2 : Reader κ K} {o : Opts K} {p : Prep K} {C : ℕ} {m : Method} {mos : Result κ K}
    {cid : Fin p.arr.E → Fin C} {f : Fit K p.arr.E p.arr.S C} {dens : Fl K → Fl K → Fl K → Fl K → Fl K → Fl K}
    (h : RunTwo mode rd rd2 o p C m mos cid f dens) :
    ∃ obs, runTwo mode rd rd2 o = .ok { result (κ := κ) mode (Ap.forced o.base) dens ⟨p.arr.get, cid⟩ p.orig f with
        observers := obs
        qualityScores := postprocessScores o.base (List.ofFn (centre (Ap.forced o.base) f.p).x) } := by
  obtain ⟨hsr, hm, hp, hC, hmos, hcid, hf, hdens, hobs⟩ := h
  have hm' : method { o with base := o.base } = .ok m := hm
  have h0 : ∃ obs, runModelingTwo mode rd rd2 { o with base := o.base } =
      .ok { result (κ := κ) mode (Ap.forced o.base) dens ⟨p.arr.get, cid⟩ p.orig f with observers := obs } := by
    unfold runModelingTwo
    rw [if_neg hsr, hm']
    dsimp only
    rw [hp]
    dsimp only
    rw [hC]
    dsimp only
    rw [hmos]
    dsimp only
    rw [hcid]
    dsimp only
    rw [hf]
    dsimp only
    rcases hobs with ⟨l, hl⟩ | hl <;> rw [hl] <;> dsimp only
    · refine ⟨some l, ?_⟩
      unfold runModelingWith.finish
      simp only [hdens]
    · refine ⟨none, ?_⟩
      rw [if_pos rfl]
      unfold runModelingWith.finish
      simp only [hdens]
  obtain ⟨obs, h0⟩ := h0
  unfold runTwo runModeling
  simp only [h0]
  rcases hobs with ⟨l, hl⟩ | hl <;> rw [hl]
  · exact ⟨_, rfl⟩
  · exact ⟨_, rfl⟩

/-- The quality scores and biases of a run that stops after its first pass (for examples; `none` otherwise). -/
def onceTwo (mode : Mode) (rd rd2 : Reader κ K) (o : Opts K) : Option (List (Fl K) × Option (List (Fl K))) :=
  if o.base.subjectRejection.isTrue then none else
  match method o, preprocess rd o.base, numContents rd, runMOS rd2 {} with
  | .ok m, .ok p, .ok C, .ok mos =>
    match contentIndex (contentIdOfDisVideos rd.disVideos) p.arr.E C with
    | .error _ => none
    | .ok cid =>
      match updates (K := K) (E := p.arr.E) (S := p.arr.S) (R := p.arr.R) (C := C) m o.numericalPdf,
        density (K := K) o.numericalPdf p.arr.R with
      | .ok u, .ok _ =>
        let d : Data K p.arr.E p.arr.S p.arr.R C := ⟨p.arr.get, cid⟩
        let q := init mode d (fun e => (mos.qualityScores[e.val]?).getD .nan)
        let t := (step mode u d q).1
        match Np.linalgNorm (List.ofFn fun e => q.x e - t.x e) with
        | .error _ => none
        | .ok delta =>
          if delta.lt (o.deltaThr.getD defaultThr) then
            match rd.observers with
            | .ok _ | .error .assertion =>
              some (postprocessScores o.base (List.ofFn (centre (Ap.forced o.base) t).x),
                if mode = .subjectOblivious then none else some (List.ofFn (centre (Ap.forced o.base) t).b))
            | _ => none
          else none
      | _, _ => none
  | _, _, _, _ => none

theorem runTwo_of_once {mode : Mode} {rd rd2 : Reader κ K} {o : Opts K} {out : List (Fl K) × Option (List (Fl K))}
    (h : onceTwo mode rd rd2 o = some out) :
    ∃ res, runTwo mode rd rd2 o = .ok res ∧ res.qualityScores = out.1 ∧ res.observerBias = out.2 ∧ res.numIter = some 1 := by
  unfold onceTwo at h
  split at h
  · cases h
  rename_i hsr
  split at h
  case h_2 => cases h
  rename_i m p C mos hm hp hC hmos
  split at h
  · cases h
  rename_i cid hcid
  split at h
  case h_2 => cases h
  rename_i u dens hu hdens
  dsimp only at h
  split at h
  · cases h
  rename_i delta hdelta
  split at h
  case isFalse => cases h
  rename_i hlt
  have hf : fitArr mode m o.numericalPdf (o.deltaThr.getD defaultThr) (⟨p.arr.get, cid⟩ : Data K p.arr.E p.arr.S p.arr.R C)
      (fun e => (mos.qualityScores[e.val]?).getD .nan) =
      .ok ⟨(step mode u (⟨p.arr.get, cid⟩ : Data K p.arr.E p.arr.S p.arr.R C) (init mode ⟨p.arr.get, cid⟩ (fun e => (mos.qualityScores[e.val]?).getD .nan))).1,
        (step mode u (⟨p.arr.get, cid⟩ : Data K p.arr.E p.arr.S p.arr.R C) (init mode ⟨p.arr.get, cid⟩ (fun e => (mos.qualityScores[e.val]?).getD .nan))).2, 1⟩ := by
    unfold fitArr
    rw [hu]
    dsimp only
    exact loop_stop hdens (by rw [hdelta]; exact hlt) 0
  have hobs : ((∃ l, rd.observers = .ok l) ∨ rd.observers = .error .assertion) ∧
      out = (postprocessScores o.base (List.ofFn (centre (Ap.forced o.base) (step mode u (⟨p.arr.get, cid⟩ : Data K p.arr.E p.arr.S p.arr.R C) (init mode ⟨p.arr.get, cid⟩ (fun e => (mos.qualityScores[e.val]?).getD .nan))).1).x),
                if mode = .subjectOblivious then none else some (List.ofFn (centre (Ap.forced o.base) (step mode u (⟨p.arr.get, cid⟩ : Data K p.arr.E p.arr.S p.arr.R C) (init mode ⟨p.arr.get, cid⟩ (fun e => (mos.qualityScores[e.val]?).getD .nan))).1).b)) := by
    split at h
    · rename_i l hl; cases h; exact ⟨Or.inl ⟨l, hl⟩, rfl⟩
    · rename_i hl; cases h; exact ⟨Or.inr hl, rfl⟩
    · cases h
  obtain ⟨ho, hout⟩ := hobs
  obtain ⟨obs, hr⟩ := runTwo_fwd (⟨hsr, hm, hp, hC, hmos, hcid, hf, hdens, ho⟩ : RunTwo mode rd rd2 o p C m mos cid _ dens)
  exact ⟨_, hr, by rw [hout], by rw [hout]; rfl, rfl⟩

end Sureal.Mle
