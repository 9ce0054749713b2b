import Verif.Model.Mle
import Verif.Lemmas.Ap
/-! Helper lemmas for the MLE models. -/
set_option linter.unusedSectionVars false
namespace Sureal.Mle
open Sureal Spec
variable {κ K : Type} [Field K] [LinearOrder K] [IsStrictOrderedRing K] [MathFn K]
variable {E S R C : ℕ}

theorem loop_unfold (mode : Mode) (u : Updates K E S R C) (pdf : Option String) (thr : Fl K) (d : Data K E S R C)
    (itr : Nat) (p : Params K E S C) :
    loop mode u pdf thr d itr p =
      match Np.linalgNorm (List.ofFn fun e => p.x e - (step mode u d p).1.x e) with
      | .error e => .error e
      | .ok delta =>
        match density (K := K) pdf R with
        | .error e => .error e
        | .ok _ =>
          if delta.lt thr then .ok ⟨(step mode u d p).1, (step mode u d p).2, itr + 1⟩
          else if maxItr ≤ itr + 1 then .ok ⟨(step mode u d p).1, (step mode u d p).2, itr + 1⟩
          else loop mode u pdf thr d (itr + 1) (step mode u d p).1 := by
  rw [loop]
  cases Np.linalgNorm (List.ofFn fun e => p.x e - (step mode u d p).1.x e) with
  | error e => rfl
  | ok delta => cases density (K := K) pdf R <;> rfl

/-- the loop returns the outcome of a pass through its body -/
theorem loop_out {mode : Mode} {u : Updates K E S R C} {pdf : Option String} {thr : Fl K} {d : Data K E S R C}
    {f : Fit K E S C} (n itr : ℕ) (hn : maxItr - itr = n) (hi : itr < maxItr) (p : Params K E S C)
    (h : loop mode u pdf thr d itr p = .ok f) :
    (∃ q, f.p = (step mode u d q).1 ∧ f.std = (step mode u d q).2) ∧ itr + 1 ≤ f.itr ∧ f.itr ≤ maxItr := by
  induction n generalizing itr p with
  | zero => omega
  | succ n ih =>
    rw [loop_unfold] at h
    cases hd : Np.linalgNorm (List.ofFn fun e => p.x e - (step mode u d p).1.x e) with
    | error e => rw [hd] at h; cases h
    | ok delta =>
      rw [hd] at h
      dsimp only at h
      cases hdens : density (K := K) pdf R with
      | error e => rw [hdens] at h; cases h
      | ok dens =>
        rw [hdens] at h
        dsimp only at h
        split at h
        · cases h; exact ⟨⟨p, rfl, rfl⟩, le_refl _, hi⟩
        · split at h
          · cases h; exact ⟨⟨p, rfl, rfl⟩, le_refl _, hi⟩
          · obtain ⟨h1, h2, h3⟩ := ih (itr + 1) (by omega) (by omega) _ h
            exact ⟨h1, by omega, h3⟩

/-- what a completed run consists of -/
structure RunOf (mode : Mode) (rd : Reader κ K) (o : Opts K) (p : Prep K) (C : ℕ) (m : Method) (mos : Result κ K)
    (cid : Fin p.arr.E → Fin C) (f : Fit K p.arr.E p.arr.S C)
    (dens : Fl K → Fl K → Fl K → Fl K → Fl K → Fl K) : Prop where
  hsr : ¬ o.base.subjectRejection.isTrue = true
  hm : method o = .ok m
  hp : preprocess rd o.base = .ok p
  hC : numContents rd = .ok C
  hmos : runMOS rd {} = .ok mos
  hcid : contentIndex (contentIdOfDisVideos rd.disVideos) p.arr.E C = .ok cid
  hf : fitArr mode m o.numericalPdf (o.deltaThr.getD defaultThr) (⟨p.arr.get, cid⟩ : Data K p.arr.E p.arr.S p.arr.R C)
    (fun e => (mos.qualityScores[e.val]?).getD .nan) = .ok f
  hdens : density o.numericalPdf p.arr.R = .ok dens
  hobs : (∃ l, rd.observers = .ok l) ∨ rd.observers = .error .assertion

theorem run_inv {mode : Mode} {rd : Reader κ K} {o : Opts K} {res : Result κ K} (h : run mode rd o = .ok res) :
    ∃ (p : Prep K) (C : ℕ) (m : Method) (mos : Result κ K) (cid : Fin p.arr.E → Fin C)
      (f : Fit K p.arr.E p.arr.S C) (dens : Fl K → Fl K → Fl K → Fl K → Fl K → Fl K) (obs : Option (List κ)),
      RunOf mode rd o p C m mos cid f dens ∧
      res = { result (κ := κ) mode (Ap.forced o.base) dens ⟨p.arr.get, cid⟩ p.orig f with
        observers := obs
        qualityScores := postprocessScores o.base (List.ofFn (centre (Ap.forced o.base) f.p).x) } := by
  unfold run runModeling at h
  cases hr : runModelingWith mode rd { o with base := o.base } with
  | error e => simp only [hr] at h; cases h
  | ok res0 =>
    simp only [hr] at h
    have hres : ∃ obs', res = { res0 with observers := obs', qualityScores := postprocessScores o.base res0.qualityScores } := by
      cases hobs : rd.observers with
      | ok l =>
        rw [hobs] at h
        cases h
        exact ⟨_, rfl⟩
      | error e =>
        rw [hobs] at h
        cases e <;> dsimp only at h <;> cases h
        all_goals exact ⟨_, rfl⟩
    obtain ⟨obs', hres⟩ := hres
    unfold runModelingWith at hr
    dsimp only at hr
    by_cases hsr : o.base.subjectRejection.isTrue = true
    · rw [if_pos hsr] at hr; cases hr
    rw [if_neg hsr] at hr
    cases hm : method o with
    | error e =>
      have hm' : method { o with base := o.base } = .error e := hm
      rw [hm'] at hr; cases hr
    | ok m =>
      have hm' : method { o with base := o.base } = .ok m := hm
      rw [hm'] at hr
      cases hp : preprocess rd o.base with
      | error e => rw [hp] at hr; cases hr
      | ok p =>
        rw [hp] at hr
        dsimp only at hr
        cases hC : numContents rd with
        | error e => rw [hC] at hr; cases hr
        | ok C =>
          rw [hC] at hr
          dsimp only at hr
          cases hmos : runMOS rd {} with
          | error e => rw [hmos] at hr; cases hr
          | ok mos =>
            rw [hmos] at hr
            dsimp only at hr
            cases hcid : contentIndex (contentIdOfDisVideos rd.disVideos) p.arr.E C with
            | error e => rw [hcid] at hr; cases hr
            | ok cid =>
              rw [hcid] at hr
              dsimp only at hr
              cases hf : fitArr mode m o.numericalPdf (o.deltaThr.getD defaultThr) (⟨p.arr.get, cid⟩ : Data K p.arr.E p.arr.S p.arr.R C)
                  (fun e => (mos.qualityScores[e.val]?).getD .nan) with
              | error e => rw [hf] at hr; cases hr
              | ok f =>
                rw [hf] at hr
                dsimp only at hr
                have key : ∀ obs, runModelingWith.finish mode { o with base := o.base } p C ⟨p.arr.get, cid⟩ f obs = .ok res0 →
                    ∃ dens, density o.numericalPdf p.arr.R = .ok dens ∧
                      res0 = { result (κ := κ) mode (Ap.forced o.base) dens ⟨p.arr.get, cid⟩ p.orig f with observers := obs } := by
                  intro obs hfin
                  unfold runModelingWith.finish at hfin
                  cases hdens : density (K := K) o.numericalPdf p.arr.R with
                  | error e => simp only [hdens] at hfin; cases hfin
                  | ok dens =>
                    simp only [hdens] at hfin
                    cases hfin
                    exact ⟨dens, rfl, rfl⟩
                have hex : ((∃ l, rd.observers = .ok l) ∨ rd.observers = .error .assertion) ∧
                    ∃ obs, runModelingWith.finish mode { o with base := o.base } p C ⟨p.arr.get, cid⟩ f obs = .ok res0 := by
                  cases hobs : rd.observers with
                  | ok l => rw [hobs] at hr; exact ⟨Or.inl ⟨l, rfl⟩, _, hr⟩
                  | error e =>
                    rw [hobs] at hr
                    dsimp only at hr
                    split at hr
                    · rename_i he; exact ⟨Or.inr (by rw [he]), _, hr⟩
                    · cases hr
                obtain ⟨hobs, obs, hfin⟩ := hex
                obtain ⟨dens, hdens, h0⟩ := key obs hfin
                refine ⟨p, C, m, mos, cid, f, dens, obs', ⟨hsr, hm, hp, hC, hmos, hcid, hf, hdens, hobs⟩, ?_⟩
                rw [hres, h0]
                rfl

theorem run_fwd {mode : Mode} {rd : Reader κ K} {o : Opts K} {p : Prep K} {C : ℕ} {m : Method} {mos : Result κ K}
    {cid : Fin p.arr.E → Fin C} {f : Fit K p.arr.E p.arr.S C} {dens : Fl K → Fl K → Fl K → Fl K → Fl K → Fl K}
    (h : RunOf mode rd o p C m mos cid f dens) :
    ∃ obs, run mode rd o = .ok { result (κ := κ) mode (Ap.forced o.base) dens ⟨p.arr.get, cid⟩ p.orig f with
        observers := obs
        qualityScores := postprocessScores o.base (List.ofFn (centre (Ap.forced o.base) f.p).x) } := by
  obtain ⟨hsr, hm, hp, hC, hmos, hcid, hf, hdens, hobs⟩ := h
  have hm' : method { o with base := o.base } = .ok m := hm
  have h0 : ∃ obs, runModelingWith mode rd { o with base := o.base } =
      .ok { result (κ := κ) mode (Ap.forced o.base) dens ⟨p.arr.get, cid⟩ p.orig f with observers := obs } := by
    unfold runModelingWith
    rw [if_neg hsr, hm']
    dsimp only
    rw [hp]
    dsimp only
    rw [hC]
    dsimp only
    rw [hmos]
    dsimp only
    rw [hcid]
    dsimp only
    rw [hf]
    dsimp only
    rcases hobs with ⟨l, hl⟩ | hl <;> rw [hl] <;> dsimp only
    · refine ⟨some l, ?_⟩
      unfold runModelingWith.finish
      simp only [hdens]
    · refine ⟨none, ?_⟩
      rw [if_pos rfl]
      unfold runModelingWith.finish
      simp only [hdens]
  obtain ⟨obs, h0⟩ := h0
  unfold run runModeling
  simp only [h0]
  rcases hobs with ⟨l, hl⟩ | hl <;> rw [hl]
  · exact ⟨_, rfl⟩
  · exact ⟨_, rfl⟩

theorem fitArr_inv {mode : Mode} {m : Method} {pdf : Option String} {thr : Fl K} {d : Data K E S R C} {mos : Arr1 (Fl K) E}
    {f : Fit K E S C} (h : fitArr mode m pdf thr d mos = .ok f) :
    ∃ u : Updates K E S R C, updates m pdf = .ok u ∧ loop mode u pdf thr d 0 (init mode d mos) = .ok f := by
  unfold fitArr at h
  cases hu : updates (K := K) (E := E) (S := S) (R := R) (C := C) m pdf with
  | error e => rw [hu] at h; cases h
  | ok u => rw [hu] at h; exact ⟨u, rfl, h⟩

/-- the loop when the first pass is the last one -/
theorem loop_stop {mode : Mode} {u : Updates K E S R C} {pdf : Option String} {thr : Fl K} {d : Data K E S R C}
    {p : Params K E S C} {dens : Fl K → Fl K → Fl K → Fl K → Fl K → Fl K}
    (hd : density (K := K) pdf R = .ok dens)
    (h : (match Np.linalgNorm (List.ofFn fun e => p.x e - (step mode u d p).1.x e) with
      | .ok delta => delta.lt thr
      | .error _ => false) = true) (itr : ℕ) :
    loop mode u pdf thr d itr p = .ok ⟨(step mode u d p).1, (step mode u d p).2, itr + 1⟩ := by
  rw [loop_unfold]
  cases hn : Np.linalgNorm (List.ofFn fun e => p.x e - (step mode u d p).1.x e) with
  | error e => rw [hn] at h; cases h
  | ok delta =>
    rw [hn] at h
    dsimp only at h ⊢
    rw [hd]
    dsimp only
    rw [if_pos h]

theorem nansum_all_nan (l : List (Fl K)) (h : ∀ x ∈ l, x = .nan) : Np.nansum l = 0 := by
  have : Np.notNan l = [] := by
    unfold Np.notNan
    rw [List.filter_eq_nil_iff]
    intro x hx
    rw [h x hx]
    simp [Fl.isNan]
  unfold Np.nansum
  rw [this]
  rfl

theorem sumE_all_nan (f : Arr3 (Fl K) E S R) (s : Fin S) (h : ∀ e r, f e s r = .nan) : sumE f s = 0 := by
  unfold sumE
  apply nansum_all_nan
  intro x hx
  obtain ⟨e, r, rfl⟩ := (mem_observerCells f s x).mp ((colL_stack0_perm f s).mem_iff.mp hx)
  exact h e r

theorem refresh_nan (x : Fl K) : refresh x .nan = .nan := by
  unfold refresh
  simp

/-- an observer without votes gets the bias NaN -/
theorem silent_bias {m : Method} {pdf : Option String} {u : Updates K E S R C} (hm : m ≠ .numerical)
    (hu : updates m pdf = .ok u) (d : Data K E S R C) (p : Params K E S C) (s : Fin S) (h : ∀ e r, d.x e s r = .nan) :
    (u.b d p).1 s = .nan := by
  have h00 : (0 : Fl K) / 0 = .nan := Fl.zero_div_zero
  cases m with
  | numerical => exact absurd rfl hm
  | simplified =>
    cases hu
    show refresh (p.b s) (sumE _ s / sumE _ s) = .nan
    rw [sumE_all_nan _ _ (by intro e r; rw [h]; simp), sumE_all_nan _ _ (by intro e r; rw [h]; simp [oneOrNan, Fl.isNan]),
      h00, refresh_nan]
  | original =>
    cases hu
    show refresh (p.b s) (p.b s - sumE _ s / sumE _ s) = .nan
    rw [sumE_all_nan _ _ (by intro e r; rw [h]; simp), sumE_all_nan _ _ (by intro e r; rw [h]; simp [oneOrNan, Fl.isNan]),
      h00, Fl.sub_nan, refresh_nan]

/-- The quality scores and biases of a run that stops after its first pass (for examples; `none` otherwise). -/
def once (mode : Mode) (rd : Reader κ K) (o : Opts K) : Option (List (Fl K) × Option (List (Fl K))) :=
  if o.base.subjectRejection.isTrue then none else
  match method o, preprocess rd o.base, numContents rd, runMOS rd {} with
  | .ok m, .ok p, .ok C, .ok mos =>
    match contentIndex (contentIdOfDisVideos rd.disVideos) p.arr.E C with
    | .error _ => none
    | .ok cid =>
      match updates (K := K) (E := p.arr.E) (S := p.arr.S) (R := p.arr.R) (C := C) m o.numericalPdf,
        density (K := K) o.numericalPdf p.arr.R with
      | .ok u, .ok _ =>
        let d : Data K p.arr.E p.arr.S p.arr.R C := ⟨p.arr.get, cid⟩
        let q := init mode d (fun e => (mos.qualityScores[e.val]?).getD .nan)
        let t := (step mode u d q).1
        match Np.linalgNorm (List.ofFn fun e => q.x e - t.x e) with
        | .error _ => none
        | .ok delta =>
          if delta.lt (o.deltaThr.getD defaultThr) then
            match rd.observers with
            | .ok _ | .error .assertion =>
              some (postprocessScores o.base (List.ofFn (centre (Ap.forced o.base) t).x),
                if mode = .subjectOblivious then none else some (List.ofFn (centre (Ap.forced o.base) t).b))
            | _ => none
          else none
      | _, _ => none
  | _, _, _, _ => none

theorem run_of_once {mode : Mode} {rd : Reader κ K} {o : Opts K} {out : List (Fl K) × Option (List (Fl K))}
    (h : once mode rd o = some out) :
    ∃ res, run mode rd o = .ok res ∧ res.qualityScores = out.1 ∧ res.observerBias = out.2 ∧ res.numIter = some 1 := by
  unfold once at h
  split at h
  · cases h
  rename_i hsr
  split at h
  case h_2 => cases h
  rename_i m p C mos hm hp hC hmos
  split at h
  · cases h
  rename_i cid hcid
  split at h
  case h_2 => cases h
  rename_i u dens hu hdens
  dsimp only at h
  split at h
  · cases h
  rename_i delta hdelta
  split at h
  case isFalse => cases h
  rename_i hlt
  have hf : fitArr mode m o.numericalPdf (o.deltaThr.getD defaultThr) (⟨p.arr.get, cid⟩ : Data K p.arr.E p.arr.S p.arr.R C)
      (fun e => (mos.qualityScores[e.val]?).getD .nan) =
      .ok ⟨(step mode u (⟨p.arr.get, cid⟩ : Data K p.arr.E p.arr.S p.arr.R C) (init mode ⟨p.arr.get, cid⟩ (fun e => (mos.qualityScores[e.val]?).getD .nan))).1,
        (step mode u (⟨p.arr.get, cid⟩ : Data K p.arr.E p.arr.S p.arr.R C) (init mode ⟨p.arr.get, cid⟩ (fun e => (mos.qualityScores[e.val]?).getD .nan))).2, 1⟩ := by
    unfold fitArr
    rw [hu]
    dsimp only
    exact loop_stop hdens (by rw [hdelta]; exact hlt) 0
  have hobs : ((∃ l, rd.observers = .ok l) ∨ rd.observers = .error .assertion) ∧
      out = (postprocessScores o.base (List.ofFn (centre (Ap.forced o.base) (step mode u (⟨p.arr.get, cid⟩ : Data K p.arr.E p.arr.S p.arr.R C) (init mode ⟨p.arr.get, cid⟩ (fun e => (mos.qualityScores[e.val]?).getD .nan))).1).x),
                if mode = .subjectOblivious then none else some (List.ofFn (centre (Ap.forced o.base) (step mode u (⟨p.arr.get, cid⟩ : Data K p.arr.E p.arr.S p.arr.R C) (init mode ⟨p.arr.get, cid⟩ (fun e => (mos.qualityScores[e.val]?).getD .nan))).1).b)) := by
    split at h
    · rename_i l hl; cases h; exact ⟨Or.inl ⟨l, hl⟩, rfl⟩
    · rename_i hl; cases h; exact ⟨Or.inr hl, rfl⟩
    · cases h
  obtain ⟨ho, hout⟩ := hobs
  obtain ⟨obs, hr⟩ := run_fwd (⟨hsr, hm, hp, hC, hmos, hcid, hf, hdens, ho⟩ : RunOf mode rd o p C m mos cid _ dens)
  exact ⟨_, hr, by rw [hout], by rw [hout]; rfl, rfl⟩

end Sureal.Mle
