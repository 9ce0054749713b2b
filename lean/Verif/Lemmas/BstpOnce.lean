import Verif.Lemmas.BstpRun
/-! Runs of the bootstrapping models all of whose fits stop after the first pass (for examples). -/
set_option linter.unusedSectionVars false
namespace Sureal
variable {κ K : Type} [LinearOrder κ] [Field K] [LinearOrder K] [IsStrictOrderedRing K] [MathFn K]

/-- the estimates of a fit -/
structure Est (K : Type) where
  q : List (Fl K)
  b : List (Fl K)
  v : List (Fl K)
  deriving DecidableEq

/-- scores, biases and inconsistencies of a fit that stops after its first pass -/
def Mle.onceFull (mode : Mle.Mode) (rd : Reader κ K) (o : Mle.Opts K) : Option (Est K) :=
  if o.base.subjectRejection.isTrue ∨ mode = .subjectOblivious then none else
  match Mle.method o, preprocess rd o.base, Mle.numContents rd, runMOS rd {} with
  | .ok m, .ok p, .ok C, .ok mos =>
    match Mle.contentIndex (contentIdOfDisVideos rd.disVideos) p.arr.E C with
    | .error _ => none
    | .ok cid =>
      match Mle.updates (K := K) (E := p.arr.E) (S := p.arr.S) (R := p.arr.R) (C := C) m o.numericalPdf,
        Mle.density (K := K) o.numericalPdf p.arr.R with
      | .ok u, .ok _ =>
        let d : Mle.Data K p.arr.E p.arr.S p.arr.R C := ⟨p.arr.get, cid⟩
        let q := Mle.init mode d (fun e => (mos.qualityScores[e.val]?).getD .nan)
        let t := (Mle.step mode u d q).1
        match Np.linalgNorm (List.ofFn fun e => q.x e - t.x e) with
        | .error _ => none
        | .ok delta =>
          if delta.lt (o.deltaThr.getD Mle.defaultThr) then
            match rd.observers with
            | .ok _ | .error .assertion =>
              let c := Mle.centre (Ap.forced o.base) t
              some ⟨List.ofFn c.x, List.ofFn c.b, List.ofFn c.v⟩
            | _ => none
          else none
      | _, _ => none
  | _, _, _, _ => none

theorem Mle.rm_of_onceFull {mode : Mle.Mode} {rd : Reader κ K} {o : Mle.Opts K} {est : Est K} (h : Mle.onceFull mode rd o = some est) :
    ∃ r, Mle.runModelingWith mode rd o = .ok r ∧ r.qualityScores = est.q ∧ r.observerBias = some est.b ∧
      r.observerInconsistency = some est.v ∧ Mle.ObsOf rd r.observers := by
  unfold Mle.onceFull at h
  split at h
  · cases h
  rename_i hc
  have hsr : ¬ o.base.subjectRejection.isTrue = true := fun h' => hc (Or.inl h')
  have hmode : mode ≠ .subjectOblivious := fun h' => hc (Or.inr h')
  split at h
  case h_2 => cases h
  rename_i m p C mos hm hp hC hmos
  split at h
  · cases h
  rename_i cid hcid
  split at h
  case h_2 => cases h
  rename_i u dens hu hdens
  dsimp only at h
  split at h
  · cases h
  rename_i delta hdelta
  split at h
  case isFalse => cases h
  rename_i hlt
  have hf : Mle.fitArr mode m o.numericalPdf (o.deltaThr.getD Mle.defaultThr) (⟨p.arr.get, cid⟩ : Mle.Data K p.arr.E p.arr.S p.arr.R C)
      (fun e => (mos.qualityScores[e.val]?).getD .nan) =
      .ok ⟨(Mle.step mode u (⟨p.arr.get, cid⟩ : Mle.Data K p.arr.E p.arr.S p.arr.R C) (Mle.init mode ⟨p.arr.get, cid⟩ (fun e => (mos.qualityScores[e.val]?).getD .nan))).1,
        (Mle.step mode u (⟨p.arr.get, cid⟩ : Mle.Data K p.arr.E p.arr.S p.arr.R C) (Mle.init mode ⟨p.arr.get, cid⟩ (fun e => (mos.qualityScores[e.val]?).getD .nan))).2, 1⟩ := by
    unfold Mle.fitArr
    rw [hu]
    dsimp only
    exact Mle.loop_stop hdens (by rw [hdelta]; exact hlt) 0
  have hob : ∃ obs, Mle.ObsOf rd obs := by
    split at h
    · rename_i l hl; exact ⟨some l, Or.inl ⟨l, hl, rfl⟩⟩
    · rename_i hl; exact ⟨none, Or.inr ⟨hl, rfl⟩⟩
    · cases h
  obtain ⟨obs, hob⟩ := hob
  have ho : (∃ l, rd.observers = .ok l) ∨ rd.observers = .error .assertion := by
    rcases hob with ⟨l, hl, -⟩ | ⟨hl, -⟩
    · exact Or.inl ⟨l, hl⟩
    · exact Or.inr hl
  have hrm := Mle.rm_fwd (⟨hsr, hm, hp, hC, hmos, hcid, hf, hdens, ho⟩ : Mle.RunOf mode rd o p C m mos cid _ dens) hob
  have hest : est = ⟨List.ofFn (Mle.centre (Ap.forced o.base) (Mle.step mode u (⟨p.arr.get, cid⟩ : Mle.Data K p.arr.E p.arr.S p.arr.R C) (Mle.init mode ⟨p.arr.get, cid⟩ (fun e => (mos.qualityScores[e.val]?).getD .nan))).1).x,
      List.ofFn (Mle.centre (Ap.forced o.base) (Mle.step mode u (⟨p.arr.get, cid⟩ : Mle.Data K p.arr.E p.arr.S p.arr.R C) (Mle.init mode ⟨p.arr.get, cid⟩ (fun e => (mos.qualityScores[e.val]?).getD .nan))).1).b,
      List.ofFn (Mle.centre (Ap.forced o.base) (Mle.step mode u (⟨p.arr.get, cid⟩ : Mle.Data K p.arr.E p.arr.S p.arr.R C) (Mle.init mode ⟨p.arr.get, cid⟩ (fun e => (mos.qualityScores[e.val]?).getD .nan))).1).v⟩ := by
    split at h
    · cases h; rfl
    · cases h; rfl
    · cases h
  refine ⟨_, hrm, ?_, ?_, ?_, hob⟩
  · rw [hest]; rfl
  · rw [hest]; unfold Mle.result; simp [hmode]
  · rw [hest]; unfold Mle.result; simp [hmode]

namespace Bstp

def subjOnce (mode : Mle.Mode) (d : Dataset κ K) (o : Mle.Opts K) (bias : List (Fl K)) (sel : List Int) : Option (List (Fl K)) :=
  match Mock.selectSubjectReader d (some sel) with
  | .error _ => none
  | .ok rd =>
    match Mle.onceFull mode rd o with
    | none => none
    | some e =>
      match offset e.b bias sel with
      | .error _ => none
      | .ok off => some (e.q.map fun q => q + off)

theorem subjectsPass_of_once {mode : Mle.Mode} {d : Dataset κ K} {o : Mle.Opts K} {bias : List (Fl K)} {sel : List Int}
    {row : List (Fl K)} (h : subjOnce mode d o bias sel = some row) : subjectsPass mode d o bias sel = .ok row := by
  unfold subjOnce at h
  unfold subjectsPass
  cases hs : Mock.selectSubjectReader d (some sel) with
  | error e => rw [hs] at h; cases h
  | ok rd =>
    rw [hs] at h
    dsimp only at h ⊢
    cases he : Mle.onceFull mode rd o with
    | none => rw [he] at h; cases h
    | some e =>
      rw [he] at h
      dsimp only at h
      obtain ⟨r, hr, h1, h2, -, -⟩ := Mle.rm_of_onceFull he
      rw [hr]
      dsimp only
      rw [h2]
      dsimp only
      cases ho : offset e.b bias sel with
      | error e => rw [ho] at h; cases h
      | ok off =>
        rw [ho] at h
        cases h
        rw [h1]

def vidOnce (mode : Mle.Mode) (d : Dataset κ K) (o : Mle.Opts K) (quality : List (Fl K)) (sel : List Int) :
    Option (List (Fl K) × List (Fl K)) :=
  match Mock.selectDisVideoReader d (some sel) with
  | .error _ => none
  | .ok rd =>
    match Mle.onceFull mode rd o with
    | none => none
    | some e =>
      match offset e.q quality sel with
      | .error _ => none
      | .ok off => some (e.b.map fun x => x + off, e.v)

theorem videosPass_of_once {mode : Mle.Mode} {d : Dataset κ K} {o : Mle.Opts K} {quality : List (Fl K)} {sel : List Int}
    {row : List (Fl K) × List (Fl K)} (h : vidOnce mode d o quality sel = some row) : videosPass mode d o quality sel = .ok row := by
  unfold vidOnce at h
  unfold videosPass
  cases hs : Mock.selectDisVideoReader d (some sel) with
  | error e => rw [hs] at h; cases h
  | ok rd =>
    rw [hs] at h
    dsimp only at h ⊢
    cases he : Mle.onceFull mode rd o with
    | none => rw [he] at h; cases h
    | some e =>
      rw [he] at h
      dsimp only at h
      obtain ⟨r, hr, h1, h2, h3, -⟩ := Mle.rm_of_onceFull he
      rw [hr]
      dsimp only
      rw [h1]
      cases ho : offset e.q quality sel with
      | error e => rw [ho] at h; cases h
      | ok off =>
        rw [ho] at h
        cases h
        dsimp only
        rw [h2, h3]

/-- the entries of the result that matter here -/
structure Summary (K : Type) where
  est : Est K
  ci : List (Fl K) × List (Fl K)
  biasCi : List (Fl K) × List (Fl K)
  inconsistencyCi : List (Fl K) × List (Fl K)
  deriving DecidableEq

def mapOpt {α β : Type} (f : α → Option β) : List α → Option (List β)
  | [] => some []
  | a :: l => match f a, mapOpt f l with
    | some b, some bs => some (b :: bs)
    | _, _ => none

theorem mapPy_of_mapOpt {α β : Type} {f : α → Option β} {g : α → Py β} (hfg : ∀ a b, f a = some b → g a = .ok b) {l : List α}
    {bs : List β} (h : mapOpt f l = some bs) : mapPy g l = .ok bs := by
  induction l generalizing bs with
  | nil => cases h; rfl
  | cons a l ih =>
    unfold mapOpt at h
    split at h
    · rename_i b bs' hb hbs
      cases h
      simp [mapPy, hfg a b hb, ih hbs]
    · cases h

/-- a complete run all of whose fits stop after the first pass, with both intervals and without final transformation -/
def once (mode : Mle.Mode) (choice : ℕ → ℕ → List Int) (d : Dataset κ K) (o : Mle.Opts K) (n : ℕ) : Option (Summary K) :=
  if n = 0 then none else
  match rawReader d with
  | .error _ => none
  | .ok rd =>
    match Mle.onceFull mode rd (unforced o), numObservers rd.disVideos with
    | some e, .ok nSubj =>
      match mapOpt (fun i => subjOnce mode d (unforced o) e.b (choice i nSubj)) (List.range n),
          mapOpt (fun i => vidOnce mode d (unforced o) e.q (choice i rd.disVideos.length)) (List.range n) with
      | some rows, some vrows =>
        match interval e.q rows, interval e.b (vrows.map Prod.fst), interval e.v (vrows.map Prod.snd) with
        | .ok ci, .ok cb, .ok cv =>
          if Ap.forced o.base then
            some ⟨⟨e.q.map fun x => x + Np.mean e.b, e.b.map fun x => x - Np.mean e.b, e.v⟩, ci, cb, cv⟩
          else some ⟨e, ci, cb, cv⟩
        | _, _, _ => none
      | _, _ => none
    | _, _ => none

theorem run_of_once {mode : Mle.Mode} {choice : ℕ → ℕ → List Int} {d : Dataset κ K} {o : Mle.Opts K} {n : ℕ} {s : Summary K}
    (hn : o.base.normalizeFinal = none) (ht : o.base.transformFinal = none)
    (h : once mode choice d o n = some s) :
    ∃ out, run mode choice d o { nBootstrap := some n } = .ok out ∧ out.res.qualityScores = s.est.q ∧
      out.res.observerBias = some s.est.b ∧ out.res.observerInconsistency = some s.est.v ∧
      out.res.qualityScoresCi95 = some s.ci ∧ out.biasCi95 = some s.biasCi ∧ out.inconsistencyCi95 = some s.inconsistencyCi := by
  unfold once at h
  split at h
  · cases h
  rename_i hn0
  cases hrd : rawReader d with
  | error e => rw [hrd] at h; cases h
  | ok rd =>
    rw [hrd] at h
    dsimp only at h
    split at h
    case h_2 => cases h
    rename_i e nSubj he hno
    split at h
    case h_2 => cases h
    rename_i rows vrows hrows hvrows
    split at h
    case h_2 => cases h
    rename_i ci cb cv hci hcb hcv
    obtain ⟨r, hr, h1, h2, h3, hob⟩ := Mle.rm_of_onceFull he
    have e1 := mapPy_of_mapOpt (fun i row => subjectsPass_of_once (mode := mode) (d := d) (o := unforced o) (bias := e.b) (sel := choice i nSubj) (row := row)) hrows
    have e2 := mapPy_of_mapOpt (fun i row => videosPass_of_once (mode := mode) (d := d) (o := unforced o) (quality := e.q) (sel := choice i rd.disVideos.length) (row := row)) hvrows
    have hs : subjectsCi mode d (unforced o) choice r true nSubj n = .ok (some ci) := by
      unfold subjectsCi
      rw [if_pos rfl]
      unfold bootstrapSubjects
      rw [h2]
      dsimp only
      rw [e1]
      dsimp only
      rw [h1, hci]
    have hv : videosCi mode d (unforced o) choice r true rd.disVideos.length n = .ok (some cb, some cv) := by
      unfold videosCi
      rw [if_pos rfl]
      unfold bootstrapVideos
      rw [h1, e2]
      dsimp only
      rw [h2, h3]
      dsimp only
      rw [hcb]
      dsimp only
      rw [hcv]
    have hpost : ∀ l : List (Fl K), postprocessScores o.base l = l := by
      intro l; unfold postprocessScores; rw [hn, ht]; rfl
    have hrm : ∀ r', recentre (Ap.forced o.base) { r with qualityScoresCi95 := some ci } = .ok r' → r'.observers = r.observers →
        ∃ res, run mode choice d o { nBootstrap := some n } = .ok ⟨res, some cb, some cv⟩ ∧
          res.qualityScores = r'.qualityScores ∧ res.observerBias = r'.observerBias ∧
          res.observerInconsistency = r'.observerInconsistency ∧ res.qualityScoresCi95 = r'.qualityScoresCi95 := by
      intro r' hr' hobs
      unfold run
      rw [hrd]
      dsimp only
      unfold runModelingWith
      rw [hr]
      dsimp only
      rw [hno]
      dsimp only
      simp only [Option.getD_some, Option.getD_none, Int.toNat_natCast]
      rw [if_pos (by omega), hs]
      dsimp only
      rw [hv]
      dsimp only
      rw [hr']
      dsimp only
      unfold runModeling
      dsimp only
      rw [← hobs] at hob
      rcases hob with ⟨l, hl, -⟩ | ⟨hl, -⟩ <;> rw [hl] <;> dsimp only <;> rw [hpost] <;> exact ⟨_, rfl, rfl, rfl, rfl, rfl⟩
    split at h
    · rename_i hfo
      cases h
      obtain ⟨res, k1, k2, k3, k4, k5⟩ := hrm { r with
          qualityScoresCi95 := some ci
          observerBias := some (e.b.map fun x => x - Np.mean e.b)
          qualityScores := r.qualityScores.map fun x => x + Np.mean e.b } (by
        unfold recentre
        rw [if_pos hfo]
        dsimp only
        rw [h2]) rfl
      refine ⟨_, k1, ?_, k3, ?_, k5, rfl, rfl⟩
      · dsimp only; rw [k2, h1]
      · dsimp only; rw [k4, h3]
    · rename_i hfo
      cases h
      obtain ⟨res, k1, k2, k3, k4, k5⟩ := hrm { r with qualityScoresCi95 := some ci } (by
        unfold recentre
        rw [if_neg hfo]) rfl
      refine ⟨_, k1, ?_, ?_, ?_, k5, rfl, rfl⟩
      · dsimp only; rw [k2, h1]
      · dsimp only; rw [k3, h2]
      · dsimp only; rw [k4, h3]

end Bstp
end Sureal
