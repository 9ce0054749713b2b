import Verif.Lemmas.BstpRun
/-! # C88-C90: the maximum likelihood models with bootstrapped confidence intervals -/
set_option linter.unusedSectionVars false
namespace Sureal.Props
open Sureal Spec Mock
variable {κ K : Type} [LinearOrder κ] [Field K] [LinearOrder K] [IsStrictOrderedRing K] [MathFn K]

/-- **C88.** A completed run reports what the model without bootstrapping reports under the same options: everything but the
interval of the scores and, if observers are re-centred and a reported bias is not a number, the reconstructions and the
likelihood. -/
theorem C88_estimates (mode : Mle.Mode) (hmode : mode ≠ .subjectOblivious) (choice : ℕ → ℕ → List Int) (d : Dataset κ K)
    (o : Mle.Opts K) (kw : Bstp.Kw) (out : Bstp.Out κ K) (h : Bstp.run mode choice d o kw = .ok out) :
    ∃ rd r, rawReader d = .ok rd ∧ Mle.run mode rd o = .ok r ∧
      (∃ ci rc ll aic bic, out.res = { r with
        qualityScoresCi95 := ci, reconstructions := rc, loglikelihood := ll, aic := aic, bic := bic }) ∧
      ((∀ bias, r.observerBias = some bias → ∀ b ∈ bias, ∃ y, b = .fin y) →
        ∃ ci, out.res = { r with qualityScoresCi95 := ci }) := by
  obtain ⟨rd, r0, nSubj, ci, cis, r1, res, hrd, h0, -, -, -, -, hrec, hfin, rfl⟩ := Bstp.run_inv h
  obtain ⟨E, S, x, b, m, r, -, hq0, hb0, -, hm, hr, hf, ht⟩ := Bstp.unforce hmode h0
  have hob : Mle.ObsOf rd r0.observers := by
    obtain ⟨_, _, _, _, _, _, _, obs, -, hob, hr0⟩ := Mle.rm_inv h0
    rw [hr0]; exact hob
  have hrun := Mle.run_of_rm hr
  refine ⟨rd, _, hrd, hrun, ?_⟩
  dsimp only
  cases hfo : Ap.forced o.base with
  | false =>
    have := hf hfo
    subst this
    rw [hfo] at hrec
    unfold Bstp.recentre at hrec
    rw [if_neg (by simp)] at hrec
    cases hrec
    have hres := Bstp.runModeling_const (r := { r with qualityScoresCi95 := ci }) hob hfin
    rw [hres]
    exact ⟨⟨ci, _, _, _, _, rfl⟩, fun _ => ⟨ci, rfl⟩⟩
  | true =>
    obtain ⟨⟨rc, ll, aic, bic, hr1⟩, hr2⟩ := ht hfo
    rw [hfo] at hrec
    unfold Bstp.recentre at hrec
    rw [if_pos rfl, hb0] at hrec
    dsimp only at hrec
    cases hrec
    have hres := Bstp.runModeling_const (r := { r0 with
      qualityScoresCi95 := ci
      observerBias := some ((List.ofFn b).map fun y => y - Np.mean (List.ofFn b))
      qualityScores := r0.qualityScores.map fun y => y + Np.mean (List.ofFn b) }) hob hfin
    rw [hres]
    have e1 : (r0.qualityScores.map fun y => y + Np.mean (List.ofFn b)) = List.ofFn fun e => x e + m := by
      rw [hq0, List.map_ofFn, hm]; rfl
    have e2 : ((List.ofFn b).map fun y => y - Np.mean (List.ofFn b)) = List.ofFn fun s => b s - m := by
      rw [List.map_ofFn, hm]; rfl
    dsimp only
    rw [e1, e2]
    constructor
    · refine ⟨ci, r0.reconstructions, r0.loglikelihood, r0.aic, r0.bic, ?_⟩
      rw [hr1]
    · intro hb
      refine ⟨ci, ?_⟩
      rw [hr2]
      intro s
      have hbias : r.observerBias = some (List.ofFn fun s => b s - m) := by rw [hr1]
      exact hb _ hbias _ (by rw [List.mem_ofFn]; exact ⟨s, rfl⟩)

/-- **C88.** Which intervals are reported; the number of repetitions must be positive. -/
theorem C88_options (mode : Mle.Mode) (choice : ℕ → ℕ → List Int) (d : Dataset κ K)
    (o : Mle.Opts K) (kw : Bstp.Kw) :
    ((∃ n, kw.nBootstrap = some n ∧ n ≤ 0) → ∀ out, Bstp.run mode choice d o kw ≠ .ok out) ∧
    ∀ out, Bstp.run mode choice d o kw = .ok out →
      (out.res.qualityScoresCi95 = none ↔ kw.bootstrapSubjects = some false) ∧
      (out.biasCi95 = none ↔ kw.boostrapDisVideos = some false) ∧
      (out.inconsistencyCi95 = none ↔ kw.boostrapDisVideos = some false) := by
  constructor
  · rintro ⟨n, hn, hle⟩ out h
    obtain ⟨_, _, _, _, _, _, _, -, -, -, hpos, -⟩ := Bstp.run_inv h
    rw [hn] at hpos
    simp only [Option.getD_some] at hpos
    omega
  · intro out h
    obtain ⟨rd, r0, nSubj, ci, cis, r1, res, hrd, h0, -, -, hs, hv, hrec, hfin, rfl⟩ := Bstp.run_inv h
    have hob : Mle.ObsOf rd r0.observers := by
      obtain ⟨_, _, _, _, _, _, _, obs, -, hob, hr0⟩ := Mle.rm_inv h0
      rw [hr0]; exact hob
    have hci : r1.qualityScoresCi95 = ci ∧ r1.observers = r0.observers := by
      unfold Bstp.recentre at hrec
      split at hrec
      · split at hrec <;> cases hrec
        exact ⟨rfl, rfl⟩
      · cases hrec; exact ⟨rfl, rfl⟩
    have hres := Bstp.runModeling_const (by rw [hci.2]; exact hob) hfin
    have hflag : ∀ f : Option Bool, f.getD true = false ↔ f = some false := by
      intro f; rcases f with _ | (_ | _) <;> simp
    refine ⟨?_, ?_, ?_⟩
    · rw [hres]
      dsimp only
      rw [hci.1, ← hflag]
      unfold Bstp.subjectsCi at hs
      split at hs
      · rename_i hb
        split at hs <;> cases hs
        simp [hb]
      · rename_i hb
        cases hs
        simpa using hb
    all_goals
      dsimp only
      rw [← hflag]
      unfold Bstp.videosCi at hv
      split at hv
      · rename_i hb
        split at hv <;> cases hv
        simp [hb]
      · rename_i hb
        cases hv
        simpa using hb

theorem postprocess_none {o : Opts K} (h1 : o.normalizeFinal = none) (h2 : o.transformFinal = none) (l : List (Fl K)) :
    postprocessScores o l = l := by
  unfold postprocessScores
  rw [h1, h2]; rfl

/-- the estimates before re-centring, when those reported are finite -/
theorem parts (mode : Mle.Mode) (hmode : mode ≠ .subjectOblivious) {choice : ℕ → ℕ → List Int} {d : Dataset κ K}
    {o : Mle.Opts K} {kw : Bstp.Kw} {out : Bstp.Out κ K} (h : Bstp.run mode choice d o kw = .ok out)
    (hn : o.base.normalizeFinal = none) (ht : o.base.transformFinal = none)
    {rd : Reader κ K} (hraw : rawReader d = .ok rd) {β x : List K} (hne : β ≠ [] ∨ x ≠ [])
    (hβ : out.res.observerBias = some (β.map Fl.fin)) (hx : out.res.qualityScores = x.map Fl.fin) :
    ∃ (r0 : Result κ K) (nSubj : ℕ) (M : K) (β0 x0 : List K), Mle.runModelingWith mode rd (Bstp.unforced o) = .ok r0 ∧
      numObservers rd.disVideos = .ok nSubj ∧ 0 < kw.nBootstrap.getD 30 ∧
      Bstp.subjectsCi mode d (Bstp.unforced o) choice r0 (kw.bootstrapSubjects.getD true) nSubj (kw.nBootstrap.getD 30).toNat =
        .ok out.res.qualityScoresCi95 ∧
      Bstp.videosCi mode d (Bstp.unforced o) choice r0 (kw.boostrapDisVideos.getD true) rd.disVideos.length
        (kw.nBootstrap.getD 30).toNat = .ok (out.biasCi95, out.inconsistencyCi95) ∧
      r0.observerBias = some (β0.map Fl.fin) ∧ r0.qualityScores = x0.map Fl.fin ∧
      β = β0.map (· - M) ∧ x = x0.map (· + M) ∧ out.res.observerInconsistency = r0.observerInconsistency := by
  obtain ⟨rd', r, hrd', hrun, ⟨ci', rc, ll, aic, bic, hout⟩, -⟩ := C88_estimates mode hmode choice d o kw out h
  obtain ⟨rd'', r0, nSubj, ci, cis, r1, res, hrd, h0, hno, hpos, hs, hv, hrec, hfin, rfl⟩ := Bstp.run_inv h
  rw [hraw] at hrd hrd'
  cases hrd
  cases hrd'
  obtain ⟨E, S, x1, b1, m, r', -, hq0, hb0, -, hm, hr', hf, htt⟩ := Bstp.unforce hmode h0
  have hrun' := Mle.run_of_rm hr'
  rw [postprocess_none hn ht] at hrun'
  rw [hrun] at hrun'
  have hrr : r = r' := by cases hrun'; rfl
  subst hrr
  have hβ' : r.observerBias = some (β.map Fl.fin) := by
    rw [← hβ, hout]
  have hx' : r.qualityScores = x.map Fl.fin := by
    rw [← hx, hout]
  obtain ⟨M, β0, x0, e1, e2, e3, e4, -⟩ := Bstp.finite_parts hmode h0 hr' hne hβ' hx'
  have hob : Mle.ObsOf rd r0.observers := by
    obtain ⟨_, _, _, _, _, _, _, obs, -, hob, hr0⟩ := Mle.rm_inv h0
    rw [hr0]; exact hob
  have hci : r1.qualityScoresCi95 = ci ∧ r1.observers = r0.observers ∧ r1.observerInconsistency = r0.observerInconsistency := by
    unfold Bstp.recentre at hrec
    split at hrec
    · split at hrec <;> cases hrec
      exact ⟨rfl, rfl, rfl⟩
    · cases hrec; exact ⟨rfl, rfl, rfl⟩
  have hres := Bstp.runModeling_const (by rw [hci.2.1]; exact hob) hfin
  refine ⟨r0, nSubj, M, β0, x0, h0, hno, hpos, ?_, hv, e1, e2, e3, e4, ?_⟩
  · rw [hs, hres]; dsimp only; rw [hci.1]
  · dsimp only; rw [hres]; exact hci.2.2

/-- **C89.** The interval of a score, when scores and biases are numbers: its ends are the 2.5% and the 97.5% quantile of the
estimates of `N` panels.  The panels consist of the drawn observers' votes (`choice`), the estimates are those of the model
without bootstrapping, under the same options, moved so that the drawn observers have the same mean bias as in the full
panel. -/
theorem C89_score_intervals (mode : Mle.Mode) (hmode : mode ≠ .subjectOblivious) (choice : ℕ → ℕ → List Int) (d : Dataset κ K)
    (o : Mle.Opts K) (hn : o.base.normalizeFinal = none) (ht : o.base.transformFinal = none)
    (kw : Bstp.Kw) (hkw : kw.bootstrapSubjects ≠ some false) (N : ℕ) (hN : kw.nBootstrap.getD 30 = N)
    (out : Bstp.Out κ K) (h : Bstp.run mode choice d o kw = .ok out)
    (rd : Reader κ K) (hraw : rawReader d = .ok rd) (base : Arr3D (Fl K)) (hbase : rd.scores = .ok base) (hS : 0 < base.S)
    (hch : ∀ i, IsResample base.S (choice i base.S))
    (β x : List K) (hβ : out.res.observerBias = some (β.map Fl.fin)) (hx : out.res.qualityScores = x.map Fl.fin) :
    ∃ (panel : ℕ → Reader κ K) (fit : ℕ → Result κ K) (lo hi : List (Fl K)),
      out.res.qualityScoresCi95 = some (lo, hi) ∧
      (∀ i, i < N → (panel i).dataset = d ∧ (panel i).disVideos = d.disVideos ∧
        (∃ arr, (panel i).scores = .ok arr ∧ arr.E = base.E ∧ arr.S = base.S ∧ arr.R = base.R ∧
          ∀ e k r (s : Int), (choice i base.S)[k]? = some s → cell arr e k r = cell base e s.toNat r) ∧
        Mle.run mode (panel i) o = .ok (fit i)) ∧
      ∀ b q : ℕ → List K,
        (∀ i, i < N → (fit i).observerBias = some ((b i).map Fl.fin) ∧ (fit i).qualityScores = (q i).map Fl.fin) →
        ∃ ys : ℕ → List K, (∀ i, i < N → Aligned (choice i base.S) β (b i) (q i) (ys i)) ∧
          ∀ (e : ℕ) (xe : K), x[e]? = some xe → ∃ l u : K, lo[e]? = some (.fin l) ∧ hi[e]? = some (.fin u) ∧
            Quantile 25 1000 ((List.range N).map fun i => ((ys i)[e]?).getD 0) (xe - l) ∧
            Quantile 975 1000 ((List.range N).map fun i => ((ys i)[e]?).getD 0) (xe + u) := by
  have hβl : β.length = base.S := by
    obtain ⟨rd', r, hrd', hrun, ⟨ci', rc, ll, aic, bic, hout⟩, -⟩ := C88_estimates mode hmode choice d o kw out h
    obtain ⟨_, r0, _, _, _, _, _, hrd, h0, -⟩ := Bstp.run_inv h
    rw [hraw] at hrd hrd'
    cases hrd
    cases hrd'
    obtain ⟨E, S, x1, b1, m, r', ⟨a, ha, hE, hSS⟩, hq0, hb0, -, hm, hr', hf, htt⟩ := Bstp.unforce hmode h0
    rw [hbase] at ha
    cases ha
    have hrun' := Mle.run_of_rm hr'
    rw [hrun] at hrun'
    have hb : r.observerBias = r'.observerBias := by cases hrun'; rfl
    rw [hout] at hβ
    dsimp only at hβ
    rw [hb] at hβ
    have : ∃ b2 : Fin S → Fl K, r'.observerBias = some (List.ofFn b2) := by
      cases hfo : Ap.forced o.base with
      | false => rw [hf hfo]; exact ⟨_, hb0⟩
      | true =>
        obtain ⟨⟨_, _, _, _, hr1⟩, -⟩ := htt hfo
        rw [hr1]; exact ⟨_, rfl⟩
    obtain ⟨b2, hb2⟩ := this
    rw [hb2] at hβ
    have := congrArg List.length (Option.some.inj hβ)
    simp only [List.length_ofFn, List.length_map] at this
    rw [← this, hSS]
  have hβne : β ≠ [] := by
    rintro rfl
    simp at hβl; omega
  obtain ⟨r0, nSubj, M, β0, x0, h0, hno, hpos, hs, -, hb0, hq0, hβ0, hx0, -⟩ :=
    parts mode hmode h hn ht hraw (Or.inl hβne) hβ hx
  have hscores : opinionScores rd.disVideos = .ok base := by
    obtain ⟨-, rfl⟩ := rawReader_inv hraw
    exact hbase
  have hnS : nSubj = base.S := by
    rw [Bstp.numObservers_S hscores] at hno
    cases hno; rfl
  subst hnS
  have hNN : (kw.nBootstrap.getD 30).toNat = N := by rw [hN]; simp
  rw [hNN] at hs
  have hflag : kw.bootstrapSubjects.getD true = true := by
    rcases hk : kw.bootstrapSubjects with _ | (_ | _)
    · rfl
    · exact absurd hk hkw
    · rfl
  unfold Bstp.subjectsCi at hs
  rw [hflag, if_pos rfl] at hs
  unfold Bstp.bootstrapSubjects at hs
  rw [hb0] at hs
  dsimp only at hs
  cases hmap : mapPy (fun i => Bstp.subjectsPass mode d (Bstp.unforced o) (β0.map Fl.fin) (choice i base.S)) (List.range N) with
  | error e => rw [hmap] at hs; cases hs
  | ok rows =>
    rw [hmap] at hs
    dsimp only at hs
    obtain ⟨g, hrows, hg⟩ := Bstp.mapPy_range [] hmap
    have hpass : ∀ i, ∃ (rd' : Reader κ K) (r' fit' : Result κ K), i < N →
        (rd'.dataset = d ∧ rd'.disVideos = d.disVideos ∧
        (∃ arr, rd'.scores = .ok arr ∧ arr.E = base.E ∧ arr.S = base.S ∧ arr.R = base.R ∧
          ∀ e k r (s : Int), (choice i base.S)[k]? = some s → cell arr e k r = cell base e s.toNat r)) ∧
        Mle.runModelingWith mode rd' (Bstp.unforced o) = .ok r' ∧ Mle.runModelingWith mode rd' o = .ok fit' ∧
        r'.qualityScores.length = base.E ∧
        ∃ (b : List (Fl K)) (off : Fl K), r'.observerBias = some b ∧ b.length = base.S ∧
          Bstp.offset b (β0.map Fl.fin) (choice i base.S) = .ok off ∧ g i = r'.qualityScores.map fun q => q + off := by
      intro i
      by_cases hi : i < N
      · have hgi := hg i hi
        unfold Bstp.subjectsPass at hgi
        cases hsel : selectSubjectReader d (some (choice i base.S)) with
        | error e => rw [hsel] at hgi; cases hgi
        | ok rd' =>
          rw [hsel] at hgi
          dsimp only at hgi
          cases hr' : Mle.runModelingWith mode rd' (Bstp.unforced o) with
          | error e => rw [hr'] at hgi; cases hgi
          | ok r' =>
            rw [hr'] at hgi
            dsimp only at hgi
            obtain ⟨p1, p2, arr, p3, p4, p5, p6, p7⟩ := Bstp.select_panel hraw hbase (hch i) hsel
            rw [(hch i).1] at p5
            obtain ⟨E, S, x1, b1, m, fit', ⟨a, ha, hE, hSS⟩, hq1, hb1, -, hm, hfit, -, -⟩ := Bstp.unforce hmode hr'
            rw [p3] at ha
            cases ha
            rw [hb1] at hgi
            dsimp only at hgi
            cases hoff : Bstp.offset (List.ofFn b1) (β0.map Fl.fin) (choice i base.S) with
            | error e => rw [hoff] at hgi; cases hgi
            | ok off =>
              rw [hoff] at hgi
              have hgi' := (Except.ok.inj hgi).symm
              refine ⟨rd', r', fit', fun _ => ⟨⟨p1, p2, arr, p3, p4, p5, p6, p7⟩, hr', hfit, ?_, _, off, hb1, ?_, hoff, hgi'⟩⟩
              · rw [hq1, List.length_ofFn, ← hE, p4]
              · rw [List.length_ofFn, ← hSS, p5]
      · exact ⟨rd, r0, r0, fun h => absurd h hi⟩
    choose panel fit0 fit hP using hpass
    have hrun : ∀ i, i < N → Mle.run mode (panel i) o = .ok (fit i) := by
      intro i hi
      have := Mle.run_of_rm (hP i hi).2.2.1
      rw [postprocess_none hn ht] at this
      exact this
    cases hint : Bstp.interval r0.qualityScores rows with
    | error e => rw [hint] at hs; cases hs
    | ok ci =>
      rw [hint] at hs
      dsimp only at hs
      refine ⟨panel, fit, ci.1, ci.2, (Except.ok.inj hs).symm, fun i hi => ?_, ?_⟩
      · obtain ⟨⟨p1, p2, p3⟩, -⟩ := hP i hi
        exact ⟨p1, p2, p3, hrun i hi⟩
      · intro b q hbq
        have hNpos : 0 < N := by omega
        have hE0 : r0.qualityScores.length = base.E := by
          obtain ⟨E, S, x1, b1, m, fit', ⟨a, ha, hE, hSS⟩, hq1, -⟩ := Bstp.unforce hmode h0
          rw [hbase] at ha
          cases ha
          rw [hq1, List.length_ofFn, hE]
        -- the finite estimates of each panel
        have hfin : ∀ i, ∃ (m c : K) (b0 q0 : List K), i < N → g i = (q0.map (· + c)).map Fl.fin ∧ b i = b0.map (· - m) ∧
            q i = q0.map (· + m) ∧ b0.length = base.S ∧ q0.length = base.E ∧
            (b0.map (· - c)).sum = ((choice i base.S).map fun x => (β0[x.toNat]?).getD 0).sum := by
          intro i
          by_cases hi : i < N
          · obtain ⟨-, h1, h2, h3, bb, off, h4, h5, h6, h7⟩ := hP i hi
            obtain ⟨hb', hq'⟩ := hbq i hi
            have hbne : b i ≠ [] ∨ q i ≠ [] := by
              left
              intro hnil
              rw [hnil] at hb'
              obtain ⟨E, S, x1, b1, m, fit', -, -, hb1, -, -, hfit, hf, htt⟩ := Bstp.unforce hmode h1
              rw [h2] at hfit
              cases hfit
              rw [h4] at hb1
              have hlen : S = base.S := by
                have := congrArg List.length (Option.some.inj hb1)
                rw [List.length_ofFn, h5] at this
                exact this.symm
              cases hfo : Ap.forced o.base with
              | false =>
                rw [hf hfo, h4] at hb'
                have := congrArg List.length (Option.some.inj hb')
                simp [h5] at this; omega
              | true =>
                obtain ⟨⟨_, _, _, _, hr1⟩, -⟩ := htt hfo
                rw [hr1] at hb'
                have := congrArg List.length (Option.some.inj hb')
                simp at this; omega
            obtain ⟨m, b0, q0, e1, e2, e3, e4, -⟩ := Bstp.finite_parts hmode h1 h2 hbne hb' hq'
            rw [h4] at e1
            have e1' := Option.some.inj e1
            have hb0l : b0.length = base.S := by
              have := congrArg List.length e1'
              rw [List.length_map, h5] at this
              exact this.symm
            rw [e1'] at h6
            obtain ⟨c, hc, hsum⟩ := Bstp.offset_fin (by rw [hb0l, (hch i).1])
              (by rintro rfl; simp at hb0l; omega) h6
            refine ⟨m, c, b0, q0, fun _ => ⟨?_, e3, e4, hb0l, ?_, hsum⟩⟩
            · rw [h7, e2, hc, List.map_map, List.map_map]; rfl
            · rw [e2, List.length_map] at h3; exact h3
          · exact ⟨0, 0, [], [], fun h => absurd h hi⟩
        choose m c b0 q0 hF using hfin
        refine ⟨fun i => ((q0 i).map (· + c i)).map (· + M), ?_, ?_⟩
        · intro i hi
          obtain ⟨f1, f2, f3, f4, f5, f6⟩ := hF i hi
          rw [f2, f3, hβ0]
          refine Bstp.aligned_shift (hch i) ?_ (by rw [f4, (hch i).1]) f6
          rw [hβ0, List.length_map] at hβl
          exact hβl
        · intro e xe hxe
          have hxe' : (x0.map (· + M))[e]? = some xe := by rw [← hx0]; exact hxe
          rw [List.getElem?_map, Option.map_eq_some_iff] at hxe'
          obtain ⟨xe0, hxe0, rfl⟩ := hxe'
          have heE : e < base.E := by
            have := (List.getElem?_eq_some_iff.mp hxe0).1
            rw [hq0, List.length_map] at hE0
            omega
          have hcol : (rows.map fun r => (r[e]?).getD Fl.nan) =
              ((List.range N).map fun i => (((q0 i).map (· + c i))[e]?).getD 0).map Fl.fin := by
            rw [hrows, List.map_map, List.map_map]
            apply List.map_congr_left
            intro i hi
            obtain ⟨f1, f2, f3, f4, f5, f6⟩ := hF i (List.mem_range.mp hi)
            have hl : e < (q0 i).length := by omega
            simp [f1, List.getElem?_eq_getElem hl]
          have hlens : ∀ r ∈ rows, r.length = r0.qualityScores.length := by
            intro r hr
            rw [hrows] at hr
            obtain ⟨i, hi, rfl⟩ := List.mem_map.mp hr
            obtain ⟨f1, f2, f3, f4, f5, f6⟩ := hF i (List.mem_range.mp hi)
            rw [f1, hE0]; simp [f5]
          have hrne : rows ≠ [] := by
            rw [hrows]
            intro hnil
            have := congrArg List.length hnil
            simp at this; omega
          obtain ⟨l, u, h1, h2, h3, h4⟩ := Bstp.interval_fin hrne hlens hint (e := e) (x := xe0)
            (by rw [hq0, List.getElem?_map, hxe0]; rfl) hcol
          have hys : ((List.range N).map fun i => ((((q0 i).map (· + c i)).map (· + M))[e]?).getD 0) =
              ((List.range N).map fun i => (((q0 i).map (· + c i))[e]?).getD 0).map (· + M) := by
            rw [List.map_map]
            apply List.map_congr_left
            intro i hi
            obtain ⟨f1, f2, f3, f4, f5, f6⟩ := hF i (List.mem_range.mp hi)
            have hl : e < (q0 i).length := by omega
            simp only [Function.comp]
            rw [List.getElem?_map, List.getElem?_map, List.getElem?_eq_getElem hl]
            rfl
          refine ⟨l, u, h1, h2, ?_, ?_⟩
          · rw [hys, show xe0 + M - l = (xe0 - l) + M by ring]
            exact Bstp.Quantile.shift M h3
          · rw [hys, show xe0 + M + u = (xe0 + u) + M by ring]
            exact Bstp.Quantile.shift M h4

end Sureal.Props
