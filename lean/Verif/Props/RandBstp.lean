import Verif.Props.RandState
/-!
# C134: what the intervals of a bootstrapping model in the validation are about
-/
set_option linter.unusedSectionVars false
namespace Sureal.Props
open Sureal Spec Mock Routine
variable {κ K σ : Type} [LinearOrder κ] [Field K] [LinearOrder K] [IsStrictOrderedRing K] [MathFn K]

/-- three equal readings: the run on the dataset written from the reader -/
theorem runThree_same {mode : Mle.Mode} {choice : ℕ → ℕ → List Int} {rd : Reader κ K} {o : Mle.Opts K} {kw : Bstp.Kw} {out : Bstp.Out κ K}
    {a : Arr3D (Fl K)} (h : Bstp.runThree mode choice a.S rd rd rd o kw = .ok out) (hs : rd.scores = .ok a) (hE : a.E = rd.disVideos.length)
    (hS : 0 < a.S) (hR : a.R = 1) (hwf : WellFormed { rd.dataset with disVideos := rd.disVideos }) (hall : rd.dataset.disVideos = rd.disVideos) :
    ∃ new obs, toDataset rd = .ok new ∧
      Bstp.run mode choice new o kw = .ok ⟨{ out.res with observers := obs }, out.biasCi95, out.inconsistencyCi95⟩ := by
  obtain ⟨new, rd', h1, h2, h3, h4, h5, h6⟩ := export_same hs hE hS hR hwf hall
  obtain ⟨r0, d, ci, cis, r, res, k0, kd, kpos, kci, kcis, kr, kres, rfl⟩ := runThree_inv h
  rw [h1] at kd
  cases kd
  obtain ⟨obs0, m0⟩ := h3.mle h4 k0
  have m0' : Mle.runModelingWith mode rd' (Bstp.unforced o) = .ok { r0 with observers := obs0 } := m0
  have hr : Bstp.recentre (Ap.forced o.base) { r0 with observers := obs0, qualityScoresCi95 := ci } = .ok { r with observers := obs0 } := by
    unfold Bstp.recentre at kr ⊢
    split at kr
    · rename_i hf
      rw [if_pos hf]
      dsimp only at kr ⊢
      split at kr
      · cases kr
      · rename_i b hb
        cases kr
        rfl
    · rename_i hf
      rw [if_neg hf]
      cases kr
      rfl
  obtain ⟨obs, kres'⟩ := SameVotes.runModeling (rd' := rd') h4 (f := fun _ _ => .ok r) (f' := fun _ _ => .ok { r with observers := obs0 })
    (o := o.base) (fun r1 hr1 => ⟨obs0, by cases hr1; rfl⟩) kres
  refine ⟨new, obs, h1, ?_⟩
  have kci' : Bstp.subjectsCi mode new (Bstp.unforced o) choice { r0 with observers := obs0 } (kw.bootstrapSubjects.getD true) a.S
      (kw.nBootstrap.getD 30).toNat = .ok ci := kci
  have kcis' : Bstp.videosCi mode new (Bstp.unforced o) choice { r0 with observers := obs0 } (kw.boostrapDisVideos.getD true)
      rd'.disVideos.length (kw.nBootstrap.getD 30).toNat = .ok cis := by rw [h6]; exact kcis
  have hrun : Bstp.runModelingWith mode choice new rd' o kw = .ok ⟨{ r with observers := obs0 }, cis.1, cis.2⟩ := by
    unfold Bstp.runModelingWith
    rw [m0']
    dsimp only
    rw [h5]
    dsimp only
    rw [if_pos kpos, kci']
    dsimp only
    rw [kcis']
    dsimp only
    rw [hr]
  unfold Bstp.run
  rw [h2]
  dsimp only
  rw [hrun]
  dsimp only
  rw [kres']

theorem synthetic_shape {scale : Fl K} {g : ℕ → K} {cids : List Int} {q b sg mu dl : List (Fl K)} {phi : Option (List (Fl K))} {a : Arr3D (Fl K)}
    (h : synthetic scale g cids q b sg mu dl phi = .ok a) : a.E = cids.length ∧ a.S = b.length ∧ a.R = 1 := by
  unfold synthetic at h
  split at h
  · cases h
  · cases h
  dsimp only at h
  split at h
  · cases h; exact ⟨rfl, rfl, rfl⟩
  · split at h
    · cases h; exact ⟨rfl, rfl, rfl⟩
    · cases h

theorem synthRead_shape {g : Gen σ K} {cls : SynthClass} {seed : Option Int} {d : Dataset κ K} {kw : SynthKw K} {s : σ} {r : Reader κ K × σ}
    (h : synthRead g cls seed d kw s = .ok r) {a : Arr3D (Fl K)} (ha : r.1.scores = .ok a) :
    a.E = d.disVideos.length ∧ a.S = (kw.bias.getD []).length ∧ a.R = 1 := by
  have hc : (contentIdOfDisVideos d.disVideos).length = d.disVideos.length := by simp [contentIdOfDisVideos]
  unfold synthRead at h
  cases cls with
  | normal =>
    dsimp only at h
    split at h
    · cases h
    rename_i rd' hrd'
    cases h
    unfold syntheticReader at hrd'
    split at hrd'
    · cases hrd'
    split at hrd'
    · rename_i hb _ _ _
      split at hrd'
      · cases hrd'
        rw [hb, ← hc]
        exact synthetic_shape ha
      · cases hrd'
    · cases hrd'
  | logistic =>
    dsimp only at h
    split at h
    · cases h
    rename_i rd' hrd'
    cases h
    unfold logisticReader at hrd'
    split at hrd'
    · cases hrd'
    split at hrd'
    · rename_i hb _ _ _
      split at hrd'
      · cases hrd'
        dsimp only at ha
        split at ha
        · cases ha
        · rename_i a' ha'
          split at ha
          · cases ha
            rw [hb, ← hc]
            exact synthetic_shape ha'
          · cases ha
      · cases hrd'
    · cases hrd'

theorem toDataset_scores {rd : Reader κ K} {new : Dataset κ K} (h : toDataset rd = .ok new) : ∃ a, rd.scores = .ok a := by
  cases hs : rd.scores with
  | ok a => exact ⟨a, rfl⟩
  | error e =>
    unfold toDataset at h
    rw [hs] at h
    cases h

/-- the readings of a reader with a seed are all the same, and their shape is that of a panel that can be written to a dataset -/
theorem seeded_source {g : Gen σ K} {cls : SynthClass} {k : Int} {d : Dataset κ K} {truth : SynthKw K} {missing : Option (Fl K)} {s s1 : σ}
    {src : VoteSource σ κ K} (h : source g cls (some k) d truth missing s = .ok (src, s1)) (hcls : cls = .normal ∨ missing.isSome)
    (hbias : truth.bias.getD [] ≠ []) :
    ∃ rd, (∀ s', ∃ t', src.read s' = .ok (rd, t')) ∧ WellFormed { rd.dataset with disVideos := rd.disVideos } ∧
      rd.dataset.disVideos = rd.disVideos ∧
      ∀ a, rd.scores = .ok a → a.E = rd.disVideos.length ∧ 0 < a.S ∧ a.R = 1 ∧ src.numObservers = .ok a.S := by
  cases missing with
  | none =>
    obtain rfl : cls = .normal := hcls.resolve_right (by simp)
    unfold source at h
    split at h
    · cases h
    rename_i r hr
    cases h
    obtain ⟨v1, v2, rd0, hraw⟩ := synthRead_videos hr
    have hwf : WellFormed d := (C01_accepts_iff_wellFormed d).mp (rawReader_inv hraw).1
    refine ⟨r.1, fun s' => ⟨r.2, hr⟩, ?_, by rw [v1, v2], ?_⟩
    · rw [v1, v2]; exact hwf
    · intro a ha
      obtain ⟨e1, e2, e3⟩ := synthRead_shape hr ha
      refine ⟨by rw [e1, v1], ?_, e3, by rw [e2]⟩
      rw [e2]
      exact List.length_pos_iff.mpr hbias
  | some p =>
    unfold source at h
    split at h
    · cases h
    rename_i r hr
    dsimp only at h
    split at h
    · cases h
    rename_i d2 hd2
    split at h
    · cases h
    rename_i rm hrm
    cases h
    obtain ⟨v1, v2, rd0, hraw⟩ := synthRead_videos hr
    have hwf : WellFormed d := (C01_accepts_iff_wellFormed d).mp (rawReader_inv hraw).1
    obtain ⟨a, ha⟩ := toDataset_scores hd2
    obtain ⟨e1, e2, e3⟩ := synthRead_shape hr ha
    have hS : 0 < a.S := by rw [e2]; exact List.length_pos_iff.mpr hbias
    obtain ⟨new, rd', x1, x2, x3, -, x5, x6⟩ := export_same ha (by rw [e1, v1]) hS e3 (by rw [v1, v2]; exact hwf) (by rw [v1, v2])
    rw [hd2] at x1
    cases x1
    obtain ⟨hwf2, hrd'⟩ := rawReader_inv x2
    have hvid : rd'.disVideos = d2.disVideos := by rw [hrd']
    have hds : rd'.dataset = d2 := by rw [hrd']
    have hread : ∀ s', missingRead g (some k) d2 p s' = .ok ({ rd' with scores := match rd'.scores with
        | .error e => .error e | .ok a => .ok (missing p (g.uniform (g.seed k)) a) },
        g.afterUniform (g.seed k) (cells (match rd'.scores with
        | .error e => (.error e : Py (Arr3D (Fl K))) | .ok a => .ok (missing p (g.uniform (g.seed k)) a)))) := by
      intro s'
      unfold missingRead missingReader
      rw [x2]
      rfl
    refine ⟨_, fun s' => ⟨_, hread s'⟩, ?_, ?_, ?_⟩
    · dsimp only
      rw [hvid, hds]
      exact (C01_accepts_iff_wellFormed d2).mp hwf2
    · dsimp only
      rw [hvid, hds]
    · intro a' ha'
      dsimp only at ha'
      rw [x3.scores, ha] at ha'
      cases ha'
      refine ⟨?_, hS, e3, ?_⟩
      · dsimp only
        rw [x6, v1]
        exact e1
      · rw [← hvid]
        exact x5

/-- **C134, with a seed.** Proved for a reader with a seed (the normal reader, or any with missing votes): all readings give the same votes, and what
is reported for a bootstrapping model is, up to the list of observers, its run on the synthetic dataset, where the draws of the panels do not
depend on the seed; so C88, C89 and C90 apply to it. -/
theorem C134_seeded_partial {g : Gen σ K} {cls : SynthClass} {k : Int} {before after : List (String × ModelSt σ κ K)} {ty : String}
    {mode : Mle.Mode} {o : Mle.Opts K} {kw : Bstp.Kw} {d : Dataset κ K} {truth : SynthKw K} {missing : Option (Fl K)} {write : Bool} {s : σ}
    {res : Validation κ K × σ}
    (h : validateSt g cls (some k) (before ++ (ty, bootstrapped g mode o kw) :: after) (.ok d) truth missing write s = .ok res)
    (hnd : ((before ++ (ty, bootstrapped g mode o kw) :: after).map (·.1)).Nodup) (hcls : cls = .normal ∨ missing.isSome)
    (hbias : truth.bias.getD [] ≠ []) :
    ∃ src s1 rd synth out obs c, source g cls (some k) d truth missing s = .ok (src, s1) ∧ (∀ s', ∃ t', src.read s' = .ok (rd, t')) ∧
      toDataset rd = .ok synth ∧ Bstp.run mode (fun i n => g.choice (g.seed i) n) synth o kw = .ok out ∧
      res.1.results.lookup ty = some c ∧ out.res = { c.fit.res with observers := obs } ∧
      c.fit.biasCi95 = out.biasCi95.map (fun p => [p.1, p.2]) ∧ c.fit.inconsistencyCi95 = out.inconsistencyCi95.map (fun p => [p.1, p.2]) := by
  obtain ⟨src, s1, s2, fits, k1, -, k3, k4⟩ := validateSt_inv h
  obtain ⟨rd, hread, hwf, hall, hshape⟩ := seeded_source k1 hcls hbias
  have htypes := fitAllSt_types k3
  obtain ⟨f1, f2, s3, j1, j2, rfl⟩ := fitAllSt_append k3
  unfold fitAllSt at j2
  split at j2
  · cases j2
  rename_i r hr
  split at j2
  · cases j2
  rename_i rest hrest
  obtain ⟨rfl, -⟩ := Prod.mk.inj (Except.ok.inj j2)
  obtain ⟨r1, r2, r3, n, out, i1, i2, i3, i4, i5, i6⟩ := bootstrapped_inv hr
  have hrd : ∀ (x : σ) (y : Reader κ K × σ), src.read x = .ok y → y.1 = rd := by
    intro x y hy
    obtain ⟨t', ht'⟩ := hread x
    rw [ht'] at hy
    rw [← Except.ok.inj hy]
  rw [hrd _ _ i1, hrd _ _ i2, hrd _ _ i3] at i5
  obtain ⟨-, d3, -, -, -, -, -, hd3, -⟩ := runThree_inv i5
  obtain ⟨a, ha⟩ := toDataset_scores hd3
  obtain ⟨e1, e2, e3, e4⟩ := hshape a ha
  rw [i4] at e4
  obtain rfl := Except.ok.inj e4
  obtain ⟨new, obs, n1, n2⟩ := runThree_same i5 ha e1 e2 e3 hwf hall
  obtain ⟨c, c1, c2, -⟩ := results_entry k4 (by rw [htypes]; exact hnd) (List.mem_append_right f1 (List.mem_cons_self ..))
  refine ⟨src, s1, rd, new, _, obs, c, k1, hread, n1, n2, c1, ?_, ?_, ?_⟩
  · rw [c2, i6]
  · rw [c2, i6]
  · rw [c2, i6]

/-- a run all of whose fits stop after the first pass, with the intervals of the scores only, if the first two readings are equal (for examples) -/
theorem runThree_of_once {mode : Mle.Mode} {choice : ℕ → ℕ → List Int} {nSubj n : ℕ} {rd rd3 : Reader κ K} {o : Mle.Opts K} {est : Est K}
    {d : Dataset κ K} {rows : List (List (Fl K))} {ci : List (Fl K) × List (Fl K)} (hn : o.base.normalizeFinal = none)
    (ht : o.base.transformFinal = none) (hf : Ap.forced o.base = true) (hpos : n ≠ 0)
    (he : Mle.onceFull mode rd (Bstp.unforced o) = some est) (hd : toDataset rd3 = .ok d)
    (hrows : Bstp.mapOpt (fun i => Bstp.subjOnce mode d (Bstp.unforced o) est.b (choice i nSubj)) (List.range n) = some rows)
    (hci : Bstp.interval est.q rows = .ok ci) :
    ∃ out, Bstp.runThree mode choice nSubj rd rd rd3 o { nBootstrap := some n, boostrapDisVideos := some false } = .ok out ∧
      out.res.qualityScores = est.q.map (fun x => x + Np.mean est.b) ∧ out.res.qualityScoresCi95 = some ci ∧
      out.biasCi95 = none ∧ out.inconsistencyCi95 = none := by
  obtain ⟨r, hr, h1, h2, h3, hob⟩ := Mle.rm_of_onceFull he
  have hr' : Mle.runModelingTwo mode rd rd (Bstp.unforced o) = .ok r := hr
  have e1 := Bstp.mapPy_of_mapOpt (fun i row => Bstp.subjectsPass_of_once (mode := mode) (d := d) (o := Bstp.unforced o) (bias := est.b)
    (sel := choice i nSubj) (row := row)) hrows
  have hs : Bstp.subjectsCi mode d (Bstp.unforced o) choice r true nSubj n = .ok (some ci) := by
    unfold Bstp.subjectsCi
    rw [if_pos rfl]
    unfold Bstp.bootstrapSubjects
    rw [h2]
    dsimp only
    rw [e1]
    dsimp only
    rw [h1, hci]
  have hpost : ∀ l : List (Fl K), postprocessScores o.base l = l := by
    intro l; unfold postprocessScores; rw [hn, ht]; rfl
  unfold Bstp.runThree Bstp.runModelingThree
  rw [hr']
  dsimp only
  rw [hd]
  dsimp only
  simp only [Option.getD_some, Option.getD_none, Int.toNat_natCast]
  rw [if_pos (by omega), hs]
  dsimp only
  unfold Bstp.videosCi
  rw [if_neg (by decide)]
  dsimp only
  unfold Bstp.recentre
  rw [if_pos hf]
  dsimp only
  rw [h2]
  dsimp only
  unfold runModeling
  dsimp only
  rcases hob with ⟨l, hl, -⟩ | ⟨hl, -⟩ <;> rw [hl] <;> dsimp only <;> rw [hpost, h1] <;> exact ⟨_, rfl, rfl, rfl, rfl, rfl⟩

end Sureal.Props
