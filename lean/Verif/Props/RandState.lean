import Verif.Lemmas.SameVotes
import Verif.Props.Validate
/-!
# C134: random numbers in the validation, and bootstrapping models in it

The draws come from the one generator behind `np.random`.  The bootstrapping models take the votes from the reader three times: twice to estimate, once
(`to_dataset`) for the panels from which the intervals come; and they set the generator to the seeds 0, 1, … without restoring it.
-/
set_option linter.unusedSectionVars false
namespace Sureal.Props
open Sureal Spec Mock Routine
variable {κ K σ : Type} [LinearOrder κ] [Field K] [LinearOrder K] [IsStrictOrderedRing K] [MathFn K]

/-- **C134, one generator.** For models that draw nothing themselves, a validation from any state of the generator is one with streams of draws, so
what holds for all streams (C98, C122, C127) holds for it.  The first stream is what the generator gives in the initial state, the streams after
seeding are what it gives after `np.random.seed`. -/
theorem C134_refines (g : Gen σ K) (cls : SynthClass) (seed : Option Int) (dataset : Py (Dataset κ K)) (truth : SynthKw K)
    (missing : Option (Fl K)) (s : σ) :
    ∃ w : Rand K, w.noise 0 = (match cls with | .normal => g.normal s | .logistic => g.logistic s) ∧
      (∀ k, w.seededNoise k = g.normal (g.seed k)) ∧ (∀ k, w.seededUniform k = g.uniform (g.seed k)) ∧
      ∀ (write : Bool) (models : List (String × Modelled κ K)),
        (validateSt g cls seed (models.map fun p => (p.1, p.2.st)) dataset truth missing write s).map Prod.fst =
          validate cls w (seed.map some) models dataset truth missing write := by
  cases dataset with
  | error e =>
    refine ⟨⟨fun _ => match cls with | .normal => g.normal s | .logistic => g.logistic s, fun _ _ => 0, fun k => g.normal (g.seed k),
      fun k => g.uniform (g.seed k)⟩, rfl, fun _ => rfl, fun _ => rfl, fun write models => ?_⟩
    unfold validateSt validate
    split <;> rfl
  | ok d =>
    obtain ⟨w, h1, h2, h3, h4⟩ := source_streams g cls seed d truth missing s
    refine ⟨w, by rw [h1]; cases cls <;> rfl, h2, h3, fun write models => ?_⟩
    unfold validateSt validate
    split
    case isFalse => rfl
    dsimp only
    rcases h4 with ⟨e, k1, k2⟩ | ⟨src, st, rdr, k1, k2, k3⟩
    · rw [k1, k2]; rfl
    · rw [k1, k3 0]
      dsimp only
      rw [k2.written]
      cases hw : writtenDataset write (rdr 0) with
      | error e => rfl
      | ok written =>
        simp only [Except.map]
        rw [k2.fitAll, show readerAt cls w (seed.map some) d truth missing = fun j => .ok (rdr j) from funext k3]
        cases fitAll (fun j => (.ok (rdr j) : Py (Reader κ K))) (if write then 1 else 0) models with
        | error e => rfl
        | ok fits =>
          simp only [Except.map]
          cases checkAll truth fits _ <;> rfl

/-! ## what a completed validation consists of -/

theorem validateSt_inv {g : Gen σ K} {cls : SynthClass} {seed : Option Int} {models : List (String × ModelSt σ κ K)} {d : Dataset κ K}
    {truth : SynthKw K} {missing : Option (Fl K)} {write : Bool} {s : σ} {res : Validation κ K × σ}
    (h : validateSt g cls seed models (.ok d) truth missing write s = .ok res) :
    ∃ src s1 s2 fits, source g cls seed d truth missing s = .ok (src, s1) ∧ writtenSt write src s1 = .ok (res.1.written, s2) ∧
      fitAllSt src models s2 = .ok (fits, res.2) ∧
      checkAll truth fits (fits.foldl (fun acc p => setKey p.1 ({ fit := p.2 } : Checked κ K) acc) []) = .ok res.1.results := by
  unfold validateSt at h
  split at h
  case isFalse => cases h
  dsimp only at h
  split at h
  · cases h
  rename_i src hsrc
  split at h
  · cases h
  rename_i wr hwr
  split at h
  · cases h
  rename_i fits hfits
  split at h
  · cases h
  rename_i results hres
  cases h
  exact ⟨src.1, src.2, wr.2, fits.1, hsrc, hwr, hfits, hres⟩

theorem fitAllSt_append {src : VoteSource σ κ K} {l1 l2 : List (String × ModelSt σ κ K)} {s t : σ} {fits : List (String × Fit κ K)}
    (h : fitAllSt src (l1 ++ l2) s = .ok (fits, t)) :
    ∃ f1 f2 s', fitAllSt src l1 s = .ok (f1, s') ∧ fitAllSt src l2 s' = .ok (f2, t) ∧ fits = f1 ++ f2 := by
  induction l1 generalizing s fits with
  | nil => exact ⟨[], fits, s, rfl, h, rfl⟩
  | cons p l1 ih =>
    obtain ⟨ty, m⟩ := p
    rw [List.cons_append] at h
    unfold fitAllSt at h
    split at h
    · cases h
    rename_i r hr
    split at h
    · cases h
    rename_i rest hrest
    cases h
    obtain ⟨f1, f2, s', k1, k2, k3⟩ := ih (fits := rest.1) (by rw [hrest])
    refine ⟨(ty, r.1) :: f1, f2, s', ?_, k2, by rw [k3]; rfl⟩
    unfold fitAllSt
    rw [hr]
    dsimp only
    rw [k1]

theorem fitAllSt_types {src : VoteSource σ κ K} {l : List (String × ModelSt σ κ K)} {s t : σ} {fits : List (String × Fit κ K)}
    (h : fitAllSt src l s = .ok (fits, t)) : fits.map (·.1) = l.map (·.1) := by
  induction l generalizing s fits with
  | nil => cases h; rfl
  | cons p l ih =>
    obtain ⟨ty, m⟩ := p
    unfold fitAllSt at h
    split at h
    · cases h
    split at h
    · cases h
    rename_i rest hrest
    cases h
    rw [List.map_cons, List.map_cons, ih (fits := rest.1) (by rw [hrest])]

/-- an entry of the results is a function of what the model returned -/
theorem checkAll_entry {truth : SynthKw K} {fits : List (String × Fit κ K)} {acc out : List (String × Checked κ K)}
    (h : checkAll truth fits acc = .ok out) (hnd : (fits.map (·.1)).Nodup) (ty : String) (fit : Fit κ K) (hm : (ty, fit) ∈ fits)
    (hacc : acc.lookup ty = some { fit := fit }) :
    ∃ c, out.lookup ty = some c ∧ c.fit = fit ∧
      percentage truth.quality (some fit.res.qualityScores) (fit.res.qualityScoresCi95.map fun p => [p.1, p.2]) none = .ok c.qualityPerc ∧
      percentage truth.bias fit.res.observerBias fit.biasCi95 none = .ok c.biasPerc ∧
      percentage truth.inconsistency fit.res.observerInconsistency fit.inconsistencyCi95 none = .ok c.inconsistencyPerc := by
  induction fits generalizing acc with
  | nil => cases hm
  | cons p fits ih =>
    obtain ⟨ty1, fit1⟩ := p
    rw [List.map_cons, List.nodup_cons] at hnd
    unfold checkAll at h
    split at h
    · cases h
    · rename_i acc' hacc'
      rcases List.mem_cons.mp hm with he | hm
      · cases he
        obtain ⟨-, c, c', h2, h3, h4, h5, h6, h7⟩ := checkOne_lookup hacc'
        rw [hacc] at h2
        cases h2
        refine ⟨c', ?_, h4, h5, h6, h7⟩
        rw [checkAll_other h ty, h3]
        intro p hp he
        exact hnd.1 (List.mem_map.mpr ⟨p, hp, he⟩)
      · refine ih h hnd.2 hm ?_
        rw [(checkOne_lookup hacc').1, hacc]
        intro he
        exact hnd.1 (List.mem_map.mpr ⟨_, hm, he⟩)

theorem lookup_fits {fits : List (String × Fit κ K)} (hnd : (fits.map (·.1)).Nodup) {ty : String} {fit : Fit κ K} (hm : (ty, fit) ∈ fits) :
    (fits.foldl (fun acc p => setKey p.1 ({ fit := p.2 } : Checked κ K) acc) []).lookup ty = some { fit := fit } := by
  have hlast : (fits.filter fun p => p.1 = ty).getLast? = some (ty, fit) := by
    have hall : ∀ p ∈ fits.filter fun p => p.1 = ty, p = (ty, fit) := by
      intro p hp
      rw [List.mem_filter] at hp
      have : p.1 = ty := by simpa using hp.2
      exact List.inj_on_of_nodup_map hnd hp.1 hm this
    have hne : (fits.filter fun p => p.1 = ty) ≠ [] := by
      intro hnil
      have : (ty, fit) ∈ fits.filter fun p => p.1 = ty := List.mem_filter.mpr ⟨hm, by simp⟩
      rw [hnil] at this
      cases this
    rw [List.getLast?_eq_getLast_of_ne_nil hne, hall _ (List.getLast_mem hne)]
  rw [lookup_foldl, hlast]
  rfl

theorem results_entry {truth : SynthKw K} {fits : List (String × Fit κ K)} {out : List (String × Checked κ K)}
    (h : checkAll truth fits (fits.foldl (fun acc p => setKey p.1 ({ fit := p.2 } : Checked κ K) acc) []) = .ok out)
    (hnd : (fits.map (·.1)).Nodup) {ty : String} {fit : Fit κ K} (hm : (ty, fit) ∈ fits) :
    ∃ c, out.lookup ty = some c ∧ c.fit = fit ∧
      percentage truth.quality (some fit.res.qualityScores) (fit.res.qualityScoresCi95.map fun p => [p.1, p.2]) none = .ok c.qualityPerc ∧
      percentage truth.bias fit.res.observerBias fit.biasCi95 none = .ok c.biasPerc ∧
      percentage truth.inconsistency fit.res.observerInconsistency fit.inconsistencyCi95 none = .ok c.inconsistencyPerc :=
  checkAll_entry h hnd ty fit hm (lookup_fits hnd hm)

/-! ## the generator after a bootstrapping model -/

theorem loopState_eq (g : Gen σ K) (n passes : ℕ) (hp : 0 < passes) (s : σ) :
    Bstp.loopState g n passes s = g.afterChoice (g.seed ((passes - 1 : ℕ) : Int)) n := by
  obtain ⟨k, rfl⟩ := Nat.exists_eq_succ_of_ne_zero hp.ne'
  unfold Bstp.loopState
  rw [List.range_succ]
  simp [List.foldl_append]

theorem stateAfter_eq (g : Gen σ K) (n m : ℕ) (kw : Bstp.Kw) (hp : 0 < kw.nBootstrap.getD 30)
    (hb : kw.bootstrapSubjects ≠ some false ∨ kw.boostrapDisVideos ≠ some false) (s s' : σ) :
    Bstp.stateAfter g n m kw s = Bstp.stateAfter g n m kw s' := by
  have hp' : 0 < (kw.nBootstrap.getD 30).toNat := by omega
  have htrue : ∀ x : Option Bool, x ≠ some false → x.getD true = true := by
    intro x hx
    rcases x with _ | (_ | _)
    · rfl
    · exact absurd rfl hx
    · rfl
  unfold Bstp.stateAfter
  by_cases hv : kw.boostrapDisVideos.getD true = true
  · simp only [hv, if_true, loopState_eq g m _ hp']
  · have hs : kw.bootstrapSubjects.getD true = true := by
      rcases hb with hb | hb
      · exact htrue _ hb
      · exact absurd (htrue _ hb) hv
    simp only [hv, hs, if_true, loopState_eq g n _ hp']

theorem runThree_inv {mode : Mle.Mode} {choice : ℕ → ℕ → List Int} {n : ℕ} {rd rd2 rd3 : Reader κ K} {o : Mle.Opts K} {kw : Bstp.Kw}
    {out : Bstp.Out κ K} (h : Bstp.runThree mode choice n rd rd2 rd3 o kw = .ok out) :
    ∃ r0 d ci cis r res, Mle.runModelingTwo mode rd rd2 (Bstp.unforced o) = .ok r0 ∧ toDataset rd3 = .ok d ∧ 0 < kw.nBootstrap.getD 30 ∧
      Bstp.subjectsCi mode d (Bstp.unforced o) choice r0 (kw.bootstrapSubjects.getD true) n (kw.nBootstrap.getD 30).toNat = .ok ci ∧
      Bstp.videosCi mode d (Bstp.unforced o) choice r0 (kw.boostrapDisVideos.getD true) rd3.disVideos.length (kw.nBootstrap.getD 30).toNat =
        .ok cis ∧
      Bstp.recentre (Ap.forced o.base) { r0 with qualityScoresCi95 := ci } = .ok r ∧
      runModeling (fun _ _ => .ok r) rd o.base = .ok res ∧ out = ⟨res, cis.1, cis.2⟩ := by
  unfold Bstp.runThree at h
  split at h
  · cases h
  rename_i out0 hout
  split at h
  · cases h
  rename_i res hres
  cases h
  unfold Bstp.runModelingThree at hout
  split at hout
  · cases hout
  rename_i r0 h0
  split at hout
  · cases hout
  rename_i d hd
  split at hout
  case isFalse => cases hout
  rename_i hpos
  split at hout
  · cases hout
  rename_i ci hci
  split at hout
  · cases hout
  rename_i cis hcis
  split at hout
  · cases hout
  rename_i r hr
  cases hout
  exact ⟨r0, d, ci, cis, r, res, h0, hd, hpos, hci, hcis, hr, hres, rfl⟩

theorem bootstrapped_inv {g : Gen σ K} {mode : Mle.Mode} {o : Mle.Opts K} {kw : Bstp.Kw} {src : VoteSource σ κ K} {s : σ} {res : Fit κ K × σ}
    (h : bootstrapped g mode o kw src s = .ok res) :
    ∃ r r2 r3 n out, src.read s = .ok r ∧ src.read r.2 = .ok r2 ∧ src.read r2.2 = .ok r3 ∧ src.numObservers = .ok n ∧
      Bstp.runThree mode (fun i m => g.choice (g.seed i) m) n r.1 r2.1 r3.1 o kw = .ok out ∧
      res = ({ res := out.res, biasCi95 := out.biasCi95.map fun p => [p.1, p.2], inconsistencyCi95 := out.inconsistencyCi95.map fun p => [p.1, p.2] },
        Bstp.stateAfter g n r3.1.disVideos.length kw r3.2) := by
  unfold bootstrapped at h
  split at h
  · cases h
  rename_i r hr
  split at h
  · cases h
  rename_i r2 hr2
  split at h
  · cases h
  rename_i r3 hr3
  split at h
  · cases h
  rename_i n hn
  split at h
  · cases h
  rename_i out hout
  cases h
  exact ⟨r, r2, r3, n, out, hr, hr2, hr3, hn, hout, rfl⟩

theorem synthRead_videos {g : Gen σ K} {cls : SynthClass} {seed : Option Int} {d : Dataset κ K} {kw : SynthKw K} {s : σ} {r : Reader κ K × σ}
    (h : synthRead g cls seed d kw s = .ok r) : r.1.disVideos = d.disVideos ∧ r.1.dataset = d ∧ ∃ rd, rawReader d = .ok rd := by
  have key : ∀ rd, rawReader d = .ok rd → rd.disVideos = d.disVideos ∧ rd.dataset = d := by
    intro rd hrd
    obtain ⟨-, hrd⟩ := rawReader_inv hrd
    rw [hrd]
    exact ⟨rfl, rfl⟩
  unfold synthRead at h
  cases cls with
  | normal =>
    dsimp only at h
    split at h
    · cases h
    rename_i rd' hrd'
    cases h
    unfold syntheticReader at hrd'
    split at hrd'
    · cases hrd'
    rename_i rd hrd
    split at hrd'
    · split at hrd'
      · cases hrd'
        exact ⟨(key rd hrd).1, (key rd hrd).2, rd, hrd⟩
      · cases hrd'
    · cases hrd'
  | logistic =>
    dsimp only at h
    split at h
    · cases h
    rename_i rd' hrd'
    cases h
    unfold logisticReader at hrd'
    split at hrd'
    · cases hrd'
    rename_i rd hrd
    split at hrd'
    · split at hrd'
      · cases hrd'
        exact ⟨(key rd hrd).1, (key rd hrd).2, rd, hrd⟩
      · cases hrd'
    · cases hrd'

theorem source_none {g : Gen σ K} {cls : SynthClass} {seed : Option Int} {d : Dataset κ K} {kw : SynthKw K} {s s1 : σ} {src : VoteSource σ κ K}
    (h : source g cls seed d kw none s = .ok (src, s1)) :
    src = ⟨synthRead g cls seed d kw, .ok (kw.bias.getD []).length⟩ ∧ s1 = s := by
  unfold source at h
  split at h
  · cases h
  · cases h
    exact ⟨rfl, rfl⟩

/-- **C134, the seed is forgotten.** Let a bootstrapping model, with at least one of its two kinds of intervals, be among the models.  Then what
is reported for the models after it (estimates, intervals and percentages), and the state of the generator in the end, are the same from whatever
state of the generator, i.e. with whatever `np.random.seed` before the validation: for these models another seed is not another experiment. -/
theorem C134_forgets {g : Gen σ K} {cls : SynthClass} {seed : Option Int} {before after : List (String × ModelSt σ κ K)} {ty : String}
    {mode : Mle.Mode} {o : Mle.Opts K} {kw : Bstp.Kw} {d : Dataset κ K} {truth : SynthKw K} {write : Bool} {s s' : σ}
    {res res' : Validation κ K × σ}
    (h : validateSt g cls seed (before ++ (ty, bootstrapped g mode o kw) :: after) (.ok d) truth none write s = .ok res)
    (h' : validateSt g cls seed (before ++ (ty, bootstrapped g mode o kw) :: after) (.ok d) truth none write s' = .ok res')
    (hb : kw.bootstrapSubjects ≠ some false ∨ kw.boostrapDisVideos ≠ some false)
    (hnd : ((before ++ (ty, bootstrapped g mode o kw) :: after).map (·.1)).Nodup) :
    res.2 = res'.2 ∧ ∀ ty' ∈ after.map (·.1), res.1.results.lookup ty' = res'.1.results.lookup ty' := by
  -- what the models after it return, and the final state
  have key : ∀ (s : σ) (res : Validation κ K × σ),
      validateSt g cls seed (before ++ (ty, bootstrapped g mode o kw) :: after) (.ok d) truth none write s = .ok res →
      ∃ f1 f2 s3, fitAllSt ⟨synthRead g cls seed d truth, .ok (truth.bias.getD []).length⟩ after
          (Bstp.stateAfter g (truth.bias.getD []).length d.disVideos.length kw s3) = .ok (f2, res.2) ∧
        0 < kw.nBootstrap.getD 30 ∧ ((f1 ++ f2).map (·.1)).Nodup ∧
        checkAll truth (f1 ++ f2) ((f1 ++ f2).foldl (fun acc p => setKey p.1 ({ fit := p.2 } : Checked κ K) acc) []) = .ok res.1.results := by
    intro s res h
    obtain ⟨src, s1, s2, fits, k1, -, k3, k4⟩ := validateSt_inv h
    obtain ⟨rfl, -⟩ := source_none k1
    obtain ⟨f1, f2, s3, j1, j2, rfl⟩ := fitAllSt_append k3
    have htypes := fitAllSt_types k3
    unfold fitAllSt at j2
    split at j2
    · cases j2
    rename_i r hr
    split at j2
    · cases j2
    rename_i rest hrest
    obtain ⟨rfl, hst⟩ := Prod.mk.inj (Except.ok.inj j2)
    obtain ⟨r1, r2, r3, n, out, -, -, i3, i4, i5, i6⟩ := bootstrapped_inv hr
    cases i4
    obtain ⟨-, -, -, -, -, -, -, -, hpos, -⟩ := runThree_inv i5
    have hvid := (synthRead_videos i3).1
    rw [i6] at hrest
    dsimp only at hrest
    rw [hvid] at hrest
    refine ⟨f1 ++ [(ty, r.1)], rest.1, r3.2, by rw [hrest, ← hst], hpos, ?_, ?_⟩
    · rw [List.append_assoc, List.singleton_append, htypes]; exact hnd
    · rw [List.append_assoc, List.singleton_append]; exact k4
  obtain ⟨f1, f2, t, a1, a2, a3, a4⟩ := key s res h
  obtain ⟨f1', f2', t', b1, -, b3, b4⟩ := key s' res' h'
  rw [stateAfter_eq g _ _ kw a2 hb t t', b1] at a1
  obtain ⟨rfl, hst⟩ := Prod.mk.inj (Except.ok.inj a1)
  refine ⟨hst.symm, ?_⟩
  intro ty' hty
  rw [← fitAllSt_types b1] at hty
  obtain ⟨⟨ty'', fit⟩, hm, rfl⟩ := List.mem_map.mp hty
  obtain ⟨c, c1, c2, c3, c4, c5⟩ := results_entry a4 a3 (List.mem_append_right f1 hm)
  obtain ⟨c', d1, d2, d3, d4, d5⟩ := results_entry b4 b3 (List.mem_append_right f1' hm)
  dsimp only
  rw [c1, d1]
  obtain ⟨cf, cq, cb, ci⟩ := c
  obtain ⟨df, dq, db, di⟩ := c'
  dsimp only at c2 c3 c4 c5 d2 d3 d4 d5
  rw [c3] at d3
  rw [c4] at d4
  rw [c5] at d5
  rw [c2, d2, Except.ok.inj d3, Except.ok.inj d4, Except.ok.inj d5]

/-- the votes of a reading depend on the draws before its last one only -/
theorem synthetic_local {scale : Fl K} {g g' : ℕ → K} {cids : List Int} {q b sg mu dl : List (Fl K)} {phi : Option (List (Fl K))}
    (h : ∀ k < cids.length * b.length * (match phi with | some _ => 3 | none => 2), g k = g' k) :
    synthetic scale g cids q b sg mu dl phi = synthetic scale g' cids q b sg mu dl phi := by
  have hb : ∀ (e : Fin cids.length) (s : Fin b.length), (e : ℕ) * b.length + s < cids.length * b.length := by
    intro e s
    have h1 : ((e : ℕ) + 1) * b.length ≤ cids.length * b.length := Nat.mul_le_mul_right _ e.2
    have h2 := s.2
    rw [Nat.add_mul, Nat.one_mul] at h1
    omega
  unfold synthetic
  split
  · rfl
  · rfl
  · cases phi with
    | none =>
      dsimp only at h ⊢
      congr 2
      funext e s _
      have := hb e s
      rw [h _ (by omega), h (_ + _) (by omega)]
    | some phi =>
      dsimp only at h ⊢
      split
      · congr 2
        funext e s _
        have := hb e s
        rw [h (e * _ + s) (by omega), h (cids.length * _ + _) (by omega), h (cids.length * _ + cids.length * _ + _) (by omega)]
      · rfl

/-- **C134, how many numbers a reading draws.** Without a seed, one reading of the synthetic votes is followed by the next one in the sequence of
normal numbers: a reading takes two numbers per video and observer, three if the input has `quality_ambiguity`, its votes depend on these only,
and the next reading begins with the number after them: no draw is used in both, none is left out. -/
theorem C134_successive {g : Gen σ K} {d : Dataset κ K} {kw : SynthKw K} {b : List (Fl K)} {s : σ} {r r2 : Reader κ K × σ} {N : ℕ}
    (hg : ∀ s n k, g.normal (g.afterNormal s n) k = g.normal s (n + k)) (hb : kw.bias = some b)
    (hN : N = d.disVideos.length * b.length * (match kw.qualityAmbiguity with | some _ => 3 | none => 2))
    (h : synthRead g .normal none d kw s = .ok r) (h2 : synthRead g .normal none d kw r.2 = .ok r2) :
    syntheticReader d kw (g.normal s) = .ok r.1 ∧ syntheticReader d kw (fun k => g.normal s (N + k)) = .ok r2.1 ∧
      ∀ z : ℕ → K, (∀ k < N, z k = g.normal s k) → syntheticReader d kw z = .ok r.1 := by
  have one : ∀ (s : σ) (r : Reader κ K × σ), synthRead g .normal none d kw s = .ok r →
      syntheticReader d kw (g.normal s) = .ok r.1 ∧ r.2 = g.afterNormal s N := by
    intro s r h
    unfold synthRead at h
    dsimp only at h
    split at h
    · cases h
    · rename_i rd hrd
      cases h
      refine ⟨hrd, ?_⟩
      rw [hN]
      unfold synthDraws Gen.reseed
      rw [hb]
      cases kw.qualityAmbiguity <;> rfl
  obtain ⟨h1, h1'⟩ := one s r h
  obtain ⟨h3, -⟩ := one r.2 r2 h2
  refine ⟨h1, ?_, ?_⟩
  · rw [← h3, h1']
    congr 1
    funext k
    exact (hg s N k).symm
  · intro z hz
    rw [← h1]
    unfold syntheticReader
    split
    · rfl
    · split
      · rename_i q b' sg mu dl hq hb' hsg hmu hdl
        rw [hb] at hb'
        cases hb'
        split
        · congr 2
          exact synthetic_local (by
            rw [show (contentIdOfDisVideos d.disVideos).length = d.disVideos.length by unfold contentIdOfDisVideos; simp]
            rw [← hN]
            exact hz)
        · rfl
      · rfl

end Sureal.Props
