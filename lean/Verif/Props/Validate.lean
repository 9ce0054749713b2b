import Verif.Model.Validate
import Verif.Spec.Validate
import Verif.Props.Mock
import Verif.Props.Synth
import Verif.Props.Corrupt
import Verif.Props.Ci
import Verif.Props.SynthLaw
/-!
# C98: `validate_with_synthetic_dataset`
-/
set_option linter.unusedSectionVars false
namespace Sureal.Props
open Spec Mock Routine
variable {κ K : Type} [LinearOrder κ] [Field K] [LinearOrder K] [IsStrictOrderedRing K] [MathFn K]

theorem lookup_setKey {α : Type} (k k' : String) (v : α) (l : List (String × α)) :
    (setKey k v l).lookup k' = if k' = k then some v else l.lookup k' := by
  induction l with
  | nil =>
    simp only [setKey, List.lookup_cons, List.lookup_nil]
    by_cases h : k' = k
    · simp [h]
    · rw [if_neg h, beq_false_of_ne h]
  | cons p l ih =>
    obtain ⟨k2, v2⟩ := p
    unfold setKey
    by_cases h : k = k2
    · subst h
      rw [if_pos rfl, List.lookup_cons, List.lookup_cons]
      by_cases h2 : k' = k
      · simp [h2]
      · rw [if_neg h2, beq_false_of_ne h2]
    · rw [if_neg h, List.lookup_cons, List.lookup_cons, ih]
      by_cases h2 : k' = k2
      · subst h2
        simp [Ne.symm h]
      · rw [beq_false_of_ne h2]

theorem lookup_foldl (fits : List (String × Fit κ K)) (ty : String) :
    (fits.foldl (fun acc p => setKey p.1 ({ fit := p.2 } : Checked κ K) acc) []).lookup ty =
      (fits.filter fun p => p.1 = ty).getLast?.map fun p => { fit := p.2 } := by
  induction fits using List.reverseRecOn with
  | nil => rfl
  | append_singleton l p ih =>
    rw [List.foldl_append, List.foldl_cons, List.foldl_nil, lookup_setKey, ih, List.filter_append]
    by_cases h : p.1 = ty
    · rw [if_pos h.symm]
      simp [h]
    · rw [if_neg (Ne.symm h)]
      simp [h]

theorem coverage_of {x y : List (Fl K)} {c : List (List (Fl K))} {p : Fl K}
    (h : Ci.ciPercentage (some x) (some y) (some c) = .ok p) : ∃ l u, c = [l, u] ∧ Coverage x y l u p := by
  obtain ⟨x', y', l, u, hx, hy, hc, hne, h1, h2, h3⟩ := (C70_errors _ _ _).mp ⟨p, h⟩
  cases hx; cases hy; cases hc
  refine ⟨l, u, rfl, x.length, x.get, fun i => y.get (i.cast h1), fun i => l.get (i.cast (h1.trans h2)),
    fun i => u.get (i.cast ((h1.trans h2).trans h3)), List.length_pos_iff.mpr hne, (List.ofFn_get x).symm, ?_, ?_, ?_, ?_⟩
  · exact List.ext_get (by simp [h1]) (by simp)
  · exact List.ext_get (by simp [h1, h2]) (by simp)
  · exact List.ext_get (by simp [h1, h2, h3]) (by simp)
  · have hy : y = List.ofFn fun i : Fin x.length => y.get (i.cast h1) := List.ext_get (by simp [h1]) (by simp)
    have hl : l = List.ofFn fun i : Fin x.length => l.get (i.cast (h1.trans h2)) := List.ext_get (by simp [h1, h2]) (by simp)
    have hu : u = List.ofFn fun i : Fin x.length => u.get (i.cast ((h1.trans h2).trans h3)) :=
      List.ext_get (by simp [h1, h2, h3]) (by simp)
    have := ciPercentage_ofFn (List.length_pos_iff.mpr hne) x.get (fun i : Fin x.length => y.get (i.cast h1))
      (fun i => l.get (i.cast (h1.trans h2))) (fun i => u.get (i.cast ((h1.trans h2).trans h3)))
    rw [← hy, ← hl, ← hu, List.ofFn_get, h] at this
    rw [Except.ok.inj this]
    simp only [Ci.inCi, Bool.and_eq_true]

theorem percentage_spec {truth est : Option (List (Fl K))} {ci : Option (List (List (Fl K)))} {v : Option (Fl K)}
    (h : percentage truth est ci none = .ok v) : IsPercentage truth est ci v := by
  unfold percentage at h
  split at h
  · split at h
    · cases h
    · rename_i p hp
      cases h
      refine ⟨?_, by rintro (h | h | h) <;> cases h⟩
      intro x y c hx hy hc
      cases hx; cases hy; cases hc
      obtain ⟨l, u, h1, h2⟩ := coverage_of hp
      exact ⟨l, u, p, h1, rfl, h2⟩
  · rename_i hn
    cases h
    refine ⟨?_, fun _ => rfl⟩
    intro x y c hx hy hc
    subst hx hy hc
    exact absurd rfl (hn y x c rfl rfl)

theorem checkOne_lookup {truth : SynthKw K} {acc acc' : List (String × Checked κ K)} {ty : String} {fit : Fit κ K}
    (h : checkOne truth acc ty fit = .ok acc') :
    (∀ ty', ty' ≠ ty → acc'.lookup ty' = acc.lookup ty') ∧
    ∃ c c', acc.lookup ty = some c ∧ acc'.lookup ty = some c' ∧ c'.fit = c.fit ∧
      percentage truth.quality (some fit.res.qualityScores) (fit.res.qualityScoresCi95.map fun p => [p.1, p.2]) c.qualityPerc = .ok c'.qualityPerc ∧
      percentage truth.bias fit.res.observerBias fit.biasCi95 c.biasPerc = .ok c'.biasPerc ∧
      percentage truth.inconsistency fit.res.observerInconsistency fit.inconsistencyCi95 c.inconsistencyPerc = .ok c'.inconsistencyPerc := by
  unfold checkOne at h
  split at h
  · cases h
  · rename_i c hc
    split at h
    · cases h
    · rename_i q hq
      split at h
      · cases h
      · rename_i b hb
        split at h
        · cases h
        · rename_i i hi
          cases h
          exact ⟨fun ty' hne => by rw [lookup_setKey, if_neg hne], c,
            { c with qualityPerc := q, biasPerc := b, inconsistencyPerc := i }, hc, by rw [lookup_setKey, if_pos rfl], rfl, hq, hb, hi⟩

theorem checkAll_fit {truth : SynthKw K} {fits : List (String × Fit κ K)} {acc out : List (String × Checked κ K)}
    (h : checkAll truth fits acc = .ok out) (ty : String) : (out.lookup ty).map (·.fit) = (acc.lookup ty).map (·.fit) := by
  induction fits generalizing acc with
  | nil => cases h; rfl
  | cons p fits ih =>
    obtain ⟨ty1, fit⟩ := p
    unfold checkAll at h
    split at h
    · cases h
    · rename_i acc' hacc
      rw [ih h]
      obtain ⟨h1, c, c', h2, h3, h4, -⟩ := checkOne_lookup hacc
      by_cases he : ty = ty1
      · subst he
        rw [h2, h3]
        exact congrArg some h4
      · rw [h1 ty he]

theorem checkAll_other {truth : SynthKw K} {fits : List (String × Fit κ K)} {acc out : List (String × Checked κ K)}
    (h : checkAll truth fits acc = .ok out) (ty : String) (hne : ∀ p ∈ fits, p.1 ≠ ty) : out.lookup ty = acc.lookup ty := by
  induction fits generalizing acc with
  | nil => cases h; rfl
  | cons p fits ih =>
    obtain ⟨ty1, fit⟩ := p
    unfold checkAll at h
    split at h
    · cases h
    · rename_i acc' hacc
      rw [ih h fun p hp => hne p (List.mem_cons_of_mem _ hp)]
      exact (checkOne_lookup hacc).1 ty (Ne.symm (hne _ List.mem_cons_self))

theorem checkAll_perc {truth : SynthKw K} {fits : List (String × Fit κ K)} {acc out : List (String × Checked κ K)}
    (h : checkAll truth fits acc = .ok out) (hnd : (fits.map (·.1)).Nodup) (ty : String) (fit : Fit κ K) (hm : (ty, fit) ∈ fits)
    (f0 : Fit κ K) (hacc : acc.lookup ty = some { fit := f0 }) :
    ∃ c, out.lookup ty = some c ∧
      IsPercentage truth.quality (some fit.res.qualityScores) (fit.res.qualityScoresCi95.map fun p => [p.1, p.2]) c.qualityPerc ∧
      IsPercentage truth.bias fit.res.observerBias fit.biasCi95 c.biasPerc ∧
      IsPercentage truth.inconsistency fit.res.observerInconsistency fit.inconsistencyCi95 c.inconsistencyPerc := by
  induction fits generalizing acc with
  | nil => cases hm
  | cons p fits ih =>
    obtain ⟨ty1, fit1⟩ := p
    rw [List.map_cons, List.nodup_cons] at hnd
    unfold checkAll at h
    split at h
    · cases h
    · rename_i acc' hacc'
      rcases List.mem_cons.mp hm with he | hm
      · cases he
        obtain ⟨-, c, c', h2, h3, h4, h5, h6, h7⟩ := checkOne_lookup hacc'
        rw [hacc] at h2
        cases h2
        refine ⟨c', ?_, percentage_spec h5, percentage_spec h6, percentage_spec h7⟩
        rw [checkAll_other h ty, h3]
        intro p hp he
        exact hnd.1 (List.mem_map.mpr ⟨p, hp, he⟩)
      · refine ih h hnd.2 hm ?_
        rw [(checkOne_lookup hacc').1, hacc]
        intro he
        exact hnd.1 (List.mem_map.mpr ⟨_, hm, he⟩)

theorem fitAll_spec {reader : ℕ → Py (Reader κ K)} {models : List (String × Modelled κ K)} {i : ℕ}
    {fits : List (String × Fit κ K)} (h : fitAll reader i models = .ok fits) :
    fits.map (·.1) = models.map (·.1) ∧ ∀ (j : ℕ) (ty : String) (m : Modelled κ K), models[j]? = some (ty, m) →
      ∃ fit, (m.run fun k => reader (i + ((models.take j).map fun p => p.2.reads).sum + k)) = .ok fit ∧ fits[j]? = some (ty, fit) := by
  induction models generalizing i fits with
  | nil => cases h; simp
  | cons p l ih =>
    obtain ⟨ty, m⟩ := p
    unfold fitAll at h
    split at h
    · cases h
    · rename_i fit hfit
      split at h
      · cases h
      · rename_i rest hrest
        cases h
        obtain ⟨h1, h2⟩ := ih hrest
        refine ⟨by simp [h1], ?_⟩
        intro j ty' m' hj
        cases j with
        | zero =>
          simp only [List.getElem?_cons_zero, Option.some.injEq, Prod.mk.injEq] at hj
          obtain ⟨rfl, rfl⟩ := hj
          exact ⟨fit, hfit, rfl⟩
        | succ j =>
          obtain ⟨fit', k1, k2⟩ := h2 j ty' m' (by simpa using hj)
          refine ⟨fit', ?_, by simpa using k2⟩
          rw [← k1]
          congr 1
          funext k
          congr 1
          rw [List.take_succ_cons, List.map_cons, List.sum_cons]
          dsimp only
          omega

theorem validate_inv {cls : SynthClass} {w : Rand K} {seed : Option (Option Int)} {models : List (String × Modelled κ K)}
    {dataset : Py (Dataset κ K)} {truth : SynthKw K} {missing : Option (Fl K)} {write : Bool} {out : Validation κ K}
    (h : validate cls w seed models dataset truth missing write = .ok out) :
    ∃ d fits, dataset = .ok d ∧ (missing.all fun p => Fl.le 0 p && Fl.lt p 1) = true ∧
      fitAll (readerAt cls w seed d truth missing) (if write then 1 else 0) models = .ok fits ∧
      checkAll truth fits (fits.foldl (fun acc p => setKey p.1 ({ fit := p.2 } : Checked κ K) acc) []) = .ok out.results ∧
      (write = false → out.written = none) ∧ ∃ rd0, readerAt cls w seed d truth missing 0 = .ok rd0 ∧
      (write = true → ∃ d', toDataset rd0 = .ok d' ∧ out.written = some d') := by
  unfold validate at h
  split at h
  · rename_i hm
    split at h
    · cases h
    · rename_i d
      split at h
      · cases h
      · rename_i rd0 hrd0
        split at h
        · cases h
        · rename_i written hw
          unfold writtenDataset at hw
          split at h
          · cases h
          · rename_i fits hfits
            split at h
            · cases h
            · rename_i results hres
              cases h
              refine ⟨d, fits, rfl, hm, hfits, hres, ?_, rd0, hrd0, ?_⟩
              · rintro rfl
                cases hw
                rfl
              · rintro rfl
                rw [if_pos rfl] at hw
                split at hw
                · cases hw
                · rename_i d' hd'
                  cases hw
                  exact ⟨d', hd', rfl⟩
  · cases h

/-- **C98, refused probabilities.** -/
theorem C98_probability (cls : SynthClass) (w : Rand K) (seed : Option (Option Int)) (models : List (String × Modelled κ K))
    (dataset : Py (Dataset κ K)) (truth : SynthKw K) (p : K) (hp : p < 0 ∨ 1 ≤ p) (write : Bool) :
    validate cls w seed models dataset truth (some (.fin p)) write = .error .assertion := by
  unfold validate
  rw [if_neg]
  intro h
  simp only [Option.all_some, Bool.and_eq_true] at h
  have h1 : (0 : K) ≤ p := by simpa [Fl.le] using h.1
  have h2 : p < 1 := by simpa [Fl.lt] using h.2
  rcases hp with hp | hp
  · exact absurd h1 (not_le.mpr hp)
  · exact absurd h2 (not_lt.mpr hp)

/-- **C98, results.** Every model is run, in order, on its readings of the synthetic votes, which follow those of the models before it.  The
returned results have an entry for exactly the TYPEs of the models, with what the last model of this TYPE returned; if no two models have the same TYPE, the coverage percentages beside it are those of its
scores, biases and inconsistencies compared to the true ones. -/
theorem C98_results {cls : SynthClass} {w : Rand K} {seed : Option (Option Int)} {models : List (String × Modelled κ K)}
    {dataset : Py (Dataset κ K)} {truth : SynthKw K} {missing : Option (Fl K)} {write : Bool} {out : Validation κ K}
    (h : validate cls w seed models dataset truth missing write = .ok out) :
    ∃ (d : Dataset κ K) (fits : List (String × Fit κ K)), dataset = .ok d ∧ fits.map (·.1) = models.map (·.1) ∧
      (∀ (j : ℕ) (ty : String) (m : Modelled κ K), models[j]? = some (ty, m) → ∃ fit, fits[j]? = some (ty, fit) ∧
        (m.run fun k => readerAt cls w seed d truth missing ((if write then 1 else 0) + ((models.take j).map fun p => p.2.reads).sum + k)) = .ok fit) ∧
      (∀ ty, (out.results.lookup ty).map (·.fit) = (fits.filter fun p => p.1 = ty).getLast?.map (·.2)) ∧
      ((models.map (·.1)).Nodup → ∀ ty fit, (ty, fit) ∈ fits → ∃ c, out.results.lookup ty = some c ∧ c.fit = fit ∧
        IsPercentage truth.quality (some fit.res.qualityScores) (fit.res.qualityScoresCi95.map fun p => [p.1, p.2]) c.qualityPerc ∧
        IsPercentage truth.bias fit.res.observerBias fit.biasCi95 c.biasPerc ∧
        IsPercentage truth.inconsistency fit.res.observerInconsistency fit.inconsistencyCi95 c.inconsistencyPerc) := by
  obtain ⟨d, fits, h1, -, h2, h3, -⟩ := validate_inv h
  obtain ⟨h4, h5⟩ := fitAll_spec h2
  have hfit : ∀ ty, (out.results.lookup ty).map (·.fit) = (fits.filter fun p => p.1 = ty).getLast?.map (·.2) := by
    intro ty
    rw [checkAll_fit h3, lookup_foldl, Option.map_map]
    rfl
  refine ⟨d, fits, h1, h4, fun j ty m hj => ?_, hfit, ?_⟩
  · obtain ⟨fit, k1, k2⟩ := h5 j ty m hj
    exact ⟨fit, k2, k1⟩
  · intro hnd ty fit hm
    rw [← h4] at hnd
    have hlast : (fits.filter fun p => p.1 = ty).getLast? = some (ty, fit) := by
      have hall : ∀ p ∈ fits.filter fun p => p.1 = ty, p = (ty, fit) := by
        intro p hp
        rw [List.mem_filter] at hp
        have : p.1 = ty := by simpa using hp.2
        exact List.inj_on_of_nodup_map hnd hp.1 hm this
      have hne : (fits.filter fun p => p.1 = ty) ≠ [] := by
        intro hnil
        have : (ty, fit) ∈ fits.filter fun p => p.1 = ty := List.mem_filter.mpr ⟨hm, by simp⟩
        rw [hnil] at this
        cases this
      rw [List.getLast?_eq_getLast_of_ne_nil hne, hall _ (List.getLast_mem hne)]
    obtain ⟨c, k1, k2, k3, k4⟩ := checkAll_perc h3 hnd ty fit hm fit (by rw [lookup_foldl, hlast]; rfl)
    refine ⟨c, k1, ?_, k2, k3, k4⟩
    have := hfit ty
    rw [k1, hlast] at this
    simpa using this

theorem readerAt_seeded {cls : SynthClass} (w : Rand K) (s : Int) (d : Dataset κ K) (truth : SynthKw K) {missing : Option (Fl K)}
    (hcls : cls = .normal ∨ missing.isSome = true) (i : ℕ) :
    readerAt cls w (some (some s)) d truth missing i = readerAt cls w (some (some s)) d truth missing 0 := by
  rcases hcls with rfl | h
  · rfl
  · obtain ⟨p, rfl⟩ := Option.isSome_iff_exists.mp h
    rfl

/-- **C98, one set of votes.** With a seed, all models are run on the same votes, and the votes in the output file are these: with the normal
reader, or if votes are missing.

Missing: without a seed, or with the logistic reader if no votes are missing, this is false (`C98_refuted_unseeded`, `C98_refuted_logistic`). -/
theorem C98_same_votes_partial {cls : SynthClass} {w : Rand K} {s : Int} {models : List (String × Modelled κ K)}
    {dataset : Py (Dataset κ K)} {truth : SynthKw K} {missing : Option (Fl K)} {write : Bool} {out : Validation κ K}
    (hcls : cls = .normal ∨ missing.isSome = true)
    (h : validate cls w (some (some s)) models dataset truth missing write = .ok out) :
    ∃ (d : Dataset κ K) (rd : Reader κ K) (fits : List (String × Fit κ K)), dataset = .ok d ∧
      (missing = none → syntheticReader d truth (w.seededNoise s) = .ok rd) ∧
      (∀ p, missing = some p → ∃ rd0 d2, synthAt cls w (some (some s)) d truth 0 = .ok rd0 ∧ toDataset rd0 = .ok d2 ∧
        missingReader d2 (some p) (w.seededUniform s) = .ok rd) ∧
      fits.length = models.length ∧
      (∀ (j : ℕ) (ty : String) (m : Modelled κ K), models[j]? = some (ty, m) →
        ∃ fit, (m.run fun _ => .ok rd) = .ok fit ∧ fits[j]? = some (ty, fit)) ∧
      (∀ ty, (out.results.lookup ty).map (·.fit) = (fits.filter fun p => p.1 = ty).getLast?.map (·.2)) ∧
      (write = true → ∃ d', out.written = some d' ∧ toDataset rd = .ok d') := by
  obtain ⟨d, fits, h1, -, h2, h3, -, rd, hrd, h6⟩ := validate_inv h
  obtain ⟨h4, h5⟩ := fitAll_spec h2
  refine ⟨d, rd, fits, h1, ?_, ?_, ?_, ?_, ?_, ?_⟩
  · rintro rfl
    rcases hcls with rfl | hcls
    · exact hrd
    · cases hcls
  · rintro p rfl
    unfold readerAt at hrd
    dsimp only at hrd
    split at hrd
    · cases hrd
    · rename_i rd0 hrd0
      split at hrd
      · cases hrd
      · rename_i d2 hd2
        exact ⟨rd0, d2, hrd0, hd2, hrd⟩
  · simpa using congrArg List.length h4
  · intro j ty m hj
    obtain ⟨fit, k1, k2⟩ := h5 j ty m hj
    refine ⟨fit, ?_, k2⟩
    rw [← k1]
    congr 1
    funext k
    rw [readerAt_seeded w s d truth hcls, hrd]
  · intro ty
    rw [checkAll_fit h3, lookup_foldl, Option.map_map]
    rfl
  · intro hw
    obtain ⟨d', k1, k2⟩ := h6 hw
    exact ⟨d', k2, k1⟩

/-- **C98, missing votes.** The votes with missing votes are the synthetic votes without those whose draw is at most the probability; both can be
written to a file and read again. -/
theorem C98_votes (d : Dataset κ K) (rd : Reader κ K) (hraw : rawReader d = .ok rd) (w : Rand K) (s : Int)
    (q b sg mu dl : List K) (phi : Option (List K)) (hq : q.length = d.disVideos.length)
    (hsg : sg.length = b.length) (hmu : mu.length = d.refVideos.length) (hdl : dl.length = mu.length)
    (hphi : ∀ l ∈ phi, l.length = d.disVideos.length)
    (hc : ∀ dv ∈ d.disVideos, 0 ≤ dv.contentId ∧ dv.contentId < d.refVideos.length)
    (hb : b ≠ []) (p : K) (hu : ∀ n, w.seededUniform s n < 1) :
    ∃ rd0 a0 rd1 a1, readerAt .normal w (some (some s)) d (synthKw q b sg mu dl phi) none 0 = .ok rd0 ∧ rd0.scores = .ok a0 ∧
      readerAt .normal w (some (some s)) d (synthKw q b sg mu dl phi) (some (.fin p)) 0 = .ok rd1 ∧ rd1.scores = .ok a1 ∧
      a0.E = d.disVideos.length ∧ a0.S = b.length ∧ a0.R = 1 ∧ a1.E = a0.E ∧ a1.S = a0.S ∧ a1.R = 1 ∧
      (∀ (e s' : ℕ) dv qe bs sgs m dc, d.disVideos[e]? = some dv → q[e]? = some qe → b[s']? = some bs →
        sg[s']? = some sgs → mu[dv.contentId.toNat]? = some m → dl[dv.contentId.toNat]? = some dc →
        cell a0 e s' 0 = some (.fin (qe + (bs + w.seededNoise s (e * b.length + s') * sgs)
          + (m + w.seededNoise s (d.disVideos.length * b.length + (e * b.length + s')) * dc)
          + ambiguityNoise phi (w.seededNoise s (2 * (d.disVideos.length * b.length) + (e * b.length + s'))) e))) ∧
      (∀ e s' v, cell a0 e s' 0 = some v → cell a1 e s' 0 = some (if w.seededUniform s (e * b.length + s') ≤ p then .nan else v)) ∧
      (∃ d' r a, toDataset rd0 = .ok d' ∧ rawReader d' = .ok r ∧ r.scores = .ok a ∧ ∀ e s r, cell a e s r = cell a0 e s r) ∧
      ∃ d' r a, toDataset rd1 = .ok d' ∧ rawReader d' = .ok r ∧ r.scores = .ok a ∧ ∀ e s r, cell a e s r = cell a1 e s r := by
  have hS : 0 < b.length := List.length_pos_iff.mpr hb
  obtain ⟨rd0, a0, k1, k2, k3, -, k4, e1, e2, e3, k5⟩ := C54_model d rd hraw (w.seededNoise s) q b sg mu dl phi hq hsg hmu hdl hphi hc
  obtain ⟨hassert, hrd⟩ := rawReader_inv hraw
  have hdis : rd.disVideos = d.disVideos := by rw [hrd]
  obtain ⟨d2, r2, t1, t2, -, -, -, -, -, -, t3, -⟩ := C75_export rd0 a0 k4 (by rw [e1, k3, hdis]) (by omega) (by
    rw [k2, k3, hdis]
    exact (C01_accepts_iff_wellFormed d).mp hassert)
  obtain ⟨a2, t4, f1, f2, f3, t5⟩ := t3 e3
  obtain ⟨hassert2, hr2⟩ := rawReader_inv t2
  have hdis2 : r2.disVideos = d2.disVideos := by rw [hr2]
  obtain ⟨-, rd1, a1, m1, m2, m3, -, m4, g1, g2, g3, -, m5⟩ := C52_missing d2 r2 t2 a2 t4 p (w.seededUniform s) hu
  have hE2 : a2.E = d2.disVideos.length := by
    have hh := t1
    unfold toDataset at hh
    rw [k4] at hh
    dsimp only at hh
    rw [if_pos (by rw [e1, k3, hdis])] at hh
    cases hh
    simp [f1, e1, k3, hdis]
  obtain ⟨d3, r3, u1, u2, -, -, -, -, -, -, u3, -⟩ := C75_export rd1 a1 m4 (by rw [g1, hE2, m3, hdis2]) (by omega) (by
    rw [m2, m3, hdis2]
    exact (C01_accepts_iff_wellFormed d2).mp hassert2)
  obtain ⟨a3, u4, -, -, -, u5⟩ := u3 (by rw [g3, f3])
  refine ⟨rd0, a0, rd1, a1, k1, k4, ?_, m4, e1, e2, e3, by omega, by omega, by omega, k5, ?_, ⟨d2, r2, a2, t1, t2, t4, t5⟩,
    ⟨d3, r3, a3, u1, u2, u4, u5⟩⟩
  · unfold readerAt
    dsimp only
    have : synthAt .normal w (some (some s)) d (synthKw q b sg mu dl phi) 0 = .ok rd0 := k1
    rw [this]
    dsimp only
    rw [t1]
    exact m1
  · intro e s' v hv
    have := m5 e s' 0 v (by rw [t5]; exact hv)
    rw [this, f2, e2, f3, Nat.mul_one, Nat.add_zero]

/-- **C98, the logistic reader ignores the seed.** -/
theorem C98_logistic_seed (w : Rand K) (seed : Option (Option Int)) (models : List (String × Modelled κ K))
    (dataset : Py (Dataset κ K)) (truth : SynthKw K) (write : Bool) :
    validate .logistic w seed models dataset truth none write = validate .logistic w none models dataset truth none write := by
  rfl

/-- one video, one observer -/
noncomputable def exLogistic : Dataset String ℝ :=
  { refVideos := [⟨0, "r", []⟩]
    disVideos := [⟨0, 0, "a", some (.seq false [.one (.fin 1)]), none, none, []⟩]
    refScore := none, datasetName := none, attrs := [] }

/-- **C98, refuted for the logistic reader.** Although a seed is given, the votes are different whenever they are read. -/
theorem C98_refuted_logistic : ∃ (w : Rand ℝ) (truth : SynthKw ℝ) (rd0 rd1 : Reader String ℝ) (a0 a1 : Arr3D (Fl ℝ)),
    readerAt .logistic w (some (some 1)) exLogistic truth none 0 = .ok rd0 ∧ rd0.scores = .ok a0 ∧ cell a0 0 0 0 = some (.fin 3) ∧
    readerAt .logistic w (some (some 1)) exLogistic truth none 1 = .ok rd1 ∧ rd1.scores = .ok a1 ∧ cell a1 0 0 0 = some (.fin 4) := by
  have hsc : (Real.pi / √3 : ℝ) ≠ 0 := by positivity
  have hscale : (Fl.fin MathFn.pi / ((3 : ℕ) : Fl ℝ).sqrt : Fl ℝ) = .fin (Real.pi / √3) := by
    rw [Fl.natCast_def, Fl.sqrt_fin (by positivity), Fl.fin_div]
    · norm_num [MathFn.pi, MathFn.sqrt]
    · show √((3 : ℕ) : ℝ) ≠ 0
      positivity
  let w : Rand ℝ := { noise := fun i _ => i, uniform := fun _ _ => 0, seededNoise := fun _ _ => 0, seededUniform := fun _ _ => 0 }
  have key : ∀ i : ℕ, ∃ rd a, readerAt .logistic w (some (some 1)) exLogistic (synthKw [3] [0] [Real.pi / √3] [0] [0] none) none i = .ok rd ∧
      rd.scores = .ok a ∧ cell a 0 0 0 = some (.fin (3 + (i : ℝ))) := by
    intro i
    obtain ⟨⟨rd, a, h1, h2, -, -, -, h3⟩, -⟩ := C54_logistic exLogistic _ rfl (w.noise i) (Real.pi / √3) hsc [3] [0] [Real.pi / √3] [0] [0]
      rfl rfl rfl rfl (by intro dv hdv; simp [exLogistic] at hdv; subst hdv; decide)
    refine ⟨rd, a, ?_, h2, ?_⟩
    · unfold readerAt synthAt
      dsimp only
      rw [hscale]
      exact h1
    · rw [h3 0 0 _ _ _ _ _ _ rfl rfl rfl rfl rfl rfl]
      congr 2
      show (3 + (0 + (i : ℝ) * (Real.pi / √3 / (Real.pi / √3))) + (0 + (i : ℝ) * (0 / (Real.pi / √3))) : ℝ) = _
      rw [div_self hsc]
      ring
  obtain ⟨rd0, a0, h1, h2, h3⟩ := key 0
  obtain ⟨rd1, a1, g1, g2, g3⟩ := key 1
  refine ⟨w, _, rd0, rd1, a0, a1, h1, h2, by rw [h3]; norm_num, g1, g2, by rw [g3]; norm_num⟩

/-- a model class with a TYPE of its own: MOS without confidence intervals -/
def exMos {K : Type} [Zero K] [One K] [Add K] [Neg K] [Sub K] [Mul K] [Div K] [NatCast K]
    [LT K] [LE K] [DecidableLT K] [DecidableLE K] [MathFn K] (rd : Reader String K) : Py (Fit String K) :=
  match runMOS rd {} with
  | .error e => .error e
  | .ok res => .ok { res := { qualityScores := res.qualityScores } }

/-- draws that count the readings -/
def exRand : Rand ℚ :=
  { noise := fun i _ => i, uniform := fun i _ => i / 4, seededNoise := fun _ n => n, seededUniform := fun _ n => n / 8 }

attribute [local instance] ratMath in
/-- **C98, refuted without a seed.** MOS run twice gives different scores, and neither are those of the votes in the output file. -/
theorem C98_refuted_unseeded : ∃ out d, validate .normal exRand none [("A", .once exMos), ("B", .once exMos)] (.ok flipDs)
      (synthKw [3, 4] [0, 1] [1, 2] [0] [0] none) none true = .ok out ∧ out.written = some d ∧
    (out.results.lookup "A").map (·.fit.res.qualityScores) = some [.fin 5, .fin 6] ∧
    (out.results.lookup "B").map (·.fit.res.qualityScores) = some [.fin (13 / 2), .fin (15 / 2)] ∧
    ∃ rd a, rawReader d = .ok rd ∧ rd.scores = .ok a ∧ cell a 0 0 0 = some (.fin 3) ∧ cell a 0 1 0 = some (.fin 4) := by
  obtain ⟨out, h, hP⟩ := okWith_elim
    (x := validate .normal exRand none [("A", .once exMos), ("B", .once exMos)] (.ok flipDs) (synthKw [3, 4] [0, 1] [1, 2] [0] [0] none) none true)
    (P := fun out => decide ((out.results.lookup "A").map (·.fit.res.qualityScores) = some [.fin 5, .fin 6] ∧
      (out.results.lookup "B").map (·.fit.res.qualityScores) = some [.fin (13 / 2), .fin (15 / 2)]) &&
      match out.written with
      | none => false
      | some d => okWith (rawReader d) fun rd => okWith rd.scores fun a =>
        decide (cell a 0 0 0 = some (.fin 3) ∧ cell a 0 1 0 = some (.fin 4))) (by decide +kernel)
  rw [Bool.and_eq_true] at hP
  obtain ⟨hA, hB⟩ := of_decide_eq_true hP.1
  have hw := hP.2
  split at hw
  · cases hw
  · rename_i d hd
    obtain ⟨rd, k1, k2⟩ := okWith_elim hw
    obtain ⟨a, k3, k4⟩ := okWith_elim k2
    exact ⟨out, d, h, hd, hA, hB, rd, a, k1, k3, of_decide_eq_true k4⟩

attribute [local instance] ratMath in
/-- `C98_results` and `C98_same_votes_partial` apply: with a seed and missing votes -/
example : okWith (validate .normal exRand (some (some 7)) [("A", .once exMos), ("B", .once exMos)] (.ok flipDs)
      (synthKw [3, 4] [0, 1] [1, 2] [0] [0] none) (some (.fin (1 / 16))) true) (fun out =>
        decide (out.results.map (fun p => (p.1, p.2.fit.res.qualityScores)) =
          [("A", [.fin 6, .fin (17 / 2)]), ("B", [.fin 6, .fin (17 / 2)])])) = true := by
  decide +kernel

attribute [local instance] ratMath in
/-- a coverage of one video out of two, none for the biases -/
example : okWith (validate .normal exRand (some (some 7)) [("A", .once exMos), ("B", .once fun _ => .ok { res := {
        qualityScores := [.fin (7 / 2), .fin 9], qualityScoresCi95 := some ([.fin 1, .fin 1], [.fin 1, .fin 1]) } })] (.ok flipDs)
      (synthKw [3, 4] [0, 1] [1, 2] [0] [0] none) none false) (fun out =>
        decide (out.results.map (fun p => (p.1, p.2.qualityPerc, p.2.biasPerc)) = [("A", none, none), ("B", some (.fin 50), none)])) = true := by
  decide +kernel

/-- `C98_votes` applies -/
example : (∃ rd, rawReader flipDs = .ok rd) ∧ (∀ dv ∈ flipDs.disVideos, 0 ≤ dv.contentId ∧ dv.contentId < flipDs.refVideos.length) ∧
    ∀ n, ({ exRand with seededUniform := fun _ n => if n = 0 then 0 else 1 / 2 } : Rand ℚ).seededUniform 7 n < 1 := by
  refine ⟨⟨_, rfl⟩, by decide, ?_⟩
  intro n
  show (if n = 0 then (0 : ℚ) else 1 / 2) < 1
  split <;> norm_num

end Sureal.Props
