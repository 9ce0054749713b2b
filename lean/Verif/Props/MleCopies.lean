import Verif.Lemmas.MleCopies
import Verif.Props.MleMethods
/-!
# C138: copies of a panel and silent observers in the maximum likelihood models
-/
set_option linter.unusedSectionVars false
namespace Sureal.Props
open Sureal Spec Mle
variable {κ : Type} {E S S' R : ℕ}

theorem root_scale {m : ℕ} (hm : 0 < m) {n : ℕ} {a' a : Fin n → Fl ℝ} (h : ∀ i, Sc (Real.sqrt m) (-1) (a' i) (a i)) :
    List.ofFn a' = (List.ofFn a).map (Fl.fin (1 / Real.sqrt m) * ·) := by
  rw [List.map_ofFn]
  congr 1
  funext i
  have := h i
  unfold Sc at this
  rw [this, zpow_neg_one, ← one_div]
  rfl

/-- **C138**.  A panel made of `m` copies of every observer of another panel, and of silent observers, gives the same exception, or the same qualities and
ambiguities after the same number of passes, and the same log-likelihood per vote.  The standard deviations of qualities and ambiguities are divided by `√m`.
Copies get bias, inconsistency and their standard deviations from their originals; the silent get NaN.  With silent observers the biases must not be centred,
and the density must not be 'uniform'. -/
theorem C138_copies (mode : Mode) (rd rd' : Reader κ ℝ)
    (hobs : (∃ l, rd.observers = .ok l) ∨ rd.observers = .error .assertion)
    (hobs' : (∃ l, rd'.observers = .ok l) ∨ rd'.observers = .error .assertion)
    (x : Fin E → Fin S → Fin R → Fl ℝ) (φ : Fin S' → Option (Fin S)) {m : ℕ} (hφ : CopiesOf m φ) (hm : 0 < m)
    (ha : rd.scores = .ok ⟨E, S, R, x⟩) (ha' : rd'.scores = .ok ⟨E, S', R, fun e i' r => (φ i').elim .nan fun i => x e i r⟩)
    (hid : rd'.disVideos.map (·.contentId) = rd.disVideos.map (·.contentId))
    (href : rd'.dataset.refVideos.map (·.contentId) = rd.dataset.refVideos.map (·.contentId))
    (z : Flag) (g pdf : Option String) (thr : Option (Fl ℝ)) (o : Mle.Opts ℝ)
    (ho : o = { base := { forceSubjbiasZeromean := z }, gradientMethod := g, numericalPdf := pdf, deltaThr := thr })
    (hs : (z = some (some false) ∧ pdf ≠ some "uniform") ∨ ∀ i', φ i' ≠ none) :
    (∃ e, Mle.run mode rd o = .error e ∧ Mle.run mode rd' o = .error e) ∨
    ∃ (res res' : Result κ ℝ) (b sb v sv : Fin S → Fl ℝ) (b' sb' v' sv' : Fin S' → Fl ℝ),
      Mle.run mode rd o = .ok res ∧ Mle.run mode rd' o = .ok res' ∧
      res'.qualityScores = res.qualityScores ∧ res'.contentAmbiguity = res.contentAmbiguity ∧
      res'.numIter = res.numIter ∧ res'.loglikelihood = res.loglikelihood ∧
      res'.qualityScoresStd = res.qualityScoresStd.map (·.map (.fin (1 / Real.sqrt m) * ·)) ∧
      res'.contentAmbiguityStd = res.contentAmbiguityStd.map (·.map (.fin (1 / Real.sqrt m) * ·)) ∧
      (mode ≠ .subjectOblivious →
        res.observerBias = some (List.ofFn b) ∧ res'.observerBias = some (List.ofFn b') ∧
        res.observerBiasStd = some (List.ofFn sb) ∧ res'.observerBiasStd = some (List.ofFn sb') ∧
        res.observerInconsistency = some (List.ofFn v) ∧ res'.observerInconsistency = some (List.ofFn v') ∧
        res.observerInconsistencyStd = some (List.ofFn sv) ∧ res'.observerInconsistencyStd = some (List.ofFn sv') ∧
        (∀ i' i, φ i' = some i → b' i' = b i ∧ sb' i' = sb i ∧ v' i' = v i ∧ sv' i' = sv i) ∧
        ∀ i', φ i' = none → b' i' = .nan ∧ v' i' = .nan) := by
  have hoo : o = optsOf z g pdf thr := ho
  have hpdf : pdf ≠ some "uniform" ∨ ∀ i', φ i' ≠ none := hs.imp_left (·.2)
  have hfol : Follows φ (fun e i' r => (φ i').elim .nan fun i => x e i r) x :=
    ⟨fun i' i hi e r => by dsimp only; rw [hi]; rfl, fun i' hi e r => by dsimp only; rw [hi]; rfl⟩
  have hV : ∀ {C : ℕ} (cid : Fin E → Fin C), Votes φ (⟨fun e i' r => (φ i').elim .nan fun i => x e i r, cid⟩ : Data ℝ E S' R C) ⟨x, cid⟩ :=
    fun cid => ⟨hfol, rfl⟩
  rcases run_panels (n := m) (φ := φ) mode hobs hobs' ha ha' hid href z g pdf thr (by
    intro k C cid
    rw [meanAlongS_follows hφ hm hfol]
    exact fitArr_copies (hV cid) hφ hm mode k hpdf _ _) with he | ⟨C, k, cid, f, f', dens, obs, obs', hdens, hS, hst, hitr, hf', h1, h2⟩
  · rw [hoo]; exact Or.inl he
  right
  rw [hoo]
  have hforce : Ap.forced (optsOf z g pdf thr).base = false ∨ ∀ i', φ i' ≠ none := by
    rcases hs with ⟨rfl, -⟩ | hs
    · exact Or.inl rfl
    · exact Or.inr hs
  have hcen := centre_copies hφ hm _ hforce hS
  have hq : Quiet φ dens := quiet_gauss hpdf hdens
  have hll : Np.sum (List.ofFn (sumS (logCells dens (⟨fun e i' r => (φ i').elim .nan fun i => x e i r, cid⟩ : Data ℝ E S' R C)
      (centre (Ap.forced (optsOf z g pdf thr).base) f'.p)))) =
      .fin (m : ℝ) * Np.sum (List.ofFn (sumS (logCells dens (⟨x, cid⟩ : Data ℝ E S R C) (centre (Ap.forced (optsOf z g pdf thr).base) f.p)))) := by
    rw [← sc_two hm]
    have := sum_sc (root_pos hm) 2 (List.ofFn (sumS (logCells dens (⟨x, cid⟩ : Data ℝ E S R C) (centre (Ap.forced (optsOf z g pdf thr).base) f.p))))
    unfold scL at this
    rw [List.map_ofFn] at this
    have he : ∀ e, sumS (logCells dens (⟨fun e i' r => (φ i').elim .nan fun i => x e i r, cid⟩ : Data ℝ E S' R C)
      (centre (Ap.forced (optsOf z g pdf thr).base) f'.p)) e = _ := fun e => (sc_two hm).mpr (logCells_copies (hV cid) hcen hφ hm hq e)
    rw [funext he]
    exact this
  have hcnt : Np.countNotNan (ravel3 fun (e : Fin E) (i' : Fin S') (r : Fin R) => (φ i').elim .nan fun i => x e i r) = m * Np.countNotNan (ravel3 x) :=
    (ravel3_follows hφ hfol).count
  refine ⟨_, _, (centre (Ap.forced (optsOf z g pdf thr).base) f.p).b, f.std.b, (centre (Ap.forced (optsOf z g pdf thr).base) f.p).v, f.std.v,
    (centre (Ap.forced (optsOf z g pdf thr).base) f'.p).b, f'.std.b, (centre (Ap.forced (optsOf z g pdf thr).base) f'.p).v, f'.std.v,
    h1, h2, ?_, ?_, ?_, ?_, ?_, ?_, ?_⟩
  · show List.ofFn _ = List.ofFn _
    rw [hcen.x]
  · show (if mode = .contentOblivious then none else some (List.ofFn _)) = if mode = .contentOblivious then none else some (List.ofFn _)
    rw [hcen.a]
  · show some f'.itr = some f.itr
    rw [hitr]
  · show some (_ / _) = some (_ / _)
    dsimp only
    rw [hll, hcnt, natCast_mul, ratio_copies hm]
  · show some (List.ofFn f'.std.x) = some ((List.ofFn f.std.x).map _)
    rw [root_scale hm hst.x]
  · show (if mode = .contentOblivious then none else some (List.ofFn f'.std.a)) =
      (if mode = .contentOblivious then none else some (List.ofFn f.std.a)).map _
    split
    · rfl
    · rw [root_scale hm hst.a]
      rfl
  · intro hmode
    refine ⟨if_neg hmode, if_neg hmode, if_neg hmode, if_neg hmode, if_neg hmode, if_neg hmode, if_neg hmode, if_neg hmode, ?_, ?_⟩
    · intro i' i hi
      exact ⟨hcen.b i' i hi, hst.b i' i hi, hcen.v i' i hi, hst.v i' i hi⟩
    · intro i' hi
      have h0 := silent_fit (hV cid) hmode hpdf hf' hi
      rcases hforce with h | h
      · rw [h]
        exact h0
      · exact absurd hi (h i')

/-- every observer of the example twice, first the whole panel, then again -/
noncomputable def twiceReader : Reader String ℝ :=
  { exMleReader with scores := .ok ⟨1, 4, 1, fun e i' r => (some (⟨i'.val % 2, Nat.mod_lt _ (by decide)⟩ : Fin 2)).elim .nan fun i => exVotes e i r⟩ }

/-- the hypotheses of `C138_copies` on the example: the doubled panel gives the same score 2 -/
example : ∃ res, Mle.run .default twiceReader {} = .ok res ∧ res.qualityScores = [.fin 2] := by
  obtain ⟨res, hr, -, hq, -⟩ := ex_run
  rcases C138_copies .default exMleReader twiceReader (Or.inr rfl) (Or.inr rfl) exVotes
      (fun i' : Fin 4 => some (⟨i'.val % 2, Nat.mod_lt _ (by decide)⟩ : Fin 2)) (m := 2) (by unfold CopiesOf; decide) (by decide) rfl rfl rfl rfl none none none none {} rfl
      (Or.inr fun _ => by simp) with ⟨e, h, -⟩ | ⟨r, r', _, _, _, _, _, _, _, _, h1, h2, h3, -⟩
  · have : runMLE exMleReader {} = .error e := h
    rw [hr] at this
    cases this
  · have h1 : runMLE exMleReader {} = .ok r := h1
    rw [hr] at h1
    cases h1
    exact ⟨r', h2, by rw [h3, hq]; rfl⟩

/-- the two observers of the example, and a third without votes -/
noncomputable def silentReader : Reader String ℝ :=
  { exMleReader with scores := .ok ⟨1, 3, 1, fun e i' r => (if h : i'.val < 2 then some (⟨i'.val, h⟩ : Fin 2) else none).elim .nan fun i => exVotes e i r⟩ }

/-- the hypotheses of `C138_copies` with a silent observer -/
example : ∃ res b, Mle.run .default silentReader { base := { forceSubjbiasZeromean := some (some false) } } = .ok res ∧
    res.observerBias = some (List.ofFn b) ∧ b (2 : Fin 3) = .nan := by
  obtain ⟨res, hr, -⟩ := ex_run
  obtain ⟨-, res0, h0, -⟩ := C36_zero_mean_partial .default exMleReader {} res (by decide) hr
  have h0 : Mle.run .default exMleReader { base := { forceSubjbiasZeromean := some (some false) } } = .ok res0 := h0
  rcases C138_copies .default exMleReader silentReader (Or.inr rfl) (Or.inr rfl) exVotes
      (fun i' : Fin 3 => if h : i'.val < 2 then some (⟨i'.val, h⟩ : Fin 2) else none) (m := 1) (by unfold CopiesOf; decide) (by decide) rfl rfl rfl rfl
      (some (some false)) none none none { base := { forceSubjbiasZeromean := some (some false) } } rfl
      (Or.inl ⟨rfl, by decide⟩) with ⟨e, h, -⟩ | ⟨r, r', _, _, _, _, b', _, _, _, h1, h2, -, -, -, -, -, -, h3⟩
  · rw [h0] at h
    cases h
  · obtain ⟨-, hb, -, -, -, -, -, -, -, hn⟩ := h3 (by decide)
    exact ⟨r', b', h2, hb, (hn 2 (by decide)).1⟩

end Sureal.Props
