import Verif.Lemmas.MleNeg
import Verif.Props.MleMethods
/-!
# C125: the MLE models do not depend on the order of videos and observers, nor on the zero and the unit of the scale
-/
set_option linter.unusedSectionVars false
namespace Sureal.Props
open Sureal Spec Mle
variable {κ : Type} {E S R : ℕ}

theorem count_congr (x y : Arr3 (Fl ℝ) E S R) (h : ∀ e s r, (x e s r).isNan = (y e s r).isNan) :
    Np.countNotNan (ravel3 x) = Np.countNotNan (ravel3 y) := by
  have key : ∀ z : Arr3 (Fl ℝ) E S R, Np.countNotNan (ravel3 z) = ((ravel3 fun e s r => (z e s r).isNan).filter (!·)).length := by
    intro z
    have : (ravel3 fun e s r => (z e s r).isNan) = (ravel3 z).map (·.isNan) := by
      unfold ravel3
      rw [List.map_flatten, List.map_ofFn]
      congr 2
      funext e
      show _ = List.map _ _
      rw [List.map_flatten, List.map_ofFn]
      congr 2
      funext s
      show _ = List.map _ _
      rw [List.map_ofFn]
      rfl
    rw [this, List.filter_map, List.length_map]
    rfl
  rw [key, key]
  simp only [h]

/-- MOS of the reordered and shifted votes -/
theorem mos_act (x : Arr3 (Fl ℝ) E S R) (hx : ∀ e s r, NumOrNan (x e s r)) (τ : Equiv.Perm (Fin E)) (σ : Equiv.Perm (Fin S)) (c : Fin E → ℝ) :
    meanAlongS (fun e s r => x (τ e) (σ s) r + .fin (c e)) = fun e => meanAlongS x (τ e) + .fin (c e) := by
  funext e
  have hx' : ∀ s r, NumOrNan (x (τ e) (σ s) r + .fin (c e)) := by
    intro s r
    rcases hx (τ e) (σ s) r with h | ⟨v, h⟩ <;> rw [h]
    · exact Or.inl rfl
    · exact Or.inr ⟨v + c e, rfl⟩
  rw [meanAlongS_spec _ _ hx', meanAlongS_spec _ _ (hx (τ e))]
  have h1 : videoCells (fun e s r => x (τ e) (σ s) r + .fin (c e)) e = (videoCells (fun e s r => x (τ e) (σ s) r) e).map (· + .fin (c e)) := by
    unfold videoCells
    rw [List.map_flatten, List.map_ofFn]
    congr 2
    funext s
    show _ = List.map _ _
    rw [List.map_ofFn]
    rfl
  have h2 : ∀ l : List (Fl ℝ), (∀ a ∈ l, NumOrNan a) → present (l.map (· + .fin (c e))) = (present l).map (· + c e) := by
    intro l
    induction l with
    | nil => intro _; rfl
    | cons a l ih =>
      intro hl
      have ih' := ih fun b hb => hl b (List.mem_cons_of_mem _ hb)
      rcases hl a List.mem_cons_self with h | ⟨v, h⟩ <;> rw [h]
      · exact ih'
      · show (v + c e) :: present _ = (v + c e) :: _
        rw [ih']
        rfl
  have hcl : ∀ a ∈ videoCells (fun e s r => x (τ e) (σ s) r) e, NumOrNan a := by
    intro a ha
    obtain ⟨s, r, rfl⟩ := (mem_videoCells _ e a).mp ha
    exact hx _ _ _
  rw [h1]
  have h3 : meanOrNan (videoCells x (τ e)) = meanOrNan (videoCells (fun e s r => x (τ e) (σ s) r) e) :=
    (meanOrNan_perm (Np.present_perm (videoCells_act τ σ x e))).symm
  rw [h3]
  unfold meanOrNan
  rw [h2 _ hcl]
  cases hp : present (videoCells (fun e s r => x (τ e) (σ s) r) e) with
  | nil => rfl
  | cons a l =>
    show Fl.fin (Spec.mean ((a :: l).map (· + c e))) = Fl.fin (Spec.mean (a :: l) + c e)
    congr 1
    unfold Spec.mean
    rw [List.sum_map_add, List.map_id', List.length_map, List.map_const', List.sum_replicate, nsmul_eq_mul]
    have : (((a :: l).length : ℕ) : ℝ) ≠ 0 := by simp; positivity
    field_simp

/-- the number of votes is that of the reordered and shifted votes -/
theorem count_act (x : Arr3 (Fl ℝ) E S R) (τ : Equiv.Perm (Fin E)) (σ : Equiv.Perm (Fin S)) (c : Fin E → ℝ) :
    Np.countNotNan (ravel3 fun e s r => x (τ e) (σ s) r + .fin (c e)) = Np.countNotNan (ravel3 x) := by
  rw [← countNotNan_perm (ravel3_act τ σ x)]
  exact count_congr _ _ fun e s r => isNan_add _ _

/-- **C125**.  Reordering the videos by `τ`, the observers by `σ`, and adding `c e` to every vote on the video at place `e` gives the same exception, or the same
result with the qualities reordered by `τ` and moved by `c`, their standard deviations and intervals reordered, biases and inconsistencies reordered by `σ`, and the same ambiguities,
number of passes, log likelihood, AIC and BIC.  For `c ≠ 0` the density has to be the default one, and the
method 'original' or 'numerical', or the variances have to stay positive. -/
theorem C125_symmetry (mode : Mode) (rd rd' : Reader κ ℝ)
    (hobs : (∃ l, rd.observers = .ok l) ∨ rd.observers = .error .assertion)
    (hobs' : (∃ l, rd'.observers = .ok l) ∨ rd'.observers = .error .assertion)
    (x : Fin E → Fin S → Fin R → Fl ℝ) (hx : ∀ e s r, NumOrNan (x e s r))
    (τ : Equiv.Perm (Fin E)) (σ : Equiv.Perm (Fin S)) (c : Fin E → ℝ) (ha : rd.scores = .ok ⟨E, S, R, x⟩)
    (ha' : rd'.scores = .ok ⟨E, S, R, fun e s r => x (τ e) (σ s) r + .fin (c e)⟩) (id : Fin E → Int)
    (hid : rd.disVideos.map (·.contentId) = List.ofFn id) (hid' : rd'.disVideos.map (·.contentId) = List.ofFn fun e => id (τ e))
    (href : rd'.dataset.refVideos.map (·.contentId) = rd.dataset.refVideos.map (·.contentId))
    (z : Flag) (g pdf : Option String) (thr : Option (Fl ℝ)) (o : Mle.Opts ℝ)
    (ho : o = { base := { forceSubjbiasZeromean := z }, gradientMethod := g, numericalPdf := pdf, deltaThr := thr })
    (hok : c = 0 ∨ (pdf ≠ some "uniform" ∧ (g = some "original" ∨ g = some "numerical" ∨ VariancesStayPositive mode rd o))) :
    (∃ e, Mle.run mode rd o = .error e ∧ Mle.run mode rd' o = .error e) ∨
    ∃ (res res' : Result κ ℝ) (q sq w : Fin E → Fl ℝ) (b sb v sv : Fin S → Fl ℝ),
      Mle.run mode rd o = .ok res ∧ Mle.run mode rd' o = .ok res' ∧
      res.qualityScores = List.ofFn q ∧ res'.qualityScores = List.ofFn (fun e => q (τ e) + .fin (c e)) ∧
      res.qualityScoresStd = some (List.ofFn sq) ∧ res'.qualityScoresStd = some (List.ofFn fun e => sq (τ e)) ∧
      res.qualityScoresCi95 = some (List.ofFn w, List.ofFn w) ∧
      res'.qualityScoresCi95 = some (List.ofFn fun e => w (τ e), List.ofFn fun e => w (τ e)) ∧
      res.observerBias = (if mode = .subjectOblivious then none else some (List.ofFn b)) ∧
      res'.observerBias = (if mode = .subjectOblivious then none else some (List.ofFn fun s => b (σ s))) ∧
      res.observerBiasStd = (if mode = .subjectOblivious then none else some (List.ofFn sb)) ∧
      res'.observerBiasStd = (if mode = .subjectOblivious then none else some (List.ofFn fun s => sb (σ s))) ∧
      res.observerInconsistency = (if mode = .subjectOblivious then none else some (List.ofFn v)) ∧
      res'.observerInconsistency = (if mode = .subjectOblivious then none else some (List.ofFn fun s => v (σ s))) ∧
      res.observerInconsistencyStd = (if mode = .subjectOblivious then none else some (List.ofFn sv)) ∧
      res'.observerInconsistencyStd = (if mode = .subjectOblivious then none else some (List.ofFn fun s => sv (σ s))) ∧
      res'.contentAmbiguity = res.contentAmbiguity ∧ res'.contentAmbiguityStd = res.contentAmbiguityStd ∧
      res'.numIter = res.numIter ∧ res'.dof = res.dof ∧ res'.loglikelihood = res.loglikelihood ∧ res'.aic = res.aic ∧ res'.bic = res.bic := by
  have hoo : o = optsOf z g pdf thr := ho
  have key := run_lockstep mode hobs hobs' ha ha' τ id hid hid' href z g pdf thr thr (fun f => actF τ σ c f) (by
    intro m C cid hm hC hcid
    rw [mos_act x hx τ σ c]
    refine fitArr_act τ σ c (⟨x, cid⟩ : Data ℝ E S R C) mode m pdf _ (meanAlongS x) ?_
    rcases hok with hc | ⟨hpdf, hg⟩
    · exact Or.inl hc
    refine Or.inr ⟨hpdf, fun hms => ?_⟩
    subst hms
    rcases hg with hg | hg | hg
    · subst hg; cases hm
    · subst hg; cases hm
    · obtain ⟨mos, hmos, hq⟩ := mos_run hobs ha
      have hp : preprocess rd o.base = .ok { arr := ⟨E, S, R, x⟩, orig := ⟨E, S, R, x⟩ } := by
        rw [ho]; exact preprocess_zeromean ha z
      have := hg { arr := ⟨E, S, R, x⟩, orig := ⟨E, S, R, x⟩ } C mos cid hp hC hmos hcid
      dsimp only at this
      rw [hq, ho] at this
      exact this)
  rw [← hoo] at key
  rcases key with h | ⟨C, cid, f, dens, obs, obs', -, hd, h1, h2⟩
  · exact Or.inl h
  right
  have hcen : centre (Ap.forced o.base) (actP τ σ c f.p) = actP τ σ c (centre (Ap.forced o.base) f.p) := centre_act τ σ c f.p _
  have hD : (⟨fun e s r => x (τ e) (σ s) r + .fin (c e), fun e => cid (τ e)⟩ : Data ℝ E S R C) = actD τ σ c ⟨x, cid⟩ := rfl
  have hsf : Mle.ShiftFree dens c := shiftFree_gauss c (R := R) (by rcases hok with h | h; exacts [Or.inr h, Or.inl h.1]) hd
  have hll : Np.sum (List.ofFn (sumS (logCells dens (⟨fun e s r => x (τ e) (σ s) r + .fin (c e), fun e => cid (τ e)⟩ : Data ℝ E S R C)
      (centre (Ap.forced o.base) (actF τ σ c f).p)))) =
      Np.sum (List.ofFn (sumS (logCells dens (⟨x, cid⟩ : Data ℝ E S R C) (centre (Ap.forced o.base) f.p)))) := by
    rw [hD]
    show Np.sum (List.ofFn (sumS (logCells dens (actD τ σ c ⟨x, cid⟩) (centre (Ap.forced o.base) (actP τ σ c f.p))))) = _
    rw [hcen, logCells_act τ σ c _ _ hsf, sumS_act]
    exact sum_perm (ofFn_perm _ τ)
  have hcnt := count_act x τ σ c
  refine ⟨_, _, (centre (Ap.forced o.base) f.p).x, f.std.x, fun e => ci95Factor * f.std.x e, (centre (Ap.forced o.base) f.p).b, f.std.b,
    (centre (Ap.forced o.base) f.p).v, f.std.v, h1, h2, rfl, ?_, rfl, rfl, rfl, rfl, rfl, ?_, rfl, rfl, rfl, ?_, rfl, rfl, ?_, rfl, rfl, ?_, ?_, ?_, ?_⟩
  · show List.ofFn (centre (Ap.forced o.base) (actP τ σ c f.p)).x = _
    rw [hcen]; rfl
  · show (if mode = .subjectOblivious then none else some (List.ofFn (centre (Ap.forced o.base) (actP τ σ c f.p)).b)) = _
    rw [hcen]; rfl
  · show (if mode = .subjectOblivious then none else some (List.ofFn (centre (Ap.forced o.base) (actP τ σ c f.p)).v)) = _
    rw [hcen]; rfl
  · show (if mode = .contentOblivious then none else some (List.ofFn (centre (Ap.forced o.base) (actP τ σ c f.p)).a)) = _
    rw [hcen]; rfl
  · unfold result
    dsimp only
    rw [hcnt]
  · unfold result
    dsimp only
    rw [hll, hcnt]
  · unfold result
    dsimp only
    rw [hll, hcnt]
  · unfold result
    dsimp only
    rw [hll, hcnt]

/-- **C125**.  Multiplying every vote and the threshold of the stop test by `l > 0` gives, with the methods 'simplified' and 'original', the
same exception, or the result with qualities, biases, inconsistencies, ambiguities and all standard deviations multiplied by `l`,
after the same number of passes. -/
theorem C125_scale (mode : Mode) (rd rd' : Reader κ ℝ)
    (hobs : (∃ l, rd.observers = .ok l) ∨ rd.observers = .error .assertion)
    (hobs' : (∃ l, rd'.observers = .ok l) ∨ rd'.observers = .error .assertion)
    (x : Fin E → Fin S → Fin R → Fl ℝ) (l : ℝ) (hl : 0 < l) (ha : rd.scores = .ok ⟨E, S, R, x⟩)
    (ha' : rd'.scores = .ok ⟨E, S, R, fun e s r => .fin l * x e s r⟩)
    (hlen : rd.disVideos.length = E) (hid' : rd'.disVideos.map (·.contentId) = rd.disVideos.map (·.contentId))
    (href : rd'.dataset.refVideos.map (·.contentId) = rd.dataset.refVideos.map (·.contentId))
    (z : Flag) (g pdf : Option String) (hg : g ≠ some "numerical") (thr : Option (Fl ℝ)) (o o' : Mle.Opts ℝ)
    (ho : o = { base := { forceSubjbiasZeromean := z }, gradientMethod := g, numericalPdf := pdf, deltaThr := thr })
    (ho' : o' = { o with deltaThr := some (.fin l * thr.getD defaultThr) }) :
    (∃ e, Mle.run mode rd o = .error e ∧ Mle.run mode rd' o' = .error e) ∨
    ∃ (res res' : Result κ ℝ), Mle.run mode rd o = .ok res ∧ Mle.run mode rd' o' = .ok res' ∧
      res'.qualityScores = res.qualityScores.map (.fin l * ·) ∧
      res'.qualityScoresStd = res.qualityScoresStd.map (·.map (.fin l * ·)) ∧
      res'.observerBias = res.observerBias.map (·.map (.fin l * ·)) ∧
      res'.observerBiasStd = res.observerBiasStd.map (·.map (.fin l * ·)) ∧
      res'.observerInconsistency = res.observerInconsistency.map (·.map (.fin l * ·)) ∧
      res'.observerInconsistencyStd = res.observerInconsistencyStd.map (·.map (.fin l * ·)) ∧
      res'.contentAmbiguity = res.contentAmbiguity.map (·.map (.fin l * ·)) ∧
      res'.contentAmbiguityStd = res.contentAmbiguityStd.map (·.map (.fin l * ·)) ∧
      res'.numIter = res.numIter ∧ res'.dof = res.dof := by
  have hoo : o = optsOf z g pdf thr := ho
  have hoo' : o' = optsOf z g pdf (some (.fin l * thr.getD defaultThr)) := by rw [ho', ho]; rfl
  obtain ⟨id, hid⟩ : ∃ id : Fin E → Int, rd.disVideos.map (·.contentId) = List.ofFn id := by
    subst hlen
    exact ⟨fun e => (rd.disVideos[e.val]).contentId, by
      apply List.ext_getElem
      · simp
      · intro i h1 h2; simp⟩
  have h1l : l ^ (1 : ℤ) = l := zpow_one l
  have hmos : meanAlongS (fun e s r => .fin l * x e s r) = sc1 l (meanAlongS x) := by
    funext e
    have : rowL (stack1 fun e s r => .fin l * x e s r) e = scL l 1 (rowL (stack1 x) e) := by
      unfold scL
      rw [h1l, rowL_stack1, rowL_stack1, List.map_flatten, List.map_ofFn]
      congr 2
      funext s
      show _ = List.map _ _
      rw [List.map_ofFn]
      rfl
    unfold meanAlongS
    rw [this]
    exact nanmean_sc hl 1 _
  have key := run_lockstep mode hobs hobs' ha ha' (Equiv.refl _) id hid (hid'.trans hid) href z g pdf thr (some (.fin l * thr.getD defaultThr))
    (fun f => scF l f) (by
    intro m C cid hm hC hcid
    have hmn : m ≠ .numerical := by
      rintro rfl
      unfold method optsOf at hm
      dsimp only at hm
      split at hm
      · cases hm
      · rename_i s
        by_cases h1 : s = "simplified"
        · rw [if_pos h1] at hm; cases hm
        by_cases h2 : s = "original"
        · rw [if_neg h1, if_pos h2] at hm; cases hm
        by_cases h3 : s = "numerical"
        · exact hg (congrArg some h3)
        · rw [if_neg h1, if_neg h2, if_neg h3] at hm; cases hm
    have := fitArr_sc hl (⟨x, cid⟩ : Data ℝ E S R C) mode m hmn pdf (thr.getD defaultThr) (meanAlongS x)
    unfold scD at this
    rw [h1l] at this
    rw [hmos]
    exact this)
  rw [← hoo, ← hoo'] at key
  rcases key with h | ⟨C, cid, f, dens, obs, obs', -, hd, h1, h2⟩
  · exact Or.inl h
  right
  have hcen : centre (Ap.forced o.base) (scF l f).p = scP l (centre (Ap.forced o.base) f.p) := centre_sc hl f.p _
  have hmap : ∀ {n : ℕ} (a : Arr1 (Fl ℝ) n), List.ofFn (sc1 l a) = (List.ofFn a).map (.fin l * ·) := by
    intro n a
    unfold sc1
    rw [h1l, List.map_ofFn]
    rfl
  have hmapI : ∀ {n : ℕ} (P : Prop) [Decidable P] (a : Arr1 (Fl ℝ) n), (if P then none else some (List.ofFn (sc1 l a))) =
      (if P then none else some (List.ofFn a)).map (·.map (.fin l * ·)) := by
    intro n P _ a
    split
    · rfl
    · rw [hmap]; rfl
  refine ⟨_, _, h1, h2, ?_, ?_, ?_, ?_, ?_, ?_, ?_, ?_, rfl, ?_⟩
  · show List.ofFn (centre (Ap.forced o.base) (scF l f).p).x = _
    rw [hcen]; exact hmap _
  · exact congrArg some (hmap _)
  · show (if mode = .subjectOblivious then none else some (List.ofFn (centre (Ap.forced o.base) (scF l f).p).b)) = _
    rw [hcen]; exact hmapI _ _
  · exact hmapI _ _
  · show (if mode = .subjectOblivious then none else some (List.ofFn (centre (Ap.forced o.base) (scF l f).p).v)) = _
    rw [hcen]; exact hmapI _ _
  · exact hmapI _ _
  · show (if mode = .contentOblivious then none else some (List.ofFn (centre (Ap.forced o.base) (scF l f).p).a)) = _
    rw [hcen]; exact hmapI _ _
  · exact hmapI _ _
  · have hcnt : Np.countNotNan (ravel3 fun e s r => .fin l * x e s r) = Np.countNotNan (ravel3 x) := by
      have : (ravel3 fun e s r => .fin l * x e s r) = scL l 1 (ravel3 x) := by
        unfold scL ravel3
        rw [h1l, List.map_flatten, List.map_ofFn]
        congr 2
        funext e
        show _ = List.map _ _
        rw [List.map_flatten, List.map_ofFn]
        congr 2
        funext s
        show _ = List.map _ _
        rw [List.map_ofFn]
        rfl
      rw [this, count_sc hl]
    unfold result
    dsimp only
    rw [hcnt]

/-- **C125**.  On the mirrored scale, every vote replaced by its negative, all methods give the same exception, or the same result with
the qualities and the biases replaced by their negatives. -/
theorem C125_mirror (mode : Mode) (rd rd' : Reader κ ℝ)
    (hobs : (∃ l, rd.observers = .ok l) ∨ rd.observers = .error .assertion)
    (hobs' : (∃ l, rd'.observers = .ok l) ∨ rd'.observers = .error .assertion)
    (x : Fin E → Fin S → Fin R → Fl ℝ) (ha : rd.scores = .ok ⟨E, S, R, x⟩) (ha' : rd'.scores = .ok ⟨E, S, R, fun e s r => -x e s r⟩)
    (hlen : rd.disVideos.length = E) (hid' : rd'.disVideos.map (·.contentId) = rd.disVideos.map (·.contentId))
    (href : rd'.dataset.refVideos.map (·.contentId) = rd.dataset.refVideos.map (·.contentId))
    (z : Flag) (g pdf : Option String) (hpdf : pdf ≠ some "uniform") (thr : Option (Fl ℝ)) (o : Mle.Opts ℝ)
    (ho : o = { base := { forceSubjbiasZeromean := z }, gradientMethod := g, numericalPdf := pdf, deltaThr := thr }) :
    (∃ e, Mle.run mode rd o = .error e ∧ Mle.run mode rd' o = .error e) ∨
    ∃ (res res' : Result κ ℝ), Mle.run mode rd o = .ok res ∧ Mle.run mode rd' o = .ok res' ∧
      res'.qualityScores = res.qualityScores.map (-·) ∧ res'.observerBias = res.observerBias.map (·.map (-·)) ∧
      res'.qualityScoresStd = res.qualityScoresStd ∧ res'.qualityScoresCi95 = res.qualityScoresCi95 ∧
      res'.observerBiasStd = res.observerBiasStd ∧
      res'.observerInconsistency = res.observerInconsistency ∧ res'.observerInconsistencyStd = res.observerInconsistencyStd ∧
      res'.contentAmbiguity = res.contentAmbiguity ∧ res'.contentAmbiguityStd = res.contentAmbiguityStd ∧
      res'.numIter = res.numIter ∧ res'.dof = res.dof ∧ res'.loglikelihood = res.loglikelihood ∧ res'.aic = res.aic ∧ res'.bic = res.bic := by
  have hoo : o = optsOf z g pdf thr := ho
  obtain ⟨id, hid⟩ : ∃ id : Fin E → Int, rd.disVideos.map (·.contentId) = List.ofFn id := by
    subst hlen
    exact ⟨fun e => (rd.disVideos[e.val]).contentId, by
      apply List.ext_getElem
      · simp
      · intro i h1 h2; simp⟩
  have key := run_lockstep mode hobs hobs' ha ha' (Equiv.refl _) id hid (hid'.trans hid) href z g pdf thr thr (fun f => negF f) (by
    intro m C cid hm hC hcid
    rw [meanAlongS_neg]
    exact fitArr_neg (⟨x, cid⟩ : Data ℝ E S R C) mode m pdf (fun _ => hpdf) (thr.getD defaultThr) (meanAlongS x))
  rw [← hoo] at key
  rcases key with h | ⟨C, cid, f, dens, obs, obs', -, hd, h1, h2⟩
  · exact Or.inl h
  right
  have hcen : centre (Ap.forced o.base) (negF f).p = negP (centre (Ap.forced o.base) f.p) := centre_neg f.p _
  have hll : logCells dens (⟨fun e s r => -x e s r, fun e => cid (Equiv.refl _ e)⟩ : Data ℝ E S R C) (centre (Ap.forced o.base) (negF f).p) =
      logCells dens ⟨x, cid⟩ (centre (Ap.forced o.base) f.p) := by
    rw [hcen]
    exact logCells_neg (⟨x, cid⟩ : Data ℝ E S R C) _ (even_gauss hpdf hd)
  have hcnt : Np.countNotNan (ravel3 fun e s r => -x e s r) = Np.countNotNan (ravel3 x) := count_congr _ _ fun e s r => neg_isNan _
  have hmap : ∀ {n : ℕ} (a : Arr1 (Fl ℝ) n), List.ofFn (fun i => -a i) = (List.ofFn a).map (-·) := by
    intro n a
    rw [List.map_ofFn]
    rfl
  refine ⟨_, _, h1, h2, ?_, ?_, rfl, rfl, rfl, ?_, rfl, ?_, rfl, rfl, ?_, ?_, ?_, ?_⟩
  · show List.ofFn (centre (Ap.forced o.base) (negF f).p).x = _
    rw [hcen]
    exact hmap _
  · show (if mode = .subjectOblivious then none else some (List.ofFn (centre (Ap.forced o.base) (negF f).p).b)) =
      (if mode = .subjectOblivious then none else some (List.ofFn (centre (Ap.forced o.base) f.p).b)).map (·.map (-·))
    rw [hcen]
    split
    · rfl
    · exact congrArg some (hmap _)
  · show (if mode = .subjectOblivious then none else some (List.ofFn (centre (Ap.forced o.base) (negF f).p).v)) = _
    rw [hcen]; rfl
  · show (if mode = .contentOblivious then none else some (List.ofFn (centre (Ap.forced o.base) (negF f).p).a)) = _
    rw [hcen]; rfl
  · unfold result
    dsimp only
    rw [hcnt]
  · unfold result
    dsimp only
    rw [hll, hcnt]
  · unfold result
    dsimp only
    rw [hll, hcnt]
  · unfold result
    dsimp only
    rw [hll, hcnt]

/-! ### the cases of the example: votes 1 and 3 -/

/-- the votes of `exMleReader` with the observers exchanged and 5 added: 8 and 6 -/
noncomputable def exSwapped : Reader String ℝ :=
  { exMleReader with scores := .ok ⟨1, 2, 1, fun e s r => exVotes e (Equiv.swap 0 1 s) r + .fin 5⟩ }

example : ∃ res', runMLE exSwapped {} = .ok res' ∧ res'.qualityScores = List.ofFn (fun _ : Fin 1 => .fin 7) ∧
    res'.observerBias = some (List.ofFn fun s => .fin (exB (Equiv.swap 0 1 s))) := by
  obtain ⟨res0, hr, -, h2, h3, h4, h5⟩ := ex_run
  rcases C125_symmetry .default exMleReader exSwapped (Or.inr rfl) (Or.inr rfl) exVotes
    (fun e s r => by rw [exVotes_mask]; exact Or.inr ⟨_, rfl⟩) (Equiv.refl _) (Equiv.swap 0 1) (fun _ => 5) rfl rfl (fun _ => 0) rfl rfl rfl none none none none {} rfl
    (Or.inr ⟨by decide, Or.inr (Or.inr ex_positive)⟩) with ⟨e, he, _⟩ | ⟨res, res', q, sq, w, b, sb, v, sv, g1, g2, gq, gq', _, _, _, _, gb, gb', _⟩
  · have := hr.symm.trans he; cases this
  · have hres := Except.ok.inj (hr.symm.trans g1)
    subst hres
    have hq := List.ofFn_injective (gq.symm.trans h2)
    rw [if_neg (by decide)] at gb gb'
    have hb := List.ofFn_injective (Option.some.inj (gb.symm.trans h3))
    refine ⟨res', g2, ?_, ?_⟩
    · rw [gq', hq]
      show List.ofFn (fun _ : Fin 1 => Fl.fin (2 : ℝ) + .fin 5) = _
      rw [Fl.fin_add]
      norm_num
    · rw [gb', hb]

/-- the votes of `exMleReader` in half the unit: 2 and 6 -/
noncomputable def exDoubled : Reader String ℝ :=
  { exMleReader with scores := .ok ⟨1, 2, 1, fun e s r => .fin 2 * exVotes e s r⟩ }

example : ∃ res', runMLE exDoubled { deltaThr := some (.fin 2 * defaultThr) } = .ok res' ∧
    res'.qualityScores = List.ofFn (fun _ : Fin 1 => .fin 4) := by
  obtain ⟨res0, hr, -, h2, h3, h4, h5⟩ := ex_run
  rcases C125_scale .default exMleReader exDoubled (Or.inr rfl) (Or.inr rfl) exVotes 2 (by norm_num) rfl rfl rfl rfl rfl none none none (by decide) none
    {} { deltaThr := some (.fin 2 * defaultThr) } rfl rfl with ⟨e, he, _⟩ | ⟨res, res', g1, g2, gq, _⟩
  · have := hr.symm.trans he; cases this
  · have hres := Except.ok.inj (hr.symm.trans g1)
    subst hres
    refine ⟨res', g2, ?_⟩
    rw [gq, h2]
    show List.map _ [Fl.fin (2 : ℝ)] = [Fl.fin 4]
    show [Fl.fin (2 : ℝ) * .fin 2] = _
    rw [Fl.fin_mul]
    norm_num

/-- the votes of `exMleReader` on the mirrored scale: -1 and -3 -/
def exMirrored : Reader String ℝ := { exMleReader with scores := .ok ⟨1, 2, 1, fun e s r => -exVotes e s r⟩ }

example : ∃ res', runMLE exMirrored {} = .ok res' ∧ res'.qualityScores = List.ofFn (fun _ : Fin 1 => .fin (-2)) := by
  obtain ⟨res0, hr, -, h2, h3, h4, h5⟩ := ex_run
  rcases C125_mirror .default exMleReader exMirrored (Or.inr rfl) (Or.inr rfl) exVotes rfl rfl rfl rfl rfl none none none (by decide) none
    {} rfl with ⟨e, he, _⟩ | ⟨res, res', g1, g2, gq, _⟩
  · have := hr.symm.trans he; cases this
  · have hres := Except.ok.inj (hr.symm.trans g1)
    subst hres
    refine ⟨res', g2, ?_⟩
    rw [gq, h2]
    rfl

end Sureal.Props
