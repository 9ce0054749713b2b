import Verif.Lemmas.MlePass
import Verif.Props.Criteria
/-!
# C85: what a run of the MLE models consists of
-/
set_option linter.unusedSectionVars false
namespace Sureal.Props
open Sureal Spec Mle
variable {κ : Type}

theorem norm_fin {n : ℕ} {f g : Fin n → Fl ℝ} {δ : Fl ℝ} (h : Np.linalgNorm (List.ofFn fun i => f i - g i) = .ok δ) :
    (∀ i, ∃ v, f i = .fin v) ∧ ∀ i, ∃ v, g i = .fin v := by
  have key : ∀ i, (f i - g i).isFinite = true := by
    intro i
    by_contra hi
    rw [Bt.norm_bad (f := fun i => f i - g i) (i := i) (by simpa using hi)] at h
    cases h
  have : ∀ i, (∃ v, f i = .fin v) ∧ ∃ v, g i = .fin v := by
    intro i
    have := key i
    revert this
    generalize f i = a
    generalize g i = b
    cases a <;> cases b <;> intro h
    case fin.fin => exact ⟨⟨_, rfl⟩, ⟨_, rfl⟩⟩
    all_goals cases h
  exact ⟨fun i => (this i).1, fun i => (this i).2⟩

/-- **C85.** Every completed run of an MLE model with an analytic gradient method, on votes `X` (present where `P`): there are
parameters `q 0, …, q n` such that `q 0` is the starting point given by the mean opinion scores, `q (k + 1)` results from `q k` by
one round of Newton steps on the likelihood (biases, inconsistencies, ambiguities, qualities, each with the newest values of
the others), the rounds end as soon as the qualities move by less than the threshold, at the latest after 10000, and what
is reported is `q n`, with the standard deviations of the last round, the biases moved to mean 0 and the qualities moved
along. -/
theorem C85_rounds (mode : Mode) (rd : Reader κ ℝ) (o : Mle.Opts ℝ) (res : Result κ ℝ) (h : Mle.run mode rd o = .ok res)
    (hm : o.gradientMethod = none ∨ o.gradientMethod = some "simplified" ∨ o.gradientMethod = some "original")
    (a : Arr3D (Fl ℝ)) (ha : res.rawScores = some a)
    (P : Fin a.E → Fin a.S → Fin a.R → Bool) (X : Fin a.E → Fin a.S → Fin a.R → ℝ)
    (hX : ∀ e s r, a.get e s r = mask (P e s r) (X e s r)) :
    ∃ (C : ℕ) (cid : Fin a.E → Fin C) (n : ℕ) (q sd : ℕ → Four a.E a.S C) (ξ : ℕ → Fin a.E → ℝ),
      (List.ofFn fun e => ((cid e).val : Int)) = rd.disVideos.map (·.contentId) ∧
      (∀ k ≤ n, ∀ e, (q k).x e = .fin (ξ k e)) ∧
      (∃ mos, runMOS rd {} = .ok mos ∧ mos.qualityScores = List.ofFn fun e => .fin (ξ 0 e)) ∧
      Start (mode = .subjectOblivious) (mode = .contentOblivious) P X cid (ξ 0) (q 0) ∧
      (∀ k < n, Round (mode = .subjectOblivious) (mode = .contentOblivious) P X cid (q k) (q (k + 1)) (sd (k + 1))) ∧
      1 ≤ n ∧ n ≤ 10000 ∧ res.numIter = some n ∧
      (∀ τ : ℝ, o.deltaThr = some (.fin τ) ∨ (o.deltaThr = none ∧ τ = 1 / 100000000) →
        (∀ k, k + 1 < n → τ ≤ qdist (ξ k) (ξ (k + 1))) ∧ (n = 10000 ∨ qdist (ξ (n - 1)) (ξ n) < τ)) ∧
      res.qualityScoresStd = some (List.ofFn (sd n).x) ∧
      (mode ≠ .subjectOblivious → res.observerInconsistency = some (List.ofFn (q n).v) ∧
        res.observerInconsistencyStd = some (List.ofFn (sd n).v) ∧ res.observerBiasStd = some (List.ofFn (sd n).b)) ∧
      (mode ≠ .contentOblivious → res.contentAmbiguity = some (List.ofFn (q n).a) ∧
        res.contentAmbiguityStd = some (List.ofFn (sd n).a)) ∧
      (o.base.normalizeFinal = none → o.base.transformFinal = none → ∀ β : Fin a.S → ℝ, (∀ s, (q n).b s = .fin (β s)) →
        0 < a.S → ∃ m, (m = if o.base.forceSubjbiasZeromean = some (some false) then 0 else (∑ s, β s) / a.S) ∧
        res.qualityScores = (List.ofFn fun e => .fin (ξ n e + m)) ∧
        (mode ≠ .subjectOblivious → res.observerBias = some (List.ofFn fun s => .fin (β s - m)))) := by
  obtain ⟨p, C, m, mos, cid, f, dens, obs, hrun, hres⟩ := Mle.run_inv h
  have hpa : p.arr = a := by
    rw [hres] at ha
    simpa [Mle.result] using ha
  subst hpa
  have hget : p.arr.get = Ap.maskX P X := by funext e s r; exact hX e s r
  obtain ⟨u, hu, hloop⟩ := fitArr_inv hrun.hf
  rw [hget] at hloop
  have hmeth : m = .simplified ∨ m = .original := by
    have := hrun.hm
    unfold Mle.method at this
    rcases hm with hm | hm | hm <;> rw [hm] at this <;> simp at this
    · exact Or.inl this.symm
    · exact Or.inl this.symm
    · exact Or.inr this.symm
  -- the mean opinion scores
  obtain ⟨hsc, hE, hS, hR⟩ := preprocess_shape hrun.hsr hrun.hp
  have hmosq : mos.qualityScores.length = p.arr.E := by
    rw [runMOS_default hsc hrun.hmos]
    simp [mosAndStats, hE]
  generalize hp0 : init mode (⟨Ap.maskX P X, cid⟩ : Data ℝ p.arr.E p.arr.S p.arr.R C)
    (fun e => (mos.qualityScores[e.val]?).getD .nan) = p0 at hloop
  obtain ⟨n, hn1, hitr, hmax, hfp, hfs, htr⟩ := loop_trace _ 0 rfl (by decide) p0 hloop
  have hfin : ∀ k ≤ n, ∀ e, ∃ v, (iter mode u ⟨Ap.maskX P X, cid⟩ p0 k).x e = .fin v := by
    intro k hk e
    rcases Nat.lt_or_ge k n with hk' | hk'
    · obtain ⟨δ, h1, _⟩ := htr k hk'
      exact (norm_fin h1).1 e
    · obtain rfl : k = n := by omega
      obtain ⟨δ, h1, _⟩ := htr (k - 1) (by omega)
      rw [Nat.sub_add_cancel hn1] at h1
      exact (norm_fin h1).2 e
  have hx : ∀ k ≤ n, ∀ e, (iter mode u ⟨Ap.maskX P X, cid⟩ p0 k).x e = .fin (num ((iter mode u ⟨Ap.maskX P X, cid⟩ p0 k).x e)) := by
    intro k hk e
    obtain ⟨v, hv⟩ := hfin k hk e
    rw [hv]; rfl
  have hp0x : ∀ e, p0.x e = (mos.qualityScores[e.val]?).getD .nan := by intro e; rw [← hp0]; rfl
  refine ⟨C, cid, n, fun k => four (iter mode u ⟨Ap.maskX P X, cid⟩ p0 k),
    fun k => fourStd (step mode u ⟨Ap.maskX P X, cid⟩ (iter mode u ⟨Ap.maskX P X, cid⟩ p0 (k - 1))).2,
    fun k e => num ((iter mode u ⟨Ap.maskX P X, cid⟩ p0 k).x e), ?_, hx, ?_, ?_, ?_, hn1, ?_, ?_, ?_, ?_, ?_, ?_, ?_⟩
  · have hc := hrun.hcid
    unfold Mle.contentIndex at hc
    split at hc
    case isFalse => cases hc
    rename_i hok
    injection hc with hc
    obtain ⟨hl, hall⟩ := hok
    unfold contentIdOfDisVideos at hl
    apply List.ext_getElem
    · simpa using hl.symm
    · intro i h1 h2
      have hi : i < p.arr.E := by simpa using h1
      rw [List.getElem_ofFn]
      have hcv : (cid ⟨i, hi⟩).val = ((rd.disVideos.map (fun x : DisVideo κ ℝ => x.contentId))[i]'h2).toNat := by rw [← hc]; rfl
      have hmem : (rd.disVideos.map (·.contentId))[i] ∈ contentIdOfDisVideos rd.disVideos := List.getElem_mem h2
      have := (hall _ hmem).1
      show ((cid ⟨i, hi⟩).val : Int) = _
      rw [hcv]
      omega
  · refine ⟨mos, hrun.hmos, ?_⟩
    apply List.ext_getElem
    · simp [hmosq]
    · intro i h1 h2
      rw [List.getElem_ofFn]
      have hi : i < p.arr.E := by simpa using h2
      have := hx 0 (Nat.zero_le _) ⟨i, hi⟩
      dsimp only [iter] at this ⊢
      rw [← this, hp0x]
      simp [h1]
  · have hs := init_start mode P X cid (fun e => num (p0.x e))
    have : init mode (⟨Ap.maskX P X, cid⟩ : Data ℝ p.arr.E p.arr.S p.arr.R C) (fun e => Fl.fin (num (p0.x e))) = p0 := by
      rw [← hp0]
      congr 1
      funext e
      have := hx 0 (Nat.zero_le _) e
      dsimp only [iter] at this
      rw [hp0, ← this, hp0x]
    rw [this] at hs
    exact hs
  · intro k hk
    have := step_round mode (u := u) P X cid (fun q ξ β ν α reg => by
      have := C35_newton_steps m o.numericalPdf hmeth u hu ⟨Ap.maskX P X, cid⟩ P X (fun _ _ _ => rfl) q ξ β ν α
        (fun e s r hP => ⟨reg.x e s r hP, reg.b e s r hP, reg.v e s r hP, reg.a e s r hP, reg.pos e s r hP⟩)
      exact this) (iter mode u ⟨Ap.maskX P X, cid⟩ p0 k)
    exact this
  · have : f.itr ≤ 10000 := hmax
    omega
  · rw [hres]
    show some f.itr = _
    rw [hitr, Nat.zero_add]
  · intro τ hτ
    have hthr : o.deltaThr.getD defaultThr = .fin τ := by
      rcases hτ with hτ | ⟨hτ, rfl⟩
      · rw [hτ]; rfl
      · rw [hτ]
        show (Fl.dec 1 100000000 : Fl ℝ) = _
        unfold Fl.dec
        norm_num
    have hd : ∀ k < n, Np.linalgNorm (List.ofFn fun e => (iter mode u ⟨Ap.maskX P X, cid⟩ p0 k).x e -
        (iter mode u ⟨Ap.maskX P X, cid⟩ p0 (k + 1)).x e) = .ok (.fin (qdist
          (fun e => num ((iter mode u ⟨Ap.maskX P X, cid⟩ p0 k).x e)) (fun e => num ((iter mode u ⟨Ap.maskX P X, cid⟩ p0 (k + 1)).x e)))) := by
      intro k hk
      unfold qdist
      rw [← Bt.norm_vec]
      congr 2
      funext e
      rw [hx k hk.le e, hx (k + 1) hk e, Fl.fin_sub]
    constructor
    · intro k hk
      obtain ⟨δ, h1, h2, _⟩ := htr k (by omega)
      rw [hd k (by omega)] at h1
      cases h1
      have := h2 hk
      rw [hthr] at this
      simpa [Fl.lt] using this
    · obtain ⟨δ, h1, _, h3⟩ := htr (n - 1) (by omega)
      rw [hd (n - 1) (by omega), Nat.sub_add_cancel hn1] at h1
      cases h1
      rcases h3 (by omega) with h3 | h3
      · right
        rw [hthr] at h3
        simpa [Fl.lt] using h3
      · left
        have : f.itr = 10000 := h3
        omega
  · rw [hres]
    show some (List.ofFn f.std.x) = _
    rw [hfs]; rfl
  · intro hmode
    rw [hres]
    unfold Mle.result
    dsimp only
    rw [if_neg hmode, if_neg hmode, if_neg hmode, (centre_va _ f.p).1, hfp, hfs]
    exact ⟨rfl, rfl, rfl⟩
  · intro hmode
    rw [hres]
    unfold Mle.result
    dsimp only
    rw [if_neg hmode, if_neg hmode, (centre_va _ f.p).2, hfp, hfs]
    exact ⟨rfl, rfl⟩
  · intro h1 h2 β hβ hSpos
    have hq : res.qualityScores = List.ofFn (centre (Ap.forced o.base) f.p).x := by
      rw [hres]
      unfold postprocessScores
      dsimp only
      rw [h1, h2]
      rfl
    have hb : mode ≠ .subjectOblivious → res.observerBias = some (List.ofFn (centre (Ap.forced o.base) f.p).b) := by
      intro hmode
      rw [hres]
      unfold Mle.result
      dsimp only
      rw [if_neg hmode]
    have hfb : f.p.b = fun s => .fin (β s) := by rw [hfp]; funext s; exact hβ s
    have hfx : f.p.x = fun e => .fin (num ((iter mode u ⟨Ap.maskX P X, cid⟩ p0 n).x e)) := by
      rw [hfp]; funext e; exact hx n (le_refl _) e
    refine ⟨_, rfl, ?_⟩
    by_cases hforce : o.base.forceSubjbiasZeromean = some (some false)
    · have : Ap.forced o.base = false := by unfold Ap.forced; rw [hforce]; rfl
      rw [if_pos hforce, hq]
      unfold centre at hb ⊢
      rw [this] at hb ⊢
      rw [if_neg (by decide), hfx]
      refine ⟨by simp, fun hmode => ?_⟩
      rw [hb hmode, if_neg (by decide), hfb]
      simp
    · have : Ap.forced o.base = true := by
        unfold Ap.forced
        cases hf : o.base.forceSubjbiasZeromean with
        | none => rfl
        | some x =>
          cases x with
          | none => rfl
          | some b => cases b
                      · exact absurd hf hforce
                      · rfl
      have hmean : Np.mean (List.ofFn f.p.b) = .fin ((∑ s, β s) / p.arr.S) := by
        rw [hfb]
        unfold Np.mean
        rw [Bt.sum_vec, List.length_ofFn, Fl.natCast_def, Fl.fin_div]
        exact_mod_cast hSpos.ne'
      rw [if_neg hforce, hq]
      unfold centre at hb ⊢
      rw [this] at hb ⊢
      rw [if_pos rfl]
      dsimp only
      rw [hmean, hfx]
      refine ⟨by simp, fun hmode => ?_⟩
      rw [hb hmode, if_pos rfl]
      dsimp only
      rw [hmean, hfb]
      simp

/-- the run on one video with the votes 1 and 3: the hypotheses hold, and so do those of the first round of Newton steps, which
starts with ambiguity 1 -/
example : ∃ res, runMLE exMleReader {} = .ok res ∧ ∃ (C : ℕ) (cid : Fin 1 → Fin C) (q q' sd : Four 1 2 C) (ξ : Fin 1 → ℝ),
    Round (Mode.default = .subjectOblivious) (Mode.default = .contentOblivious) (fun _ _ _ => true) exX cid q q' sd ∧
    At (fun _ _ (_ : Fin 1) => true) cid q ξ (fun _ => 0) (fun _ => 0) (fun _ => 1) := by
  obtain ⟨res, hrun, hraw, _⟩ := ex_run
  obtain ⟨C, cid, n, q, sd, ξ, _, hx, _, hstart, hround, hn, _⟩ := C85_rounds .default exMleReader {} res hrun (Or.inl rfl)
    ⟨1, 2, 1, exVotes⟩ hraw (fun _ _ _ => true) exX (fun e s r => by rw [show exVotes = _ from exVotes_mask]; rfl)
  have hs : ∀ (s : Fin 2) (m : Fin 1 → ℝ), spread (votesOfObserver (fun (_ : Fin 1) (_ : Fin 2) (_ : Fin 1) => true) s)
      (fun c => exX c.1 s c.2 - m c.1) = 0 := by
    intro s m
    have : votesOfObserver (fun (_ : Fin 1) (_ : Fin 2) (_ : Fin 1) => true) s = {(0, 0)} := by ext ⟨x, y⟩; simp [votesOfObserver, Prod.ext_iff, Fin.ext_iff]
    simp [spread, avg, this]
  have hc : ∀ (c : Fin 1 → Fin C) (e : Fin 1) (m : Fin 1 → ℝ), spread (votesOnContent (fun (_ : Fin 1) (_ : Fin 2) (_ : Fin 1) => true) c (c e))
      (fun t => exX t.1 t.2.1 t.2.2 - m t.1) = 1 := by
    intro c e m
    have : votesOnContent (fun (_ : Fin 1) (_ : Fin 2) (_ : Fin 1) => true) c (c e) = {(0, 0, 0), (0, 1, 0)} := by
      ext ⟨x, y, z⟩
      fin_cases x; fin_cases y <;> fin_cases z <;> fin_cases e <;> simp [votesOnContent]
    unfold spread avg
    rw [this]
    simp [exX]
    ring_nf
    norm_num
  exact ⟨res, hrun, C, cid, q 0, q 1, sd 1, ξ 0, hround 0 hn, fun e s r _ => ⟨hx 0 (Nat.zero_le _) e, hstart.biases s,
    (hstart.inconsistencies (by decide) s ⟨(0 : Fin 1), (0 : Fin 1), rfl⟩).trans (congrArg _ (hs s _)),
    (hstart.ambiguities (by decide) (cid e) ⟨e, (0 : Fin 2), (0 : Fin 1), rfl, rfl⟩).trans (congrArg _ (hc cid e _)), by norm_num⟩⟩

end Sureal.Props
