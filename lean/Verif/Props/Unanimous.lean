import Verif.Lemmas.Unanimous
import Verif.Lemmas.MleDead
import Verif.Props.Scale
import Verif.Props.PlotLabels
/-!
# C147: panels without disagreement

If all observers agree about every video, means of votes and the scores of the P.910 solver are the common votes.  The maximum likelihood models
by belief propagation start from inconsistencies and ambiguities of zero, divide by them and fail.
-/
set_option linter.unusedSectionVars false
namespace Sureal.Props
open Sureal Spec Ap

/-! ## means -/

section models
variable {κ : Type} [DecidableEq κ] {q : ℕ → ℝ} {rd : Reader κ ℝ} {a : Arr3D (Fl ℝ)} {o : Opts ℝ} {res : Result κ ℝ}

theorem mos_agree (h1 : o.normalizeFinal = none) (h2 : o.transformFinal = none) (hz : o.zscoreMode = none) (hd : o.dscoreMode = none)
    (ha : rd.scores = .ok a) (h : SameVote q a) (hr : runModeling mosRunModeling rd o = .ok res ∨ runModeling biasremvRunModeling rd o = .ok res) :
    (∀ (i : ℕ) (x : Fl ℝ), res.qualityScores[i]? = some x → x = .nan ∨ x = .fin (q i)) ∧
    ((o.subjectRejectionType = none ∨ o.subjectRejection = none) → ∀ i, i < a.E → RatedByAll a i → res.qualityScores[i]? = some (.fin (q i))) := by
  have key : ∃ p : Prep ℝ, preprocess rd o = .ok p ∧ res.qualityScores = List.ofFn (meanAlongS p.arr.get) := by
    rcases hr with hr | hr
    · obtain ⟨res0, h0, hq⟩ := run_scores hr
      rw [post_plain h1 h2] at hq
      unfold mosRunModeling at h0
      split at h0
      · cases h0
      · rename_i p hp
        cases h0
        refine ⟨p, hp, hq.trans ?_⟩
        unfold Result.withRejection
        split <;> rfl
    · obtain ⟨res0, h0, hq⟩ := run_scores hr
      rw [post_plain h1 h2] at hq
      unfold biasremvRunModeling at h0
      split at h0
      · cases h0
      · rename_i p hp
        split at h0
        · cases h0
        · cases h0
          refine ⟨p, hp, hq.trans ?_⟩
          unfold Result.withRejection
          split <;> rfl
  obtain ⟨p, hp, hq⟩ := key
  obtain ⟨k1, k2, k3⟩ := Unanimous.preprocess_agree hp ha hz hd h
  rw [hq]
  refine ⟨fun i x hx => ?_, fun ht i hi hall => ?_⟩
  · rw [List.getElem?_ofFn] at hx
    split at hx
    · cases hx
      exact Unanimous.mean_video (q := fun e => q e.val) k1 _
    · cases hx
  · have hlt : i < p.arr.E := by rw [k2]; exact hi
    rw [List.getElem?_ofFn, dif_pos hlt]
    obtain ⟨hS, hv⟩ := k3 i ht hall
    obtain ⟨r, v, hrv⟩ := hv ⟨i, hlt⟩ rfl ⟨0, hS⟩
    rw [Unanimous.mean_rated (q := fun e => q e.val) k1 hrv]

/-- **C147** (partial: models of means only).  If all who rated a video gave it the same vote, whatever video, then the scores of the models that
average votes, corrected for bias or not and with or without rejection of observers, are these votes, or NaN where no vote is left.  For the models
without rejection and those with the rejection of BT.500, the score of a video rated by all observers is a number, hence the common vote.
Missing: the models by belief propagation, for which it is refuted (`C147_mle_refuted`). -/
theorem C147_models_partial {T : String} {run : Reader κ ℝ → Py (Result κ ℝ)} (hT : (T, run) ∈ runsByName) (ha : rd.scores = .ok a)
    (h : SameVote q a) (hr : run rd = .ok res) :
    (T ∈ direct → ∀ (i : ℕ) (x : Fl ℝ), res.qualityScores[i]? = some x → x = .nan ∨ x = .fin (q i)) ∧
    (T ∈ populated → ∀ i, i < a.E → RatedByAll a i → res.qualityScores[i]? = some (.fin (q i))) := by
  simp only [runsByName, List.mem_cons, Prod.mk.injEq, List.not_mem_nil, or_false] at hT
  have no : ∀ {s : String} {l : List String} {P : Prop}, s ∉ l → s ∈ l → P := fun h1 h2 => absurd h2 h1
  rcases hT with ⟨rfl, rfl⟩ | ⟨rfl, rfl⟩ | ⟨rfl, rfl⟩ | ⟨rfl, rfl⟩ | ⟨rfl, rfl⟩ | ⟨rfl, rfl⟩ | ⟨rfl, rfl⟩ | ⟨rfl, rfl⟩ | ⟨rfl, rfl⟩ |
    ⟨rfl, rfl⟩ | ⟨rfl, rfl⟩ | ⟨rfl, rfl⟩ | ⟨rfl, rfl⟩ | ⟨rfl, rfl⟩ | ⟨rfl, rfl⟩ | ⟨rfl, rfl⟩ | ⟨rfl, rfl⟩ | ⟨rfl, rfl⟩ | ⟨rfl, rfl⟩ |
    ⟨rfl, rfl⟩ | ⟨rfl, rfl⟩ | ⟨rfl, rfl⟩ | ⟨rfl, rfl⟩ | ⟨rfl, rfl⟩ | ⟨rfl, rfl⟩ | ⟨rfl, rfl⟩ | ⟨rfl, rfl⟩
  all_goals refine ⟨fun hm => ?_, fun hm => ?_⟩
  all_goals first
    | exact no (by decide +kernel) hm
    | exact (mos_agree rfl rfl rfl rfl ha h (Or.inl hr)).1
    | exact (mos_agree rfl rfl rfl rfl ha h (Or.inr hr)).1
    | exact (mos_agree rfl rfl rfl rfl ha h (Or.inl hr)).2 (Or.inl rfl)
    | exact (mos_agree rfl rfl rfl rfl ha h (Or.inl hr)).2 (Or.inr rfl)
    | exact (mos_agree rfl rfl rfl rfl ha h (Or.inr hr)).2 (Or.inl rfl)
    | exact (mos_agree rfl rfl rfl rfl ha h (Or.inr hr)).2 (Or.inr rfl)

end models

/-! ## the P.910 solver -/

section p910
variable {κ : Type} {J I R : ℕ} {P : Fin J → Fin I → Fin R → Bool} {q : Fin J → ℝ}

theorem bias_same (h : Voted P) : apBias P (fun j _ _ => q j) q = fun _ => 0 := by
  funext i
  unfold apBias
  rw [avg_congr (g := fun _ => 0) fun c _ => sub_self _]
  exact avg_const (h.observers i) _

theorem spread_same : apSpread P (fun j _ _ => q j) q (fun _ => 0) = fun _ => 0 := by
  funext i
  unfold apSpread
  rw [spread_congr (g := fun _ => 0) fun c _ => by simp]
  exact spread_const _

theorem seq_same (h : Voted P) (k : ℕ) : seq P (fun j _ _ => q j) k = q := by
  induction k with
  | zero =>
    funext j
    exact avg_const (h.videos j) _
  | succ k ih =>
    show Ap.next P _ (seq P _ k) = q
    rw [ih]
    unfold Ap.next
    rw [bias_same h, spread_same]
    funext j
    unfold apQuality
    rw [wavg_congr (g := fun _ => 0 + q j) (w' := fun _ => apWeight 0) (fun c _ => by simp) (fun _ _ => rfl),
      wavg_add_const (h.videos j) (fun _ => apWeight_pos 0) (fun _ => 0)]
    simp [wavg]

/-- **C147**, the P.910 solver.  If all who rated a video gave it the same vote, whatever video, every video was rated and every observer voted,
then the P.910 solver reports these votes as quality scores, and biases and inconsistencies of zero.  Votes may be missing. -/
theorem C147_p910 (sd : StdFormula) {rd : Reader κ ℝ} (hob : ObserversHarmless rd) {a : Arr3D (Fl ℝ)} (ha : rd.scores = .ok a) {q : ℕ → ℝ}
    (h : SameVote q a) (hS : 0 < a.S) (hv : ∀ e, ∃ s r v, a.get e s r = .fin v) (ho : ∀ s, ∃ e r v, a.get e s r = .fin v) :
    ∃ res, runAPWith sd rd {} = .ok res ∧ res.qualityScores = List.ofFn (fun e : Fin a.E => .fin (q e.val)) ∧
      res.observerBias = some (List.replicate a.S (.fin 0)) ∧ res.observerInconsistency = some (List.replicate a.S (.fin 0)) := by
  obtain ⟨E, S, R, g⟩ := a
  dsimp only at hS hv ho h ⊢
  classical
  let P : Fin E → Fin S → Fin R → Bool := fun e s r => decide (g e s r ≠ .nan)
  have hP : ∀ {e s r v}, g e s r = .fin v → P e s r = true := fun {e s r v} hg => decide_eq_true (by rw [hg]; nofun)
  have hg : g = maskX P fun e _ _ => q e.val := by
    funext e s r
    have hcell : g e s r = .nan ∨ g e s r = .fin (q e.val) := h e s r
    rcases hcell with h0 | h0
    · have : P e s r = false := decide_eq_false fun hne => hne h0
      show g e s r = mask (P e s r) _
      rw [this, h0]
      rfl
    · show g e s r = mask (P e s r) _
      rw [hP h0, h0]
      rfl
  have hV : Voted P := ⟨fun e => by obtain ⟨s, r, v, h⟩ := hv e; exact ⟨s, r, hP h⟩, fun s => by obtain ⟨e, r, v, h⟩ := ho s; exact ⟨e, r, hP h⟩⟩
  obtain ⟨res, hr, h1, h2, h3, -⟩ := run_real (P := P) (X := fun e _ _ => q e.val) sd rd hob (by rw [ha, hg]) hV hS
  have hl : lastS P (fun e _ _ => q e.val) = fun e => q e.val := seq_same hV _
  have hm : meanB P (fun e _ _ => q e.val) = 0 := by
    unfold meanB
    rw [hl, bias_same (q := fun e : Fin E => q e.val) hV]
    simp
  refine ⟨res, hr, ?_, ?_, ?_⟩
  · rw [h1]
    congr 1
    funext e
    unfold estQ
    rw [hl, hm, add_zero]
  · rw [h2, ← List.ofFn_const]
    congr 2
    funext s
    unfold estB
    rw [hl, hm, bias_same (q := fun e : Fin E => q e.val) hV, sub_zero]
  · rw [h3, ← List.ofFn_const]
    congr 2
    funext s
    unfold estV
    rw [show seq P (fun e _ _ => q e.val) (stopAt P fun e _ _ => q e.val) = fun e => q e.val from seq_same hV _,
      bias_same (q := fun e : Fin E => q e.val) hV, spread_same (q := fun e : Fin E => q e.val)]

end p910

/-! ## the models by belief propagation -/

section mle
variable {κ : Type} [LinearOrder κ] {d : Dataset κ ℝ}

/-- a dataset with votes given without disagreement is an array with the same vote in all cells of a video -/
theorem unanimous_reads (h : Readable d) (hu : Unanimous d) :
    ∃ (rd : Reader κ ℝ) (a : Arr3D (Fl ℝ)) (q : ℕ → ℝ), rawReader d = .ok rd ∧ rd.scores = .ok a ∧ SameVote q a ∧ 0 < a.E ∧ Mle.Obs rd ∧
      a.E = d.disVideos.length ∧
      ∀ i dv, d.disVideos[i]? = some dv → ∀ x ∈ numbersOf dv, x = q i := by
  obtain ⟨rd, a, hrd, -, ha, hE, hc, hp, hob⟩ := Main.reads h
  refine ⟨rd, a, fun i => ((d.disVideos[i]?).bind fun dv => (numbersOf dv).head?).getD 0, hrd, ha, ?_, ?_, ?_, hE, ?_⟩
  · intro e s r
    rcases hc e s r with hn | ⟨v, hn⟩
    · exact Or.inl hn
    · right
      have hlt : e.val < d.disVideos.length := by rw [← hE]; exact e.isLt
      have hdv := List.getElem?_eq_getElem hlt
      have hm := (hp e _ hdv).mem_iff.mp (Mock.mem_present.mpr ((mem_videoCells _ _ _).mpr ⟨s, r, hn⟩))
      rw [hn]
      dsimp only
      rw [hdv]
      cases hl : numbersOf d.disVideos[e.val] with
      | nil => rw [hl] at hm; cases hm
      | cons y ys =>
        have := hu _ (List.getElem_mem hlt) v hm y (by rw [hl]; exact List.mem_cons_self)
        simp [hl, this]
  · rw [hE]
    exact List.length_pos_iff.mpr h.wf.diss
  · exact hob.elim (fun ⟨l, h, _⟩ => Or.inl ⟨l, h⟩) Or.inr
  · intro i dv hdv x hx
    dsimp only
    rw [hdv]
    cases hl : numbersOf dv with
    | nil => rw [hl] at hx; cases hx
    | cons y ys =>
      have := hu dv (List.mem_of_getElem? hdv) x hx y (by rw [hl]; exact List.mem_cons_self)
      simp [hl, this]

theorem contents_ok (h : WellFormed d) {rd : Reader κ ℝ} (hrd : rawReader d = .ok rd) {E : ℕ} (hE : E = d.disVideos.length) :
    ∃ C, Mle.numContents rd = .ok C ∧ ∃ cid, Mle.contentIndex (contentIdOfDisVideos rd.disVideos) E C = .ok cid := by
  obtain ⟨-, rfl⟩ := Mock.rawReader_inv hrd
  obtain ⟨r0, rs, hrs⟩ := List.exists_cons_of_ne_nil h.refs
  refine ⟨((rs.map (·.contentId)).foldl max r0.contentId + 1).toNat, ?_, ?_⟩
  · unfold Mle.numContents
    simp [hrs]
  · unfold Mle.contentIndex
    rw [dif_pos ?_]
    · exact ⟨_, rfl⟩
    · refine ⟨by simp [contentIdOfDisVideos, hE], fun c hc => ?_⟩
      simp only [contentIdOfDisVideos, List.mem_map] at hc
      obtain ⟨dv, hdv, rfl⟩ := hc
      obtain ⟨r, hr, he⟩ := h.hasRef dv hdv
      have h0 := h.nonneg r hr
      have hm : r.contentId ∈ r0.contentId :: rs.map (·.contentId) := by
        rw [hrs] at hr
        exact List.mem_map_of_mem (f := (·.contentId)) hr
      have := le_foldl_max hm
      rw [← he]
      constructor
      · exact h0
      · rw [Int.toNat_of_nonneg (by omega)]
        omega

/-- **C147**, refuted for the models by belief propagation.  If the votes on every video are the same, all three of them fail with ValueError, unless
the numerical method is asked for: the first inconsistencies and ambiguities are zero, the first pass divides zero by zero, and `scipy.linalg.norm`
refuses NaN. -/
theorem C147_mle_refuted (mode : Mle.Mode) (h : Readable d) (hu : Unanimous d) (z : Flag) {g : Option String}
    (hg : g = none ∨ g = some "simplified" ∨ g = some "original") (pdf : Option String) (thr : Option (Fl ℝ)) :
    ∃ rd, rawReader d = .ok rd ∧ Mle.run mode rd (Mle.optsOf z g pdf thr) = .error .value := by
  obtain ⟨rd, a, q, hrd, ha, hs, hE, hob, hlen, -⟩ := unanimous_reads h hu
  obtain ⟨C, hC, cid, hcid⟩ := contents_ok h.wf hrd hlen
  obtain ⟨m, hm, hne⟩ : ∃ m, Mle.method (Mle.optsOf z g pdf thr) = .ok m ∧ m ≠ .numerical := by
    rcases hg with rfl | rfl | rfl
    · exact ⟨.simplified, rfl, by decide⟩
    · exact ⟨.simplified, rfl, by decide⟩
    · exact ⟨.original, rfl, by decide⟩
  have hres := Unanimous.residue (g := a.get) (q := fun e => q e.val) hs
  refine ⟨rd, hrd, (Mle.run_fit mode hob (x := a.get) ha z g pdf thr hm hC hcid).1 _ ?_⟩
  exact Mle.fit_dead hne hE (Or.inr fun s => ⟨0, fun e r => hres e s r⟩) (Or.inr ⟨0, fun e s r => hres e s r⟩)

/-- Also on votes which are exactly sums of a quality and a bias, none missing, the content oblivious model fails, whereas the P.910 solver recovers
qualities and biases (`C28_additive_recovery`). -/
theorem C147_additive_refuted {rd : Reader κ ℝ} (hob : Mle.Obs rd) {E S R C : ℕ} (hE : 0 < E) (hS : 0 < S) (hR : 0 < R) (q : Fin E → ℝ) (b : Fin S → ℝ)
    (ha : rd.scores = .ok ⟨E, S, R, fun e s _ => .fin (q e + b s)⟩) (hC : Mle.numContents rd = .ok C) {cid : Fin E → Fin C}
    (hcid : Mle.contentIndex (contentIdOfDisVideos rd.disVideos) E C = .ok cid) :
    runMLE_CO rd {} = .error .value := by
  have hmean : ∀ e, meanAlongS (fun e s _ => .fin (q e + b s) : Arr3 (Fl ℝ) E S R) e = .fin (q e + (∑ s, b s) / S) := by
    intro e
    have h0 : (fun e s _ => .fin (q e + b s) : Arr3 (Fl ℝ) E S R) = maskX (fun _ _ _ => true) fun e s _ => q e + b s := rfl
    rw [h0, init_spec]
    unfold maskS
    rw [decide_eq_true (full_video hS hR e).2]
    dsimp only
    rw [(full_video hS hR e).1]
    show Fl.fin _ = _
    congr 1
    have : (fun c : Fin S × Fin R => q e + b c.1) = fun c => b c.1 + q e := by funext c; rw [add_comm]
    show avg _ (fun c : Fin S × Fin R => q e + b c.1) = _
    rw [this, avg_add_const ⟨(⟨0, hS⟩, ⟨0, hR⟩), by simp⟩, avg_fst hR, add_comm]
  refine (Mle.run_fit .contentOblivious hob ha none none none none (m := .simplified) rfl hC hcid).1 _ ?_
  refine Mle.fit_dead (by decide) hE (Or.inr fun s => ⟨b s - (∑ s, b s) / S, fun e r => Or.inr ?_⟩) (Or.inl rfl)
  rw [hmean]
  show Fl.fin _ - Fl.fin _ = _
  rw [Fl.fin_sub]
  congr 1
  ring

end mle

/-! ## the program -/

section program
open Routine Format Main
variable {κ : Type} [LinearOrder κ] {d : Dataset κ ℝ} {ppf : Fl ℝ → ℕ → Fl ℝ} {other : ModelClass → Reader κ ℝ → Py (Result κ ℝ)}
  {pc : List ModelClass → Py (Output (String ⊕ κ) (Fl ℝ))} {path : List Char} {readPy readJson : Py (Dataset κ ℝ)}

/-- **C147** (partial, see `C147_models_partial`), for the scores the program writes: the scores of models of means are the votes. -/
theorem C147_program_partial {models : List String} (hnd : models.Nodup)
    (hm : ∀ T ∈ models, ∃ run, (T, run) ∈ (runsByName : List (String × (Reader κ ℝ → Py (Result κ ℝ))))) {out : Output (String ⊕ κ) (Fl ℝ)}
    (hout : main ppf other pc path readPy readJson models = .ok out) (hl : Loads path readPy readJson d) (h : Readable d) (hu : Unanimous d)
    {T : String} (hT : T ∈ models) (hd : T ∈ direct) {i : ℕ} {dv : DisVideo κ ℝ} (hdv : d.disVideos[i]? = some dv) {c : Cell (Fl ℝ)}
    (hcell : numberIn out.disVideos i T "quality_score" = some c) :
    c = .one .nan ∨ ∀ x ∈ numbersOf dv, c = .one (.fin x) := by
  obtain ⟨d', rd, hl', hrd, hres⟩ := C117_any hnd (List.ne_nil_of_mem hT) hm hout
  have hdd : d' = d := by
    have h1 := (loads_read hl).2
    have h2 := (loads_read hl').2
    rw [h1] at h2
    cases h2
    rfl
  subst hdd
  obtain ⟨rd', a, q, hrd', ha, hs, -, -, -, hq⟩ := unanimous_reads h hu
  rw [hrd] at hrd'
  cases hrd'
  obtain ⟨run, hrun⟩ := hm T hT
  obtain ⟨r, hr, hnum⟩ := hres T run hT hrun
  rw [(hnum i).1] at hcell
  cases hx : r.qualityScores[i]? with
  | none => rw [hx] at hcell; cases hcell
  | some x =>
    rw [hx] at hcell
    cases hcell
    rcases (C147_models_partial hrun ha hs hr).1 hd i x hx with rfl | rfl
    · exact Or.inl rfl
    · exact Or.inr fun y hy => by rw [hq i dv hdv y hy]

/-- **C147**, refuted for the program: when the votes on every video are the same and one of the models asked for is by belief propagation, there is
no output at all, also not of the other models. -/
theorem C147_program_refuted {models : List String} (hnd : models.Nodup)
    (hm : ∀ T ∈ models, ∃ run, (T, run) ∈ (runsByName : List (String × (Reader κ ℝ → Py (Result κ ℝ)))))
    (hl : Loads path readPy readJson d) (h : Readable d) (hu : Unanimous d) {T : String} (hT : T ∈ models) (hit : T ∈ iterated)
    (out : Output (String ⊕ κ) (Fl ℝ)) : main ppf other pc path readPy readJson models ≠ .ok out := by
  intro hout
  obtain ⟨d', rd, hl', hrd, hres⟩ := C117_any hnd (List.ne_nil_of_mem hT) hm hout
  have hdd : d' = d := by
    have h1 := (loads_read hl).2
    have h2 := (loads_read hl').2
    rw [h1] at h2
    cases h2
    rfl
  subst hdd
  have dead : ∀ mode, Mle.run mode rd {} = .error .value := by
    intro mode
    obtain ⟨rd', hrd', hd⟩ := C147_mle_refuted mode h hu none (g := none) (Or.inl rfl) none none
    rw [hrd] at hrd'
    cases hrd'
    exact hd
  simp only [iterated, List.mem_cons, List.not_mem_nil, or_false] at hit
  have go : ∀ mode, (T, fun rd => Mle.run mode rd {}) ∈ (runsByName : List (String × (Reader κ ℝ → Py (Result κ ℝ)))) → False := by
    intro mode hrun
    obtain ⟨r, hr, -⟩ := hres T _ hT hrun
    rw [dead mode] at hr
    cases hr
  rcases hit with rfl | rfl | rfl
  · exact go .default (by unfold runsByName; simp only [List.mem_cons]; iterate 21 right
                          left; rfl)
  · exact go .contentOblivious (by unfold runsByName; simp only [List.mem_cons]; iterate 22 right
                                   left; rfl)
  · exact go .subjectOblivious (by unfold runsByName; simp only [List.mem_cons]; iterate 23 right
                                   left; rfl)

/-- the scores of MOS and P910 in the output on unanimous votes, if every video has a vote and every observer gave one -/
theorem unanimous_written {models : List String} (hall : ∀ T ∈ models, ∃ run, (T, run) ∈ (runsByName : List (String × (Reader κ ℝ → Py (Result κ ℝ)))))
    (hnd : models.Nodup) (h : Readable d) (hl : Loads path readPy readJson d) (hu : Unanimous d) (hv : ∀ dv ∈ d.disVideos, numbersOf dv ≠ [])
    (ho : EachVoted 1 d) {out : Output (String ⊕ κ) (Fl ℝ)} (hout : main ppf other pc path readPy readJson models = .ok out) {T : String} (hT : T ∈ models)
    (hTT : T = "MOS" ∨ T = "P910") {i : ℕ} {dv : DisVideo κ ℝ} (hdv : d.disVideos[i]? = some dv) {x : ℝ} (hx : x ∈ numbersOf dv) :
    numberIn out.disVideos i T "quality_score" = some (.one (.fin x)) := by
  obtain ⟨d', rd, hl', hrd, hres⟩ := C117_any hnd (List.ne_nil_of_mem hT) hall hout
  have hdd : d' = d := by
    have h1 := (loads_read hl).2
    have h2 := (loads_read hl').2
    rw [h1] at h2
    cases h2
    rfl
  subst hdd
  obtain ⟨rd', a, q, hrd', ha, hs, -, hob, hE, hq⟩ := unanimous_reads h hu
  rw [hrd] at hrd'
  cases hrd'
  obtain ⟨rd', a', hrd', -, ha', -, hc, hp, -⟩ := reads h
  rw [hrd] at hrd'
  cases hrd'
  rw [ha] at ha'
  cases ha'
  have hvid : ∀ e : Fin a.E, ∃ s r v, a.get e s r = .fin v := by
    intro e
    have hlt : e.val < d'.disVideos.length := by rw [← hE]; exact e.isLt
    obtain ⟨y, hy⟩ := List.exists_mem_of_ne_nil _ (hv _ (List.getElem_mem hlt))
    have := (hp e _ (List.getElem?_eq_getElem hlt)).mem_iff.mpr hy
    obtain ⟨s, r, hsr⟩ := (mem_videoCells _ _ _).mp (Mock.mem_present.mp this)
    exact ⟨s, r, y, hsr⟩
  have hlt : i < a.E := by rw [hE]; exact (List.getElem?_eq_some_iff.mp hdv).1
  rw [hq i dv hdv x hx]
  rcases hTT with rfl | rfl
  · obtain ⟨r, hr, hnum⟩ := hres "MOS" (runMOS · {}) hT (by simp [runsByName])
    rw [(hnum i).1]
    obtain ⟨res0, h0, hqs⟩ := run_scores hr
    rw [post_plain rfl rfl] at hqs
    unfold mosRunModeling at h0
    rw [preprocess_default ha] at h0
    cases h0
    obtain ⟨s, r', v, hsr⟩ := hvid ⟨i, hlt⟩
    have hqs' : r.qualityScores = List.ofFn (meanAlongS a.get) := hqs
    rw [hqs', List.getElem?_ofFn, dif_pos hlt, Unanimous.mean_rated (q := fun e => q e.val) hs hsr]
    rfl
  · obtain ⟨r, hr, hnum⟩ := hres "P910" (runAP2 · {}) hT (by simp [runsByName])
    rw [(hnum i).1]
    have hob' : ObserversHarmless rd := hob.elim (fun h => Or.inl h) fun h => Or.inr (Or.inl h)
    obtain ⟨s0, -⟩ := hvid ⟨i, hlt⟩
    have hobs : ∀ s, ∃ e r v, a.get e s r = .fin v := by
      intro s
      have h2 := each_voted h ho hrd ha s
      cases hl : present (observerCells a.get s) with
      | nil => rw [hl] at h2; simp at h2
      | cons v vs =>
        obtain ⟨e, r, her⟩ := (mem_observerCells _ _ _).mp (Mock.mem_present.mp (hl ▸ List.mem_cons_self : v ∈ present (observerCells a.get s)))
        exact ⟨e, r, v, her⟩
    obtain ⟨res, hr', hqs, -⟩ := C147_p910 sStdAlt hob' ha hs (Nat.lt_of_le_of_lt (Nat.zero_le _) s0.isLt) hvid hobs
    have hr2 : runAPWith sStdAlt rd {} = .ok r := hr
    rw [hr'] at hr2
    cases hr2
    rw [hqs, List.getElem?_ofFn, dif_pos hlt]
    rfl

/-- **C147** for MOS and P910.  If the votes on every video are the same, every video has a vote and every observer gave two, the program writes an
output for any of the models documented for the command line, in which the scores of MOS and P910 are the votes. -/
theorem C147_written {models : List String} (hm : ∀ T ∈ models, T ∈ documented) (hnd : models.Nodup) (hne : models ≠ []) (h : Readable d)
    (hl : Loads path readPy readJson d) (hu : Unanimous d) (hv : ∀ dv ∈ d.disVideos, numbersOf dv ≠ []) (ho : EachVoted 2 d) :
    ∃ out, main ppf other pc path readPy readJson models = .ok out ∧
      ∀ T ∈ models, T = "MOS" ∨ T = "P910" → ∀ i dv, d.disVideos[i]? = some dv → ∀ x ∈ numbersOf dv,
        numberIn out.disVideos i T "quality_score" = some (.one (.fin x)) := by
  obtain ⟨out, hout⟩ := C118_succeeds_partial (ppf := ppf) (other := other) (pc := pc) hm hne h hl hv ho
  refine ⟨out, hout, fun T hT hTT i dv hdv x hx => ?_⟩
  have hall : ∀ T ∈ models, ∃ run, (T, run) ∈ (runsByName : List (String × (Reader κ ℝ → Py (Result κ ℝ)))) := by
    intro T hT
    have := hm T hT
    simp only [documented, List.mem_cons, List.not_mem_nil, or_false] at this
    rcases this with rfl | rfl | rfl | rfl
    · exact ⟨(runMOS · {}), by simp [runsByName]⟩
    · exact ⟨(runAP2 · {}), by simp [runsByName]⟩
    · exact ⟨(runBR_SR_MOS · {}), by simp [runsByName]⟩
    · exact ⟨(runSR_MOS · {}), by simp [runsByName]⟩
  exact unanimous_written hall hnd h hl hu hv (fun w hw => (by omega : 1 ≤ 2).trans (ho w hw)) hout hT hTT hdv hx

end program

/-! ## example -/

/-- three observers who agree about three videos of two contents, one vote missing -/
def exAgree : Dataset String ℝ :=
  { refVideos := [⟨0, "r0", []⟩, ⟨1, "r1", []⟩]
    disVideos := [
      { contentId := 0, assetId := 0, path := "r0", os := some (.seq false [.one (.fin 5), .one (.fin 5), .one (.fin 5)]) },
      { contentId := 0, assetId := 1, path := "d1", os := some (.seq false [.one (.fin 2), .one .nan, .one (.fin 2)]) },
      { contentId := 1, assetId := 2, path := "d2", os := some (.seq false [.one (.fin 3), .one (.fin 3), .one (.fin 3)]) }] }

theorem exAgree_readable : Readable exAgree where
  wf := by
    refine ⟨by simp [exAgree], by simp [exAgree], by simp [exAgree], by simp [exAgree], ?_, ?_⟩
    · intro dv hdv
      simp only [exAgree, List.mem_cons, List.not_mem_nil, or_false] at hdv
      rcases hdv with rfl | rfl | rfl <;> exact ⟨_, rfl, by simp⟩
    · intro d0 h0 _ dv hdv
      simp only [exAgree, List.head?_cons, Option.some.injEq] at h0
      subst h0
      simp only [exAgree, List.mem_cons, List.not_mem_nil, or_false] at hdv
      rcases hdv with rfl | rfl | rfl <;> rfl
  style := by
    left
    intro dv hdv
    simp only [exAgree, List.mem_cons, List.not_mem_nil, or_false] at hdv
    rcases hdv with rfl | rfl | rfl <;> exact ⟨_, _, rfl⟩
  single := by
    intro dv hdv xs hx
    simp only [exAgree, List.mem_cons, List.not_mem_nil, or_false] at hdv
    rcases hdv with rfl | rfl | rfl <;> simp [entries] at hx
  clean := by
    intro dv hdv x hx
    simp only [exAgree, List.mem_cons, List.not_mem_nil, or_false] at hdv
    rcases hdv with rfl | rfl | rfl
    · change x ∈ [(.fin 5 : Fl ℝ), .fin 5, .fin 5] at hx
      simp only [List.mem_cons, List.not_mem_nil, or_false] at hx
      rcases hx with rfl | rfl | rfl <;> exact Or.inr ⟨_, rfl⟩
    · change x ∈ [(.fin 2 : Fl ℝ), .nan, .fin 2] at hx
      simp only [List.mem_cons, List.not_mem_nil, or_false] at hx
      rcases hx with rfl | rfl | rfl
      · exact Or.inr ⟨_, rfl⟩
      · exact Or.inl rfl
      · exact Or.inr ⟨_, rfl⟩
    · change x ∈ [(.fin 3 : Fl ℝ), .fin 3, .fin 3] at hx
      simp only [List.mem_cons, List.not_mem_nil, or_false] at hx
      rcases hx with rfl | rfl | rfl <;> exact Or.inr ⟨_, rfl⟩

theorem exAgree_unanimous : Unanimous exAgree := by
  intro dv hdv x hx y hy
  simp only [exAgree, List.mem_cons, List.not_mem_nil, or_false] at hdv
  rcases hdv with rfl | rfl | rfl
  · change x ∈ [(5 : ℝ), 5, 5] at hx
    change y ∈ [(5 : ℝ), 5, 5] at hy
    simp_all
  · change x ∈ [(2 : ℝ), 2] at hx
    change y ∈ [(2 : ℝ), 2] at hy
    simp_all
  · change x ∈ [(3 : ℝ), 3, 3] at hx
    change y ∈ [(3 : ℝ), 3, 3] at hy
    simp_all

/-- the three models fail on it -/
example (mode : Mle.Mode) : ∃ rd, rawReader exAgree = .ok rd ∧ Mle.run mode rd {} = .error .value :=
  C147_mle_refuted mode exAgree_readable exAgree_unanimous none (Or.inl rfl) none none

open Routine Format Main in
/-- and so does the program when asked for MOS and MLE -/
example (ppf : Fl ℝ → ℕ → Fl ℝ) (other : ModelClass → Reader String ℝ → Py (Result String ℝ))
    (pc : List ModelClass → Py (Output (String ⊕ String) (Fl ℝ))) (out : Output (String ⊕ String) (Fl ℝ)) :
    main ppf other pc "scores.py".toList (.ok exAgree) (.error .assertion) ["MOS", "MLE"] ≠ .ok out := by
  refine C147_program_refuted (by decide) ?_ (ex_loads _) exAgree_readable exAgree_unanimous (T := "MLE") (by decide) (by decide) out
  intro T hT
  simp only [List.mem_cons, List.not_mem_nil, or_false] at hT
  rcases hT with rfl | rfl
  · exact ⟨_, by unfold runsByName; exact List.mem_cons_self⟩
  · exact ⟨(runMLE · {}), by simp [runsByName]⟩

theorem exAgree_votes : (∀ dv ∈ exAgree.disVideos, numbersOf dv ≠ []) ∧ EachVoted 2 exAgree := by
  refine ⟨?_, ?_⟩
  · intro dv hdv
    simp only [exAgree, List.mem_cons, List.not_mem_nil, or_false] at hdv
    rcases hdv with rfl | rfl | rfl <;> exact List.cons_ne_nil _ _
  · rintro (o | s) hw
    · obtain ⟨dv, hdv, ho⟩ := hw
      simp only [exAgree, List.mem_cons, List.not_mem_nil, or_false] at hdv
      rcases hdv with rfl | rfl | rfl <;> simp [raters] at ho
    · obtain ⟨dv, hdv, -, hs⟩ := hw
      have hs2 : s < 3 := by
        simp only [exAgree, List.mem_cons, List.not_mem_nil, or_false] at hdv
        rcases hdv with rfl | rfl | rfl <;> exact hs
      have : s = 0 ∨ s = 1 ∨ s = 2 := by omega
      rcases this with rfl | rfl | rfl
      · exact (show 2 ≤ 3 by norm_num)
      · exact le_refl 2
      · exact (show 2 ≤ 3 by norm_num)

open Routine Format Main in
/-- the documented models give an output, and the second video gets 2 from MOS and P910; from P913 too, unless it is NaN -/
example (ppf : Fl ℝ → ℕ → Fl ℝ) (other : ModelClass → Reader String ℝ → Py (Result String ℝ))
    (pc : List ModelClass → Py (Output (String ⊕ String) (Fl ℝ))) :
    ∃ out, main ppf other pc "scores.py".toList (.ok exAgree) (.error .assertion) ["MOS", "P910", "P913", "BT500"] = .ok out ∧
      numberIn out.disVideos 1 "MOS" "quality_score" = some (.one (.fin 2)) ∧
      numberIn out.disVideos 1 "P910" "quality_score" = some (.one (.fin 2)) ∧
      ∀ c, numberIn out.disVideos 1 "P913" "quality_score" = some c → c = .one .nan ∨ c = .one (.fin 2) := by
  obtain ⟨out, hout, hw⟩ := C147_written (ppf := ppf) (other := other) (pc := pc) (models := ["MOS", "P910", "P913", "BT500"]) (by decide) (by decide)
    (by simp) exAgree_readable (ex_loads _) exAgree_unanimous exAgree_votes.1 exAgree_votes.2
  have h2 : (2 : ℝ) ∈ numbersOf (κ := String) (K := ℝ)
      { contentId := 0, assetId := 1, path := "d1", os := some (.seq false [.one (.fin 2), .one .nan, .one (.fin 2)]) } := by
    show (2 : ℝ) ∈ [(2 : ℝ), 2]
    simp
  refine ⟨out, hout, hw "MOS" (by decide) (Or.inl rfl) 1 _ rfl 2 h2, hw "P910" (by decide) (Or.inr rfl) 1 _ rfl 2 h2, fun c hc => ?_⟩
  refine (C147_program_partial (by decide) ?_ hout (ex_loads _) exAgree_readable exAgree_unanimous (T := "P913") (by decide) (by decide)
    (i := 1) rfl hc).imp id fun h => h 2 h2
  intro T hT
  simp only [List.mem_cons, List.not_mem_nil, or_false] at hT
  rcases hT with rfl | rfl | rfl | rfl
  · exact ⟨_, by unfold runsByName; exact List.mem_cons_self⟩
  · exact ⟨(runAP2 · {}), by simp [runsByName]⟩
  · exact ⟨(runBR_SR_MOS · {}), by simp [runsByName]⟩
  · exact ⟨(runSR_MOS · {}), by simp [runsByName]⟩

/-- an array with a missing vote on which the P.910 solver and the models of means report the common votes -/
example (sd : StdFormula) : ∃ res, runAPWith sd (arrReader 2 2 1 fun e s _ => if e = 1 ∧ s = 1 then .nan else .fin (e.val + 2)) {} = .ok res ∧
    res.qualityScores = [.fin 2, .fin 3] := by
  obtain ⟨res, hr, hq, -⟩ := C147_p910 sd (arr_harmless 2 2 1 fun e s _ => if e = 1 ∧ s = 1 then .nan else .fin (e.val + 2)) rfl
    (q := fun i => i + 2)
    (by
      intro e s r
      show (if e = (1 : Fin 2) ∧ s = (1 : Fin 2) then Fl.nan else Fl.fin ((e.val : ℝ) + 2)) = .nan ∨ _ = _
      split
      · exact Or.inl rfl
      · exact Or.inr (if_neg (by assumption)))
    (by show 0 < 2; norm_num)
    (by
      intro e
      refine ⟨(0 : Fin 2), (0 : Fin 1), (e.val : ℝ) + 2, ?_⟩
      show (if e = (1 : Fin 2) ∧ (0 : Fin 2) = (1 : Fin 2) then Fl.nan else Fl.fin ((e.val : ℝ) + 2)) = _
      rw [if_neg (by simp)])
    (by
      intro s
      refine ⟨(0 : Fin 2), (0 : Fin 1), 2, ?_⟩
      show (if (0 : Fin 2) = (1 : Fin 2) ∧ s = (1 : Fin 2) then Fl.nan else Fl.fin ((((0 : Fin 2).val : ℕ) : ℝ) + 2)) = _
      rw [if_neg (by simp)]
      simp)
  refine ⟨res, hr, hq.trans ?_⟩
  show List.ofFn (fun e : Fin 2 => Fl.fin ((e.val : ℝ) + 2)) = _
  simp [List.ofFn_succ]
  norm_num

end Sureal.Props
