import Verif.Lemmas.ParetoMle
import Verif.Props.Main
import Verif.Props.ApLik
/-!
# C142: what all observers agree on

If every observer rates one video at most as high as another (or lower, or the same), so does every model that runs; models that look at the
content of a video, if both videos are of the same content.
-/
set_option linter.unusedSectionVars false
namespace Sureal.Props
open Spec Pareto Main

variable {κ : Type} [DecidableEq κ] {Q : ℝ → ℝ → Prop}

/-! ## helper lemmas -/

theorem ranked_ofFn {n m : ℕ} {q : Fin n → Fl ℝ} {i j : ℕ} (hn : n = m) (hij : i < m ∧ j < m)
    (h : ∀ e f : Fin n, e.val = i → f.val = j → Rated Q (q e) (q f)) : Ranked Q (List.ofFn q) i j := by
  subst hn
  exact ⟨_, _, by rw [List.getElem?_ofFn, dif_pos hij.1], by rw [List.getElem?_ofFn, dif_pos hij.2], h _ _ rfl rfl⟩

theorem run_scores {run : Reader κ ℝ → Opts ℝ → Py (Result κ ℝ)} {rd : Reader κ ℝ} {o : Opts ℝ} {res : Result κ ℝ}
    (h : runModeling run rd o = .ok res) : ∃ res0, run rd o = .ok res0 ∧ res.qualityScores = postprocessScores o res0.qualityScores := by
  unfold runModeling at h
  split at h
  · cases h
  · rename_i res0 h0
    refine ⟨res0, h0, ?_⟩
    split at h <;> first | (cases h; rfl) | cases h

section
variable {rd : Reader κ ℝ} {a : Arr3D (Fl ℝ)} {o : Opts ℝ} {res : Result κ ℝ} {i j : ℕ}

/-- what the comparison of two videos needs of the dataset if votes are replaced by differential scores -/
def DscoreOk (rd : Reader κ ℝ) (o : Opts ℝ) (i j : ℕ) : Prop :=
  o.dscoreMode.isTrue = true → (∀ x, rd.dataset.refScore = some (some x) → NumOrNan x) ∧ SameContent rd.dataset.disVideos i j

theorem mos_ranked (hQ : Compat Q) (h1 : o.normalizeFinal = none) (h2 : o.transformFinal = none) (ha : rd.scores = .ok a) (hc : CleanVotes a)
    (hij : i < a.E ∧ j < a.E) (h : RatedAll Q a i j) (hd : DscoreOk rd o i j) (hr : runModeling mosRunModeling rd o = .ok res) : Ranked Q res.qualityScores i j := by
  obtain ⟨res0, h0, hq⟩ := run_scores hr
  unfold mosRunModeling at h0
  split at h0
  · cases h0
  · rename_i p hp
    cases h0
    obtain ⟨hE, hc', h'⟩ := preprocess_keeps hQ hp ha i j hd hc h
    rw [hq, post_plain h1 h2]
    have : ((mosAndStats (fun E _ _ => E * 2) p.arr p.orig : Result κ ℝ).withRejection p.rejection).qualityScores = List.ofFn (meanAlongS p.arr.get) := by
      unfold Result.withRejection
      split <;> rfl
    rw [this]
    exact ranked_ofFn hE hij fun e f he hf => mean_rated hQ hc' (h' e f he hf)

theorem biasremv_ranked (hQ : Compat Q) (h1 : o.normalizeFinal = none) (h2 : o.transformFinal = none) (ha : rd.scores = .ok a) (hc : CleanVotes a)
    (hij : i < a.E ∧ j < a.E) (h : RatedAll Q a i j) (hd : DscoreOk rd o i j) (hr : runModeling biasremvRunModeling rd o = .ok res) : Ranked Q res.qualityScores i j := by
  obtain ⟨res0, h0, hq⟩ := run_scores hr
  unfold biasremvRunModeling at h0
  split at h0
  · cases h0
  · rename_i p hp
    split at h0
    · cases h0
    · rename_i b hb
      cases h0
      obtain ⟨hE, hc', h'⟩ := preprocess_keeps hQ hp ha i j hd hc h
      rw [hq, post_plain h1 h2]
      have : (Result.withRejection { (mosAndStats (fun E S R => E * 2 + S * R) p.arr p.orig : Result κ ℝ) with observerBias := some b }
          p.rejection).qualityScores = List.ofFn (meanAlongS p.arr.get) := by
        unfold Result.withRejection
        split <;> rfl
      rw [this]
      exact ranked_ofFn hE hij fun e f he hf => mean_rated hQ hc' (h' e f he hf)

theorem live_ranked (hQ : Compat Q) (h1 : o.normalizeFinal = none) (h2 : o.transformFinal = none) (ha : rd.scores = .ok a) (hc : CleanVotes a)
    (hij : i < a.E ∧ j < a.E) (h : RatedAll Q a i j) (hd : DscoreOk rd { o with dscoreMode := yes } i j) (hr : runModeling liveDmosRunModeling rd o = .ok res) :
    Ranked Q res.qualityScores i j := by
  obtain ⟨res0, h0, hq⟩ := run_scores hr
  unfold liveDmosRunModeling at h0
  split at h0
  · cases h0
  · split at h0
    · cases h0
    · split at h0
      · cases h0
      · rename_i p hp
        cases h0
        obtain ⟨hE, hc', h'⟩ := preprocess_keeps hQ hp ha i j hd hc h
        rw [hq, post_plain h1 h2]
        have haff : ∀ x : Fl ℝ, NumOrNan x → (x + ((3 : Nat) : Fl ℝ)) * ((100 : Nat) : Fl ℝ) / ((6 : Nat) : Fl ℝ) = affine (50 / 3) 50 x := by
          rintro x (rfl | ⟨v, rfl⟩)
          · rfl
          · show Fl.fin (v + ((3 : ℕ) : ℝ)) * Fl.fin ((100 : ℕ) : ℝ) / Fl.fin ((6 : ℕ) : ℝ) = Fl.fin _
            show Fl.div (Fl.fin ((v + ((3 : ℕ) : ℝ)) * ((100 : ℕ) : ℝ))) (Fl.fin ((6 : ℕ) : ℝ)) = Fl.fin _
            have h6 : ((6 : ℕ) : ℝ) ≠ 0 := by norm_num
            rw [show Fl.div (Fl.fin ((v + ((3 : ℕ) : ℝ)) * ((100 : ℕ) : ℝ))) (Fl.fin ((6 : ℕ) : ℝ)) =
              Fl.fin ((v + ((3 : ℕ) : ℝ)) * ((100 : ℕ) : ℝ) / ((6 : ℕ) : ℝ)) from Fl.fin_div h6]
            congr 1
            push_cast
            ring
        refine ranked_ofFn hE hij fun e f he hf => mean_rated hQ ?_ ?_
        · intro e s r
          rw [haff _ (hc' e s r)]
          rcases hc' e s r with h | ⟨v, h⟩ <;> rw [h]
          · exact Or.inl rfl
          · exact Or.inr ⟨_, rfl⟩
        · intro s r
          rw [haff _ (hc' e s r), haff _ (hc' f s r)]
          exact rated_affine hQ (h' e f he hf s r) (by norm_num) _

open Ap in
theorem ap_ranked {sd : StdFormula} (hQ : Compat Q) (h1 : o.normalizeFinal = none) (h2 : o.transformFinal = none) (ha : rd.scores = .ok a)
    (hc : CleanVotes a) (hij : i < a.E ∧ j < a.E) (h : RatedAll Q a i j) (hd : DscoreOk rd o i j) (hr : runAPWith sd rd o = .ok res) : Ranked Q res.qualityScores i j := by
  obtain ⟨p, ft, hp, hf, hres⟩ := ap_run hr
  obtain ⟨hE, hc', h'⟩ := preprocess_keeps hQ hp ha i j hd hc h
  rw [hres]
  dsimp only
  rw [post_plain h1 h2]
  refine ranked_ofFn hE hij fun e f he hf' => ?_
  have hx := exists_mask p.arr.get hc'
  generalize hP : (fun j i r => !(p.arr.get j i r).isNan) = P at *
  have hP' : ∀ j i r, (!(p.arr.get j i r).isNan) = P j i r := fun j i r => congrFun (congrFun (congrFun hP j) i) r
  have hX : p.arr.get = maskX P fun j i r => (p.arr.get j i r).val?.getD 0 := by
    conv_lhs => rw [hx]
    funext j i r
    rw [hP']; rfl
  generalize (fun j i r => (p.arr.get j i r).val?.getD 0) = X at hX
  have hh := h' e f he hf'
  rw [hX] at hf hh
  obtain ⟨hv, hxq⟩ := mask_rated hh
  obtain ⟨hall, k, hs, hb⟩ := fit_seq P X ft hf
  have hsr : Rated Q (ft.s e) (ft.s f) := by
    rw [hs]
    exact maskS_rated hv fun hn => quality_rated hQ hv hxq hn _ _
  unfold centre
  split
  · dsimp only
    refine rated_add hQ hsr (mean_clean fun s => ?_)
    rw [hb]
    unfold maskB
    cases decide (votesOfObserver P s).Nonempty
    · exact Or.inl rfl
    · exact Or.inr ⟨_, rfl⟩
  · exact hsr

open Mle in
theorem mle_ranked {mode : Mode} {o : Mle.Opts ℝ} (hQ : Compat Q) (h1 : o.base.normalizeFinal = none) (h2 : o.base.transformFinal = none)
    (hg : o.gradientMethod = none ∨ o.gradientMethod = some "simplified") (ha : rd.scores = .ok a) (hc : CleanVotes a) (hij : i < a.E ∧ j < a.E) (h : RatedAll Q a i j)
    (hd : DscoreOk rd o.base i j) (hcid : mode = .contentOblivious ∨ SameContent rd.disVideos i j) (hr : Mle.run mode rd o = .ok res) :
    Ranked Q res.qualityScores i j := by
  obtain ⟨p, C, m, mos, cid, ft, dens, obs, hrun, hres⟩ := run_inv hr
  obtain ⟨hE, hc', h'⟩ := preprocess_keeps hQ hrun.hp ha i j hd hc h
  rw [hres]
  dsimp only
  rw [post_plain h1 h2]
  refine ranked_ofFn hE hij fun e f he hf => ?_
  have hm : m = .simplified := by
    have := hrun.hm
    unfold method at this
    rcases hg with hg | hg <;> rw [hg] at this
    · cases this; rfl
    · dsimp only at this
      rw [if_pos rfl] at this; cases this; rfl
  subst hm
  obtain ⟨u, hu, hl⟩ := fitArr_inv hrun.hf
  cases hu
  have hmos : ∀ e : Fin p.arr.E, ∃ e' : Fin a.E, e'.val = e.val ∧ (mos.qualityScores[e.val]?).getD .nan = meanAlongS a.get e' := by
    intro e
    refine ⟨⟨e.val, hE ▸ e.isLt⟩, rfl, ?_⟩
    rw [runMOS_default ha hrun.hmos]
    show ((List.ofFn (meanAlongS a.get))[e.val]?).getD .nan = _
    rw [List.getElem?_eq_getElem (by rw [List.length_ofFn, ← hE]; exact e.isLt), List.getElem_ofFn]
    rfl
  obtain ⟨hx, hb⟩ := loop_rated hQ hl hc' (fun s => Or.inr ⟨0, rfl⟩) (e := e) (f := f) (by
      refine hcid.imp id fun hs => ?_
      have hci := hrun.hcid
      unfold contentIndex at hci
      split at hci
      · rename_i hh
        cases hci
        dsimp only
        have hle : e.val < (contentIdOfDisVideos rd.disVideos).length := by rw [hh.1]; exact e.isLt
        have hlf : f.val < (contentIdOfDisVideos rd.disVideos).length := by rw [hh.1]; exact f.isLt
        have key : (contentIdOfDisVideos rd.disVideos)[e.val] = (contentIdOfDisVideos rd.disVideos)[f.val] := by
          unfold contentIdOfDisVideos at hle hlf ⊢
          rw [List.length_map] at hle hlf
          rw [List.getElem_map, List.getElem_map]
          exact hs _ _ (by rw [← he]; exact List.getElem?_eq_getElem hle) (by rw [← hf]; exact List.getElem?_eq_getElem hlf)
        exact Fin.ext (congrArg Int.toNat key)
      · cases hci) (h' e f he hf) (by
      obtain ⟨e', he', h3⟩ := hmos e
      obtain ⟨f', hf', h4⟩ := hmos f
      show Rated Q ((mos.qualityScores[e.val]?).getD .nan) ((mos.qualityScores[f.val]?).getD .nan)
      rw [h3, h4]
      exact mean_rated hQ hc (h e' f' (he'.trans he) (hf'.trans hf)))
  exact centre_rated hQ _ hx hb

open Legacy in
theorem legacy_ranked {o : Legacy.Opts ℝ} (hQ : Compat Q) (h1 : o.base.normalizeFinal = none) (h2 : o.base.transformFinal = none)
    (ha : rd.scores = .ok a) (hc : CleanVotes a) (hij : i < a.E ∧ j < a.E) (h : RatedAll Q a i j) (hd : DscoreOk rd o.base i j) (hr : runLegacy rd o = .ok res) :
    Ranked Q res.qualityScores i j := by
  obtain ⟨res0, h0, hq⟩ := run_scores hr
  unfold runModelingWith at h0
  split at h0
  · cases h0
  · split at h0
    · cases h0
    · rename_i p hp
      obtain ⟨hE, hc', h'⟩ := preprocess_keeps hQ hp ha i j hd hc h
      split at h0
      · rename_i hR
        dsimp only at h0
        split at h0
        · cases h0
        · rename_i t ht
          cases h0
          rw [hq, post_plain h1 h2]
          refine ranked_ofFn hE hij fun e f he hf => ?_
          obtain ⟨hx, hb⟩ := legacy_rated hQ (fun e s => hc' e s _) (fun s => h' e f he hf s _) _ 0 rfl ht (fun s => Or.inr ⟨0, rfl⟩) (by
            show Rated Q (Np.nanmean (rowL _ e)) (Np.nanmean (rowL _ f))
            rw [rowL_map, rowL_map]
            exact nanmean_rated hQ _ fun s => h' e f he hf s _)
          unfold centre
          split
          · dsimp only
            refine rated_add hQ hx ?_
            rw [nanmean_spec (Np.clean_ofFn.mpr hb)]
            unfold meanOrNan
            split
            · exact Or.inl rfl
            · exact Or.inr ⟨_, rfl⟩
          · exact hx
      · cases h0

end

/-! ## C142 -/

/-- **C142** (partial: the two videos were rated by the same observers, and are of the same content if the model looks at contents).  If every vote
on a video is at most as high as (lower than, the same as) the vote of the same observer in the same repetition on another video, and a model runs
to the end on these votes, then it scores the first video at most as high as (lower than, the same as) the second.  Missing: observers who rated
one of the videos only (`C142_missing_refuted`); models with contents or differential scores on videos of different contents
(`C142_contents_refuted`). -/
theorem C142_models_partial (hQ : IsComparison Q) {T : String} {run : Reader κ ℝ → Py (Result κ ℝ)} (hT : (T, run) ∈ runsByName)
    {rd : Reader κ ℝ} {a : Arr3D (Fl ℝ)} (ha : rd.scores = .ok a) (hc : CleanVotes a) {i j : ℕ} (hij : i < a.E ∧ j < a.E) (h : RatedAll Q a i j)
    (hcon : T ∈ contentFree ∨ SameContent rd.disVideos i j ∧ SameContent rd.dataset.disVideos i j ∧
      ∀ x, rd.dataset.refScore = some (some x) → NumOrNan x) {res : Result κ ℝ} (hr : run rd = .ok res) : Ranked Q res.qualityScores i j := by
  have hQ' := compat hQ
  have d0 : ∀ o : Opts ℝ, o.dscoreMode = none → DscoreOk rd o i j := by
    intro o ho hd
    rw [ho] at hd
    cases hd
  have d1 : T ∉ contentFree → ∀ o : Opts ℝ, DscoreOk rd o i j := fun hn o _ => (hcon.resolve_left hn).elim fun _ h => ⟨h.2, h.1⟩
  have c1 : T ∉ contentFree → SameContent rd.disVideos i j := fun hn => (hcon.resolve_left hn).1
  clear hcon
  simp only [runsByName, List.mem_cons, Prod.mk.injEq, List.not_mem_nil, or_false] at hT
  rcases hT with ⟨rfl, rfl⟩ | ⟨rfl, rfl⟩ | ⟨rfl, rfl⟩ | ⟨rfl, rfl⟩ | ⟨rfl, rfl⟩ | ⟨rfl, rfl⟩ | ⟨rfl, rfl⟩ | ⟨rfl, rfl⟩ | ⟨rfl, rfl⟩ |
    ⟨rfl, rfl⟩ | ⟨rfl, rfl⟩ | ⟨rfl, rfl⟩ | ⟨rfl, rfl⟩ | ⟨rfl, rfl⟩ | ⟨rfl, rfl⟩ | ⟨rfl, rfl⟩ | ⟨rfl, rfl⟩ | ⟨rfl, rfl⟩ | ⟨rfl, rfl⟩ |
    ⟨rfl, rfl⟩ | ⟨rfl, rfl⟩ | ⟨rfl, rfl⟩ | ⟨rfl, rfl⟩ | ⟨rfl, rfl⟩ | ⟨rfl, rfl⟩ | ⟨rfl, rfl⟩ | ⟨rfl, rfl⟩
  · exact mos_ranked hQ' rfl rfl ha hc hij h (d0 _ rfl) hr
  · exact mos_ranked hQ' rfl rfl ha hc hij h (d1 (by decide +kernel) _) hr
  · exact live_ranked hQ' rfl rfl ha hc hij h (d1 (by decide +kernel) _) hr
  · exact mos_ranked hQ' rfl rfl ha hc hij h (d0 _ rfl) hr
  · exact mos_ranked hQ' rfl rfl ha hc hij h (d0 _ rfl) hr
  · exact mos_ranked hQ' rfl rfl ha hc hij h (d0 _ rfl) hr
  · exact mos_ranked hQ' rfl rfl ha hc hij h (d0 _ rfl) hr
  · exact mos_ranked hQ' rfl rfl ha hc hij h (d0 _ rfl) hr
  · exact mos_ranked hQ' rfl rfl ha hc hij h (d1 (by decide +kernel) _) hr
  · exact mos_ranked hQ' rfl rfl ha hc hij h (d1 (by decide +kernel) _) hr
  · exact biasremv_ranked hQ' rfl rfl ha hc hij h (d0 _ rfl) hr
  · exact biasremv_ranked hQ' rfl rfl ha hc hij h (d0 _ rfl) hr
  · exact biasremv_ranked hQ' rfl rfl ha hc hij h (d0 _ rfl) hr
  · exact biasremv_ranked hQ' rfl rfl ha hc hij h (d0 _ rfl) hr
  · exact mos_ranked hQ' rfl rfl ha hc hij h (d0 _ rfl) hr
  · exact biasremv_ranked hQ' rfl rfl ha hc hij h (d0 _ rfl) hr
  · exact ap_ranked hQ' rfl rfl ha hc hij h (d0 _ rfl) hr
  · exact ap_ranked hQ' rfl rfl ha hc hij h (d0 _ rfl) hr
  · exact ap_ranked hQ' rfl rfl ha hc hij h (d0 _ rfl) hr
  · exact ap_ranked hQ' rfl rfl ha hc hij h (d0 _ rfl) hr
  · exact ap_ranked hQ' rfl rfl ha hc hij h (d0 _ rfl) hr
  · exact mle_ranked hQ' rfl rfl (Or.inl rfl) ha hc hij h (d0 _ rfl) (Or.inr (c1 (by decide +kernel))) hr
  · exact mle_ranked hQ' rfl rfl (Or.inl rfl) ha hc hij h (d0 _ rfl) (Or.inl rfl) hr
  · exact mle_ranked hQ' rfl rfl (Or.inl rfl) ha hc hij h (d0 _ rfl) (Or.inr (c1 (by decide +kernel))) hr
  · refine mle_ranked (o := { base := { dscoreMode := yes } }) hQ' rfl rfl (Or.inl rfl) ha hc hij h (d1 (by decide +kernel) _)
      (Or.inr (c1 (by decide +kernel))) hr
  · refine mle_ranked (o := { base := { dscoreMode := yes } }) hQ' rfl rfl (Or.inl rfl) ha hc hij h (d1 (by decide +kernel) _)
      (Or.inr (c1 (by decide +kernel))) hr
  · exact legacy_ranked hQ' rfl rfl ha hc hij h (d0 _ rfl) hr

section program
open Routine Format
variable {κ : Type} [LinearOrder κ] {d : Dataset κ ℝ}

/-- every vote of an observer on a video compares with the vote in the same repetition on another one -/
def VotesRated (Q : ℝ → ℝ → Prop) (d : Dataset κ ℝ) (dv dv' : DisVideo κ ℝ) : Prop :=
  ∀ w, IsObserver d w → ∀ r : ℕ, Rated Q (((votesBy dv w)[r]?).getD .nan) (((votesBy dv' w)[r]?).getD .nan)

theorem rated_cells (h : Readable d) {rd : Reader κ ℝ} {a : Arr3D (Fl ℝ)} (hrd : rawReader d = .ok rd) (ha : rd.scores = .ok a) {i j : ℕ}
    {dv dv' : DisVideo κ ℝ} (hi : d.disVideos[i]? = some dv) (hj : d.disVideos[j]? = some dv') (hv : VotesRated Q d dv dv') : RatedAll Q a i j := by
  obtain ⟨-, -, hcell, -⟩ := cells_of h hrd ha
  rintro e f rfl rfl s r
  obtain ⟨w, hw, hcw⟩ := hcell s
  rw [(hcw e dv hi).2 r, (hcw f dv' hj).2 r]
  exact hv w hw r.val

variable {ppf : Fl ℝ → ℕ → Fl ℝ} {other : ModelClass → Reader κ ℝ → Py (Result κ ℝ)} {pc : List ModelClass → Py (Output (String ⊕ κ) (Fl ℝ))}
  {path : List Char} {readPy readJson : Py (Dataset κ ℝ)}

/-- **C142** (partial: as for the models).  The numbers the program writes: if the program succeeds and every observer rated a video at most as high
as (lower than, the same as) another, then in the output every model that was asked for has a quality score for either video, and they compare in
the same way, or are NaN both. -/
theorem C142_program_partial (hQ : IsComparison Q) {models : List String} (hnd : models.Nodup)
    (hm : ∀ T ∈ models, ∃ run, (T, run) ∈ (runsByName : List (String × (Reader κ ℝ → Py (Result κ ℝ))))) {out : Output (String ⊕ κ) (Fl ℝ)}
    (hout : main ppf other pc path readPy readJson models = .ok out) (hl : Loads path readPy readJson d) (h : Readable d) {i j : ℕ}
    {dv dv' : DisVideo κ ℝ} (hi : d.disVideos[i]? = some dv) (hj : d.disVideos[j]? = some dv') (hv : VotesRated Q d dv dv') {T : String}
    (hT : T ∈ models) (hcon : T ∈ contentFree ∨ dv.contentId = dv'.contentId ∧ ∀ x, d.refScore = some (some x) → NumOrNan x) :
    ∃ x y, numberIn out.disVideos i T "quality_score" = some (.one x) ∧ numberIn out.disVideos j T "quality_score" = some (.one y) ∧ Rated Q x y := by
  obtain ⟨d', rd, hl', hrd, hres⟩ := C117_any hnd (List.ne_nil_of_mem hT) hm hout
  have hdd : d' = d := by
    have h1 := (loads_read hl).2
    have h2 := (loads_read hl').2
    rw [h1] at h2
    cases h2
    rfl
  subst hdd
  obtain ⟨rd', a, hrd', hdv, ha, hE, hc, -⟩ := reads h
  rw [hrd] at hrd'
  cases hrd'
  have hds : rd.dataset = d' := by
    obtain ⟨-, rfl⟩ := Mock.rawReader_inv hrd
    rfl
  obtain ⟨run, hrun⟩ := hm T hT
  obtain ⟨r, hr, hnum⟩ := hres T run hT hrun
  have hsame : dv.contentId = dv'.contentId → SameContent d'.disVideos i j := by
    intro hcc x y hx hy
    rw [hi] at hx
    rw [hj] at hy
    cases hx
    cases hy
    exact hcc
  obtain ⟨x, y, hx, hy, hxy⟩ := C142_models_partial hQ hrun ha hc
    ⟨by rw [hE]; exact (List.getElem?_eq_some_iff.mp hi).1, by rw [hE]; exact (List.getElem?_eq_some_iff.mp hj).1⟩
    (rated_cells h hrd ha hi hj hv) (hcon.imp id fun hh => by rw [hds, hdv]; exact ⟨hsame hh.1, hsame hh.1, hh.2⟩) hr
  exact ⟨x, y, by rw [(hnum i).1, hx]; rfl, by rw [(hnum j).1, hy]; rfl, hxy⟩

end program

/-! ## where unanimity does not decide -/

section examples
open Routine Format

/-- two observers; the first rates both videos, the second rates the second video only -/
def exOneSided : Dataset String ℝ :=
  { refVideos := [⟨0, "r0", []⟩]
    disVideos := [
      { contentId := 0, assetId := 0, path := "r0", os := some (.seq false [.one (.fin 2), .one .nan]) },
      { contentId := 0, assetId := 1, path := "d1", os := some (.seq false [.one (.fin 1), .one (.fin 5)]) }] }

/-- two contents, each with its reference; the reference of the first is rated much better -/
def exContents : Dataset String ℝ :=
  { refVideos := [⟨0, "r0", []⟩, ⟨1, "r1", []⟩]
    refScore := some (some (.fin 5))
    disVideos := [
      { contentId := 0, assetId := 0, path := "r0", os := some (.seq false [.one (.fin 5), .one (.fin 5)]) },
      { contentId := 0, assetId := 1, path := "d0", os := some (.seq false [.one (.fin 4), .one (.fin 4)]) },
      { contentId := 1, assetId := 2, path := "r1", os := some (.seq false [.one (.fin 2), .one (.fin 2)]) },
      { contentId := 1, assetId := 3, path := "d1", os := some (.seq false [.one (.fin 3), .one (.fin 3)]) }] }

theorem exOneSided_readable : Readable exOneSided where
  wf := by
    refine ⟨by simp [exOneSided], by simp [exOneSided], by simp [exOneSided], by simp [exOneSided], ?_, ?_⟩
    · intro dv hdv
      simp only [exOneSided, List.mem_cons, List.not_mem_nil, or_false] at hdv
      rcases hdv with rfl | rfl <;> exact ⟨_, rfl, by simp⟩
    · intro d0 h0 _ dv hdv
      simp only [exOneSided, List.head?_cons, Option.some.injEq] at h0
      subst h0
      simp only [exOneSided, List.mem_cons, List.not_mem_nil, or_false] at hdv
      rcases hdv with rfl | rfl <;> rfl
  style := by
    left
    intro dv hdv
    simp only [exOneSided, List.mem_cons, List.not_mem_nil, or_false] at hdv
    rcases hdv with rfl | rfl <;> exact ⟨_, _, rfl⟩
  single := by
    intro dv hdv xs hx
    simp only [exOneSided, List.mem_cons, List.not_mem_nil, or_false] at hdv
    rcases hdv with rfl | rfl <;> simp [entries] at hx
  clean := by
    intro dv hdv x hx
    simp only [exOneSided, List.mem_cons, List.not_mem_nil, or_false] at hdv
    rcases hdv with rfl | rfl <;> simp [videoVotes, entries, votesOf] at hx <;> rcases hx with rfl | rfl <;>
      first | exact Or.inr ⟨_, rfl⟩ | exact Or.inl rfl

theorem exContents_readable : Readable exContents where
  wf := by
    refine ⟨by simp [exContents], by simp [exContents], by simp [exContents], by simp [exContents], ?_, ?_⟩
    · intro dv hdv
      simp only [exContents, List.mem_cons, List.not_mem_nil, or_false] at hdv
      rcases hdv with rfl | rfl | rfl | rfl <;> exact ⟨_, rfl, by simp⟩
    · intro d0 h0 _ dv hdv
      simp only [exContents, List.head?_cons, Option.some.injEq] at h0
      subst h0
      simp only [exContents, List.mem_cons, List.not_mem_nil, or_false] at hdv
      rcases hdv with rfl | rfl | rfl | rfl <;> rfl
  style := by
    left
    intro dv hdv
    simp only [exContents, List.mem_cons, List.not_mem_nil, or_false] at hdv
    rcases hdv with rfl | rfl | rfl | rfl <;> exact ⟨_, _, rfl⟩
  single := by
    intro dv hdv xs hx
    simp only [exContents, List.mem_cons, List.not_mem_nil, or_false] at hdv
    rcases hdv with rfl | rfl | rfl | rfl <;> simp [entries] at hx
  clean := by
    intro dv hdv x hx
    simp only [exContents, List.mem_cons, List.not_mem_nil, or_false] at hdv
    rcases hdv with rfl | rfl | rfl | rfl <;> simp [videoVotes, entries, votesOf] at hx <;> subst hx <;> exact Or.inr ⟨_, rfl⟩

variable {ppf : Fl ℝ → ℕ → Fl ℝ} {other : ModelClass → Reader String ℝ → Py (Result String ℝ)}
  {pc : List ModelClass → Py (Output (String ⊕ String) (Fl ℝ))}

/-- **C142** refuted for videos that were not rated by the same observers: the one observer who rated both videos prefers the first, the program
with the model MOS scores it lower, 2 against 3 -/
theorem C142_missing_refuted : Readable exOneSided ∧
    (∃ dv dv', exOneSided.disVideos = [dv, dv'] ∧ (∀ w (r : ℕ) (u v : ℝ), (votesBy dv w)[r]? = some (.fin u) → (votesBy dv' w)[r]? = some (.fin v) → v < u) ∧
      votesBy dv (.inr 0) = [.fin 2] ∧ votesBy dv' (.inr 0) = [.fin 1]) ∧
    ∃ out, main ppf other pc "scores.py".toList (.ok exOneSided) (.error .assertion) ["MOS"] = .ok out ∧
      numberIn out.disVideos 0 "MOS" "quality_score" = some (.one (.fin 2)) ∧ numberIn out.disVideos 1 "MOS" "quality_score" = some (.one (.fin 3)) := by
  refine ⟨exOneSided_readable, ⟨_, _, rfl, ?_, rfl, rfl⟩, ?_⟩
  · rintro (o | n) r u v hu hv
    · cases hu
    · match n with
      | 0 =>
        match r with
        | 0 =>
          cases hu
          cases hv
          norm_num
        | r + 1 => cases hu
      | 1 =>
        match r with
        | 0 => cases hu
        | r + 1 => cases hu
      | n + 2 => cases hu
  · obtain ⟨out, ho, -, -, -, hn⟩ := (C117_mos (ppf := ppf) (other := other) (pc := pc) exOneSided_readable (ex_loads _)).1 (by decide)
    refine ⟨out, ho, ?_, ?_⟩
    · rw [(hn 0 _ rfl).2.1]
      show some (Cell.one (Fl.fin (Spec.mean [(2 : ℝ)]))) = _
      norm_num [Spec.mean]
    · rw [(hn 1 _ rfl).2.1]
      show some (Cell.one (Fl.fin (Spec.mean [(1 : ℝ), 5]))) = _
      norm_num [Spec.mean]

theorem exContents_rated : VotesRated (· < ·) exContents
    { contentId := 1, assetId := 3, path := "d1", os := some (.seq false [.one (.fin 3), .one (.fin 3)]) }
    { contentId := 0, assetId := 1, path := "d0", os := some (.seq false [.one (.fin 4), .one (.fin 4)]) } := by
  rintro (o | n) - r
  · exact Or.inl ⟨rfl, rfl⟩
  · match n with
    | 0 | 1 =>
      match r with
      | 0 => exact Or.inr ⟨3, 4, rfl, rfl, by norm_num⟩
      | r + 1 => exact Or.inl ⟨rfl, rfl⟩
    | n + 2 => exact Or.inl ⟨rfl, rfl⟩

/-- **C142** refuted for differential scores on videos of different contents: all observers rate `d1` lower than `d0`, 3 against 4; as the reference
of `d1` was rated lower still, its differential score is higher, 6 against 4 -/
theorem C142_contents_refuted : Readable exContents ∧ ∃ (rd : Reader String ℝ) (a : Arr3D (Fl ℝ)) (res : Result String ℝ),
    rawReader exContents = .ok rd ∧ rd.scores = .ok a ∧ CleanVotes a ∧ RatedAll (· < ·) a 3 1 ∧ runDMOS rd {} = .ok res ∧
    res.qualityScores[3]? = some (.fin 6) ∧ res.qualityScores[1]? = some (.fin 4) := by
  obtain ⟨rd, a, hrd, hdv, ha, hE, hc, hp, -⟩ := reads exContents_readable
  have hr0 : RefFor exContents.refVideos 0 ⟨0, "r0", []⟩ := ⟨[], [⟨1, "r1", []⟩], rfl, rfl, by decide⟩
  have hr1 : RefFor exContents.refVideos 1 ⟨1, "r1", []⟩ := ⟨[⟨0, "r0", []⟩], [], rfl, rfl, by decide⟩
  have h0 : HiddenRef exContents 0 0 := ⟨_, _, rfl, rfl, hr0, rfl⟩
  have h1 : HiddenRef exContents 1 2 := ⟨_, _, rfl, rfl, hr1, rfl⟩
  have u0 : ∀ j, HiddenRef exContents 0 j → j = 0 := by
    rintro j ⟨dv, r, hj, hc, hr, hp⟩
    rw [refFor_unique hr hr0] at hp
    match j with
    | 0 => rfl
    | 1 => cases hj; exact absurd hp (by decide)
    | 2 => cases hj; exact absurd hp (by decide)
    | 3 => cases hj; exact absurd hp (by decide)
    | j + 4 => cases hj
  have u1 : ∀ j, HiddenRef exContents 1 j → j = 2 := by
    rintro j ⟨dv, r, hj, hc, hr, hp⟩
    rw [refFor_unique hr hr1] at hp
    match j with
    | 0 => cases hj; exact absurd hp (by decide)
    | 1 => cases hj; exact absurd hp (by decide)
    | 2 => rfl
    | 3 => cases hj; exact absurd hp (by decide)
    | j + 4 => cases hj
  obtain ⟨res, hres, -, hq⟩ := (C13_dscore exContents rd hrd a ha hc 5 rfl).1 (by
    intro dv hdv
    simp only [exContents, List.mem_cons, List.not_mem_nil, or_false] at hdv
    rcases hdv with rfl | rfl | rfl | rfl
    · exact ⟨0, h0, u0⟩
    · exact ⟨0, h0, u0⟩
    · exact ⟨2, h1, u1⟩
    · exact ⟨2, h1, u1⟩)
  have h4 : a.E = 4 := hE
  have hm : ∀ (e : Fin a.E) dv, exContents.disVideos[e.val]? = some dv → meanOrNan (videoCells a.get e) = meanOrNan (videoVotes dv) :=
    fun e dv h => meanOrNan_perm (hp e dv h)
  refine ⟨exContents_readable, rd, a, res, hrd, ha, hc, rated_cells exContents_readable hrd ha rfl rfl exContents_rated, hres, ?_, ?_⟩
  · have := (hq ⟨3, by omega⟩ ⟨2, by omega⟩ _ rfl h1).1
    rw [hm ⟨3, by omega⟩ _ rfl, hm ⟨2, by omega⟩ _ rfl] at this
    rw [this]
    show some (Fl.fin (Spec.mean [(3 : ℝ), 3] + 5 - Spec.mean [(2 : ℝ), 2])) = _
    norm_num [Spec.mean]
  · have := (hq ⟨1, by omega⟩ ⟨0, by omega⟩ _ rfl h0).1
    rw [hm ⟨1, by omega⟩ _ rfl, hm ⟨0, by omega⟩ _ rfl] at this
    rw [this]
    show some (Fl.fin (Spec.mean [(4 : ℝ), 4] + 5 - Spec.mean [(5 : ℝ), 5])) = _
    norm_num [Spec.mean]

/-- the hypotheses are met: both observers of `exComplete` rate the second video lower, and the program with MOS, BT500, P913 and P910 succeeds on it -/
theorem exComplete_rated : VotesRated (· < ·) exComplete
    { contentId := 0, assetId := 1, path := "d1", os := some (.seq false [.one (.fin 2), .one (.fin 3)]) }
    { contentId := 0, assetId := 0, path := "r0", os := some (.seq false [.one (.fin 5), .one (.fin 4)]) } := by
  rintro (o | n) - r
  · exact Or.inl ⟨rfl, rfl⟩
  · match n with
    | 0 =>
      match r with
      | 0 => exact Or.inr ⟨2, 5, rfl, rfl, by norm_num⟩
      | r + 1 => exact Or.inl ⟨rfl, rfl⟩
    | 1 =>
      match r with
      | 0 => exact Or.inr ⟨3, 4, rfl, rfl, by norm_num⟩
      | r + 1 => exact Or.inl ⟨rfl, rfl⟩
    | n + 2 => exact Or.inl ⟨rfl, rfl⟩

example : IsComparison ((· < ·) : ℝ → ℝ → Prop) ∧ Readable exComplete ∧
    ∃ out, main ppf other pc "scores.py".toList (.ok exComplete) (.error .assertion) ["MOS", "P910"] = .ok out ∧
      ∀ T ∈ ["MOS", "P910"], ∃ x y, numberIn out.disVideos 1 T "quality_score" = some (.one x) ∧
        numberIn out.disVideos 0 T "quality_score" = some (.one y) ∧ Rated (· < ·) x y := by
  obtain ⟨out, ho⟩ := C118_succeeds_partial (ppf := ppf) (other := other) (pc := pc) (models := ["MOS", "P910"]) (by decide +kernel) (by simp)
    exComplete_readable (ex_loads _) (by
      intro dv hdv
      have := exComplete_votes.2.1 dv hdv
      intro h
      rw [h] at this
      simp at this) exComplete_votes.2.2
  refine ⟨Or.inr (Or.inl rfl), exComplete_readable, out, ho, fun T hT => ?_⟩
  exact C142_program_partial (Or.inr (Or.inl rfl)) (by simp) (by
      intro T hT
      simp only [List.mem_cons, List.not_mem_nil, or_false] at hT
      rcases hT with rfl | rfl
      · exact ⟨_, List.mem_cons_self⟩
      · exact ⟨(runAP2 · {}), by simp [runsByName]⟩) ho (ex_loads _) exComplete_readable rfl rfl exComplete_rated hT (Or.inl (by
      simp only [List.mem_cons, List.not_mem_nil, or_false] at hT
      rcases hT with rfl | rfl <;> decide +kernel))

end examples

end Sureal.Props
