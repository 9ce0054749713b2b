import Verif.Props.CiScript
/-!
# C135: what the script that checks confidence intervals prints (`resource/script/run_synthetic_validate_ci.py`)
-/
set_option linter.unusedSectionVars false
namespace Sureal.Props
open Sureal Spec Mock Routine CiScript Lemmas MeasureTheory ProbabilityTheory
open scoped NNReal ENNReal
variable {κ σ : Type} [LinearOrder κ]

/-- **C135, the seeds do not interfere.** Each of the dicts collected in the loop over the seeds is the one that a single call with this seed
returns, whatever was drawn before. -/
theorem C135_isolated {g : Gen σ ℝ} {dataset : Py (Dataset κ ℝ)} {classes : List (ModelClass σ κ ℝ)} {mode : String} {ks : List Int} {s : σ}
    {res : List (Ret κ ℝ) × σ} (h : overSeeds g dataset classes mode ks s = .ok res) :
    List.Forall₂ (fun k r => ∀ s', ∃ s'', wrapper g dataset classes { seed := some k, truth := .str mode } s' = .ok (r, s'')) ks res.1 := by
  induction ks generalizing s res with
  | nil => cases h; exact .nil
  | cons k ks ih =>
    unfold overSeeds at h
    split at h
    · cases h
    rename_i r hr
    split at h
    · cases h
    rename_i rest hrest
    cases h
    exact .cons (fun s' => ⟨r.2, hr⟩) (ih hrest)

theorem overSeeds_fwd {g : Gen σ ℝ} {dataset : Py (Dataset κ ℝ)} {classes : List (ModelClass σ κ ℝ)} {mode : String} {ks : List Int} {s : σ}
    (h : ∀ k ∈ ks, ∀ s, ∃ r, wrapper g dataset classes { seed := some k, truth := .str mode } s = .ok r) :
    ∃ res, overSeeds g dataset classes mode ks s = .ok res := by
  induction ks generalizing s with
  | nil => exact ⟨_, rfl⟩
  | cons k ks ih =>
    obtain ⟨r, hr⟩ := h k List.mem_cons_self s
    obtain ⟨rest, hrest⟩ := ih (s := r.2) fun k hk => h k (List.mem_cons_of_mem _ hk)
    unfold overSeeds
    rw [hr]
    dsimp only
    rw [hrest]
    exact ⟨_, rfl⟩

theorem mapPy_forall₂ {α β : Type} {f : α → Py β} {l : List α} {l' : List β} (h : mapPy f l = .ok l') : List.Forall₂ (fun a b => f a = .ok b) l l' := by
  induction l generalizing l' with
  | nil => cases h; exact .nil
  | cons x l ih =>
    unfold mapPy at h
    split at h
    · cases h
    rename_i y hy
    split at h
    · cases h
    rename_i ys hys
    cases h
    exact .cons hy (ih hys)

/-- the percentages of single calls, and their mean -/
def CiReports (g : Gen σ ℝ) (dataset : Py (Dataset κ ℝ)) (cls : ModelClass σ κ ℝ) (mode ty : String) (field : Checked κ ℝ → Option (Fl ℝ))
    (r : Report ℝ) : Prop :=
  r.perSeed.length = 10 ∧ r.average = Np.mean r.perSeed ∧
  ∀ k : ℕ, k < 10 → ∃ ret c x, (∀ s', ∃ s'', wrapper g dataset [cls] { seed := some (k : ℤ), truth := .str mode } s' = .ok (ret, s'')) ∧
    ret.validation.results.lookup ty = some c ∧ field c = some x ∧ r.perSeed[k]? = some x

theorem report_spec {g : Gen σ ℝ} {dataset : Py (Dataset κ ℝ)} {cls : ModelClass σ κ ℝ} {mode ty : String} {field : Checked κ ℝ → Option (Fl ℝ)} {s : σ}
    {rets : List (Ret κ ℝ) × σ} {r : Report ℝ} (hrets : overSeeds g dataset [cls] mode seeds s = .ok rets)
    (hr : report ty field rets.1 = .ok r) : CiReports g dataset cls mode ty field r := by
  have h1 := C135_isolated hrets
  unfold report at hr
  split at hr
  · cases hr
  rename_i l hl
  cases hr
  have h2 := mapPy_forall₂ hl
  have hlen : l.length = 10 := by
    rw [← h2.length_eq, ← h1.length_eq]
    rfl
  refine ⟨hlen, rfl, fun k hk => ?_⟩
  have hk1 : k < seeds.length := hk
  have hk2 : k < rets.1.length := by rw [← h1.length_eq]; exact hk
  have hk3 : k < l.length := by omega
  have e1 := h1.get hk1 hk2
  have e2 := h2.get hk2 hk3
  simp only [List.get_eq_getElem] at e1 e2
  have hsk : seeds[k] = (k : ℤ) := by simp [seeds]
  rw [hsk] at e1
  unfold readPerc at e2
  split at e2
  · cases e2
  rename_i c hc
  split at e2
  · cases e2
  rename_i x hx
  cases e2
  exact ⟨_, c, l[k], e1, hc, hx, List.getElem?_eq_getElem hk3⟩

/-- **C135, what is printed for the MOS model.** For each of the seeds 0 to 9 the percentage of scores that a single call with this seed returns for the
type 'MOS' in the mode 'quality_ambiguity', and the mean of the ten percentages. -/
theorem C135_report {g : Gen σ ℝ} {dataset : Py (Dataset κ ℝ)} {mos : ModelClass σ κ ℝ} {s : σ} {res : Report ℝ × σ}
    (h : runMos g dataset mos s = .ok res) : CiReports g dataset mos "quality_ambiguity" "MOS" Checked.qualityPerc res.1 := by
  unfold runMos at h
  split at h
  · cases h
  rename_i rets hrets
  split at h
  · cases h
  rename_i r hr
  cases h
  exact report_spec hrets hr

/-- **C135, what is printed for the maximum likelihood model.** Likewise for the type 'MLE_CO' in the mode 'observer_only', for scores, biases and
inconsistencies. -/
theorem C135_report_mleco {g : Gen σ ℝ} {dataset : Py (Dataset κ ℝ)} {mleco : ModelClass σ κ ℝ} {s : σ} {res : (Report ℝ × Report ℝ × Report ℝ) × σ}
    (h : runMleco g dataset mleco s = .ok res) :
    CiReports g dataset mleco "observer_only" "MLE_CO" Checked.qualityPerc res.1.1 ∧
    CiReports g dataset mleco "observer_only" "MLE_CO" Checked.biasPerc res.1.2.1 ∧
    CiReports g dataset mleco "observer_only" "MLE_CO" Checked.inconsistencyPerc res.1.2.2 := by
  unfold runMleco at h
  split at h
  · cases h
  rename_i rets hrets
  split at h
  · cases h
  rename_i q hq
  split at h
  · cases h
  rename_i b hb
  split at h
  · cases h
  rename_i i hi
  cases h
  exact ⟨report_spec hrets hq, report_spec hrets hb, report_spec hrets hi⟩

/-- a dataset for which the true values drawn by the script have the right sizes -/
structure Nflx (d : Dataset κ ℝ) : Prop where
  raw : ∃ rd, rawReader d = .ok rd
  style : (∀ dv ∈ d.disVideos, SeqStyle dv) ∨ (∀ dv ∈ d.disVideos, DictStyle dv)
  contents : ∀ dv ∈ d.disVideos, 0 ≤ dv.contentId ∧ dv.contentId < d.refVideos.length
  videos : d.disVideos.length = 79
  refs : d.refVideos.length = 9

/-- the class `MosModel` -/
noncomputable def mosClass : ModelClass σ κ ℝ := ⟨"MosModel", "MOS", fun _ => (Modelled.once mosFit).st⟩

/-- the number of the draw from which the vote of observer `s` on video `e` is made -/
def drawOf (e s : ℕ) : ℕ := 2 * (79 * 30) + (e * 30 + s)

/-- the true values of the mode 'quality_ambiguity' -/
def truthOf (q phi : List ℝ) : SynthKw ℝ :=
  synthKw q (List.replicate 30 0) (List.replicate 30 0) (List.replicate 9 0) (List.replicate 9 0) (some phi)

theorem ofFn_cast {α : Type} {n m : ℕ} (h : n = m) (f : ℕ → α) : List.ofFn (fun e : Fin n => f e) = List.ofFn (fun e : Fin m => f e) := by
  subst h; rfl

open Classical in
theorem card_cast {n m : ℕ} (h : n = m) (p : ℕ → Prop) : (Finset.univ.filter fun e : Fin n => p e).card = (Finset.univ.filter fun e : Fin m => p e).card := by
  subst h; rfl

theorem vote_known {d : Dataset κ ℝ} (hd : Nflx d) {q phi : List ℝ} (hphi : phi.length = 79) (z : ℕ → ℝ)
    {e s : ℕ} (he : e < 79) (hs : s < 30) :
    voteOf d q (List.replicate 30 0) (List.replicate 30 0) (List.replicate 9 0) (List.replicate 9 0) (some phi) z e s =
      q.getD e 0 + phi.getD e 0 * z (drawOf e s) := by
  have hed : e < d.disVideos.length := by rw [hd.videos]; exact he
  have hcd := hd.contents _ (List.getElem_mem hed)
  have hcn : (d.disVideos[e]).contentId.toNat < 9 := by have := hd.refs; omega
  unfold voteOf drawOf
  have hep : e < phi.length := by omega
  have h0 : ∀ n i, (List.replicate n (0 : ℝ)).getD i 0 = 0 := by
    intro n i
    rw [List.getD_eq_getElem?_getD, List.getElem?_replicate]
    split <;> rfl
  dsimp only
  rw [h0, h0, List.length_replicate, hd.videos]
  simp [ambiguityOf]

theorem mean_affine {n : ℕ} (hn : n ≠ 0) (a b : ℝ) (f : Fin n → ℝ) : mean (List.ofFn fun i => a + b * f i) = a + b * mean (List.ofFn f) := by
  have hn0 : (n : ℝ) ≠ 0 := Nat.cast_ne_zero.mpr hn
  unfold mean
  rw [List.sum_ofFn, List.sum_ofFn, List.length_ofFn, List.length_ofFn, Finset.sum_add_distrib, ← Finset.mul_sum]
  simp only [Finset.sum_const, Finset.card_univ, Fintype.card_fin, nsmul_eq_mul]
  field_simp

open Classical in
/-- the MOS model on votes made from true values of the mode 'quality_ambiguity', from the state `s` on -/
theorem mos_known (g : Gen σ ℝ) {d : Dataset κ ℝ} (hd : Nflx d) {q phi : List ℝ} (hq : q.length = 79) (hphi : phi.length = 79) (s : σ) :
    ∃ v s' c, validateSt g .normal none [("MOS", (Modelled.once mosFit).st)] (.ok d) (truthOf q phi) none false s = .ok (v, s') ∧
      v.results.lookup "MOS" = some c ∧
      c.fit.res.qualityScores = List.ofFn (fun e : Fin 79 => Fl.fin (q.getD e 0 + phi.getD e 0 * mean (List.ofFn fun i : Fin 30 => g.normal s (drawOf e i)))) ∧
      ((∀ x ∈ phi, 0 < x) → c.qualityPerc =
        some (.fin (100 * ((Finset.univ.filter fun e : Fin 79 => near 1.95996 0 fun i : Fin 30 => g.normal s (drawOf e i)).card : ℝ) / 79))) := by
  obtain ⟨rd, hraw⟩ := hd.raw
  obtain ⟨w, hw, -, -, hval⟩ := C134_refines (κ := κ) g .normal none (.ok d) (truthOf q phi) none s
  dsimp only at hw
  have hv := hval false [("MOS", .once mosFit)]
  have hq' : q.length = d.disVideos.length := by rw [hd.videos, hq]
  have hphi' : ∀ l ∈ some phi, l.length = d.disVideos.length := by intro l hl; cases hl; rw [hd.videos, hphi]
  have hmu : (List.replicate 9 (0 : ℝ)).length = d.refVideos.length := by rw [hd.refs]; rfl
  obtain ⟨out, hout⟩ := mos_validates (b := List.replicate 30 0) (sg := List.replicate 30 0) (mu := List.replicate 9 0) (dl := List.replicate 9 0)
    hraw hd.style hq' rfl hmu rfl hphi' hd.contents (by simp) w none
  have hout' : validate .normal w (Option.map some none) [("MOS", .once mosFit)] (.ok d) (truthOf q phi) none false = .ok out := hout
  rw [hout'] at hv
  cases hx : validateSt g .normal none [("MOS", (Modelled.once mosFit).st)] (.ok d) (truthOf q phi) none false s with
  | error e =>
    have hv' : (validateSt g .normal none [("MOS", (Modelled.once mosFit).st)] (.ok d) (truthOf q phi) none false s).map Prod.fst = .ok out := hv
    rw [hx] at hv'
    cases hv'
  | ok p =>
    have hv' : (validateSt g .normal none [("MOS", (Modelled.once mosFit).st)] (.ok d) (truthOf q phi) none false s).map Prod.fst = .ok out := hv
    rw [hx] at hv'
    obtain ⟨v, s'⟩ := p
    have hvo : v = out := Except.ok.inj hv'
    subst hvo
    obtain ⟨hE, c, c1, c2⟩ := mos_percentage (b := List.replicate 30 0) (sg := List.replicate 30 0) (mu := List.replicate 9 0)
      (dl := List.replicate 9 0) hraw hd.style hq' rfl hmu rfl hphi' hd.contents (by simp) hout (by simp) (j := 0) (ty := "MOS") rfl (z := g.normal s) hw
    refine ⟨v, s', c, rfl, c1, ?_, ?_⟩
    · obtain ⟨d', fits, e1, e2, e3, e4, e5⟩ := C98_results hout
      cases e1
      obtain ⟨fit, f1, f2⟩ := e3 0 "MOS" (.once mosFit) rfl
      obtain ⟨c', d1, d2, -⟩ := e5 (by simp) "MOS" fit (List.mem_of_getElem? f1)
      rw [c1] at d1
      cases d1
      rw [d2]
      obtain ⟨rd', res, n1, n2, n3, n4⟩ := mos_synthetic (b := List.replicate 30 0) (sg := List.replicate 30 0) (mu := List.replicate 9 0)
        (dl := List.replicate 9 0) hraw hd.style hq' rfl hmu rfl hphi' hd.contents (by simp) (g.normal s)
      have hfit : fit = { res := res } := by
        have hrd : readerAt .normal w none d (truthOf q phi) none 0 = .ok rd' := by
          rw [← n1, ← hw]
          rfl
        have f2' : (Modelled.once mosFit).run (fun k => readerAt .normal w none d (truthOf q phi) none (0 + k)) = .ok fit := f2
        unfold Modelled.once at f2'
        dsimp only at f2'
        rw [Nat.add_zero, hrd] at f2'
        dsimp only at f2'
        unfold mosFit at f2'
        rw [n2] at f2'
        exact (Except.ok.inj f2').symm
      rw [hfit]
      dsimp only
      rw [n3]
      rw [ofFn_cast hd.videos (fun e => Fl.fin (mean (List.ofFn fun s_1 : Fin (List.replicate 30 (0 : ℝ)).length =>
        voteOf d q (List.replicate 30 0) (List.replicate 30 0) (List.replicate 9 0) (List.replicate 9 0) (some phi) (g.normal s) e s_1)))]
      congr 1
      funext e
      congr 1
      rw [ofFn_cast (show (List.replicate 30 (0 : ℝ)).length = 30 from rfl) (fun i =>
        voteOf d q (List.replicate 30 0) (List.replicate 30 0) (List.replicate 9 0) (List.replicate 9 0) (some phi) (g.normal s) e i)]
      rw [← mean_affine (by norm_num)]
      congr 2
      funext i
      exact vote_known hd hphi _ e.isLt i.isLt
    · intro hpos
      rw [c2, card_cast hd.videos (fun e => near 1.95996 (q.getD e 0) fun i : Fin (List.replicate 30 (0 : ℝ)).length =>
        voteOf d q (List.replicate 30 0) (List.replicate 30 0) (List.replicate 9 0) (List.replicate 9 0) (some phi) (g.normal s) e i), hd.videos]
      congr 6
      ext e
      simp only [Finset.mem_filter, Finset.mem_univ, true_and]
      have hp : 0 < phi.getD e 0 := by
        have hep : e.val < phi.length := by have := e.isLt; omega
        rw [List.getD_eq_getElem?_getD, List.getElem?_eq_getElem hep]
        exact hpos _ (List.getElem_mem hep)
      rw [← near_affine hp (m := q.getD e 0) (by norm_num) (fun i : Fin 30 => g.normal s (drawOf e i))]
      have : (fun i : Fin (List.replicate 30 (0 : ℝ)).length =>
          voteOf d q (List.replicate 30 0) (List.replicate 30 0) (List.replicate 9 0) (List.replicate 9 0) (some phi) (g.normal s) e i) =
          fun i : Fin 30 => q.getD e 0 + phi.getD e 0 * g.normal s (drawOf e i) := by
        funext i
        exact vote_known hd hphi _ e.isLt i.isLt
      rw [this]

/-- the state of the generator in which the votes of the mode 'quality_ambiguity' are drawn -/
def voteState (g : Gen σ ℝ) (k : ℤ) : σ := g.afterUniform (beforeAmbiguity g (g.seed k)) 79

theorem centre_zero {q phi : List ℝ} (f : Bool) (sd : Option (List (Fl ℝ))) (seed : Option ℤ) :
    centreTruth f (⟨truthOf q phi, sd, seed⟩ : Truth ℝ) = .ok ⟨truthOf q phi, sd, seed⟩ := by
  cases f with
  | false => rfl
  | true =>
    rw [centreTruth_fin (t := ⟨truthOf q phi, sd, seed⟩) (b := List.replicate 30 0) rfl (by decide), mean_replicate_zero]
    simp [truthOf, synthKw]

open Classical in
/-- a call of the wrapper for the MOS model in the mode 'quality_ambiguity' -/
theorem mos_wrapper {g : Gen σ ℝ} (hu : UnitDraws g) {d : Dataset κ ℝ} (hd : Nflx d) (k : ℤ) (s : σ) :
    ∃ res c, wrapper g (.ok d) [mosClass] { seed := some k, truth := .str "quality_ambiguity" } s = .ok res ∧
      res.1.truth.kw = truthOf (scoresFrom g (g.seed k)) (unitFrom g 79 (beforeAmbiguity g (g.seed k))) ∧ res.1.truth.seed = none ∧
      res.1.validation.results.lookup "MOS" = some c ∧
      c.fit.res.qualityScores = List.ofFn (fun e : Fin 79 => Fl.fin ((scoresFrom g (g.seed k)).getD e 0 +
        (unitFrom g 79 (beforeAmbiguity g (g.seed k))).getD e 0 * mean (List.ofFn fun i : Fin 30 => g.normal (voteState g k) (drawOf e i)))) ∧
      ((∀ x ∈ unitFrom g 79 (beforeAmbiguity g (g.seed k)), 0 < x) → c.qualityPerc =
        some (.fin (100 * ((Finset.univ.filter fun e : Fin 79 => near 1.95996 0 fun i : Fin 30 => g.normal (voteState g k) (drawOf e i)).card : ℝ) / 79))) := by
  obtain ⟨v, s', c, h1, h2, h3, h4⟩ := mos_known g hd (q := scoresFrom g (g.seed k)) (phi := unitFrom g 79 (beforeAmbiguity g (g.seed k)))
    (by simp [scoresFrom]) (by simp [unitFrom]) (voteState g k)
  refine ⟨(⟨⟨truthOf (scoresFrom g (g.seed k)) (unitFrom g 79 (beforeAmbiguity g (g.seed k))),
    derivedStd (truthOf (scoresFrom g (g.seed k)) (unitFrom g 79 (beforeAmbiguity g (g.seed k)))), none⟩, v⟩, s'), c, ?_, rfl, rfl, h2, h3, h4⟩
  have hdq := drawQuality_eq hu (g.seed k)
  unfold wrapper
  dsimp only [Option.getD_some, Option.isNone]
  rw [if_pos (by rfl)]
  have hch : chooseTruth g (.str "quality_ambiguity") (g.seed k) = .ok (⟨truthOf (scoresFrom g (g.seed k)) (unitFrom g 79 (beforeAmbiguity g (g.seed k))),
      derivedStd (truthOf (scoresFrom g (g.seed k)) (unitFrom g 79 (beforeAmbiguity g (g.seed k)))), none⟩, voteState g k) := by
    unfold chooseTruth
    dsimp only
    rw [if_pos rfl, hdq]
    rfl
  rw [hch]
  dsimp only
  rw [centre_zero]
  dsimp only
  have h1' : validateSt g .normal none (List.map (fun c : ModelClass σ κ ℝ => (c.type, c.run none)) [mosClass]) (.ok d)
      (truthOf (scoresFrom g (g.seed k)) (unitFrom g 79 (beforeAmbiguity g (g.seed k)))) none false (voteState g k) = .ok (v, s') := h1
  rw [h1']

open Classical in
/-- the percentage of the 79 videos for which the mean of the 30 draws is within 1.95996 standard errors of 0 -/
noncomputable def percOf (z : ℕ → ℝ) : ℝ := 100 * ((Finset.univ.filter fun e : Fin 79 => near 1.95996 0 fun i : Fin 30 => z (drawOf e i)).card : ℝ) / 79

theorem percOf_range (z : ℕ → ℝ) : 0 ≤ percOf z ∧ percOf z ≤ 100 := by
  classical
  unfold percOf
  have h : ((Finset.univ.filter fun e : Fin 79 => near 1.95996 0 fun i : Fin 30 => z (drawOf e i)).card : ℝ) ≤ 79 := by
    have := Finset.card_filter_le (Finset.univ : Finset (Fin 79)) fun e => near 1.95996 0 fun i : Fin 30 => z (drawOf e i)
    rw [Finset.card_univ, Fintype.card_fin] at this
    exact_mod_cast this
  constructor
  · positivity
  · rw [div_le_iff₀ (by norm_num)]
    linarith

theorem forall₂_map {α β : Type} {f : α → β} {R : α → β → Prop} (hR : ∀ a b, R a b → b = f a) {l : List α} {l' : List β} (h : List.Forall₂ R l l') :
    l' = l.map f := by
  induction h with
  | nil => rfl
  | cons h _ ih => rw [List.map_cons, ← ih, hR _ _ h]

/-- **C135, what decides the percentages of the MOS model.** The script runs on every dataset with 79 videos of 9 contents.  The percentages, for the seeds 0 to 9,
depend on nothing but the draws from which the votes are made: a video counts if their mean is within 1.95996 standard errors of 0.  The true scores and
the ambiguities, as long as they are positive, make no difference.  The average is between 0 and 100. -/
theorem C135_mos_percentage {g : Gen σ ℝ} (hu : UnitDraws g) {d : Dataset κ ℝ} (hd : Nflx d)
    (hpos : ∀ k ∈ seeds, ∀ i < 79, 0 < g.uniform (beforeAmbiguity g (g.seed k)) i) (s : σ) :
    ∃ r s', runMos g (.ok d) mosClass s = .ok (r, s') ∧
      r.perSeed = seeds.map (fun k => Fl.fin (percOf (g.normal (voteState g k)))) ∧
      r.average = .fin (mean (seeds.map fun k => percOf (g.normal (voteState g k)))) ∧
      0 ≤ mean (seeds.map fun k => percOf (g.normal (voteState g k))) ∧ mean (seeds.map fun k => percOf (g.normal (voteState g k))) ≤ 100 := by
  have hone : ∀ k ∈ seeds, ∀ s, ∃ res, wrapper g (.ok d) [mosClass] { seed := some k, truth := .str "quality_ambiguity" } s = .ok res ∧
      readPerc "MOS" Checked.qualityPerc res.1 = .ok (.fin (percOf (g.normal (voteState g k)))) := by
    intro k hk s
    obtain ⟨res, c, h1, -, -, h2, -, h4⟩ := mos_wrapper hu hd k s
    refine ⟨res, h1, ?_⟩
    unfold readPerc
    rw [h2]
    dsimp only
    rw [h4 fun x hx => by
      obtain ⟨i, hi, rfl⟩ := List.mem_map.mp hx
      exact hpos k hk i (List.mem_range.mp hi)]
    rfl
  obtain ⟨rets, hrets⟩ := overSeeds_fwd (g := g) (dataset := .ok d) (classes := [mosClass]) (mode := "quality_ambiguity") (ks := seeds) (s := s)
    fun k hk s => ⟨_, (hone k hk s).choose_spec.1⟩
  have hiso := C135_isolated hrets
  have hread : ∀ (ks : List Int) (rs : List (Ret κ ℝ)), (∀ k ∈ ks, k ∈ seeds) →
      List.Forall₂ (fun k r => ∀ s', ∃ s'', wrapper g (.ok d) [mosClass] { seed := some k, truth := .str "quality_ambiguity" } s' = .ok (r, s'')) ks rs →
      mapPy (readPerc "MOS" Checked.qualityPerc) rs = .ok (ks.map fun k => Fl.fin (percOf (g.normal (voteState g k)))) := by
    intro ks rs hks h
    induction h with
    | nil => rfl
    | @cons k r ks rs h _ ih =>
      obtain ⟨res, h1, h2⟩ := hone k (hks k List.mem_cons_self) s
      obtain ⟨s'', h3⟩ := h s
      rw [h1] at h3
      cases h3
      unfold mapPy
      rw [h2]
      dsimp only
      rw [ih fun k hk => hks k (List.mem_cons_of_mem _ hk)]
      rfl
  have hm := hread seeds rets.1 (fun _ h => h) hiso
  have hrun : runMos g (.ok d) mosClass s = .ok (⟨seeds.map (fun k => Fl.fin (percOf (g.normal (voteState g k)))),
      Np.mean (seeds.map fun k => Fl.fin (percOf (g.normal (voteState g k))))⟩, rets.2) := by
    unfold runMos
    rw [hrets]
    dsimp only
    unfold report
    rw [hm]
  have hav : Np.mean (seeds.map fun k => Fl.fin (percOf (g.normal (voteState g k)))) = .fin (mean (seeds.map fun k => percOf (g.normal (voteState g k)))) := by
    rw [← Np.mean_map_fin (by simp [seeds]), List.map_map]
    rfl
  refine ⟨_, _, hrun, rfl, hav, ?_⟩
  have hl : (seeds.map fun k => percOf (g.normal (voteState g k))).length = 10 := by simp [seeds]
  have h0 : ∀ x ∈ seeds.map fun k => percOf (g.normal (voteState g k)), 0 ≤ x ∧ x ≤ 100 := by
    intro x hx
    obtain ⟨k, -, rfl⟩ := List.mem_map.mp hx
    exact percOf_range _
  unfold mean
  rw [hl]
  have hs0 := List.sum_nonneg fun x hx => (h0 x hx).1
  have hs1 := List.sum_le_card_nsmul _ 100 fun x hx => (h0 x hx).2
  rw [hl, nsmul_eq_mul] at hs1
  constructor
  · positivity
  · rw [div_le_iff₀ (by norm_num)]
    push_cast at hs1 ⊢
    linarith

section expected
variable {Ω : Type} [MeasurableSpace Ω] {P : Measure Ω} [IsProbabilityMeasure P]

theorem drawOf_inj (e : ℕ) : Function.Injective (drawOf e) := by
  intro i j h
  unfold drawOf at h
  omega

theorem percOf_expected {z : ℕ → Ω → ℝ} (hl : ∀ i, HasLaw (z i) (gaussianReal 0 1) P) (hind : iIndepFun z P) :
    Integrable (fun ω => percOf fun i => z i ω) P ∧ ∫ ω, percOf (fun i => z i ω) ∂P = 100 * panelCoverage 30 := by
  classical
  let ev : Fin 79 → Set Ω := fun e => {ω | near 1.95996 0 fun i : Fin 30 => z (drawOf e i) ω}
  have hone : ∀ e : Fin 79, NullMeasurableSet (ev e) P ∧ P.real (ev e) = panelCoverage 30 := by
    intro e
    have hinj : Function.Injective fun i : Fin 30 => drawOf e i := fun i j h => Fin.ext (drawOf_inj _ h)
    refine ⟨?_, panel_eq (v := 1) (by norm_num) one_ne_zero (fun i : Fin 30 => hl (drawOf e i)) (hind.precomp hinj)⟩
    exact (aemeasurable_pi_lambda (fun ω (i : Fin 30) => z (drawOf e i) ω) fun i => (hl _).aemeasurable).nullMeasurableSet_preimage
      (near_measurable _ _ _)
  have hint : ∀ e, Integrable ((ev e).indicator fun _ => (1 : ℝ)) P := fun e => (integrable_const _).indicator₀ (hone e).1
  have hperc : (fun ω => percOf fun i => z i ω) = fun ω => 100 * (∑ e, (ev e).indicator (fun _ => (1 : ℝ)) ω) / 79 := by
    funext ω
    unfold percOf
    congr 2
    rw [Finset.card_filter]
    push_cast
    refine Finset.sum_congr rfl fun e _ => ?_
    rw [Set.indicator_apply]
    rfl
  have hi : ∀ e, ∫ ω, (ev e).indicator (fun _ => (1 : ℝ)) ω ∂P = panelCoverage 30 := by
    intro e
    rw [integral_indicator₀ (hone e).1, setIntegral_const, smul_eq_mul, mul_one, (hone e).2]
  rw [hperc]
  refine ⟨((integrable_finsetSum _ fun e _ => hint e).const_mul _).div_const _, ?_⟩
  rw [integral_div, integral_const_mul, integral_finsetSum _ fun e _ => hint e]
  simp only [hi, Finset.sum_const, Finset.card_univ, Fintype.card_fin, nsmul_eq_mul]
  push_cast
  ring

theorem list_integral (ks : List ℤ) (f : ℤ → Ω → ℝ) (c : ℝ) (h : ∀ k ∈ ks, Integrable (f k) P ∧ ∫ ω, f k ω ∂P = c) :
    Integrable (fun ω => (ks.map fun k => f k ω).sum) P ∧ ∫ ω, (ks.map fun k => f k ω).sum ∂P = ks.length * c := by
  induction ks with
  | nil => simp
  | cons k ks ih =>
    obtain ⟨h1, h2⟩ := h k List.mem_cons_self
    obtain ⟨h3, h4⟩ := ih fun k hk => h k (List.mem_cons_of_mem _ hk)
    simp only [List.map_cons, List.sum_cons, List.length_cons]
    refine ⟨h1.add h3, ?_⟩
    rw [integral_add h1 h3, h2, h4]
    push_cast
    ring

/-- **C135 (refuted).** The script checks intervals that should cover in 95% of the cases.  If, for every seed, the draws from which the votes are made are
independent and standard normal, the average that it prints for the MOS model is below 95 in expectation, whatever the true scores and ambiguities. -/
theorem C135_expected_refuted (g : Ω → Gen σ ℝ) (hu : ∀ ω, UnitDraws (g ω)) {d : Dataset κ ℝ} (hd : Nflx d)
    (hpos : ∀ ω, ∀ k ∈ seeds, ∀ i < 79, 0 < (g ω).uniform (beforeAmbiguity (g ω) ((g ω).seed k)) i)
    (hl : ∀ k ∈ seeds, ∀ i, HasLaw (fun ω => (g ω).normal (voteState (g ω) k) i) (gaussianReal 0 1) P)
    (hind : ∀ k ∈ seeds, iIndepFun (fun i ω => (g ω).normal (voteState (g ω) k) i) P) (s : σ) :
    ∃ avg : Ω → ℝ, (∀ ω, ∃ r s', runMos (g ω) (.ok d) mosClass s = .ok (r, s') ∧ r.average = .fin (avg ω)) ∧
      Integrable avg P ∧ ∫ ω, avg ω ∂P < 95 := by
  refine ⟨fun ω => mean (seeds.map fun k => percOf ((g ω).normal (voteState (g ω) k))), fun ω => ?_, ?_⟩
  · obtain ⟨r, s', h1, -, h2, -⟩ := C135_mos_percentage (hu ω) hd (hpos ω) s
    exact ⟨r, s', h1, h2⟩
  · obtain ⟨h1, h2⟩ := list_integral (P := P) seeds (fun k ω => percOf ((g ω).normal (voteState (g ω) k))) (100 * panelCoverage 30)
      fun k hk => percOf_expected (hl k hk) (hind k hk)
    have hf : (fun ω => mean (seeds.map fun k => percOf ((g ω).normal (voteState (g ω) k)))) =
        fun ω => (seeds.map fun k => percOf ((g ω).normal (voteState (g ω) k))).sum / 10 := by
      funext ω
      unfold mean
      congr 1
    rw [hf]
    refine ⟨h1.div_const _, ?_⟩
    rw [integral_div, h2]
    have h30 := panelCoverage_lt (n := 30) (by norm_num)
    have hs : (seeds.length : ℝ) = 10 := by simp [seeds]
    rw [hs]
    norm_num at h30 ⊢
    linarith

end expected

/-- **C135 (refuted).** Running the script again with the true values that it returned and the same seed does not repeat the experiment: the generator is
not in the state in which it was after drawing the true values, so the votes are made from other draws.  The scores of the MOS model
are the same exactly if the means of the draws happen to be the same for each video. -/
theorem C135_replay_refuted {g : Gen σ ℝ} (hu : UnitDraws g) {d : Dataset κ ℝ} (hd : Nflx d) (k : ℤ)
    (hpos : ∀ i < 79, 0 < g.uniform (beforeAmbiguity g (g.seed k)) i) (s : σ) :
    ∃ r₁ r₂ c₁ c₂, wrapper g (.ok d) [mosClass] { seed := some k, truth := .str "quality_ambiguity" } s = .ok r₁ ∧
      wrapper g (.ok d) [mosClass] { seed := some k, truth := .dict r₁.1.truth } s = .ok r₂ ∧ r₂.1.truth = r₁.1.truth ∧
      r₁.1.validation.results.lookup "MOS" = some c₁ ∧ r₂.1.validation.results.lookup "MOS" = some c₂ ∧
      (c₁.fit.res.qualityScores = c₂.fit.res.qualityScores ↔ ∀ e < 79,
        mean (List.ofFn fun i : Fin 30 => g.normal (voteState g k) (drawOf e i)) = mean (List.ofFn fun i : Fin 30 => g.normal (g.seed k) (drawOf e i))) := by
  obtain ⟨r₁, c₁, h1, h2, h3, h4, h5, -⟩ := mos_wrapper hu hd k s
  set q := scoresFrom g (g.seed k) with hq
  set phi := unitFrom g 79 (beforeAmbiguity g (g.seed k)) with hphi
  obtain ⟨v, s', c₂, k1, k2, k3, -⟩ := mos_known g hd (q := q) (phi := phi) (by simp [hq, scoresFrom]) (by simp [hphi, unitFrom]) (g.seed k)
  have htr : r₁.1.truth = ⟨truthOf q phi, r₁.1.truth.qualityStd, none⟩ := by
    rw [← h2, ← h3]
  refine ⟨r₁, (⟨r₁.1.truth, v⟩, s'), c₁, c₂, h1, ?_, rfl, h4, k2, ?_⟩
  · unfold wrapper
    dsimp only [Option.getD_some, Option.isNone]
    rw [if_pos (by rfl)]
    unfold chooseTruth
    dsimp only
    rw [htr, centre_zero]
    dsimp only
    have k1' : validateSt g .normal none (List.map (fun c : ModelClass σ κ ℝ => (c.type, c.run none)) [mosClass]) (.ok d)
        (truthOf q phi) none false (g.seed k) = .ok (v, s') := k1
    rw [k1']
  · rw [h5, k3]
    have hp : ∀ e < 79, phi.getD e 0 ≠ 0 := by
      intro e he
      have : phi.getD e 0 = g.uniform (beforeAmbiguity g (g.seed k)) e := by
        rw [hphi]
        unfold unitFrom
        rw [List.getD_eq_getElem?_getD, List.getElem?_map, List.getElem?_range he]
        rfl
      rw [this]
      exact (hpos e he).ne'
    constructor
    · intro h e he
      have := congrFun (List.ofFn_injective h) ⟨e, he⟩
      have := Fl.fin.inj this
      exact mul_left_cancel₀ (hp e he) (add_left_cancel this)
    · intro h
      congr 1
      funext e
      rw [h e e.isLt]

/-- the wrapper stops with an error if the reader of the synthetic votes does -/
theorem ciWrapper_error {g : Gen σ ℝ} {d : Dataset κ ℝ} {classes : List (ModelClass σ κ ℝ)} {args : Args ℝ} {t : Truth ℝ × σ} {truth : Truth ℝ} {s : σ}
    (h1 : chooseTruth g args.truth (g.seed (args.seed.getD 0)) = .ok t) (h2 : centreTruth (args.force.getD true) t.1 = .ok truth)
    (h3 : ∀ z, syntheticReader d truth.kw z = .error .assertion) :
    wrapper g (.ok d) classes args s = .error .assertion := by
  unfold wrapper
  dsimp only
  split
  · rw [h1]
    dsimp only
    rw [h2]
    dsimp only
    unfold validateSt
    rw [if_pos (by rfl)]
    dsimp only
    unfold source synthRead
    dsimp only
    rw [h3]
  · rfl

/-- **C135, what is refused.** With AssertionError: `n_bootstrap` together with a class without 'bootstrap' in its name, in whatever case;
an argument `synthetic_result_dict` that is neither a dict nor one of the two names of modes; and in these modes a dataset that has not 79 videos of 9
contents.  With KeyError: a dict without biases, if they are to be centred. -/
theorem C135_refuses (g : Gen σ ℝ) (dataset : Py (Dataset κ ℝ)) (classes : List (ModelClass σ κ ℝ)) (args : Args ℝ) (s : σ) :
    (args.nBootstrap ≠ none → (∃ c ∈ classes, ¬ "bootstrap".toList <:+: c.name.toLower.toList) → wrapper g dataset classes args s = .error .assertion) ∧
    ((args.truth = .other ∨ ∃ name, args.truth = .str name ∧ name ≠ "quality_ambiguity" ∧ name ≠ "observer_only") →
      wrapper g dataset classes args s = .error .assertion) ∧
    (∀ d rd, dataset = .ok d → rawReader d = .ok rd → (d.disVideos.length ≠ 79 ∨ d.refVideos.length ≠ 9) →
      (args.truth = .absent ∨ args.truth = .str "quality_ambiguity" ∨ args.truth = .str "observer_only") →
      wrapper g dataset classes args s = .error .assertion) ∧
    (∀ t, args.nBootstrap = none → args.truth = .dict t → t.kw.bias = none → args.force ≠ some false →
      wrapper g dataset classes args s = .error .key) := by
  refine ⟨?_, ?_, ?_, ?_⟩
  · rintro hn ⟨c, hc, hname⟩
    unfold wrapper
    dsimp only
    rw [if_neg]
    rw [Bool.or_eq_true, List.all_eq_true]
    rintro (h | h)
    · exact hn (Option.isNone_iff_eq_none.mp h)
    · have := h c hc
      unfold ModelClass.isBootstrap at this
      exact hname (of_decide_eq_true this)
  · intro h
    have herr : ∀ s, chooseTruth g args.truth s = .error .assertion := by
      intro s
      rcases h with h | ⟨name, h, h1, h2⟩ <;> rw [h] <;> unfold chooseTruth <;> dsimp only
      rw [if_neg h1, if_neg h2]
    unfold wrapper
    dsimp only
    split
    · rw [herr]
    · rfl
  · rintro d rd rfl hraw hsize hmode
    have hrej : ∀ (kw : SynthKw ℝ) (q b sg mu dl : List (Fl ℝ)), kw.quality = some q → kw.bias = some b → kw.inconsistency = some sg → kw.contentBias = some mu →
        kw.contentAmbiguity = some dl → q.length = 79 → mu.length = 9 → ∀ z, syntheticReader d kw z = .error .assertion := by
      intro kw q b sg mu dl h1 h2 h3 h4 h5 hq hmu z
      refine (C54_wrong_sizes d rd hraw z kw (Or.inr (Or.inr (Or.inr (Or.inr (Or.inr ⟨q, b, sg, mu, dl, h1, h2, h3, h4, h5, ?_⟩)))))).1
      rcases hsize with h | h
      · exact Or.inl (by omega)
      · exact Or.inr (Or.inr (Or.inl (by omega)))
    have hcen : ∀ (f : Bool) (t : Truth ℝ) (b : List (Fl ℝ)), t.kw.bias = some b → ∃ t' b', centreTruth f t = .ok t' ∧ t'.kw.quality = t.kw.quality ∧
        t'.kw.bias = some b' ∧ t'.kw.inconsistency = t.kw.inconsistency ∧ t'.kw.contentBias = t.kw.contentBias ∧
        t'.kw.contentAmbiguity = t.kw.contentAmbiguity := by
      intro f t b hb
      unfold centreTruth
      cases f with
      | false => exact ⟨t, b, rfl, rfl, hb, rfl, rfl, rfl⟩
      | true =>
        rw [if_pos rfl, hb]
        exact ⟨_, _, rfl, rfl, rfl, rfl, rfl, rfl⟩
    have hfin : ∀ (t : Truth ℝ × σ) (q b sg mu dl : List (Fl ℝ)), chooseTruth g args.truth (g.seed (args.seed.getD 0)) = .ok t → t.1.kw.quality = some q →
        t.1.kw.bias = some b → t.1.kw.inconsistency = some sg → t.1.kw.contentBias = some mu → t.1.kw.contentAmbiguity = some dl →
        q.length = 79 → mu.length = 9 → wrapper g (.ok d) classes args s = .error .assertion := by
      intro t q b sg mu dl hch h1 h2 h3 h4 h5 hq hmu
      obtain ⟨t', b', e0, e1, e2, e3, e4, e5⟩ := hcen (args.force.getD true) t.1 b h2
      exact ciWrapper_error hch e0 (hrej t'.kw q b' sg mu dl (e1.trans h1) e2 (e3.trans h3) (e4.trans h4) (e5.trans h5) hq hmu)
    have hlu : ∀ lo hi n s, (uniforms g lo hi n s).length = n := by intro lo hi n s; simp [uniforms]
    have hln : ∀ lo hi n s, (normals g lo hi n s).length = n := by intro lo hi n s; simp [normals]
    rcases hmode with h | h | h
    · refine hfin _ _ _ _ _ _ (by rw [h]; rfl) rfl rfl rfl rfl rfl (hlu _ _ _ _) (hln _ _ _ _)
    · refine hfin _ _ _ _ _ _ (by rw [h]; unfold chooseTruth; dsimp only; rw [if_pos rfl]) rfl rfl rfl rfl rfl (hlu _ _ _ _) (hln _ _ _ _)
    · refine hfin _ _ _ _ _ _ (by rw [h]; unfold chooseTruth; dsimp only; rw [if_neg (by decide), if_pos rfl]) rfl rfl rfl rfl rfl (hlu _ _ _ _) (hln _ _ _ _)
  · intro t hn ht hb hf
    have hf' : args.force.getD true = true := by
      rcases hfo : args.force with _ | (_ | _)
      · rfl
      · exact absurd hfo hf
      · rfl
    unfold wrapper
    dsimp only
    rw [hn, if_pos (by rfl), ht]
    unfold chooseTruth centreTruth
    dsimp only
    rw [hf', if_pos rfl, hb]

/-- the MOS model is validated on all true values of the right sizes -/
theorem mos_st_ok (g : Gen σ ℝ) {d : Dataset κ ℝ} (hd : Nflx d) {q b sg mu dl : List ℝ} {phi : Option (List ℝ)} (hq : q.length = 79)
    (hsg : sg.length = b.length) (hmu : mu.length = 9) (hdl : dl.length = mu.length) (hphi : ∀ l ∈ phi, l.length = 79) (h2 : 2 ≤ b.length) (s : σ) :
    ∃ v s', validateSt g .normal none [("MOS", (Modelled.once mosFit).st)] (.ok d) (synthKw q b sg mu dl phi) none false s = .ok (v, s') := by
  obtain ⟨rd, hraw⟩ := hd.raw
  obtain ⟨w, hw, -, -, hval⟩ := C134_refines (κ := κ) g .normal none (.ok d) (synthKw q b sg mu dl phi) none s
  obtain ⟨out, hout⟩ := mos_validates hraw hd.style (hq.trans hd.videos.symm) hsg (hmu.trans hd.refs.symm) hdl
    (fun l hl => (hphi l hl).trans hd.videos.symm) hd.contents h2 w none
  have hv : (validateSt g .normal none [("MOS", (Modelled.once mosFit).st)] (.ok d) (synthKw q b sg mu dl phi) none false s).map Prod.fst = .ok out :=
    (hval false [("MOS", .once mosFit)]).trans hout
  cases hx : validateSt g .normal none [("MOS", (Modelled.once mosFit).st)] (.ok d) (synthKw q b sg mu dl phi) none false s with
  | error e => rw [hx] at hv; cases hv
  | ok p => exact ⟨p.1, p.2, rfl⟩

theorem drawObserver_eq {g : Gen σ ℝ} (hu : UnitDraws g) (s : σ) :
    (drawObserver g s).1 = synthKw (scoresFrom g s) ((List.range 30).map fun i => g.normal (g.afterUniform s 79) i)
      (unitFrom g 30 (g.afterNormal (g.afterUniform s 79) 30)) (List.replicate 9 0) (List.replicate 9 0) none := by
  unfold drawObserver synthKw
  dsimp only
  rw [scoresFrom_eq, normals_zero, uniforms_zero, unitFrom_eq g 30 _ hu, abs_nonneg_fin, normals_eq]
  · congr 4
    funext i
    push_cast
    ring
  · intro x hx
    rw [(List.mem_replicate.mp hx).2]

/-! ## A dataset with 79 videos of 9 contents -/

/-- video number `i`, of content `i % 9` -/
noncomputable def exVideo (i : ℕ) : DisVideo String ℝ := ⟨((i % 9 : ℕ) : ℤ), i, toString i, some (.seq false [.one (.fin 1), .one (.fin 2)]), none, none, []⟩

/-- content number `i` -/
def exRef (i : ℕ) : RefVideo := ⟨i, toString i, []⟩

noncomputable def exNflx : Dataset String ℝ :=
  { refVideos := (List.range 9).map exRef
    disVideos := (List.range 79).map exVideo
    refScore := none, datasetName := none, attrs := [] }

/-- thirty observers with bias 1 -/
noncomputable def ciKw : SynthKw ℝ := synthKw (List.replicate 79 3) (List.replicate 30 1) (List.replicate 30 1) (List.replicate 9 0) (List.replicate 9 0) none

theorem exNflx_ok : Nflx exNflx := by
  have hwf : WellFormed exNflx := by
    refine ⟨by simp [exNflx], by simp [exNflx], ?_, ?_, ?_, ?_⟩
    · intro r hr
      obtain ⟨i, -, rfl⟩ := List.mem_map.mp hr
      exact Int.natCast_nonneg i
    · intro dv hdv
      obtain ⟨i, -, rfl⟩ := List.mem_map.mp hdv
      exact ⟨exRef (i % 9), List.mem_map.mpr ⟨i % 9, List.mem_range.mpr (Nat.mod_lt _ (by norm_num)), rfl⟩, rfl⟩
    · intro dv hdv
      obtain ⟨i, -, rfl⟩ := List.mem_map.mp hdv
      exact ⟨_, rfl, by simp⟩
    · intro d0 h0 _ dv hdv
      obtain ⟨i, -, rfl⟩ := List.mem_map.mp hdv
      obtain ⟨j, -, rfl⟩ := List.mem_map.mp (List.mem_of_mem_head? h0)
      rfl
  refine ⟨⟨_, rawReader_isOk ((C01_accepts_iff_wellFormed exNflx).mpr hwf)⟩, Or.inl ?_, ?_, by simp [exNflx], by simp [exNflx]⟩
  · intro dv hdv
    obtain ⟨i, -, rfl⟩ := List.mem_map.mp hdv
    exact ⟨_, _, rfl⟩
  · intro dv hdv
    obtain ⟨i, -, rfl⟩ := List.mem_map.mp hdv
    have : i % 9 < 9 := Nat.mod_lt _ (by norm_num)
    constructor
    · exact Int.natCast_nonneg _
    · simp only [exNflx, exVideo, List.length_map, List.length_range]
      exact_mod_cast this

/-- a generator whose state counts the draws since the seed was set; all uniform draws are 1/2, normal draws come from `z` -/
noncomputable def ciGen (z : ℕ → ℕ → ℝ) : Gen ℕ ℝ :=
  { seed := fun _ => 0, normal := z, logistic := z, uniform := fun _ _ => 1 / 2, choice := fun _ _ => []
    afterNormal := fun s n => s + n, afterLogistic := fun s n => s + n, afterUniform := fun s n => s + n, afterChoice := fun s n => s + n }

theorem ciGen_unit (z : ℕ → ℕ → ℝ) : UnitDraws (ciGen z) := by
  intro s i
  show (0 : ℝ) ≤ 1 / 2 ∧ (1 / 2 : ℝ) < 1
  norm_num

theorem ciGen_pos (z : ℕ → ℕ → ℝ) (s : ℕ) (i : ℕ) : 0 < (ciGen z).uniform s i := by
  show (0 : ℝ) < 1 / 2
  norm_num

/-- C135_expected_refuted -/
example : ∃ (Ω : Type) (_ : MeasurableSpace Ω) (P : Measure Ω) (_ : IsProbabilityMeasure P) (g : Ω → Gen ℕ ℝ) (avg : Ω → ℝ),
    (∀ ω, ∃ r s', runMos (g ω) (.ok exNflx) mosClass 0 = .ok (r, s') ∧ r.average = .fin (avg ω)) ∧ Integrable avg P ∧ ∫ ω, avg ω ∂P < 95 := by
  obtain ⟨Ω, mΩ, P, z, h1, hl, hi, h4⟩ := exists_iid ℕ (gaussianReal 0 1)
  obtain ⟨avg, h⟩ := C135_expected_refuted (P := P) (fun ω => ciGen fun _ i => z i ω) (fun ω => ciGen_unit _) exNflx_ok (fun ω k _ i _ => ciGen_pos _ _ _)
    (fun k _ i => hl i) (fun k _ => hi) 0
  exact ⟨Ω, mΩ, P, h4, _, avg, h⟩

/-- C135_report, C135_isolated, C135_mos_percentage: there are ten percentages -/
example (z : ℕ → ℕ → ℝ) : ∃ r s', runMos (ciGen z) (.ok exNflx) mosClass 0 = .ok (r, s') ∧ r.perSeed.length = 10 := by
  obtain ⟨r, s', h, -⟩ := C135_mos_percentage (ciGen_unit z) exNflx_ok (fun _ _ _ _ => ciGen_pos z _ _) 0
  exact ⟨r, s', h, (C135_report h).1⟩

/-- C135_replay_refuted: if the normal draws in the state after the true values were drawn are other ones, the scores are other ones -/
example : ∃ r₁ r₂ c₁ c₂, wrapper (ciGen fun s _ => s) (.ok exNflx) [mosClass] { seed := some 0, truth := .str "quality_ambiguity" } 0 = .ok r₁ ∧
    wrapper (ciGen fun s _ => s) (.ok exNflx) [mosClass] { seed := some 0, truth := .dict r₁.1.truth } 0 = .ok r₂ ∧
    r₁.1.validation.results.lookup "MOS" = some c₁ ∧ r₂.1.validation.results.lookup "MOS" = some c₂ ∧
    c₁.fit.res.qualityScores ≠ c₂.fit.res.qualityScores := by
  obtain ⟨r₁, r₂, c₁, c₂, h1, h2, -, h3, h4, h5⟩ := C135_replay_refuted (ciGen_unit fun s _ => s) exNflx_ok 0 (fun _ _ => ciGen_pos _ _ _) 0
  refine ⟨r₁, r₂, c₁, c₂, h1, h2, h3, h4, fun h => ?_⟩
  have := h5.mp h 0 (by norm_num)
  rw [mean_fn, mean_fn] at this
  simp only [ciGen, voteState, beforeAmbiguity, Finset.sum_const, Finset.card_univ, Fintype.card_fin, nsmul_eq_mul] at this
  norm_num at this

/-- C135_quality_truth -/
example : ∃ res : Ret String ℝ × ℕ, ∃ q phi : List ℝ, wrapper (ciGen fun s _ => s) (.ok exNflx) [mosClass] { seed := some 0, truth := .str "quality_ambiguity" } 0 = .ok res ∧
    q.length = 79 ∧ (∀ x ∈ q, 1 ≤ x ∧ x < 5) ∧ res.1.truth.qualityStd = some (phi.map fun x => .fin (x / √30)) := by
  obtain ⟨r₁, -, -, -, h1, -⟩ := C135_replay_refuted (ciGen_unit fun s _ => s) exNflx_ok 0 (fun _ _ => ciGen_pos _ _ _) 0
  obtain ⟨q, phi, a1, -, a2, -, -, a3, -⟩ := C135_quality_truth (ciGen_unit fun s _ => s) (Or.inr rfl) h1
  exact ⟨r₁, q, phi, h1, a1, a2, a3⟩

/-- C135_given: biases that do not add up to zero -/
example : ∃ res : Ret String ℝ × ℕ, wrapper (ciGen fun s _ => s) (.ok exNflx) [mosClass] { truth := .dict { kw := ciKw } } 0 = .ok res ∧
    res.1.truth ≠ { kw := ciKw } := by
  obtain ⟨v, s', hv⟩ := mos_st_ok (ciGen fun s _ => s) exNflx_ok (q := List.replicate 79 3) (b := List.replicate 30 0) (sg := List.replicate 30 1)
    (mu := List.replicate 9 0) (dl := List.replicate 9 0) (phi := none) (by simp) (by simp) (by simp) (by simp) (by simp) (by simp) 0
  have hcen : centreTruth true ({ kw := ciKw } : Truth ℝ) = .ok { kw := synthKw (List.replicate 79 3) (List.replicate 30 0) (List.replicate 30 1) (List.replicate 9 0) (List.replicate 9 0) none } := by
    rw [centreTruth_fin (t := { kw := ciKw }) (b := List.replicate 30 1) rfl (by decide)]
    have h1 : mean (List.replicate 30 (1 : ℝ)) = 1 := by
      unfold mean
      rw [List.sum_replicate, List.length_replicate]
      norm_num
    rw [h1, List.map_replicate, sub_self]
    rfl
  have hw : wrapper (ciGen fun s _ => s) (.ok exNflx) [mosClass] { truth := .dict { kw := ciKw } } 0 =
      .ok (⟨{ kw := synthKw (List.replicate 79 3) (List.replicate 30 0) (List.replicate 30 1) (List.replicate 9 0) (List.replicate 9 0) none }, v⟩, s') := by
    unfold wrapper
    dsimp only [Option.getD_none, Option.isNone]
    rw [if_pos (by rfl)]
    unfold chooseTruth
    dsimp only
    rw [hcen]
    dsimp only
    have hv' : validateSt (ciGen fun s _ => s) .normal none (List.map (fun c : ModelClass ℕ String ℝ => (c.type, c.run none)) [mosClass]) (.ok exNflx)
        (synthKw (List.replicate 79 3) (List.replicate 30 0) (List.replicate 30 1) (List.replicate 9 0) (List.replicate 9 0) none) none false
        ((ciGen fun s _ => (s : ℝ)).seed 0) = .ok (v, s') := hv
    rw [hv']
  refine ⟨_, hw, ?_⟩
  obtain ⟨b', c, -, -, -, h, -⟩ := C135_given rfl (by simp) (b := List.replicate 30 1) rfl (by decide) hw
  rw [Ne, h, List.sum_replicate]
  norm_num

/-- C135_observer_truth: 30 draws from a standard normal distribution, centred -/
example : ∃ res : Ret String ℝ × ℕ, ∃ b : List ℝ, wrapper (ciGen fun _ i => i) (.ok exNflx) [mosClass] { truth := .str "observer_only" } 0 = .ok res ∧
    b.length = 30 ∧ b.sum = 0 ∧ res.1.truth.kw.bias = some (b.map Fl.fin) := by
  obtain ⟨res, hw⟩ : ∃ res, wrapper (ciGen fun _ i => i) (.ok exNflx) [mosClass] { truth := .str "observer_only" } 0 = .ok res := by
    have hd := drawObserver_eq (ciGen_unit fun _ i => (i : ℝ)) ((ciGen fun _ i => (i : ℝ)).seed 0)
    unfold wrapper
    dsimp only [Option.getD_none, Option.isNone]
    rw [if_pos (by rfl)]
    unfold chooseTruth
    dsimp only
    rw [if_neg (by decide), if_pos rfl]
    dsimp only
    rw [hd, centreTruth_fin rfl (by simp [List.range_succ])]
    dsimp only
    obtain ⟨v, s', hv⟩ := mos_st_ok (ciGen fun _ i => i) exNflx_ok (q := scoresFrom (ciGen fun _ i => (i : ℝ)) 0)
      (b := ((List.range 30).map fun i => ((ciGen fun _ i => (i : ℝ)).normal 79 i)).map fun x => x - mean ((List.range 30).map fun i => ((ciGen fun _ i => (i : ℝ)).normal 79 i)))
      (sg := unitFrom (ciGen fun _ i => (i : ℝ)) 30 109)
      (mu := List.replicate 9 0) (dl := List.replicate 9 0) (phi := none) (by simp [scoresFrom]) (by simp [unitFrom]) (by simp) (by simp) (by simp) (by simp)
      (drawObserver (ciGen fun _ i => (i : ℝ)) ((ciGen fun _ i => (i : ℝ)).seed 0)).2
    have hv' : validateSt (ciGen fun _ i => (i : ℝ)) .normal none (List.map (fun c : ModelClass ℕ String ℝ => (c.type, c.run none)) [mosClass]) (.ok exNflx)
      _ none false _ = .ok (v, s') := hv
    exact ⟨_, by
      simp only [synthKw]
      erw [hv']⟩
  obtain ⟨q, b, sg, -, h1, -, -, h2, -, h3, -⟩ := C135_observer_truth (ciGen_unit fun _ i => (i : ℝ)) rfl (by simp) hw
  exact ⟨res, b, hw, h1, h2, by rw [h3]; rfl⟩

/-- C135_refuses: a dataset with two videos -/
example (g : Gen ℕ ℝ) : wrapper g (.ok exSynth) [mosClass] {} 0 = .error .assertion :=
  (C135_refuses g (.ok exSynth) [mosClass] {} 0).2.2.1 exSynth _ rfl rfl (Or.inl (by simp [exSynth])) (Or.inl rfl)

/-- C135_refuses: `n_bootstrap` for the MOS model -/
example (g : Gen ℕ ℝ) : wrapper g (.ok exNflx) [mosClass] { nBootstrap := some 10 } 0 = .error .assertion :=
  (C135_refuses g (.ok exNflx) [mosClass] { nBootstrap := some 10 } 0).1 (by simp) ⟨mosClass, List.mem_cons_self, by
    show ¬ "bootstrap".toList <:+: ("MosModel" : String).toLower.toList
    decide +kernel⟩

end Sureal.Props
