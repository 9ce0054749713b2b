import Verif.Lemmas.PanelLaw
import Verif.Props.Validate
/-! # C122: the coverage that `validate_with_synthetic_dataset` reports for mean opinion scores -/
set_option linter.unusedSectionVars false
namespace Sureal.Props
open Sureal Spec Mock Routine Lemmas MeasureTheory ProbabilityTheory
variable {κ : Type} [LinearOrder κ]

/-- `MosModel` among the models to validate (routine.py:802-805; subjective_model.py:354-420): its result has no intervals of biases or inconsistencies -/
noncomputable def mosFit (rd : Reader κ ℝ) : Py (Fit κ ℝ) :=
  match runMOS rd {} with
  | .error e => .error e
  | .ok res => .ok { res := res }

/-- the vote of observer `s` on video `e` -/
noncomputable def voteOf (d : Dataset κ ℝ) (q b sg mu dl : List ℝ) (phi : Option (List ℝ)) (z : ℕ → ℝ) (e s : ℕ) : ℝ :=
  let c := ((d.disVideos[e]?).map fun dv => dv.contentId.toNat).getD 0
  q.getD e 0 + (b.getD s 0 + z (e * b.length + s) * sg.getD s 0)
    + (mu.getD c 0 + z (d.disVideos.length * b.length + (e * b.length + s)) * dl.getD c 0)
    + ambiguityOf phi e * z (2 * (d.disVideos.length * b.length) + (e * b.length + s))

open Classical in
/-- what the MOS model reports about the synthetic votes of one reading -/
theorem mos_synthetic {d : Dataset κ ℝ} {rd : Reader κ ℝ} (hraw : rawReader d = .ok rd)
    (hstyle : (∀ dv ∈ d.disVideos, SeqStyle dv) ∨ (∀ dv ∈ d.disVideos, DictStyle dv))
    {q b sg mu dl : List ℝ} {phi : Option (List ℝ)} (hq : q.length = d.disVideos.length)
    (hsg : sg.length = b.length) (hmu : mu.length = d.refVideos.length) (hdl : dl.length = mu.length)
    (hphi : ∀ l ∈ phi, l.length = d.disVideos.length)
    (hc : ∀ dv ∈ d.disVideos, 0 ≤ dv.contentId ∧ dv.contentId < d.refVideos.length) (h2 : 2 ≤ b.length) (z : ℕ → ℝ) :
    ∃ rd' res, syntheticReader d (synthKw q b sg mu dl phi) z = .ok rd' ∧ runMOS rd' {} = .ok res ∧
      res.qualityScores = List.ofFn (fun e : Fin d.disVideos.length =>
        Fl.fin (mean (List.ofFn fun s : Fin b.length => voteOf d q b sg mu dl phi z e s))) ∧
      res.qualityScoresCi95 =
        let w := List.ofFn (fun e : Fin d.disVideos.length => Fl.fin (1.95996 *
          (√(sampleVar (List.ofFn fun s : Fin b.length => voteOf d q b sg mu dl phi z e s)) / √(b.length : ℝ))))
        some (w, w) := by
  obtain ⟨rd', a, r1, r2, r3, r4, r5, r6, r7, r8, hcell⟩ := C54_model d rd hraw z q b sg mu dl phi hq hsg hmu hdl hphi hc
  obtain ⟨res, hres⟩ := runMOS_ok r5 (by rw [r4]; exact observers_cases hraw hstyle)
  have hvote : ∀ e s : ℕ, e < d.disVideos.length → s < b.length → cell a e s 0 = some (.fin (voteOf d q b sg mu dl phi z e s)) := by
    intro e s he hs
    have hcd := hc _ (List.getElem_mem he)
    have hs' : s < sg.length := by omega
    have hm : d.disVideos[e].contentId.toNat < mu.length := by omega
    have hd : d.disVideos[e].contentId.toNat < dl.length := by omega
    rw [hcell e s _ _ _ _ _ _ (List.getElem?_eq_getElem he) (List.getElem?_eq_getElem (hq ▸ he)) (List.getElem?_eq_getElem hs)
        (List.getElem?_eq_getElem hs') (List.getElem?_eq_getElem hm) (List.getElem?_eq_getElem hd)]
    congr 2
    have hn : ∀ z, ambiguityNoise phi z e = ambiguityOf phi e * z := by
      intro z
      unfold ambiguityNoise ambiguityOf
      cases phi with
      | none => simp
      | some l => simp [mul_comm]
    rw [hn]
    unfold voteOf
    simp only [List.getElem?_eq_getElem he, Option.map_some, Option.getD_some, List.getD_eq_getElem?_getD, List.getElem?_eq_getElem (hq ▸ he),
      List.getElem?_eq_getElem hs, List.getElem?_eq_getElem hs', List.getElem?_eq_getElem hm, List.getElem?_eq_getElem hd]
  have hclean : ∀ e s r, NumOrNan (a.get e s r) := by
    intro e s r
    have h3 := hvote e s (r6 ▸ e.isLt) (r7 ▸ s.isLt)
    have hr0 : r.val = 0 := by have := r.isLt; omega
    unfold cell at h3
    rw [dif_pos ⟨e.isLt, s.isLt, by omega⟩] at h3
    have : r = ⟨0, by omega⟩ := Fin.ext hr0
    rw [this]
    exact Or.inr ⟨_, Option.some.inj h3⟩
  have hp : ∀ e : Fin a.E, present (videoCells a.get e) = List.ofFn fun s : Fin b.length => voteOf d q b sg mu dl phi z e s :=
    fun e => present_of_cells r7 r8 _ _ fun s => hvote e s (r6 ▸ e.isLt) s.isLt
  obtain ⟨amb, se, lo, hi, -, -, k3, -, k5, rfl, k7, k8⟩ := C12_mos_uncertainty rd' a res r5 hres hclean
  refine ⟨rd', res, r1, hres, ?_, ?_⟩
  · rw [runMOS_default r5 hres]
    show List.ofFn (meanAlongS a.get) = _
    refine List.ext_getElem (by simp [r6]) fun e h3 h4 => ?_
    have he : e < a.E := by simpa using h3
    rw [List.getElem_ofFn, List.getElem_ofFn, meanAlongS_spec _ _ (hclean _)]
    unfold meanOrNan
    rw [hp]
    dsimp only
    cases hl : List.ofFn fun s : Fin b.length => voteOf d q b sg mu dl phi z e s with
    | nil =>
      have := congrArg List.length hl
      simp at this
      rw [this] at h2
      simp at h2
    | cons x l => rfl
  · rw [k3]
    have : lo = List.ofFn (fun e : Fin d.disVideos.length => Fl.fin (1.95996 *
          (√(sampleVar (List.ofFn fun s : Fin b.length => voteOf d q b sg mu dl phi z e s)) / √(b.length : ℝ)))) := by
      refine List.ext_getElem? fun e => ?_
      rw [k7, List.getElem?_map, List.getElem?_ofFn]
      by_cases he : e < a.E
      · obtain ⟨-, k9, -⟩ := (k8 ⟨e, he⟩ _ (hp _)).1 (by simpa using h2)
        rw [k9, dif_pos (r6 ▸ he), List.length_ofFn, Option.map_some, Fl.fin_mul]
        norm_num
      · rw [List.getElem?_eq_none (by omega), dif_neg (by omega)]
        rfl
    rw [this]

theorem inCi_near {n : ℕ} (m : ℝ) (x : Fin n → ℝ) :
    ((Fl.fin (mean (List.ofFn x)) - Fl.fin (1.95996 * (√(sampleVar (List.ofFn x)) / √(n : ℝ)))).le (.fin m) = true ∧
      (Fl.fin m).le (Fl.fin (mean (List.ofFn x)) + Fl.fin (1.95996 * (√(sampleVar (List.ofFn x)) / √(n : ℝ)))) = true) ↔ near 1.95996 m x := by
  rw [Fl.fin_sub, Fl.fin_add]
  unfold near
  simp only [Fl.le, decide_eq_true_eq]
  rw [abs_le]
  constructor
  · rintro ⟨h1, h2⟩
    constructor <;> linarith
  · rintro ⟨h1, h2⟩
    constructor <;> linarith

open Classical in
/-- the percentage reported for the MOS model -/
theorem mos_percentage {d : Dataset κ ℝ} {rd : Reader κ ℝ} (hraw : rawReader d = .ok rd)
    (hstyle : (∀ dv ∈ d.disVideos, SeqStyle dv) ∨ (∀ dv ∈ d.disVideos, DictStyle dv))
    {q b sg mu dl : List ℝ} {phi : Option (List ℝ)} (hq : q.length = d.disVideos.length)
    (hsg : sg.length = b.length) (hmu : mu.length = d.refVideos.length) (hdl : dl.length = mu.length)
    (hphi : ∀ l ∈ phi, l.length = d.disVideos.length)
    (hc : ∀ dv ∈ d.disVideos, 0 ≤ dv.contentId ∧ dv.contentId < d.refVideos.length) (h2 : 2 ≤ b.length)
    {w : Rand ℝ} {seed : Option (Option Int)} {models : List (String × Modelled κ ℝ)} {write : Bool} {out : Validation κ ℝ}
    (h : validate .normal w seed models (.ok d) (synthKw q b sg mu dl phi) none write = .ok out)
    (hnd : (models.map (·.1)).Nodup) {j : ℕ} {ty : String} (hj : models[j]? = some (ty, .once mosFit)) {z : ℕ → ℝ}
    (hz : w.noiseAt .normal seed ((if write then 1 else 0) + ((models.take j).map fun p => p.2.reads).sum) = z) :
    0 < d.disVideos.length ∧ ∃ c, out.results.lookup ty = some c ∧ c.qualityPerc = some (.fin (100 * ((Finset.univ.filter fun e : Fin d.disVideos.length =>
      near 1.95996 (q.getD e 0) fun s : Fin b.length => voteOf d q b sg mu dl phi z e s).card : ℝ) / d.disVideos.length)) := by
  obtain ⟨d', fits, hd', -, k2, k3, -⟩ := validate_inv h
  cases hd'
  obtain ⟨k4, k5⟩ := fitAll_spec k2
  obtain ⟨fit, m2, m3⟩ := k5 j ty (.once mosFit) hj
  obtain ⟨rd', res, n1, n2, n3, n4⟩ := mos_synthetic hraw hstyle hq hsg hmu hdl hphi hc h2 z
  have hrd : readerAt .normal w seed d (synthKw q b sg mu dl phi) none
      ((if write then 1 else 0) + ((models.take j).map fun p => p.2.reads).sum + 0) = .ok rd' := by
    rw [← n1, ← hz]
    rfl
  have hfit : fit = { res := res } := by
    unfold Modelled.once at m2
    dsimp only at m2
    rw [hrd] at m2
    unfold mosFit at m2
    dsimp only at m2
    rw [n2] at m2
    exact (Except.ok.inj m2).symm
  subst hfit
  rw [← k4] at hnd
  have hm : (ty, ({ res := res } : Fit κ ℝ)) ∈ fits := List.mem_of_getElem? m3
  have hlast : (fits.filter fun p => p.1 = ty).getLast? = some (ty, ({ res := res } : Fit κ ℝ)) := by
    have hall : ∀ p ∈ fits.filter fun p => p.1 = ty, p = (ty, ({ res := res } : Fit κ ℝ)) := by
      intro p hp
      rw [List.mem_filter] at hp
      have : p.1 = ty := by simpa using hp.2
      exact List.inj_on_of_nodup_map hnd hp.1 hm this
    have hne : (fits.filter fun p => p.1 = ty) ≠ [] := by
      intro hnil
      have : (ty, ({ res := res } : Fit κ ℝ)) ∈ fits.filter fun p => p.1 = ty := List.mem_filter.mpr ⟨hm, by simp⟩
      rw [hnil] at this
      cases this
    rw [List.getLast?_eq_getLast_of_ne_nil hne, hall _ (List.getLast_mem hne)]
  obtain ⟨c, c1, c2, -⟩ := checkAll_perc k3 hnd ty _ hm _ (by rw [lookup_foldl, hlast]; rfl)
  obtain ⟨l, u, p, p1, p2, n, x', y', l', u', hn, hx, hy, hl, hu, hp⟩ := c2.1 (q.map .fin) res.qualityScores _ rfl rfl (by
    dsimp only
    rw [n4]
    rfl)
  simp only [List.cons.injEq, and_true] at p1
  have hnE : n = d.disVideos.length := by
    have := congrArg List.length hx
    simp at this
    omega
  subst hnE
  rw [← p1.1] at hl
  rw [← p1.2] at hu
  rw [n3] at hy
  have hy' := List.ofFn_injective hy
  have hl' := List.ofFn_injective hl
  have hu' := List.ofFn_injective hu
  have hx' : (fun e : Fin d.disVideos.length => Fl.fin (q.getD e 0)) = x' := by
    apply List.ofFn_injective
    rw [← hx]
    refine List.ext_getElem (by simp [hq]) fun e h3 h4 => ?_
    have he : e < q.length := by simpa using h4
    simp [List.getD_eq_getElem?_getD, List.getElem?_eq_getElem he]
  refine ⟨hn, c, c1, ?_⟩
  rw [p2, hp]
  congr 6
  ext e
  simp only [Finset.mem_filter, Finset.mem_univ, true_and]
  rw [← hx', ← hy', ← hl', ← hu']
  exact inCi_near (q.getD e 0) fun s : Fin b.length => voteOf d q b sg mu dl phi z e s

section expected
variable {Ω : Type*} [MeasurableSpace Ω] {P : Measure Ω} [IsProbabilityMeasure P]

/-- Observers without biases and of equal inconsistency, contents without biases: what the percentage is on average. -/
theorem expected_percentage {g : ℕ → Ω → ℝ} (hg : ∀ i, HasLaw (g i) (gaussianReal 0 1) P) (hind : iIndepFun g P)
    {d : Dataset κ ℝ} {rd : Reader κ ℝ} (hraw : rawReader d = .ok rd)
    (hstyle : (∀ dv ∈ d.disVideos, SeqStyle dv) ∨ (∀ dv ∈ d.disVideos, DictStyle dv))
    {q b sg mu dl : List ℝ} {phi : Option (List ℝ)} (hq : q.length = d.disVideos.length)
    (hsg : sg.length = b.length) (hmu : mu.length = d.refVideos.length) (hdl : dl.length = mu.length)
    (hphi : ∀ l ∈ phi, l.length = d.disVideos.length)
    (hc : ∀ dv ∈ d.disVideos, 0 ≤ dv.contentId ∧ dv.contentId < d.refVideos.length) (h2 : 2 ≤ b.length) {σ : ℝ}
    (hb0 : ∀ x ∈ b, x = 0) (hm0 : ∀ x ∈ mu, x = 0) (hs0 : ∀ x ∈ sg, x = σ)
    (hvar : ∀ (e : ℕ) (dv : DisVideo κ ℝ) (δ : ℝ), d.disVideos[e]? = some dv → dl[dv.contentId.toNat]? = some δ →
      σ ^ 2 + δ ^ 2 + ambiguityOf phi e ^ 2 ≠ 0)
    {w : Ω → Rand ℝ} {seed : Option (Option Int)} {models : List (String × Modelled κ ℝ)} {write : Bool}
    {out : Ω → Validation κ ℝ}
    (h : ∀ ω, validate .normal (w ω) seed models (.ok d) (synthKw q b sg mu dl phi) none write = .ok (out ω))
    (hnd : (models.map (·.1)).Nodup) {j : ℕ} {ty : String} (hj : models[j]? = some (ty, .once mosFit))
    (hw : ∀ ω, (w ω).noiseAt .normal seed ((if write then 1 else 0) + ((models.take j).map fun p => p.2.reads).sum) = fun i => g i ω) :
    ∃ perc : Ω → ℝ, (∀ ω, ∃ c, (out ω).results.lookup ty = some c ∧ c.qualityPerc = some (.fin (perc ω))) ∧
      Integrable perc P ∧ ∫ ω, perc ω ∂P = 100 * panelCoverage b.length := by
  classical
  have hP : Nonempty Ω := by
    by_contra hne
    rw [not_nonempty_iff] at hne
    have := measure_univ (μ := P)
    rw [Set.univ_eq_empty_iff.mpr hne] at this
    simp at this
  have hE : 0 < d.disVideos.length := (mos_percentage hraw hstyle hq hsg hmu hdl hphi hc h2 (h hP.some) hnd hj (hw _)).1
  set E := d.disVideos.length with hEdef
  set S := b.length with hSdef
  have hS0 : S ≠ 0 := by omega
  let ev : Fin E → Set Ω := fun e => {ω | near 1.95996 (q.getD e 0) fun s : Fin S => voteOf d q b sg mu dl phi (fun i => g i ω) e s}
  -- one video
  have hone : ∀ e : Fin E, NullMeasurableSet (ev e) P ∧ P.real (ev e) = panelCoverage S := by
    intro e
    have he := e.isLt
    set dv := d.disVideos[e.val] with hdv
    have hcd := hc dv (List.getElem_mem he)
    have hm : dv.contentId.toNat < mu.length := by omega
    have hd : dv.contentId.toNat < dl.length := by omega
    have hget : d.disVideos[e.val]? = some dv := List.getElem?_eq_getElem he
    let idx : Fin 3 → Fin S → ℕ := fun u s => u * (E * S) + (e * S + s)
    let wt : Fin 3 → ℝ := fun u => if u = 0 then σ else if u = 1 then dl[dv.contentId.toNat] else ambiguityOf phi e
    have hlt : ∀ s : Fin S, e * S + s < E * S := by
      intro s
      have h3 : (e.val + 1) * S ≤ E * S := Nat.mul_le_mul_right _ he
      have := s.isLt
      rw [Nat.add_mul, one_mul] at h3
      omega
    have hidx : ∀ u s v t, idx u s = idx v t → u = v ∧ s = t := by
      intro u s v t h
      dsimp only [idx] at h
      have h3 := hlt s
      have h4 := hlt t
      have huv : (u : ℕ) = v := by
        rcases lt_trichotomy (u : ℕ) v with h5 | h5 | h5
        · have := Nat.mul_le_mul_right (E * S) (show (u : ℕ) + 1 ≤ v from h5)
          rw [Nat.add_mul, one_mul] at this
          omega
        · exact h5
        · have := Nat.mul_le_mul_right (E * S) (show (v : ℕ) + 1 ≤ u from h5)
          rw [Nat.add_mul, one_mul] at this
          omega
      refine ⟨Fin.ext huv, Fin.ext ?_⟩
      rw [huv] at h
      omega
    have hsum : ∑ u, wt u ^ 2 = σ ^ 2 + dl[dv.contentId.toNat] ^ 2 + ambiguityOf phi e ^ 2 := by
      simp [wt, Fin.sum_univ_three]
    have hne := hvar e dv _ hget (List.getElem?_eq_getElem hd)
    rw [← hsum] at hne
    have hnn : 0 ≤ ∑ u, wt u ^ 2 := Finset.sum_nonneg fun u _ => sq_nonneg _
    obtain ⟨τ, hτ⟩ : ∃ τ : NNReal, (τ : ℝ) = ∑ u, wt u ^ 2 := ⟨⟨_, hnn⟩, rfl⟩
    obtain ⟨hlaw, hI⟩ := mixed_draws hg hind idx hidx wt (q.getD e 0) hτ
    have hv : ∀ (ω : Ω) (s : Fin S), voteOf d q b sg mu dl phi (fun i => g i ω) e s = q.getD e 0 + ∑ u, wt u * g (idx u s) ω := by
      intro ω s
      have hs : s.val < b.length := s.isLt
      have hs' : s.val < sg.length := by omega
      unfold voteOf
      simp only [hget, Option.map_some, Option.getD_some, List.getD_eq_getElem?_getD, List.getElem?_eq_getElem hs,
        List.getElem?_eq_getElem hs', List.getElem?_eq_getElem hm, List.getElem?_eq_getElem hd, hb0 _ (List.getElem_mem hs),
        hm0 _ (List.getElem_mem hm), hs0 _ (List.getElem_mem hs')]
      simp only [wt, idx, Fin.sum_univ_three, ← hEdef, ← hSdef]
      simp
      ring
    have hev : ev e = {ω | near 1.95996 (q.getD e 0) fun s : Fin S => q.getD e 0 + ∑ u, wt u * g (idx u s) ω} := by
      ext ω
      show near _ _ _ ↔ near _ _ _
      simp only [hv]
    rw [hev]
    refine ⟨?_, panel_eq hS0 (fun h0 => hne (by rw [← hτ, h0]; rfl)) hlaw hI⟩
    exact (aemeasurable_pi_lambda (fun ω (s : Fin S) => q.getD e 0 + ∑ u, wt u * g (idx u s) ω) fun s => (hlaw s).aemeasurable).nullMeasurableSet_preimage
      (near_measurable _ _ _)
  have hint : ∀ e, Integrable ((ev e).indicator fun _ => (1 : ℝ)) P := fun e => (integrable_const _).indicator₀ (hone e).1
  have hperc : ∀ ω, 100 * ((Finset.univ.filter fun e : Fin E =>
      near 1.95996 (q.getD e 0) fun s : Fin S => voteOf d q b sg mu dl phi (fun i => g i ω) e s).card : ℝ) / E =
      100 * (∑ e, (ev e).indicator (fun _ => (1 : ℝ)) ω) / E := by
    intro ω
    congr 2
    rw [Finset.card_filter]
    push_cast
    refine Finset.sum_congr rfl fun e _ => ?_
    rw [Set.indicator_apply]
    rfl
  refine ⟨fun ω => 100 * (∑ e, (ev e).indicator (fun _ => (1 : ℝ)) ω) / E, fun ω => ?_, ?_, ?_⟩
  · obtain ⟨-, c, c1, c2⟩ := mos_percentage hraw hstyle hq hsg hmu hdl hphi hc h2 (h ω) hnd hj (hw ω)
    refine ⟨c, c1, ?_⟩
    rw [c2]
    exact congrArg (fun x => some (Fl.fin x)) (hperc ω)
  · exact ((integrable_finsetSum _ fun e _ => hint e).const_mul _).div_const _
  · have hE0 : (E : ℝ) ≠ 0 := by exact_mod_cast hE.ne'
    rw [integral_div, integral_const_mul, integral_finsetSum _ fun e _ => hint e]
    have : ∀ e, ∫ ω, (ev e).indicator (fun _ => (1 : ℝ)) ω ∂P = panelCoverage S := by
      intro e
      rw [integral_indicator₀ (hone e).1, setIntegral_const, smul_eq_mul, mul_one, (hone e).2]
    simp only [this, Finset.sum_const, Finset.card_univ, Fintype.card_fin, nsmul_eq_mul]
    field_simp

/-- **C122 (refuted).** Synthetic votes of observers without biases and of equal inconsistency, on contents without biases, made from
independent standard normal draws: however many observers there are, the percentage that is reported for the MOS model is below 95 on
average. -/
theorem C122_expected_refuted (g : ℕ → Ω → ℝ) (hg : ∀ i, HasLaw (g i) (gaussianReal 0 1) P) (hind : iIndepFun g P)
    (d : Dataset κ ℝ) (rd : Reader κ ℝ) (hraw : rawReader d = .ok rd)
    (hstyle : (∀ dv ∈ d.disVideos, SeqStyle dv) ∨ (∀ dv ∈ d.disVideos, DictStyle dv))
    (q b sg mu dl : List ℝ) (phi : Option (List ℝ)) (hq : q.length = d.disVideos.length)
    (hsg : sg.length = b.length) (hmu : mu.length = d.refVideos.length) (hdl : dl.length = mu.length)
    (hphi : ∀ l ∈ phi, l.length = d.disVideos.length)
    (hc : ∀ dv ∈ d.disVideos, 0 ≤ dv.contentId ∧ dv.contentId < d.refVideos.length) (h2 : 2 ≤ b.length) (σ : ℝ)
    (hb0 : ∀ x ∈ b, x = 0) (hm0 : ∀ x ∈ mu, x = 0) (hs0 : ∀ x ∈ sg, x = σ)
    (hvar : ∀ (e : ℕ) (dv : DisVideo κ ℝ) (δ : ℝ), d.disVideos[e]? = some dv → dl[dv.contentId.toNat]? = some δ →
      σ ^ 2 + δ ^ 2 + ambiguityOf phi e ^ 2 ≠ 0)
    (w : Ω → Rand ℝ) (seed : Option (Option Int)) (models : List (String × Modelled κ ℝ)) (write : Bool)
    (out : Ω → Validation κ ℝ)
    (h : ∀ ω, validate .normal (w ω) seed models (.ok d) (synthKw q b sg mu dl phi) none write = .ok (out ω))
    (hnd : (models.map (·.1)).Nodup) (j : ℕ) (ty : String) (hj : models[j]? = some (ty, .once mosFit))
    (hw : ∀ ω, (w ω).noiseAt .normal seed ((if write then 1 else 0) + ((models.take j).map fun p => p.2.reads).sum) = fun i => g i ω) :
    ∃ perc : Ω → ℝ, (∀ ω, ∃ c, (out ω).results.lookup ty = some c ∧ c.qualityPerc = some (.fin (perc ω))) ∧
      Integrable perc P ∧ ∫ ω, perc ω ∂P < 95 := by
  obtain ⟨perc, h1, h3, h4⟩ := expected_percentage hg hind hraw hstyle hq hsg hmu hdl hphi hc h2 hb0 hm0 hs0 hvar h hnd hj hw
  refine ⟨perc, h1, h3, ?_⟩
  rw [h4]
  have := panelCoverage_lt h2
  norm_num at this ⊢
  linarith

end expected

/-- **C122 (partial).** There is a number of observers from which on, with such synthetic votes, the percentage that is reported for the MOS
model is within one ten-thousandth of 95 on average, whatever the dataset and the parameters.

Missing: it is below 95 for every number of observers (`C122_expected_refuted`), and with biases of the observers it can be anything
(`C122_refuted_biases`). -/
theorem C122_expected_partial : ∃ N : ℕ, ∀ (Ω : Type) [MeasurableSpace Ω] (P : Measure Ω) [IsProbabilityMeasure P] (g : ℕ → Ω → ℝ),
    (∀ i, HasLaw (g i) (gaussianReal 0 1) P) → iIndepFun g P →
    ∀ (d : Dataset κ ℝ) (rd : Reader κ ℝ), rawReader d = .ok rd →
    (∀ dv ∈ d.disVideos, SeqStyle dv) ∨ (∀ dv ∈ d.disVideos, DictStyle dv) →
    ∀ (q b sg mu dl : List ℝ) (phi : Option (List ℝ)), q.length = d.disVideos.length → sg.length = b.length →
    mu.length = d.refVideos.length → dl.length = mu.length → (∀ l ∈ phi, l.length = d.disVideos.length) →
    (∀ dv ∈ d.disVideos, 0 ≤ dv.contentId ∧ dv.contentId < d.refVideos.length) → N ≤ b.length →
    ∀ σ : ℝ, (∀ x ∈ b, x = 0) → (∀ x ∈ mu, x = 0) → (∀ x ∈ sg, x = σ) →
    (∀ (e : ℕ) (dv : DisVideo κ ℝ) (δ : ℝ), d.disVideos[e]? = some dv → dl[dv.contentId.toNat]? = some δ →
      σ ^ 2 + δ ^ 2 + ambiguityOf phi e ^ 2 ≠ 0) →
    ∀ (w : Ω → Rand ℝ) (seed : Option (Option Int)) (models : List (String × Modelled κ ℝ)) (write : Bool)
      (out : Ω → Validation κ ℝ),
    (∀ ω, validate .normal (w ω) seed models (.ok d) (synthKw q b sg mu dl phi) none write = .ok (out ω)) →
    (models.map (·.1)).Nodup → ∀ (j : ℕ) (ty : String), models[j]? = some (ty, .once mosFit) →
    (∀ ω, (w ω).noiseAt .normal seed ((if write then 1 else 0) + ((models.take j).map fun p => p.2.reads).sum) = fun i => g i ω) →
    ∃ perc : Ω → ℝ, (∀ ω, ∃ c, (out ω).results.lookup ty = some c ∧ c.qualityPerc = some (.fin (perc ω))) ∧
      Integrable perc P ∧ |∫ ω, perc ω ∂P - 95| < 1 / 10 ^ 4 := by
  obtain ⟨N, hN⟩ := panelCoverage_limit
  refine ⟨max N 2, ?_⟩
  intro Ω _ P _ g hg hind d rd hraw hstyle q b sg mu dl phi hq hsg hmu hdl hphi hc hS σ hb0 hm0 hs0 hvar w seed models write out h hnd j ty hj hw
  obtain ⟨perc, h1, h3, h4⟩ := expected_percentage hg hind hraw hstyle hq hsg hmu hdl hphi hc (le_trans (le_max_right _ _) hS) hb0 hm0 hs0
    hvar h hnd hj hw
  refine ⟨perc, h1, h3, ?_⟩
  rw [h4]
  have := hN _ (le_trans (le_max_left _ _) hS)
  rw [abs_lt] at this ⊢
  norm_num at this ⊢
  constructor <;> linarith

/-- **C122 (refuted).** Without noise, whatever the draws: with biases that add up to zero the percentage is 100, with equal biases other
than zero it is 0. -/
theorem C122_refuted_biases (d : Dataset κ ℝ) (rd : Reader κ ℝ) (hraw : rawReader d = .ok rd)
    (hstyle : (∀ dv ∈ d.disVideos, SeqStyle dv) ∨ (∀ dv ∈ d.disVideos, DictStyle dv))
    (q b sg mu dl : List ℝ) (hq : q.length = d.disVideos.length)
    (hsg : sg.length = b.length) (hmu : mu.length = d.refVideos.length) (hdl : dl.length = mu.length)
    (hc : ∀ dv ∈ d.disVideos, 0 ≤ dv.contentId ∧ dv.contentId < d.refVideos.length) (h2 : 2 ≤ b.length)
    (hm0 : ∀ x ∈ mu, x = 0) (hs0 : ∀ x ∈ sg, x = 0) (hd0 : ∀ x ∈ dl, x = 0)
    (w : Rand ℝ) (seed : Option (Option Int)) (models : List (String × Modelled κ ℝ)) (write : Bool) (out : Validation κ ℝ)
    (h : validate .normal w seed models (.ok d) (synthKw q b sg mu dl none) none write = .ok out)
    (hnd : (models.map (·.1)).Nodup) (j : ℕ) (ty : String) (hj : models[j]? = some (ty, .once mosFit)) :
    ∃ c, out.results.lookup ty = some c ∧ (b.sum = 0 → c.qualityPerc = some (.fin 100)) ∧
      ∀ β, β ≠ 0 → (∀ x ∈ b, x = β) → c.qualityPerc = some (.fin 0) := by
  classical
  obtain ⟨hE, c, h1, h3⟩ := mos_percentage hraw hstyle hq hsg hmu hdl (phi := none) (by simp) hc h2 h hnd hj rfl
  have hS0 : (b.length : ℝ) ≠ 0 := by
    have : b.length ≠ 0 := by omega
    exact_mod_cast this
  have hE0 : (d.disVideos.length : ℝ) ≠ 0 := by exact_mod_cast hE.ne'
  have hv : ∀ (z : ℕ → ℝ) (e : Fin d.disVideos.length) (s : Fin b.length), voteOf d q b sg mu dl none z e s = q.getD e 0 + b.get s := by
    intro z e s
    have he := e.isLt
    have hcd := hc _ (List.getElem_mem he)
    have hs' : s.val < sg.length := by have := s.isLt; omega
    have hm : d.disVideos[e.val].contentId.toNat < mu.length := by omega
    have hd : d.disVideos[e.val].contentId.toNat < dl.length := by omega
    unfold voteOf
    simp only [List.getElem?_eq_getElem he, Option.map_some, Option.getD_some, List.getD_eq_getElem?_getD, List.getElem?_eq_getElem s.isLt,
      List.getElem?_eq_getElem hs', List.getElem?_eq_getElem hm, List.getElem?_eq_getElem hd, hd0 _ (List.getElem_mem hd),
      hm0 _ (List.getElem_mem hm), hs0 _ (List.getElem_mem hs'), ambiguityOf]
    simp
  have hmean : ∀ e : Fin d.disVideos.length, (∑ s : Fin b.length, (q.getD e 0 + b.get s)) / b.length = q.getD e 0 + b.sum / b.length := by
    intro e
    have : ∑ s, b.get s = b.sum := by rw [← List.sum_ofFn, List.ofFn_get]
    rw [Finset.sum_add_distrib, this]
    simp only [Finset.sum_const, Finset.card_univ, Fintype.card_fin, nsmul_eq_mul]
    field_simp
  simp only [hv] at h3
  refine ⟨c, h1, ?_, ?_⟩
  · intro hb
    rw [h3, Finset.filter_true_of_mem]
    · rw [Finset.card_univ, Fintype.card_fin, mul_div_cancel_right₀ _ hE0]
    · intro e _
      unfold near
      rw [mean_fn, hmean, hb, zero_div, add_zero, sub_self, abs_zero]
      positivity
  · intro β hβ hall
    rw [h3, Finset.filter_false_of_mem]
    · rw [Finset.card_empty, Nat.cast_zero, mul_zero, zero_div]
    · intro e _
      have hg : ∀ s, b.get s = β := fun s => hall _ (List.get_mem b s)
      have hsum : b.sum = b.length * β := by
        rw [List.sum_eq_card_nsmul b β hall, nsmul_eq_mul]
      unfold near sampleVar
      rw [sqDev_fn, mean_fn, hmean, hsum, mul_div_cancel_left₀ _ hS0, add_sub_cancel_left]
      simp only [hg, sub_self]
      simp [hβ]

/-! ## Examples -/

/-- with the MOS model alone the validation succeeds -/
theorem mos_validates {d : Dataset κ ℝ} {rd : Reader κ ℝ} (hraw : rawReader d = .ok rd)
    (hstyle : (∀ dv ∈ d.disVideos, SeqStyle dv) ∨ (∀ dv ∈ d.disVideos, DictStyle dv))
    {q b sg mu dl : List ℝ} {phi : Option (List ℝ)} (hq : q.length = d.disVideos.length)
    (hsg : sg.length = b.length) (hmu : mu.length = d.refVideos.length) (hdl : dl.length = mu.length)
    (hphi : ∀ l ∈ phi, l.length = d.disVideos.length)
    (hc : ∀ dv ∈ d.disVideos, 0 ≤ dv.contentId ∧ dv.contentId < d.refVideos.length) (h2 : 2 ≤ b.length) (w : Rand ℝ) (seed : Option (Option Int)) :
    ∃ out, validate .normal w seed [("MOS", .once mosFit)] (.ok d) (synthKw q b sg mu dl phi) none false = .ok out := by
  obtain ⟨rd', res, n1, n2, n3, n4⟩ := mos_synthetic hraw hstyle hq hsg hmu hdl hphi hc h2 (w.noiseAt .normal seed 0)
  have hread : readerAt .normal w seed d (synthKw q b sg mu dl phi) none 0 = .ok rd' := n1
  have hfit : mosFit rd' = .ok { res := res } := by
    unfold mosFit
    rw [n2]
  have hres : res.observerBias = none ∧ res.observerInconsistency = none := by
    obtain ⟨rd2, a, r1, r2, r3, r4, r5, -⟩ := C54_model d rd hraw (w.noiseAt .normal seed 0) q b sg mu dl phi hq hsg hmu hdl hphi hc
    rw [n1] at r1
    cases r1
    rw [runMOS_default r5 n2]
    exact ⟨rfl, rfl⟩
  have hd : d.disVideos ≠ [] := ((C01_accepts_iff_wellFormed d).mp (rawReader_inv hraw).1).diss
  obtain ⟨v, hv⟩ := (C70_errors (some (q.map Fl.fin)) (some res.qualityScores) (res.qualityScoresCi95.map fun p => [p.1, p.2])).mpr (by
    rw [n4]
    refine ⟨_, _, _, _, rfl, rfl, rfl, ?_, ?_, ?_, rfl⟩
    · intro h0
      have := congrArg List.length h0
      simp [hq] at this
      exact hd this
    · rw [n3]
      simp [hq]
    · rw [n3]
      simp)
  unfold validate
  rw [if_pos (Option.all_none (p := fun p : Fl ℝ => Fl.le 0 p && Fl.lt p 1))]
  dsimp only
  rw [hread]
  dsimp only
  unfold writtenDataset
  rw [if_neg (by simp)]
  dsimp only
  unfold fitAll
  unfold Modelled.once
  dsimp only
  rw [if_neg (by simp), Nat.zero_add, hread]
  dsimp only
  rw [hfit]
  dsimp only [fitAll, List.foldl_cons, List.foldl_nil, setKey, checkAll, checkOne]
  rw [List.lookup_cons_self]
  dsimp only
  have hp : percentage (synthKw q b sg mu dl phi).quality (some res.qualityScores) (res.qualityScoresCi95.map fun p => [p.1, p.2]) none = .ok (some v) := by
    rw [n4] at hv ⊢
    unfold percentage synthKw
    dsimp only [Option.map_some] at hv ⊢
    rw [hv]
  rw [hp, hres.1, hres.2]
  exact ⟨_, rfl⟩

theorem exSynth_style : (∀ dv ∈ exSynth.disVideos, SeqStyle dv) := by
  intro dv hdv
  simp only [exSynth, List.mem_cons, List.not_mem_nil, or_false] at hdv
  rcases hdv with rfl | rfl <;> exact ⟨_, _, rfl⟩

/-- thirty observers, two videos, ambiguities 1/2 and 1 (as in `run_synthetic_validate_ci.py` there are no inconsistencies) -/
example : ∃ (Ω : Type) (_ : MeasurableSpace Ω) (P : Measure Ω) (_ : IsProbabilityMeasure P) (out : Ω → Validation String ℝ) (perc : Ω → ℝ),
    (∀ ω, ∃ w : Rand ℝ, validate .normal w none [("MOS", .once mosFit)] (.ok exSynth)
      (synthKw [3, 4] (List.replicate 30 0) (List.replicate 30 0) [0] [0] (some [1 / 2, 1])) none false = .ok (out ω)) ∧
    (∀ ω, ∃ c, (out ω).results.lookup "MOS" = some c ∧ c.qualityPerc = some (.fin (perc ω))) ∧ ∫ ω, perc ω ∂P < 95 := by
  obtain ⟨Ω, mΩ, P, g, h1, hl, hi, h4⟩ := exists_iid ℕ (gaussianReal 0 1)
  obtain ⟨rd, hrd⟩ : ∃ rd, rawReader exSynth = .ok rd := ⟨_, rfl⟩
  let w : Ω → Rand ℝ := fun ω => ⟨fun _ i => g i ω, fun _ _ => 0, fun _ _ => 0, fun _ _ => 0⟩
  have hv : ∀ ω, _ := fun ω => mos_validates (q := [3, 4]) (b := List.replicate 30 0) (sg := List.replicate 30 0) (mu := [0]) (dl := [0])
    (phi := some [1 / 2, 1]) hrd (Or.inl exSynth_style) rfl rfl rfl rfl (by simp [exSynth]) (by simp [exSynth]) (by simp) (w ω) none
  obtain ⟨perc, p1, -, p3⟩ := C122_expected_refuted g hl hi exSynth rd hrd (Or.inl exSynth_style) [3, 4] (List.replicate 30 0)
    (List.replicate 30 0) [0] [0] (some [1 / 2, 1]) rfl rfl rfl rfl (by simp [exSynth]) (by simp [exSynth]) (by simp) 0
    (fun x hx => List.eq_of_mem_replicate hx) (by simp) (fun x hx => List.eq_of_mem_replicate hx) (by
      intro e dv δ he _
      have hne : ambiguityOf (some [1 / 2, 1]) e ≠ 0 := by
        have : e < 2 := (List.getElem?_eq_some_iff.mp he).1
        interval_cases e <;> simp [ambiguityOf]
      positivity) w none
    [("MOS", .once mosFit)] false (fun ω => (hv ω).choose) (fun ω => (hv ω).choose_spec) (by simp) 0 "MOS" rfl (fun ω => rfl)
  exact ⟨Ω, mΩ, P, h4, fun ω => (hv ω).choose, perc, fun ω => ⟨w ω, (hv ω).choose_spec⟩, p1, p3⟩

/-- two observers with biases 1 and -1: always 100%; with biases 1 and 1: 0% -/
example (w : Rand ℝ) :
    (∃ out c, validate .normal w none [("MOS", .once mosFit)] (.ok exSynth) (synthKw [3, 4] [1, -1] [0, 0] [0] [0] none) none false = .ok out ∧
      out.results.lookup "MOS" = some c ∧ c.qualityPerc = some (.fin 100)) ∧
    ∃ out c, validate .normal w none [("MOS", .once mosFit)] (.ok exSynth) (synthKw [3, 4] [1, 1] [0, 0] [0] [0] none) none false = .ok out ∧
      out.results.lookup "MOS" = some c ∧ c.qualityPerc = some (.fin 0) := by
  obtain ⟨rd, hrd⟩ : ∃ rd, rawReader exSynth = .ok rd := ⟨_, rfl⟩
  constructor
  · obtain ⟨out, ho⟩ := mos_validates (q := [3, 4]) (b := [1, -1]) (sg := [0, 0]) (mu := [0]) (dl := [0])
      (phi := none) hrd (Or.inl exSynth_style) rfl rfl rfl rfl (by simp) (by simp [exSynth]) (by simp) w none
    obtain ⟨c, c1, c2, -⟩ := C122_refuted_biases exSynth rd hrd (Or.inl exSynth_style) [3, 4] [1, -1] [0, 0] [0] [0] rfl rfl rfl rfl
      (by simp [exSynth]) (by simp) (by simp) (by simp) (by simp) w none _ false out ho (by simp) 0 "MOS" rfl
    exact ⟨out, c, ho, c1, c2 (by norm_num)⟩
  · obtain ⟨out, ho⟩ := mos_validates (q := [3, 4]) (b := [1, 1]) (sg := [0, 0]) (mu := [0]) (dl := [0])
      (phi := none) hrd (Or.inl exSynth_style) rfl rfl rfl rfl (by simp) (by simp [exSynth]) (by simp) w none
    obtain ⟨c, c1, -, c2⟩ := C122_refuted_biases exSynth rd hrd (Or.inl exSynth_style) [3, 4] [1, 1] [0, 0] [0] [0] rfl rfl rfl rfl
      (by simp [exSynth]) (by simp) (by simp) (by simp) (by simp) w none _ false out ho (by simp) 0 "MOS" rfl
    exact ⟨out, c, ho, c1, c2 1 one_ne_zero (by simp)⟩

end Sureal.Props
