import Verif.Lemmas.SynthLaw
import Verif.Props.Synth
import Verif.Lemmas.Zscore
import Verif.Props.Mos
import Mathlib.Probability.Distributions.Gaussian.Real
import Mathlib.Probability.Independence.InfinitePi
import Mathlib.Probability.Independence.Integration
/-!
# C96: mean opinion scores of synthetic data
-/
set_option linter.unusedSectionVars false
namespace Sureal.Props
open Spec Mock MeasureTheory SynthLaw
variable {κ : Type} [LinearOrder κ]

theorem flatten_singletons {α β : Type} (l : List α) (f : α → β) : (l.map fun x => [f x]).flatten = l.map f := by
  induction l with
  | nil => rfl
  | cons x l ih => simp [ih]

theorem present_of_cells {a : Arr3D (Fl ℝ)} {n : ℕ} (hS : a.S = n) (hR : a.R = 1) (e : Fin a.E) (x : Fin n → ℝ)
    (h : ∀ s : Fin n, cell a e s 0 = some (.fin (x s))) : present (videoCells a.get e) = List.ofFn x := by
  obtain ⟨E, S, R, get⟩ := a
  dsimp only at hS hR e h ⊢
  subst hS hR
  have hg : ∀ s, get e s 0 = .fin (x s) := by
    intro s
    have := h s
    simpa [cell] using this
  unfold present videoCells
  simp only [List.ofFn_succ, List.ofFn_zero, hg]
  rw [List.ofFn_eq_map, flatten_singletons, List.filterMap_map, List.ofFn_eq_map]
  exact congrFun List.filterMap_eq_map' _

theorem observers_cases {d : Dataset κ ℝ} {rd : Reader κ ℝ} (hraw : rawReader d = .ok rd)
    (hstyle : (∀ dv ∈ d.disVideos, SeqStyle dv) ∨ (∀ dv ∈ d.disVideos, DictStyle dv)) :
    (∃ o, rd.observers = .ok o) ∨ rd.observers = .error .assertion := by
  obtain ⟨hass, hrd⟩ := rawReader_inv hraw
  have w := (C01_accepts_iff_wellFormed d).mp hass
  rcases hstyle with h | h
  · right
    rw [hrd]
    show listObservers d.disVideos = _
    unfold listObservers
    cases hd : d.disVideos with
    | nil => exact absurd hd w.diss
    | cons d0 rest =>
      obtain ⟨t, l, hl⟩ := h d0 (by rw [hd]; exact List.mem_cons_self)
      simp only [mapPy, osDict, hl]
  · left
    rw [hrd]
    exact ⟨_, listObservers_dict h⟩

theorem runMOS_ok {rd : Reader κ ℝ} {a : Arr3D (Fl ℝ)} (hsc : rd.scores = .ok a)
    (hobs : (∃ o, rd.observers = .ok o) ∨ rd.observers = .error .assertion) : ∃ res, runMOS rd {} = .ok res := by
  unfold runMOS runModeling mosRunModeling
  rw [preprocess_default hsc]
  dsimp only
  rcases hobs with ⟨o, ho⟩ | ho <;> rw [ho]
  · exact ⟨_, rfl⟩
  · exact ⟨_, rfl⟩

/-- **C96.** Votes generated with quality `q_e`, biases `b_s`, inconsistencies `sigma_s`, content bias `m` and ambiguity `delta` of the content, and
ambiguity of the video, from draws of mean 0 and variance 1, uncorrelated.  Whatever the draws, the MOS model reports a number for the score of a
video and for its standard error.  The expected score is the quality plus the mean of the biases plus the content bias.  The
variance of the score is the mean variance of a vote, divided by the number of observers.  The expected square of the reported standard error is
this variance plus the sample variance of the biases divided by the number of observers, so it is right on average exactly if all biases are equal, and
otherwise too large. -/
theorem C96_mos {Ω : Type} [MeasurableSpace Ω] (P : Measure Ω) [IsProbabilityMeasure P] (g : ℕ → Ω → ℝ) (hg : Standard P g)
    (d : Dataset κ ℝ) (rd : Reader κ ℝ) (hraw : rawReader d = .ok rd)
    (hstyle : (∀ dv ∈ d.disVideos, SeqStyle dv) ∨ (∀ dv ∈ d.disVideos, DictStyle dv))
    (q b sg mu dl : List ℝ) (phi : Option (List ℝ)) (hq : q.length = d.disVideos.length)
    (hsg : sg.length = b.length) (hmu : mu.length = d.refVideos.length) (hdl : dl.length = mu.length)
    (hphi : ∀ l ∈ phi, l.length = d.disVideos.length)
    (hc : ∀ dv ∈ d.disVideos, 0 ≤ dv.contentId ∧ dv.contentId < d.refVideos.length) (h2 : 2 ≤ b.length)
    (e : ℕ) (dv : DisVideo κ ℝ) (qe m dc : ℝ) (hdv : d.disVideos[e]? = some dv) (hqe : q[e]? = some qe)
    (hm : mu[dv.contentId.toNat]? = some m) (hd : dl[dv.contentId.toNat]? = some dc)
    (var : ℝ) (hvar : var = ((sg.map fun x => x ^ 2).sum / b.length + dc ^ 2 + ambiguityOf phi e ^ 2) / b.length) :
    ∃ score se : Ω → ℝ,
      (∀ ω, ∃ rd' res l, syntheticReader d (synthKw q b sg mu dl phi) (fun i => g i ω) = .ok rd' ∧ runMOS rd' {} = .ok res ∧
        res.qualityScores[e]? = some (.fin (score ω)) ∧ res.qualityScoresStd = some l ∧ l[e]? = some (.fin (se ω)) ∧ 0 ≤ se ω) ∧
      MemLp score 2 P ∧ ∫ ω, score ω ∂P = qe + mean b + m ∧
      ∫ ω, (score ω - (qe + mean b + m)) ^ 2 ∂P = var ∧
      Integrable (fun ω => se ω ^ 2) P ∧ ∫ ω, se ω ^ 2 ∂P = var + sampleVar b / b.length ∧
      var ≤ ∫ ω, se ω ^ 2 ∂P ∧ (∫ ω, se ω ^ 2 ∂P = var ↔ ∀ x ∈ b, ∀ y ∈ b, x = y) := by
  set S := b.length with hSdef
  set E := d.disVideos.length with hEdef
  have hS0 : S ≠ 0 := by omega
  have hSr : (S : ℝ) ≠ 0 := Nat.cast_ne_zero.mpr hS0
  have hS1 : (S : ℝ) - 1 ≠ 0 := by
    have : (2 : ℝ) ≤ S := by exact_mod_cast h2
    linarith
  have heE : e < E := (List.getElem?_eq_some_iff.mp hdv).1
  -- the noise
  let idx : Fin 3 → Fin S → ℕ := fun u s => u * (E * S) + (e * S + s)
  let w : Fin 3 → Fin S → ℝ := fun u s => if u = 0 then sg.getD s 0 else if u = 1 then dc else ambiguityOf phi e
  have hlt : ∀ s : Fin S, e * S + s < E * S := by
    intro s
    have h3 : (e + 1) * S ≤ E * S := Nat.mul_le_mul_right _ heE
    have := s.isLt
    rw [Nat.add_mul, one_mul] at h3
    omega
  have hidx : ∀ u s v t, idx u s = idx v t → u = v ∧ s = t := by
    intro u s v t h
    dsimp only [idx] at h
    have h3 := hlt s
    have h4 := hlt t
    have huv : (u : ℕ) = v := by
      rcases lt_trichotomy (u : ℕ) v with h5 | h5 | h5
      · have := Nat.mul_le_mul_right (E * S) (show (u : ℕ) + 1 ≤ v from h5)
        rw [Nat.add_mul, one_mul] at this
        omega
      · exact h5
      · have := Nat.mul_le_mul_right (E * S) (show (v : ℕ) + 1 ≤ u from h5)
        rw [Nat.add_mul, one_mul] at this
        omega
    refine ⟨Fin.ext huv, Fin.ext ?_⟩
    rw [huv] at h
    omega
  have hN := noise_of hg idx hidx w
  set Y : Fin S → Ω → ℝ := fun s ω => ∑ u, w u s * g (idx u s) ω with hY
  set τ : Fin S → ℝ := fun s => ∑ u, w u s ^ 2 with hτ
  let c : Fin S → ℝ := fun s => qe + b.get s + m
  have hsum : ∑ s, τ s = S * (S * var) := by
    have h3 : ∑ s : Fin S, sg.getD s 0 ^ 2 = (sg.map fun x => x ^ 2).sum := by
      have : sg.map (fun x => x ^ 2) = List.ofFn fun s : Fin S => sg.getD s 0 ^ 2 := by
        apply List.ext_getElem
        · simp [hsg, hSdef]
        · intro i h4 h5
          have : i < sg.length := by simpa using h4
          simp [List.getD_eq_getElem?_getD, List.getElem?_eq_getElem this]
      rw [this, List.sum_ofFn]
    have h4 : ∀ s, τ s = sg.getD s 0 ^ 2 + dc ^ 2 + ambiguityOf phi e ^ 2 := by
      intro s
      simp [hτ, w, Fin.sum_univ_three]
    simp only [h4, Finset.sum_add_distrib, h3]
    simp only [Finset.sum_const, Finset.card_univ, Fintype.card_fin, nsmul_eq_mul]
    rw [hvar]
    field_simp
  have hcm : mean (List.ofFn c) = qe + mean b + m := by
    rw [mean_ofFn]
    unfold avg mean
    simp only [c, Finset.sum_add_distrib, Finset.sum_const, Finset.card_univ, Fintype.card_fin, nsmul_eq_mul]
    have : ∑ s, b.get s = b.sum := by rw [← List.sum_ofFn, List.ofFn_get]
    rw [this, ← hSdef]
    field_simp
  have hcd : sqDev (List.ofFn c) = sqDev b := by
    have h3 : List.ofFn c = b.map fun x => qe + x + m := by
      rw [List.ofFn_eq_map]
      conv_rhs => rw [← List.ofFn_get b, List.ofFn_eq_map, List.map_map]
      rfl
    unfold sqDev
    rw [hcm, h3, List.map_map]
    congr 1
    refine List.map_congr_left fun x _ => ?_
    simp only [Function.comp]
    ring
  refine ⟨fun ω => mean (List.ofFn fun s => c s + Y s ω),
    fun ω => Real.sqrt (sampleVar (List.ofFn fun s => c s + Y s ω)) / Real.sqrt (List.ofFn fun s => c s + Y s ω).length, ?_, ?_, ?_, ?_, ?_⟩
  · intro ω
    obtain ⟨rd', a, r1, r2, r3, r4, r5, r6, r7, r8, hcell⟩ := C54_model d rd hraw (fun i => g i ω) q b sg mu dl phi hq hsg hmu hdl hphi hc
    obtain ⟨res, hres⟩ := runMOS_ok r5 (by rw [r4]; exact observers_cases hraw hstyle)
    have hclean : ∀ e s r, NumOrNan (a.get e s r) := by
      intro e s r
      have he : e.val < d.disVideos.length := r6 ▸ e.isLt
      have hs : s.val < b.length := r7 ▸ s.isLt
      have hcd := hc _ (List.getElem_mem he)
      have h3 := hcell e s _ _ _ _ _ _ (List.getElem?_eq_getElem he) (List.getElem?_eq_getElem (hq ▸ he)) (List.getElem?_eq_getElem hs)
        (List.getElem?_eq_getElem (hsg ▸ hs)) (List.getElem?_eq_getElem (by omega)) (List.getElem?_eq_getElem (by omega))
      have hr0 : r.val = 0 := by have := r.isLt; omega
      unfold cell at h3
      rw [dif_pos ⟨e.isLt, s.isLt, by omega⟩] at h3
      have : r = ⟨0, by omega⟩ := Fin.ext hr0
      rw [this]
      exact Or.inr ⟨_, Option.some.inj h3⟩
    have he : e < a.E := by omega
    have hp : present (videoCells a.get ⟨e, he⟩) = List.ofFn fun s => c s + Y s ω := by
      refine present_of_cells r7 r8 _ _ fun s => ?_
      have hsg' : s.val < sg.length := by rw [hsg]; exact s.isLt
      rw [hcell e s dv qe (b.get s) (sg[s.val]) m dc hdv hqe (List.getElem?_eq_getElem s.isLt) (List.getElem?_eq_getElem hsg') hm hd]
      congr 2
      simp only [hY, w, idx, c, Fin.sum_univ_three]
      have hn : ∀ z, ambiguityNoise phi z e = ambiguityOf phi e * z := by
        intro z
        unfold ambiguityNoise ambiguityOf
        cases phi with
        | none => simp
        | some l => simp [mul_comm]
      rw [hn]
      simp [List.getD_eq_getElem?_getD, List.getElem?_eq_getElem hsg']
      ring
    obtain ⟨amb, se, lo, hi, -, k2, -, -, -, -, -, k8⟩ := C12_mos_uncertainty rd' a res r5 hres hclean
    obtain ⟨-, k9, k10⟩ := (k8 ⟨e, he⟩ _ hp).1 (by simpa using h2)
    refine ⟨rd', res, se, r1, hres, ?_, k2, k9, k10⟩
    rw [runMOS_default r5 hres]
    show (List.ofFn (meanAlongS a.get))[e]? = _
    rw [List.getElem?_ofFn, dif_pos he, meanAlongS_spec _ _ (hclean _)]
    unfold meanOrNan
    rw [hp]
    cases hl : List.ofFn fun s => c s + Y s ω with
    | nil =>
      have := congrArg List.length hl
      simp at this
      omega
    | cons x l => dsimp only; rw [hl]
  · exact mean_memLp hN c
  · rw [mean_mean hN c, hcm]
  · rw [← hcm, mean_var hN c, hsum]
    field_simp
  · have hse : ∀ ω, (Real.sqrt (sampleVar (List.ofFn fun s => c s + Y s ω)) / Real.sqrt (List.ofFn fun s => c s + Y s ω).length) ^ 2 =
        sqDev (List.ofFn fun s => c s + Y s ω) / ((S - 1) * S) := by
      intro ω
      have hpos : (0 : ℝ) ≤ S - 1 := by
        have : (2 : ℝ) ≤ S := by exact_mod_cast h2
        linarith
      rw [div_pow, Real.sq_sqrt (Nat.cast_nonneg _), Real.sq_sqrt]
      · unfold sampleVar
        rw [List.length_ofFn, div_div]
      · unfold sampleVar
        rw [List.length_ofFn]
        exact div_nonneg (Np.sqDev_nonneg _) hpos
    simp only [hse]
    have hmain : ∫ ω, sqDev (List.ofFn fun s => c s + Y s ω) / ((S - 1) * S) ∂P = var + sampleVar b / S := by
      rw [integral_div, sqDev_mean hN hS0 c, hsum, hcd]
      unfold sampleVar
      rw [← hSdef]
      field_simp
      ring
    have hpos : (0 : ℝ) < S - 1 := by
      have : (2 : ℝ) ≤ S := by exact_mod_cast h2
      linarith
    have hS' : (0 : ℝ) < S := by linarith
    have hnn := Np.sqDev_nonneg b
    rw [hmain]
    refine ⟨(sqDev_integrable hN hS0 c).div_const _, rfl, ?_, ?_⟩
    · have : 0 ≤ sampleVar b / S := div_nonneg (div_nonneg hnn (by rw [← hSdef]; exact hpos.le)) hS'.le
      linarith
    · have hz : var + sampleVar b / S = var ↔ sqDev b = 0 := by
        unfold sampleVar
        rw [← hSdef, add_eq_left, div_eq_zero_iff, div_eq_zero_iff, or_iff_left hSr, or_iff_left hS1]
      rw [hz, sqDev_eq_zero_iff]
      constructor
      · intro h x hx y hy
        rw [h x hx, h y hy]
      · intro h x hx
        unfold mean
        have : b.sum = S * x := by
          rw [List.sum_eq_card_nsmul b x fun y hy => h y hy x hx, nsmul_eq_mul]
        rw [this, ← hSdef]
        field_simp

/-! ## Examples -/

section normal
open ProbabilityTheory

/-- independent standard normal draws -/
theorem standard_normal : Standard (Measure.infinitePi fun _ : ℕ => gaussianReal 0 1) (fun i ω => ω i) := by
  have hmp := fun i : ℕ => measurePreserving_eval_infinitePi (fun _ : ℕ => gaussianReal 0 1) i
  have hint : ∀ (i : ℕ) (f : ℝ → ℝ), AEStronglyMeasurable f (gaussianReal 0 1) →
      ∫ ω, f (ω i) ∂(Measure.infinitePi fun _ : ℕ => gaussianReal 0 1) = ∫ x, f x ∂gaussianReal 0 1 := by
    intro i f hf
    have h := integral_map (μ := Measure.infinitePi fun _ : ℕ => gaussianReal 0 1) (hmp i).measurable.aemeasurable
      (f := f) (by rw [(hmp i).map_eq]; exact hf)
    rw [(hmp i).map_eq] at h
    exact h.symm
  have hm : ∀ i : ℕ, ∫ ω, ω i ∂(Measure.infinitePi fun _ : ℕ => gaussianReal 0 1) = 0 := by
    intro i
    rw [hint i (fun x => x) measurable_id.aestronglyMeasurable, integral_id_gaussianReal]
  refine ⟨?_, hm, ?_⟩
  · intro i
    exact (memLp_id_gaussianReal 2).comp_measurePreserving (hmp i)
  · intro i j
    by_cases hij : i = j
    · subst hij
      rw [if_pos rfl, hint i (fun x => x * x) (measurable_id.mul measurable_id).aestronglyMeasurable]
      have hv := variance_fun_id_gaussianReal (μ := 0) (v := 1)
      rw [variance_eq_integral measurable_id'.aemeasurable, integral_id_gaussianReal] at hv
      simpa [sq] using hv
    · rw [if_neg hij]
      have hind : IndepFun (fun ω : ℕ → ℝ => ω i) (fun ω => ω j) (Measure.infinitePi fun _ : ℕ => gaussianReal 0 1) :=
        (iIndepFun_infinitePi (P := fun _ : ℕ => gaussianReal 0 1) (X := fun _ x => x) fun _ => measurable_id).indepFun hij
      rw [hind.integral_fun_mul_eq_mul_integral (measurable_pi_apply i).aestronglyMeasurable (measurable_pi_apply j).aestronglyMeasurable,
        hm, zero_mul]

/-- two distorted videos of one source -/
def exSynth : Dataset String ℝ :=
  { refVideos := [{ contentId := 0, path := "r" }],
    disVideos := [{ contentId := 0, assetId := 0, path := "a", os := some (.seq false [.one (.fin 1)]) },
      { contentId := 0, assetId := 1, path := "b", os := some (.seq false [.one (.fin 2)]) }] }

/-- Two observers with biases 0 and 1 and inconsistencies 1 and 2: the score of the second video has variance 15/8, the squared standard error
an expectation of 17/8. -/
example : ∃ score se : (ℕ → ℝ) → ℝ,
    (∀ ω, ∃ rd' res l, syntheticReader exSynth (synthKw [3, 4] [0, 1] [1, 2] [1 / 2] [1] (some [0, 1 / 2])) ω = .ok rd' ∧
      runMOS rd' {} = .ok res ∧ res.qualityScores[1]? = some (.fin (score ω)) ∧ res.qualityScoresStd = some l ∧ l[1]? = some (.fin (se ω))) ∧
    ∫ ω, score ω ∂(Measure.infinitePi fun _ : ℕ => gaussianReal 0 1) = 5 ∧
    ∫ ω, (score ω - 5) ^ 2 ∂(Measure.infinitePi fun _ : ℕ => gaussianReal 0 1) = 15 / 8 ∧
    ∫ ω, se ω ^ 2 ∂(Measure.infinitePi fun _ : ℕ => gaussianReal 0 1) = 17 / 8 := by
  obtain ⟨rd, hrd⟩ : ∃ rd, rawReader exSynth = .ok rd := ⟨_, rfl⟩
  obtain ⟨score, se, h1, -, h2, h3, -, h4, -, -⟩ := C96_mos _ _ standard_normal exSynth rd hrd
    (Or.inl (by
      intro dv hdv
      simp only [exSynth, List.mem_cons, List.not_mem_nil, or_false] at hdv
      rcases hdv with rfl | rfl <;> exact ⟨_, _, rfl⟩))
    [3, 4] [0, 1] [1, 2] [1 / 2] [1] (some [0, 1 / 2]) rfl rfl rfl rfl (by simp [exSynth]) (by simp [exSynth]) (by simp)
    1 _ 4 (1 / 2) 1 rfl rfl rfl rfl (15 / 8) (by simp [ambiguityOf]; norm_num)
  have e1 : (4 : ℝ) + mean [0, 1] + 1 / 2 = 5 := by norm_num [mean]
  have e2 : sampleVar ([0, 1] : List ℝ) = 1 / 2 := by norm_num [sampleVar, sqDev, mean]
  rw [e1] at h2 h3
  rw [e2] at h4
  refine ⟨score, se, fun ω => ?_, h2, h3, by rw [h4]; norm_num⟩
  obtain ⟨rd', res, l, k1, k2, k3, k4, k5, -⟩ := h1 ω
  exact ⟨rd', res, l, k1, k2, k3, k4, k5⟩

end normal
end Sureal.Props
