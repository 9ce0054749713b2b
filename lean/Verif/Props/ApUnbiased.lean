import Verif.Lemmas.ApMean
import Verif.Props.ApSym
import Verif.Props.SynthLaw
import Mathlib.Probability.HasLawExists
/-!
# C123: the estimates of the P.910 solver are unbiased
-/
set_option linter.unusedSectionVars false
namespace Sureal.Props
open Spec Mock MeasureTheory ProbabilityTheory Ap
variable {κ : Type} [LinearOrder κ] {J I R : ℕ}

/-- **C123.** Votes with quality scores `q`, biases `b` and noise `N`, and votes with other scores and biases and the noise `-N`; the same votes are
missing, and on every video the voters have the same mean bias.  Then both runs succeed, the errors of the reported scores and biases (up to the
mean of the biases) are each other's negative, and the inconsistencies and the number of passes are the same. -/
theorem C123_mirror (sd : StdFormula) (rd rd' : Reader κ ℝ) (hob : ObserversHarmless rd) (hob' : ObserversHarmless rd')
    (P : Fin J → Fin I → Fin R → Bool) (hv : Voted P) (hI : 0 < I) (q q' : Fin J → ℝ) (b b' : Fin I → ℝ) (t t' : ℝ)
    (ht : SamePanels P b t) (ht' : SamePanels P b' t') (N : Fin J → Fin I → Fin R → ℝ)
    (hs : rd.scores = .ok ⟨J, I, R, fun j i r => mask (P j i r) (q j + b i + N j i r)⟩)
    (hs' : rd'.scores = .ok ⟨J, I, R, fun j i r => mask (P j i r) (q' j + b' i - N j i r)⟩) :
    ∃ (res res' : Result κ ℝ) (n n' : Fin J → ℝ) (m m' : Fin I → ℝ), runAPWith sd rd {} = .ok res ∧ runAPWith sd rd' {} = .ok res' ∧
      res.qualityScores = List.ofFn (fun j => .fin (q j + (∑ i, b i) / I + n j)) ∧
      res'.qualityScores = List.ofFn (fun j => .fin (q' j + (∑ i, b' i) / I + n' j)) ∧ (∀ j, n' j = - n j) ∧
      res.observerBias = some (List.ofFn fun i => .fin (b i - (∑ i, b i) / I + m i)) ∧
      res'.observerBias = some (List.ofFn fun i => .fin (b' i - (∑ i, b' i) / I + m' i)) ∧ (∀ i, m' i = - m i) ∧
      res.observerInconsistency = res'.observerInconsistency ∧ res.numIter = res'.numIter := by
  obtain ⟨res, h1, h2, h3, h4, h5⟩ := run_real P (plus N q b) sd rd hob hs hv hI
  have e : (fun j i r => mask (P j i r) (q' j + b' i - N j i r)) = maskX P (plus (-N) q' b') := by
    funext j i r
    unfold maskX plus
    congr 1
  rw [e] at hs'
  obtain ⟨res', h1', h2', h3', h4', h5'⟩ := run_real P (plus (-N) q' b') sd rd' hob' hs' hv hI
  refine ⟨res, res', estQ P N, estQ P (-N), estB P N, estB P (-N), h1, h1', ?_, ?_, estQ_neg P N, ?_, ?_, estB_neg P N, ?_, ?_⟩
  · rw [h2]
    simp only [estQ_plus N q b t hv ht hI]
  · rw [h2']
    simp only [estQ_plus (-N) q' b' t' hv ht' hI]
  · rw [h3]
    simp only [estB_plus N q b t hv ht hI]
  · rw [h3']
    simp only [estB_plus (-N) q' b' t' hv ht' hI]
  · rw [h4, h4']
    simp only [estV_plus N q b t hv ht, estV_plus (-N) q' b' t' hv ht', estV_neg]
  · rw [h5, h5', stopAt_plus N q b t hv ht, stopAt_plus (-N) q' b' t' hv ht', stopAt_neg]

section law
variable {Ω : Type} [MeasurableSpace Ω] (μ : Measure Ω) [IsProbabilityMeasure μ]

theorem odd_mean {E : Type} [MeasurableSpace E] [Neg E] {N : Ω → E} (hsym : SignSymmetric μ N) {f : E → ℝ} (hf : Measurable f)
    (hodd : ∀ x, f (-x) = - f x) : ∫ ω, f (N ω) ∂μ = 0 := by
  have h1 := (hsym.comp hf).integral_eq
  simp only [Function.comp_def, hodd, integral_neg] at h1
  linarith

theorem integrable_le {N : Ω → Fin J → Fin I → Fin R → ℝ} (hN : AEMeasurable N μ) (hint : ∀ j i r, Integrable (fun ω => N ω j i r) μ)
    {f : (Fin J → Fin I → Fin R → ℝ) → ℝ} (hf : Measurable f) {c : ℝ} (hle : ∀ x, |f x| ≤ c * total x) : Integrable (fun ω => f (N ω)) μ := by
  have h1 : Integrable (fun ω => c * total (N ω)) μ := by
    refine Integrable.const_mul ?_ c
    unfold total
    exact integrable_finsetSum _ fun j _ => integrable_finsetSum _ fun i _ => integrable_finsetSum _ fun r _ => (hint j i r).abs
  refine h1.mono' (hf.comp_aemeasurable hN).aestronglyMeasurable (Filter.Eventually.of_forall fun ω => ?_)
  exact hle (N ω)

/-- **C123.** Votes with quality scores `q`, biases `b` and random noise whose joint distribution does not change if all signs are changed; some
votes may be missing, but every video and every observer has a vote and on every video the voters have the same mean bias.  Whatever the
noise, the P.910 solver reports numbers.  The expected score of a video is its quality plus the mean of the biases, and the expected bias of an observer
is their bias minus the mean of the biases.

Full claim: this holds whichever votes are missing.  It does not (`C123_refuted`). -/
theorem C123_unbiased_partial (sd : StdFormula) (P : Fin J → Fin I → Fin R → Bool) (hv : Voted P) (hI : 0 < I) (q : Fin J → ℝ) (b : Fin I → ℝ)
    (t : ℝ) (ht : SamePanels P b t) (N : Ω → Fin J → Fin I → Fin R → ℝ) (hsym : SignSymmetric μ N)
    (hint : ∀ j i r, Integrable (fun ω => N ω j i r) μ) (rd : Ω → Reader κ ℝ) (hob : ∀ ω, ObserversHarmless (rd ω))
    (hs : ∀ ω, (rd ω).scores = .ok ⟨J, I, R, fun j i r => mask (P j i r) (q j + b i + N ω j i r)⟩) :
    ∃ (score : Fin J → Ω → ℝ) (bias : Fin I → Ω → ℝ),
      (∀ ω, ∃ res, runAPWith sd (rd ω) {} = .ok res ∧ res.qualityScores = List.ofFn (fun j => .fin (score j ω)) ∧
        res.observerBias = some (List.ofFn fun i => .fin (bias i ω))) ∧
      (∀ j, Integrable (score j) μ ∧ ∫ ω, score j ω ∂μ = q j + (∑ i, b i) / I) ∧
      ∀ i, Integrable (bias i) μ ∧ ∫ ω, bias i ω ∂μ = b i - (∑ i, b i) / I := by
  have hm : AEMeasurable N μ := hsym.aemeasurable_fst
  have hco : ∀ j i r, Measurable fun x : Fin J → Fin I → Fin R → ℝ => x j i r := fun j i r => by fun_prop
  have hQ := fun j => measurable_estQ P (N := fun x : Fin J → Fin I → Fin R → ℝ => x) hco j
  have hB := fun i => measurable_estB P (N := fun x : Fin J → Fin I → Fin R → ℝ => x) hco i
  have iQ := fun j => integrable_le μ hm hint (hQ j) (fun x => estQ_le hv x j)
  have iB := fun i => integrable_le μ hm hint (hB i) (fun x => estB_le hv x i)
  refine ⟨fun j ω => q j + (∑ i, b i) / I + estQ P (N ω) j, fun i ω => b i - (∑ i, b i) / I + estB P (N ω) i, fun ω => ?_, fun j => ⟨?_, ?_⟩,
    fun i => ⟨?_, ?_⟩⟩
  · obtain ⟨res, h1, h2, h3, -, -⟩ := run_real P (plus (N ω) q b) sd (rd ω) (hob ω) (hs ω) hv hI
    refine ⟨res, h1, ?_, ?_⟩
    · rw [h2]
      simp only [estQ_plus (N ω) q b t hv ht hI]
    · rw [h3]
      simp only [estB_plus (N ω) q b t hv ht hI]
  · exact (integrable_const _).add (iQ j)
  · rw [integral_add (integrable_const _) (iQ j), odd_mean μ hsym (hQ j) (fun x => estQ_neg P x j)]
    simp
  · exact (integrable_const _).add (iB i)
  · rw [integral_add (integrable_const _) (iB i), odd_mean μ hsym (hB i) (fun x => estB_neg P x i)]
    simp

/-- everyone votes on every video -/
theorem samePanels_full (hI : 0 < I) (hR : 0 < R) (b : Fin I → ℝ) :
    SamePanels (fun (_ : Fin J) (_ : Fin I) (_ : Fin R) => true) b ((∑ i, b i) / I) := by
  intro j
  unfold avg
  rw [(full_video hI hR j).1, Finset.card_univ, Fintype.card_prod, Fintype.card_fin, Fintype.card_fin, Fintype.sum_prod_type]
  simp only [Finset.sum_const, Finset.card_univ, Fintype.card_fin, nsmul_eq_mul, ← Finset.mul_sum]
  have h1 : (I : ℝ) ≠ 0 := by positivity
  have h2 : (R : ℝ) ≠ 0 := by positivity
  push_cast
  field_simp

/-- all biases equal -/
theorem samePanels_const {P : Fin J → Fin I → Fin R → Bool} (hv : Voted P) (c : ℝ) : SamePanels P (fun _ => c) c :=
  fun j => avg_const (hv.videos j) c

/-- the noise of a synthetic vote -/
noncomputable def synthNoise {E S : ℕ} (sg : Fin S → ℝ) (dl am : Fin E → ℝ) (g : ℕ → ℝ) (j : Fin E) (i : Fin S) (_ : Fin 1) : ℝ :=
  g (j * S + i) * sg i + g (E * S + (j * S + i)) * dl j + g (2 * (E * S) + (j * S + i)) * am j

/-- **C123.** On synthetic votes with quality scores `q`, biases `b`, content biases `mu`, and any inconsistencies and ambiguities, generated from
draws whose joint distribution does not change if all signs are changed, the P.910 solver reports numbers whatever the draws; the expected score of a
video is its quality plus its content bias plus the mean of the biases, and the expected bias of an observer is their bias minus the
mean of the biases. -/
theorem C123_synthetic (sd : StdFormula) (g : ℕ → Ω → ℝ) (hsym : SignSymmetric μ (fun ω i => g i ω)) (hint : ∀ i, Integrable (g i) μ)
    (d : Dataset κ ℝ) (rd : Reader κ ℝ) (hraw : rawReader d = .ok rd)
    (hstyle : (∀ dv ∈ d.disVideos, SeqStyle dv) ∨ (∀ dv ∈ d.disVideos, DictStyle dv))
    (q b sg mu dl : List ℝ) (phi : Option (List ℝ)) (hq : q.length = d.disVideos.length)
    (hsg : sg.length = b.length) (hmu : mu.length = d.refVideos.length) (hdl : dl.length = mu.length)
    (hphi : ∀ l ∈ phi, l.length = d.disVideos.length)
    (hc : ∀ dv ∈ d.disVideos, 0 ≤ dv.contentId ∧ dv.contentId < d.refVideos.length) (hb : 1 ≤ b.length) :
    ∃ score bias : ℕ → Ω → ℝ,
      (∀ ω, ∃ rd' res l, syntheticReader d (synthKw q b sg mu dl phi) (fun i => g i ω) = .ok rd' ∧ runAPWith sd rd' {} = .ok res ∧
        res.qualityScores.length = d.disVideos.length ∧ (∀ e < d.disVideos.length, res.qualityScores[e]? = some (.fin (score e ω))) ∧
        res.observerBias = some l ∧ l.length = b.length ∧ ∀ s < b.length, l[s]? = some (.fin (bias s ω))) ∧
      (∀ e dv qe m, d.disVideos[e]? = some dv → q[e]? = some qe → mu[dv.contentId.toNat]? = some m →
        Integrable (score e) μ ∧ ∫ ω, score e ω ∂μ = qe + m + mean b) ∧
      ∀ s bs, b[s]? = some bs → Integrable (bias s) μ ∧ ∫ ω, bias s ω ∂μ = bs - mean b := by
  obtain ⟨hass, hrd⟩ := rawReader_inv hraw
  have w := (C01_accepts_iff_wellFormed d).mp hass
  set E := d.disVideos.length with hE
  have hE0 : 0 < E := List.length_pos_iff.mpr w.diss
  set S := b.length with hS
  have hcont : ∀ j : Fin E, (d.disVideos.get j).contentId.toNat < mu.length := by
    intro j
    have := hc _ (List.get_mem d.disVideos j)
    omega
  let P : Fin E → Fin S → Fin 1 → Bool := fun _ _ _ => true
  let qv : Fin E → ℝ := fun j => q[j] + mu[(d.disVideos.get j).contentId.toNat]'(hcont j)
  let bv : Fin S → ℝ := fun i => b.get i
  let dv : Fin E → ℝ := fun j => dl[(d.disVideos.get j).contentId.toNat]'(by rw [hdl]; exact hcont j)
  let F : (ℕ → ℝ) → Fin E → Fin S → Fin 1 → ℝ := synthNoise (fun i => sg[i]) dv (fun j => ambiguityOf phi j)
  have hF : Measurable F := by
    refine measurable_pi_lambda _ fun j => measurable_pi_lambda _ fun i => measurable_pi_lambda _ fun r => ?_
    dsimp only [F, synthNoise]
    fun_prop
  have hFneg : ∀ x, F (-x) = - F x := by
    intro x
    funext j i r
    show synthNoise _ _ _ _ j i r = - synthNoise _ _ _ _ j i r
    simp only [synthNoise, Pi.neg_apply]
    ring
  have hsymN : SignSymmetric μ (fun ω => F (fun i => g i ω)) := by
    have := hsym.comp hF
    have e : (F ∘ fun ω => -fun i => g i ω) = fun ω => - F (fun i => g i ω) := by
      funext ω
      exact hFneg _
    rw [e] at this
    exact this
  have hintN : ∀ j i r, Integrable (fun ω => F (fun i => g i ω) j i r) μ := by
    intro j i r
    exact (((hint _).mul_const _).add ((hint _).mul_const _)).add ((hint _).mul_const _)
  have hrun : ∀ ω, ∃ rd' : Reader κ ℝ, syntheticReader d (synthKw q b sg mu dl phi) (fun i => g i ω) = .ok rd' ∧ ObserversHarmless rd' ∧
      rd'.scores = .ok ⟨E, S, 1, fun j i r => mask (P j i r) (qv j + bv i + F (fun i => g i ω) j i r)⟩ := by
    intro ω
    obtain ⟨rd', arr, h1, -, -, h2, h3, e1, e2, e3, h4⟩ := C54_model d rd hraw (fun i => g i ω) q b sg mu dl phi hq hsg hmu hdl hphi hc
    refine ⟨rd', h1, ?_, ?_⟩
    · rcases observers_cases hraw hstyle with ⟨o, ho⟩ | ho
      · exact Or.inl ⟨o, h2.trans ho⟩
      · exact Or.inr (Or.inl (h2.trans ho))
    · rw [h3]
      obtain ⟨E', S', R', get⟩ := arr
      dsimp only at e1 e2 e3 h4
      subst e1 e2 e3
      congr 2
      funext j i r
      have hj : (j : ℕ) < d.disVideos.length := j.isLt
      have hi : (i : ℕ) < b.length := i.isLt
      have := h4 j i (d.disVideos.get j) q[j] b[i] sg[i] _ _ (by simp) (by simp) (by simp) (by simp)
        (List.getElem?_eq_getElem (hcont j)) (List.getElem?_eq_getElem (by rw [hdl]; exact hcont j))
      have hr : r = 0 := Subsingleton.elim _ _
      subst hr
      simp only [cell, Fin.is_lt, dite_true, Fin.eta, Nat.lt_one_iff] at this
      have h5 := Option.some.inj this
      refine Eq.trans h5 ?_
      show Fl.fin _ = Fl.fin _
      congr 1
      have ham : ∀ x, ambiguityNoise phi x j = x * ambiguityOf phi j := by
        intro x
        cases phi <;> simp [ambiguityNoise, ambiguityOf]
      rw [ham]
      dsimp only [qv, bv, F, synthNoise, dv]
      simp only [List.get_eq_getElem, Fin.getElem_fin]
      ring
  choose rdω hr1 hr2 hr3 using hrun
  obtain ⟨score, bias, k1, k2, k3⟩ := C123_unbiased_partial μ sd P ⟨fun j => ⟨⟨0, hb⟩, 0, rfl⟩, fun i => ⟨⟨0, hE0⟩, 0, rfl⟩⟩ hb qv bv _
    (samePanels_full hb one_pos bv) (fun ω => F (fun i => g i ω)) hsymN hintN rdω hr2 hr3
  have hmean : (∑ i, bv i) / (S : ℝ) = mean b := by
    unfold mean
    rw [← List.sum_ofFn]
    show (List.ofFn b.get).sum / _ = _
    rw [List.ofFn_get]
  refine ⟨fun e ω => if h : e < E then score ⟨e, h⟩ ω else 0, fun s ω => if h : s < S then bias ⟨s, h⟩ ω else 0, fun ω => ?_, ?_, ?_⟩
  · obtain ⟨res, l1, l2, l3⟩ := k1 ω
    refine ⟨rdω ω, res, _, hr1 ω, l1, by rw [l2, List.length_ofFn], ?_, l3, by rw [List.length_ofFn], ?_⟩
    · intro e he
      dsimp only
      rw [l2, dif_pos he]
      simp [he]
    · intro s h5
      dsimp only
      rw [dif_pos h5]
      simp [h5]
  · intro e v qe m he hqe hm
    obtain ⟨h5', h6⟩ := List.getElem?_eq_some_iff.mp he
    have h5 : e < E := h5'
    simp only [dif_pos h5]
    refine ⟨(k2 ⟨e, h5⟩).1, ?_⟩
    rw [(k2 ⟨e, h5⟩).2, hmean]
    have h7 := List.getElem?_eq_some_iff.mp hqe
    have h8 := List.getElem?_eq_some_iff.mp hm
    subst h6
    congr 1
    exact congrArg₂ (· + ·) h7.2 h8.2
  · intro s bs hbs
    obtain ⟨h5', h6⟩ := List.getElem?_eq_some_iff.mp hbs
    have h5 : s < S := h5'
    simp only [dif_pos h5]
    refine ⟨(k3 ⟨s, h5⟩).1, ?_⟩
    rw [(k3 ⟨s, h5⟩).2, hmean]
    congr 1

/-- independent draws, each with a symmetric distribution -/
theorem signSymmetric_of_indep {g : ℕ → Ω → ℝ} (hi : iIndepFun g μ) (hs : ∀ i, IdentDistrib (g i) (fun ω => - g i ω) μ μ) :
    SignSymmetric μ (fun ω i => g i ω) := by
  have hm : ∀ i, AEMeasurable (g i) μ := fun i => (hs i).aemeasurable_fst
  have hi' : iIndepFun (fun i ω => - g i ω) μ := hi.comp (fun _ x => -x) fun _ => measurable_neg
  refine ⟨aemeasurable_pi_iff.mpr hm, aemeasurable_pi_iff.mpr fun i => (hm i).neg, ?_⟩
  have h1 := hi.map_fun_eq_infinitePi_map₀' hm
  have h2 := hi'.map_fun_eq_infinitePi_map₀' fun i => (hm i).neg
  rw [h1]
  refine Eq.trans ?_ h2.symm
  congr 1
  funext i
  exact (hs i).map_eq

end law

/-! ## missing votes -/

/-- the second observer did not vote on the second video -/
def oneMissing : Fin 2 → Fin 2 → Fin 1 → Bool := fun j i _ => !(j == 1 && i == 1)

/-- two videos of the same quality, two observers with biases 0 and 1, no noise -/
def twoBiases : Fin 2 → Fin 2 → Fin 1 → ℝ := fun _ i _ => if i = 0 then 0 else 1

theorem oneMissing_voted : Voted oneMissing := by
  refine ⟨fun j => ⟨0, 0, ?_⟩, fun i => ⟨0, 0, ?_⟩⟩
  · fin_cases j <;> rfl
  · fin_cases i <;> rfl

theorem oneMissing_next (S : Fin 2 → ℝ) (h : S 0 ≠ S 1) : next oneMissing twoBiases S 0 ≠ next oneMissing twoBiases S 1 := by
  have v0 : votesOnVideo oneMissing 0 = {(0, 0), (1, 0)} := by decide
  have v1 : votesOnVideo oneMissing 1 = {(0, 0)} := by decide
  have o0 : votesOfObserver oneMissing 0 = {(0, 0), (1, 0)} := by decide
  have o1 : votesOfObserver oneMissing 1 = {(0, 0)} := by decide
  have b0 : apBias oneMissing twoBiases S 0 = -(S 0 + S 1) / 2 := by
    unfold apBias avg
    rw [o0, Finset.sum_pair (by decide), Finset.card_pair (by decide)]
    simp [twoBiases]
    ring
  have b1 : apBias oneMissing twoBiases S 1 = 1 - S 0 := by
    unfold apBias avg
    rw [o1, Finset.sum_singleton, Finset.card_singleton]
    simp [twoBiases]
  unfold next
  generalize apSpread oneMissing twoBiases S (apBias oneMissing twoBiases S) = V
  have w0 := apWeight_pos (V 0)
  have w1 := apWeight_pos (V 1)
  have n0 : apQuality oneMissing twoBiases (apBias oneMissing twoBiases S) V 0 =
      ((S 0 + S 1) / 2 * apWeight (V 0) + S 0 * apWeight (V 1)) / (apWeight (V 0) + apWeight (V 1)) := by
    unfold apQuality wavg
    rw [v0, Finset.sum_pair (by decide), Finset.sum_pair (by decide)]
    dsimp only
    rw [b0, b1]
    simp [twoBiases]
    ring
  have n1 : apQuality oneMissing twoBiases (apBias oneMissing twoBiases S) V 1 = (S 0 + S 1) / 2 := by
    unfold apQuality wavg
    rw [v1, Finset.sum_singleton, Finset.sum_singleton]
    dsimp only
    rw [b0]
    simp [twoBiases]
    field_simp
    ring
  rw [n0, n1]
  intro he
  rw [div_eq_iff (by positivity)] at he
  have h3 : apWeight (V 1) * (S 0 - S 1) = 0 := by linarith
  rcases mul_eq_zero.mp h3 with h4 | h4
  · linarith
  · exact h (by linarith)

theorem oneMissing_seq (k : ℕ) : seq oneMissing twoBiases k 0 ≠ seq oneMissing twoBiases k 1 := by
  induction k with
  | zero =>
    have v0 : votesOnVideo oneMissing 0 = {(0, 0), (1, 0)} := by decide
    have v1 : votesOnVideo oneMissing 1 = {(0, 0)} := by decide
    show mos0 oneMissing twoBiases 0 ≠ mos0 oneMissing twoBiases 1
    unfold mos0 avg
    rw [v0, v1, Finset.sum_pair (by decide), Finset.card_pair (by decide), Finset.sum_singleton, Finset.card_singleton]
    norm_num [twoBiases]
  | succ k ih => exact oneMissing_next _ ih

/-- **C123.** The claim fails if a vote is missing and the biases differ: two observers with biases 0 and 1 and two videos of the same quality, without any
noise, where the second observer did not vote on the second video.  The run succeeds but the scores of the two videos differ, so they
are not the qualities plus a constant. -/
theorem C123_refuted (sd : StdFormula) (rd : Reader κ ℝ) (hob : ObserversHarmless rd)
    (hs : rd.scores = .ok ⟨2, 2, 1, fun j i _ => mask (!(j == 1 && i == 1)) (if i = 0 then 0 else 1)⟩) :
    ∃ res x y, runAPWith sd rd {} = .ok res ∧ res.qualityScores = [.fin x, .fin y] ∧ x ≠ y := by
  obtain ⟨res, h1, h2, -, -, -⟩ := run_real oneMissing twoBiases sd rd hob hs oneMissing_voted two_pos
  refine ⟨res, _, _, h1, by rw [h2]; rfl, ?_⟩
  unfold estQ
  intro h
  exact oneMissing_seq _ (add_right_cancel h)

/-! ## examples -/

example (sd : StdFormula) : ∃ (res : Result String ℝ) (x y : ℝ),
    runAPWith sd (arrReader 2 2 1 fun j i _ => mask (!(j == 1 && i == 1)) (if i = 0 then 0 else 1)) {} = .ok res ∧
    res.qualityScores = [.fin x, .fin y] ∧ x ≠ y :=
  C123_refuted sd _ (arr_harmless _ _ _ _) rfl

/-- noise `N` on the votes of two observers, a vote missing, equal biases -/
example (sd : StdFormula) (N : Fin 2 → Fin 2 → Fin 1 → ℝ) : ∃ res res' : Result String ℝ,
    runAPWith sd (arrReader 2 2 1 fun j i r => mask (oneMissing j i r) (3 + j + 1 + N j i r)) {} = .ok res ∧
    runAPWith sd (arrReader 2 2 1 fun j i r => mask (oneMissing j i r) (3 + j + 1 - N j i r)) {} = .ok res' ∧
    res.observerInconsistency = res'.observerInconsistency ∧ res.numIter = res'.numIter := by
  obtain ⟨res, res', -, -, -, -, h1, h2, -, -, -, -, -, -, h3, h4⟩ := C123_mirror sd
    (arrReader 2 2 1 fun j i r => mask (oneMissing j i r) (3 + j + 1 + N j i r))
    (arrReader 2 2 1 fun j i r => mask (oneMissing j i r) (3 + j + 1 - N j i r)) (arr_harmless _ _ _ _) (arr_harmless _ _ _ _)
    oneMissing oneMissing_voted two_pos (fun j => 3 + j) (fun j => 3 + j) (fun _ => 1) (fun _ => 1) 1 1
    (samePanels_const oneMissing_voted 1) (samePanels_const oneMissing_voted 1) N rfl rfl
  exact ⟨res, res', h1, h2, h3, h4⟩

/-- a normal draw is symmetric -/
theorem normal_symmetric {Ω : Type} [MeasurableSpace Ω] {μ : Measure Ω} {X : Ω → ℝ} (h : HasLaw X (gaussianReal 0 1) μ) :
    IdentDistrib X (fun ω => - X ω) μ μ := by
  refine ⟨h.aemeasurable, h.aemeasurable.neg, ?_⟩
  have h1 : μ.map (fun ω => - X ω) = (μ.map X).map (fun x => -x) :=
    (AEMeasurable.map_map_of_aemeasurable measurable_neg.aemeasurable h.aemeasurable).symm
  rw [h1, h.map_eq, gaussianReal_map_neg, neg_zero]

theorem normal_integrable {Ω : Type} [MeasurableSpace Ω] {μ : Measure Ω} {X : Ω → ℝ} (h : HasLaw X (gaussianReal 0 1) μ) : Integrable X μ := by
  have h1 : Integrable (fun x : ℝ => x) (μ.map X) := by
    rw [h.map_eq]
    exact (memLp_id_gaussianReal 1).integrable (by simp)
  exact (integrable_map_measure measurable_id.aestronglyMeasurable h.aemeasurable).mp h1

/-- two observers with biases 0 and 1 and independent standard normal draws: the expected scores are 4 and 5, the expected biases -1/2 and 1/2 -/
example (sd : StdFormula) : ∃ (Ω : Type) (_ : MeasurableSpace Ω) (μ : Measure Ω) (g : ℕ → Ω → ℝ) (score bias : ℕ → Ω → ℝ),
    (∀ i, HasLaw (g i) (gaussianReal 0 1) μ) ∧
    (∀ ω, ∃ rd' res l, syntheticReader exSynth (synthKw [3, 4] [0, 1] [1, 2] [1 / 2] [1] (some [0, 1 / 2])) (fun i => g i ω) = .ok rd' ∧
      runAPWith sd rd' {} = .ok res ∧ (∀ e < 2, res.qualityScores[e]? = some (.fin (score e ω))) ∧ res.observerBias = some l ∧
      ∀ s < 2, l[s]? = some (.fin (bias s ω))) ∧
    ∫ ω, score 0 ω ∂μ = 4 ∧ ∫ ω, score 1 ω ∂μ = 5 ∧ ∫ ω, bias 0 ω ∂μ = -1 / 2 ∧ ∫ ω, bias 1 ω ∂μ = 1 / 2 := by
  obtain ⟨Ω, mΩ, μ, g, -, hl, hi, hp⟩ := exists_iid ℕ (gaussianReal 0 1)
  obtain ⟨rd, hrd⟩ : ∃ rd, rawReader exSynth = .ok rd := ⟨_, rfl⟩
  obtain ⟨score, bias, h1, h2, h3⟩ := C123_synthetic μ sd g (signSymmetric_of_indep μ hi fun i => normal_symmetric (hl i))
    (fun i => normal_integrable (hl i)) exSynth rd hrd
    (Or.inl (by
      intro dv hdv
      simp only [exSynth, List.mem_cons, List.not_mem_nil, or_false] at hdv
      rcases hdv with rfl | rfl <;> exact ⟨_, _, rfl⟩))
    [3, 4] [0, 1] [1, 2] [1 / 2] [1] (some [0, 1 / 2]) rfl rfl rfl rfl (by simp [exSynth]) (by simp [exSynth]) (by simp)
  have e1 : mean ([0, 1] : List ℝ) = 1 / 2 := by norm_num [mean]
  rw [e1] at h2 h3
  refine ⟨Ω, mΩ, μ, g, score, bias, hl, fun ω => ?_, ?_, ?_, ?_, ?_⟩
  · obtain ⟨rd', res, l, k1, k2, -, k3, k4, -, k5⟩ := h1 ω
    exact ⟨rd', res, l, k1, k2, k3, k4, k5⟩
  · rw [(h2 0 _ 3 (1 / 2) rfl rfl rfl).2]
    norm_num
  · rw [(h2 1 _ 4 (1 / 2) rfl rfl rfl).2]
    norm_num
  · rw [(h3 0 0 rfl).2]
    norm_num
  · rw [(h3 1 1 rfl).2]
    norm_num

end Sureal.Props
