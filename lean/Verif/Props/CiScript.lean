import Verif.Model.CiScript
import Verif.Props.RandState
import Verif.Props.ValidateCoverage
/-!
# C135: the script that checks confidence intervals (`resource/script/run_synthetic_validate_ci.py`)
-/
set_option linter.unusedSectionVars false
namespace Sureal.Props
open Sureal Spec Mock Routine CiScript
open scoped NNReal ENNReal
variable {κ σ : Type} [LinearOrder κ]

theorem ciWrapper_inv {g : Gen σ ℝ} {dataset : Py (Dataset κ ℝ)} {classes : List (ModelClass σ κ ℝ)} {args : Args ℝ} {s : σ} {res : Ret κ ℝ × σ}
    (h : wrapper g dataset classes args s = .ok res) :
    (args.nBootstrap = none ∨ ∀ c ∈ classes, c.isBootstrap = true) ∧
    ∃ t, chooseTruth g args.truth (g.seed (args.seed.getD 0)) = .ok t ∧ centreTruth (args.force.getD true) t.1 = .ok res.1.truth ∧
      validateSt g .normal res.1.truth.seed (classes.map fun c => (c.type, c.run args.nBootstrap)) dataset res.1.truth.kw none false t.2 =
        .ok (res.1.validation, res.2) := by
  unfold wrapper at h
  dsimp only at h
  split at h
  case isFalse => cases h
  rename_i hb
  split at h
  · cases h
  rename_i t ht
  split at h
  · cases h
  rename_i truth htruth
  split at h
  · cases h
  rename_i r hr
  cases h
  refine ⟨?_, t, ht, htruth, hr⟩
  rw [Bool.or_eq_true, List.all_eq_true] at hb
  rcases hb with hb | hb
  · exact Or.inl (by simpa using hb)
  · exact Or.inr hb

/-- **C135, repeatable.** Whatever was drawn before, and whatever the outcome, the same arguments give the same outcome, and leave the generator in the
same state. -/
theorem C135_repeatable (g : Gen σ ℝ) (dataset : Py (Dataset κ ℝ)) (classes : List (ModelClass σ κ ℝ)) (args : Args ℝ) (s s' : σ) :
    wrapper g dataset classes args s = wrapper g dataset classes args s' := rfl

theorem uniforms_eq (g : Gen σ ℝ) (lo hi n : ℕ) (s : σ) :
    uniforms g lo hi n s = ((List.range n).map fun i => (lo : ℝ) + ((hi : ℝ) - lo) * g.uniform s i).map Fl.fin := by
  unfold uniforms
  rw [List.map_map]
  rfl

theorem normals_eq (g : Gen σ ℝ) (loc scale n : ℕ) (s : σ) :
    normals g loc scale n s = ((List.range n).map fun i => (loc : ℝ) + scale * g.normal s i).map Fl.fin := by
  unfold normals
  rw [List.map_map]
  rfl

theorem abs_nonneg_fin {l : List ℝ} (h : ∀ x ∈ l, 0 ≤ x) : (l.map Fl.fin).map Fl.abs = l.map Fl.fin := by
  rw [List.map_map]
  refine List.map_congr_left fun x hx => ?_
  show Fl.abs (Fl.fin x) = _
  unfold Fl.abs
  dsimp only
  rw [if_neg (not_lt.mpr (h x hx))]

theorem uniforms_zero (g : Gen σ ℝ) (n : ℕ) (s : σ) : uniforms g 0 0 n s = (List.replicate n (0 : ℝ)).map Fl.fin := by
  rw [uniforms_eq]
  congr 1
  simp [List.eq_replicate_iff]

theorem normals_zero (g : Gen σ ℝ) (n : ℕ) (s : σ) : normals g 0 0 n s = (List.replicate n (0 : ℝ)).map Fl.fin := by
  rw [normals_eq]
  congr 1
  simp [List.eq_replicate_iff]

/-- the numbers that `np.random.uniform` transforms lie in `[0, 1)` -/
def UnitDraws (g : Gen σ ℝ) : Prop := ∀ s i, 0 ≤ g.uniform s i ∧ g.uniform s i < 1

/-- the scores drawn in the state `s` -/
def scoresFrom (g : Gen σ ℝ) (s : σ) : List ℝ := (List.range 79).map fun i => 1 + 4 * g.uniform s i

theorem scoresFrom_eq (g : Gen σ ℝ) (s : σ) : uniforms g 1 5 79 s = (scoresFrom g s).map Fl.fin := by
  rw [uniforms_eq]
  unfold scoresFrom
  congr 2
  funext i
  push_cast
  ring

/-- numbers in `[0, 1)` drawn in the state `s` -/
def unitFrom (g : Gen σ ℝ) (n : ℕ) (s : σ) : List ℝ := (List.range n).map fun i => g.uniform s i

theorem unitFrom_eq (g : Gen σ ℝ) (n : ℕ) (s : σ) (hu : UnitDraws g) : (uniforms g 0 1 n s).map Fl.abs = (unitFrom g n s).map Fl.fin := by
  rw [uniforms_eq, abs_nonneg_fin]
  · unfold unitFrom
    congr 2
    funext i
    push_cast
    ring
  · intro x hx
    obtain ⟨i, -, rfl⟩ := List.mem_map.mp hx
    have := (hu s i).1
    push_cast
    linarith

theorem scoresFrom_range {g : Gen σ ℝ} (hu : UnitDraws g) (s : σ) : ∀ x ∈ scoresFrom g s, 1 ≤ x ∧ x < 5 := by
  intro x hx
  obtain ⟨i, -, rfl⟩ := List.mem_map.mp hx
  have := hu s i
  constructor <;> linarith

theorem unitFrom_range {g : Gen σ ℝ} (hu : UnitDraws g) (n : ℕ) (s : σ) : ∀ x ∈ unitFrom g n s, 0 ≤ x ∧ x < 1 := by
  intro x hx
  obtain ⟨i, -, rfl⟩ := List.mem_map.mp hx
  exact hu s i

/-- the state in which the ambiguities of the videos are drawn -/
def beforeAmbiguity (g : Gen σ ℝ) (s : σ) : σ :=
  g.afterUniform (g.afterNormal (g.afterUniform (g.afterNormal (g.afterUniform s 79) 30) 30) 9) 9

theorem drawQuality_eq {g : Gen σ ℝ} (hu : UnitDraws g) (s : σ) :
    drawQuality g s = (synthKw (scoresFrom g s) (List.replicate 30 0) (List.replicate 30 0) (List.replicate 9 0) (List.replicate 9 0)
      (some (unitFrom g 79 (beforeAmbiguity g s))), g.afterUniform (beforeAmbiguity g s) 79) := by
  unfold drawQuality synthKw
  dsimp only
  rw [scoresFrom_eq, normals_zero, normals_zero, uniforms_zero, uniforms_zero, unitFrom_eq g 79 _ hu, abs_nonneg_fin, abs_nonneg_fin]
  · rfl
  all_goals
    intro x hx
    rw [(List.mem_replicate.mp hx).2]

/-- centring numbers -/
theorem centreTruth_fin {t : Truth ℝ} {b : List ℝ} (hb : t.kw.bias = some (b.map Fl.fin)) (hne : b ≠ []) :
    centreTruth true t = .ok { t with kw := { t.kw with bias := some ((b.map fun x => x - mean b).map Fl.fin) } } := by
  unfold centreTruth
  rw [if_pos rfl, hb]
  dsimp only
  rw [Np.mean_map_fin hne, List.map_map, List.map_map]
  rfl

theorem sum_centred (b : List ℝ) (hne : b ≠ []) : (b.map fun x => x - mean b).sum = 0 := by
  have hl : (b.length : ℝ) ≠ 0 := Nat.cast_ne_zero.mpr (by simpa using hne)
  have : ∀ (l : List ℝ) (c : ℝ), (l.map fun x => x - c).sum = l.sum - l.length * c := by
    intro l c
    induction l with
    | nil => simp
    | cons x l ih => simp only [List.map_cons, List.sum_cons, ih, List.length_cons]; push_cast; ring
  rw [this]
  unfold mean
  field_simp
  ring

theorem mean_replicate_zero (n : ℕ) : mean (List.replicate n (0 : ℝ)) = 0 := by
  unfold mean
  simp

/-- **C135, the mode 'quality_ambiguity'** (the default): 79 scores from 1 to 5, 30 observers without biases and inconsistencies, 9 contents without
biases and ambiguities, 79 ambiguities of the videos below 1, and as `quality_scores_std` these divided by the root of 30. -/
theorem C135_quality_truth {g : Gen σ ℝ} (hu : UnitDraws g) {dataset : Py (Dataset κ ℝ)} {classes : List (ModelClass σ κ ℝ)} {args : Args ℝ} {s : σ}
    {res : Ret κ ℝ × σ} (hmode : args.truth = .absent ∨ args.truth = .str "quality_ambiguity")
    (h : wrapper g dataset classes args s = .ok res) :
    ∃ q phi : List ℝ, q.length = 79 ∧ phi.length = 79 ∧ (∀ x ∈ q, 1 ≤ x ∧ x < 5) ∧ (∀ x ∈ phi, 0 ≤ x ∧ x < 1) ∧
      res.1.truth.kw = synthKw q (List.replicate 30 0) (List.replicate 30 0) (List.replicate 9 0) (List.replicate 9 0) (some phi) ∧
      res.1.truth.qualityStd = some (phi.map fun x => .fin (x / √30)) ∧ res.1.truth.seed = none := by
  obtain ⟨-, t, h1, h2, -⟩ := ciWrapper_inv h
  have ht : t = ((⟨(drawQuality g (g.seed (args.seed.getD 0))).1, derivedStd (drawQuality g (g.seed (args.seed.getD 0))).1, none⟩ : Truth ℝ),
      (drawQuality g (g.seed (args.seed.getD 0))).2) := by
    unfold chooseTruth at h1
    rcases hmode with hm | hm <;> rw [hm] at h1
    · exact (Except.ok.inj h1).symm
    · dsimp only at h1
      rw [if_pos rfl] at h1
      exact (Except.ok.inj h1).symm
  have hd := drawQuality_eq hu (g.seed (args.seed.getD 0))
  rw [hd] at ht
  have htr : res.1.truth = t.1 := by
    cases hf : args.force.getD true with
    | false =>
      rw [hf] at h2
      unfold centreTruth at h2
      rw [if_neg (by decide)] at h2
      exact (Except.ok.inj h2).symm
    | true =>
      rw [hf, centreTruth_fin (t := t.1) (b := List.replicate 30 0) (by rw [ht]; rfl) (by decide)] at h2
      rw [← Except.ok.inj h2, ht, mean_replicate_zero]
      simp [synthKw]
  refine ⟨scoresFrom g (g.seed (args.seed.getD 0)), unitFrom g 79 (beforeAmbiguity g (g.seed (args.seed.getD 0))), by simp [scoresFrom],
    by simp [unitFrom], scoresFrom_range hu _, unitFrom_range hu _ _, by rw [htr, ht], ?_, by rw [htr, ht]⟩
  rw [htr, ht]
  unfold derivedStd synthKw
  dsimp only [Option.map, Option.getD]
  rw [List.map_map]
  congr 2
  funext x
  have h30 : ((((List.replicate 30 (0 : ℝ)).map Fl.fin).length : ℕ) : Fl ℝ) = .fin (30 : ℝ) := by
    rw [List.length_map, List.length_replicate]
    rfl
  show Fl.fin x / Fl.sqrt _ = _
  rw [h30, Fl.sqrt_fin (by norm_num : (0 : ℝ) ≤ 30), Fl.fin_div]
  · rfl
  · exact (Real.sqrt_pos.mpr (by norm_num)).ne'

/-- **C135, the mode 'observer_only'**: 79 scores from 1 to 5, 30 biases that add up to zero, 30 inconsistencies below 1, 9 contents without
biases and ambiguities, no ambiguities of the videos. -/
theorem C135_observer_truth {g : Gen σ ℝ} (hu : UnitDraws g) {dataset : Py (Dataset κ ℝ)} {classes : List (ModelClass σ κ ℝ)} {args : Args ℝ} {s : σ}
    {res : Ret κ ℝ × σ} (hmode : args.truth = .str "observer_only") (hforce : args.force ≠ some false)
    (h : wrapper g dataset classes args s = .ok res) :
    ∃ q b sg : List ℝ, q.length = 79 ∧ b.length = 30 ∧ sg.length = 30 ∧ (∀ x ∈ q, 1 ≤ x ∧ x < 5) ∧ b.sum = 0 ∧ (∀ x ∈ sg, 0 ≤ x ∧ x < 1) ∧
      res.1.truth.kw = synthKw q b sg (List.replicate 9 0) (List.replicate 9 0) none ∧
      res.1.truth.qualityStd = none ∧ res.1.truth.seed = none := by
  obtain ⟨-, t, h1, h2, -⟩ := ciWrapper_inv h
  set s0 := g.seed (args.seed.getD 0) with hs0
  set b0 : List ℝ := (List.range 30).map fun i => g.normal (g.afterUniform s0 79) i with hb0
  have ht : t.1 = ⟨synthKw (scoresFrom g s0) b0 (unitFrom g 30 (g.afterNormal (g.afterUniform s0 79) 30)) (List.replicate 9 0) (List.replicate 9 0) none,
      none, none⟩ := by
    unfold chooseTruth at h1
    rw [hmode] at h1
    dsimp only at h1
    rw [if_neg (by decide), if_pos rfl] at h1
    rw [← Except.ok.inj h1]
    unfold drawObserver synthKw
    dsimp only
    rw [scoresFrom_eq, normals_zero, uniforms_zero, unitFrom_eq g 30 _ hu, abs_nonneg_fin, normals_eq]
    · congr 4
      rw [hb0]
      congr 1
      funext i
      push_cast
      ring
    · intro x hx
      rw [(List.mem_replicate.mp hx).2]
  have hne : b0 ≠ [] := by
    intro h0
    have := congrArg List.length h0
    simp [hb0] at this
  have hf : args.force.getD true = true := by
    rcases hfo : args.force with _ | (_ | _)
    · rfl
    · exact absurd hfo hforce
    · rfl
  rw [hf, centreTruth_fin (t := t.1) (b := b0) (by rw [ht]; rfl) hne] at h2
  refine ⟨scoresFrom g s0, b0.map fun x => x - mean b0, unitFrom g 30 (g.afterNormal (g.afterUniform s0 79) 30), by simp [scoresFrom], by simp [hb0],
    by simp [unitFrom], scoresFrom_range hu _, sum_centred b0 hne, unitFrom_range hu _ _, ?_, ?_, ?_⟩
  all_goals rw [← Except.ok.inj h2, ht]
  rfl

/-- **C135, true values given by the caller.** The biases in the caller's dict are replaced by biases that add up to zero, with the same differences;
the rest is as it was; and there is no difference exactly if they added up to zero before.  Centred again, they stay as they are. -/
theorem C135_given {g : Gen σ ℝ} {dataset : Py (Dataset κ ℝ)} {classes : List (ModelClass σ κ ℝ)} {args : Args ℝ} {s : σ}
    {res : Ret κ ℝ × σ} {t : Truth ℝ} {b : List ℝ} (hmode : args.truth = .dict t) (hforce : args.force ≠ some false)
    (hb : t.kw.bias = some (b.map Fl.fin)) (hne : b ≠ []) (h : wrapper g dataset classes args s = .ok res) :
    ∃ b' : List ℝ, ∃ c, b' = b.map (· - c) ∧ b'.sum = 0 ∧
      res.1.truth = { t with kw := { t.kw with bias := some (b'.map Fl.fin) } } ∧ (res.1.truth = t ↔ b.sum = 0) ∧
      centreTruth true res.1.truth = .ok res.1.truth := by
  obtain ⟨-, t', h1, h2, -⟩ := ciWrapper_inv h
  unfold chooseTruth at h1
  rw [hmode] at h1
  obtain rfl := Except.ok.inj h1
  have hf : args.force.getD true = true := by
    rcases hfo : args.force with _ | (_ | _)
    · rfl
    · exact absurd hfo hforce
    · rfl
  rw [hf, centreTruth_fin hb hne] at h2
  have h3 := (Except.ok.inj h2).symm
  have hl : (b.length : ℝ) ≠ 0 := Nat.cast_ne_zero.mpr (by simpa using hne)
  have hself : mean (b.map fun x => x - mean b) = 0 := by
    unfold mean
    rw [show (b.map fun x => x - b.sum / b.length) = b.map fun x => x - mean b from rfl, sum_centred b hne, zero_div]
  refine ⟨b.map fun x => x - mean b, mean b, rfl, sum_centred b hne, h3, ?_, ?_⟩
  · constructor
    · intro he
      rw [h3] at he
      have hbb : t.kw.bias = some ((b.map fun x => x - mean b).map Fl.fin) := by
        conv_lhs => rw [← he]
      rw [hb] at hbb
      have : b = b.map fun x => x - mean b := by
        have hinj : Function.Injective (Fl.fin : ℝ → Fl ℝ) := fun x y hxy => Fl.fin.inj hxy
        exact List.map_injective_iff.mpr hinj (Option.some.inj hbb)
      rw [this]
      exact sum_centred b hne
    · intro h0
      have hm : mean b = 0 := by unfold mean; rw [h0, zero_div]
      rw [h3, hm]
      simp only [sub_zero, List.map_id']
      rw [← hb]
  · rw [h3]
    rw [centreTruth_fin (b := b.map fun x => x - mean b) rfl (by simpa using hne), hself]
    simp only [sub_zero, List.map_id']

open MeasureTheory ProbabilityTheory in
/-- **C135, the derived standard deviations are the true ones.** If the numbers from which the votes are made have mean 0 and variance 1 and are
uncorrelated, then the mean opinion score of a video has as expectation the drawn score, and as standard deviation the number in
`quality_scores_std`. -/
theorem C135_std {Ω : Type} [MeasurableSpace Ω] (P : Measure Ω) [IsProbabilityMeasure P] (z : ℕ → Ω → ℝ) (hz : Standard P z)
    {g : Gen σ ℝ} (hu : UnitDraws g) {d : Dataset κ ℝ} {rd : Reader κ ℝ} (hraw : rawReader d = .ok rd)
    (hstyle : (∀ dv ∈ d.disVideos, SeqStyle dv) ∨ (∀ dv ∈ d.disVideos, DictStyle dv))
    (hc : ∀ dv ∈ d.disVideos, 0 ≤ dv.contentId ∧ dv.contentId < d.refVideos.length)
    (h79 : d.disVideos.length = 79) (h9 : d.refVideos.length = 9)
    {classes : List (ModelClass σ κ ℝ)} {args : Args ℝ} {s : σ}
    {res : Ret κ ℝ × σ} (hmode : args.truth = .absent ∨ args.truth = .str "quality_ambiguity")
    (h : wrapper g (.ok d) classes args s = .ok res) (e : ℕ) (he : e < 79) :
    ∃ (qe sd : ℝ) (ql sl : List (Fl ℝ)) (score : Ω → ℝ), res.1.truth.kw.quality = some ql ∧ ql[e]? = some (.fin qe) ∧
      res.1.truth.qualityStd = some sl ∧ sl[e]? = some (.fin sd) ∧ 0 ≤ sd ∧
      (∀ ω, ∃ rd' r, syntheticReader d res.1.truth.kw (fun i => z i ω) = .ok rd' ∧ runMOS rd' {} = .ok r ∧
        r.qualityScores[e]? = some (.fin (score ω))) ∧
      ∫ ω, score ω ∂P = qe ∧ ∫ ω, (score ω - qe) ^ 2 ∂P = sd ^ 2 := by
  obtain ⟨q, phi, l1, l2, -, r2, k1, k2, -⟩ := C135_quality_truth hu hmode h
  have heq : e < q.length := by omega
  have hep : e < phi.length := by omega
  have hed : e < d.disVideos.length := by omega
  have hcd := hc _ (List.getElem_mem hed)
  have hcn : (d.disVideos[e]).contentId.toNat < 9 := by omega
  obtain ⟨score, se, c1, -, c2, c3, -⟩ := C96_mos P z hz d rd hraw hstyle q (List.replicate 30 0) (List.replicate 30 0) (List.replicate 9 0)
    (List.replicate 9 0) (some phi) (by omega) (by simp) (by simp [h9]) (by simp) (by intro l hl; cases hl; omega) hc (by simp) e d.disVideos[e]
    q[e] 0 0 (List.getElem?_eq_getElem hed) (List.getElem?_eq_getElem heq) (by rw [List.getElem?_replicate, if_pos hcn])
    (by rw [List.getElem?_replicate, if_pos hcn]) _ rfl
  have hm0 := mean_replicate_zero 30
  have hamb : ambiguityOf (some phi) e = phi[e] := by
    unfold ambiguityOf
    simp [List.getD_eq_getElem?_getD, List.getElem?_eq_getElem hep]
  refine ⟨q[e], phi[e] / √30, q.map Fl.fin, phi.map fun x => .fin (x / √30), score, by rw [k1]; rfl,
    by rw [List.getElem?_map, List.getElem?_eq_getElem heq]; rfl, k2, by rw [List.getElem?_map, List.getElem?_eq_getElem hep]; rfl,
    div_nonneg (r2 _ (List.getElem_mem hep)).1 (Real.sqrt_nonneg _), ?_, ?_, ?_⟩
  · intro ω
    obtain ⟨rd', r, -, x1, x2, x3, -⟩ := c1 ω
    exact ⟨rd', r, by rw [k1]; exact x1, x2, x3⟩
  · rw [c2, hm0]; ring
  · rw [hm0, add_zero, add_zero] at c3
    rw [c3, hamb, div_pow, Real.sq_sqrt (by norm_num)]
    simp

end Sureal.Props
