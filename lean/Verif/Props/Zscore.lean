import Verif.Lemmas.Zscore
import Verif.Props.Mos
/-!
# Z-scoring and bias removal: C14 – C17
-/
set_option linter.unusedSectionVars false
namespace Sureal.Props
open Sureal Spec
variable {κ : Type}

/-- **C14.** The array z-scored MOS averages (`raw_scores` of the result): each observer whose votes are not
all equal gets an increasing affine image of their votes (so the missing-vote pattern is unchanged) with mean 0
and sample variance 1; an observer with constant votes, or fewer than two, is left without any vote.  The
quality scores are the means of that array. -/
theorem C14_zscore (rd : Reader κ ℝ) (a : Arr3D (Fl ℝ)) (res : Result κ ℝ) (ha : rd.scores = .ok a)
    (hc : ∀ e s r, NumOrNan (a.get e s r)) (hr : runZS_MOS rd {} = .ok res) :
    ∃ z : Arr3 (Fl ℝ) a.E a.S a.R, res.rawScores = some ⟨a.E, a.S, a.R, z⟩ ∧
      (res.qualityScores = List.ofFn fun e => meanOrNan (videoCells z e)) ∧
      ∀ s, ((∃ x ∈ present (observerCells a.get s), ∃ y ∈ present (observerCells a.get s), x ≠ y) →
          mean (present (observerCells z s)) = 0 ∧ sampleVar (present (observerCells z s)) = 1 ∧
          (∃ c b, 0 < c ∧ ∀ e r, z e s r = affine c b (a.get e s r)) ∧
          ∀ e r, z e s r = .nan ↔ a.get e s r = .nan) ∧
        ((∀ x ∈ present (observerCells a.get s), ∀ y ∈ present (observerCells a.get s), x = y) →
          ∀ e r, z e s r = .nan) := by
  have hr' : runModeling mosRunModeling rd { zscoreMode := yes } = .ok res := hr
  rw [runModeling_mos (preprocess_zscore ha) hr']
  have hz : ∀ e s r, NumOrNan (zscoreArr a.get e s r) := by
    intro e s r
    by_cases h : ∃ x ∈ present (observerCells a.get s), ∃ y ∈ present (observerCells a.get s), x ≠ y
    · rw [zscore_affine a.get hc s h]; exact affine_clean (hc e s r)
    · push Not at h
      rw [zscore_const a.get hc s h]; exact Or.inl rfl
  refine ⟨zscoreArr a.get, rfl, ?_, fun s => ⟨fun h => ?_, fun h e r => zscore_const a.get hc s h e r⟩⟩
  · show List.ofFn (meanAlongS (zscoreArr a.get)) = _
    congr 1
    funext e
    exact meanAlongS_spec _ _ (hz e)
  · obtain ⟨hv, hl⟩ := sampleStd_pos h
    have hne : present (observerCells a.get s) ≠ [] := by intro h0; rw [h0] at hl; simp at hl
    have hs : 0 < Real.sqrt (sampleVar (present (observerCells a.get s))) := Real.sqrt_pos.mpr hv
    have hcell := fun e r => zscore_affine a.get hc s h e r
    have hobs : observerCells (zscoreArr a.get) s = (observerCells a.get s).map (affine
        (1 / Real.sqrt (sampleVar (present (observerCells a.get s))))
        (-(Spec.mean (present (observerCells a.get s))) / Real.sqrt (sampleVar (present (observerCells a.get s))))) := by
      rw [← observerCells_map]
      unfold observerCells
      simp only [hcell]
      rfl
    have hpres : present (observerCells (zscoreArr a.get) s) = (present (observerCells a.get s)).map
        fun x => 1 / Real.sqrt (sampleVar (present (observerCells a.get s))) * x
          + -(Spec.mean (present (observerCells a.get s))) / Real.sqrt (sampleVar (present (observerCells a.get s))) := by
      rw [hobs, present_map_affine]
    refine ⟨?_, ?_, ⟨_, _, by positivity, hcell⟩, ?_⟩
    · rw [hpres, mean_affine _ _ hne]
      ring
    · rw [hpres, sampleVar, sqDev_affine, List.length_map, mul_div_assoc]
      show _ * sampleVar _ = 1
      rw [div_pow, Real.sq_sqrt hv.le]
      field_simp
    · intro e r
      rw [hcell]
      rcases hc e s r with h | ⟨v, h⟩ <;> rw [h] <;> simp [affine]

/-- both kinds of observers occur in the example: the first has votes 1 and 4, the second only one vote -/
example : present (observerCells exArr 0) = [1, 4] ∧ present (observerCells exArr 1) = [3] := by
  constructor <;> simp [observerCells, exArr, List.ofFn_succ, present, Fl.val?]

/-- **C15.** Replacing each observer's votes by an increasing affine image changes nothing at all in the
result of z-scored MOS. -/
theorem C15_zscore_affine_invariant {E S R : ℕ} (rd rd' : Reader κ ℝ) (a : Arr3 (Fl ℝ) E S R) (c b : Fin S → ℝ)
    (hpos : ∀ s, 0 < c s) (hc : ∀ e s r, NumOrNan (a e s r)) (ha : rd.scores = .ok ⟨E, S, R, a⟩)
    (ha' : rd'.scores = .ok ⟨E, S, R, fun e s r => affine (c s) (b s) (a e s r)⟩)
    (hobs : rd'.observers = rd.observers) :
    runZS_MOS rd' {} = runZS_MOS rd {} := by
  have hc' : ∀ e s r, NumOrNan (affine (c s) (b s) (a e s r)) := fun e s r => affine_clean (hc e s r)
  have hcells : ∀ s, observerCells (fun e s r => affine (c s) (b s) (a e s r)) s
      = (observerCells a s).map (affine (c s) (b s)) := by
    intro s
    rw [← observerCells_map]
    rfl
  have hpres : ∀ s, present (observerCells (fun e s r => affine (c s) (b s) (a e s r)) s)
      = (present (observerCells a s)).map fun x => c s * x + b s := by
    intro s; rw [hcells, present_map_affine]
  have harr : zscoreArr (fun e s r => affine (c s) (b s) (a e s r)) = zscoreArr a := by
    funext e s r
    by_cases h : ∃ x ∈ present (observerCells a s), ∃ y ∈ present (observerCells a s), x ≠ y
    · obtain ⟨hv, hl⟩ := sampleStd_pos h
      have hne : present (observerCells a s) ≠ [] := by intro h0; rw [h0] at hl; simp at hl
      have h' : ∃ x ∈ present (observerCells (fun e s r => affine (c s) (b s) (a e s r)) s),
          ∃ y ∈ present (observerCells (fun e s r => affine (c s) (b s) (a e s r)) s), x ≠ y := by
        obtain ⟨x, hx, y, hy, hxy⟩ := h
        rw [hpres]
        refine ⟨_, List.mem_map.mpr ⟨x, hx, rfl⟩, _, List.mem_map.mpr ⟨y, hy, rfl⟩, ?_⟩
        intro he
        exact hxy (mul_left_cancel₀ (hpos s).ne' (by linarith))
      rw [zscore_affine _ hc' s h', zscore_affine a hc s h, hpres, mean_affine _ _ hne]
      have hvar : sampleVar ((present (observerCells a s)).map fun x => c s * x + b s)
          = (c s) ^ 2 * sampleVar (present (observerCells a s)) := by
        rw [sampleVar, sqDev_affine, List.length_map, mul_div_assoc]; rfl
      rw [hvar, Real.sqrt_mul (by positivity), Real.sqrt_sq (hpos s).le]
      have hs : Real.sqrt (sampleVar (present (observerCells a s))) ≠ 0 := Real.sqrt_ne_zero'.mpr hv
      have hcs := (hpos s).ne'
      rcases hc e s r with h1 | ⟨v, h1⟩ <;> rw [h1]
      · simp [affine]
      · simp only [affine, Fl.fin_inj]
        field_simp
        ring
    · push Not at h
      have h' : ∀ x ∈ present (observerCells (fun e s r => affine (c s) (b s) (a e s r)) s),
          ∀ y ∈ present (observerCells (fun e s r => affine (c s) (b s) (a e s r)) s), x = y := by
        rw [hpres]
        intro x hx y hy
        obtain ⟨x0, hx0, rfl⟩ := List.mem_map.mp hx
        obtain ⟨y0, hy0, rfl⟩ := List.mem_map.mp hy
        rw [h x0 hx0 y0 hy0]
      rw [zscore_const _ hc' s h', zscore_const a hc s h]
  have hcount : Np.countNotNan (ravel3 fun e s r => affine (c s) (b s) (a e s r)) = Np.countNotNan (ravel3 a) := by
    unfold Np.countNotNan Np.notNan ravel3
    simp only [List.filter_flatten, List.length_flatten, List.map_ofFn]
    congr 1
    congr 1
    funext e
    simp only [Function.comp_apply, List.filter_flatten, List.length_flatten, List.map_ofFn]
    congr 1
    congr 1
    funext s
    simp only [Function.comp_apply]
    rw [List.ofFn_eq_map, List.ofFn_eq_map, List.filter_map, List.filter_map, List.length_map, List.length_map]
    congr 1
    apply List.filter_congr
    intro r _
    simp only [Function.comp_apply]
    rcases hc e s r with h1 | ⟨v, h1⟩ <;> rw [h1] <;> rfl
  show runModeling mosRunModeling rd' { zscoreMode := yes } = runModeling mosRunModeling rd { zscoreMode := yes }
  unfold runModeling mosRunModeling
  rw [preprocess_zscore ha, preprocess_zscore ha', hobs]
  dsimp only
  rw [harr]
  have hm : (mosAndStats (fun E _ _ => E * 2) ⟨E, S, R, zscoreArr a⟩ ⟨E, S, R, fun e s r => affine (c s) (b s) (a e s r)⟩ : Result κ ℝ)
      = mosAndStats (fun E _ _ => E * 2) ⟨E, S, R, zscoreArr a⟩ ⟨E, S, R, a⟩ := by
    unfold mosAndStats
    dsimp only
    rw [hcount]
  rw [hm]

/-- concrete case: observer 0 uses a stretched and shifted scale, observer 1 only a shifted one -/
example : runZS_MOS (arrReader 2 2 1 fun e s r => affine (![2, 1] s) (![-1, 3] s) (exArr e s r)) {}
    = runZS_MOS (arrReader 2 2 1 exArr) {} :=
  C15_zscore_affine_invariant (arrReader 2 2 1 exArr) _ exArr ![2, 1] ![-1, 3] (by
    intro s; fin_cases s <;> norm_num) exArr_clean rfl rfl rfl

section bias
variable {K : Type} [Field K] [LinearOrder K] [IsStrictOrderedRing K] [MathFn K] {E S R : ℕ}

/-- **C16.** Bias removal on complete data (`x` the votes).  With `b` the reported biases: `raw_scores` of the
result is `x - b`, every observer has the same mean there, the biases sum to zero, the quality scores are the
plain MOS, and a second bias removal of that array changes nothing. -/
theorem C16_bias_removal_complete (rd : Reader κ K) (x : Arr3 K E S R) (hE : E ≠ 0) (hS : S ≠ 0) (hR : R ≠ 0)
    (ha : rd.scores = .ok ⟨E, S, R, fun e s r => .fin (x e s r)⟩) (res res0 : Result κ K)
    (hr : runBR_MOS rd {} = .ok res) (hr0 : runMOS rd {} = .ok res0) :
    res.qualityScores = res0.qualityScores ∧
    ∃ (b : Fin S → K) (y : Arr3 K E S R),
      res.observerBias = some (List.ofFn fun s => .fin (b s)) ∧
      res.rawScores = some ⟨E, S, R, fun e s r => .fin (y e s r)⟩ ∧
      (∀ e s r, y e s r = x e s r - b s) ∧
      (∑ s, b s = 0) ∧
      (∀ s s', mean (observerCells y s) = mean (observerCells y s')) ∧
      ∀ (rd2 : Reader κ K) (res2 : Result κ K), rd2.scores = .ok ⟨E, S, R, fun e s r => .fin (y e s r)⟩ →
        runBR_MOS rd2 {} = .ok res2 →
        res2.rawScores = res.rawScores ∧ res2.qualityScores = res.qualityScores := by
  have hE' : (E : K) ≠ 0 := by exact_mod_cast hE
  have hS' : (S : K) ≠ 0 := by exact_mod_cast hS
  have hR' : (R : K) ≠ 0 := by exact_mod_cast hR
  have hr' : runModeling biasremvRunModeling rd { biasOffset := yes } = .ok res := hr
  have hres := runModeling_bias (preprocess_bias ha) rfl hr'
  have hres0 := runMOS_default ha hr0
  have hmean : ∀ s, mean (observerCells (fun e s r => x e s r - biasOf x s) s)
      = (∑ e, ∑ s, ∑ r, x e s r) / ((E : K) * S * R) := by
    intro s
    unfold mean observerCells
    rw [sum_flatten_ofFn, length_flatten_ofFn, Nat.cast_mul]
    simp only [Finset.sum_sub_distrib, Finset.sum_const, Finset.card_univ, Fintype.card_fin, nsmul_eq_mul]
    unfold biasOf
    field_simp
    ring
  have hscore : ∀ e, meanAlongS (fun e s r => Fl.fin (x e s r - biasOf x s)) e
      = meanAlongS (fun e s r => Fl.fin (x e s r)) e := by
    intro e
    rw [meanAlongS_fin (fun e s r => x e s r - biasOf x s) e (Nat.mul_ne_zero hS hR),
      meanAlongS_fin x e (Nat.mul_ne_zero hS hR)]
    simp only [Finset.sum_sub_distrib, Finset.sum_const, Finset.card_univ, Fintype.card_fin, nsmul_eq_mul]
    rw [← Finset.mul_sum, sum_biasOf x hE hS hR, mul_zero, sub_zero]
  have hq : res.qualityScores = List.ofFn (meanAlongS fun e s r => Fl.fin (x e s r - biasOf x s)) := by
    rw [hres]
    show List.ofFn (meanAlongS (biasArr fun e s r => Fl.fin (x e s r))) = _
    rw [biasArr_fin x hE hS hR]
  have hraw : res.rawScores = some ⟨E, S, R, fun e s r => .fin (x e s r - biasOf x s)⟩ := by
    rw [hres]
    show some (⟨E, S, R, biasArr fun e s r => Fl.fin (x e s r)⟩ : Arr3D (Fl K)) = _
    rw [biasArr_fin x hE hS hR]
  refine ⟨?_, biasOf x, fun e s r => x e s r - biasOf x s, ?_, hraw, fun _ _ _ => rfl, sum_biasOf x hE hS hR, ?_, ?_⟩
  · rw [hq, hres0]
    show _ = List.ofFn (meanAlongS fun e s r => Fl.fin (x e s r))
    congr 1
    funext e
    exact hscore e
  · rw [hres]
    show some (List.ofFn (biasEstimate fun e s r => Fl.fin (x e s r))) = _
    congr 2
    funext s
    exact biasEstimate_fin x hE hS hR s
  · intro s s'; rw [hmean s, hmean s']
  · intro rd2 res2 ha2 hr2
    have hr2' : runModeling biasremvRunModeling rd2 { biasOffset := yes } = .ok res2 := hr2
    have hres2 := runModeling_bias (preprocess_bias ha2) rfl hr2'
    have hb0 : ∀ s, biasOf (fun e s r => x e s r - biasOf x s) s = 0 := by
      intro s
      have h1 : (∑ e, ∑ r, (x e s r - biasOf x s)) / ((E : K) * R)
          = (∑ e, ∑ s, ∑ r, x e s r) / ((E : K) * S * R) := by
        have := hmean s
        unfold mean observerCells at this
        rw [sum_flatten_ofFn, length_flatten_ofFn, Nat.cast_mul] at this
        exact this
      have h2 : ∑ e, ∑ s, ∑ r, (x e s r - biasOf x s) = ∑ e, ∑ s, ∑ r, x e s r := by
        simp only [Finset.sum_sub_distrib, Finset.sum_const, Finset.card_univ, Fintype.card_fin, nsmul_eq_mul]
        rw [← Finset.mul_sum, sum_biasOf x hE hS hR]
        simp
      show (∑ e, ∑ r, (x e s r - biasOf x s)) / ((E : K) * R)
        - (∑ e, ∑ s, ∑ r, (x e s r - biasOf x s)) / ((E : K) * S * R) = 0
      rw [h1, h2, sub_self]
    have harr : biasArr (fun e s r => Fl.fin (x e s r - biasOf x s)) = fun e s r => Fl.fin (x e s r - biasOf x s) := by
      rw [biasArr_fin (fun e s r => x e s r - biasOf x s) hE hS hR]
      funext e s r
      rw [hb0 s, sub_zero]
    constructor
    · rw [hraw, hres2]
      show some (⟨E, S, R, biasArr fun e s r => Fl.fin (x e s r - biasOf x s)⟩ : Arr3D (Fl K)) = _
      rw [harr]
    · rw [hq, hres2]
      show List.ofFn (meanAlongS (biasArr fun e s r => Fl.fin (x e s r - biasOf x s))) = _
      rw [harr]

/-- **C17.** On complete data, adding `d s` to all votes of observer `s` shifts every bias-removed score by the
mean of `d` and each reported bias by `d s` minus that mean. -/
theorem C17_bias_removal_offsets (rd rd' : Reader κ K) (x : Arr3 K E S R) (d : Fin S → K)
    (hE : E ≠ 0) (hS : S ≠ 0) (hR : R ≠ 0)
    (ha : rd.scores = .ok ⟨E, S, R, fun e s r => .fin (x e s r)⟩)
    (ha' : rd'.scores = .ok ⟨E, S, R, fun e s r => .fin (x e s r + d s)⟩) (res res' : Result κ K)
    (hr : runBR_MOS rd {} = .ok res) (hr' : runBR_MOS rd' {} = .ok res') :
    ∃ (q : Fin E → K) (b : Fin S → K),
      res.qualityScores = (List.ofFn fun e => .fin (q e)) ∧
      res.observerBias = some (List.ofFn fun s => .fin (b s)) ∧
      (res'.qualityScores = List.ofFn fun e => .fin (q e + mean (List.ofFn d))) ∧
      res'.observerBias = some (List.ofFn fun s => .fin (b s + d s - mean (List.ofFn d))) := by
  have hE' : (E : K) ≠ 0 := by exact_mod_cast hE
  have hS' : (S : K) ≠ 0 := by exact_mod_cast hS
  have hR' : (R : K) ≠ 0 := by exact_mod_cast hR
  have hres := runModeling_bias (preprocess_bias ha) rfl
    (show runModeling biasremvRunModeling rd { biasOffset := yes } = .ok res from hr)
  have hres' := runModeling_bias (preprocess_bias ha') rfl
    (show runModeling biasremvRunModeling rd' { biasOffset := yes } = .ok res' from hr')
  have hmd : mean (List.ofFn d) = (∑ s, d s) / (S : K) := by
    unfold mean; rw [List.sum_ofFn, List.length_ofFn]
  have hb : ∀ s, biasOf (fun e s r => x e s r + d s) s = biasOf x s + d s - mean (List.ofFn d) := by
    intro s
    unfold biasOf
    rw [hmd]
    simp only [Finset.sum_add_distrib, Finset.sum_const, Finset.card_univ, Fintype.card_fin, nsmul_eq_mul]
    rw [← Finset.mul_sum]
    field_simp
    ring
  refine ⟨fun e => (∑ s, ∑ r, (x e s r - biasOf x s)) / ((S : K) * R), biasOf x, ?_, ?_, ?_, ?_⟩
  · rw [hres]
    show List.ofFn (meanAlongS (biasArr fun e s r => Fl.fin (x e s r))) = _
    rw [biasArr_fin x hE hS hR]
    congr 1
    funext e
    exact meanAlongS_fin (fun e s r => x e s r - biasOf x s) e (Nat.mul_ne_zero hS hR)
  · rw [hres]
    show some (List.ofFn (biasEstimate fun e s r => Fl.fin (x e s r))) = _
    congr 2
    funext s
    exact biasEstimate_fin x hE hS hR s
  · rw [hres']
    show List.ofFn (meanAlongS (biasArr fun e s r => Fl.fin (x e s r + d s))) = _
    rw [biasArr_fin (fun e s r => x e s r + d s) hE hS hR]
    congr 1
    funext e
    rw [meanAlongS_fin (fun e s r => x e s r + d s - biasOf (fun e s r => x e s r + d s) s) e (Nat.mul_ne_zero hS hR)]
    congr 1
    simp only [hb]
    have : ∀ s r, x e s r + d s - (biasOf x s + d s - mean (List.ofFn d))
        = (x e s r - biasOf x s) + mean (List.ofFn d) := by intros; ring
    simp only [this]
    simp only [Finset.sum_add_distrib, Finset.sum_const, Finset.card_univ, Fintype.card_fin, nsmul_eq_mul]
    field_simp
  · rw [hres']
    show some (List.ofFn (biasEstimate fun e s r => Fl.fin (x e s r + d s))) = _
    congr 2
    funext s
    rw [biasEstimate_fin (fun e s r => x e s r + d s) hE hS hR s, hb]

/-- the premises (a run of both models on a complete array) hold for every complete array -/
example (x : Arr3 ℝ 2 3 2) : ∃ res, runBR_MOS (arrReader 2 3 2 fun e s r => .fin (x e s r)) {} = .ok res := by
  unfold runBR_MOS
  rw [if_neg (by decide)]
  unfold runModeling biasremvRunModeling
  rw [preprocess_bias (rd := arrReader 2 3 2 fun e s r => .fin (x e s r)) rfl]
  exact ⟨_, rfl⟩

end bias
end Sureal.Props
