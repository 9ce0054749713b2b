import Verif.Lemmas.Unbiased
import Verif.Props.Reversed
import Verif.Props.Recast
/-!
# C160: screening by correlation after the biases are removed
-/
set_option linter.unusedSectionVars false
namespace Sureal.Props
open Sureal Spec Unbiased RejectSym
variable {κ : Type} {E S R : ℕ}

/-- the screening by correlation alone: `SR_MOS_SRCC` or `SR_MOS_PCC` -/
noncomputable def runScreened (sp : Bool) (rd : Reader κ ℝ) : Py (Result κ ℝ) := if sp then runSR_MOS_SRCC rd {} else runSR_MOS_PCC rd {}

/-- ... and after the removal of the biases: `BR_SR_MOS_SRCC` or `BR_SR_MOS_PCC` -/
noncomputable def runUnbiased (sp : Bool) (rd : Reader κ ℝ) : Py (Result κ ℝ) := if sp then runBR_SR_MOS_SRCC rd {} else runBR_SR_MOS_PCC rd {}

theorem corrReject_runs (sp : Bool) (a : Arr3 (Fl ℝ) E S R) (hc : ∀ e s r, NumOrNan (a e s r)) (hlen : ∀ s, 2 ≤ (opinionPairs a s).length) :
    ∃ b, corrReject sp a = .ok b := by
  obtain ⟨res, hr⟩ := corr_arr_runs sp a hc hlen
  unfold runCorr runMOS runModeling mosRunModeling at hr
  rw [preprocess_withCorr (rd := arrReader E S R a) (o := {}) rfl rfl (preprocess_default rfl) sp] at hr
  cases h : corrReject sp a with
  | error e =>
    exfalso
    have h' : corrReject sp ({ arr := (⟨E, S, R, a⟩ : Arr3D (Fl ℝ)), orig := ⟨E, S, R, a⟩ } : Prep ℝ).arr.get = .error e := h
    rw [h'] at hr
    cases hr
  | ok b => exact ⟨b, rfl⟩

theorem screened_result (sp : Bool) (a : Arr3 (Fl ℝ) E S R) (hc : ∀ e s r, NumOrNan (a e s r)) (hlen : ∀ s, 2 ≤ (opinionPairs a s).length) :
    ∃ res b, runScreened sp (arrReader E S R a) = .ok res ∧ corrReject sp a = .ok b ∧ res.observerRejected = some b.2.rejected ∧
      res.observerRejectedStats1 = some b.2.stats1 ∧ res.observerRejectedStats2 = some b.2.stats2 ∧ res.rawScores = some b.1 ∧
      res.qualityScores = List.ofFn (meanAlongS b.1.get) := by
  obtain ⟨⟨b, r⟩, hb⟩ := corrReject_runs sp a hc hlen
  have hp := preprocess_withCorr (rd := arrReader E S R a) (o := {}) rfl rfl (preprocess_default rfl) sp
  dsimp only at hp
  rw [hb] at hp
  dsimp only at hp
  have hrun : ∃ res, runModeling mosRunModeling (arrReader E S R a) { subjectRejection := yes, subjectRejectionType := some (ruleName sp) } = .ok res := by
    unfold runModeling mosRunModeling
    rw [hp]
    exact ⟨_, rfl⟩
  obtain ⟨res, hres⟩ := hrun
  have e := runModeling_mos hp hres
  refine ⟨res, (b, r), ?_, hb, ?_, ?_, ?_, ?_, ?_⟩
  · rw [← hres]; cases sp <;> rfl
  all_goals rw [e]; rfl

theorem unbiased_result (sp : Bool) (a : Arr3 (Fl ℝ) E S R) (hc : ∀ e s r, NumOrNan (a e s r)) (hlen : ∀ s, 2 ≤ (opinionPairs (biasArr a) s).length) :
    ∃ res b, runUnbiased sp (arrReader E S R a) = .ok res ∧ corrReject sp (biasArr a) = .ok b ∧ res.observerRejected = some b.2.rejected ∧
      res.observerRejectedStats1 = some b.2.stats1 ∧ res.observerRejectedStats2 = some b.2.stats2 ∧
      res.observerBias = some (List.ofFn (biasEstimate a)) ∧ res.qualityScores = List.ofFn (meanAlongS b.1.get) := by
  obtain ⟨⟨b, r⟩, hb⟩ := corrReject_runs sp (biasArr a) (biasArr_clean a hc) hlen
  have hp := preprocess_withCorr (rd := arrReader E S R a) (o := { biasOffset := yes }) rfl rfl (preprocess_bias rfl) sp
  dsimp only at hp
  rw [hb] at hp
  dsimp only at hp
  have hrun : ∃ res, runModeling biasremvRunModeling (arrReader E S R a)
      { biasOffset := yes, subjectRejection := yes, subjectRejectionType := some (ruleName sp) } = .ok res := by
    unfold runModeling biasremvRunModeling
    rw [hp]
    exact ⟨_, rfl⟩
  obtain ⟨res, hres⟩ := hrun
  have e := runModeling_bias hp rfl hres
  refine ⟨res, (b, r), ?_, hb, ?_, ?_, ?_, ?_, ?_⟩
  · rw [← hres]; cases sp <;> rfl
  all_goals rw [e] <;> rfl

theorem present_single (x : Fin E → Fin S → ℝ) (e : Fin E) (l : List (Fin S)) :
    present (cellsOf (fun e s (_ : Fin 1) => Fl.fin (x e s)) e l) = l.map fun s => x e s := by
  unfold cellsOf present
  induction l with
  | nil => rfl
  | cons s l ih =>
    rw [List.map_cons, List.flatten_cons, List.filterMap_append, ih]
    rfl

/-- agreements do not see the biases -/
theorem agreement_unbiased (sp : Bool) (x : Fin E → Fin S → ℝ) (hE : E ≠ 0) (hS : S ≠ 0) (s : Fin S) :
    agreement sp (fun e s (_ : Fin 1) => .fin (x e s - biasIn x s)) s = agreement sp (fun e s (_ : Fin 1) => .fin (x e s)) s := by
  unfold agreement
  rw [opinionPairs_complete hS x s, opinionPairs_complete hS (fun e s => x e s - biasIn x s) s]
  have : (List.ofFn fun e => (x e s - biasIn x s, mean (List.ofFn fun s' => x e s' - biasIn x s')))
      = (List.ofFn fun e => (x e s, mean (List.ofFn fun s' => x e s'))).map fun p => (p.1 + -biasIn x s, p.2 + 0) := by
    rw [List.map_ofFn]
    congr 1
    funext e
    simp only [Function.comp_apply, add_zero]
    rw [mean_unbiased x hE hS e, sub_eq_add_neg]
  rw [this, rankPairs_shift]
  cases sp
  · exact correlation_shift _ _ _
  · rfl

/-- **C160 (`_partial`).**  Every observer voted once on every video.  Then the screening by correlation after bias removal rejects the same observers for
the same agreements as the screening without, and all scores of one are those of the other less one number: the mean bias of the observers kept.  If
nobody is rejected the scores are the same.  Missing: datasets with missing votes, and the rule of BT.500, for which it is false, see below. -/
theorem C160_same_screening_partial (sp : Bool) (x : Fin E → Fin S → ℝ) (hE : 2 ≤ E) (hS : S ≠ 0) :
    ∃ res res' kept, runScreened sp (arrReader E S 1 fun e s _ => .fin (x e s)) = .ok res ∧ runUnbiased sp (arrReader E S 1 fun e s _ => .fin (x e s)) = .ok res' ∧
      res'.observerRejected = res.observerRejected ∧ res'.observerRejectedStats1 = res.observerRejectedStats1 ∧
      res'.observerRejectedStats2 = res.observerRejectedStats2 ∧ res'.observerBias = some (List.ofFn fun s => .fin (biasIn x s)) ∧
      res.observerRejectedStats1 = some (List.ofFn fun s => numOrNanOf (agreement sp (fun e s (_ : Fin 1) => .fin (x e s)) s)) ∧
      res.rawScores = some ⟨E, kept.length, 1, fun e i _ => .fin (x e (kept.get i))⟩ ∧
      ((∀ s, agreement sp (fun e s (_ : Fin 1) => .fin (x e s)) s ≠ none) →
        ∃ flags : Fin S → Bool, res.observerRejected = some (List.ofFn flags) ∧ kept = (List.finRange S).filter fun s => !flags s) ∧
      res'.qualityScores = res.qualityScores.map (affine 1 (-mean (kept.map (biasIn x)))) ∧
      (kept = List.finRange S → res'.qualityScores = res.qualityScores) := by
  have hE0 : E ≠ 0 := by omega
  set a : Arr3 (Fl ℝ) E S 1 := fun e s _ => .fin (x e s) with ha
  have hc : ∀ e s r, NumOrNan (a e s r) := fun _ _ _ => Or.inr ⟨_, rfl⟩
  have hb : biasArr a = fun e s (_ : Fin 1) => .fin (x e s - biasIn x s) := by
    have := biasArr_fin (fun e s (_ : Fin 1) => x e s) hE0 hS one_ne_zero
    rw [ha, this]
    funext e s r
    rw [biasOf_eq x hE0 hS]
  have hbe : biasEstimate a = fun s => .fin (biasIn x s) := by
    funext s
    rw [ha, biasEstimate_fin (fun e s (_ : Fin 1) => x e s) hE0 hS one_ne_zero, biasOf_eq x hE0 hS]
  obtain ⟨res, b, h1, h2, h3, h4, h5, hraw, h6⟩ := screened_result sp a hc (by intro s; rw [ha, opinionPairs_complete hS]; simpa using hE)
  obtain ⟨res', b', k1, k2, k3, k4, k5, k6, k7⟩ := unbiased_result sp a hc
    (by intro s; rw [hb, opinionPairs_complete hS (fun e s => x e s - biasIn x s)]; simpa using hE)
  obtain ⟨g1, g2, g3, g4⟩ := corrReject_ok hc h2
  obtain ⟨g1', g2', g3', g4'⟩ := corrReject_ok (biasArr_clean a hc) k2
  have hag : agreement sp (biasArr a) = agreement sp a := by
    funext s
    rw [hb, agreement_unbiased sp x hE0 hS]
  dsimp only at g1 g2 g1' g2'
  rw [hag] at g1' g2' g3'
  set flags : Fin S → Bool := fun s => (corrThreshold (List.ofFn fun s => numOrNanOf (agreement sp a s))).lt (numOrNanOf (agreement sp a s)) with hfl
  have hnn : ∀ p : Fin S → Bool, ((List.finRange S).filter p) = (List.finRange S).filter fun s => !(fun s => !p s) s := by
    intro p; simp
  have hq : res.qualityScores = List.ofFn fun e => meanOrNan (cellsOf a e ((List.finRange S).filter flags)) := by
    rw [h6, hnn flags]
    exact screenedMeans a hc (fun s => !flags s) b.1 (by rw [g1, hnn flags])
  have hq' : res'.qualityScores = List.ofFn fun e => meanOrNan (cellsOf (biasArr a) e ((List.finRange S).filter flags)) := by
    rw [k7, hnn flags]
    exact screenedMeans (biasArr a) (biasArr_clean a hc) (fun s => !flags s) b'.1 (by rw [g1', hnn flags])
  have hshift : res'.qualityScores = res.qualityScores.map (affine 1 (-mean (((List.finRange S).filter flags).map (biasIn x)))) := by
    rw [hq, hq', List.map_ofFn]
    congr 1
    funext e
    simp only [Function.comp_apply]
    have p1 : present (cellsOf a e ((List.finRange S).filter flags)) = ((List.finRange S).filter flags).map fun s => x e s := present_single x e _
    have p2 : present (cellsOf (biasArr a) e ((List.finRange S).filter flags)) = ((List.finRange S).filter flags).map fun s => x e s - biasIn x s := by
      rw [hb]; exact present_single (fun e s => x e s - biasIn x s) e _
    by_cases hnil : (List.finRange S).filter flags = []
    · rw [hnil]; rfl
    · rw [meanOrNan_eq (by rw [p2]; simpa using hnil), meanOrNan_eq (by rw [p1]; simpa using hnil), p1, p2, mean_map_sub]
      unfold affine
      congr 1
      ring
  refine ⟨res, res', (List.finRange S).filter flags, h1, k1, by rw [h3, k3, g2, g2'], by rw [h4, k4, g3, g3'], by rw [h5, k5, g4, g4'], by rw [k6, hbe],
    by rw [h4, g3], by rw [hraw, g1], ?_, hshift, ?_⟩
  · intro hdef
    refine ⟨_, by rw [h3, g2], ?_⟩
    have hval : ∀ s, ∃ c, agreement sp a s = some c := fun s => Option.ne_none_iff_exists'.mp (hdef s)
    choose c hcs using hval
    have hfun : (fun s => numOrNanOf (agreement sp a s)) = fun s => .fin (c s) := by
      funext s
      rw [hcs s]; rfl
    apply List.filter_congr
    intro s _
    rw [hfl]
    dsimp only
    rw [hfun, congrFun hfun s, corrThreshold_spec hS c]
    simp only [Fl.lt_fin, Fl.le_fin]
    rw [Bool.eq_iff_iff]
    simp
  · intro hfil
    have h0 : mean ((List.finRange S).map (biasIn x)) = 0 := by
      rw [← List.ofFn_eq_map]
      unfold mean
      rw [List.sum_ofFn, sum_biasIn x hE0 hS, zero_div]
    rw [hshift, hfil, h0]
    have : (affine (1 : ℝ) (-0)) = id := by
      funext y
      cases y <;> simp [affine]
    rw [this, List.map_id]

/-- the hypotheses are met: four observers on two videos, of whom the first uses the scale the wrong way round -/
example : (∃ res res', runScreened false (arrReader 2 4 1 fun e s _ => .fin (reversed ![2, 3] 5 1 (0 : Fin 4) e s)) = .ok res ∧
    runUnbiased false (arrReader 2 4 1 fun e s _ => .fin (reversed ![2, 3] 5 1 (0 : Fin 4) e s)) = .ok res' ∧
    res'.observerRejected = res.observerRejected) ∧ ∀ s, agreement false (fun e s (_ : Fin 1) => .fin (reversed ![2, 3] 5 1 (0 : Fin 4) e s)) s ≠ none := by
  obtain ⟨res, res', -, h1, h2, h3, -⟩ := C160_same_screening_partial false (reversed ![2, 3] 5 1 (0 : Fin 4)) le_rfl (by norm_num)
  refine ⟨⟨res, res', h1, h2, h3⟩, fun s => ?_⟩
  rw [reversed_agreement false ![2, 3] 5 1 (0 : Fin 4) ⟨0, 1, by norm_num⟩ (by norm_num) (by norm_num) s]
  simp

/-- **C160: the rejected observers still have a say.**  Three observers vote 2 and 3, the fourth votes against them, 3 and 2 or 4 and 3.  Without bias
removal they are rejected and the scores are 2 and 3 in both cases.  With bias removal they are rejected as well, but their votes of the second case
raise all scores by a quarter, since the biases are estimated before the screening. -/
theorem C160_rejected_count_refuted (sp : Bool) : ∃ res res',
    runUnbiased sp (arrReader 2 4 1 fun e s _ => .fin (reversed ![2, 3] 5 1 (0 : Fin 4) e s)) = .ok res ∧
    runUnbiased sp (arrReader 2 4 1 fun e s _ => .fin (reversed ![2, 3] 6 1 (0 : Fin 4) e s)) = .ok res' ∧
    res.observerRejected = some [true, false, false, false] ∧ res'.observerRejected = some [true, false, false, false] ∧
    res.qualityScores = [.fin 2, .fin 3] ∧ res'.qualityScores = [.fin (9 / 4), .fin (13 / 4)] := by
  have key : ∀ α : ℝ, ∃ res, runUnbiased sp (arrReader 2 4 1 fun e s _ => .fin (reversed ![2, 3] α 1 (0 : Fin 4) e s)) = .ok res ∧
      res.observerRejected = some [true, false, false, false] ∧ res.qualityScores = [.fin (2 + (α - 5) / 4), .fin (3 + (α - 5) / 4)] := by
    intro α
    obtain ⟨r0, h1, h2, h3⟩ := C158_reversed_partial sp ![2, 3] α 1 (0 : Fin 4) ⟨0, 1, by norm_num⟩ (by norm_num) (by norm_num) (by norm_num)
    obtain ⟨res, res', kept, g1, g2, g3, -, -, -, -, -, g4, g5, -⟩ := C160_same_screening_partial sp (reversed ![2, 3] α 1 (0 : Fin 4)) le_rfl (by norm_num)
    have : res = r0 := by
      have h1' : runScreened sp (arrReader 2 4 1 fun e s _ => .fin (reversed ![2, 3] α 1 (0 : Fin 4) e s)) = .ok r0 := by
        rw [← h1]; cases sp <;> rfl
      rw [g1] at h1'
      exact Except.ok.inj h1'
    subst this
    have hflags : (List.ofFn fun s : Fin 4 => decide (s = 0 ∧ (1 : ℝ) < (4 : ℕ) - 1)) = [true, false, false, false] := by
      norm_num [List.ofFn_succ]
    rw [hflags] at h2
    have hsc : res.qualityScores = [.fin 2, .fin 3] := by
      rw [h3]; norm_num [List.ofFn_succ]
    obtain ⟨flags, k1, k2⟩ := g4 (by
      intro s
      rw [reversed_agreement sp ![2, 3] α 1 (0 : Fin 4) ⟨0, 1, by norm_num⟩ (by norm_num) (by norm_num) s]
      simp)
    rw [h2] at k1
    have hf : flags = ![true, false, false, false] := by
      have := Option.some.inj k1
      simp only [List.ofFn_succ, List.ofFn_zero, List.cons.injEq, and_true] at this
      obtain ⟨a0, a1, a2, a3⟩ := this
      funext s
      fin_cases s
      · exact a0.symm
      · exact a1.symm
      · exact a2.symm
      · exact a3.symm
    have hk : kept = [1, 2, 3] := by
      rw [k2, hf]; decide
    refine ⟨res', g2, by rw [g3, h2], ?_⟩
    have hb : mean (kept.map (biasIn (reversed ![2, 3] α 1 (0 : Fin 4)))) = (5 - α) / 4 := by
      rw [hk]
      simp [biasIn, mean, reversed, List.ofFn_succ]
      ring
    rw [g5, hsc, hb]
    simp only [List.map_cons, List.map_nil, affine]
    have e1 : 1 * 2 + -((5 - α) / 4) = 2 + (α - 5) / 4 := by ring
    have e2 : 1 * 3 + -((5 - α) / 4) = 3 + (α - 5) / 4 := by ring
    rw [e1, e2]
  obtain ⟨res, h1, h2, h3⟩ := key 5
  obtain ⟨res', k1, k2, k3⟩ := key 6
  refine ⟨res, res', h1, k1, h2, k2, ?_, ?_⟩
  · rw [h3]; norm_num
  · rw [k3]; norm_num

/-! ### Missing votes -/

/-- three observers with two votes each on three videos: each finds the later of their two videos better by one; the third observer is more generous -/
noncomputable def gapsX : Arr3 (Fl ℝ) 3 3 1 := fun e s _ => ![![.fin 1, .nan, .fin 4], ![.fin 2, .fin 2, .nan], ![.nan, .fin 3, .fin 5]] e s

theorem val_nan : Fl.val? (.nan : Fl ℝ) = none := rfl

theorem gaps_clean (e : Fin 3) (s : Fin 3) (r : Fin 1) : NumOrNan (gapsX e s r) := by
  fin_cases e <;> fin_cases s <;> simp [gapsX, NumOrNan]

theorem gaps_bias : biasArr gapsX = fun e s _ =>
    ![![.fin (7 / 4), .nan, .fin (11 / 4)], ![.fin (11 / 4), .fin (5 / 2), .nan], ![.nan, .fin (7 / 2), .fin (15 / 4)]] e s := by
  have hm : meanAlongS gapsX = ![.fin (5 / 2), .fin 2, .fin 4] := by
    funext e
    rw [meanAlongS_spec gapsX e (fun s r => gaps_clean e s r)]
    fin_cases e <;> simp [videoCells, meanOrNan, present, gapsX, List.ofFn_succ, Fl.val?, val_nan, List.filterMap_cons, mean] <;> norm_num
  have hb : biasEstimate gapsX = ![.fin (-3 / 4), .fin (-1 / 2), .fin (5 / 4)] := by
    funext s
    unfold biasEstimate
    rw [hm, meanAlongE_spec]
    · fin_cases s <;> simp [observerCells, meanOrNan, present, gapsX, List.ofFn_succ, Fl.val?, val_nan, List.filterMap_cons, mean] <;> norm_num
    · intro e r
      fin_cases e <;> fin_cases s <;> simp [gapsX, NumOrNan]
  unfold biasArr
  rw [hb]
  funext e s r
  fin_cases e <;> fin_cases s <;> simp [gapsX] <;> norm_num

theorem gaps_pairs (s : Fin 3) : opinionPairs gapsX s = ![[(1, 5 / 2), (2, 2)], [(2, 2), (3, 4)], [(4, 5 / 2), (5, 4)]] s := by
  have ho : ∀ e s, opinion gapsX e s = gapsX e s 0 := by
    intro e s
    fin_cases e <;> fin_cases s <;> simp [opinion, meanOrNan, present, gapsX, Fl.val?, val_nan, List.filterMap_cons, mean]
  have hp : ∀ e, panelOpinion gapsX e = ![.fin (5 / 2), .fin 2, .fin 4] e := by
    intro e
    unfold panelOpinion
    simp only [ho]
    fin_cases e <;> simp [meanOrNan, present, gapsX, List.ofFn_succ, Fl.val?, val_nan, List.filterMap_cons, mean] <;> norm_num
  unfold opinionPairs
  simp only [ho, hp]
  fin_cases s <;> rfl

theorem gaps_bias_pairs (s : Fin 3) :
    opinionPairs (biasArr gapsX) s = ![[(7 / 4, 9 / 4), (11 / 4, 21 / 8)], [(5 / 2, 21 / 8), (7 / 2, 29 / 8)], [(11 / 4, 9 / 4), (15 / 4, 29 / 8)]] s := by
  rw [gaps_bias]
  set y : Arr3 (Fl ℝ) 3 3 1 := fun e s _ =>
    ![![.fin (7 / 4), .nan, .fin (11 / 4)], ![.fin (11 / 4), .fin (5 / 2), .nan], ![.nan, .fin (7 / 2), .fin (15 / 4)]] e s with hy
  have ho : ∀ e s, opinion y e s = y e s 0 := by
    intro e s
    fin_cases e <;> fin_cases s <;> simp [opinion, meanOrNan, present, hy, Fl.val?, val_nan, List.filterMap_cons, mean]
  have hp : ∀ e, panelOpinion y e = ![.fin (9 / 4), .fin (21 / 8), .fin (29 / 8)] e := by
    intro e
    unfold panelOpinion
    simp only [ho]
    fin_cases e <;> simp [meanOrNan, present, hy, List.ofFn_succ, Fl.val?, val_nan, List.filterMap_cons, mean] <;> norm_num
  unfold opinionPairs
  simp only [ho, hp]
  fin_cases s <;> rfl

theorem gaps_agreement (sp : Bool) (s : Fin 3) : agreement sp gapsX s = some (if s = 0 ↔ (0 : ℝ) < (3 : ℕ) - 1 then -1 else 1) := by
  unfold agreement
  rw [gaps_pairs]
  fin_cases s
  · refine (two_points sp 1 (5 / 2) 2 2 (by norm_num) (by norm_num)).trans ?_
    norm_num
  · refine (two_points sp 2 2 3 4 (by norm_num) (by norm_num)).trans ?_
    norm_num
  · refine (two_points sp 4 (5 / 2) 5 4 (by norm_num) (by norm_num)).trans ?_
    norm_num

theorem gaps_bias_agreement (sp : Bool) (s : Fin 3) : agreement sp (biasArr gapsX) s = some 1 := by
  unfold agreement
  rw [gaps_bias_pairs]
  fin_cases s
  · refine (two_points sp (7 / 4) (9 / 4) (11 / 4) (21 / 8) (by norm_num) (by norm_num)).trans ?_
    norm_num
  · refine (two_points sp (5 / 2) (21 / 8) (7 / 2) (29 / 8) (by norm_num) (by norm_num)).trans ?_
    norm_num
  · refine (two_points sp (11 / 4) (9 / 4) (15 / 4) (29 / 8) (by norm_num) (by norm_num)).trans ?_
    norm_num

/-- **C160 with missing votes is refuted.**  Three videos and three observers, who vote twice each: every observer finds the later one of their two videos
better by one point, and the third observer gives higher votes.  Without bias removal the first observer is rejected and the second video gets the worst
score; with bias removal nobody is rejected and the scores rise from video to video. -/
theorem C160_missing_refuted (sp : Bool) : ∃ res res', runScreened sp (arrReader 3 3 1 gapsX) = .ok res ∧ runUnbiased sp (arrReader 3 3 1 gapsX) = .ok res' ∧
    res.observerRejected = some [true, false, false] ∧ res'.observerRejected = some [false, false, false] ∧
    res.qualityScores = [.fin 4, .fin 2, .fin 4] ∧ res'.qualityScores = [.fin (9 / 4), .fin (21 / 8), .fin (29 / 8)] := by
  obtain ⟨res, b, h1, h2, h3, -, -, -, h4⟩ := screened_result sp gapsX gaps_clean (by intro s; rw [gaps_pairs]; fin_cases s <;> simp)
  obtain ⟨res', b', k1, k2, k3, -, -, -, k4⟩ := unbiased_result sp gapsX gaps_clean (by intro s; rw [gaps_bias_pairs]; fin_cases s <;> simp)
  obtain ⟨g1, g2, -, -⟩ := corrReject_ok gaps_clean h2
  obtain ⟨g1', g2', -, -⟩ := corrReject_ok (biasArr_clean gapsX gaps_clean) k2
  have hr : (fun s => numOrNanOf (agreement sp gapsX s)) = fun s => .fin (if s = 0 ↔ (0 : ℝ) < (3 : ℕ) - 1 then -1 else 1) := by
    funext s
    rw [gaps_agreement]; rfl
  have hr' : (fun s => numOrNanOf (agreement sp (biasArr gapsX) s)) = fun _ => .fin 1 := by
    funext s
    rw [gaps_bias_agreement]; rfl
  have hle : ∀ s : Fin 3, (numOrNanOf (agreement sp gapsX s)).le (corrThreshold (List.ofFn fun s => numOrNanOf (agreement sp gapsX s))) = decide (s = 0) := by
    intro s
    rw [hr, congrFun hr s, corrThreshold_spec (by norm_num), Fl.le_fin, Bool.eq_iff_iff, decide_eq_true_iff, decide_eq_true_iff]
    refine (reversed_threshold (S := 3) 0 0 le_rfl s).trans ?_
    norm_num
  have hlt : ∀ s : Fin 3, (corrThreshold (List.ofFn fun s => numOrNanOf (agreement sp gapsX s))).lt (numOrNanOf (agreement sp gapsX s)) = !decide (s = 0) := by
    intro s
    rw [← hle s, hr, congrFun hr s, corrThreshold_spec (by norm_num), Fl.le_fin, Fl.lt_fin, Bool.eq_iff_iff]
    simp only [decide_eq_true_iff, Bool.not_eq_true', decide_eq_false_iff_not, not_le]
  have hthr : corrThreshold (List.ofFn fun s => numOrNanOf (agreement sp (biasArr gapsX) s)) = .fin (7 / 10) := by
    rw [hr', corrThreshold_spec (by norm_num)]
    congr 1
    simp [agreementThreshold, popVar, sqDev, mean, List.ofFn_succ]
    norm_num
  have hlt' : ∀ s : Fin 3, (corrThreshold (List.ofFn fun s => numOrNanOf (agreement sp (biasArr gapsX) s))).lt (numOrNanOf (agreement sp (biasArr gapsX) s)) = !false := by
    intro s
    rw [hthr, congrFun hr' s, Fl.lt_fin]
    norm_num
  dsimp only at g1 g2 g1' g2'
  refine ⟨res, res', h1, k1, ?_, ?_, ?_, ?_⟩
  · rw [h3, g2, funext hle]; rfl
  · rw [k3, g2', hthr]
    have : (fun s => (numOrNanOf (agreement sp (biasArr gapsX) s)).le (.fin (7 / 10))) = fun _ => false := by
      funext s
      rw [congrFun hr' s, Fl.le_fin]
      norm_num
    rw [this]; rfl
  · rw [h4, screenedMeans gapsX gaps_clean (fun s => decide (s = 0)) b.1 (by rw [g1, List.filter_congr fun s _ => hlt s])]
    have : ((List.finRange 3).filter fun s => !decide (s = 0)) = [1, 2] := by decide
    rw [this]
    simp [cellsOf, meanOrNan, present, gapsX, List.ofFn_succ, Fl.val?, val_nan, List.filterMap_cons, mean]
    norm_num
  · rw [k4, screenedMeans (biasArr gapsX) (biasArr_clean gapsX gaps_clean) (fun _ => false) b'.1 (by
      rw [g1', List.filter_congr fun s _ => hlt' s])]
    have : ((List.finRange 3).filter fun _ => !false) = [0, 1, 2] := by decide
    rw [this, gaps_bias]
    simp [cellsOf, meanOrNan, present, List.ofFn_succ, Fl.val?, val_nan, List.filterMap_cons, mean]
    norm_num

/-! ### The rule of BT.500 -/

/-- the panel `maskedX` with votes that are higher by 2 from its last observer -/
noncomputable def biasedX : Arr3 ℝ 2 6 1 := fun e s _ => ![![3, 3, 3, 3, 2, 7], ![3, 3, 3, 3, 4, 3]] e s

theorem two_le_factor (v : List ℝ) : 2 ≤ outlierFactor v := by
  unfold outlierFactor
  split_ifs
  · exact le_rfl
  · apply Real.le_sqrt_of_sq_le; norm_num

theorem biased_votes (e : Fin 2) : votesOn (fun e s r => .fin (biasedX e s r)) e = ![[3, 3, 3, 3, 2, 7], [3, 3, 3, 3, 4, 3]] e := by
  fin_cases e <;> simp [votesOn, videoCells, present, biasedX, List.ofFn_succ, Fl.val?]

theorem biased_not_low (e : Fin 2) (s : Fin 6) (r : Fin 1) : ¬ IsLow (fun e s r => .fin (biasedX e s r)) e s r := by
  rintro ⟨x, hx, hlow⟩
  have hx' := Fl.fin.inj hx
  have hf := two_le_factor (votesOn (fun e s r => .fin (biasedX e s r)) e)
  rw [biased_votes] at hf hlow
  generalize outlierFactor (![[3, 3, 3, 3, 2, 7], [3, 3, 3, 3, 4, 3]] e) = f at hf hlow
  have hm : mean ((![[3, 3, 3, 3, 2, 7], [3, 3, 3, 3, 4, 3]] : Fin 2 → List ℝ) e) = ![7 / 2, 19 / 6] e := by
    fin_cases e <;> norm_num [mean]
  have hv : popVar ((![[3, 3, 3, 3, 2, 7], [3, 3, 3, 3, 4, 3]] : Fin 2 → List ℝ) e) = ![31 / 12, 5 / 36] e := by
    fin_cases e <;> norm_num [popVar, sqDev, mean]
  rw [hm, hv] at hlow
  have hs : (![8 / 5, 1 / 3] : Fin 2 → ℝ) e ≤ Real.sqrt ((![31 / 12, 5 / 36] : Fin 2 → ℝ) e) := by
    apply Real.le_sqrt_of_sq_le
    fin_cases e <;> norm_num
  generalize Real.sqrt ((![31 / 12, 5 / 36] : Fin 2 → ℝ) e) = t at hs hlow
  have hft : 2 * (![8 / 5, 1 / 3] : Fin 2 → ℝ) e ≤ f * t := by
    apply mul_le_mul hf hs _ (by linarith)
    fin_cases e <;> norm_num
  have hxge : (![2, 3] : Fin 2 → ℝ) e ≤ x := by
    rw [← hx']
    fin_cases e <;> fin_cases s <;> norm_num [biasedX]
  fin_cases e <;> norm_num at hft hxge hlow <;> linarith

theorem biased_not_screened (s : Fin 6) : ¬ Screened (fun e s r => .fin (biasedX e s r)) s := by
  classical
  have hL : numLow (fun e s r => .fin (biasedX e s r)) s = 0 := by
    unfold numLow
    rw [Finset.card_eq_zero, Finset.filter_eq_empty_iff]
    intro p _
    exact biased_not_low p.1 s p.2
  rintro ⟨h1, h2⟩
  rw [hL] at h1 h2
  by_cases hP : (numHigh (fun e s r => .fin (biasedX e s r)) s : ℝ) = 0
  · rw [hP] at h1; norm_num at h1
  · rw [Nat.cast_zero, sub_zero, add_zero, div_self hP] at h2
    norm_num at h2

/-- **C160 with the rule of BT.500 is refuted.**  In a panel of six observers on two videos SR_MOS rejects nobody; after bias removal the last observer is
rejected. -/
theorem C160_bt500_refuted : ∃ res res',
    runSR_MOS (arrReader 2 6 1 fun e s r => .fin (biasedX e s r)) {} = .ok res ∧ runBR_SR_MOS (arrReader 2 6 1 fun e s r => .fin (biasedX e s r)) {} = .ok res' ∧
    res.observerRejected = some [false, false, false, false, false, false] ∧ res'.observerRejected = some [false, false, false, false, false, true] := by
  obtain ⟨res, h1, h2, -, -⟩ := screened_run biasedX (fun _ => false) (fun s => iff_of_false (by simp) fun h => biased_not_screened s h.1)
  have hbias : ∀ s, biasOf biasedX s = ![-1 / 3, -1 / 3, -1 / 3, -1 / 3, -1 / 3, 5 / 3] s := by
    intro s
    unfold biasOf
    simp only [Fin.sum_univ_two, Fin.sum_univ_six, Finset.univ_unique, Finset.sum_singleton]
    fin_cases s <;> simp [biasedX] <;> norm_num
  have hb : biasArr (fun e s r => Fl.fin (biasedX e s r))
      = recast (Equiv.refl _) (Equiv.refl _) (fun _ _ => Equiv.refl _) (fun _ => 1) (fun _ => 1 / 3) fun e s r => .fin (maskedX e s r) := by
    rw [biasArr_fin biasedX (by norm_num) (by norm_num) (by norm_num)]
    funext e s r
    rw [hbias]
    unfold recast affine
    fin_cases e <;> fin_cases s <;> simp [biasedX, maskedX] <;> norm_num
  have hc : ∀ e s r, NumOrNan ((fun e s r => Fl.fin (biasedX e s r)) e s r) := fun _ _ _ => Or.inr ⟨_, rfl⟩
  have hp := preprocess_withKurtosis (o := { biasOffset := yes }) rfl rfl (preprocess_bias (rd := arrReader 2 6 1 fun e s r => .fin (biasedX e s r)) rfl)
  have hrun : ∃ res', runBR_SR_MOS (arrReader 2 6 1 fun e s r => .fin (biasedX e s r)) {} = .ok res' := by
    unfold runBR_SR_MOS
    rw [if_neg (by decide)]
    unfold runModeling biasremvRunModeling
    rw [hp]
    exact ⟨_, rfl⟩
  obtain ⟨res', hres⟩ := hrun
  have hk : runModeling biasremvRunModeling (arrReader 2 6 1 fun e s r => .fin (biasedX e s r)) { biasOffset := yes, subjectRejection := yes } = .ok res' := hres
  have e := runModeling_bias hp rfl hk
  obtain ⟨flags, hf, hrej, -⟩ := kurtosisReject_spec (biasArr fun e s r => Fl.fin (biasedX e s r)) (biasArr_clean _ hc)
  have hfg : flags = fun s => decide (s = 5) := by
    funext s
    rw [Bool.eq_iff_iff, hf, hb, rejects_recast _ _ _ _ _ _ (Or.inl fun _ => one_pos), decide_eq_true_iff]
    exact masked_rejects s
  refine ⟨res, res', h1, hres, by rw [h2]; rfl, ?_⟩
  have : res'.observerRejected = some (kurtosisReject (biasArr fun e s r => Fl.fin (biasedX e s r))).2.rejected := by rw [e]; rfl
  rw [this, hrej, hfg]
  rfl

end Sureal.Props
