import Verif.Lemmas.Reversed
import Verif.Props.CorrRejection
/-!
# C158: when the correlation rules reject an observer who uses the scale the wrong way round
-/
set_option linter.unusedSectionVars false
namespace Sureal.Props
open Sureal Spec Reversed
variable {κ : Type} {E S R : ℕ}

/-- the agreement of each observer with the panel, if the panel's opinion is a function of the true quality that is not constant -/
theorem reversed_agreement (sp : Bool) (q : Fin E → ℝ) (α β : ℝ) (s0 : Fin S) (hq : ∃ i j, q i ≠ q j) (hβ : 0 < β) (hk : β ≠ S - 1) (s : Fin S) :
    agreement sp (fun e s (_ : Fin 1) => .fin (reversed q α β s0 e s)) s = some (if s = s0 ↔ β < S - 1 then -1 else 1) := by
  have hS : (0 : ℝ) < S := by
    have : 0 < S := s0.pos
    exact_mod_cast this
  unfold agreement
  rw [opinionPairs_complete s0.pos.ne' (reversed q α β s0) s]
  set k : ℝ := ((S : ℝ) - 1 - β) / S with hkdef
  have hk0 : k ≠ 0 := div_ne_zero (fun h => hk (by linarith)) hS.ne'
  have hpos : 0 < k ↔ β < S - 1 := by
    rw [hkdef, div_pos_iff_of_pos_right hS]
    constructor <;> intro h <;> linarith
  have key : ∀ (a b : ℝ), a ≠ 0 → (∀ e, reversed q α β s0 e s = a * q e + b) →
      correlation (if sp then rankPairs (List.ofFn fun e => (reversed q α β s0 e s, mean (List.ofFn fun s' => reversed q α β s0 e s')))
        else List.ofFn fun e => (reversed q α β s0 e s, mean (List.ofFn fun s' => reversed q α β s0 e s'))) = some (if 0 < a * k then 1 else -1) := by
    intro a b ha hab
    have : (List.ofFn fun e => (reversed q α β s0 e s, mean (List.ofFn fun s' => reversed q α β s0 e s')))
        = List.ofFn fun e => (a * q e + b, k * q e + α / S) := by
      congr 1
      funext e
      rw [hab e, reversed_mean]
    rw [this]
    cases sp
    · exact correlation_line hq ha hk0 b _
    · exact rank_correlation_line hq ha hk0 b _
  by_cases hs : s = s0
  · rw [key (-β) α (by linarith) fun e => by unfold reversed; rw [if_pos hs]; ring]
    congr 1
    by_cases hb : β < S - 1
    · have : ¬ 0 < -β * k := by nlinarith [hpos.mpr hb]
      rw [if_neg this, if_pos (by simp [hs, hb])]
    · have hkn : k < 0 := lt_of_le_of_ne (not_lt.mp fun h => hb (hpos.mp h)) hk0
      rw [if_pos (by nlinarith), if_neg (by simp [hs, hb])]
  · rw [key 1 0 one_ne_zero fun e => by unfold reversed; rw [if_neg hs]; ring]
    congr 1
    rw [one_mul]
    by_cases hb : β < S - 1
    · rw [if_pos (hpos.mpr hb), if_neg (by simp [hs, hb])]
    · rw [if_neg fun h => hb (hpos.mp h), if_pos (by simp [hs, hb])]

/-- who is at or below the threshold -/
theorem reversed_threshold (β : ℝ) (s0 : Fin S) (hS : 3 ≤ S) (s : Fin S) :
    (if s = s0 ↔ β < S - 1 then (-1 : ℝ) else 1) ≤ agreementThreshold (List.ofFn fun s => if s = s0 ↔ β < S - 1 then -1 else 1) ↔ s = s0 ∧ β < S - 1 := by
  have h3 : (3 : ℝ) ≤ S := by exact_mod_cast hS
  have hS0 : (0 : ℝ) < S := by linarith
  set t := Real.sqrt ((S : ℝ) - 1) with ht
  have ht2 : t ^ 2 = S - 1 := Real.sq_sqrt (by linarith)
  have ht1 : 1 < t := by
    rw [ht, Real.lt_sqrt (by norm_num)]
    linarith
  have hsd : ∀ u : ℝ, Real.sqrt ((u / S) ^ 2 * ((S : ℝ) - 1)) = |u| / S * t := by
    intro u
    rw [Real.sqrt_mul (by positivity), Real.sqrt_sq_eq_abs, abs_div, abs_of_pos hS0]
  by_cases hb : β < S - 1
  · simp only [hb, iff_true, and_true]
    obtain ⟨hm, hv⟩ := odd_one_out s0 (-1) 1
    unfold agreementThreshold
    rw [hm, hv, hsd]
    by_cases hs : s = s0
    · rw [if_pos hs]
      refine iff_of_true (le_min (by norm_num) ?_) hs
      have : |(-1 : ℝ) - 1| = 2 := by norm_num
      rw [this]
      have e1 : (1 : ℝ) + (-1 - 1) / S - 2 / S * t = (S - 2 - 2 * t) / S := by field_simp; ring
      rw [e1, le_div_iff₀ hS0]
      nlinarith
    · rw [if_neg hs]
      refine iff_of_false (fun h => ?_) hs
      have := h.trans (min_le_left _ _)
      norm_num at this
  · simp only [hb, iff_false, and_false]
    have hfun : (fun s : Fin S => if ¬ s = s0 then (-1 : ℝ) else 1) = fun s => if s = s0 then 1 else -1 := by
      funext s
      split_ifs <;> rfl
    rw [hfun]
    obtain ⟨hm, hv⟩ := odd_one_out s0 1 (-1)
    unfold agreementThreshold
    rw [hm, hv, hsd]
    have : |(1 : ℝ) - -1| = 2 := by norm_num
    rw [this]
    have e1 : (-1 : ℝ) + (1 - -1) / S - 2 / S * t = -1 + 2 * (1 - t) / S := by field_simp; ring
    have e2 : 2 * (1 - t) / S < 0 := div_neg_of_neg_of_pos (by linarith) hS0
    intro h
    have h1 := h.trans (min_le_right _ _)
    rw [e1] at h1
    split_ifs at h1 <;> linarith

/-- a run of the pearson or spearman rule on a complete dataset of single votes: the columns kept and the scores -/
theorem corr_arr_result (sp : Bool) (x : Fin E → Fin S → ℝ) (hE : 2 ≤ E) (hS : S ≠ 0) :
    ∃ res b, runCorr sp (arrReader E S 1 fun e s _ => .fin (x e s)) {} = .ok res ∧
      corrReject sp (fun e s (_ : Fin 1) => (.fin (x e s) : Fl ℝ)) = .ok b ∧ res.observerRejected = some b.2.rejected ∧
      res.qualityScores = List.ofFn (meanAlongS b.1.get) := by
  have hc : ∀ e s r, NumOrNan ((fun e s (_ : Fin 1) => Fl.fin (x e s)) e s r) := fun _ _ _ => Or.inr ⟨_, rfl⟩
  obtain ⟨res, hr⟩ := corr_arr_runs sp (fun e s (_ : Fin 1) => Fl.fin (x e s)) hc
    (by intro s; rw [opinionPairs_complete hS]; simpa using hE)
  have hr' : runModeling mosRunModeling (arrReader E S 1 fun e s _ => .fin (x e s))
      { subjectRejection := yes, subjectRejectionType := some (ruleName sp) } = .ok res := hr
  obtain ⟨p', hp'⟩ := runModeling_prep hr'
  have e1 := runModeling_mos hp' hr'
  have hw := preprocess_withCorr (rd := arrReader E S 1 fun e s _ => .fin (x e s)) (o := {}) rfl rfl (preprocess_default rfl) sp
  rw [hp'] at hw
  cases hcr : corrReject sp (fun e s (_ : Fin 1) => (Fl.fin (x e s) : Fl ℝ)) with
  | error e => rw [hcr] at hw; cases hw
  | ok b =>
    rw [hcr] at hw
    obtain ⟨b, r⟩ := b
    dsimp only at hw
    obtain rfl := Except.ok.inj hw
    exact ⟨res, (b, r), hr, rfl, by rw [e1]; rfl, by rw [e1]; rfl⟩

/-- **C158 (`_partial`).**  In a panel of at least three observers all but one vote alike, and the one uses a reversed scale with slope `β > 0`.  If the
others outweigh them (`β < S - 1`), SR_MOS with the pearson or the spearman rule rejects exactly this observer, and the scores are the votes of the others.
If `β > S - 1` nobody is rejected, and the scores fall as the quality the others see rises.  Missing: rejection for `β ≥ S - 1`, which is false, see
below. -/
theorem C158_reversed_partial (sp : Bool) (q : Fin E → ℝ) (α β : ℝ) (s0 : Fin S) (hq : ∃ i j, q i ≠ q j) (hS : 3 ≤ S) (hβ : 0 < β) (hk : β ≠ S - 1) :
    ∃ res, runCorr sp (arrReader E S 1 fun e s _ => .fin (reversed q α β s0 e s)) {} = .ok res ∧
      res.observerRejected = some (List.ofFn fun s => decide (s = s0 ∧ β < S - 1)) ∧
      res.qualityScores = List.ofFn fun e => .fin (if β < S - 1 then q e else (α - (β - (S - 1)) * q e) / S) := by
  have hE : 2 ≤ E := by
    obtain ⟨i, j, hij⟩ := hq
    have h1 := i.isLt
    have h2 := j.isLt
    have h3 : i.val ≠ j.val := fun h => hij (by rw [Fin.ext h])
    omega
  have hS0 : (S : ℝ) ≠ 0 := by positivity
  obtain ⟨res, b, h1, h2, h3, h4⟩ := corr_arr_result sp (reversed q α β s0) hE (by omega)
  have hc : ∀ e s r, NumOrNan ((fun e s (_ : Fin 1) => Fl.fin (reversed q α β s0 e s)) e s r) := fun _ _ _ => Or.inr ⟨_, rfl⟩
  obtain ⟨k1, k2, -, -⟩ := corrReject_ok hc h2
  have hfun : (fun s => numOrNanOf (agreement sp (fun e s (_ : Fin 1) => Fl.fin (reversed q α β s0 e s)) s))
      = fun s => Fl.fin (if s = s0 ↔ β < S - 1 then (-1 : ℝ) else 1) := by
    funext s
    rw [reversed_agreement sp q α β s0 hq hβ hk s]
    rfl
  dsimp only at k1 k2
  rw [hfun] at k2
  have hfil : ((List.finRange S).filter fun s => (corrThreshold (List.ofFn fun s => numOrNanOf (agreement sp (fun e s (_ : Fin 1) => Fl.fin (reversed q α β s0 e s)) s))).lt
      (numOrNanOf (agreement sp (fun e s (_ : Fin 1) => Fl.fin (reversed q α β s0 e s)) s))) = (List.finRange S).filter fun s => !decide (s = s0 ∧ β < S - 1) := by
    apply List.filter_congr
    intro s _
    rw [hfun, congrFun hfun s, corrThreshold_spec (by omega) _, Bool.eq_iff_iff]
    have := reversed_threshold β s0 hS s
    simp only [Fl.lt_fin, decide_eq_true_iff, Bool.not_eq_true', decide_eq_false_iff_not, ← this, not_le]
  refine ⟨res, h1, ?_, ?_⟩
  · rw [h3, k2, corrThreshold_spec (by omega) _]
    congr 2
    funext s
    have := reversed_threshold β s0 hS s
    rw [congrFun hfun s, Fl.le_fin, Bool.eq_iff_iff, decide_eq_true_iff, decide_eq_true_iff]
    exact this
  · rw [hfil] at k1
    rw [h4, RejectSym.screenedMeans _ hc (fun s => decide (s = s0 ∧ β < S - 1)) b.1 k1]
    congr 1
    funext e
    have hpres : ∀ l : List (Fin S), present (RejectSym.cellsOf (fun e s (_ : Fin 1) => Fl.fin (reversed q α β s0 e s)) e l) = l.map fun s => reversed q α β s0 e s := by
      intro l
      unfold RejectSym.cellsOf present
      induction l with
      | nil => rfl
      | cons s l ih =>
        rw [List.map_cons, List.flatten_cons, List.filterMap_append, ih]
        rfl
    by_cases hb : β < S - 1
    · simp only [hb, and_true, if_true]
      have hne : ∃ s : Fin S, s ≠ s0 := by
        by_cases h0 : s0 = ⟨0, by omega⟩
        · exact ⟨⟨1, by omega⟩, by rw [h0]; intro h; exact absurd (congrArg Fin.val h) (by simp)⟩
        · exact ⟨⟨0, by omega⟩, fun h => h0 h.symm⟩
      obtain ⟨s1, hs1⟩ := hne
      have hnil : ((List.finRange S).filter fun s => !decide (s = s0)).map (fun s => reversed q α β s0 e s) ≠ [] := by
        apply List.ne_nil_of_mem (a := reversed q α β s0 e s1)
        exact List.mem_map_of_mem (List.mem_filter.mpr ⟨List.mem_finRange _, by simp [hs1]⟩)
      rw [meanOrNan_eq (by rw [hpres]; exact hnil), hpres, mean_const hnil]
      intro x hx
      obtain ⟨s, hs, rfl⟩ := List.mem_map.mp hx
      have : s ≠ s0 := by simpa using (List.mem_filter.mp hs).2
      unfold reversed
      rw [if_neg this]
    · have hall : ((List.finRange S).filter fun s => !decide (s = s0 ∧ β < S - 1)) = List.finRange S := by
        simp [hb]
      have hnil : (List.finRange S).map (fun s => reversed q α β s0 e s) ≠ [] :=
        List.ne_nil_of_mem (List.mem_map_of_mem (List.mem_finRange s0))
      rw [hall, if_neg hb, meanOrNan_eq (by rw [hpres]; exact hnil), hpres, ← List.ofFn_eq_map, reversed_mean]
      congr 1
      field_simp
      ring

/-- the hypotheses are met, and with four observers who vote 2 and 3 the one who votes 3 and 2 is rejected -/
example (sp : Bool) : ∃ res, runCorr sp (arrReader 2 4 1 fun e s _ => .fin (reversed ![2, 3] 5 1 (0 : Fin 4) e s)) {} = .ok res ∧
    res.observerRejected = some [true, false, false, false] ∧ res.qualityScores = [.fin 2, .fin 3] := by
  obtain ⟨res, h1, h2, h3⟩ := C158_reversed_partial sp ![2, 3] 5 1 (0 : Fin 4) ⟨0, 1, by norm_num⟩ (by norm_num) (by norm_num) (by norm_num)
  refine ⟨res, h1, ?_, ?_⟩
  · rw [h2]; norm_num [List.ofFn_succ]
  · rw [h3]; norm_num [List.ofFn_succ]

/-- **C158: "the observer who uses the scale the wrong way round is rejected" is refuted**, with votes from 1 to 5: three observers vote 2 and 3, the fourth
5 and 1.  Under the pearson and the spearman rule nobody is rejected, and the video that three of four observers find worse gets the better score. -/
theorem C158_loud_refuted (sp : Bool) : ∃ res, runCorr sp (arrReader 2 4 1 fun e s _ => .fin (reversed ![2, 3] 13 4 (0 : Fin 4) e s)) {} = .ok res ∧
    (∀ e, reversed ![2, 3] 13 4 (0 : Fin 4) e 0 = ![5, 1] e) ∧
    res.observerRejected = some [false, false, false, false] ∧ res.qualityScores = [.fin (11 / 4), .fin (5 / 2)] := by
  obtain ⟨res, h1, h2, h3⟩ := C158_reversed_partial sp ![2, 3] 13 4 (0 : Fin 4) ⟨0, 1, by norm_num⟩ (by norm_num) (by norm_num) (by norm_num)
  refine ⟨res, h1, fun e => by fin_cases e <;> norm_num [reversed], ?_, ?_⟩
  · rw [h2]; norm_num [List.ofFn_succ]
  · rw [h3]; norm_num [List.ofFn_succ]

/-- **C158, the case between**: if the reversed observer exactly cancels the others (`β = S - 1`), every column is dropped and every score is NaN, while
no observer is flagged. -/
theorem C158_cancelled_refuted (sp : Bool) (q : Fin E → ℝ) (α : ℝ) (s0 : Fin S) (hE : 2 ≤ E) :
    ∃ res, runCorr sp (arrReader E S 1 fun e s _ => .fin (reversed q α (S - 1) s0 e s)) {} = .ok res ∧
      res.observerRejected = some (List.replicate S false) ∧ res.qualityScores = List.replicate E .nan := by
  obtain ⟨res, b, h1, h2, h3, h4⟩ := corr_arr_result sp (reversed q α ((S : ℝ) - 1) s0) hE s0.pos.ne'
  have hc : ∀ e s r, NumOrNan ((fun e s (_ : Fin 1) => Fl.fin (reversed q α ((S : ℝ) - 1) s0 e s)) e s r) := fun _ _ _ => Or.inr ⟨_, rfl⟩
  obtain ⟨k1, k2, -, -⟩ := corrReject_ok hc h2
  have hno : agreement sp (fun e s (_ : Fin 1) => Fl.fin (reversed q α ((S : ℝ) - 1) s0 e s)) s0 = none := by
    unfold agreement
    rw [opinionPairs_complete s0.pos.ne' (reversed q α ((S : ℝ) - 1) s0) s0]
    have hg : ∀ i j, mean (List.ofFn fun s' => reversed q α ((S : ℝ) - 1) s0 i s') = mean (List.ofFn fun s' => reversed q α ((S : ℝ) - 1) s0 j s') := by
      intro i j
      rw [reversed_mean, reversed_mean]
      simp
    cases sp
    · exact correlation_flat hg
    · exact rank_flat hg
  have hnan : corrThreshold (List.ofFn fun s => numOrNanOf (agreement sp (fun e s (_ : Fin 1) => Fl.fin (reversed q α ((S : ℝ) - 1) s0 e s)) s)) = .nan :=
    corrThreshold_nan (List.mem_ofFn.mpr ⟨s0, by rw [hno]; rfl⟩)
  dsimp only at k1 k2
  rw [hnan] at k1 k2
  refine ⟨res, h1, ?_, ?_⟩
  · rw [h3, k2]
    simp
  · have hfil : ((List.finRange S).filter fun s => (Fl.nan : Fl ℝ).lt (numOrNanOf (agreement sp (fun e s (_ : Fin 1) => Fl.fin (reversed q α ((S : ℝ) - 1) s0 e s)) s)))
        = (List.finRange S).filter fun s => !(fun _ => true) s := by simp
    rw [hfil] at k1
    rw [h4, RejectSym.screenedMeans _ hc (fun _ => true) b.1 k1]
    simp [RejectSym.cellsOf, meanOrNan, present]

/-- the hypotheses are met: two observers who rank two videos opposite ways -/
example : ∃ res, runCorr false (arrReader 2 2 1 fun e s _ => .fin (reversed ![1, 2] 3 ((2 : ℕ) - 1) (0 : Fin 2) e s)) {} = .ok res ∧
    res.observerRejected = some [false, false] ∧ res.qualityScores = [.nan, .nan] :=
  C158_cancelled_refuted false ![1, 2] 3 (0 : Fin 2) le_rfl

end Sureal.Props
