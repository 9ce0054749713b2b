import Verif.Lemmas.OpposedCamps
import Verif.Props.Unbiased
/-!
# C161: two camps that use the scale opposite ways, screened by correlation
-/
set_option linter.unusedSectionVars false
namespace Sureal.Props
open Sureal Spec Opposed RejectSym
variable {E S : ℕ}

/-- the agreement of each observer with the panel, unless the camps cancel -/
theorem opposed_agreement (sp : Bool) (q : Fin E → ℝ) (α β : ℝ) (D : Finset (Fin S)) (hS : S ≠ 0) (hq : ∃ i j, q i ≠ q j) (hβ : 0 < β)
    (hk : β * D.card ≠ S - D.card) (s : Fin S) :
    agreement sp (fun e s (_ : Fin 1) => .fin (opposed q α β D e s)) s = some (if s ∈ outvoted β D then -1 else 1) := by
  have hS' : (0 : ℝ) < S := by exact_mod_cast Nat.pos_of_ne_zero hS
  unfold agreement
  rw [opinionPairs_complete hS (opposed q α β D) s]
  set k : ℝ := ((S : ℝ) - D.card - β * D.card) / S with hkdef
  have hk0 : k ≠ 0 := div_ne_zero (fun h => hk (by linarith)) hS'.ne'
  have hpos : 0 < k ↔ β * D.card < S - D.card := by
    rw [hkdef, div_pos_iff_of_pos_right hS']
    constructor <;> intro h <;> linarith
  have key : ∀ (a b : ℝ), a ≠ 0 → (∀ e, opposed q α β D e s = a * q e + b) →
      correlation (if sp then rankPairs (List.ofFn fun e => (opposed q α β D e s, mean (List.ofFn fun s' => opposed q α β D e s')))
        else List.ofFn fun e => (opposed q α β D e s, mean (List.ofFn fun s' => opposed q α β D e s'))) = some (if 0 < a * k then 1 else -1) := by
    intro a b ha hab
    have : (List.ofFn fun e => (opposed q α β D e s, mean (List.ofFn fun s' => opposed q α β D e s')))
        = List.ofFn fun e => (a * q e + b, k * q e + D.card * α / S) := by
      congr 1
      funext e
      rw [hab e, opposed_mean q α β D hS]
    rw [this]
    cases sp
    · exact Reversed.correlation_line hq ha hk0 b _
    · exact Reversed.rank_correlation_line hq ha hk0 b _
  unfold outvoted
  by_cases hs : s ∈ D
  · rw [key (-β) α (by linarith) fun e => by unfold opposed; rw [if_pos hs]; ring]
    congr 1
    by_cases hb : β * D.card < S - D.card
    · have : ¬ 0 < -β * k := by nlinarith [hpos.mpr hb]
      rw [if_neg this, if_pos hb, if_pos hs]
    · have hkn : k < 0 := lt_of_le_of_ne (not_lt.mp fun h => hb (hpos.mp h)) hk0
      rw [if_pos (by nlinarith), if_neg hb, if_neg (by simpa using hs)]
  · rw [key 1 0 one_ne_zero fun e => by unfold opposed; rw [if_neg hs]; ring]
    congr 1
    rw [one_mul]
    by_cases hb : β * D.card < S - D.card
    · rw [if_pos (hpos.mpr hb), if_pos hb, if_neg hs]
    · rw [if_neg fun h => hb (hpos.mp h), if_neg hb, if_pos (by simpa using hs)]

/-- **C161 (`_partial`).**  A camp `D` of the observers uses the scale the wrong way round, with slope `β`; the others vote alike.  The correlation rules
reject nobody but the outvoted camp, and this one entirely if it has at most half of the observers: then the scores are the votes of the other camp.  If the
outvoted camp is the larger one, nobody is rejected and the scores are the means of all votes.  Missing: that the smaller camp is rejected whenever there is one, which
is false, see below, and camps that cancel. -/
theorem C161_outvoted_partial (sp : Bool) (q : Fin E → ℝ) (α β : ℝ) (D : Finset (Fin S)) (hS : S ≠ 0) (hq : ∃ i j, q i ≠ q j) (hβ : 0 < β)
    (hk : β * D.card ≠ S - D.card) :
    ∃ res, runScreened sp (arrReader E S 1 fun e s _ => .fin (opposed q α β D e s)) = .ok res ∧
      res.observerRejected = some (List.ofFn fun s => decide (s ∈ outvoted β D ∧ 2 * (outvoted β D).card ≤ S)) ∧
      res.qualityScores = List.ofFn fun e => .fin (
        if 2 * (outvoted β D).card ≤ S then if β * D.card < S - D.card then q e else α - β * q e
        else ((S - D.card) * q e + D.card * (α - β * q e)) / S) := by
  have hE : 2 ≤ E := by
    obtain ⟨i, j, hij⟩ := hq
    have h1 := i.isLt
    have h2 := j.isLt
    have h3 : i.val ≠ j.val := fun h => hij (by rw [Fin.ext h])
    omega
  have hS0 : (S : ℝ) ≠ 0 := by exact_mod_cast hS
  have hM := card_lt hβ hS D
  set a : Arr3 (Fl ℝ) E S 1 := fun e s _ => .fin (opposed q α β D e s) with ha
  have hc : ∀ e s r, NumOrNan (a e s r) := fun _ _ _ => Or.inr ⟨_, rfl⟩
  obtain ⟨res, b, h1, h2, h3, -, -, -, h4⟩ := screened_result sp a hc (by intro s; rw [ha, opinionPairs_complete hS (opposed q α β D)]; simpa using hE)
  obtain ⟨k1, k2, -, -⟩ := corrReject_ok hc h2
  have hfun : (fun s => numOrNanOf (agreement sp a s)) = fun s => Fl.fin (if s ∈ outvoted β D then (-1 : ℝ) else 1) := by
    funext s
    rw [ha, opposed_agreement sp q α β D hS hq hβ hk s]
    rfl
  have hthr : corrThreshold (List.ofFn fun s => numOrNanOf (agreement sp a s)) = .fin (agreementThreshold (List.ofFn fun s => if s ∈ outvoted β D then (-1 : ℝ) else 1)) := by
    rw [hfun, corrThreshold_spec hS]
  have hle : ∀ s, (numOrNanOf (agreement sp a s)).le (corrThreshold (List.ofFn fun s => numOrNanOf (agreement sp a s)))
      = decide (s ∈ outvoted β D ∧ 2 * (outvoted β D).card ≤ S) := by
    intro s
    rw [hthr, congrFun hfun s, Fl.le_fin, Bool.eq_iff_iff, decide_eq_true_iff, decide_eq_true_iff]
    exact threshold_two _ hM s
  have hlt : ∀ s, (corrThreshold (List.ofFn fun s => numOrNanOf (agreement sp a s))).lt (numOrNanOf (agreement sp a s))
      = !decide (s ∈ outvoted β D ∧ 2 * (outvoted β D).card ≤ S) := by
    intro s
    rw [← hle s, hthr, congrFun hfun s, Fl.le_fin, Fl.lt_fin, Bool.eq_iff_iff]
    simp only [decide_eq_true_iff, Bool.not_eq_true', decide_eq_false_iff_not, not_le]
  dsimp only at k1 k2
  refine ⟨res, h1, by rw [h3, k2, funext hle], ?_⟩
  rw [h4, screenedMeans a hc (fun s => decide (s ∈ outvoted β D ∧ 2 * (outvoted β D).card ≤ S)) b.1 (by rw [k1, List.filter_congr fun s _ => hlt s])]
  congr 1
  funext e
  have hpres : ∀ l : List (Fin S), present (cellsOf a e l) = l.map fun s => opposed q α β D e s := fun l => present_single (opposed q α β D) e l
  by_cases h2S : 2 * (outvoted β D).card ≤ S
  · simp only [h2S, and_true, if_true]
    have hne : ∃ s, s ∉ outvoted β D := by
      by_contra hall
      push Not at hall
      have : outvoted β D = Finset.univ := Finset.eq_univ_iff_forall.mpr hall
      rw [this, Finset.card_univ, Fintype.card_fin] at hM
      exact lt_irrefl _ hM
    obtain ⟨s1, hs1⟩ := hne
    have hnil : ((List.finRange S).filter fun s => !decide (s ∈ outvoted β D)).map (fun s => opposed q α β D e s) ≠ [] := by
      apply List.ne_nil_of_mem (a := opposed q α β D e s1)
      exact List.mem_map_of_mem (List.mem_filter.mpr ⟨List.mem_finRange _, by simp [hs1]⟩)
    rw [meanOrNan_eq (by rw [hpres]; exact hnil), hpres, mean_const hnil]
    intro y hy
    obtain ⟨s, hs, rfl⟩ := List.mem_map.mp hy
    have hs' : s ∉ outvoted β D := by simpa using (List.mem_filter.mp hs).2
    unfold outvoted at hs'
    unfold opposed
    by_cases hb : β * D.card < S - D.card
    · rw [if_pos hb] at hs'
      rw [if_neg hs', if_pos hb]
    · rw [if_neg hb] at hs'
      rw [if_pos (by simpa using hs'), if_neg hb]
  · have hall : ((List.finRange S).filter fun s => !decide (s ∈ outvoted β D ∧ 2 * (outvoted β D).card ≤ S)) = List.finRange S := by
      simp [h2S]
    have hnil : (List.finRange S).map (fun s => opposed q α β D e s) ≠ [] := by
      rw [Ne, List.map_eq_nil_iff]
      intro h
      have := congrArg List.length h
      rw [List.length_finRange] at this
      exact hS this
    rw [hall, if_neg h2S, meanOrNan_eq (by rw [hpres]; exact hnil), hpres, ← List.ofFn_eq_map, opposed_mean q α β D hS]
    congr 1
    field_simp
    ring

/-- the hypotheses are met, and of five observers the two who use the scale the wrong way round are rejected -/
example (sp : Bool) : ∃ res, runScreened sp (arrReader 2 5 1 fun e s _ => .fin (opposed ![2, 3] 5 1 ({0, 3} : Finset (Fin 5)) e s)) = .ok res ∧
    res.observerRejected = some [true, false, false, true, false] ∧ res.qualityScores = [.fin 2, .fin 3] := by
  have hcard : ({0, 3} : Finset (Fin 5)).card = 2 := by decide
  have hout : outvoted 1 ({0, 3} : Finset (Fin 5)) = {0, 3} := by
    unfold outvoted
    rw [if_pos (by rw [hcard]; norm_num)]
  obtain ⟨res, h1, h2, h3⟩ := C161_outvoted_partial sp ![2, 3] 5 1 ({0, 3} : Finset (Fin 5)) (by norm_num) ⟨0, 1, by norm_num⟩ (by norm_num)
    (by rw [hcard]; norm_num)
  refine ⟨res, h1, ?_, ?_⟩
  · rw [h2, hout, hcard]; rfl
  · rw [h3, hout, hcard]; norm_num [List.ofFn_succ]

/-- **C161: "the smaller camp is rejected" is refuted.**  Of five observers three vote 3 and 4 on two videos; the two others vote 5 and 1 and outweigh
them.  Nobody is rejected under either rule, and the video the three find worse gets the better score. -/
theorem C161_smaller_refuted (sp : Bool) : ∃ res, runScreened sp (arrReader 2 5 1 fun e s _ => .fin (opposed ![3, 4] 17 4 ({0, 3} : Finset (Fin 5)) e s)) = .ok res ∧
    (∀ e, opposed ![3, 4] 17 4 ({0, 3} : Finset (Fin 5)) e 0 = ![5, 1] e) ∧
    res.observerRejected = some [false, false, false, false, false] ∧ res.qualityScores = [.fin (19 / 5), .fin (14 / 5)] := by
  have hcard : ({0, 3} : Finset (Fin 5)).card = 2 := by decide
  have hout : outvoted 4 ({0, 3} : Finset (Fin 5)) = {1, 2, 4} := by
    unfold outvoted
    rw [if_neg (by rw [hcard]; norm_num)]
    decide
  have hcard' : ({1, 2, 4} : Finset (Fin 5)).card = 3 := by decide
  obtain ⟨res, h1, h2, h3⟩ := C161_outvoted_partial sp ![3, 4] 17 4 ({0, 3} : Finset (Fin 5)) (by norm_num) ⟨0, 1, by norm_num⟩ (by norm_num)
    (by rw [hcard]; norm_num)
  refine ⟨res, h1, fun e => by fin_cases e <;> norm_num [opposed], ?_, ?_⟩
  · rw [h2, hout, hcard']; rfl
  · rw [h3, hout, hcard, hcard']; norm_num [List.ofFn_succ]

/-- **C161, camps of the same size**: the half that uses less of the scale is rejected, here the two observers who vote 3 and 4 against the two who
vote 5 and 1. -/
theorem C161_halves (sp : Bool) : ∃ res, runScreened sp (arrReader 2 4 1 fun e s _ => .fin (opposed ![3, 4] 17 4 ({0, 1} : Finset (Fin 4)) e s)) = .ok res ∧
    res.observerRejected = some [false, false, true, true] ∧ res.qualityScores = [.fin 5, .fin 1] := by
  have hcard : ({0, 1} : Finset (Fin 4)).card = 2 := by decide
  have hout : outvoted 4 ({0, 1} : Finset (Fin 4)) = {2, 3} := by
    unfold outvoted
    rw [if_neg (by rw [hcard]; norm_num)]
    decide
  have hcard' : ({2, 3} : Finset (Fin 4)).card = 2 := by decide
  obtain ⟨res, h1, h2, h3⟩ := C161_outvoted_partial sp ![3, 4] 17 4 ({0, 1} : Finset (Fin 4)) (by norm_num) ⟨0, 1, by norm_num⟩ (by norm_num)
    (by rw [hcard]; norm_num)
  refine ⟨res, h1, ?_, ?_⟩
  · rw [h2, hout, hcard']; rfl
  · rw [h3, hout, hcard, hcard']; norm_num [List.ofFn_succ]

end Sureal.Props
