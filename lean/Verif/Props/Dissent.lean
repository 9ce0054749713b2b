import Verif.Lemmas.Dissent
import Verif.Props.Recast
/-!
# C157: when an observer far from all others is rejected
-/
set_option linter.unusedSectionVars false
namespace Sureal.Props
open Sureal Spec RejectSym Dissent
variable {κ : Type} {E S R : ℕ}

/-- With votes that differ, a vote is an outlier only if there are enough other votes on the video: more than 2² or more than 20 others. -/
theorem no_outlier (a : Arr3 (Fl ℝ) E S R) (e : Fin E) (hv : 0 < popVar (votesOn a e))
    (hn : ((votesOn a e).length : ℝ) - 1 < outlierFactor (votesOn a e) ^ 2) (s : Fin S) (r : Fin R) : ¬ IsHigh a e s r ∧ ¬ IsLow a e s r := by
  have hf : 0 < outlierFactor (votesOn a e) := by
    unfold outlierFactor
    split_ifs
    · norm_num
    · positivity
  have key : ∀ x, a e s r = .fin x → |x - mean (votesOn a e)| < outlierFactor (votesOn a e) * Real.sqrt (popVar (votesOn a e)) := by
    intro x hx
    have hmem : x ∈ votesOn a e := by
      unfold votesOn present
      rw [List.mem_filterMap]
      exact ⟨a e s r, (mem_videoCells a e _).mpr ⟨s, r, rfl⟩, by rw [hx]; rfl⟩
    have h1 := samuelson _ x hmem
    apply abs_lt_of_sq_lt_sq _ (by positivity)
    rw [mul_pow, Real.sq_sqrt hv.le]
    exact lt_of_le_of_lt h1 (mul_lt_mul_of_pos_right hn hv)
  constructor
  · rintro ⟨x, hx, h⟩
    have := (abs_lt.mp (key x hx)).2
    linarith
  · rintro ⟨x, hx, h⟩
    have := (abs_lt.mp (key x hx)).1
    linarith

theorem popVar_pos {l : List ℝ} (h : ∃ x ∈ l, ∃ y ∈ l, x ≠ y) : 0 < popVar l := by
  obtain ⟨x, hx, y, hy, hxy⟩ := h
  have hp : 0 < (l.length : ℝ) := by
    have : 0 < l.length := List.length_pos_iff.mpr (List.ne_nil_of_mem hx)
    exact_mod_cast this
  have h0 : 0 ≤ sqDev l := by
    unfold sqDev
    apply List.sum_nonneg
    intro z hz
    obtain ⟨w, -, rfl⟩ := List.mem_map.mp hz
    positivity
  have hne : sqDev l ≠ 0 := by
    intro hz
    have := sqDev_eq_zero_iff.mp hz
    exact hxy ((this x hx).trans (this y hy).symm)
  exact div_pos (lt_of_le_of_ne h0 (Ne.symm hne)) hp

/-- the votes on video `e` are not all the same -/
def Disputed (a : Arr3 (Fl ℝ) E S R) (e : Fin E) : Prop := ∃ s r s' r' x y, a e s r = .fin x ∧ a e s' r' = .fin y ∧ x ≠ y

theorem disputed_var {a : Arr3 (Fl ℝ) E S R} {e : Fin E} (h : Disputed a e) : 0 < popVar (votesOn a e) := by
  obtain ⟨s, r, s', r', x, y, hx, hy, hxy⟩ := h
  have hmem : ∀ s r x, a e s r = .fin x → x ∈ votesOn a e := by
    intro s r x hx
    unfold votesOn present
    rw [List.mem_filterMap]
    exact ⟨a e s r, (mem_videoCells a e _).mpr ⟨s, r, rfl⟩, by rw [hx]; rfl⟩
  exact popVar_pos ⟨x, hmem s r x hx, y, hmem s' r' y hy, hxy⟩

theorem not_screened_of {a : Arr3 (Fl ℝ) E S R} {s : Fin S} (h : ∀ e r, ¬ IsHigh a e s r ∧ ¬ IsLow a e s r) : ¬ Screened a s := by
  classical
  intro hs
  have h1 : numHigh a s = 0 := by
    unfold numHigh; rw [Finset.card_eq_zero, Finset.filter_eq_empty_iff]; intro p _; exact (h p.1 p.2).1
  have h2 : numLow a s = 0 := by
    unfold numLow; rw [Finset.card_eq_zero, Finset.filter_eq_empty_iff]; intro p _; exact (h p.1 p.2).2
  have := hs.1
  rw [h1, h2] at this
  norm_num at this

/-- **C157.**  On a dataset with at most four votes on every video, not all the same, SR_MOS (BT500) rejects nobody, whatever the votes are.  The same
with at most twenty votes on a video, if their kurtosis is below 2 or above 4. -/
theorem C157_few_votes (rd : Reader κ ℝ) (a : Arr3D (Fl ℝ)) (res : Result κ ℝ) (ha : rd.scores = .ok a) (hc : ∀ e s r, NumOrNan (a.get e s r))
    (hd : ∀ e, Disputed a.get e)
    (hn : ∀ e, (votesOn a.get e).length ≤ 4 ∨ (votesOn a.get e).length ≤ 20 ∧
      ¬ (2 ≤ moment4 (votesOn a.get e) / popVar (votesOn a.get e) ^ 2 ∧ moment4 (votesOn a.get e) / popVar (votesOn a.get e) ^ 2 ≤ 4))
    (hr : runSR_MOS rd {} = .ok res) : res.observerRejected = some (List.replicate a.S false) := by
  have hk : runModeling mosRunModeling rd { subjectRejection := yes } = .ok res := hr
  have e := runModeling_mos (preprocess_kurtosis ha) hk
  obtain ⟨flags, hf, hrej, -⟩ := kurtosisReject_spec a.get hc
  have hno : ∀ s, flags s = false := by
    intro s
    rw [← Bool.not_eq_true, hf]
    intro hs
    refine not_screened_of (fun e r => no_outlier a.get e (disputed_var (hd e)) ?_ s r) hs.1
    have h20 : Real.sqrt 20 ^ 2 = 20 := Real.sq_sqrt (by norm_num)
    rcases hn e with h | ⟨h, hk⟩
    · have h' : ((votesOn a.get e).length : ℝ) ≤ 4 := by exact_mod_cast h
      unfold outlierFactor
      split_ifs
      · linarith
      · rw [h20]; linarith
    · have h' : ((votesOn a.get e).length : ℝ) ≤ 20 := by exact_mod_cast h
      unfold outlierFactor
      rw [if_neg hk, h20]
      linarith
  have h1 : res.observerRejected = some (kurtosisReject a.get).2.rejected := by rw [e]; rfl
  rw [h1, hrej]
  congr 1
  rw [show flags = fun _ => false from funext hno]
  simp

/-- the hypotheses are met: three observers, one of whom votes 1000 -/
example : ∃ res, runSR_MOS (arrReader 1 3 1 fun _ s _ => .fin (![3, 3, 1000] s)) {} = .ok res ∧
    res.observerRejected = some [false, false, false] := by
  obtain ⟨res, hr⟩ : ∃ res, runSR_MOS (arrReader 1 3 1 fun _ s _ => .fin (![3, 3, 1000] s)) {} = .ok res := by
    unfold runSR_MOS
    rw [if_neg (by decide)]
    unfold runModeling mosRunModeling
    rw [preprocess_kurtosis (rd := arrReader 1 3 1 fun _ s _ => .fin (![3, 3, 1000] s)) rfl]
    exact ⟨_, rfl⟩
  refine ⟨res, hr, ?_⟩
  refine C157_few_votes (arrReader 1 3 1 fun _ s _ => .fin (![3, 3, 1000] s)) ⟨1, 3, 1, fun _ s _ => .fin (![3, 3, 1000] s)⟩ res rfl
    (fun _ _ _ => Or.inr ⟨_, rfl⟩) (fun e => ⟨0, 0, 2, 0, 3, 1000, rfl, rfl, by norm_num⟩) (fun e => Or.inl ?_) hr
  have := fin_votes (fun (_ : Fin 1) (s : Fin 3) (_ : Fin 1) => ![(3 : ℝ), 3, 1000] s) e
  exact (congrArg List.length this).le.trans (by simp)

theorem dissent_outliers (q d : Fin E → ℝ) (s0 : Fin S) (hS : 2 ≤ S) (hd : ∀ e, d e ≠ 0) (e : Fin E) (s : Fin S) (r : Fin 1) :
    (IsHigh (fun e s r => .fin (dissent q d s0 e s r)) e s r ↔ s = s0 ∧ 0 < d e ∧ (S = 5 ∨ 21 ≤ S)) ∧
    (IsLow (fun e s r => .fin (dissent q d s0 e s r)) e s r ↔ s = s0 ∧ d e < 0 ∧ (S = 5 ∨ 21 ≤ S)) := by
  have h2 : (2 : ℝ) ≤ S := by exact_mod_cast hS
  have hS0 : (0 : ℝ) < S := by linarith
  set t := Real.sqrt ((S : ℝ) - 1) with ht
  have ht2 : t ^ 2 = S - 1 := Real.sq_sqrt (by linarith)
  have ht1 : 1 ≤ t := by
    rw [ht, Real.le_sqrt' (by norm_num)]
    linarith
  set f := (if S = 4 ∨ S = 5 then (2 : ℝ) else Real.sqrt 20) with hfdef
  have hf1 : 2 ≤ f := by
    rw [hfdef]
    split_ifs
    · exact le_rfl
    · rw [Real.le_sqrt' (by norm_num)]; norm_num
  have hreach : f ≤ t ↔ (S = 5 ∨ 21 ≤ S) := dissent_reach hS
  have hsd : Real.sqrt (popVar (votesOn (fun e s r => .fin (dissent q d s0 e s r)) e)) = |d e| / S * t := by
    rw [dissent_var q d s0 e hS, Real.sqrt_mul (sq_nonneg _), Real.sqrt_sq_eq_abs, abs_div, abs_of_pos hS0]
  unfold IsHigh IsLow
  rw [dissent_mean q d s0 e hS, dissent_factor q d s0 e hS (hd e), hsd, ← hreach, ← hfdef]
  simp only [Fl.fin.injEq, exists_eq_left']
  have habs : 0 < |d e| := abs_pos.mpr (hd e)
  have hscale : ∀ A B : ℝ, (A / S ≤ B / S ↔ A ≤ B) := fun A B => div_le_div_iff_of_pos_right hS0
  by_cases hs : s = s0
  · have hx : dissent q d s0 e s r = q e + d e := by unfold dissent; rw [if_pos hs]
    rw [hx]
    have e1 : (q e + d e / S + f * (|d e| / S * t) ≤ q e + d e) ↔ f * t * |d e| ≤ t ^ 2 * d e := by
      rw [← hscale (f * t * |d e|), ht2]
      have : ((S : ℝ) - 1) * d e / S = d e - d e / S := by field_simp
      rw [this, show f * t * |d e| / S = f * (|d e| / S * t) by ring]
      constructor <;> intro h <;> linarith
    have e2 : (q e + d e ≤ q e + d e / S - f * (|d e| / S * t)) ↔ f * t * |d e| ≤ t ^ 2 * (-d e) := by
      rw [← hscale (f * t * |d e|), ht2]
      have : ((S : ℝ) - 1) * (-d e) / S = -d e + d e / S := by field_simp; ring
      rw [this, show f * t * |d e| / S = f * (|d e| / S * t) by ring]
      constructor <;> intro h <;> linarith
    rw [e1, e2]
    have hcore : ∀ x : ℝ, 0 < x → (f * t * x ≤ t ^ 2 * x ↔ f ≤ t) := by
      intro x hx
      rw [mul_le_mul_iff_left₀ hx, pow_two, mul_le_mul_iff_left₀ (by linarith : (0 : ℝ) < t)]
    have hbad : ∀ x : ℝ, 0 < x → ¬ (f * t * x ≤ t ^ 2 * (-x)) := by
      intro x hx h
      have : 0 < f * t * x := by positivity
      have : 0 < t ^ 2 * x := by positivity
      linarith
    rcases lt_or_gt_of_ne (hd e) with hneg | hpos
    · rw [abs_of_neg hneg]
      refine ⟨⟨fun h => absurd (by simpa using h) (hbad (-d e) (by linarith)), fun h => absurd h.2.1 (by linarith)⟩, ?_⟩
      rw [hcore (-d e) (by linarith)]
      exact ⟨fun h => ⟨hs, hneg, h⟩, fun h => h.2.2⟩
    · rw [abs_of_pos hpos]
      refine ⟨?_, ⟨fun h => absurd h (hbad (d e) hpos), fun h => absurd h.2.1 (by linarith)⟩⟩
      rw [hcore (d e) hpos]
      exact ⟨fun h => ⟨hs, hpos, h⟩, fun h => h.2.2⟩
  · have hx : dissent q d s0 e s r = q e := by unfold dissent; rw [if_neg hs, add_zero]
    rw [hx]
    have hbig : |d e| / S < f * (|d e| / S * t) := by
      have hpos : 0 < |d e| / S := by positivity
      nlinarith [mul_pos hpos (by linarith : 0 < t)]
    have hle : |d e / S| = |d e| / S := by rw [abs_div, abs_of_pos hS0]
    have h1 := neg_abs_le (d e / S)
    have h2 := le_abs_self (d e / S)
    rw [hle] at h1 h2
    exact ⟨⟨fun h => by linarith, fun h => absurd h.1 hs⟩, ⟨fun h => by linarith, fun h => absurd h.1 hs⟩⟩

open Classical in
theorem dissent_counts (q d : Fin E → ℝ) (s0 : Fin S) (hS : 2 ≤ S) (hd : ∀ e, d e ≠ 0) (h : S = 5 ∨ 21 ≤ S) :
    numHigh (fun e s r => .fin (dissent q d s0 e s r)) s0 = (Finset.univ.filter fun e => 0 < d e).card ∧
    numLow (fun e s r => .fin (dissent q d s0 e s r)) s0 = (Finset.univ.filter fun e => d e < 0).card := by
  unfold numHigh numLow
  rw [Finset.card_filter, Finset.card_filter, Finset.card_filter, Finset.card_filter, Fintype.sum_prod_type, Fintype.sum_prod_type]
  simp only [Finset.univ_unique, Finset.sum_singleton]
  constructor <;> refine Finset.sum_congr rfl fun e _ => ?_
  · have := (dissent_outliers q d s0 hS hd e s0 default).1
    by_cases hp : 0 < d e
    · rw [if_pos hp, if_pos (this.mpr ⟨rfl, hp, h⟩)]
    · rw [if_neg hp, if_neg fun hh => hp (this.mp hh).2.1]
  · have := (dissent_outliers q d s0 hS hd e s0 default).2
    by_cases hp : d e < 0
    · rw [if_pos hp, if_pos (this.mpr ⟨rfl, hp, h⟩)]
    · rw [if_neg hp, if_neg fun hh => hp (this.mp hh).2.1]

theorem dissent_total (d : Fin E → ℝ) (hd : ∀ e, d e ≠ 0) :
    (Finset.univ.filter fun e => 0 < d e).card + (Finset.univ.filter fun e => d e < 0).card = E := by
  have h1 : (Finset.univ.filter fun e => d e < 0) = Finset.univ.filter fun e => ¬ 0 < d e := by
    apply Finset.filter_congr
    intro e _
    rw [not_lt]
    exact ⟨le_of_lt, fun h => lt_of_le_of_ne h (hd e)⟩
  rw [h1, Finset.card_filter_add_card_filter_not]
  simp

theorem dissent_rejects (q d : Fin E → ℝ) (s0 : Fin S) (hE : 0 < E) (hS : 2 ≤ S) (hd : ∀ e, d e ≠ 0) (hb : BothWays d) (s : Fin S) :
    Rejects (fun e s r => .fin (dissent q d s0 e s r)) s ↔ s = s0 ∧ (S = 5 ∨ 21 ≤ S) := by
  have hscr : ∀ s, Screened (fun e s r => .fin (dissent q d s0 e s r)) s ↔ s = s0 ∧ (S = 5 ∨ 21 ≤ S) := by
    intro s
    constructor
    · intro h
      by_contra hn
      refine not_screened_of (fun e r => ⟨fun hh => hn ?_, fun hh => hn ?_⟩) h
      · have := (dissent_outliers q d s0 hS hd e s r).1.mp hh
        exact ⟨this.1, this.2.2⟩
      · have := (dissent_outliers q d s0 hS hd e s r).2.mp hh
        exact ⟨this.1, this.2.2⟩
    · rintro ⟨rfl, h⟩
      obtain ⟨h1, h2⟩ := dissent_counts q d s hS hd h
      have ht := dissent_total d hd
      unfold BothWays at hb
      unfold Screened
      rw [h1, h2]
      have ht' : ((Finset.univ.filter fun e => 0 < d e).card : ℝ) + (Finset.univ.filter fun e => d e < 0).card = E := by exact_mod_cast ht
      have hE' : (0 : ℝ) < E := by exact_mod_cast hE
      rw [ht', Nat.cast_one, mul_one, div_self hE'.ne', abs_div, abs_of_pos hE', div_lt_iff₀ hE']
      exact ⟨by norm_num, hb⟩
  unfold Rejects
  rw [hscr]
  refine ⟨fun h => h.1, fun h => ⟨h, fun hall => ?_⟩⟩
  have h0 := ((hscr ⟨0, by omega⟩).mp (hall _)).1
  have h1 := ((hscr ⟨1, by omega⟩).mp (hall _)).1
  rw [← h0] at h1
  exact absurd (congrArg Fin.val h1) (by simp)

/-- **C157.**  All observers but one agree on every video; the one is off by `d e ≠ 0`, about as often up as down.  SR_MOS (BT500) rejects nobody but the
dissenter, and it rejects the dissenter if and only if the panel has 5 observers or at least 21: then the scores are the votes of the others.  With any
other number of observers the dissenter is kept however far off they are, and every score is off by `d e / S`.  (In floating-point arithmetic the
cases of exactly 5 and 21 observers are decided by the last bit.)  Missing: rejection with 6 to 20 observers, which is false, see below. -/
theorem C157_dissenter_partial (q d : Fin E → ℝ) (s0 : Fin S) (hE : 0 < E) (hS : 2 ≤ S) (hd : ∀ e, d e ≠ 0) (hb : BothWays d) :
    ∃ res, runSR_MOS (arrReader E S 1 fun e s r => .fin (dissent q d s0 e s r)) {} = .ok res ∧
      res.observerRejected = some (List.ofFn fun s => decide (s = s0 ∧ (S = 5 ∨ 21 ≤ S))) ∧
      res.qualityScores = List.ofFn fun e => .fin (if S = 5 ∨ 21 ≤ S then q e else q e + d e / S) := by
  obtain ⟨res, h1, h2, -, h4⟩ := screened_run (dissent q d s0) (fun s => decide (s = s0 ∧ (S = 5 ∨ 21 ≤ S)))
    (fun s => by rw [decide_eq_true_iff, dissent_rejects q d s0 hE hS hd hb])
  refine ⟨res, h1, h2, ?_⟩
  rw [h4]
  congr 1
  funext e
  have hpres : ∀ l : List (Fin S), present (cellsOf (fun e s r => .fin (dissent q d s0 e s r)) e l) = l.map fun s => dissent q d s0 e s 0 := by
    intro l
    unfold cellsOf present
    induction l with
    | nil => rfl
    | cons s l ih =>
      rw [List.map_cons, List.flatten_cons, List.filterMap_append, ih]
      rfl
  by_cases hbig : S = 5 ∨ 21 ≤ S
  · rw [if_pos hbig]
    have hkept : ((List.finRange S).filter fun s => !decide (s = s0 ∧ (S = 5 ∨ 21 ≤ S))) = (List.finRange S).filter fun s => !decide (s = s0) := by
      simp only [hbig, and_true]
    rw [hkept]
    have hne : ∃ s : Fin S, s ≠ s0 := by
      by_cases h0 : s0 = ⟨0, by omega⟩
      · exact ⟨⟨1, by omega⟩, by rw [h0]; intro h; exact absurd (congrArg Fin.val h) (by simp)⟩
      · exact ⟨⟨0, by omega⟩, fun h => h0 h.symm⟩
    obtain ⟨s1, hs1⟩ := hne
    have hnil : ((List.finRange S).filter fun s => !decide (s = s0)).map (fun s => dissent q d s0 e s 0) ≠ [] := by
      apply List.ne_nil_of_mem (a := dissent q d s0 e s1 0)
      exact List.mem_map_of_mem (List.mem_filter.mpr ⟨List.mem_finRange _, by simp [hs1]⟩)
    rw [meanOrNan_eq (by rw [hpres]; exact hnil), hpres, mean_const hnil]
    intro x hx
    obtain ⟨s, hs, rfl⟩ := List.mem_map.mp hx
    have : s ≠ s0 := by simpa using (List.mem_filter.mp hs).2
    unfold dissent
    rw [if_neg this, add_zero]
  · rw [if_neg hbig]
    have hkept : ((List.finRange S).filter fun s => !decide (s = s0 ∧ (S = 5 ∨ 21 ≤ S))) = List.finRange S := by
      simp [hbig]
    rw [hkept]
    have hv := fin_votes (dissent q d s0) e
    have hm := dissent_mean q d s0 e hS
    rw [hv, List.ofFn_eq_map] at hm
    have hnil : (List.finRange S).map (fun s => dissent q d s0 e s 0) ≠ [] :=
      List.ne_nil_of_mem (List.mem_map_of_mem (List.mem_finRange s0))
    rw [meanOrNan_eq (by rw [hpres]; exact hnil), hpres, hm]

/-- **C157: "an observer far from an otherwise unanimous panel is rejected" is refuted** for every panel of 6 to 20 observers: for every bound `M` there
are votes on two videos, on which all others agree, with nobody rejected and both scores off by more than `M`. -/
theorem C157_kept_refuted (S : ℕ) (h6 : 6 ≤ S) (h20 : S ≤ 20) (q : Fin 2 → ℝ) (s0 : Fin S) (M : ℝ) :
    ∃ d : Fin 2 → ℝ, BothWays d ∧ ∃ (res : _) (y : Fin 2 → ℝ), runSR_MOS (arrReader 2 S 1 fun e s r => .fin (dissent q d s0 e s r)) {} = .ok res ∧
      res.observerRejected = some (List.replicate S false) ∧ res.qualityScores = [.fin (y 0), .fin (y 1)] ∧ ∀ e, M < |y e - q e| := by
  have hS0 : (0 : ℝ) < S := by
    have : 0 < S := by omega
    exact_mod_cast this
  set D : ℝ := S * (|M| + 1) with hD
  have hDpos : 0 < D := by positivity
  have hb : BothWays ![D, -D] := by
    unfold BothWays
    have e1 : (Finset.univ.filter fun e => 0 < (![D, -D] : Fin 2 → ℝ) e) = {0} := by
      ext e; fin_cases e <;> simp [hDpos, hDpos.le]
    have e2 : (Finset.univ.filter fun e => (![D, -D] : Fin 2 → ℝ) e < 0) = {1} := by
      ext e; fin_cases e <;> simp [hDpos, hDpos.le]
    rw [e1, e2]
    norm_num
  obtain ⟨res, h1, h2, h3⟩ := C157_dissenter_partial q ![D, -D] s0 (by norm_num) (by omega) (fun e => by fin_cases e <;> simp [hDpos.ne']) hb
  have hn : ¬ (S = 5 ∨ 21 ≤ S) := by omega
  refine ⟨![D, -D], hb, res, fun e => q e + (![D, -D] : Fin 2 → ℝ) e / S, h1, ?_, ?_, ?_⟩
  · rw [h2]
    simp [hn]
  · rw [h3]
    simp only [if_neg hn]
    simp [List.ofFn_succ]
  · intro e
    have hq : D / S = |M| + 1 := by rw [hD]; field_simp
    have hM := le_abs_self M
    have hpos : 0 < |M| + 1 := by positivity
    fin_cases e
    · simp only [add_sub_cancel_left]
      show M < |D / S|
      rw [hq, abs_of_pos hpos]
      linarith
    · simp only [add_sub_cancel_left]
      show M < |-D / S|
      rw [neg_div, abs_neg, hq, abs_of_pos hpos]
      linarith

/-- the hypotheses of C157_dissenter_partial are met, on a panel of 24: the dissenter votes 1 for 5 and 5 for 1 -/
example : ∃ res, runSR_MOS (arrReader 2 24 1 fun e s r => .fin (dissent ![5, 1] ![-4, 4] (3 : Fin 24) e s r)) {} = .ok res ∧
    res.qualityScores = [.fin 5, .fin 1] := by
  have hb : BothWays (![-4, 4] : Fin 2 → ℝ) := by
    unfold BothWays
    have e1 : (Finset.univ.filter fun e => 0 < (![-4, 4] : Fin 2 → ℝ) e) = {1} := by
      ext e; fin_cases e <;> simp <;> norm_num
    have e2 : (Finset.univ.filter fun e => (![-4, 4] : Fin 2 → ℝ) e < 0) = {0} := by
      ext e; fin_cases e <;> simp
    rw [e1, e2]
    norm_num
  obtain ⟨res, h1, -, h3⟩ := C157_dissenter_partial ![5, 1] ![-4, 4] (3 : Fin 24) (by norm_num) (by norm_num) (fun e => by fin_cases e <;> norm_num) hb
  refine ⟨res, h1, ?_⟩
  rw [h3]
  simp [List.ofFn_succ]

/-- **C157.**  An observer whose outliers are all on one side, all above or all below, is kept by SR_MOS (BT500), in panels of any size and however many
and however far off the outliers are. -/
theorem C157_one_sided (rd : Reader κ ℝ) (a : Arr3D (Fl ℝ)) (res : Result κ ℝ) (ha : rd.scores = .ok a) (hc : ∀ e s r, NumOrNan (a.get e s r))
    (hr : runSR_MOS rd {} = .ok res) (s : Fin a.S) (h : (∀ e r, ¬ IsLow a.get e s r) ∨ ∀ e r, ¬ IsHigh a.get e s r) :
    ∃ flags, res.observerRejected = some flags ∧ flags[s.val]? = some false := by
  have hk : runModeling mosRunModeling rd { subjectRejection := yes } = .ok res := hr
  have e := runModeling_mos (preprocess_kurtosis ha) hk
  obtain ⟨flags, hf, hrej, -⟩ := kurtosisReject_spec a.get hc
  refine ⟨List.ofFn flags, by rw [← hrej, e]; rfl, ?_⟩
  rw [List.getElem?_ofFn, dif_pos s.isLt]
  congr 1
  show flags s = false
  rw [← Bool.not_eq_true, hf]
  classical
  rintro ⟨⟨h1, h2⟩, -⟩
  have one : ∀ n : ℕ, 5 / 100 < (n : ℝ) / ((a.E : ℝ) * a.R) → (n : ℝ) / n = 1 := by
    intro n hn
    apply div_self
    intro h0
    rw [h0] at hn
    norm_num at hn
  rcases h with h | h
  · have h0 : numLow a.get s = 0 := by
      unfold numLow; rw [Finset.card_eq_zero, Finset.filter_eq_empty_iff]; intro p _; exact h p.1 p.2
    rw [h0, Nat.cast_zero, add_zero] at h1 h2
    rw [sub_zero, one _ h1] at h2
    norm_num at h2
  · have h0 : numHigh a.get s = 0 := by
      unfold numHigh; rw [Finset.card_eq_zero, Finset.filter_eq_empty_iff]; intro p _; exact h p.1 p.2
    rw [h0, Nat.cast_zero, zero_add] at h1 h2
    rw [zero_sub, neg_div, one _ h1] at h2
    norm_num at h2

/-- the hypothesis is met by an observer with an outlier on every video: the dissenter in a panel of 24 who votes 5 where all others vote 1 -/
example : (∀ e r, IsHigh (fun e s r => .fin (dissent ![1, 1] ![4, 4] (3 : Fin 24) e s r)) e 3 r) ∧
    ∀ e r, ¬ IsLow (fun e s r => .fin (dissent ![1, 1] ![4, 4] (3 : Fin 24) e s r)) e 3 r := by
  have hd : ∀ e, (![4, 4] : Fin 2 → ℝ) e = 4 := fun e => by fin_cases e <;> rfl
  constructor
  · intro e r
    exact (dissent_outliers ![1, 1] ![4, 4] (3 : Fin 24) (by norm_num) (fun e => by rw [hd]; norm_num) e 3 r).1.mpr ⟨rfl, by rw [hd]; norm_num, by norm_num⟩
  · intro e r h
    have := ((dissent_outliers ![1, 1] ![4, 4] (3 : Fin 24) (by norm_num) (fun e => by rw [hd]; norm_num) e 3 r).2.mp h).2.1
    rw [hd] at this
    norm_num at this

end Sureal.Props
