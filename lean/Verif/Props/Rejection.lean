import Verif.Lemmas.Reject
import Verif.Lemmas.Zscore
import Verif.Props.Mos
/-!
# Observer rejection, kurtosis rule: C18 – C20
-/
set_option linter.unusedSectionVars false
namespace Sureal.Props
open Sureal Spec
variable {κ : Type}

theorem runModeling_prep {K : Type} [Field K] [LinearOrder K] [MathFn K] {rd : Reader κ K} {o : Opts K} {res : Result κ K}
    (hr : runModeling mosRunModeling rd o = .ok res) : ∃ p, preprocess rd o = .ok p := by
  unfold runModeling mosRunModeling at hr
  cases h : preprocess rd o with
  | error e => rw [h] at hr; cases hr
  | ok p => exact ⟨p, rfl⟩

theorem runModeling_prep_bias {K : Type} [Field K] [LinearOrder K] [MathFn K] {rd : Reader κ K} {o : Opts K} {res : Result κ K}
    (hr : runModeling biasremvRunModeling rd o = .ok res) :
    ∃ p b, preprocess rd o = .ok p ∧ p.bias = some b := by
  unfold runModeling biasremvRunModeling at hr
  cases h : preprocess rd o with
  | error e => rw [h] at hr; cases hr
  | ok p =>
    cases hb : p.bias with
    | none => rw [h] at hr; simp only [hb] at hr; cases hr
    | some b => exact ⟨p, b, rfl, hb⟩

theorem withRejection_raw {K : Type} [Field K] [LinearOrder K] [MathFn K] (r : Result κ K) (j : Option (Rejection K)) :
    (r.withRejection j).rawScores = r.rawScores := by
  unfold Result.withRejection; split <;> rfl

/-- the two reported statistics, as the code computes them -/
theorem kurtosis_stats {E S R : ℕ} (a : Arr3 (Fl ℝ) E S R) (hc : ∀ e s r, NumOrNan (a e s r)) (hER : E * R ≠ 0) :
    (kurtosisReject a).2.stats1 = (List.ofFn fun s => .fin (((numHigh a s : ℝ) + numLow a s) / ((E : ℝ) * R))) ∧
    (kurtosisReject a).2.stats2 = (List.ofFn fun s => if numHigh a s + numLow a s = 0 then .nan
      else .fin |((numHigh a s : ℝ) - numLow a s) / (numHigh a s + numLow a s)|) := by
  have hz : ((E * R : ℕ) : ℝ) ≠ 0 := by exact_mod_cast hER
  constructor
  · unfold kurtosisReject
    dsimp only
    congr 1
    funext s
    rw [(counts_spec a hc s).1, (counts_spec a hc s).2]
    simp only [Fl.natCast_def, Fl.fin_add]
    rw [Fl.fin_div hz, Nat.cast_mul]
  · unfold kurtosisReject
    dsimp only
    congr 1
    funext s
    rw [(counts_spec a hc s).1, (counts_spec a hc s).2]
    simp only [Fl.natCast_def, Fl.fin_add, Fl.fin_sub]
    by_cases h0 : numHigh a s + numLow a s = 0
    · rw [if_pos h0]
      have h1 : numHigh a s = 0 := by omega
      have h2 : numLow a s = 0 := by omega
      rw [h1, h2]
      simp only [Nat.cast_zero, sub_self, add_zero, Fl.zero_div_zero]
      rfl
    · rw [if_neg h0]
      have h0' : (numHigh a s : ℝ) + numLow a s ≠ 0 := by exact_mod_cast h0
      rw [Fl.fin_div h0']
      unfold Fl.abs
      by_cases hx : ((numHigh a s : ℝ) - numLow a s) / (numHigh a s + numLow a s) < 0
      · simp [hx, abs_of_neg hx]
      · simp [hx, abs_of_nonneg (not_lt.mp hx)]

/-- What a run with kurtosis rejection reports (`res`), given the array `a` that the same model uses without
rejection: the flags follow the published rule, and the array used consists of exactly the unflagged
observers. -/
def Bt500Outcome (a : Arr3D (Fl ℝ)) (res : Result κ ℝ) : Prop :=
  ∃ (flags : List Bool) (stats1 stats2 : List (Fl ℝ)) (kept : List (Fin a.S)),
    res.observerRejected = some flags ∧ res.observerRejectedStats1 = some stats1 ∧
    res.observerRejectedStats2 = some stats2 ∧
    flags.length = a.S ∧ stats1.length = a.S ∧ stats2.length = a.S ∧
    (∀ s : Fin a.S, flags[s.val]? = some true ↔ Rejects a.get s) ∧
    (a.E * a.R ≠ 0 → ∀ s : Fin a.S,
      stats1[s.val]? = some (.fin (((numHigh a.get s : ℝ) + numLow a.get s) / ((a.E : ℝ) * a.R)))) ∧
    kept.Pairwise (· < ·) ∧ (∀ s : Fin a.S, s ∈ kept ↔ flags[s.val]? = some false) ∧
    (0 < a.S → kept ≠ []) ∧
    res.rawScores = some ⟨a.E, kept.length, a.R, fun e i r => a.get e (kept.get i) r⟩

theorem outcome_of_kurtosis (a : Arr3D (Fl ℝ)) (hc : ∀ e s r, NumOrNan (a.get e s r)) (res : Result κ ℝ)
    (h1 : res.observerRejected = some (kurtosisReject a.get).2.rejected)
    (h2 : res.observerRejectedStats1 = some (kurtosisReject a.get).2.stats1)
    (h3 : res.observerRejectedStats2 = some (kurtosisReject a.get).2.stats2)
    (h4 : res.rawScores = some (kurtosisReject a.get).1) : Bt500Outcome a res := by
  obtain ⟨flags, hf, hrej, harr⟩ := kurtosisReject_spec a.get hc
  have hget : ∀ s : Fin a.S, (List.ofFn flags)[s.val]? = some (flags s) := by
    intro s; rw [List.getElem?_ofFn, dif_pos s.isLt]
  refine ⟨_, _, _, (List.finRange a.S).filter (fun s => !flags s), h1, h2, h3, by simp [hrej],
    by simp [kurtosisReject], by simp [kurtosisReject], ?_, ?_, ?_, ?_, ?_, by rw [h4, harr]⟩
  · intro s
    rw [hrej, hget, ← hf s]
    simp
  · intro hER s
    rw [(kurtosis_stats a.get hc hER).1, List.getElem?_ofFn, dif_pos s.isLt]
  · exact List.Pairwise.filter _ (List.pairwise_lt_finRange a.S)
  · intro s
    rw [hrej, hget]
    simp
  · intro hS hnil
    have hall : ∀ s, Rejects a.get s := by
      intro s
      by_contra hns
      have : s ∈ (List.finRange a.S).filter (fun s => !flags s) := by
        rw [List.mem_filter]
        refine ⟨List.mem_finRange s, ?_⟩
        have : flags s = false := by
          cases hfs : flags s with
          | false => rfl
          | true => exact absurd ((hf s).mp hfs) hns
        simp [this]
      rw [hnil] at this
      simp at this
    exact (hall ⟨0, hS⟩).2 fun s' => (hall s').1

/-- **C18 / C19** for the MOS family: with any further options `o` (differential scoring, z-scoring, ...), a run
with kurtosis rejection on top rejects exactly according to the published rule applied to the array the run
without rejection uses, keeps exactly the unflagged observers' columns, in order, and keeps somebody. -/
theorem C18_bt500_rule (rd : Reader κ ℝ) (o : Opts ℝ) (hn : o.subjectRejection.isTrue = false)
    (ht : o.subjectRejectionType = none) (res0 res : Result κ ℝ) (hr0 : runMOS rd o = .ok res0)
    (hr : runMOS rd { o with subjectRejection := yes } = .ok res) :
    ∃ a, res0.rawScores = some a ∧ ((∀ e s r, NumOrNan (a.get e s r)) → Bt500Outcome a res) := by
  obtain ⟨p, hp⟩ := runModeling_prep hr0
  have e0 := runModeling_mos hp hr0
  have e1 := runModeling_mos (preprocess_withKurtosis hn ht hp) hr
  refine ⟨p.arr, by rw [e0]; exact withRejection_raw _ _, fun hc => ?_⟩
  apply outcome_of_kurtosis p.arr hc
  · rw [e1]; rfl
  · rw [e1]; rfl
  · rw [e1]; rfl
  · rw [e1]; rfl

/-- The same for bias removal followed by rejection (the ITU-T P.913 12.4 model). -/
theorem C18_bt500_rule_bias (rd : Reader κ ℝ) (o : Opts ℝ) (hn : o.subjectRejection.isTrue = false)
    (ht : o.subjectRejectionType = none) (res0 res : Result κ ℝ) (hr0 : runBR_MOS rd o = .ok res0)
    (hr : runBR_SR_MOS rd o = .ok res) :
    ∃ a, res0.rawScores = some a ∧ ((∀ e s r, NumOrNan (a.get e s r)) → Bt500Outcome a res) := by
  unfold runBR_MOS at hr0
  unfold runBR_SR_MOS at hr
  split_ifs at hr0 hr with hb
  obtain ⟨p, b, hp, hb⟩ := runModeling_prep_bias hr0
  have e0 := runModeling_bias hp hb hr0
  have hk := preprocess_withKurtosis (o := { o with biasOffset := yes }) hn ht hp
  have e1 := runModeling_bias hk hb hr
  refine ⟨p.arr, by rw [e0]; exact withRejection_raw _ _, fun hc => ?_⟩
  apply outcome_of_kurtosis p.arr hc
  · rw [e1]; rfl
  · rw [e1]; rfl
  · rw [e1]; rfl
  · rw [e1]; rfl

/-- **C19.** On SR_MOS (BT.500) with default options: all reported lists have one entry per observer; the scores
are the MOS of the votes of the observers not flagged; somebody is kept. -/
theorem C19_bt500_scores (rd : Reader κ ℝ) (a : Arr3D (Fl ℝ)) (res : Result κ ℝ) (ha : rd.scores = .ok a)
    (hc : ∀ e s r, NumOrNan (a.get e s r)) (hr : runSR_MOS rd {} = .ok res) :
    ∃ (flags : List Bool) (kept : List (Fin a.S)),
      res.observerRejected = some flags ∧ flags.length = a.S ∧
      res.observerRejectedStats1.map List.length = some a.S ∧
      res.observerRejectedStats2.map List.length = some a.S ∧
      kept.Pairwise (· < ·) ∧ (∀ s : Fin a.S, s ∈ kept ↔ flags[s.val]? = some false) ∧ (0 < a.S → kept ≠ []) ∧
      res.qualityScores
        = List.ofFn fun e => meanOrNan ((kept.map fun s => List.ofFn fun r => a.get e s r).flatten) := by
  have hr' : runModeling mosRunModeling rd { subjectRejection := yes } = .ok res := hr
  have e1 := runModeling_mos (preprocess_kurtosis ha) hr'
  obtain ⟨flags, s1, s2, kept, f1, f2, f3, l1, l2, l3, -, -, k1, k2, k3, raw⟩ :=
    outcome_of_kurtosis a hc res (by rw [e1]; rfl) (by rw [e1]; rfl) (by rw [e1]; rfl) (by rw [e1]; rfl)
  refine ⟨flags, kept, f1, l1, by rw [f2]; simp [l2], by rw [f3]; simp [l3], k1, k2, k3, ?_⟩
  have hk : (kurtosisReject a.get).1 = ⟨a.E, kept.length, a.R, fun e i r => a.get e (kept.get i) r⟩ := by
    have : res.rawScores = some (kurtosisReject a.get).1 := by rw [e1]; rfl
    rw [raw] at this
    exact (Option.some.inj this).symm
  have hq : res.qualityScores = List.ofFn (meanAlongS (kurtosisReject a.get).1.get) := by rw [e1]; rfl
  rw [hq]
  have : ∀ b : Arr3D (Fl ℝ), b = ⟨a.E, kept.length, a.R, fun e i r => a.get e (kept.get i) r⟩ →
      List.ofFn (meanAlongS b.get)
        = List.ofFn fun e => meanOrNan ((kept.map fun s => List.ofFn fun r => a.get e s r).flatten) := by
    rintro _ rfl
    congr 1
    funext e
    dsimp only
    rw [meanAlongS_spec (fun e (i : Fin kept.length) r => a.get e (kept.get i) r) e (fun s r => hc _ _ _)]
    unfold videoCells
    congr 2
    apply List.ext_getElem
    · simp
    · intro i h1 h2; simp
  exact this _ hk

/-- **C20 (first half, `_partial`).** An observer none of whose votes reaches a threshold is kept.  Missing: the
second half of C20 (a unanimous panel is not thinned out) is false, see below. -/
theorem C20_non_outlier_kept_partial (rd : Reader κ ℝ) (o : Opts ℝ) (hn : o.subjectRejection.isTrue = false)
    (ht : o.subjectRejectionType = none) (res0 res : Result κ ℝ) (a : Arr3D (Fl ℝ)) (hr0 : runMOS rd o = .ok res0)
    (hr : runMOS rd { o with subjectRejection := yes } = .ok res) (ha : res0.rawScores = some a)
    (hc : ∀ e s r, NumOrNan (a.get e s r)) (s : Fin a.S)
    (h : ∀ e r, ¬ IsHigh a.get e s r ∧ ¬ IsLow a.get e s r) :
    ∃ flags, res.observerRejected = some flags ∧ flags[s.val]? = some false := by
  obtain ⟨a', ha', hout⟩ := C18_bt500_rule rd o hn ht res0 res hr0 hr
  rw [ha] at ha'
  obtain rfl := Option.some.inj ha'
  obtain ⟨flags, s1, s2, kept, f1, -, -, l1, -, -, hrule, -⟩ := hout hc
  refine ⟨flags, f1, ?_⟩
  classical
  have hlt : s.val < flags.length := by rw [l1]; exact s.isLt
  rw [List.getElem?_eq_getElem hlt]
  have : flags[s.val]? ≠ some true := by
    intro ht
    have hs := ((hrule s).mp ht).1.1
    have h1 : numHigh a.get s = 0 := by
      unfold numHigh; rw [Finset.card_eq_zero, Finset.filter_eq_empty_iff]; intro p _; exact (h p.1 p.2).1
    have h2 : numLow a.get s = 0 := by
      unfold numLow; rw [Finset.card_eq_zero, Finset.filter_eq_empty_iff]; intro p _; exact (h p.1 p.2).2
    rw [h1, h2] at hs
    norm_num at hs
  rw [List.getElem?_eq_getElem hlt] at this
  cases hv : flags[s.val] with
  | false => rfl
  | true => rw [hv] at this; exact absurd rfl this

/-- number of votes an observer cast -/
noncomputable def numVotes {E S R : ℕ} (a : Arr3 (Fl ℝ) E S R) (s : Fin S) : ℕ :=
  open Classical in (Finset.univ.filter fun p : Fin E × Fin R => a p.1 s p.2 ≠ .nan).card

/-- If on every video all votes agree, every vote counts as an outlier on both sides. -/
theorem unanimous_screened {E S R : ℕ} (a : Arr3 (Fl ℝ) E S R)
    (hu : ∀ e, ∃ v, ∀ s r, a e s r = .nan ∨ a e s r = .fin v) (s : Fin S) :
    Screened a s ↔ 25 / 1000 < (numVotes a s : ℝ) / ((E : ℝ) * R) := by
  have hboth : ∀ e r, (IsHigh a e s r ↔ a e s r ≠ .nan) ∧ (IsLow a e s r ↔ a e s r ≠ .nan) := by
    intro e r
    obtain ⟨v, hv⟩ := hu e
    have hall : ∀ x ∈ votesOn a e, x = v := by
      intro x hx
      unfold votesOn present at hx
      obtain ⟨y, hy, hyx⟩ := List.mem_filterMap.mp hx
      obtain ⟨s', r', rfl⟩ := (mem_videoCells a e y).mp hy
      rcases hv s' r' with h | h
      · rw [h] at hyx; cases hyx
      · rw [h] at hyx; cases hyx; rfl
    by_cases hs : a e s r = .nan
    · simp [IsHigh, IsLow, hs]
    · have hsv : a e s r = .fin v := (hv s r).resolve_left hs
      have hmem : v ∈ votesOn a e := by
        unfold votesOn present
        rw [List.mem_filterMap]
        exact ⟨a e s r, (mem_videoCells a e _).mpr ⟨s, r, rfl⟩, by rw [hsv]; rfl⟩
      have hne : votesOn a e ≠ [] := List.ne_nil_of_mem hmem
      have hmean : mean (votesOn a e) = v := by
        have := mean_bounds hne (lo := v) (hi := v) (fun x hx => by rw [hall x hx]; exact ⟨le_rfl, le_rfl⟩)
        exact le_antisymm this.2 this.1
      have hvar : popVar (votesOn a e) = 0 := by
        unfold popVar sqDev
        rw [hmean]
        have : ((votesOn a e).map fun x => (x - v) ^ 2) = (votesOn a e).map fun _ => (0 : ℝ) := by
          apply List.map_congr_left
          intro x hx
          rw [hall x hx]; ring
        rw [this]
        simp
      simp [IsHigh, IsLow, hsv, hmean, hvar]
  classical
  have hP : numHigh a s = numVotes a s := by
    unfold numHigh numVotes
    congr 1
    exact Finset.filter_congr fun p _ => (hboth p.1 p.2).1
  have hQ : numLow a s = numVotes a s := by
    unfold numLow numVotes
    congr 1
    exact Finset.filter_congr fun p _ => (hboth p.1 p.2).2
  unfold Screened
  rw [hP, hQ]
  constructor
  · rintro ⟨h, -⟩
    have : ((numVotes a s : ℝ) + numVotes a s) / ((E : ℝ) * R) = 2 * ((numVotes a s : ℝ) / ((E : ℝ) * R)) := by ring
    rw [this] at h
    linarith
  · intro h
    refine ⟨?_, by simp⟩
    have : ((numVotes a s : ℝ) + numVotes a s) / ((E : ℝ) * R) = 2 * ((numVotes a s : ℝ) / ((E : ℝ) * R)) := by ring
    rw [this]
    linarith

/-- one video, two votes that agree, and a third observer who did not vote -/
def unanimousArr : Arr3 (Fl ℝ) 1 3 1 := fun _ s _ => if s.val < 2 then .fin 3 else .nan

/-- **C20 (second half) is refuted**: the two observers who agree are both rejected, the observer without votes
is kept, and the score of the video becomes NaN although its votes are unanimous. -/
theorem C20_unanimity_refuted : ∃ res, runSR_MOS (arrReader 1 3 1 unanimousArr) {} = .ok res ∧
    res.observerRejected = some [true, true, false] ∧ res.qualityScores = [.nan] := by
  have hc : ∀ e s r, NumOrNan (unanimousArr e s r) := by
    intro e s r; unfold unanimousArr; split_ifs
    · exact Or.inr ⟨_, rfl⟩
    · exact Or.inl rfl
  have hu : ∀ e, ∃ v, ∀ s r, unanimousArr e s r = .nan ∨ unanimousArr e s r = .fin v := by
    intro e; refine ⟨3, fun s r => ?_⟩; unfold unanimousArr; split_ifs <;> simp
  have hrun : ∃ res, runSR_MOS (arrReader 1 3 1 unanimousArr) {} = .ok res := by
    unfold runSR_MOS
    rw [if_neg (by decide)]
    unfold runModeling mosRunModeling
    rw [preprocess_kurtosis (rd := arrReader 1 3 1 unanimousArr) rfl]
    exact ⟨_, rfl⟩
  obtain ⟨res, hres⟩ := hrun
  refine ⟨res, hres, ?_⟩
  have hrr : runMOS (arrReader 1 3 1 unanimousArr) { subjectRejection := yes } = .ok res := hres
  obtain ⟨res0, hr0⟩ := arrReader_runs 1 3 1 unanimousArr
  obtain ⟨a, ha, hout⟩ := C18_bt500_rule _ {} rfl rfl res0 res hr0 hrr
  have hraw : res0.rawScores = some ⟨1, 3, 1, unanimousArr⟩ := by
    rw [runMOS_default (a := ⟨1, 3, 1, unanimousArr⟩) rfl hr0]; rfl
  rw [hraw] at ha
  obtain rfl := Option.some.inj ha
  obtain ⟨flags, s1, s2, kept, f1, -, -, l1, -, -, hrule, -⟩ := hout hc
  have hv : ∀ s : Fin 3, numVotes unanimousArr s = if s.val < 2 then 1 else 0 := by
    intro s
    unfold numVotes unanimousArr
    by_cases hs : s.val < 2 <;> simp [hs]
  have hscr : ∀ s : Fin 3, Screened unanimousArr s ↔ s.val < 2 := by
    intro s
    rw [unanimous_screened unanimousArr hu, hv]
    by_cases hs : s.val < 2
    · simp [hs]; norm_num
    · simp [hs]; norm_num
  have hrej : ∀ s : Fin 3, Rejects unanimousArr s ↔ s.val < 2 := by
    intro s
    unfold Rejects
    rw [hscr]
    constructor
    · exact fun h => h.1
    · intro h
      refine ⟨h, fun hall => ?_⟩
      have := (hscr 2).mp (hall 2)
      simp at this
  have hflags : flags = [true, true, false] := by
    have h0 := (hrule (0 : Fin 3)).trans (hrej 0)
    have h1 := (hrule (1 : Fin 3)).trans (hrej 1)
    have h2 := (hrule (2 : Fin 3)).trans (hrej 2)
    match flags, l1 with
    | [x, y, z], _ =>
      simp at h0 h1 h2
      rw [h0, h1, h2]
  refine ⟨by rw [f1, hflags], ?_⟩
  obtain ⟨flags', kept', g1, -, -, -, gp, gk, -, gq⟩ :=
    C19_bt500_scores (arrReader 1 3 1 unanimousArr) ⟨1, 3, 1, unanimousArr⟩ res rfl hc hres
  rw [f1, hflags] at g1
  obtain rfl := Option.some.inj g1
  have hcells : ∀ e, present ((kept'.map fun s => List.ofFn fun r => unanimousArr e s r).flatten) = [] := by
    intro e
    unfold present
    rw [List.filterMap_eq_nil_iff]
    intro x hx
    obtain ⟨l, hl, hxl⟩ := List.mem_flatten.mp hx
    obtain ⟨s, hs, rfl⟩ := List.mem_map.mp hl
    obtain ⟨r, rfl⟩ := List.mem_ofFn.mp hxl
    have hs2 := (gk s).mp hs
    have : ¬ s.val < 2 := by
      intro hlt
      have : s = 0 ∨ s = 1 := by omega
      rcases this with rfl | rfl <;> simp at hs2
    simp [unanimousArr, this, Fl.val?]
  have hnan : ∀ e, meanOrNan ((kept'.map fun s => List.ofFn fun r => unanimousArr e s r).flatten) = .nan := by
    intro e
    unfold meanOrNan
    rw [hcells]
  rw [gq]
  simp only [hnan]
  rfl

end Sureal.Props
