import Verif.Lemmas.Corr
import Verif.Props.Rejection
/-!
# Observer rejection, correlation rules: C21 – C22
-/
set_option linter.unusedSectionVars false
namespace Sureal.Props
open Sureal Spec
variable {κ : Type}

/-- the option value naming the rule -/
def ruleName (spearman : Bool) : String := if spearman then "spearman" else "pearson"

theorem preprocess_withCorr {K : Type} [Field K] [LinearOrder K] [MathFn K] {rd : Reader κ K} {o : Opts K} {p : Prep K}
    (hn : o.subjectRejection.isTrue = false) (ht : o.subjectRejectionType = none) (h : preprocess rd o = .ok p)
    (sp : Bool) :
    preprocess rd { o with subjectRejection := yes, subjectRejectionType := some (ruleName sp) }
      = match corrReject sp p.arr.get with
        | .error e => .error e
        | .ok (b, r) => .ok { p with arr := b, rejection := some r } := by
  unfold preprocess at h ⊢
  cases ha : rd.scores with
  | error e => rw [ha] at h; cases h
  | ok a0 =>
    rw [ha] at h
    dsimp only at h ⊢
    have hk : checkOpts o = .error .assertion ∧ True ∨ (∃ ty, checkOpts o = .ok ty) ∧
        checkOpts { o with subjectRejection := yes, subjectRejectionType := some (ruleName sp) } = .ok (some (ruleName sp)) := by
      unfold checkOpts
      rw [ht]
      dsimp only
      have hy : (yes : Flag).isFalse = false := rfl
      rw [hy]
      by_cases hz : o.zscoreMode.isTrue && o.biasOffset.isTrue
      · simp [hz]
      · cases sp <;> simp [hz, ruleName] <;> split_ifs <;> exact Or.inr ⟨_, rfl⟩
    rcases hk with ⟨hk, -⟩ | ⟨⟨ty, hk⟩, hk'⟩
    · rw [hk] at h; cases h
    · rw [hk] at h
      rw [hk']
      dsimp only at h ⊢
      cases hd : (if o.dscoreMode.isTrue then dscoreStep rd a0 else .ok a0) with
      | error e => rw [hd] at h; cases h
      | ok a1 =>
        rw [hd] at h
        dsimp only at h ⊢
        have hr : ∀ a, rejectStep o ty a = .ok (a, none) := by
          intro a; unfold rejectStep; rw [hn]; rfl
        rw [hr] at h
        cases h
        have hr' : ∀ a, rejectStep { o with subjectRejection := yes, subjectRejectionType := some (ruleName sp) } (some (ruleName sp)) a
            = match corrReject sp a.get with
              | .error e => .error e
              | .ok (b, r) => .ok (b, some r) := by
          intro a
          cases sp <;> rfl
        rw [hr']
        have key : ∀ (X : Py (Arr3D (Fl K) × Rejection K)) (g : Arr3D (Fl K) → Option (Rejection K) → Prep K),
            (match (match X with
              | .error e => (.error e : Py (Arr3D (Fl K) × Option (Rejection K)))
              | .ok (b, r) => .ok (b, some r)) with
              | .error e => (.error e : Py (Prep K))
              | .ok (a4, rej) => .ok (g a4 rej))
            = match X with
              | .error e => .error e
              | .ok (b, r) => .ok (g b (some r)) := by
          intro X g
          rcases X with e | ⟨b, r⟩ <;> rfl
        exact key _ fun a4 rej => ⟨a4, a0, _, rej⟩

/-- the run with a correlation rule on top of the options `o` -/
def runCorr {K : Type} [Field K] [LinearOrder K] [MathFn K] (sp : Bool) (rd : Reader κ K) (o : Opts K) : Py (Result κ K) :=
  runMOS rd { o with subjectRejection := yes, subjectRejectionType := some (ruleName sp) }

theorem corr_run (rd : Reader κ ℝ) (o : Opts ℝ) (hn : o.subjectRejection.isTrue = false)
    (ht : o.subjectRejectionType = none) (sp : Bool) (res0 res : Result κ ℝ) (hr0 : runMOS rd o = .ok res0)
    (hr : runCorr sp rd o = .ok res) :
    ∃ (a : Arr3D (Fl ℝ)) (b : Arr3D (Fl ℝ) × Rejection ℝ), res0.rawScores = some a ∧ corrReject sp a.get = .ok b ∧
      res.rawScores = some b.1 ∧ res.observerRejected = some b.2.rejected ∧
      res.observerRejectedStats1 = some b.2.stats1 ∧ res.observerRejectedStats2 = some b.2.stats2 := by
  obtain ⟨p, hp⟩ := runModeling_prep hr0
  have e0 := runModeling_mos hp hr0
  obtain ⟨p', hp'⟩ := runModeling_prep hr
  have e1 := runModeling_mos hp' hr
  have hw := preprocess_withCorr hn ht hp sp
  rw [hp'] at hw
  cases hcr : corrReject sp p.arr.get with
  | error e => rw [hcr] at hw; cases hw
  | ok b =>
    rw [hcr] at hw
    obtain ⟨b, r⟩ := b
    dsimp only at hw
    obtain rfl := Except.ok.inj hw
    exact ⟨p.arr, (b, r), by rw [e0]; exact withRejection_raw _ _, hcr, by rw [e1]; rfl, by rw [e1]; rfl,
      by rw [e1]; rfl, by rw [e1]; rfl⟩

theorem corrReject_ok {E S R : ℕ} {sp : Bool} {a : Arr3 (Fl ℝ) E S R} (hc : ∀ e s r, NumOrNan (a e s r))
    {b : Arr3D (Fl ℝ) × Rejection ℝ} (h : corrReject sp a = .ok b) :
    let r : Fin S → Fl ℝ := fun s => numOrNanOf (agreement sp a s)
    let thr := corrThreshold (List.ofFn r)
    b.1 = ⟨E, ((List.finRange S).filter fun s => thr.lt (r s)).length, R,
      fun e i k => a e (((List.finRange S).filter fun s => thr.lt (r s)).get i) k⟩ ∧
    b.2.rejected = (List.ofFn fun s => (r s).le thr) ∧ b.2.stats1 = List.ofFn r ∧ b.2.stats2 = List.replicate S 0 := by
  unfold corrReject at h
  cases hm : mapPy (observerCorr sp a) (List.finRange S) with
  | error e => rw [hm] at h; cases h
  | ok l =>
    rw [hm] at h
    obtain ⟨g, hg, hl⟩ := mapPy_ok_ofFn hm
    have hg' : g = fun s => numOrNanOf (agreement sp a s) := by
      funext s
      have := hg s
      rw [observerCorr_spec sp a hc s] at this
      split_ifs at this
      exact (Except.ok.inj this).symm
    subst hg' hl
    have hget : ∀ s : Fin S, ((List.ofFn fun s => numOrNanOf (agreement sp a s))[s.val]?).getD .nan
        = numOrNanOf (agreement sp a s) := by
      intro s; rw [List.getElem?_ofFn, dif_pos s.isLt]; rfl
    dsimp only at h ⊢
    cases h
    have hfil : (List.finRange S).filter (fun s => (corrThreshold (List.ofFn fun s => numOrNanOf (agreement sp a s))).lt
          (((List.ofFn fun s => numOrNanOf (agreement sp a s))[s.val]?).getD .nan))
        = (List.finRange S).filter (fun s => (corrThreshold (List.ofFn fun s => numOrNanOf (agreement sp a s))).lt
          (numOrNanOf (agreement sp a s))) := by
      simp only [hget]
    refine ⟨?_, ?_, rfl, rfl⟩
    · dsimp only
      rw [hfil]
      rfl
    · simp only [hget]

/-- **C22 (`_partial`).** With the pearson or spearman rule on top of any options `o`, the reported first
statistics are the observers' agreements with the panel (NaN where undefined).  If all agreements `c` are
defined, an observer is flagged iff `c` is at most `min(0.7, mean c - std c)`, and exactly the unflagged
observers' columns are used, in order.  Missing: the same when an agreement is undefined, which is false, see
`C22_undefined_agreement_refuted`. -/
theorem C22_correlation_rule_partial (rd : Reader κ ℝ) (o : Opts ℝ) (hn : o.subjectRejection.isTrue = false)
    (ht : o.subjectRejectionType = none) (sp : Bool) (res0 res : Result κ ℝ) (hr0 : runMOS rd o = .ok res0)
    (hr : runCorr sp rd o = .ok res) :
    ∃ a, res0.rawScores = some a ∧ ((∀ e s r, NumOrNan (a.get e s r)) →
      (res.observerRejectedStats1 = some (List.ofFn fun s => numOrNanOf (agreement sp a.get s))) ∧
      ∀ c : Fin a.S → ℝ, (∀ s, agreement sp a.get s = some (c s)) →
        ∃ (flags : List Bool) (kept : List (Fin a.S)), res.observerRejected = some flags ∧ flags.length = a.S ∧
          (∀ s : Fin a.S, flags[s.val]? = some true ↔ c s ≤ agreementThreshold (List.ofFn c)) ∧
          kept.Pairwise (· < ·) ∧ (∀ s : Fin a.S, s ∈ kept ↔ flags[s.val]? = some false) ∧
          res.rawScores = some ⟨a.E, kept.length, a.R, fun e i r => a.get e (kept.get i) r⟩) := by
  obtain ⟨a, b, ha, hb, h1, h2, h3, h4⟩ := corr_run rd o hn ht sp res0 res hr0 hr
  refine ⟨a, ha, fun hc => ?_⟩
  obtain ⟨k1, k2, k3, k4⟩ := corrReject_ok hc hb
  refine ⟨by rw [h3, k3], fun c hcs => ?_⟩
  have hr' : (fun s => numOrNanOf (agreement sp a.get s)) = fun s => Fl.fin (c s) := by
    funext s; rw [hcs s]; rfl
  rw [hr'] at k1 k2
  by_cases hS : a.S = 0
  · refine ⟨[], [], ?_, by simp [hS], fun s => absurd s.isLt (by omega), by simp, fun s => absurd s.isLt (by omega), ?_⟩
    · rw [h2, k2]
      congr 1
      rw [← List.length_eq_zero_iff, List.length_ofFn]; exact hS
    · rw [h1, k1]
      have hnil : (List.finRange a.S).filter (fun s => (corrThreshold (List.ofFn fun s => (Fl.fin (c s) : Fl ℝ))).lt (Fl.fin (c s))) = [] := by
        rw [List.filter_eq_nil_iff]; intro s; exact absurd s.isLt (by omega)
      rw [hnil]
  · rw [corrThreshold_spec hS c] at k1 k2
    refine ⟨_, (List.finRange a.S).filter (fun s => (Fl.fin (agreementThreshold (List.ofFn c)) : Fl ℝ).lt (Fl.fin (c s))),
      by rw [h2, k2], by simp, ?_, List.Pairwise.filter _ (List.pairwise_lt_finRange a.S), ?_, by rw [h1, k1]⟩
    · intro s
      rw [List.getElem?_ofFn, dif_pos s.isLt]
      simp
    · intro s
      rw [List.getElem?_ofFn, dif_pos s.isLt]
      simp

theorem mean_ofFn_sub {n : ℕ} (hn : n ≠ 0) (c : Fin n → ℝ) (t : ℝ) (h : ∀ i, c i ≤ t) : mean (List.ofFn c) ≤ t := by
  have hne : List.ofFn c ≠ [] := by
    intro h0; have : (List.ofFn c).length = 0 := by rw [h0]; rfl
    rw [List.length_ofFn] at this; exact hn this
  have hpos : (0 : ℝ) < (List.ofFn c).length := by
    have := List.length_pos_iff.mpr hne; exact_mod_cast this
  unfold mean
  rw [div_le_iff₀ hpos]
  have : ∀ l : List ℝ, (∀ x ∈ l, x ≤ t) → l.sum ≤ t * l.length := by
    intro l
    induction l with
    | nil => simp
    | cons x l ih =>
      intro hl
      have h1 := hl x (by simp)
      have h2 := ih fun y hy => hl y (by simp [hy])
      simp only [List.sum_cons, List.length_cons]
      push_cast
      linarith
  apply this
  intro x hx
  obtain ⟨i, rfl⟩ := List.mem_ofFn.mp hx
  exact h i

theorem all_le_threshold {n : ℕ} (hn : n ≠ 0) (c : Fin n → ℝ) :
    (∀ i, c i ≤ agreementThreshold (List.ofFn c)) ↔ (∀ i j, c i = c j) ∧ ∀ i, c i ≤ 7 / 10 := by
  constructor
  · intro h
    have hm := mean_ofFn_sub hn c _ h
    unfold agreementThreshold at hm h
    have h7 : ∀ i, c i ≤ 7 / 10 := fun i => (h i).trans (min_le_left _ _)
    refine ⟨?_, h7⟩
    have hs : Real.sqrt (popVar (List.ofFn c)) ≤ 0 := by
      have := hm.trans (min_le_right _ _); linarith
    have hv : popVar (List.ofFn c) = 0 := by
      have := (Real.sqrt_eq_zero (Np.popVar_nonneg _)).mp (le_antisymm hs (Real.sqrt_nonneg _))
      exact this
    have hsq : sqDev (List.ofFn c) = 0 := by
      unfold popVar at hv
      rw [List.length_ofFn] at hv
      have hn' : (n : ℝ) ≠ 0 := by exact_mod_cast hn
      rcases div_eq_zero_iff.mp hv with h | h
      · exact h
      · exact absurd h hn'
    have hall := (sqDev_list_zero_iff _).mp hsq
    intro i j
    rw [hall (c i) (List.mem_ofFn.mpr ⟨i, rfl⟩), hall (c j) (List.mem_ofFn.mpr ⟨j, rfl⟩)]
  · rintro ⟨heq, h7⟩ i
    have hne : List.ofFn c ≠ [] := by
      intro h0; have : (List.ofFn c).length = 0 := by rw [h0]; rfl
      rw [List.length_ofFn] at this; exact hn this
    have hmean : mean (List.ofFn c) = c i := by
      have := mean_bounds hne (lo := c i) (hi := c i) (fun x hx => by
        obtain ⟨j, rfl⟩ := List.mem_ofFn.mp hx
        exact ⟨(heq i j).le, (heq j i).le⟩)
      exact le_antisymm this.2 this.1
    have hv : popVar (List.ofFn c) = 0 := by
      unfold popVar
      rw [(sqDev_list_zero_iff _).mpr, zero_div]
      intro x hx
      obtain ⟨j, rfl⟩ := List.mem_ofFn.mp hx
      rw [hmean]; exact heq j i
    unfold agreementThreshold
    rw [hmean, hv, Real.sqrt_zero, sub_zero]
    exact le_min (h7 i) le_rfl

/-- **C21 (`_partial`).** If all agreements `c` are defined, the correlation rule keeps somebody unless all
agreements are equal and at most 0.7 — and then it removes everybody.  Missing: C21 itself, which is false
(`C21_equal_agreement_refuted`). -/
theorem C21_corr_keeps_someone_partial (rd : Reader κ ℝ) (o : Opts ℝ) (hn : o.subjectRejection.isTrue = false)
    (ht : o.subjectRejectionType = none) (sp : Bool) (res0 res : Result κ ℝ) (hr0 : runMOS rd o = .ok res0)
    (hr : runCorr sp rd o = .ok res) (a : Arr3D (Fl ℝ)) (ha : res0.rawScores = some a)
    (hc : ∀ e s r, NumOrNan (a.get e s r)) (hS : a.S ≠ 0) (c : Fin a.S → ℝ) (hcs : ∀ s, agreement sp a.get s = some (c s)) :
    ∃ b, res.rawScores = some b ∧ (b.S = 0 ↔ (∀ s s', c s = c s') ∧ ∀ s, c s ≤ 7 / 10) := by
  obtain ⟨a', ha', h⟩ := C22_correlation_rule_partial rd o hn ht sp res0 res hr0 hr
  rw [ha] at ha'
  obtain rfl := Option.some.inj ha'
  obtain ⟨-, h⟩ := h hc
  obtain ⟨flags, kept, -, hlen, hf, -, hk, hraw⟩ := h c hcs
  refine ⟨_, hraw, ?_⟩
  rw [← all_le_threshold hS c]
  show kept.length = 0 ↔ _
  rw [List.length_eq_zero_iff]
  constructor
  · intro h0 s
    rw [← hf s]
    have hlt : s.val < flags.length := by rw [hlen]; exact s.isLt
    have hno : flags[s.val]? ≠ some false := by
      intro hff
      have := (hk s).mpr hff
      rw [h0] at this; simp at this
    rw [List.getElem?_eq_getElem hlt] at hno ⊢
    cases hv : flags[s.val] with
    | true => rfl
    | false => rw [hv] at hno; exact absurd rfl hno
  · intro hall
    by_contra hne
    obtain ⟨s, hs⟩ := List.exists_mem_of_ne_nil _ hne
    have h1 := (hk s).mp hs
    have h2 := (hf s).mpr (hall s)
    rw [h1] at h2
    cases h2

theorem corrThreshold_nan {l : List (Fl ℝ)} (h : Fl.nan ∈ l) : corrThreshold l = .nan := by
  unfold corrThreshold
  have : Np.mean l = .nan := by unfold Np.mean; rw [sum_of_nan_mem h, Fl.nan_div]
  rw [this]
  simp

/-- **C22 is refuted whenever some observer's agreement is undefined** (for example an observer who gave the same
vote to every video): every observer is removed, and nobody is flagged. -/
theorem C22_undefined_agreement_refuted (rd : Reader κ ℝ) (o : Opts ℝ) (hn : o.subjectRejection.isTrue = false)
    (ht : o.subjectRejectionType = none) (sp : Bool) (res0 res : Result κ ℝ) (hr0 : runMOS rd o = .ok res0)
    (hr : runCorr sp rd o = .ok res) (a : Arr3D (Fl ℝ)) (ha : res0.rawScores = some a)
    (hc : ∀ e s r, NumOrNan (a.get e s r)) (hu : ∃ s, agreement sp a.get s = none) :
    (∃ b, res.rawScores = some b ∧ b.S = 0) ∧ res.observerRejected = some (List.replicate a.S false) := by
  obtain ⟨a', b, ha', hb, h1, h2, h3, h4⟩ := corr_run rd o hn ht sp res0 res hr0 hr
  rw [ha] at ha'
  obtain rfl := Option.some.inj ha'
  obtain ⟨k1, k2, k3, k4⟩ := corrReject_ok hc hb
  have hnan : corrThreshold (List.ofFn fun s => numOrNanOf (agreement sp a.get s)) = .nan := by
    apply corrThreshold_nan
    obtain ⟨s, hs⟩ := hu
    exact List.mem_ofFn.mpr ⟨s, by rw [hs]; rfl⟩
  rw [hnan] at k1 k2
  refine ⟨⟨_, h1, ?_⟩, ?_⟩
  · rw [k1]
    show List.length _ = 0
    rw [List.length_eq_zero_iff, List.filter_eq_nil_iff]
    simp
  · rw [h2, k2]
    congr 1
    apply List.ext_getElem
    · simp
    · intro i _ _; simp

/-- agreement in the simple case of one repetition and no missing vote -/
theorem opinionPairs_complete {E S : ℕ} (hS : S ≠ 0) (x : Fin E → Fin S → ℝ) (s : Fin S) :
    opinionPairs (fun e s (_ : Fin 1) => Fl.fin (x e s)) s
      = List.ofFn fun e => (x e s, mean (List.ofFn fun s' => x e s')) := by
  have ho : ∀ e s, opinion (fun e s (_ : Fin 1) => Fl.fin (x e s)) e s = .fin (x e s) := by
    intro e s
    unfold opinion meanOrNan
    simp [present, Fl.val?, mean]
  have hp : ∀ e, panelOpinion (fun e s (_ : Fin 1) => Fl.fin (x e s)) e = .fin (mean (List.ofFn fun s' => x e s')) := by
    intro e
    unfold panelOpinion
    simp only [ho]
    have hpr : present (List.ofFn fun s => Fl.fin (x e s)) = List.ofFn fun s => x e s := by
      have : (List.ofFn fun s => Fl.fin (x e s)) = (List.ofFn fun s => x e s).map Fl.fin := by
        rw [List.map_ofFn]; rfl
      rw [this]
      exact present_map_fin _
    unfold meanOrNan
    rw [hpr]
    split
    · rename_i h
      have : (List.ofFn fun s => x e s).length = 0 := by rw [h]; rfl
      rw [List.length_ofFn] at this; exact absurd this hS
    · rename_i h; rw [h]
  unfold opinionPairs
  simp only [ho, hp]
  rw [List.ofFn_eq_map, List.filterMap_eq_map']

/-- two observers rating three videos (1, 2, 3) and (3, 1, 2): both agree with the panel to the degree 1/2 -/
def equalAgreementVotes : Fin 3 → Fin 2 → ℝ := fun e s =>
  match e.val, s.val with
  | 0, 0 => 1 | 1, 0 => 2 | 2, 0 => 3
  | 0, _ => 3 | 1, _ => 1 | _, _ => 2

theorem equalAgreement (s : Fin 2) :
    agreement false (fun e s (_ : Fin 1) => Fl.fin (equalAgreementVotes e s)) s = some (1 / 2) := by
  unfold agreement
  simp only [Bool.false_eq_true, if_false]
  rw [opinionPairs_complete (by decide)]
  have h2 : Real.sqrt 2 * Real.sqrt (1 / 2) = 1 := by
    rw [← Real.sqrt_mul (by norm_num)]; norm_num
  unfold correlation
  have hx : ∀ s, sqDev ((List.ofFn fun e => (equalAgreementVotes e s, mean (List.ofFn fun s' => equalAgreementVotes e s'))).map (·.1)) = 2 := by
    intro s; fin_cases s <;> simp [sqDev, mean, equalAgreementVotes, List.ofFn_succ] <;> norm_num
  have hy : ∀ s, sqDev ((List.ofFn fun e => (equalAgreementVotes e s, mean (List.ofFn fun s' => equalAgreementVotes e s'))).map (·.2)) = 1 / 2 := by
    intro s; fin_cases s <;> simp [sqDev, mean, equalAgreementVotes, List.ofFn_succ] <;> norm_num
  rw [hx, hy, h2, if_neg (by norm_num), div_one]
  congr 1
  fin_cases s <;> simp [mean, equalAgreementVotes, List.ofFn_succ] <;> norm_num

theorem corr_arr_runs {E S R : ℕ} (sp : Bool) (a : Arr3 (Fl ℝ) E S R) (hc : ∀ e s r, NumOrNan (a e s r))
    (hlen : ∀ s, 2 ≤ (opinionPairs a s).length) : ∃ res, runCorr sp (arrReader E S R a) {} = .ok res := by
  unfold runCorr runMOS runModeling mosRunModeling
  rw [preprocess_withCorr (rd := arrReader E S R a) (o := {}) rfl rfl (preprocess_default rfl) sp]
  have hm : ∃ b, corrReject sp a = .ok b := by
    unfold corrReject
    have : ∀ is : List (Fin S), ∃ l, mapPy (observerCorr sp a) is = .ok l := by
      intro is
      induction is with
      | nil => exact ⟨[], rfl⟩
      | cons i is ih =>
        obtain ⟨l, hl⟩ := ih
        refine ⟨numOrNanOf (agreement sp a i) :: l, ?_⟩
        unfold mapPy
        rw [observerCorr_spec sp a hc i, if_neg (fun h => absurd h.2 (by have := hlen i; omega)), hl]
    obtain ⟨l, hl⟩ := this (List.finRange S)
    rw [hl]
    exact ⟨_, rfl⟩
  obtain ⟨⟨b, r⟩, hb⟩ := hm
  dsimp only
  rw [hb]
  exact ⟨_, rfl⟩

/-- **C21 is refuted**: with the pearson rule the panel of two observers above is emptied. -/
theorem C21_equal_agreement_refuted :
    ∃ res b, runSR_MOS_PCC (arrReader 3 2 1 fun e s _ => .fin (equalAgreementVotes e s)) {} = .ok res ∧
      res.rawScores = some b ∧ b.S = 0 := by
  have hc : ∀ e s r, NumOrNan ((fun e s (_ : Fin 1) => Fl.fin (equalAgreementVotes e s)) e s r) := fun e s r => Or.inr ⟨_, rfl⟩
  obtain ⟨res, hr⟩ := corr_arr_runs false (fun e s (_ : Fin 1) => Fl.fin (equalAgreementVotes e s)) hc
    (by intro s; rw [opinionPairs_complete (by decide)]; simp)
  obtain ⟨res0, hr0⟩ := arrReader_runs 3 2 1 fun e s _ => Fl.fin (equalAgreementVotes e s)
  have hraw : res0.rawScores = some ⟨3, 2, 1, fun e s _ => .fin (equalAgreementVotes e s)⟩ := by
    rw [runMOS_default (a := ⟨3, 2, 1, fun e s _ => .fin (equalAgreementVotes e s)⟩) rfl hr0]; rfl
  obtain ⟨b, hb, hiff⟩ := C21_corr_keeps_someone_partial _ {} rfl rfl false res0 res hr0 hr _ hraw hc (by decide)
    (fun _ => 1 / 2) equalAgreement
  exact ⟨res, b, hr, hb, hiff.mpr ⟨fun _ _ => rfl, fun _ => by norm_num⟩⟩

/-- concrete case of `C22_undefined_agreement_refuted`: votes (1, 2) and (2, 1) on two videos, so that the panel
rates both videos 1.5 -/
example : ∃ res b, runSR_MOS_PCC (arrReader 2 2 1 fun e s _ => .fin (if e = s then 1 else 2)) {} = .ok res ∧
    res.rawScores = some b ∧ b.S = 0 ∧ res.observerRejected = some [false, false] := by
  have hc : ∀ e s r, NumOrNan ((fun (e s : Fin 2) (_ : Fin 1) => (Fl.fin (if e = s then 1 else 2) : Fl ℝ)) e s r) :=
    fun e s r => Or.inr ⟨_, rfl⟩
  obtain ⟨res, hr⟩ := corr_arr_runs false (fun (e s : Fin 2) (_ : Fin 1) => (Fl.fin (if e = s then 1 else 2) : Fl ℝ)) hc
    (by intro s; rw [opinionPairs_complete (x := fun e s : Fin 2 => if e = s then (1 : ℝ) else 2) (by decide)]; simp)
  obtain ⟨res0, hr0⟩ := arrReader_runs 2 2 1 fun e s _ => Fl.fin (if e = s then 1 else 2)
  have hraw : res0.rawScores = some ⟨2, 2, 1, fun e s _ => .fin (if e = s then 1 else 2)⟩ := by
    rw [runMOS_default (a := ⟨2, 2, 1, fun e s _ => .fin (if e = s then 1 else 2)⟩) rfl hr0]; rfl
  obtain ⟨⟨b, hb, hS⟩, hf⟩ := C22_undefined_agreement_refuted _ {} rfl rfl false res0 res hr0 hr _ hraw hc
    ⟨0, by
      unfold agreement
      simp only [Bool.false_eq_true, if_false]
      rw [opinionPairs_complete (x := fun e s : Fin 2 => if e = s then (1 : ℝ) else 2) (by decide)]
      unfold correlation
      rw [if_pos]
      right
      simp [sqDev, mean, List.ofFn_succ]
      norm_num⟩
  exact ⟨res, b, hr, hb, hS, hf⟩

end Sureal.Props
