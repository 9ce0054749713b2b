import Verif.Lemmas.Preproc
import Verif.Spec.Bt500
import Mathlib.Algebra.BigOperators.Fin
import Mathlib.Logic.Equiv.Fin.Basic
import Mathlib.Algebra.BigOperators.Group.Finset.Sigma
/-! Lemmas on the kurtosis rule. -/
set_option linter.unusedSectionVars false
namespace Sureal
open Spec Np Fl

theorem zipIdx_ofFn {α : Type} {n : ℕ} (f : Fin n → α) :
    (List.ofFn f).zipIdx = List.ofFn fun i => (f i, i.val) := by
  apply List.ext_getElem
  · simp
  · intro i h1 h2
    simp

theorem countP_ofFn {α : Type} {n : ℕ} (f : Fin n → α) (p : α → Bool) :
    (List.ofFn f).countP p = ∑ i, if p (f i) then 1 else 0 := by
  induction n with
  | zero => simp
  | succ n ih =>
    rw [List.ofFn_succ, List.countP_cons, Fin.sum_univ_succ, ih, add_comm]

section
variable {K : Type} [Field K] [LinearOrder K]

theorem tallyRow_foldl (S : ℕ) (hi lo : Fl K) (l : List (Fl K × ℕ)) (pq : (ℕ → ℕ) × (ℕ → ℕ)) (j : ℕ) :
    let r := l.foldl (fun pq xi =>
      if xi.1.isNan then pq
      else (if hi.le xi.1 then bump pq.1 (xi.2 % S) else pq.1,
            if xi.1.le lo then bump pq.2 (xi.2 % S) else pq.2)) pq
    r.1 j = pq.1 j + l.countP (fun xi => hi.le xi.1 && xi.2 % S == j) ∧
    r.2 j = pq.2 j + l.countP (fun xi => xi.1.le lo && xi.2 % S == j) := by
  induction l generalizing pq with
  | nil => simp
  | cons xi l ih =>
    obtain ⟨x, i⟩ := xi
    simp only [List.foldl_cons, List.countP_cons]
    by_cases hn : x.isNan
    · rw [Fl.isNan_iff] at hn
      subst hn
      simpa using ih pq
    · have h1 := ih (if hi.le x then bump pq.1 (i % S) else pq.1, if x.le lo then bump pq.2 (i % S) else pq.2)
      simp only [hn, Bool.false_eq_true, if_false]
      dsimp only at h1
      refine ⟨h1.1.trans ?_, h1.2.trans ?_⟩
      · by_cases hx : hi.le x <;> by_cases hj : i % S = j <;> simp [hx, hj, bump, eq_comm (a := j)]
        omega
      · by_cases hx : x.le lo <;> by_cases hj : i % S = j <;> simp [hx, hj, bump, eq_comm (a := j)]
        omega

/-- the votes of observer `s` found while scanning a row with `i % S` -/
theorem count_row {E S R : ℕ} (a : Arr3 (Fl K) E S R) (e : Fin E) (s : Fin S) (p : Fl K → Bool) :
    (rowL (stack1 a) e).zipIdx.countP (fun xi => p xi.1 && xi.2 % S == s.val)
      = ∑ r, if p (a e s r) then 1 else 0 := by
  unfold rowL
  rw [zipIdx_ofFn, countP_ofFn, ← finProdFinEquiv.sum_comp, Fintype.sum_prod_type]
  congr 1
  funext r
  have hS : 0 < S := s.pos
  have : ∀ s' : Fin S, stack1 a e (finProdFinEquiv (r, s')) = a e s' r := by
    intro s'
    apply stack1_apply
    simp [finProdFinEquiv, mul_comm, add_comm]
  have hmod : ∀ s' : Fin S, (finProdFinEquiv (r, s') : Fin (R * S)).val % S = s'.val := by
    intro s'
    simp [finProdFinEquiv, Nat.mod_eq_of_lt s'.isLt]
  simp only [this, hmod]
  rw [Finset.sum_eq_single s]
  · simp
  · intro s' _ hne
    have : s'.val ≠ s.val := fun h => hne (Fin.ext h)
    simp [this]
  · simp

theorem outlierCounts_eq [MathFn K] {E S R : ℕ} (a : Arr3 (Fl K) E S R) (s : Fin S) :
    (outlierCounts a).1 s = (∑ e, ∑ r, if (outlierThresholds (rowL (stack1 a) e)).1.le (a e s r) then 1 else 0) ∧
    (outlierCounts a).2 s = (∑ e, ∑ r, if (a e s r).le (outlierThresholds (rowL (stack1 a) e)).2 then 1 else 0) := by
  unfold outlierCounts
  have key : ∀ (l : List (Fin E)) (pq : (ℕ → ℕ) × (ℕ → ℕ)),
      let r := l.foldl (fun pq e =>
        let row := rowL (stack1 a) e
        let t := outlierThresholds row
        tallyRow S t.1 t.2 row pq) pq
      r.1 s = pq.1 s + (l.map fun e => ∑ r, if (outlierThresholds (rowL (stack1 a) e)).1.le (a e s r) then 1 else 0).sum ∧
      r.2 s = pq.2 s + (l.map fun e => ∑ r, if (a e s r).le (outlierThresholds (rowL (stack1 a) e)).2 then 1 else 0).sum := by
    intro l
    induction l with
    | nil => intro pq; simp
    | cons e l ih =>
      intro pq
      have h := ih (tallyRow S (outlierThresholds (rowL (stack1 a) e)).1 (outlierThresholds (rowL (stack1 a) e)).2
        (rowL (stack1 a) e) pq)
      have ht := tallyRow_foldl S (outlierThresholds (rowL (stack1 a) e)).1 (outlierThresholds (rowL (stack1 a) e)).2
        (rowL (stack1 a) e).zipIdx pq s.val
      dsimp only at h ht ⊢
      rw [List.foldl_cons, List.map_cons, List.sum_cons, List.map_cons, List.sum_cons]
      refine ⟨h.1.trans ?_, h.2.trans ?_⟩
      · rw [← add_assoc]
        congr 1
        refine ht.1.trans ?_
        rw [count_row a e s (fun x => (outlierThresholds (rowL (stack1 a) e)).1.le x)]
      · rw [← add_assoc]
        congr 1
        refine ht.2.trans ?_
        rw [count_row a e s (fun x => x.le (outlierThresholds (rowL (stack1 a) e)).2)]
  have h := key (List.finRange E) (fun _ => 0, fun _ => 0)
  dsimp only at h
  rw [← List.ofFn_eq_map, ← List.ofFn_eq_map, List.sum_ofFn, List.sum_ofFn, zero_add, zero_add] at h
  exact h
end

theorem kurtosis_map_fin {l : List ℝ} (h : l ≠ []) :
    Stats.kurtosis (l.map fin) = (fin (moment4 l) / fin (popVar l ^ 2) : Fl ℝ) := by
  unfold Stats.kurtosis
  rw [mean_map_fin h, List.map_map, List.map_map]
  have h2 : ((fun x => (x - fin (Spec.mean l)).sq) ∘ fin : ℝ → Fl ℝ)
      = fin ∘ fun x => ((x - Spec.mean l) ^ 2) := by
    funext x; simp [pow_two]
  have h4 : ((fun x => (x - fin (Spec.mean l)).sq.sq) ∘ fin : ℝ → Fl ℝ)
      = fin ∘ fun x => ((x - Spec.mean l) ^ 4) := by
    funext x; simp; ring
  rw [h2, h4, ← List.map_map, ← List.map_map, mean_map_fin (by simpa using h), mean_map_fin (by simpa using h)]
  simp only [sq_fin, ← pow_two]
  congr 2
  · unfold moment4 Spec.mean; rw [List.length_map]
  · unfold popVar sqDev
    conv_lhs => unfold Spec.mean
    rw [List.length_map]; rfl

theorem thresholds_of_votes {row : List (Fl ℝ)} (c : Clean row) (h : present row ≠ []) :
    outlierThresholds row =
      (fin (Spec.mean (present row) + outlierFactor (present row) * Real.sqrt (popVar (present row))),
       fin (Spec.mean (present row) - outlierFactor (present row) * Real.sqrt (popVar (present row)))) := by
  unfold outlierThresholds
  dsimp only
  rw [notNan_eq c, mean_map_fin h, kurtosis_map_fin h]
  have hs : Np.std ((present row).map fin) = fin (Real.sqrt (popVar (present row))) := by
    rw [Np.std, var_map_fin h, sqrt_fin (popVar_nonneg _)]; rfl
  rw [hs]
  have h20 : ((20 : ℕ) : Fl ℝ).sqrt = fin (Real.sqrt 20) := by
    rw [natCast_def, sqrt_fin (by positivity)]; norm_num; rfl
  have h2 : ((2 : ℕ) : Fl ℝ) = fin 2 := by rw [natCast_def]; norm_num
  have h4 : ((4 : ℕ) : Fl ℝ) = fin 4 := by rw [natCast_def]; norm_num
  rw [h20, h2, h4]
  by_cases hv : popVar (present row) = 0
  · have hno : ¬ (2 ≤ moment4 (present row) / popVar (present row) ^ 2 ∧
        moment4 (present row) / popVar (present row) ^ 2 ≤ 4) := by
      rw [hv]; norm_num
    unfold outlierFactor
    rw [if_neg hno]
    have hcond : ((fin 2 : Fl ℝ).le (fin (moment4 (present row)) / fin (popVar (present row) ^ 2)) &&
        (fin (moment4 (present row)) / fin (popVar (present row) ^ 2) : Fl ℝ).le (fin 4)) = false := by
      rw [hv]
      rcases lt_trichotomy (moment4 (present row)) 0 with hm | hm | hm
      · simp only [ne_eq, OfNat.ofNat_ne_zero, not_false_eq_true, zero_pow]
        rw [fin_div_zero_neg hm]; rfl
      · simp only [hm, ne_eq, OfNat.ofNat_ne_zero, not_false_eq_true, zero_pow]
        rw [zero_div_zero]; rfl
      · simp only [ne_eq, OfNat.ofNat_ne_zero, not_false_eq_true, zero_pow]
        rw [fin_div_zero_pos hm]; rfl
    rw [hcond]
    simp
  · rw [fin_div (by positivity)]
    unfold outlierFactor
    by_cases hk : 2 ≤ moment4 (present row) / popVar (present row) ^ 2 ∧
        moment4 (present row) / popVar (present row) ^ 2 ≤ 4
    · rw [if_pos hk, if_pos (by simp [hk.1, hk.2])]
      simp
    · rw [if_neg hk, if_neg (by simpa using hk)]
      simp

theorem moment4_perm {l l' : List ℝ} (h : l.Perm l') : moment4 l = moment4 l' := by
  unfold moment4
  rw [mean_perm h, h.length_eq]
  congr 1
  exact (h.map _).sum_eq

theorem popVar_perm {l l' : List ℝ} (h : l.Perm l') : popVar l = popVar l' := by
  unfold popVar; rw [sqDev_perm h, h.length_eq]

theorem outlierFactor_perm {l l' : List ℝ} (h : l.Perm l') : outlierFactor l = outlierFactor l' := by
  unfold outlierFactor; rw [moment4_perm h, popVar_perm h]

theorem high_iff {E S R : ℕ} (a : Arr3 (Fl ℝ) E S R) (hc : ∀ e s r, NumOrNan (a e s r)) (e : Fin E) (s : Fin S) (r : Fin R) :
    ((outlierThresholds (rowL (stack1 a) e)).1.le (a e s r) = true ↔ IsHigh a e s r) ∧
    ((a e s r).le (outlierThresholds (rowL (stack1 a) e)).2 = true ↔ IsLow a e s r) := by
  rcases hc e s r with h | ⟨x, h⟩
  · rw [h]
    constructor
    · simp [IsHigh, h]
    · simp [IsLow, h]
  · have c : Clean (rowL (stack1 a) e) := clean_row (hc e)
    have hp := present_perm (rowL_stack1_perm a e)
    have hne : present (rowL (stack1 a) e) ≠ [] := by
      intro h0
      have hx : x ∈ votesOn a e := by
        unfold votesOn present
        rw [List.mem_filterMap]
        refine ⟨a e s r, ?_, by rw [h]; rfl⟩
        unfold videoCells
        rw [List.mem_flatten]
        exact ⟨_, List.mem_ofFn.mpr ⟨s, rfl⟩, List.mem_ofFn.mpr ⟨r, rfl⟩⟩
      rw [h0] at hp
      have := hp.mem_iff.mpr hx
      simp at this
    rw [thresholds_of_votes c hne, h]
    dsimp only
    rw [mean_perm hp, outlierFactor_perm hp, popVar_perm hp]
    constructor
    · simp [IsHigh, h, votesOn]
    · simp [IsLow, h, votesOn]

open Classical in
theorem counts_spec {E S R : ℕ} (a : Arr3 (Fl ℝ) E S R) (hc : ∀ e s r, NumOrNan (a e s r)) (s : Fin S) :
    (outlierCounts a).1 s = numHigh a s ∧ (outlierCounts a).2 s = numLow a s := by
  have h := outlierCounts_eq a s
  unfold numHigh numLow
  rw [Finset.card_filter, Finset.card_filter, Fintype.sum_prod_type, Fintype.sum_prod_type]
  refine ⟨h.1.trans ?_, h.2.trans ?_⟩
  · refine Finset.sum_congr rfl fun e _ => Finset.sum_congr rfl fun r _ => ?_
    exact if_congr (high_iff a hc e s r).1 rfl rfl
  · refine Finset.sum_congr rfl fun e _ => Finset.sum_congr rfl fun r _ => ?_
    exact if_congr (high_iff a hc e s r).2 rfl rfl

open Classical in
/-- the test applied by the code to one observer is the published one -/
theorem reject_test {E S R : ℕ} (a : Arr3 (Fl ℝ) E S R) (hc : ∀ e s r, NumOrNan (a e s r)) (s : Fin S) :
    ((Fl.dec 5 100 : Fl ℝ).lt (((((outlierCounts a).1 s : ℕ) : Fl ℝ) + (((outlierCounts a).2 s : ℕ) : Fl ℝ)) / ((E * R : ℕ) : Fl ℝ)) &&
      ((((((outlierCounts a).1 s : ℕ) : Fl ℝ) - (((outlierCounts a).2 s : ℕ) : Fl ℝ)) / ((((outlierCounts a).1 s : ℕ) : Fl ℝ) + (((outlierCounts a).2 s : ℕ) : Fl ℝ))).abs).lt (Fl.dec 3 10))
      = decide (Screened a s) := by
  rw [(counts_spec a hc s).1, (counts_spec a hc s).2]
  simp only [natCast_def, fin_add, fin_sub, Fl.dec]
  unfold Screened
  by_cases hER : E * R = 0
  · have hz : ((E : ℝ) * R) = 0 := by exact_mod_cast hER
    have hP : numHigh a s = 0 := by
      unfold numHigh
      rw [Finset.card_eq_zero, Finset.filter_eq_empty_iff]
      intro p
      exfalso
      rcases Nat.mul_eq_zero.mp hER with h | h
      · exact absurd p.1.isLt (by omega)
      · exact absurd p.2.isLt (by omega)
    have hQ : numLow a s = 0 := by
      unfold numLow
      rw [Finset.card_eq_zero, Finset.filter_eq_empty_iff]
      intro p
      exfalso
      rcases Nat.mul_eq_zero.mp hER with h | h
      · exact absurd p.1.isLt (by omega)
      · exact absurd p.2.isLt (by omega)
    rw [hP, hQ, hER, hz]
    simp [zero_div_zero]
    norm_num
  · have hz : ((E * R : ℕ) : ℝ) ≠ 0 := by exact_mod_cast hER
    rw [fin_div hz]
    by_cases hPQ : (numHigh a s : ℝ) + numLow a s = 0
    · rw [hPQ]
      simp
      norm_num
    · rw [fin_div hPQ]
      have habs : ∀ x : ℝ, (fin x : Fl ℝ).abs = fin |x| := by
        intro x
        unfold Fl.abs
        by_cases hx : x < 0
        · simp [hx, abs_of_neg hx]
        · simp [hx, abs_of_nonneg (not_lt.mp hx)]
      rw [habs]
      simp only [lt_fin, Nat.cast_mul, Bool.decide_and]
      norm_num

end Sureal

namespace Sureal
open Spec Np Fl
variable {κ : Type}

/-- switching the kurtosis rule on only adds the rejection step at the end of preprocessing -/
theorem preprocess_withKurtosis {K : Type} [Field K] [LinearOrder K] [MathFn K] {rd : Reader κ K} {o : Opts K} {p : Prep K}
    (hn : o.subjectRejection.isTrue = false) (ht : o.subjectRejectionType = none) (h : preprocess rd o = .ok p) :
    preprocess rd { o with subjectRejection := yes }
      = .ok { p with arr := (kurtosisReject p.arr.get).1, rejection := some (kurtosisReject p.arr.get).2 } := by
  unfold preprocess at h ⊢
  cases ha : rd.scores with
  | error e => rw [ha] at h; cases h
  | ok a0 =>
    rw [ha] at h
    dsimp only at h ⊢
    have hk : checkOpts o = .error .assertion ∧ True ∨ (∃ ty, checkOpts o = .ok ty) ∧
        checkOpts { o with subjectRejection := yes } = .ok (some "kurtosis") := by
      unfold checkOpts
      rw [ht]
      dsimp only
      have hy : (yes : Flag).isFalse = false := rfl
      rw [hy]
      by_cases hz : o.zscoreMode.isTrue && o.biasOffset.isTrue
      · simp [hz]
      · simp [hz]
        split_ifs <;> exact Or.inr ⟨_, rfl⟩
    rcases hk with ⟨hk, -⟩ | ⟨⟨ty, hk⟩, hk'⟩
    · rw [hk] at h; cases h
    · rw [hk] at h
      rw [hk']
      dsimp only at h ⊢
      cases hd : (if o.dscoreMode.isTrue then dscoreStep rd a0 else .ok a0) with
      | error e => rw [hd] at h; cases h
      | ok a1 =>
        rw [hd] at h
        dsimp only at h ⊢
        have hr : ∀ a, rejectStep o ty a = .ok (a, none) := by
          intro a; unfold rejectStep; rw [hn]; rfl
        rw [hr] at h
        cases h
        have hr' : ∀ a, rejectStep { o with subjectRejection := yes } (some "kurtosis") a
            = .ok ((kurtosisReject a.get).1, some (kurtosisReject a.get).2) := by
          intro a; rfl
        rw [hr']

theorem splitObservers_all {S : ℕ} {rej : Fin S → Bool} (h : ∀ s, rej s = true) :
    splitObservers rej = (List.finRange S, []) := by
  unfold splitObservers
  have h1 : (List.finRange S).filter rej = List.finRange S := by
    rw [List.filter_eq_self]; simp [h]
  have h2 : (List.finRange S).filter (fun s => !rej s) = [] := by
    rw [List.filter_eq_nil_iff]; simp [h]
  dsimp only
  rw [h1, h2, if_pos (List.length_finRange), List.nil_append]

theorem splitObservers_some {S : ℕ} {rej : Fin S → Bool} (h : ¬ ∀ s, rej s = true) :
    splitObservers rej = ((List.finRange S).filter (fun s => !rej s), (List.finRange S).filter rej) := by
  unfold splitObservers
  dsimp only
  rw [if_neg]
  intro hl
  apply h
  have : (List.finRange S).filter rej = List.finRange S :=
    List.filter_sublist.eq_of_length (by rw [hl, List.length_finRange])
  exact fun s => List.filter_eq_self.mp this s (List.mem_finRange s)

/-- who is kept -/
theorem kurtosisReject_spec {E S R : ℕ} (a : Arr3 (Fl ℝ) E S R) (hc : ∀ e s r, NumOrNan (a e s r)) :
    ∃ flags : Fin S → Bool, (∀ s, flags s = true ↔ Rejects a s) ∧
      (kurtosisReject a).2.rejected = List.ofFn flags ∧
      (kurtosisReject a).1 = ⟨E, ((List.finRange S).filter fun s => !flags s).length, R,
        fun e i r => a e (((List.finRange S).filter fun s => !flags s).get i) r⟩ := by
  classical
  have htest := funext fun s => reject_test a hc s
  have hsplit : splitObservers (fun s => decide (Screened a s)) =
      ((List.finRange S).filter (fun s => !decide (Rejects a s)), (List.finRange S).filter fun s => decide (Rejects a s)) := by
    by_cases hall : ∀ s, Screened a s
    · rw [splitObservers_all (by simpa using hall)]
      congr 1
      · symm; rw [List.filter_eq_self]; simp [Rejects, hall]
      · symm; rw [List.filter_eq_nil_iff]; simp [Rejects, hall]
    · rw [splitObservers_some (by simpa using hall)]
      have hiff : ∀ s, decide (Rejects a s) = decide (Screened a s) := by
        intro s; simp [Rejects, hall]
      simp only [hiff]
  refine ⟨fun s => decide (Rejects a s), by simp, ?_⟩
  unfold kurtosisReject
  dsimp only
  rw [htest, hsplit]
  constructor
  · congr 1
    funext s
    simp [List.mem_filter]
  · rfl

end Sureal
