import Verif.Lemmas.Bt
import Verif.Lemmas.Corr
import Verif.Model.Bt
/-! # The Bradley-Terry passes of the model over the reals -/
set_option linter.unusedSectionVars false
namespace Sureal.Bt
open Spec.BT BtMath
variable {M : ℕ} {A : Fin M → Fin M → ℝ} {p q : Fin M → ℝ}

theorem sum_vec (f : Fin M → ℝ) : Np.sum (List.ofFn fun i => Fl.fin (f i)) = .fin (∑ i, f i) := by
  have : (List.ofFn fun i => Fl.fin (f i)) = (List.ofFn f).map Fl.fin := by rw [List.map_ofFn]; rfl
  rw [this, Np.sum_map_fin, List.sum_ofFn]

theorem norm_vec (f : Fin M → ℝ) : Np.linalgNorm (List.ofFn fun i => Fl.fin (f i)) = .ok (.fin (Real.sqrt (∑ i, f i ^ 2))) := by
  unfold Np.linalgNorm
  rw [if_pos (by simp [List.all_eq_true, List.mem_ofFn])]
  have : (List.ofFn fun i => Fl.fin (f i)).map (fun x : Fl ℝ => x.sq) = List.ofFn fun i => Fl.fin (f i ^ 2) := by
    rw [List.map_ofFn]
    congr 1
    funext i
    simp [pow_two]
  rw [this, sum_vec, Fl.sqrt_fin (Finset.sum_nonneg fun i _ => sq_nonneg _)]
  rfl

theorem norm_bad {f : Fin M → Fl ℝ} {i : Fin M} (h : (f i).isFinite = false) :
    Np.linalgNorm (List.ofFn f) = .error .value := by
  unfold Np.linalgNorm
  rw [if_neg]
  rw [List.all_eq_true]
  intro hall
  have := hall (f i) (List.mem_ofFn.mpr ⟨i, rfl⟩)
  rw [h] at this
  cases this

theorem start_vec (hM : M ≠ 0) : start M = vec (fun _ : Fin M => (1 : ℝ) / M) := by
  funext i
  unfold start vec
  have : (M : ℝ) ≠ 0 := Nat.cast_ne_zero.mpr hM
  rw [Fl.one_def, Fl.natCast_def, Fl.fin_div this, Fl.fin_mul, mul_one]

theorem start_posProb (hM : M ≠ 0) : PosProb (fun _ : Fin M => (1 : ℝ) / M) := by
  have h0 : (0 : ℝ) < M := Nat.cast_pos.mpr (Nat.pos_of_ne_zero hM)
  constructor
  · intro i
    positivity
  · rw [Finset.sum_const, Finset.card_univ, Fintype.card_fin, nsmul_eq_mul]
    field_simp

theorem den_fl (hp : ∀ i j, p i + p j ≠ 0) (i : Fin M) :
    Np.sum (List.ofFn fun j => games (mat A) i j / pairSum (vec p) i j) = .fin (den A p i) := by
  have : (fun j => games (mat A) i j / pairSum (vec p) i j) =
      fun j => Fl.fin (Spec.BT.games A i j / (p i + p j)) := by
    funext j
    unfold games pairSum mat vec
    rw [Fl.fin_add, Fl.fin_add, Fl.fin_div (hp i j)]
    rfl
  rw [this, sum_vec]
  rfl

theorem wins_fl (i : Fin M) : Np.sum (rowL (mat A) i) = .fin (wins A i) := sum_vec _

theorem ratio_fl (h : Table A) (hp : ∀ i, 0 < p i) : ratio (mat A) (vec p) = vec (update A p) := by
  funext i
  unfold ratio
  rw [wins_fl, den_fl (fun i j => (add_pos (hp i) (hp j)).ne'), Fl.fin_div (den_pos h hp i).ne']
  rfl

theorem iter_fl (h : Table A) (hp : PosProb p) : iter (mat A) (vec p) = vec (next A p) := by
  funext i
  unfold iter
  rw [ratio_fl h hp.pos]
  have : Np.sum (List.ofFn (vec (update A p))) = .fin (∑ k, update A p k) := sum_vec _
  rw [this]
  unfold vec
  rw [Fl.fin_div (total_pos h hp).ne']
  rfl

theorem change_fl (p q : Fin M → ℝ) : change (vec q) (vec p) = .ok (.fin (Real.sqrt (∑ i, (q i - p i) ^ 2))) := by
  unfold change vec
  simp only [Fl.fin_sub]
  exact norm_vec _

theorem thr_fl : (thr : Fl ℝ) = .fin (1 / 10 ^ 8) := by
  unfold thr Fl.dec
  norm_num

theorem iterate_fl (h : Table A) (hM : M ≠ 0) (k : ℕ) :
    ∃ p, PosProb p ∧ (iter (mat A))^[k] (start M) = vec p := by
  induction k with
  | zero => exact ⟨_, start_posProb hM, start_vec hM⟩
  | succ k ih =>
    obtain ⟨p, hp, he⟩ := ih
    refine ⟨next A p, next_posProb h hp, ?_⟩
    rw [Function.iterate_succ_apply', he, iter_fl h hp]

/-- the outcome of the loop from a probability vector -/
theorem loop_ok (h : Table A) {x : Arr1 (Fl ℝ) M} {r} (hl : Loop (mat A) x r) :
    ∀ p, PosProb p → x = vec p → ∃ p0, PosProb p0 ∧ (∃ k, x = vec p ∧ (iter (mat A))^[k] x = vec p0) ∧
      r = .ok (vec (next A p0)) ∧ Real.sqrt (∑ i, (next A p0 i - p0 i) ^ 2) ≤ 1 / 10 ^ 8 := by
  induction hl with
  | fail hc =>
    rintro p hp rfl
    rw [iter_fl h hp, change_fl] at hc
    cases hc
  | stop hc ht =>
    rintro p hp rfl
    rw [iter_fl h hp, change_fl] at hc
    cases hc
    rw [thr_fl, Fl.lt_fin, decide_eq_false_iff_not, not_lt] at ht
    exact ⟨p, hp, ⟨0, rfl, rfl⟩, by rw [iter_fl h hp], ht⟩
  | next hc ht hr ih =>
    rintro p hp rfl
    obtain ⟨p0, hp0, ⟨k, _, hk⟩, hr, hs⟩ := ih (next A p) (next_posProb h hp) (iter_fl h hp)
    exact ⟨p0, hp0, ⟨k + 1, rfl, by rw [Function.iterate_succ_apply]; exact hk⟩, hr, hs⟩

/-- the loop has at most one outcome -/
theorem loop_det {al : Arr2 (Fl ℝ) M M} {x : Arr1 (Fl ℝ) M} {r r'} (h : Loop al x r) (h' : Loop al x r') : r = r' := by
  induction h with
  | fail hc =>
    cases h' with
    | fail hc' => rw [hc] at hc'; cases hc'; rfl
    | stop hc' _ => rw [hc] at hc'; cases hc'
    | next hc' _ _ => rw [hc] at hc'; cases hc'
  | stop hc ht =>
    cases h' with
    | fail hc' => rw [hc] at hc'; cases hc'
    | stop hc' _ => rfl
    | next hc' ht' _ => rw [hc] at hc'; cases hc'; rw [ht] at ht'; cases ht'
  | next hc ht hr ih =>
    cases h' with
    | fail hc' => rw [hc] at hc'; cases hc'
    | stop hc' ht' => rw [hc] at hc'; cases hc'; rw [ht] at ht'; cases ht'
    | next hc' ht' hr' => exact ih hr'

/-- if a pass gains less than `η` then it moves less than the threshold -/
theorem small_gain (h : Table A) (hp : PosProb p) {w : ℝ} (hw : ∀ i, w ≤ wins A i) (hw0 : 0 < w)
    (hg : logLik A (next A p) - logLik A p ≤ w * (1 / 10 ^ 9) ^ 2) :
    Real.sqrt (∑ i, (next A p i - p i) ^ 2) ≤ 1 / 10 ^ 8 := by
  have hgain := next_gain h hp
  have hterm : ∀ i, (Real.sqrt (p i / update A p i) - 1) ^ 2 ≤ (1 / 10 ^ 9) ^ 2 := by
    intro i
    have h1 : wins A i * (Real.sqrt (p i / update A p i) - 1) ^ 2 ≤
        ∑ i, wins A i * (Real.sqrt (p i / update A p i) - 1) ^ 2 :=
      Finset.single_le_sum (f := fun i => wins A i * (Real.sqrt (p i / update A p i) - 1) ^ 2)
        (fun k _ => mul_nonneg (h.wins k).le (sq_nonneg _)) (Finset.mem_univ i)
    have h2 : w * (Real.sqrt (p i / update A p i) - 1) ^ 2 ≤ w * (1 / 10 ^ 9) ^ 2 :=
      (mul_le_mul_of_nonneg_right (hw i) (sq_nonneg _)).trans (h1.trans (hgain.trans hg))
    exact le_of_mul_le_mul_left h2 hw0
  have hclose := next_close h hp (ε := 1 / 10 ^ 9) (by norm_num) (by norm_num) hterm
  rw [Real.sqrt_le_left (by norm_num)]
  have hle : ∀ i, p i ≤ 1 := fun i =>
    (Finset.single_le_sum (fun k _ => (hp.pos k).le) (Finset.mem_univ i)).trans_eq hp.sum
  calc ∑ i, (next A p i - p i) ^ 2 ≤ ∑ i, (8 * (1 / 10 ^ 9)) ^ 2 * p i := by
        refine Finset.sum_le_sum fun i _ => ?_
        have hc := hclose i
        have h0 := (hp.pos i).le
        rw [← sq_abs]
        calc |next A p i - p i| ^ 2 ≤ (8 * (1 / 10 ^ 9) * p i) ^ 2 := pow_le_pow_left₀ (abs_nonneg _) hc 2
          _ = (8 * (1 / 10 ^ 9)) ^ 2 * (p i * p i) := by ring
          _ ≤ (8 * (1 / 10 ^ 9)) ^ 2 * p i :=
            mul_le_mul_of_nonneg_left (mul_le_of_le_one_left h0 (hle i)) (by positivity)
    _ = (8 * (1 / 10 ^ 9)) ^ 2 := by rw [← Finset.mul_sum, hp.sum, mul_one]
    _ ≤ (1 / 10 ^ 8) ^ 2 := by norm_num

/-- the loop ends from every probability vector, after at most `k` passes if `-logLik` is at most `k` times the least gain -/
theorem loop_ends (h : Table A) {w : ℝ} (hw : ∀ i, w ≤ wins A i) (hw0 : 0 < w) :
    ∀ (k : ℕ) (p : Fin M → ℝ), PosProb p → -logLik A p ≤ k * (w * (1 / 10 ^ 9) ^ 2) → ∃ r, Loop (mat A) (vec p) r := by
  intro k
  induction k with
  | zero =>
    intro p hp hk
    refine ⟨_, Loop.stop (by rw [iter_fl h hp, change_fl]) ?_⟩
    rw [thr_fl, Fl.lt_fin, decide_eq_false_iff_not, not_lt]
    refine small_gain h hp hw hw0 ?_
    have := logLik_nonpos h (next_posProb h hp).pos
    have h2 : 0 ≤ w * (1 / 10 ^ 9) ^ 2 := by positivity
    simp only [Nat.cast_zero, zero_mul] at hk
    linarith
  | succ k ih =>
    intro p hp hk
    by_cases hs : Real.sqrt (∑ i, (next A p i - p i) ^ 2) ≤ 1 / 10 ^ 8
    · refine ⟨_, Loop.stop (by rw [iter_fl h hp, change_fl]) ?_⟩
      rw [thr_fl, Fl.lt_fin, decide_eq_false_iff_not, not_lt]
      exact hs
    · have hg : w * (1 / 10 ^ 9) ^ 2 < logLik A (next A p) - logLik A p := by
        by_contra hc
        exact hs (small_gain h hp hw hw0 (not_lt.mp hc))
      obtain ⟨r, hr⟩ := ih (next A p) (next_posProb h hp) (by push_cast at hk; linarith)
      refine ⟨r, Loop.next (by rw [iter_fl h hp, change_fl]) ?_ (by rw [iter_fl h hp]; exact hr)⟩
      rw [thr_fl, Fl.lt_fin, decide_eq_true_iff]
      exact not_le.mp hs

theorem loop_total (h : Table A) (hp : PosProb p) : ∃ r, Loop (mat A) (vec p) r := by
  have hne : (Finset.univ : Finset (Fin M)).Nonempty := by
    by_contra hc
    rw [Finset.not_nonempty_iff_eq_empty] at hc
    have := hp.sum
    rw [hc, Finset.sum_empty] at this
    exact zero_ne_one this
  obtain ⟨i0, -, hi0⟩ := Finset.exists_min_image Finset.univ (wins A) hne
  have hη : 0 < wins A i0 * (1 / 10 ^ 9) ^ 2 := mul_pos (h.wins i0) (by norm_num)
  obtain ⟨k, hk⟩ := exists_nat_ge (-logLik A p / (wins A i0 * (1 / 10 ^ 9) ^ 2))
  refine loop_ends h (fun i => hi0 i (Finset.mem_univ i)) (h.wins i0) k p hp ?_
  rwa [div_le_iff₀ hη] at hk

/-! ## A video that never wins -/

/-- a NaN anywhere before the normalisation makes the pass raise -/
theorem change_nan {al : Arr2 (Fl ℝ) M M} {x : Arr1 (Fl ℝ) M} {i : Fin M} (h : ratio al x i = .nan) :
    change (iter al x) x = .error .value := by
  unfold change
  refine norm_bad (i := i) ?_
  have : iter al x i = .nan := by
    unfold iter
    rw [h, Fl.nan_div]
  rw [this, Fl.nan_sub]
  rfl

theorem loop_noWin (hA : ∀ i j, 0 ≤ A i j) (hM : M < 10 ^ 8) {i : Fin M} (hw : wins A i = 0) :
    Loop (mat A) (start M) (.error .value) := by
  have hM0 : M ≠ 0 := fun h => by subst h; exact i.elim0
  have hMp : (0 : ℝ) < M := Nat.cast_pos.mpr (Nat.pos_of_ne_zero hM0)
  have hii : A i i = 0 := by
    have := (Finset.sum_eq_zero_iff_of_nonneg (fun j _ => hA i j)).mp hw i (Finset.mem_univ i)
    exact this
  have hw0 : ∀ k, 0 ≤ wins A k := fun k => Finset.sum_nonneg fun j _ => hA k j
  set p0 : Fin M → ℝ := fun _ => 1 / M with hp0
  have hp : PosProb p0 := start_posProb hM0
  have hden : ∀ k, Np.sum (List.ofFn fun j => games (mat A) k j / pairSum (vec p0) k j) = .fin (den A p0 k) :=
    den_fl (fun i j => (add_pos (hp.pos i) (hp.pos j)).ne')
  have hst : start M = vec p0 := start_vec hM0
  rw [hst]
  have hrat : ∀ k, ratio (mat A) (vec p0) k = .fin (wins A k) / .fin (den A p0 k) := by
    intro k
    unfold ratio
    rw [wins_fl, hden]
  have hden0 : ∀ k, 0 ≤ den A p0 k := fun k => Finset.sum_nonneg fun j _ =>
    div_nonneg (BtMath.games_nonneg hA k j) (add_pos (hp.pos k) (hp.pos j)).le
  by_cases hz : ∃ k, den A p0 k = 0
  · obtain ⟨k, hk⟩ := hz
    have hwk : wins A k = 0 := by
      have hg := (Finset.sum_eq_zero_iff_of_nonneg (fun j _ =>
        div_nonneg (BtMath.games_nonneg hA k j) (add_pos (hp.pos k) (hp.pos j)).le)).mp hk
      refine Finset.sum_eq_zero fun j hj => ?_
      have h1 := hg j hj
      have h2 : p0 k + p0 j ≠ 0 := (add_pos (hp.pos k) (hp.pos j)).ne'
      rw [div_eq_zero_iff] at h1
      have h3 := h1.resolve_right h2
      unfold Spec.BT.games at h3
      have := hA k j
      have := hA j k
      linarith
    have hn : ratio (mat A) (vec p0) k = .nan := by
      rw [hrat, hwk, hk, Fl.zero_div_zero]
    exact Loop.fail (change_nan hn)
  · have hdp : ∀ k, 0 < den A p0 k := fun k => lt_of_le_of_ne (hden0 k) fun he => hz ⟨k, he.symm⟩
    have hrat' : ratio (mat A) (vec p0) = vec (update A p0) := by
      funext k
      rw [hrat, Fl.fin_div (hdp k).ne']
      rfl
    have hZ : 0 < ∑ k, update A p0 k := by
      -- somebody played against `i`, and somebody won that comparison
      have hd := hdp i
      obtain ⟨j, -, hj⟩ := Finset.exists_lt_of_sum_lt (s := Finset.univ) (f := fun _ => (0 : ℝ))
        (g := fun j => Spec.BT.games A i j / (p0 i + p0 j)) (by rw [Finset.sum_const_zero]; exact hd)
      have hg : 0 < Spec.BT.games A i j := by
        by_contra hc
        have h0 : Spec.BT.games A i j = 0 := le_antisymm (not_lt.mp hc) (BtMath.games_nonneg hA i j)
        rw [h0, zero_div] at hj
        exact lt_irrefl _ hj
      have hij : A i j = 0 := by
        have := (Finset.sum_eq_zero_iff_of_nonneg (fun j _ => hA i j)).mp hw j (Finset.mem_univ j)
        exact this
      have hji : 0 < A j i := by
        unfold Spec.BT.games at hg
        linarith
      have hwj : 0 < wins A j := lt_of_lt_of_le hji
        (Finset.single_le_sum (f := fun k => A j k) (fun k _ => hA j k) (Finset.mem_univ i))
      refine Finset.sum_pos' (fun k _ => div_nonneg (hw0 k) (hden0 k)) ⟨j, Finset.mem_univ j, div_pos hwj (hdp j)⟩
    have hit : iter (mat A) (vec p0) = vec (next A p0) := by
      funext k
      unfold iter
      rw [hrat']
      have : Np.sum (List.ofFn (vec (update A p0))) = .fin (∑ k, update A p0 k) := sum_vec _
      rw [this]
      unfold vec
      rw [Fl.fin_div hZ.ne']
      rfl
    have hni : next A p0 i = 0 := by
      unfold next update
      rw [hw, zero_div, zero_div]
    have hch := change_fl p0 (next A p0)
    rw [← hit] at hch
    have hbig : 1 / 10 ^ 8 < Real.sqrt (∑ k, (next A p0 k - p0 k) ^ 2) := by
      have h1 : (1 / (M : ℝ)) ^ 2 ≤ ∑ k, (next A p0 k - p0 k) ^ 2 := by
        have := Finset.single_le_sum (f := fun k => (next A p0 k - p0 k) ^ 2) (fun k _ => sq_nonneg _) (Finset.mem_univ i)
        rw [hni, zero_sub, neg_sq] at this
        exact this
      have h2 : 1 / (M : ℝ) ≤ Real.sqrt (∑ k, (next A p0 k - p0 k) ^ 2) := Real.le_sqrt_of_sq_le h1
      refine lt_of_lt_of_le ?_ h2
      have h3 : (M : ℝ) < 10 ^ 8 := by exact_mod_cast hM
      exact one_div_lt_one_div_of_lt hMp h3
    have hnan : ratio (mat A) (iter (mat A) (vec p0)) i = .nan := by
      rw [hit]
      unfold ratio
      have : Np.sum (List.ofFn fun j => games (mat A) i j / pairSum (vec (next A p0)) i j) = .nan := by
        apply sum_of_nan_mem
        rw [List.mem_ofFn]
        refine ⟨i, ?_⟩
        unfold games pairSum mat vec
        rw [hii, hni, Fl.fin_add, add_zero, Fl.zero_div_zero]
      rw [this, Fl.div_nan]
    have hc2 := change_nan hnan
    refine Loop.next hch ?_ (Loop.fail hc2)
    rw [thr_fl, Fl.lt_fin, decide_eq_true_iff]
    exact hbig

end Sureal.Bt
