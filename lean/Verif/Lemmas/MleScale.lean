import Verif.Lemmas.MleSym
/-! Changing the unit of the votes commutes with the MLE models. -/
set_option linter.unusedSectionVars false
namespace Sureal.Mle
open Sureal Spec
variable {E S R C : ℕ}

/-! ### quantities of a degree -/

theorem infMul_pos {b : Bool} {l : ℝ} (h : 0 < l) : Fl.infMul b l = if b then Fl.pinf else Fl.ninf := by
  unfold Fl.infMul; rw [if_pos h]

theorem fin_mul_pinf {l : ℝ} (h : 0 < l) : (.fin l : Fl ℝ) * .pinf = .pinf := infMul_pos (b := true) h
theorem fin_mul_ninf {l : ℝ} (h : 0 < l) : (.fin l : Fl ℝ) * .ninf = .ninf := infMul_pos (b := false) h

theorem infMul_mul (b : Bool) {l x : ℝ} (h : 0 < l) : Fl.infMul b (l * x) = Fl.infMul b x := by
  unfold Fl.infMul
  by_cases h1 : 0 < x
  · rw [if_pos (mul_pos h h1), if_pos h1]
  · by_cases h2 : x < 0
    · rw [if_neg (not_lt.mpr (mul_nonpos_of_nonneg_of_nonpos h.le (not_lt.mp h1))), if_neg h1, if_pos (mul_neg_of_pos_of_neg h h2), if_pos h2]
    · have : x = 0 := le_antisymm (not_lt.mp h1) (not_lt.mp h2)
      subst this
      simp

theorem fl_mul_infMul (b : Bool) {l x : ℝ} (h : 0 < l) : (.fin l : Fl ℝ) * Fl.infMul b x = Fl.infMul b x := by
  unfold Fl.infMul
  cases b <;> (split; · simp [fin_mul_pinf h, fin_mul_ninf h]) <;> (split <;> simp [fin_mul_pinf h, fin_mul_ninf h])

variable {l : ℝ}

/-- `a'` is the value of a quantity of degree `k` after the unit has changed by the factor `l`, `a` its value before -/
def Sc (l : ℝ) (k : ℤ) (a' a : Fl ℝ) : Prop := a' = .fin (l ^ k) * a

theorem Sc.zero (h : 0 < l) (a : Fl ℝ) : Sc l 0 a a := by
  unfold Sc
  rw [zpow_zero]
  cases a
  · rfl
  · exact (fin_mul_pinf one_pos).symm
  · exact (fin_mul_ninf one_pos).symm
  · rw [Fl.fin_mul, one_mul]

theorem Sc.of_zero (k : ℤ) : Sc l k 0 0 := by
  unfold Sc
  rw [Fl.zero_def, Fl.fin_mul, mul_zero]

theorem Sc.cast {k j : ℤ} {a' a : Fl ℝ} (h : Sc l k a' a) (e : k = j) : Sc l j a' a := e ▸ h

theorem Sc.isNan (h : 0 < l) {k : ℤ} {a' a : Fl ℝ} (ha : Sc l k a' a) : a'.isNan = a.isNan := by
  have hk : 0 < l ^ k := zpow_pos h k
  rw [ha]
  cases a
  · rfl
  · rw [fin_mul_pinf hk]
  · rw [fin_mul_ninf hk]
  · rfl

theorem Sc.isFinite (h : 0 < l) {k : ℤ} {a' a : Fl ℝ} (ha : Sc l k a' a) : a'.isFinite = a.isFinite := by
  have hk : 0 < l ^ k := zpow_pos h k
  rw [ha]
  cases a
  · rfl
  · rw [fin_mul_pinf hk]
  · rw [fin_mul_ninf hk]
  · rfl

theorem Sc.add (h : 0 < l) {k : ℤ} {a' a b' b : Fl ℝ} (ha : Sc l k a' a) (hb : Sc l k b' b) : Sc l k (a' + b') (a + b) := by
  have hk : 0 < l ^ k := zpow_pos h k
  have hp := fin_mul_pinf hk
  have hn := fin_mul_ninf hk
  unfold Sc at *
  rw [ha, hb]
  cases a <;> cases b
  case fin.fin => simp only [Fl.fin_mul, Fl.fin_add, mul_add]
  all_goals first | simp | skip
  · rw [hp]; exact hp.symm
  · rw [hp, hn]; rfl
  · rw [hp]; exact hp.symm
  · rw [hp, hn]; rfl
  · rw [hn]; exact hn.symm
  · rw [hn]; exact hn.symm
  · rw [hp]; exact hp.symm
  · rw [hn]; exact hn.symm

theorem Sc.neg (h : 0 < l) {k : ℤ} {a' a : Fl ℝ} (ha : Sc l k a' a) : Sc l k (-a') (-a) := by
  have hk : 0 < l ^ k := zpow_pos h k
  have hp := fin_mul_pinf hk
  have hn := fin_mul_ninf hk
  unfold Sc at *
  rw [ha]
  cases a
  · rfl
  · rw [hp]; exact hn.symm
  · rw [hn]; exact hp.symm
  · simp only [Fl.fin_mul, Fl.fin_neg, mul_neg]

theorem fl_sub_eq (a b : Fl ℝ) : a - b = a + -b := by
  cases a <;> cases b <;> first | rfl | (rw [Fl.fin_sub, Fl.fin_neg, Fl.fin_add, sub_eq_add_neg])

theorem Sc.sub (h : 0 < l) {k : ℤ} {a' a b' b : Fl ℝ} (ha : Sc l k a' a) (hb : Sc l k b' b) : Sc l k (a' - b') (a - b) := by
  rw [fl_sub_eq, fl_sub_eq]; exact ha.add h (hb.neg h)

theorem Sc.mul (h : 0 < l) {k j : ℤ} {a' a b' b : Fl ℝ} (ha : Sc l k a' a) (hb : Sc l j b' b) : Sc l (k + j) (a' * b') (a * b) := by
  have hk : 0 < l ^ k := zpow_pos h k
  have hj : 0 < l ^ j := zpow_pos h j
  have hkj : 0 < l ^ (k + j) := zpow_pos h _
  unfold Sc at *
  rw [ha, hb]
  cases a <;> cases b
  case fin.fin x y => simp only [Fl.fin_mul, zpow_add₀ h.ne']; congr 1; ring
  all_goals first | simp | skip
  · rw [fin_mul_pinf hk, fin_mul_pinf hj]; exact (fin_mul_pinf hkj).symm
  · rw [fin_mul_pinf hk, fin_mul_ninf hj]; exact (fin_mul_ninf hkj).symm
  case pinf.fin y =>
    rw [fin_mul_pinf hk]
    show Fl.infMul true (l ^ j * y) = Fl.fin (l ^ (k + j)) * Fl.infMul true y
    rw [infMul_mul _ hj, fl_mul_infMul _ hkj]
  · rw [fin_mul_ninf hk, fin_mul_pinf hj]; exact (fin_mul_ninf hkj).symm
  · rw [fin_mul_ninf hk, fin_mul_ninf hj]; exact (fin_mul_pinf hkj).symm
  case ninf.fin y =>
    rw [fin_mul_ninf hk]
    show Fl.infMul false (l ^ j * y) = Fl.fin (l ^ (k + j)) * Fl.infMul false y
    rw [infMul_mul _ hj, fl_mul_infMul _ hkj]
  case fin.pinf y =>
    rw [fin_mul_pinf hj]
    show Fl.infMul true (l ^ k * y) = Fl.fin (l ^ (k + j)) * Fl.infMul true y
    rw [infMul_mul _ hk, fl_mul_infMul _ hkj]
  case fin.ninf y =>
    rw [fin_mul_ninf hj]
    show Fl.infMul false (l ^ k * y) = Fl.fin (l ^ (k + j)) * Fl.infMul false y
    rw [infMul_mul _ hk, fl_mul_infMul _ hkj]

theorem Sc.div (h : 0 < l) {k j : ℤ} {a' a b' b : Fl ℝ} (ha : Sc l k a' a) (hb : Sc l j b' b) : Sc l (k - j) (a' / b') (a / b) := by
  have hk : 0 < l ^ k := zpow_pos h k
  have hj : 0 < l ^ j := zpow_pos h j
  have hkj : 0 < l ^ (k - j) := zpow_pos h _
  have hneg : ∀ {m y : ℝ}, 0 < m → (m * y < 0 ↔ y < 0) := fun hm =>
    ⟨fun hy => by by_contra hy'; exact absurd hy (not_lt.mpr (mul_nonneg hm.le (not_lt.mp hy'))), mul_neg_of_pos_of_neg hm⟩
  have hpos : ∀ {m y : ℝ}, 0 < m → (0 < m * y ↔ 0 < y) := fun hm => mul_pos_iff_of_pos_left hm
  unfold Sc at *
  rw [ha, hb]
  cases a <;> cases b
  case fin.fin x y =>
    rw [Fl.fin_mul, Fl.fin_mul]
    by_cases hy : y = 0
    · subst hy
      rw [mul_zero]
      rcases lt_trichotomy x 0 with hx | hx | hx
      · rw [Fl.fin_div_zero_neg ((hneg hk).mpr hx), Fl.fin_div_zero_neg hx, fin_mul_ninf hkj]
      · subst hx; rw [mul_zero, Fl.zero_div_zero, Fl.mul_nan]
      · rw [Fl.fin_div_zero_pos ((hpos hk).mpr hx), Fl.fin_div_zero_pos hx, fin_mul_pinf hkj]
    · rw [Fl.fin_div hy, Fl.fin_div (mul_ne_zero hj.ne' hy), Fl.fin_mul, zpow_sub₀ h.ne']
      congr 1
      field_simp
  all_goals first | simp | skip
  · rw [fin_mul_pinf hk, fin_mul_pinf hj]; rfl
  · rw [fin_mul_pinf hk, fin_mul_ninf hj]; rfl
  case pinf.fin y =>
    rw [fin_mul_pinf hk]
    show (if l ^ j * y < 0 then Fl.ninf else Fl.pinf) = Fl.fin (l ^ (k - j)) * (if y < 0 then Fl.ninf else Fl.pinf)
    simp only [hneg hj]
    split
    · rw [fin_mul_ninf hkj]
    · rw [fin_mul_pinf hkj]
  · rw [fin_mul_ninf hk, fin_mul_pinf hj]; rfl
  · rw [fin_mul_ninf hk, fin_mul_ninf hj]; rfl
  case ninf.fin y =>
    rw [fin_mul_ninf hk]
    show (if l ^ j * y < 0 then Fl.pinf else Fl.ninf) = Fl.fin (l ^ (k - j)) * (if y < 0 then Fl.pinf else Fl.ninf)
    simp only [hneg hj]
    split
    · rw [fin_mul_pinf hkj]
    · rw [fin_mul_ninf hkj]
  case fin.pinf y =>
    rw [fin_mul_pinf hj]
    show Fl.fin (0 : ℝ) = Fl.fin (l ^ (k - j)) * Fl.fin 0
    rw [Fl.fin_mul, mul_zero]
  case fin.ninf y =>
    rw [fin_mul_ninf hj]
    show Fl.fin (0 : ℝ) = Fl.fin (l ^ (k - j)) * Fl.fin 0
    rw [Fl.fin_mul, mul_zero]

theorem Sc.sq (h : 0 < l) {k : ℤ} {a' a : Fl ℝ} (ha : Sc l k a' a) : Sc l (k + k) a'.sq a.sq := ha.mul h ha

theorem Sc.le (h : 0 < l) {k : ℤ} {a' a b' b : Fl ℝ} (ha : Sc l k a' a) (hb : Sc l k b' b) : a'.le b' = a.le b := by
  have hk : 0 < l ^ k := zpow_pos h k
  have hp := fin_mul_pinf hk
  have hn := fin_mul_ninf hk
  unfold Sc at *
  rw [ha, hb]
  cases a <;> cases b <;> simp only [hp, hn, Fl.mul_nan, Fl.fin_mul]
  case fin.fin x y => simp only [Fl.le_fin, mul_le_mul_iff_right₀ hk]
  all_goals rfl

theorem Sc.lt (h : 0 < l) {k : ℤ} {a' a b' b : Fl ℝ} (ha : Sc l k a' a) (hb : Sc l k b' b) : a'.lt b' = a.lt b := by
  have hk : 0 < l ^ k := zpow_pos h k
  have hp := fin_mul_pinf hk
  have hn := fin_mul_ninf hk
  unfold Sc at *
  rw [ha, hb]
  cases a <;> cases b <;> simp only [hp, hn, Fl.mul_nan, Fl.fin_mul]
  case fin.fin x y => simp only [Fl.lt_fin, mul_lt_mul_iff_right₀ hk]
  all_goals rfl

theorem Sc.maximum (h : 0 < l) {k : ℤ} {a' a b' b : Fl ℝ} (ha : Sc l k a' a) (hb : Sc l k b' b) :
    Sc l k (Fl.maximum a' b') (Fl.maximum a b) := by
  unfold Fl.maximum
  rw [ha.isNan h, hb.isNan h, ha.le h hb]
  split
  · unfold Sc; rw [Fl.mul_nan]
  · split
    · unfold Sc; rw [Fl.mul_nan]
    · split <;> assumption

theorem Sc.sqrt (h : 0 < l) {k : ℤ} {a' a : Fl ℝ} (ha : Sc l (k + k) a' a) : Sc l k a'.sqrt a.sqrt := by
  have hk : 0 < l ^ k := zpow_pos h k
  have hkk : 0 < l ^ (k + k) := zpow_pos h _
  unfold Sc at *
  rw [ha]
  cases a
  · rfl
  · rw [fin_mul_pinf hkk]; exact (fin_mul_pinf hk).symm
  · rw [fin_mul_ninf hkk]; rfl
  case fin x =>
    rw [Fl.fin_mul]
    by_cases hx : 0 ≤ x
    · rw [Fl.sqrt_fin (mul_nonneg hkk.le hx), Fl.sqrt_fin hx, Fl.fin_mul]
      show Fl.fin (Real.sqrt _) = Fl.fin (_ * Real.sqrt x)
      rw [Real.sqrt_mul hkk.le, zpow_add₀ h.ne', Real.sqrt_mul_self hk.le]
    · have hx' : l ^ (k + k) * x < 0 := mul_neg_of_pos_of_neg hkk (not_le.mp hx)
      have e1 : ∀ y : ℝ, y < 0 → (Fl.fin y).sqrt = .nan := by
        intro y hy
        unfold Fl.sqrt
        simp [hy]
      rw [e1 _ hx', e1 _ (not_le.mp hx)]
      rfl

/-! ### lists -/

/-- the list after the change of unit -/
noncomputable def scL (l : ℝ) (k : ℤ) (xs : List (Fl ℝ)) : List (Fl ℝ) := xs.map fun x => .fin (l ^ k) * x

theorem sum_sc (h : 0 < l) (k : ℤ) (xs : List (Fl ℝ)) : Sc l k (Np.sum (scL l k xs)) (Np.sum xs) := by
  unfold Np.sum scL
  induction xs with
  | nil => exact Sc.of_zero k
  | cons x xs ih => rw [List.map_cons, List.sum_cons, List.sum_cons]; exact Sc.add h rfl ih

theorem notNan_sc (h : 0 < l) (k : ℤ) (xs : List (Fl ℝ)) : Np.notNan (scL l k xs) = scL l k (Np.notNan xs) := by
  unfold Np.notNan scL
  rw [List.filter_map]
  congr 1
  apply List.filter_congr
  intro x _
  show (!(_ : Bool)) = _
  rw [Sc.isNan h (k := k) (a := x) rfl]

theorem nansum_sc (h : 0 < l) (k : ℤ) (xs : List (Fl ℝ)) : Sc l k (Np.nansum (scL l k xs)) (Np.nansum xs) := by
  unfold Np.nansum
  rw [notNan_sc h]
  exact sum_sc h k _

theorem count_sc (h : 0 < l) (k : ℤ) (xs : List (Fl ℝ)) : Np.countNotNan (scL l k xs) = Np.countNotNan xs := by
  unfold Np.countNotNan
  rw [notNan_sc h]
  simp [scL]

theorem nanmean_sc (h : 0 < l) (k : ℤ) (xs : List (Fl ℝ)) : Sc l k (Np.nanmean (scL l k xs)) (Np.nanmean xs) := by
  unfold Np.nanmean
  rw [count_sc h]
  exact ((nansum_sc h k xs).div h (Sc.zero h _)).cast (sub_zero k)

theorem mean_sc (h : 0 < l) (k : ℤ) (xs : List (Fl ℝ)) : Sc l k (Np.mean (scL l k xs)) (Np.mean xs) := by
  unfold Np.mean
  rw [show (scL l k xs).length = xs.length by simp [scL]]
  exact ((sum_sc h k xs).div h (Sc.zero h _)).cast (sub_zero k)

theorem nanstd_sc (h : 0 < l) (xs : List (Fl ℝ)) (n : ℕ) : Sc l 1 (Np.nanstd n (scL l 1 xs)) (Np.nanstd n xs) := by
  unfold Np.nanstd
  apply Sc.sqrt h
  unfold Np.nanvar
  rw [count_sc h]
  split
  · unfold Sc; rw [Fl.mul_nan]
  · refine (Sc.div h (k := 1 + 1) (j := 0) ?_ (Sc.zero h _)).cast (sub_zero _)
    have : ((Np.notNan (scL l 1 xs)).map fun x => (x - Np.nanmean (scL l 1 xs)).sq) =
        scL l (1 + 1) ((Np.notNan xs).map fun x => (x - Np.nanmean xs).sq) := by
      rw [notNan_sc h]
      unfold scL
      rw [List.map_map, List.map_map]
      apply List.map_congr_left
      intro x _
      exact (Sc.sub h (k := 1) (a' := Fl.fin (l ^ (1 : ℤ)) * x) (a := x) rfl (nanmean_sc h 1 xs)).sq h
    rw [this]
    exact sum_sc h _ _

/-! ### sums over cells -/

theorem sumE_sc (h : 0 < l) {k : ℤ} {f' f : Arr3 (Fl ℝ) E S R} (hf : ∀ e s r, Sc l k (f' e s r) (f e s r)) (s : Fin S) :
    Sc l k (sumE f' s) (sumE f s) := by
  have : colL (stack0 f') s = scL l k (colL (stack0 f) s) := by
    rw [colL_stack0, colL_stack0]
    unfold scL
    rw [List.map_flatten, List.map_ofFn]
    congr 2
    funext r
    show _ = List.map _ _
    rw [List.map_ofFn]
    congr 1
    funext e
    exact hf e s r
  unfold sumE
  rw [this]
  exact nansum_sc h k _

theorem sumS_sc (h : 0 < l) {k : ℤ} {f' f : Arr3 (Fl ℝ) E S R} (hf : ∀ e s r, Sc l k (f' e s r) (f e s r)) (e : Fin E) :
    Sc l k (sumS f' e) (sumS f e) := by
  have : rowL (stack1 f') e = scL l k (rowL (stack1 f) e) := by
    rw [rowL_stack1, rowL_stack1]
    unfold scL
    rw [List.map_flatten, List.map_ofFn]
    congr 2
    funext r
    show _ = List.map _ _
    rw [List.map_ofFn]
    congr 1
    funext s
    exact hf e s r
  unfold sumS
  rw [this]
  exact nansum_sc h k _

theorem sumContent_sc (h : 0 < l) {k : ℤ} (cid : Fin E → Fin C) {xs' xs : Arr1 (Fl ℝ) E} (hf : ∀ e, Sc l k (xs' e) (xs e)) (c : Fin C) :
    Sc l k (sumContent cid xs' c) (sumContent cid xs c) := by
  rw [sumContent_foldl, sumContent_foldl]
  have key : ∀ (m : List (Fin E)) (t' t : Fl ℝ), Sc l k t' t →
      Sc l k (m.foldl (fun t e => if c = cid e then t + xs' e else t) t') (m.foldl (fun t e => if c = cid e then t + xs e else t) t) := by
    intro m
    induction m with
    | nil => intro t' t ht; exact ht
    | cons e m ih =>
      intro t' t ht
      rw [List.foldl_cons, List.foldl_cons]
      apply ih
      split
      · exact ht.add h (hf e)
      · exact ht
  exact key _ _ _ (Sc.of_zero k)

/-! ### cells -/

theorem vadd_sc (h : 0 < l) {v' v a' a : Fl ℝ} (hv : Sc l 1 v' v) (ha : Sc l 1 a' a) : Sc l 2 (vadd v' a') (vadd v a) :=
  (hv.sq h).add h (ha.sq h)

theorem vsub_sc (h : 0 < l) {v' v a' a : Fl ℝ} (hv : Sc l 1 v' v) (ha : Sc l 1 a' a) : Sc l 2 (vsub v' a') (vsub v a) :=
  (hv.sq h).sub h (ha.sq h)

theorem vFirst_sc (h : 0 < l) {r' r v' v a' a : Fl ℝ} (hr : Sc l 1 r' r) (hv : Sc l 1 v' v) (ha : Sc l 1 a' a) :
    Sc l (-1) (vFirst r' v' a') (vFirst r v a) :=
  ((hv.neg h).div h (vadd_sc h hv ha)).add h (((hv.mul h (hr.sq h)).div h ((vadd_sc h hv ha).sq h)).cast (by norm_num))

theorem vSecond_sc (h : 0 < l) {r' r v' v a' a : Fl ℝ} (hr : Sc l 1 r' r) (hv : Sc l 1 v' v) (ha : Sc l 1 a' a) :
    Sc l (-2) (vSecond r' v' a') (vSecond r v a) := by
  have h4 : Sc l 4 (a'.sq.sq - ((3 : ℕ) : Fl ℝ) * v'.sq.sq - ((2 : ℕ) : Fl ℝ) * v'.sq * a'.sq)
      (a.sq.sq - ((3 : ℕ) : Fl ℝ) * v.sq.sq - ((2 : ℕ) : Fl ℝ) * v.sq * a.sq) :=
    (((ha.sq h).sq h).sub h (((Sc.zero h _).mul h ((hv.sq h).sq h)).cast (by norm_num))).sub h
      ((((Sc.zero h _).mul h (hv.sq h)).mul h (ha.sq h)).cast (by norm_num))
  exact (((vsub_sc h hv ha).div h ((vadd_sc h hv ha).sq h)).cast (by norm_num)).add h
    ((((hr.sq h).mul h h4).div h (((vadd_sc h hv ha).sq h).sq h)).cast (by norm_num))

theorem aFirst_sc (h : 0 < l) {r' r v' v a' a : Fl ℝ} (hr : Sc l 1 r' r) (hv : Sc l 1 v' v) (ha : Sc l 1 a' a) :
    Sc l (-1) (aFirst r' v' a') (aFirst r v a) :=
  ((ha.neg h).div h (vadd_sc h hv ha)).add h (((ha.mul h (hr.sq h)).div h ((vadd_sc h hv ha).sq h)).cast (by norm_num))

theorem aSecond_sc (h : 0 < l) {r' r v' v a' a : Fl ℝ} (hr : Sc l 1 r' r) (hv : Sc l 1 v' v) (ha : Sc l 1 a' a) :
    Sc l (-2) (aSecond r' v' a') (aSecond r v a) := by
  have h4 : Sc l 4 (v'.sq.sq - ((3 : ℕ) : Fl ℝ) * a'.sq.sq - ((2 : ℕ) : Fl ℝ) * v'.sq * a'.sq)
      (v.sq.sq - ((3 : ℕ) : Fl ℝ) * a.sq.sq - ((2 : ℕ) : Fl ℝ) * v.sq * a.sq) :=
    (((hv.sq h).sq h).sub h (((Sc.zero h _).mul h ((ha.sq h).sq h)).cast (by norm_num))).sub h
      ((((Sc.zero h _).mul h (hv.sq h)).mul h (ha.sq h)).cast (by norm_num))
  exact ((((vsub_sc h hv ha).neg h).div h ((vadd_sc h hv ha).sq h)).cast (by norm_num)).add h
    ((((hr.sq h).mul h h4).div h (((vadd_sc h hv ha).sq h).sq h)).cast (by norm_num))

theorem refresh_sc (h : 0 < l) {k : ℤ} {a' a b' b : Fl ℝ} (ha : Sc l k a' a) (hb : Sc l k b' b) : Sc l k (refresh a' b') (refresh a b) :=
  ((ha.mul h (Sc.zero h _)).cast (add_zero k)).add h ((hb.mul h (Sc.zero h _)).cast (add_zero k))

theorem stdOf_sc (h : 0 < l) {a' a : Fl ℝ} (ha : Sc l (-2) a' a) : Sc l 1 (stdOf a') (stdOf a) :=
  ((Sc.zero h 1).div h (Sc.sqrt h (k := -1) ((Sc.of_zero (-2)).maximum h ha))).cast (by norm_num)

theorem oneOrNan_sc (h : 0 < l) {k : ℤ} {a' a : Fl ℝ} (ha : Sc l k a' a) : oneOrNan a' = oneOrNan a := by
  unfold oneOrNan
  rw [ha.isNan h]

/-! ### the action -/

/-- the votes in the new unit -/
noncomputable def scD (l : ℝ) (d : Data ℝ E S R C) : Data ℝ E S R C := ⟨fun e s r => .fin (l ^ (1 : ℤ)) * d.x e s r, d.cid⟩

/-- an array in the new unit -/
noncomputable def sc1 (l : ℝ) {n : ℕ} (f : Arr1 (Fl ℝ) n) : Arr1 (Fl ℝ) n := fun i => .fin (l ^ (1 : ℤ)) * f i

/-- the parameters in the new unit -/
noncomputable def scP (l : ℝ) (p : Params ℝ E S C) : Params ℝ E S C := ⟨sc1 l p.x, sc1 l p.b, sc1 l p.v, sc1 l p.a⟩

/-- the standard deviations in the new unit -/
noncomputable def scS (l : ℝ) (p : Stds ℝ E S C) : Stds ℝ E S C := ⟨sc1 l p.x, sc1 l p.b, sc1 l p.v, sc1 l p.a⟩

/-- both in the new unit -/
noncomputable def scPair (l : ℝ) {n : ℕ} (q : Arr1 (Fl ℝ) n × Arr1 (Fl ℝ) n) : Arr1 (Fl ℝ) n × Arr1 (Fl ℝ) n := (sc1 l q.1, sc1 l q.2)

variable (h : 0 < l) (d : Data ℝ E S R C) (p : Params ℝ E S C)
include h

theorem weight_sc (e s) : Sc l 2 (vadd ((scP l p).v s) ((scP l p).a (d.cid e))) (vadd (p.v s) (p.a (d.cid e))) := vadd_sc h rfl rfl

theorem resid_sc (e s r) : Sc l 1 (resid (scD l d) (scP l p) e s r) (resid d p e s r) :=
  (Sc.sub h (k := 1) rfl rfl).sub h rfl

theorem bSimplified_sc : bSimplified (scD l d) (scP l p) = scPair l (bSimplified d p) := by
  have h1 := sumE_sc h (f' := fun e s r => ((scD l d).x e s r - (scP l p).x e) / vadd ((scP l p).v s) ((scP l p).a (d.cid e)))
    (f := fun e s r => (d.x e s r - p.x e) / vadd (p.v s) (p.a (d.cid e))) (k := -1)
    fun e s r => ((Sc.sub h (k := 1) rfl rfl).div h (weight_sc h d p e s))
  have h2 := sumE_sc h (f' := fun e s r => oneOrNan ((scD l d).x e s r) / vadd ((scP l p).v s) ((scP l p).a (d.cid e)))
    (f := fun e s r => oneOrNan (d.x e s r) / vadd (p.v s) (p.a (d.cid e))) (k := -2)
    fun e s r => by
      rw [oneOrNan_sc h (k := 1) (a' := (scD l d).x e s r) (a := d.x e s r) rfl]
      exact ((Sc.zero h _).div h (weight_sc h d p e s))
  refine Prod.ext (funext fun s => ?_) (funext fun s => ?_)
  · exact refresh_sc h rfl (((h1 s).div h (h2 s)).cast (by norm_num))
  · exact stdOf_sc h (h2 s)

theorem bOriginal_sc : bOriginal (scD l d) (scP l p) = scPair l (bOriginal d p) := by
  have h1 := sumE_sc h (f' := fun e s r => ((scD l d).x e s r - (scP l p).x e - (scP l p).b s) / vadd ((scP l p).v s) ((scP l p).a (d.cid e)))
    (f := fun e s r => (d.x e s r - p.x e - p.b s) / vadd (p.v s) (p.a (d.cid e))) (k := -1)
    fun e s r => ((resid_sc h d p e s r).div h (weight_sc h d p e s))
  have h2 := sumE_sc h (f' := fun e s r => (-oneOrNan ((scD l d).x e s r)) / vadd ((scP l p).v s) ((scP l p).a (d.cid e)))
    (f := fun e s r => (-oneOrNan (d.x e s r)) / vadd (p.v s) (p.a (d.cid e))) (k := -2)
    fun e s r => by
      rw [oneOrNan_sc h (k := 1) (a' := (scD l d).x e s r) (a := d.x e s r) rfl]
      exact ((Sc.zero h _).div h (weight_sc h d p e s))
  refine Prod.ext (funext fun s => ?_) (funext fun s => ?_)
  · exact refresh_sc h rfl (Sc.sub h rfl (((h1 s).div h (h2 s)).cast (by norm_num)))
  · exact stdOf_sc h ((h2 s).neg h)

theorem vSimplified_sc : vSimplified (scD l d) (scP l p) = scPair l (vSimplified d p) := by
  have h1 := sumE_sc h (f' := fun e s r => vFirst (resid (scD l d) (scP l p) e s r) ((scP l p).v s) ((scP l p).a (d.cid e)))
    (f := fun e s r => vFirst (resid d p e s r) (p.v s) (p.a (d.cid e)))
    fun e s r => vFirst_sc h (resid_sc h d p e s r) rfl rfl
  have h2 := sumE_sc h (f' := fun e s r => vSecond (resid (scD l d) (scP l p) e s r) ((scP l p).v s) ((scP l p).a (d.cid e)))
    (f := fun e s r => vSecond (resid d p e s r) (p.v s) (p.a (d.cid e)))
    fun e s r => vSecond_sc h (resid_sc h d p e s r) rfl rfl
  refine Prod.ext (funext fun s => ?_) (funext fun s => ?_)
  · exact refresh_sc h rfl (Sc.sub h rfl (((h1 s).div h (h2 s)).cast (by norm_num)))
  · exact stdOf_sc h ((h2 s).neg h)

theorem aSimplified_sc : aSimplified (scD l d) (scP l p) = scPair l (aSimplified d p) := by
  have h1 := sumContent_sc h d.cid <| sumS_sc h (f' := fun e s r => aFirst (resid (scD l d) (scP l p) e s r) ((scP l p).v s) ((scP l p).a (d.cid e)))
    (f := fun e s r => aFirst (resid d p e s r) (p.v s) (p.a (d.cid e)))
    fun e s r => aFirst_sc h (resid_sc h d p e s r) rfl rfl
  have h2 := sumContent_sc h d.cid <| sumS_sc h (f' := fun e s r => aSecond (resid (scD l d) (scP l p) e s r) ((scP l p).v s) ((scP l p).a (d.cid e)))
    (f := fun e s r => aSecond (resid d p e s r) (p.v s) (p.a (d.cid e)))
    fun e s r => aSecond_sc h (resid_sc h d p e s r) rfl rfl
  refine Prod.ext (funext fun s => ?_) (funext fun s => ?_)
  · exact refresh_sc h rfl (Sc.sub h rfl (((h1 s).div h (h2 s)).cast (by norm_num)))
  · exact stdOf_sc h ((h2 s).neg h)

theorem xSimplified_sc : xSimplified (scD l d) (scP l p) = scPair l (xSimplified d p) := by
  have h1 := sumS_sc h (f' := fun e s r => ((scD l d).x e s r - (scP l p).b s) / vadd ((scP l p).v s) ((scP l p).a (d.cid e)))
    (f := fun e s r => (d.x e s r - p.b s) / vadd (p.v s) (p.a (d.cid e))) (k := -1)
    fun e s r => ((Sc.sub h (k := 1) rfl rfl).div h (weight_sc h d p e s))
  have h2 := sumS_sc h (f' := fun e s r => oneOrNan ((scD l d).x e s r) / vadd ((scP l p).v s) ((scP l p).a (d.cid e)))
    (f := fun e s r => oneOrNan (d.x e s r) / vadd (p.v s) (p.a (d.cid e))) (k := -2)
    fun e s r => by
      rw [oneOrNan_sc h (k := 1) (a' := (scD l d).x e s r) (a := d.x e s r) rfl]
      exact ((Sc.zero h _).div h (weight_sc h d p e s))
  refine Prod.ext (funext fun s => ?_) (funext fun s => ?_)
  · exact refresh_sc h rfl (((h1 s).div h (h2 s)).cast (by norm_num))
  · exact stdOf_sc h (h2 s)

theorem xOriginal_sc : xOriginal (scD l d) (scP l p) = scPair l (xOriginal d p) := by
  have h1 := sumS_sc h (f' := fun e s r => resid (scD l d) (scP l p) e s r / vadd ((scP l p).v s) ((scP l p).a (d.cid e)))
    (f := fun e s r => resid d p e s r / vadd (p.v s) (p.a (d.cid e))) (k := -1)
    fun e s r => ((resid_sc h d p e s r).div h (weight_sc h d p e s))
  have h2 := sumS_sc h (f' := fun e s r => (-oneOrNan ((scD l d).x e s r)) / vadd ((scP l p).v s) ((scP l p).a (d.cid e)))
    (f := fun e s r => (-oneOrNan (d.x e s r)) / vadd (p.v s) (p.a (d.cid e))) (k := -2)
    fun e s r => by
      rw [oneOrNan_sc h (k := 1) (a' := (scD l d).x e s r) (a := d.x e s r) rfl]
      exact ((Sc.zero h _).div h (weight_sc h d p e s))
  refine Prod.ext (funext fun s => ?_) (funext fun s => ?_)
  · exact refresh_sc h rfl (Sc.sub h rfl (((h1 s).div h (h2 s)).cast (by norm_num)))
  · exact stdOf_sc h ((h2 s).neg h)

/-! ### one pass, and the loop -/

omit h in
/-- the updates commute with the change of unit -/
structure Scales (l : ℝ) (u : Updates ℝ E S R C) (d : Data ℝ E S R C) : Prop where
  b : ∀ p, u.b (scD l d) (scP l p) = scPair l (u.b d p)
  v : ∀ p, u.v (scD l d) (scP l p) = scPair l (u.v d p)
  a : ∀ p, u.a (scD l d) (scP l p) = scPair l (u.a d p)
  x : ∀ p, u.x (scD l d) (scP l p) = scPair l (u.x d p)

theorem sc1_zero {n : ℕ} : sc1 l (fun _ : Fin n => (0 : Fl ℝ)) = fun _ => 0 := funext fun _ => (Sc.of_zero 1).symm

theorem sc1_max {n : ℕ} (f : Arr1 (Fl ℝ) n) : (fun i => Fl.maximum (sc1 l f i) 0) = sc1 l fun i => Fl.maximum (f i) 0 :=
  funext fun i => Sc.maximum h (k := 1) rfl (Sc.of_zero 1)

theorem step_sc {u : Updates ℝ E S R C} (hu : Scales l u d) (mode : Mode) :
    step mode u (scD l d) (scP l p) = (scP l (step mode u d p).1, scS l (step mode u d p).2) := by
  have hb := hu.b p
  have hv : ∀ B : Fin S → Fl ℝ, u.v (scD l d) { x := (scP l p).x, b := sc1 l B, v := (scP l p).v, a := (scP l p).a } =
      scPair l (u.v d { p with b := B }) := fun B => hu.v { p with b := B }
  have ha : ∀ B V : Fin S → Fl ℝ, u.a (scD l d) { x := (scP l p).x, b := sc1 l B, v := sc1 l V, a := (scP l p).a } =
      scPair l (u.a d { p with b := B, v := V }) := fun B V => hu.a { p with b := B, v := V }
  have hx : ∀ (B V : Fin S → Fl ℝ) (A : Fin C → Fl ℝ), u.x (scD l d) { x := (scP l p).x, b := sc1 l B, v := sc1 l V, a := sc1 l A } =
      scPair l (u.x d { p with b := B, v := V, a := A }) := fun B V A => hu.x { p with b := B, v := V, a := A }
  unfold step
  dsimp only
  rw [hb]
  have e1 : (if mode = .subjectOblivious then (fun _ => 0) else (scPair l (u.b d p)).1) =
      sc1 l (if mode = .subjectOblivious then (fun _ => 0) else (u.b d p).1) := by
    split
    · exact (sc1_zero h).symm
    · rfl
  have e2 : (if mode = .subjectOblivious then (fun _ => 0) else (scPair l (u.b d p)).2) =
      sc1 l (if mode = .subjectOblivious then (fun _ => 0) else (u.b d p).2) := by
    split
    · exact (sc1_zero h).symm
    · rfl
  rw [e1, e2]
  generalize (if mode = .subjectOblivious then (fun _ => (0 : Fl ℝ)) else (u.b d p).1) = B
  rw [hv]
  have e3 : (if mode = .subjectOblivious then (fun _ => 0) else fun s => Fl.maximum ((scPair l (u.v d { p with b := B })).1 s) 0) =
      sc1 l (if mode = .subjectOblivious then (fun _ => 0) else fun s => Fl.maximum ((u.v d { p with b := B }).1 s) 0) := by
    split
    · exact (sc1_zero h).symm
    · exact sc1_max h _
  have e4 : (if mode = .subjectOblivious then (fun _ => 0) else (scPair l (u.v d { p with b := B })).2) =
      sc1 l (if mode = .subjectOblivious then (fun _ => 0) else (u.v d { p with b := B }).2) := by
    split
    · exact (sc1_zero h).symm
    · rfl
  rw [e3, e4]
  generalize (if mode = .subjectOblivious then (fun _ => (0 : Fl ℝ)) else fun s => Fl.maximum ((u.v d { p with b := B }).1 s) 0) = V
  rw [ha]
  have e5 : (if mode = .contentOblivious then (fun _ => 0) else fun s => Fl.maximum ((scPair l (u.a d { p with b := B, v := V })).1 s) 0) =
      sc1 l (if mode = .contentOblivious then (fun _ => 0) else fun s => Fl.maximum ((u.a d { p with b := B, v := V }).1 s) 0) := by
    split
    · exact (sc1_zero h).symm
    · exact sc1_max h _
  have e6 : (if mode = .contentOblivious then (fun _ => 0) else (scPair l (u.a d { p with b := B, v := V })).2) =
      sc1 l (if mode = .contentOblivious then (fun _ => 0) else (u.a d { p with b := B, v := V }).2) := by
    split
    · exact (sc1_zero h).symm
    · rfl
  rw [e5, e6]
  generalize (if mode = .contentOblivious then (fun _ => (0 : Fl ℝ)) else fun s => Fl.maximum ((u.a d { p with b := B, v := V }).1 s) 0) = A
  rw [hx]
  rfl

omit h in
/-- what the loop leaves behind, in the new unit -/
noncomputable def scF (l : ℝ) (f : Fit ℝ E S C) : Fit ℝ E S C := ⟨scP l f.p, scS l f.std, f.itr⟩

theorem norm_sc (xs : List (Fl ℝ)) : Np.linalgNorm (scL l 1 xs) = mapOk (fun y => .fin (l ^ (1 : ℤ)) * y) (Np.linalgNorm xs) := by
  have hall : (scL l 1 xs).all (·.isFinite) = xs.all (·.isFinite) := by
    unfold scL
    rw [List.all_map]
    congr 1
    funext x
    exact Sc.isFinite h (k := 1) rfl
  unfold Np.linalgNorm
  rw [hall]
  split
  · have : (scL l 1 xs).map (·.sq) = scL l (1 + 1) (xs.map (·.sq)) := by
      unfold scL
      rw [List.map_map, List.map_map]
      apply List.map_congr_left
      intro x _
      exact Sc.sq h (k := 1) (a := x) rfl
    rw [this]
    exact congrArg Except.ok (Sc.sqrt h (k := 1) (sum_sc h (1 + 1) _))
  · rfl

theorem loop_sc {u : Updates ℝ E S R C} (hu : Scales l u d) (mode : Mode) (pdf : Option String) (thr : Fl ℝ)
    (n itr : ℕ) (hn : maxItr - itr = n) (p : Params ℝ E S C) :
    loop mode u pdf (.fin (l ^ (1 : ℤ)) * thr) (scD l d) itr (scP l p) = mapOk (scF l) (loop mode u pdf thr d itr p) := by
  have hnorm : ∀ p, Np.linalgNorm (List.ofFn fun e => (scP l p).x e - (scP l (step mode u d p).1).x e) =
      mapOk (fun y => .fin (l ^ (1 : ℤ)) * y) (Np.linalgNorm (List.ofFn fun e => p.x e - (step mode u d p).1.x e)) := by
    intro p
    rw [← norm_sc h]
    unfold scL
    rw [List.map_ofFn]
    congr 2
    funext e
    exact Sc.sub h (k := 1) rfl rfl
  induction n generalizing itr p with
  | zero =>
    rw [loop_unfold mode u pdf _ _ itr (scP l p), loop_unfold mode u pdf thr d itr p, step_sc h d p hu, hnorm]
    cases Np.linalgNorm (List.ofFn fun e => p.x e - (step mode u d p).1.x e) with
    | error e => rfl
    | ok δ =>
      cases density (K := ℝ) pdf R with
      | error e => rfl
      | ok dens =>
        have : maxItr ≤ itr + 1 := by omega
        dsimp only [mapOk]
        rw [Sc.lt h (k := 1) (a := δ) (b := thr) rfl rfl]
        simp only [if_pos this]
        split <;> rfl
  | succ n ih =>
    rw [loop_unfold mode u pdf _ _ itr (scP l p), loop_unfold mode u pdf thr d itr p, step_sc h d p hu, hnorm]
    cases Np.linalgNorm (List.ofFn fun e => p.x e - (step mode u d p).1.x e) with
    | error e => rfl
    | ok δ =>
      cases density (K := ℝ) pdf R with
      | error e => rfl
      | ok dens =>
        dsimp only [mapOk]
        rw [Sc.lt h (k := 1) (a := δ) (b := thr) rfl rfl, ih (itr + 1) (by omega)]
        split
        · rfl
        · split
          · rfl
          · rfl

theorem colL_sc (f : Arr3 (Fl ℝ) E S R) (s : Fin S) : colL (stack0 fun e s r => .fin (l ^ (1 : ℤ)) * f e s r) s = scL l 1 (colL (stack0 f) s) := by
  rw [colL_stack0, colL_stack0]
  unfold scL
  rw [List.map_flatten, List.map_ofFn]
  congr 2
  funext r
  show _ = List.map _ _
  rw [List.map_ofFn]
  rfl

theorem stdContent_sc (cid : Fin E → Fin C) (r : Arr3 (Fl ℝ) E S R) :
    stdContent cid (fun e s t => .fin (l ^ (1 : ℤ)) * r e s t) = sc1 l (stdContent cid r) := by
  funext c
  have : ((List.finRange E).flatMap fun e =>
        if cid e = c then (List.ofFn fun s => List.ofFn fun t => .fin (l ^ (1 : ℤ)) * r e s t).flatten else []) =
      scL l 1 ((List.finRange E).flatMap fun e => if cid e = c then (List.ofFn fun s => List.ofFn fun t => r e s t).flatten else []) := by
    unfold scL
    rw [List.map_flatMap]
    congr 1
    funext e
    split
    · rw [List.map_flatten, List.map_ofFn]
      congr 2
      funext s
      show _ = List.map _ _
      rw [List.map_ofFn]
      rfl
    · rfl
  unfold stdContent
  rw [this]
  exact nanstd_sc h _ 0

theorem init_sc (mode : Mode) (mos : Arr1 (Fl ℝ) E) : init mode (scD l d) (sc1 l mos) = scP l (init mode d mos) := by
  have hr : (fun (e : Fin E) (s : Fin S) (t : Fin R) => (scD l d).x e s t - sc1 l mos e) =
      fun e s t => .fin (l ^ (1 : ℤ)) * (d.x e s t - mos e) := by
    funext e s t
    exact Sc.sub h (k := 1) rfl rfl
  have hv : (fun s => Np.nanstd 0 (colL (stack0 fun (e : Fin E) (s : Fin S) (t : Fin R) => .fin (l ^ (1 : ℤ)) * (d.x e s t - mos e)) s)) =
      sc1 l fun s => Np.nanstd 0 (colL (stack0 fun e s t => d.x e s t - mos e) s) := by
    funext s
    rw [colL_sc h fun e s t => d.x e s t - mos e]
    exact nanstd_sc h _ 0
  have ha := stdContent_sc h d.cid fun e s t => d.x e s t - mos e
  unfold init
  dsimp only
  rw [hr, hv]
  have hc : (scD l d).cid = d.cid := rfl
  rw [hc, ha]
  unfold scP
  have h0 := sc1_zero h (n := S)
  have h0' := sc1_zero h (n := C)
  cases mode <;> simp only [reduceCtorEq, if_true, if_false, h0, h0']

theorem scales (m : Method) (hm : m ≠ .numerical) (pdf : Option String) (u : Updates ℝ E S R C) (hu : updates m pdf = .ok u) : Scales l u d := by
  cases m with
  | numerical => exact absurd rfl hm
  | simplified =>
    cases hu
    exact ⟨bSimplified_sc h d, vSimplified_sc h d, aSimplified_sc h d, xSimplified_sc h d⟩
  | original =>
    cases hu
    exact ⟨bOriginal_sc h d, vSimplified_sc h d, aSimplified_sc h d, xOriginal_sc h d⟩

theorem fitArr_sc (mode : Mode) (m : Method) (hm : m ≠ .numerical) (pdf : Option String) (thr : Fl ℝ) (mos : Arr1 (Fl ℝ) E) :
    fitArr mode m pdf (.fin (l ^ (1 : ℤ)) * thr) (scD l d) (sc1 l mos) = mapOk (scF l) (fitArr mode m pdf thr d mos) := by
  unfold fitArr
  cases hu : updates (K := ℝ) (E := E) (S := S) (R := R) (C := C) m pdf with
  | error e => rfl
  | ok u =>
    dsimp only
    rw [init_sc h]
    exact loop_sc h d (scales h d m hm pdf u hu) mode pdf thr _ 0 rfl _

theorem centre_sc (z : Bool) : centre z (scP l p) = scP l (centre z p) := by
  unfold centre
  cases z
  · rfl
  · rw [if_pos rfl, if_pos rfl]
    have hm : Np.mean (List.ofFn (scP l p).b) = .fin (l ^ (1 : ℤ)) * Np.mean (List.ofFn p.b) := by
      have : List.ofFn (scP l p).b = scL l 1 (List.ofFn p.b) := by unfold scL; rw [List.map_ofFn]; rfl
      rw [this]
      exact mean_sc h 1 _
    dsimp only
    rw [hm]
    unfold scP
    dsimp only
    congr 1
    · funext e; exact Sc.add h (k := 1) rfl rfl
    · funext e; exact Sc.sub h (k := 1) rfl rfl

end Sureal.Mle
