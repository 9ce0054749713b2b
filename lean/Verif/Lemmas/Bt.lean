import Verif.Spec.Bt
import Mathlib.Analysis.Convex.SpecificFunctions.Basic
import Mathlib.Algebra.BigOperators.Field
import Mathlib.Tactic.FieldSimp
import Mathlib.Tactic.Linarith
import Mathlib.Tactic.Positivity
/-! # Mathematics of the Bradley-Terry model over the reals -/
namespace Sureal.BtMath
open Spec.BT
variable {M : ℕ} {A : Fin M → Fin M → ℝ} {p q : Fin M → ℝ}

/-- `∑ j, n_ij / (p_i + p_j)` -/
noncomputable def den (A : Fin M → Fin M → ℝ) (p : Fin M → ℝ) (i : Fin M) : ℝ := ∑ j, games A i j / (p i + p j)

theorem games_symm (i j : Fin M) : games A i j = games A j i := add_comm _ _

theorem games_nonneg (h : ∀ i j, 0 ≤ A i j) (i j : Fin M) : 0 ≤ games A i j := add_nonneg (h i j) (h j i)

theorem den_pos (h : Table A) (hp : ∀ i, 0 < p i) (i : Fin M) : 0 < den A p i := by
  have hw := h.wins i
  unfold Spec.BT.wins at hw
  obtain ⟨j, -, hj⟩ := Finset.exists_lt_of_sum_lt (s := Finset.univ) (f := fun _ => (0 : ℝ)) (g := fun j => A i j)
    (by simpa using hw)
  refine Finset.sum_pos' (fun k _ => div_nonneg (games_nonneg h.nonneg i k) (add_pos (hp i) (hp k)).le)
    ⟨j, Finset.mem_univ j, div_pos ?_ (add_pos (hp i) (hp j))⟩
  unfold games
  have := h.nonneg j i
  linarith

theorem update_eq (i : Fin M) : update A p i = wins A i / den A p i := rfl

theorem update_pos (h : Table A) (hp : ∀ i, 0 < p i) (i : Fin M) : 0 < update A p i :=
  div_pos (h.wins i) (den_pos h hp i)

theorem total_pos (h : Table A) (hp : PosProb p) : 0 < ∑ k, update A p k := by
  have hne : (Finset.univ : Finset (Fin M)).Nonempty := by
    by_contra hc
    rw [Finset.not_nonempty_iff_eq_empty] at hc
    have := hp.sum
    rw [hc, Finset.sum_empty] at this
    exact zero_ne_one this
  exact Finset.sum_pos (fun k _ => update_pos h hp.pos k) hne

theorem next_posProb (h : Table A) (hp : PosProb p) : PosProb (next A p) := by
  have ht := total_pos h hp
  constructor
  · intro i
    exact div_pos (update_pos h hp.pos i) ht
  · unfold next
    rw [← Finset.sum_div, div_self ht.ne']

/-- exchanging the two indices of a double sum -/
theorem sum_swap (f : Fin M → Fin M → ℝ) : ∑ i, ∑ j, f i j = ∑ i, ∑ j, f j i := Finset.sum_comm

/-- `∑ A_ij (t_i + t_j) / s_ij = ∑ t_i den_i` for symmetric `s` -/
theorem sum_pairs (t : Fin M → ℝ) (s : Fin M → Fin M → ℝ) (hs : ∀ i j, s i j = s j i) :
    ∑ i, ∑ j, A i j * ((t i + t j) * s i j) = ∑ i, t i * ∑ j, games A i j * s i j := by
  have h1 : ∑ i, ∑ j, A i j * ((t i + t j) * s i j)
      = ∑ i, ∑ j, A i j * t i * s i j + ∑ i, ∑ j, A i j * t j * s i j := by
    rw [← Finset.sum_add_distrib]
    refine Finset.sum_congr rfl fun i _ => ?_
    rw [← Finset.sum_add_distrib]
    refine Finset.sum_congr rfl fun j _ => ?_
    ring
  rw [h1, sum_swap fun i j => A i j * t j * s i j, ← Finset.sum_add_distrib]
  refine Finset.sum_congr rfl fun i _ => ?_
  rw [← Finset.sum_add_distrib, Finset.mul_sum]
  refine Finset.sum_congr rfl fun j _ => ?_
  unfold games
  rw [hs j i]
  ring

theorem logLik_scale (hp : ∀ i, 0 < p i) {c : ℝ} (hc : 0 < c) : logLik A (fun i => p i / c) = logLik A p := by
  unfold logLik
  refine Finset.sum_congr rfl fun i _ => Finset.sum_congr rfl fun j _ => ?_
  congr 2
  have := hp i
  have := hp j
  field_simp

theorem logLik_sub (hp : ∀ i, 0 < p i) (hq : ∀ i, 0 < q i) :
    logLik A q - logLik A p = ∑ i, wins A i * Real.log (q i / p i)
      - ∑ i, ∑ j, A i j * Real.log ((q i + q j) / (p i + p j)) := by
  unfold logLik wins
  rw [← Finset.sum_sub_distrib, ← Finset.sum_sub_distrib]
  refine Finset.sum_congr rfl fun i _ => ?_
  rw [Finset.sum_mul, ← Finset.sum_sub_distrib, ← Finset.sum_sub_distrib]
  refine Finset.sum_congr rfl fun j _ => ?_
  have h1 := hp i
  have h2 := hq i
  have h3 : 0 < p i + p j := add_pos h1 (hp j)
  have h4 : 0 < q i + q j := add_pos h2 (hq j)
  rw [Real.log_div h2.ne' h4.ne', Real.log_div h1.ne' h3.ne', Real.log_div h2.ne' h1.ne', Real.log_div h4.ne' h3.ne']
  ring

/-- the gain of one update: at least `∑ wins_i * (sqrt(p_i / update_i) - 1)^2` -/
theorem update_gain (h : Table A) (hp : ∀ i, 0 < p i) :
    ∑ i, wins A i * (Real.sqrt (p i / update A p i) - 1) ^ 2 ≤ logLik A (update A p) - logLik A p := by
  have hu := update_pos h hp
  rw [logLik_sub hp hu]
  -- second term
  have h2 : ∑ i, ∑ j, A i j * Real.log ((update A p i + update A p j) / (p i + p j)) ≤
      ∑ i, (update A p i - p i) * den A p i := by
    have : ∑ i, ∑ j, A i j * (((update A p i - p i) + (update A p j - p j)) * (1 / (p i + p j)))
        = ∑ i, (update A p i - p i) * ∑ j, games A i j * (1 / (p i + p j)) :=
      sum_pairs (fun i => update A p i - p i) (fun i j => 1 / (p i + p j)) (fun i j => by rw [add_comm])
    have hd : ∀ i, ∑ j, games A i j * (1 / (p i + p j)) = den A p i := fun i =>
      Finset.sum_congr rfl fun j _ => by ring
    simp only [hd] at this
    rw [← this]
    refine Finset.sum_le_sum fun i _ => Finset.sum_le_sum fun j _ => mul_le_mul_of_nonneg_left ?_ (h.nonneg i j)
    have h3 : 0 < p i + p j := add_pos (hp i) (hp j)
    have h4 : 0 < update A p i + update A p j := add_pos (hu i) (hu j)
    refine (Real.log_le_sub_one_of_pos (div_pos h4 h3)).trans (le_of_eq ?_)
    field_simp
    ring
  -- first term
  have h1 : ∀ i, wins A i * (Real.sqrt (p i / update A p i) - 1) ^ 2 + (update A p i - p i) * den A p i ≤
      wins A i * Real.log (update A p i / p i) := by
    intro i
    have hx : 0 < p i / update A p i := div_pos (hp i) (hu i)
    have hden : (update A p i - p i) * den A p i = wins A i * (1 - p i / update A p i) := by
      rw [update_eq]
      have := den_pos h hp i
      have := h.wins i
      field_simp
    rw [hden, ← mul_add]
    refine mul_le_mul_of_nonneg_left ?_ (h.wins i).le
    have hlog : Real.log (update A p i / p i) = -Real.log (p i / update A p i) := by
      rw [← Real.log_inv, inv_div]
    rw [hlog]
    set x := p i / update A p i with hxd
    have hs := Real.sq_sqrt hx.le
    have hsp := Real.sqrt_pos.mpr hx
    have hl : Real.log x = 2 * Real.log (Real.sqrt x) := by
      rw [Real.log_sqrt hx.le]; ring
    have := Real.log_le_sub_one_of_pos hsp
    nlinarith
  have h3 := Finset.sum_le_sum fun i (_ : i ∈ Finset.univ) => h1 i
  rw [Finset.sum_add_distrib] at h3
  linarith

/-- the gain of one pass -/
theorem next_gain (h : Table A) (hp : PosProb p) :
    ∑ i, wins A i * (Real.sqrt (p i / update A p i) - 1) ^ 2 ≤ logLik A (next A p) - logLik A p := by
  have := update_gain h hp.pos
  have h2 : logLik A (next A p) = logLik A (update A p) := logLik_scale (update_pos h hp.pos) (total_pos h hp)
  rw [h2]
  exact this

theorem logLik_nonpos (h : Table A) (hp : ∀ i, 0 < p i) : logLik A p ≤ 0 := by
  unfold logLik
  refine Finset.sum_nonpos fun i _ => Finset.sum_nonpos fun j _ => ?_
  refine mul_nonpos_of_nonneg_of_nonpos (h.nonneg i j) (Real.log_nonpos ?_ ?_)
  · exact div_nonneg (hp i).le (add_pos (hp i) (hp j)).le
  · rw [div_le_one (add_pos (hp i) (hp j))]
    have := hp j
    linarith

/-- `p_i / update_i` close to 1 everywhere means that the pass hardly moves the vector -/
theorem next_close (h : Table A) (hp : PosProb p) {ε : ℝ} (hε : 0 ≤ ε) (hε' : ε ≤ 1 / 4)
    (hc : ∀ i, (Real.sqrt (p i / update A p i) - 1) ^ 2 ≤ ε ^ 2) (i : Fin M) : |next A p i - p i| ≤ 8 * ε * p i := by
  have hu := update_pos h hp.pos
  have ht := total_pos h hp
  have hbound : ∀ k, (1 - ε) ^ 2 * update A p k ≤ p k ∧ p k ≤ (1 + ε) ^ 2 * update A p k := by
    intro k
    have hx : 0 < p k / update A p k := div_pos (hp.pos k) (hu k)
    have habs := abs_le.mp (abs_le_of_sq_le_sq (hc k) hε)
    have hs := Real.sq_sqrt hx.le
    have hs0 := Real.sqrt_nonneg (p k / update A p k)
    have hpk : p k = p k / update A p k * update A p k := by
      have := (hu k).ne'
      field_simp
    constructor
    · have : (1 - ε) ^ 2 ≤ p k / update A p k := by nlinarith [habs.1]
      calc (1 - ε) ^ 2 * update A p k ≤ p k / update A p k * update A p k := mul_le_mul_of_nonneg_right this (hu k).le
        _ = p k := hpk.symm
    · have : p k / update A p k ≤ (1 + ε) ^ 2 := by nlinarith [habs.2]
      calc p k = p k / update A p k * update A p k := hpk
        _ ≤ (1 + ε) ^ 2 * update A p k := mul_le_mul_of_nonneg_right this (hu k).le
  set Z := ∑ k, update A p k with hZ
  have hZ1 : (1 - ε) ^ 2 * Z ≤ 1 := by
    rw [hZ, Finset.mul_sum]
    exact (Finset.sum_le_sum fun k _ => (hbound k).1).trans_eq hp.sum
  have hZ2 : 1 ≤ (1 + ε) ^ 2 * Z := by
    rw [hZ, Finset.mul_sum]
    exact hp.sum.symm.trans_le (Finset.sum_le_sum fun k _ => (hbound k).2)
  have hui := hu i
  have hpi := hp.pos i
  obtain ⟨hb1, hb2⟩ := hbound i
  have hn : next A p i * Z = update A p i := by
    unfold next
    rw [← hZ]
    field_simp
  set y := next A p i with hy
  have hypos : 0 < y := div_pos hui ht
  have e1 : 0 < (1 - ε) ^ 2 := by have : 0 < 1 - ε := by linarith
                                  positivity
  have e2 : (0 : ℝ) < (1 + ε) ^ 2 := by positivity
  -- (1-ε)^2 y ≤ (1+ε)^2 p and (1-ε)^2 p ≤ (1+ε)^2 y
  have u1 : (1 - ε) ^ 2 * y ≤ (1 + ε) ^ 2 * p i := by
    calc (1 - ε) ^ 2 * y = (1 - ε) ^ 2 * y * 1 := by ring
      _ ≤ (1 - ε) ^ 2 * y * ((1 + ε) ^ 2 * Z) := mul_le_mul_of_nonneg_left hZ2 (by positivity)
      _ = (1 + ε) ^ 2 * ((1 - ε) ^ 2 * update A p i) := by rw [← hn]; ring
      _ ≤ (1 + ε) ^ 2 * p i := mul_le_mul_of_nonneg_left hb1 e2.le
  have u2 : (1 - ε) ^ 2 * p i ≤ (1 + ε) ^ 2 * y := by
    calc (1 - ε) ^ 2 * p i ≤ (1 - ε) ^ 2 * ((1 + ε) ^ 2 * update A p i) := mul_le_mul_of_nonneg_left hb2 e1.le
      _ = (1 + ε) ^ 2 * y * ((1 - ε) ^ 2 * Z) := by rw [← hn]; ring
      _ ≤ (1 + ε) ^ 2 * y * 1 := mul_le_mul_of_nonneg_left hZ1 (by positivity)
      _ = (1 + ε) ^ 2 * y := by ring
  have hq : (1 + ε) ^ 2 ≤ (1 + 8 * ε) * (1 - ε) ^ 2 := by nlinarith [mul_nonneg hε hε, mul_nonneg hε (mul_nonneg hε hε)]
  have hq2 : (1 - 8 * ε) * (1 + ε) ^ 2 ≤ (1 - ε) ^ 2 := by nlinarith [mul_nonneg hε hε, mul_nonneg hε (mul_nonneg hε hε)]
  rw [abs_le]
  constructor
  · have : (1 - 8 * ε) * p i * (1 + ε) ^ 2 ≤ y * (1 + ε) ^ 2 := by
      calc (1 - 8 * ε) * p i * (1 + ε) ^ 2 = ((1 - 8 * ε) * (1 + ε) ^ 2) * p i := by ring
        _ ≤ (1 - ε) ^ 2 * p i := mul_le_mul_of_nonneg_right hq2 hpi.le
        _ ≤ (1 + ε) ^ 2 * y := u2
        _ = y * (1 + ε) ^ 2 := by ring
    have := le_of_mul_le_mul_right this e2
    linarith
  · have : y * (1 - ε) ^ 2 ≤ (1 + 8 * ε) * p i * (1 - ε) ^ 2 := by
      calc y * (1 - ε) ^ 2 = (1 - ε) ^ 2 * y := by ring
        _ ≤ (1 + ε) ^ 2 * p i := u1
        _ ≤ ((1 + 8 * ε) * (1 - ε) ^ 2) * p i := mul_le_mul_of_nonneg_right hq hpi.le
        _ = (1 + 8 * ε) * p i * (1 - ε) ^ 2 := by ring
    have := le_of_mul_le_mul_right this e1
    linarith

/-! ## Fixed points and maxima -/

theorem sum_expected (hp : ∀ i, 0 < p i) : ∑ i, p i * den A p i = ∑ i, wins A i := by
  have h1 : ∑ i, ∑ j, A i j * ((p i + p j) * (1 / (p i + p j))) = ∑ i, p i * ∑ j, games A i j * (1 / (p i + p j)) :=
    sum_pairs p (fun i j => 1 / (p i + p j)) (fun i j => by rw [add_comm])
  have h2 : ∀ i, ∑ j, games A i j * (1 / (p i + p j)) = den A p i := fun i =>
    Finset.sum_congr rfl fun j _ => by ring
  simp only [h2] at h1
  rw [← h1]
  refine Finset.sum_congr rfl fun i _ => Finset.sum_congr rfl fun j _ => ?_
  have : 0 < p i + p j := add_pos (hp i) (hp j)
  field_simp

theorem likEq_iff : LikEq A p ↔ ∀ i, p i * den A p i = wins A i := by
  unfold LikEq den
  refine forall_congr' fun i => ?_
  rw [Finset.mul_sum]
  have : ∑ j, games A i j * (p i / (p i + p j)) = ∑ j, p i * (games A i j / (p i + p j)) :=
    Finset.sum_congr rfl fun j _ => by ring
  rw [this]

theorem fixed_iff (h : Table A) (hp : PosProb p) : next A p = p ↔ LikEq A p := by
  have hd := den_pos h hp.pos
  have ht := total_pos h hp
  rw [likEq_iff]
  constructor
  · intro hfix
    set Z := ∑ k, update A p k with hZ
    have hi : ∀ i, Z * (p i * den A p i) = wins A i := by
      intro i
      have := congrFun hfix i
      unfold next at this
      rw [← hZ, update_eq] at this
      have h1 := hd i
      rw [← this]
      field_simp
    have hsum : Z * ∑ i, p i * den A p i = ∑ i, wins A i := by
      rw [Finset.mul_sum]
      exact Finset.sum_congr rfl fun i _ => hi i
    rw [sum_expected hp.pos] at hsum
    have hw : 0 < ∑ i, wins A i := by
      have hne : (Finset.univ : Finset (Fin M)).Nonempty := by
        by_contra hc
        rw [Finset.not_nonempty_iff_eq_empty] at hc
        have := hp.sum
        rw [hc, Finset.sum_empty] at this
        exact zero_ne_one this
      exact Finset.sum_pos (fun k _ => h.wins k) hne
    have hZ1 : Z = 1 := by
      have : (Z - 1) * ∑ i, wins A i = 0 := by linarith
      rcases mul_eq_zero.mp this with h | h
      · linarith
      · exact absurd h hw.ne'
    intro i
    have := hi i
    rw [hZ1, one_mul] at this
    exact this
  · intro heq
    have hup : ∀ i, update A p i = p i := by
      intro i
      rw [update_eq, ← heq i]
      have := (hd i).ne'
      field_simp
    funext i
    unfold next
    simp only [hup]
    rw [hp.sum, div_one]

/-- Jensen's inequality for one pair -/
theorem jensen {a b x y : ℝ} (ha : 0 < a) (hb : 0 < b) (hx : 0 < x) (hy : 0 < y) :
    a / (a + b) * Real.log (x / a) + b / (a + b) * Real.log (y / b) ≤ Real.log ((x + y) / (a + b)) := by
  have hab : 0 < a + b := add_pos ha hb
  have h := strictConcaveOn_log_Ioi.concaveOn.2 (Set.mem_Ioi.mpr (div_pos hx ha))
    (Set.mem_Ioi.mpr (div_pos hy hb)) (div_pos ha hab).le (div_pos hb hab).le
    (show a / (a + b) + b / (a + b) = 1 by field_simp)
  simp only [smul_eq_mul] at h
  have e : a / (a + b) * (x / a) + b / (a + b) * (y / b) = (x + y) / (a + b) := by
    field_simp
  rwa [e] at h

theorem jensen_eq {a b x y : ℝ} (ha : 0 < a) (hb : 0 < b) (hx : 0 < x) (hy : 0 < y) (hne : x / a ≠ y / b) :
    a / (a + b) * Real.log (x / a) + b / (a + b) * Real.log (y / b) < Real.log ((x + y) / (a + b)) := by
  have hab : 0 < a + b := add_pos ha hb
  have h := strictConcaveOn_log_Ioi.2 (Set.mem_Ioi.mpr (div_pos hx ha))
    (Set.mem_Ioi.mpr (div_pos hy hb)) hne (div_pos ha hab) (div_pos hb hab)
    (show a / (a + b) + b / (a + b) = 1 by field_simp)
  simp only [smul_eq_mul] at h
  have e : a / (a + b) * (x / a) + b / (a + b) * (y / b) = (x + y) / (a + b) := by
    field_simp
  rwa [e] at h

/-- the slack in Jensen's inequality for one pair -/
noncomputable def slack (p q : Fin M → ℝ) (i j : Fin M) : ℝ :=
  Real.log ((q i + q j) / (p i + p j)) -
    (p i / (p i + p j) * Real.log (q i / p i) + p j / (p i + p j) * Real.log (q j / p j))

theorem slack_nonneg (hp : ∀ i, 0 < p i) (hq : ∀ i, 0 < q i) (i j : Fin M) : 0 ≤ slack p q i j :=
  sub_nonneg.mpr (jensen (hp i) (hp j) (hq i) (hq j))

/-- below a solution of the likelihood equations every other vector loses exactly the slack -/
theorem loss_eq (heq : LikEq A p) (hp : ∀ i, 0 < p i) (hq : ∀ i, 0 < q i) :
    logLik A q = logLik A p - ∑ i, ∑ j, A i j * slack p q i j := by
  have h1 := logLik_sub (A := A) hp hq
  set t : Fin M → ℝ := fun i => Real.log (q i / p i) with ht
  have h2 : ∑ i, ∑ j, A i j * ((p i * t i + p j * t j) * (1 / (p i + p j)))
      = ∑ i, (p i * t i) * ∑ j, games A i j * (1 / (p i + p j)) :=
    sum_pairs (fun i => p i * t i) (fun i j => 1 / (p i + p j)) (fun i j => by rw [add_comm])
  have h3 : ∑ i, (p i * t i) * ∑ j, games A i j * (1 / (p i + p j)) = ∑ i, wins A i * t i := by
    refine Finset.sum_congr rfl fun i _ => ?_
    rw [← (likEq_iff.mp heq) i]
    have : ∑ j, games A i j * (1 / (p i + p j)) = den A p i := Finset.sum_congr rfl fun j _ => by ring
    rw [this]
    ring
  have h4 : ∑ i, ∑ j, A i j * slack p q i j =
      ∑ i, ∑ j, A i j * Real.log ((q i + q j) / (p i + p j)) -
        ∑ i, ∑ j, A i j * ((p i * t i + p j * t j) * (1 / (p i + p j))) := by
    rw [← Finset.sum_sub_distrib]
    refine Finset.sum_congr rfl fun i _ => ?_
    rw [← Finset.sum_sub_distrib]
    refine Finset.sum_congr rfl fun j _ => ?_
    unfold slack
    simp only [ht]
    ring
  rw [h4, h2, h3]
  linarith

theorem likEq_max (h : ∀ i j, 0 ≤ A i j) (heq : LikEq A p) (hp : ∀ i, 0 < p i) (hq : ∀ i, 0 < q i) :
    logLik A q ≤ logLik A p := by
  rw [loss_eq heq hp hq]
  have : 0 ≤ ∑ i, ∑ j, A i j * slack p q i j :=
    Finset.sum_nonneg fun i _ => Finset.sum_nonneg fun j _ => mul_nonneg (h i j) (slack_nonneg hp hq i j)
  linarith

theorem likEq_unique (h : ∀ i j, 0 ≤ A i j) (hc : Connected A) (heq : LikEq A p) (hp : PosProb p) (hq : PosProb q)
    (hl : logLik A p ≤ logLik A q) : q = p := by
  have hloss := loss_eq heq hp.pos hq.pos
  have hnn : ∀ i j, 0 ≤ A i j * slack p q i j := fun i j => mul_nonneg (h i j) (slack_nonneg hp.pos hq.pos i j)
  have hz : ∑ i, ∑ j, A i j * slack p q i j = 0 := by
    refine le_antisymm ?_ (Finset.sum_nonneg fun i _ => Finset.sum_nonneg fun j _ => hnn i j)
    linarith
  have hz1 : ∀ i j, A i j * slack p q i j = 0 := by
    intro i j
    have h1 := (Finset.sum_eq_zero_iff_of_nonneg (fun i _ => Finset.sum_nonneg fun j _ => hnn i j)).mp hz i (Finset.mem_univ i)
    exact (Finset.sum_eq_zero_iff_of_nonneg (fun j _ => hnn i j)).mp h1 j (Finset.mem_univ j)
  have hr : ∀ i j, 0 < A i j → q i / p i = q j / p j := by
    intro i j hij
    by_contra hne
    have := jensen_eq (hp.pos i) (hp.pos j) (hq.pos i) (hq.pos j) hne
    have hs : 0 < slack p q i j := sub_pos.mpr this
    exact absurd (hz1 i j) (mul_pos hij hs).ne'
  have hr' : ∀ i j, 0 < games A i j → q i / p i = q j / p j := by
    intro i j hij
    rcases (h i j).lt_or_eq with h1 | h1
    · exact hr i j h1
    · refine (hr j i ?_).symm
      unfold games at hij
      rw [← h1] at hij
      linarith
  have hall : ∀ i j, q i / p i = q j / p j := by
    intro i j
    have := hc i j
    induction this with
    | refl => rfl
    | tail _ hbc ih => rw [ih]; exact hr' _ _ hbc
  funext i
  have hqi : ∀ j, q j = q i / p i * p j := by
    intro j
    rw [hall i j]
    have := (hp.pos j).ne'
    field_simp
  have hs : 1 = q i / p i * 1 := by
    conv_lhs => rw [← hq.sum]
    conv_rhs => rw [← hp.sum, Finset.mul_sum]
    exact Finset.sum_congr rfl fun j _ => hqi j
  have := (hp.pos i).ne'
  rw [mul_one] at hs
  field_simp at hs
  linarith

end Sureal.BtMath
