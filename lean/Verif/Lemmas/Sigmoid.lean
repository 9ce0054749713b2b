import Verif.Spec.Sigmoid
import Verif.Lemmas.Perf
/-! Helper lemmas for the fitted sigmoid mapping: the line of least squares. -/
namespace Sureal
open Spec Perf Fl

/-- the normal equations -/
def Normal (l : List (ℝ × ℝ)) (a b : ℝ) : Prop :=
  (l.map fun p => p.2 - a - b * p.1).sum = 0 ∧ (l.map fun p => (p.2 - a - b * p.1) * p.1).sum = 0

theorem residual_shift (l : List (ℝ × ℝ)) (a b c d : ℝ) :
    squaredResiduals l (a + c) (b + d) = squaredResiduals l a b - 2 * (c * (l.map fun p => p.2 - a - b * p.1).sum +
      d * (l.map fun p => (p.2 - a - b * p.1) * p.1).sum) + (l.map fun p => (c + d * p.1) ^ 2).sum := by
  unfold squaredResiduals
  induction l with
  | nil => simp
  | cons p l ih =>
    simp only [List.map_cons, List.sum_cons] at ih ⊢
    rw [ih]
    ring

theorem sum_sq_nonneg (l : List (ℝ × ℝ)) (f : ℝ × ℝ → ℝ) : 0 ≤ (l.map fun p => f p ^ 2).sum := by
  apply List.sum_nonneg
  intro y hy
  obtain ⟨z, _, rfl⟩ := List.mem_map.mp hy
  positivity

theorem residual_min {l : List (ℝ × ℝ)} {a b : ℝ} (h : Normal l a b) (a' b' : ℝ) : squaredResiduals l a b ≤ squaredResiduals l a' b' := by
  have := residual_shift l a b (a' - a) (b' - b)
  rw [h.1, h.2] at this
  have h2 := sum_sq_nonneg l (fun p => (a' - a) + (b' - b) * p.1)
  rw [show a + (a' - a) = a' by ring, show b + (b' - b) = b' by ring] at this
  linarith

theorem quad_zero {s k : ℝ} (hk : 0 ≤ k) (h : ∀ t : ℝ, 0 ≤ -2 * (t * s) + t ^ 2 * k) : s = 0 := by
  by_contra hs
  have hk1 : (0 : ℝ) < k + 1 := by linarith
  have := h (s / (k + 1))
  have e : -2 * (s / (k + 1) * s) + (s / (k + 1)) ^ 2 * k = - (s ^ 2 * (k + 2)) / (k + 1) ^ 2 := by
    field_simp
    ring
  rw [e] at this
  have hneg : - (s ^ 2 * (k + 2)) / (k + 1) ^ 2 < 0 := by
    apply div_neg_of_neg_of_pos
    · have : 0 < s ^ 2 * (k + 2) := by positivity
      linarith
    · positivity
  linarith

theorem normal_of_min {l : List (ℝ × ℝ)} {a b : ℝ} (h : ∀ a' b', squaredResiduals l a b ≤ squaredResiduals l a' b') : Normal l a b := by
  constructor
  · apply quad_zero (k := (l.map fun _ => (1 : ℝ) ^ 2).sum) (sum_sq_nonneg l fun _ => 1)
    intro t
    have h1 := h (a + t) (b + 0)
    rw [residual_shift] at h1
    have : (l.map fun p => (t + 0 * p.1) ^ 2).sum = t ^ 2 * (l.map fun _ => (1 : ℝ) ^ 2).sum := by
      rw [← List.sum_map_mul_left]
      congr 1
      apply List.map_congr_left
      intro p _
      ring
    rw [this] at h1
    linarith
  · apply quad_zero (k := (l.map fun p => p.1 ^ 2).sum) (sum_sq_nonneg l fun p => p.1)
    intro t
    have h1 := h (a + 0) (b + t)
    rw [residual_shift] at h1
    have : (l.map fun p => (0 + t * p.1) ^ 2).sum = t ^ 2 * (l.map fun p => p.1 ^ 2).sum := by
      rw [← List.sum_map_mul_left]
      congr 1
      apply List.map_congr_left
      intro p _
      ring
    rw [this] at h1
    linarith

/-- twice the covariance sum, over all pairs of points -/
theorem cross_sum (l : List (ℝ × ℝ)) (f g : ℝ × ℝ → ℝ) :
    (l.map fun p => (l.map fun q => (f p - f q) * (g p - g q)).sum).sum =
      2 * (l.length * (l.map fun p => f p * g p).sum - (l.map f).sum * (l.map g).sum) := by
  have h1 : ∀ p : ℝ × ℝ, (l.map fun q => (f p - f q) * (g p - g q)).sum =
      l.length * (f p * g p) - f p * (l.map g).sum - g p * (l.map f).sum + (l.map fun p => f p * g p).sum := by
    intro p
    generalize f p = u
    generalize g p = v
    induction l with
    | nil => simp
    | cons q l ih =>
      simp only [List.map_cons, List.sum_cons, List.length_cons, Nat.cast_succ]
      rw [ih]
      ring
  simp only [h1]
  have h2 : ∀ (l' : List (ℝ × ℝ)) (n A B C : ℝ), (l'.map fun p => n * (f p * g p) - f p * B - g p * A + C).sum =
      n * (l'.map fun p => f p * g p).sum - (l'.map f).sum * B - (l'.map g).sum * A + l'.length * C := by
    intro l' n A B C
    induction l' with
    | nil => simp
    | cons q l ih =>
      simp only [List.map_cons, List.sum_cons, List.length_cons, Nat.cast_succ]
      rw [ih]
      ring
  rw [h2]
  ring

theorem sum_map_sub' (l : List (ℝ × ℝ)) (f g : ℝ × ℝ → ℝ) : (l.map fun p => f p - g p).sum = (l.map f).sum - (l.map g).sum := by
  induction l with
  | nil => simp
  | cons q l ih =>
    simp only [List.map_cons, List.sum_cons]
    rw [ih]
    ring

/-- the slope, by pairs of points -/
theorem normal_cross {l : List (ℝ × ℝ)} {a b : ℝ} (h : Normal l a b) :
    (l.map fun p => (l.map fun q => (p.2 - q.2) * (p.1 - q.1)).sum).sum =
      b * (l.map fun p => (l.map fun q => (p.1 - q.1) * (p.1 - q.1)).sum).sum := by
  have h0 := cross_sum l (fun p => p.2 - a - b * p.1) (fun p => p.1)
  rw [h.1, h.2] at h0
  have : (l.map fun p => (l.map fun q => ((p.2 - a - b * p.1) - (q.2 - a - b * q.1)) * (p.1 - q.1)).sum).sum =
      (l.map fun p => (l.map fun q => (p.2 - q.2) * (p.1 - q.1)).sum).sum -
      b * (l.map fun p => (l.map fun q => (p.1 - q.1) * (p.1 - q.1)).sum).sum := by
    rw [← List.sum_map_mul_left, ← sum_map_sub']
    congr 1
    apply List.map_congr_left
    intro p _
    rw [← List.sum_map_mul_left, ← sum_map_sub']
    congr 1
    apply List.map_congr_left
    intro q _
    ring
  rw [this] at h0
  linarith

theorem pairs_pos {l : List (ℝ × ℝ)} {f : ℝ × ℝ → ℝ × ℝ → ℝ} (hnn : ∀ p ∈ l, ∀ q ∈ l, 0 ≤ f p q) {p q : ℝ × ℝ} (hp : p ∈ l)
    (hq : q ∈ l) (h : 0 < f p q) : 0 < (l.map fun p => (l.map fun q => f p q).sum).sum := by
  have hin : ∀ p ∈ l, ∀ x ∈ (l.map fun q => f p q), 0 ≤ x := by
    intro p hp x hx
    obtain ⟨q, hq, rfl⟩ := List.mem_map.mp hx
    exact hnn p hp q hq
  refine lt_of_lt_of_le (lt_of_lt_of_le h (List.single_le_sum (hin p hp) _ (List.mem_map_of_mem hq))) ?_
  refine List.single_le_sum ?_ _ (List.mem_map_of_mem (f := fun p => (l.map fun q => f p q).sum) hp)
  intro x hx
  obtain ⟨p, hp, rfl⟩ := List.mem_map.mp hx
  exact List.sum_nonneg (hin p hp)

theorem exists_normal {l : List (ℝ × ℝ)} (h : ∃ p ∈ l, ∃ q ∈ l, p.1 ≠ q.1) : ∃ a b, Normal l a b := by
  obtain ⟨p, hp, q, hq, hpq⟩ := h
  have hpos := pairs_pos (f := fun p q => (p.1 - q.1) * (p.1 - q.1)) (fun p _ q _ => mul_self_nonneg _) hp hq
    (mul_self_pos.mpr (sub_ne_zero.mpr hpq))
  rw [cross_sum l (fun p => p.1) (fun p => p.1)] at hpos
  have hn : (0 : ℝ) < l.length := by exact_mod_cast List.length_pos_of_mem hp
  have e1 : ∀ a b, (l.map fun p => p.2 - a - b * p.1).sum = (l.map fun p => p.2).sum - l.length * a - b * (l.map fun p => p.1).sum := by
    intro a b
    generalize l = l'
    induction l' with
    | nil => simp
    | cons q l ih =>
      simp only [List.map_cons, List.sum_cons, List.length_cons, Nat.cast_succ]
      rw [ih]
      ring
  have e2 : ∀ a b, (l.map fun p => (p.2 - a - b * p.1) * p.1).sum =
      (l.map fun p => p.2 * p.1).sum - a * (l.map fun p => p.1).sum - b * (l.map fun p => p.1 * p.1).sum := by
    intro a b
    generalize l = l'
    induction l' with
    | nil => simp
    | cons q l ih =>
      simp only [List.map_cons, List.sum_cons]
      rw [ih]
      ring
  unfold Normal
  simp only [e1, e2]
  generalize (l.map fun p => p.2).sum = X at *
  generalize (l.map fun p => p.1).sum = Z at *
  generalize (l.map fun p => p.2 * p.1).sum = XZ at *
  generalize (l.map fun p => p.1 * p.1).sum = ZZ at *
  generalize (l.length : ℝ) = n at *
  have hd : n * ZZ - Z * Z ≠ 0 := by linarith
  obtain ⟨b, hb⟩ : ∃ b, b * (n * ZZ - Z * Z) = n * XZ - X * Z := ⟨_, div_mul_cancel₀ _ hd⟩
  obtain ⟨a, ha⟩ : ∃ a, n * a = X - b * Z := ⟨_, mul_div_cancel₀ _ hn.ne'⟩
  refine ⟨a, b, by rw [ha]; ring, ?_⟩
  apply mul_left_cancel₀ hn.ne'
  linear_combination (-Z) * ha - hb

/-- there is a fit that fulfils the contract -/
theorem exists_leastSquares : ∃ fit, LeastSquares fit := by
  classical
  have key : ∀ zs xs : List (Fl ℝ), ∃ r : Fl ℝ × Fl ℝ, ∀ l : List (ℝ × ℝ), (∃ p ∈ l, ∃ q ∈ l, p.1 ≠ q.1) →
      zs = (l.map fun p => .fin p.1) → xs = (l.map fun p => .fin p.2) →
      ∃ a b, r = (.fin a, .fin b) ∧ ∀ a' b', squaredResiduals l a b ≤ squaredResiduals l a' b' := by
    intro zs xs
    by_cases h : ∃ l : List (ℝ × ℝ), (∃ p ∈ l, ∃ q ∈ l, p.1 ≠ q.1) ∧ zs = (l.map fun p => .fin p.1) ∧ xs = (l.map fun p => .fin p.2)
    · obtain ⟨l, hl, h1, h2⟩ := h
      obtain ⟨a, b, hn⟩ := exists_normal hl
      refine ⟨(.fin a, .fin b), fun l' _ h1' h2' => ?_⟩
      have : l = l' := by
        rw [h1] at h1'
        rw [h2] at h2'
        have hlen : l.length = l'.length := by simpa using congrArg List.length h1'
        apply List.ext_getElem hlen
        intro i hi hi'
        have g1 := List.getElem_of_eq h1' (i := i) (by simpa using hi)
        have g2 := List.getElem_of_eq h2' (i := i) (by simpa using hi)
        simp only [List.getElem_map, Fl.fin.injEq] at g1 g2
        exact Prod.ext g1 g2
      subst this
      exact ⟨a, b, rfl, residual_min hn⟩
    · refine ⟨(.nan, .nan), fun l hl h1 h2 => absurd ⟨l, hl, h1, h2⟩ h⟩
  choose f hf using key
  exact ⟨f, fun l hl => hf _ _ l hl rfl rfl⟩

theorem logit_eq {lo hi y : ℝ} (h1 : lo < y) (h2 : y < hi) :
    -Real.log (1 / ((y - lo) / (hi - lo)) - 1) = logit lo hi y := by
  have a1 : y - lo ≠ 0 := by linarith
  have a2 : hi - y ≠ 0 := by linarith
  have a3 : hi - lo ≠ 0 := by linarith
  unfold logit
  rw [← Real.log_inv]
  congr 1
  rw [show 1 / ((y - lo) / (hi - lo)) - 1 = (hi - y) / (y - lo) by field_simp; ring, inv_div]

theorem logistic_logit {lo hi y : ℝ} (h1 : lo < y) (h2 : y < hi) : lo + (hi - lo) / (1 + Real.exp (-logit lo hi y)) = y := by
  have a1 : 0 < y - lo := by linarith
  have a2 : 0 < hi - y := by linarith
  have a3 : hi - lo ≠ 0 := by linarith
  unfold logit
  rw [Real.exp_neg, Real.exp_log (by positivity)]
  field_simp
  rw [show y - lo + (hi - y) = hi - lo by ring]
  field_simp
  ring

theorem logit_strictMono {lo hi y y' : ℝ} (h1 : lo < y) (h2 : y' < hi) (h : y < y') : logit lo hi y < logit lo hi y' := by
  unfold logit
  have a1 : 0 < y - lo := by linarith
  have a2 : 0 < hi - y' := by linarith
  apply Real.log_lt_log (div_pos a1 (by linarith))
  rw [div_lt_div_iff₀ (by linarith) a2]
  nlinarith

theorem logit_of_logistic {lo hi a b x : ℝ} (h : lo < hi) : logit lo hi (logistic lo hi a b x) = (x - a) / b := by
  have he := Real.exp_pos (-((x - a) / b))
  have h0 : hi - lo ≠ 0 := by linarith
  unfold logit logistic
  have e : (lo + (hi - lo) / (1 + Real.exp (-((x - a) / b))) - lo) / (hi - (lo + (hi - lo) / (1 + Real.exp (-((x - a) / b))))) =
      (Real.exp (-((x - a) / b)))⁻¹ := by
    generalize Real.exp (-((x - a) / b)) = u at *
    have : 1 + u ≠ 0 := by linarith
    have h3 : hi - (lo + (hi - lo) / (1 + u)) = (hi - lo) * u / (1 + u) := by field_simp; ring
    rw [h3]
    field_simp
    ring
  rw [e, ← Real.exp_neg, neg_neg, Real.log_exp]

theorem sigmoidAdjust_fit {fit : List (Fl ℝ) → List (Fl ℝ) → Fl ℝ × Fl ℝ} {ps : List (ℝ × ℝ)} {lo hi : ℝ × ℝ}
    (hlo : lo ∈ ps) (hhi : hi ∈ ps) (hb : ∀ p ∈ ps, lo.1 ≤ p.1 ∧ p.1 ≤ hi.1) {a b : ℝ} (hb0 : b ≠ 0)
    (hfit : fit (ps.map fun p => .fin (logit (lo.1 - 1 / 10) (hi.1 + 1 / 10) p.1)) (predictions ps) = (fin a, fin b)) :
    sigmoidAdjust fit (predictions ps) (ps.map fun p => .fin p.1) =
      .ok (ps.map fun p => fin (logistic (lo.1 - 1 / 10) (hi.1 + 1 / 10) a b p.2)) := by
  have hne : ps ≠ [] := List.ne_nil_of_mem hlo
  have emap : (ps.map fun p => (fin p.1 : Fl ℝ)) = (ps.map (·.1)).map fin := by simp
  obtain ⟨y, l, hyl⟩ := List.exists_cons_of_ne_nil (l := ps.map (·.1)) (by simpa using hne)
  obtain ⟨mx, e1, m1, b1⟩ := npMax_fin y l
  obtain ⟨mn, e2, m2, b2⟩ := npMin_fin y l
  rw [← hyl] at e1 m1 b1 e2 m2 b2
  have hmx : mx = hi.1 := by
    obtain ⟨p, hp, rfl⟩ := List.mem_map.mp m1
    exact le_antisymm (hb p hp).2 (b1 _ (List.mem_map_of_mem hhi))
  have hmn : mn = lo.1 := by
    obtain ⟨p, hp, rfl⟩ := List.mem_map.mp m2
    exact le_antisymm (b2 _ (List.mem_map_of_mem hlo)) (hb p hp).1
  subst hmx hmn
  unfold sigmoidAdjust
  rw [emap, e1, e2]
  dsimp only
  have hd : (Fl.dec 1 10 : Fl ℝ) = fin (1 / 10) := by unfold Fl.dec; norm_num
  have hL : lo.1 - 1 / 10 < hi.1 + 1 / 10 := by linarith [(hb lo hlo).2]
  have hz : (((ps.map (·.1)).map fin).map fun y => (y - (fin lo.1 - Fl.dec 1 10)) / (fin hi.1 + Fl.dec 1 10 - (fin lo.1 - Fl.dec 1 10))).map
      (fun y => Neg.neg ((1 / y - 1 : Fl ℝ).log)) = ps.map fun p => .fin (logit (lo.1 - 1 / 10) (hi.1 + 1 / 10) p.1) := by
    simp only [List.map_map]
    apply List.map_congr_left
    intro p hp
    have h1 : lo.1 - 1 / 10 < p.1 := by linarith [(hb p hp).1]
    have h2 : p.1 < hi.1 + 1 / 10 := by linarith [(hb p hp).2]
    simp only [Function.comp, hd, Fl.one_def]
    have g1 : hi.1 + 1 / 10 - (lo.1 - 1 / 10) ≠ 0 := by linarith
    have g2 : (p.1 - (lo.1 - 1 / 10)) / (hi.1 + 1 / 10 - (lo.1 - 1 / 10)) ≠ 0 :=
      (div_pos (by linarith) (by linarith)).ne'
    have g3 : 0 < 1 / ((p.1 - (lo.1 - 1 / 10)) / (hi.1 + 1 / 10 - (lo.1 - 1 / 10))) - 1 := by
      have : (p.1 - (lo.1 - 1 / 10)) / (hi.1 + 1 / 10 - (lo.1 - 1 / 10)) < 1 := by
        rw [div_lt_one (by linarith)]
        linarith
      have h3 : 0 < (p.1 - (lo.1 - 1 / 10)) / (hi.1 + 1 / 10 - (lo.1 - 1 / 10)) := div_pos (by linarith) (by linarith)
      have := one_lt_one_div h3 this
      linarith
    rw [Fl.fin_sub, Fl.fin_sub, Fl.fin_add, Fl.fin_sub, Fl.fin_div g1, Fl.fin_div g2, Fl.fin_sub, Fl.log_fin g3, Fl.fin_neg]
    rw [← logit_eq h1 h2]
    rfl
  rw [hz, hfit]
  congr 1
  unfold predictions
  rw [List.map_map]
  apply List.map_congr_left
  intro p _
  simp only [Function.comp, hd]
  have hpos : (1 + Real.exp (-(p.2 - a) / b)) ≠ 0 := by positivity
  rw [Fl.fin_sub, Fl.fin_neg, Fl.fin_div hb0, Fl.exp_fin, Fl.one_def, Fl.fin_add]
  rw [show (MathFn.exp (-(p.2 - a) / b) : ℝ) = Real.exp (-(p.2 - a) / b) from rfl, Fl.fin_div hpos, Fl.fin_add, Fl.fin_sub, Fl.fin_sub, Fl.fin_mul, Fl.fin_add]
  unfold logistic
  rw [neg_div]
  congr 1
  ring

end Sureal
