import Verif.Model.Np
import Verif.Spec.Stats
import Mathlib.Tactic.Linarith
import Mathlib.Tactic.FieldSimp
import Mathlib.Tactic.Ring
import Mathlib.Tactic.Positivity
import Mathlib.Algebra.BigOperators.Group.List.Lemmas
import Mathlib.Algebra.Order.BigOperators.Group.List
/-! Basic lemmas on `Fl` and the numpy reductions over a linearly ordered field. -/
set_option linter.unusedSectionVars false
namespace Sureal
open Spec
namespace Fl
section lawful
variable {K : Type} [Field K] [LinearOrder K]

@[simp] theorem fin_add (a b : K) : (fin a + fin b : Fl K) = fin (a + b) := rfl
@[simp] theorem fin_sub (a b : K) : (fin a - fin b : Fl K) = fin (a - b) := rfl
@[simp] theorem fin_mul (a b : K) : (fin a * fin b : Fl K) = fin (a * b) := rfl
@[simp] theorem fin_neg (a : K) : (-fin a : Fl K) = fin (-a) := rfl
@[simp] theorem nan_add (a : Fl K) : (nan + a : Fl K) = nan := by cases a <;> rfl
@[simp] theorem add_nan (a : Fl K) : (a + nan : Fl K) = nan := by cases a <;> rfl
@[simp] theorem nan_sub (a : Fl K) : (nan - a : Fl K) = nan := by cases a <;> rfl
@[simp] theorem sub_nan (a : Fl K) : (a - nan : Fl K) = nan := by cases a <;> rfl
@[simp] theorem nan_mul (a : Fl K) : (nan * a : Fl K) = nan := by cases a <;> rfl
@[simp] theorem mul_nan (a : Fl K) : (a * nan : Fl K) = nan := by cases a <;> rfl
@[simp] theorem nan_div (a : Fl K) : (nan / a : Fl K) = nan := by cases a <;> rfl
@[simp] theorem div_nan (a : Fl K) : (a / nan : Fl K) = nan := by cases a <;> rfl
@[simp] theorem neg_nan : (-nan : Fl K) = nan := rfl
theorem zero_def : (0 : Fl K) = fin 0 := rfl
theorem one_def : (1 : Fl K) = fin 1 := rfl
theorem natCast_def (n : ℕ) : ((n : ℕ) : Fl K) = fin (n : K) := rfl
theorem ofNat_def (n : ℕ) [n.AtLeastTwo] : (OfNat.ofNat n : Fl K) = fin (OfNat.ofNat n : K) := rfl

@[simp] theorem fin_inj {a b : K} : (fin a : Fl K) = fin b ↔ a = b := by
  constructor
  · intro h; cases h; rfl
  · rintro rfl; rfl

theorem fin_div {a b : K} (h : b ≠ 0) : (fin a / fin b : Fl K) = fin (a / b) := by
  show Fl.div _ _ = _
  unfold Fl.div
  have : (0 : K) < b ∨ b < 0 := by
    rcases lt_or_gt_of_ne h with h | h
    · exact Or.inr h
    · exact Or.inl h
  simp [this]

theorem zero_div_zero : (fin 0 / fin 0 : Fl K) = nan := by
  show Fl.div _ _ = _
  simp [Fl.div]

theorem fin_div_zero_pos {a : K} (h : 0 < a) : (fin a / fin 0 : Fl K) = pinf := by
  show Fl.div _ _ = _
  simp [Fl.div, h]

theorem fin_div_zero_neg {a : K} (h : a < 0) : (fin a / fin 0 : Fl K) = ninf := by
  show Fl.div _ _ = _
  simp [Fl.div, h, not_lt.mpr h.le]

@[simp] theorem isNan_nan : (nan : Fl K).isNan = true := rfl
@[simp] theorem isNan_fin (a : K) : (fin a : Fl K).isNan = false := rfl
@[simp] theorem isFinite_nan : (nan : Fl K).isFinite = false := rfl
@[simp] theorem isFinite_fin (a : K) : (fin a : Fl K).isFinite = true := rfl
@[simp] theorem sq_fin (a : K) : (fin a : Fl K).sq = fin (a * a) := rfl
@[simp] theorem sq_nan : (nan : Fl K).sq = nan := rfl
@[simp] theorem lt_fin (a b : K) : (fin a : Fl K).lt (fin b) = decide (a < b) := rfl
@[simp] theorem le_fin (a b : K) : (fin a : Fl K).le (fin b) = decide (a ≤ b) := rfl
@[simp] theorem nan_lt (b : Fl K) : (nan : Fl K).lt b = false := by cases b <;> rfl
@[simp] theorem lt_nan (b : Fl K) : b.lt (nan : Fl K) = false := by cases b <;> rfl
@[simp] theorem nan_le (b : Fl K) : (nan : Fl K).le b = false := by cases b <;> rfl
@[simp] theorem le_nan (b : Fl K) : b.le (nan : Fl K) = false := by cases b <;> rfl
@[simp] theorem val?_fin (a : K) : (fin a : Fl K).val? = some a := rfl
@[simp] theorem val?_nan : (nan : Fl K).val? = none := rfl
theorem isNan_iff (a : Fl K) : a.isNan = true ↔ a = nan := by cases a <;> simp [isNan]

theorem sqrt_fin [MathFn K] {a : K} (h : 0 ≤ a) : (fin a : Fl K).sqrt = fin (MathFn.sqrt a) := by
  simp [sqrt, not_lt.mpr h]
@[simp] theorem sqrt_nan [MathFn K] : (nan : Fl K).sqrt = nan := rfl
theorem log_fin [MathFn K] {a : K} (h : 0 < a) : (fin a : Fl K).log = fin (MathFn.log a) := by
  simp [log, h]
@[simp] theorem exp_fin [MathFn K] {a : K} : (fin a : Fl K).exp = fin (MathFn.exp a) := rfl

@[simp] theorem maximum_fin (a b : K) : maximum (fin a) (fin b) = fin (max a b) := by
  simp only [maximum, isNan_fin, le_fin, max_def]
  by_cases h : a ≤ b <;> simp [h]
@[simp] theorem maximum_nan_left (b : Fl K) : maximum nan b = nan := by simp [maximum]
@[simp] theorem maximum_nan_right (b : Fl K) : maximum b nan = nan := by cases b <;> simp [maximum]

theorem NumOrNan.nan : NumOrNan (Fl.nan : Fl K) := Or.inl rfl
theorem NumOrNan.fin (v : K) : NumOrNan (Fl.fin v) := Or.inr ⟨v, rfl⟩
end lawful
end Fl

namespace Np
open Fl
variable {K : Type} [Field K] [LinearOrder K]

/-- a list without infinities -/
def Clean (l : List (Fl K)) : Prop := ∀ x ∈ l, NumOrNan x

theorem Clean.cons {x : Fl K} {l} : Clean (x :: l) ↔ NumOrNan x ∧ Clean l := by
  simp [Clean]

@[simp] theorem clean_nil : Clean ([] : List (Fl K)) := by simp [Clean]

theorem Clean.perm {l l' : List (Fl K)} (h : l.Perm l') (c : Clean l) : Clean l' :=
  fun x hx => c x (h.mem_iff.mpr hx)

theorem clean_ofFn {n : ℕ} {f : Fin n → Fl K} : Clean (List.ofFn f) ↔ ∀ i, NumOrNan (f i) := by
  simp [Clean, List.mem_ofFn]

theorem present_nil : present ([] : List (Fl K)) = [] := rfl
@[simp] theorem present_cons_fin (a : K) (l) : present (fin a :: l) = a :: present l := rfl
@[simp] theorem present_cons_nan (l : List (Fl K)) : present (nan :: l) = present l := rfl

theorem notNan_eq {l : List (Fl K)} (c : Clean l) : notNan l = (present l).map fin := by
  induction l with
  | nil => rfl
  | cons x l ih =>
    rw [Clean.cons] at c
    rcases c with ⟨h | ⟨v, h⟩, c⟩ <;> subst h
    · simpa [notNan] using ih c
    · simpa [notNan] using ih c

theorem sum_map_fin (l : List K) : Np.sum (l.map fin) = fin l.sum := by
  unfold Np.sum
  induction l with
  | nil => rfl
  | cons x l ih => simp [ih]

theorem nansum_eq {l : List (Fl K)} (c : Clean l) : nansum l = fin (present l).sum := by
  rw [nansum, notNan_eq c, sum_map_fin]

theorem countNotNan_eq {l : List (Fl K)} (c : Clean l) : countNotNan l = (present l).length := by
  rw [countNotNan, notNan_eq c, List.length_map]

variable [IsStrictOrderedRing K]

theorem length_ne_zero {l : List K} (h : l ≠ []) : (l.length : K) ≠ 0 := by
  have : l.length ≠ 0 := by simpa using h
  exact_mod_cast this

theorem mean_map_fin {l : List K} (h : l ≠ []) : Np.mean (l.map fin) = fin (Spec.mean l) := by
  rw [Np.mean, sum_map_fin, List.length_map, natCast_def, fin_div (length_ne_zero h)]; rfl

theorem nanmean_eq {l : List (Fl K)} (c : Clean l) (h : present l ≠ []) :
    nanmean l = fin (Spec.mean (present l)) := by
  rw [nanmean, nansum_eq c, countNotNan_eq c, natCast_def, fin_div (length_ne_zero h)]; rfl

theorem nanmean_empty {l : List (Fl K)} (c : Clean l) (h : present l = []) :
    nanmean l = nan := by
  rw [nanmean, nansum_eq c, countNotNan_eq c, natCast_def, h]
  simpa using zero_div_zero

theorem nanmean_clean {l : List (Fl K)} (c : Clean l) : NumOrNan (nanmean l) := by
  by_cases h : present l = []
  · rw [nanmean_empty c h]; exact NumOrNan.nan
  · rw [nanmean_eq c h]; exact NumOrNan.fin _

theorem nanvar_eq {l : List (Fl K)} (c : Clean l) {d : ℕ} (h : d < (present l).length) :
    nanvar d l = fin (sqDev (present l) / ((present l).length - d : ℕ)) := by
  have hne : present l ≠ [] := by intro h0; simp [h0] at h
  rw [nanvar, countNotNan_eq c, if_neg (by omega), notNan_eq c, nanmean_eq c hne, List.map_map]
  have : ((fun x => (x - fin (Spec.mean (present l))).sq) ∘ fin : K → Fl K)
      = fun x => fin ((x - Spec.mean (present l)) ^ 2) := by
    funext x; simp [pow_two]
  rw [this, show (List.map (fun x => fin ((x - Spec.mean (present l)) ^ 2)) (present l) : List (Fl K))
    = ((present l).map fun x => (x - Spec.mean (present l)) ^ 2).map fin by simp [Function.comp_def],
    sum_map_fin, natCast_def, fin_div]
  · rfl
  · have : (present l).length - d ≠ 0 := by omega
    exact_mod_cast this

theorem nanvar_small {l : List (Fl K)} (c : Clean l) {d : ℕ} (h : (present l).length ≤ d) :
    nanvar d l = nan := by
  rw [nanvar, countNotNan_eq c, if_pos h]

theorem var_map_fin {l : List K} (h : l ≠ []) : Np.var (l.map fin) = fin (popVar l) := by
  rw [Np.var, mean_map_fin h, List.map_map, List.length_map]
  have : ((fun x => (x - fin (Spec.mean l)).sq) ∘ fin : K → Fl K)
      = fin ∘ fun x => ((x - Spec.mean l) ^ 2) := by
    funext x; simp [pow_two]
  rw [this, ← List.map_map, sum_map_fin, natCast_def, fin_div (length_ne_zero h)]
  rfl

theorem sqDev_nonneg (l : List K) : 0 ≤ sqDev l := by
  apply List.sum_nonneg
  intro x hx
  simp only [List.mem_map] at hx
  obtain ⟨y, _, rfl⟩ := hx
  positivity

theorem popVar_nonneg (l : List K) : 0 ≤ popVar l :=
  div_nonneg (sqDev_nonneg l) (Nat.cast_nonneg _)

theorem present_append (l l' : List (Fl K)) : present (l ++ l') = present l ++ present l' := by
  simp [present]

theorem present_perm {l l' : List (Fl K)} (h : l.Perm l') : (present l).Perm (present l') :=
  h.filterMap _

end Np
end Sureal
