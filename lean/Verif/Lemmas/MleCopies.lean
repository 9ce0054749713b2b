import Verif.Lemmas.MleRun
import Verif.Spec.Panel
/-!
# The maximum likelihood models on a panel that consists of copies of a panel, and of silent observers
-/
set_option linter.unusedSectionVars false
namespace Sureal.Mle
open Sureal Spec
variable {E S S' R C : ℕ}

theorem Sc.eq {l : ℝ} (h : 0 < l) {a' a : Fl ℝ} (ha : Sc l 0 a' a) : a' = a := by
  have := Sc.zero h a
  unfold Sc at ha this
  rw [ha]
  exact this.symm

/-! ### lists that repeat a list -/

theorem np_sum_append (a b : List (Fl ℝ)) : Np.sum (a ++ b) = Np.sum a + Np.sum b := by
  unfold Np.sum
  induction a with
  | nil =>
    rw [List.nil_append, List.sum_nil, fl_add_comm]
    exact (add_fin_zero _).symm
  | cons x a ih => rw [List.cons_append, List.sum_cons, List.sum_cons, ih, fl_add_assoc]

/-- `m` copies of a list -/
def times (m : ℕ) {α : Type} (l : List α) : List α := (List.replicate m l).flatten

theorem times_succ (m : ℕ) {α : Type} (l : List α) : times (m + 1) l = l ++ times m l := by
  unfold times
  rw [List.replicate_succ, List.flatten_cons]

theorem fin_mul_add (a b : ℝ) (ha : 0 < a) (hb : 0 < b) (t : Fl ℝ) : (.fin a : Fl ℝ) * t + .fin b * t = .fin (a + b) * t := by
  have hab := add_pos ha hb
  cases t
  · rfl
  · rw [fin_mul_pinf ha, fin_mul_pinf hb, fin_mul_pinf hab]; rfl
  · rw [fin_mul_ninf ha, fin_mul_ninf hb, fin_mul_ninf hab]; rfl
  · rw [Fl.fin_mul, Fl.fin_mul, Fl.fin_mul, Fl.fin_add, add_mul]

theorem fin_one_mul (t : Fl ℝ) : (.fin 1 : Fl ℝ) * t = t := by
  have := Sc.zero (l := 1) one_pos t
  unfold Sc at this
  rw [zpow_zero] at this
  exact this.symm

theorem sum_times {m : ℕ} (hm : 0 < m) (l : List (Fl ℝ)) : Np.sum (times m l) = .fin (m : ℝ) * Np.sum l := by
  obtain ⟨m, rfl⟩ : ∃ k, m = k + 1 := ⟨m - 1, by omega⟩
  clear hm
  induction m with
  | zero =>
    rw [times_succ, np_sum_append]
    show Np.sum l + .fin 0 = _
    rw [add_fin_zero, Nat.zero_add, Nat.cast_one, fin_one_mul]
  | succ m ih =>
    rw [times_succ, np_sum_append, ih]
    have := fin_mul_add 1 ((m + 1 : ℕ) : ℝ) one_pos (by positivity) (Np.sum l)
    rw [fin_one_mul] at this
    rw [this]
    congr 2
    push_cast
    ring

theorem count_times {α : Type} [DecidableEq α] (m : ℕ) (l : List α) (a : α) : (times m l).count a = m * l.count a := by
  induction m with
  | zero => simp [times]
  | succ m ih => rw [times_succ, List.count_append, ih]; ring

theorem length_times {α : Type} (m : ℕ) (l : List α) : (times m l).length = m * l.length := by
  induction m with
  | zero => simp [times]
  | succ m ih => rw [times_succ, List.length_append, ih]; ring

theorem map_times {α β : Type} (m : ℕ) (f : α → β) (l : List α) : (times m l).map f = times m (l.map f) := by
  induction m with
  | zero => simp [times]
  | succ m ih => rw [times_succ, times_succ, List.map_append, ih]

theorem filter_times {α : Type} (m : ℕ) (f : α → Bool) (l : List α) : (times m l).filter f = times m (l.filter f) := by
  induction m with
  | zero => simp [times]
  | succ m ih => rw [times_succ, times_succ, List.filter_append, ih]

theorem flatMap_times {α β : Type} (m : ℕ) (f : α → List β) (l : List α) : (times m l).flatMap f = times m (l.flatMap f) := by
  induction m with
  | zero => simp [times]
  | succ m ih => rw [times_succ, times_succ, List.flatMap_append, ih]

theorem times_append_perm {α : Type} (m : ℕ) (a b : List α) : (times m a ++ times m b).Perm (times m (a ++ b)) := by
  classical
  rw [List.perm_iff_count]
  intro x
  rw [List.count_append, count_times, count_times, count_times, List.count_append]
  ring

theorem flatMap_perm_times {α β : Type} (m : ℕ) (f f' : α → List β) (h : ∀ a, (f' a).Perm (times m (f a))) (l : List α) :
    (l.flatMap f').Perm (times m (l.flatMap f)) := by
  induction l with
  | nil => simp [times]
  | cons a l ih =>
    rw [List.flatMap_cons, List.flatMap_cons]
    exact ((h a).append ih).trans (times_append_perm m _ _)

/-- two lists whose numbers are `m` copies of one another give sums in the ratio `m`, and the same means and standard deviations -/
def Numbers (m : ℕ) (l' l : List (Fl ℝ)) : Prop := (Np.notNan l').Perm (times m (Np.notNan l))

theorem Numbers.nansum {m : ℕ} (hm : 0 < m) {l' l : List (Fl ℝ)} (h : Numbers m l' l) : Np.nansum l' = .fin (m : ℝ) * Np.nansum l := by
  unfold Np.nansum
  rw [sum_perm h, sum_times hm]

theorem Numbers.count {m : ℕ} {l' l : List (Fl ℝ)} (h : Numbers m l' l) : Np.countNotNan l' = m * Np.countNotNan l := by
  unfold Np.countNotNan
  rw [h.length_eq, length_times]

theorem sc_two {m : ℕ} (hm : 0 < m) {a' a : Fl ℝ} : Sc (Real.sqrt m) 2 a' a ↔ a' = .fin (m : ℝ) * a := by
  unfold Sc
  rw [show (Real.sqrt m) ^ (2 : ℤ) = (m : ℝ) by
    rw [show (2 : ℤ) = ((2 : ℕ) : ℤ) from rfl, zpow_natCast, Real.sq_sqrt (Nat.cast_nonneg m)]]

theorem root_pos {m : ℕ} (hm : 0 < m) : 0 < Real.sqrt m := Real.sqrt_pos.mpr (by exact_mod_cast hm)

theorem ratio_copies {m : ℕ} (hm : 0 < m) (a b : Fl ℝ) : (.fin (m : ℝ) * a) / (.fin (m : ℝ) * b) = a / b := by
  have h1 : Sc (Real.sqrt m) 2 (.fin (m : ℝ) * a) a := (sc_two hm).mpr rfl
  have h2 : Sc (Real.sqrt m) 2 (.fin (m : ℝ) * b) b := (sc_two hm).mpr rfl
  exact ((h1.div (root_pos hm) h2).cast (sub_self 2)).eq (root_pos hm)

theorem natCast_mul (m n : ℕ) : ((m * n : ℕ) : Fl ℝ) = .fin (m : ℝ) * ((n : ℕ) : Fl ℝ) := by
  show Fl.fin ((m * n : ℕ) : ℝ) = .fin (m : ℝ) * .fin (n : ℝ)
  rw [Fl.fin_mul, Nat.cast_mul]

theorem Numbers.nanmean {m : ℕ} (hm : 0 < m) {l' l : List (Fl ℝ)} (h : Numbers m l' l) : Np.nanmean l' = Np.nanmean l := by
  unfold Np.nanmean
  rw [h.nansum hm, h.count, natCast_mul, ratio_copies hm]

theorem Numbers.nanstd {m : ℕ} (hm : 0 < m) {l' l : List (Fl ℝ)} (h : Numbers m l' l) : Np.nanstd 0 l' = Np.nanstd 0 l := by
  unfold Np.nanstd Np.nanvar
  rw [h.nanmean hm, h.count, sum_perm (h.map _), map_times, sum_times hm]
  have h0 : m * Np.countNotNan l ≤ 0 ↔ Np.countNotNan l ≤ 0 := by
    rw [Nat.le_zero, Nat.le_zero, Nat.mul_eq_zero]
    constructor
    · rintro (h | h)
      · omega
      · exact h
    · exact Or.inr
  by_cases hz : Np.countNotNan l ≤ 0
  · rw [if_pos hz, if_pos (h0.mpr hz)]
  · rw [if_neg hz, if_neg fun hh => hz (h0.mp hh), Nat.sub_zero, Nat.sub_zero, natCast_mul, ratio_copies hm]

/-! ### rows and columns -/

section
variable (φ : Fin S' → Option (Fin S)) {m : ℕ}

theorem filterMap_copies (h : CopiesOf m φ) : ((List.finRange S').filterMap φ).Perm (times m (List.finRange S)) := by
  rw [List.perm_iff_count]
  intro i
  rw [count_times, List.count_eq_one_of_mem (List.nodup_finRange S) (List.mem_finRange i), mul_one, ← h i]
  have key : ∀ l : List (Fin S'), (l.filterMap φ).count i = l.countP fun i' => decide (φ i' = some i) := by
    intro l
    induction l with
    | nil => rfl
    | cons a l ih =>
      rw [List.filterMap_cons, List.countP_cons]
      cases ha : φ a with
      | none => simp [ih]
      | some k => simp [List.count_cons, ih]
  rw [key, List.countP_eq_length_filter]
  have : (Finset.univ.filter fun i' => φ i' = some i) = ((List.finRange S').filter fun i' => decide (φ i' = some i)).toFinset := by
    ext i'
    simp
  rw [this, List.toFinset_card_of_nodup ((List.nodup_finRange S').filter _)]

/-- a panel's numbers: those of the originals, and NaN for the silent -/
def Follows (f' : Arr3 (Fl ℝ) E S' R) (f : Arr3 (Fl ℝ) E S R) : Prop :=
  (∀ i' i, φ i' = some i → ∀ e r, f' e i' r = f e i r) ∧ ∀ i', φ i' = none → ∀ e r, f' e i' r = .nan

variable {φ}

theorem videoCells_follows (h : CopiesOf m φ) {f' : Arr3 (Fl ℝ) E S' R} {f : Arr3 (Fl ℝ) E S R} (hf : Follows φ f' f) (e : Fin E) :
    Numbers m (videoCells f' e) (videoCells f e) := by
  unfold Numbers
  have hrows : ∀ {n : ℕ} (g : Arr3 (Fl ℝ) E n R), Np.notNan (videoCells g e) =
      (List.finRange n).flatMap fun i => Np.notNan (List.ofFn fun r => g e i r) := by
    intro n g
    unfold videoCells Np.notNan
    rw [List.ofFn_eq_map, List.filter_flatten, List.map_map]
    rfl
  rw [hrows, hrows]
  have hl : ∀ l : List (Fin S'), (l.flatMap fun i' => Np.notNan (List.ofFn fun r => f' e i' r)) =
      (l.filterMap φ).flatMap fun i => Np.notNan (List.ofFn fun r => f e i r) := by
    intro l
    induction l with
    | nil => rfl
    | cons a l ih =>
      rw [List.flatMap_cons, List.filterMap_cons, ih]
      rcases Option.eq_none_or_eq_some (φ a) with ha | ⟨i, ha⟩
      · rw [ha]
        have : Np.notNan (List.ofFn fun r => f' e a r) = [] := by
          unfold Np.notNan
          rw [List.filter_eq_nil_iff]
          intro x hx
          obtain ⟨r, rfl⟩ := List.mem_ofFn.mp hx
          rw [hf.2 a ha e r]
          decide
        rw [this, List.nil_append]
      · rw [ha]
        dsimp only
        rw [List.flatMap_cons]
        congr 3
        funext r
        exact hf.1 a i ha e r
  rw [hl, ← flatMap_times]
  exact (filterMap_copies φ h).flatMap_right _

theorem sumS_follows (h : CopiesOf m φ) (hm : 0 < m) {f' : Arr3 (Fl ℝ) E S' R} {f : Arr3 (Fl ℝ) E S R} (hf : Follows φ f' f) (e : Fin E) :
    sumS f' e = .fin (m : ℝ) * sumS f e := by
  unfold sumS
  rw [nansum_perm (rowL_stack1_perm f' e), nansum_perm (rowL_stack1_perm f e), (videoCells_follows h hf e).nansum hm]

theorem meanAlongS_follows (h : CopiesOf m φ) (hm : 0 < m) {f' : Arr3 (Fl ℝ) E S' R} {f : Arr3 (Fl ℝ) E S R} (hf : Follows φ f' f) :
    meanAlongS f' = meanAlongS f := by
  funext e
  unfold meanAlongS
  rw [nanmean_perm (rowL_stack1_perm f' e), nanmean_perm (rowL_stack1_perm f e), (videoCells_follows h hf e).nanmean hm]

theorem stdContent_follows (h : CopiesOf m φ) (hm : 0 < m) (cid : Fin E → Fin C) {f' : Arr3 (Fl ℝ) E S' R} {f : Arr3 (Fl ℝ) E S R} (hf : Follows φ f' f) :
    stdContent cid f' = stdContent cid f := by
  funext c
  unfold stdContent
  refine Numbers.nanstd hm ?_
  have hcells : ∀ {n : ℕ} (g : Arr3 (Fl ℝ) E n R), Np.notNan ((List.finRange E).flatMap fun e =>
      if cid e = c then (List.ofFn fun s => List.ofFn fun t => g e s t).flatten else []) =
      (List.finRange E).flatMap fun e => if cid e = c then Np.notNan (videoCells g e) else [] := by
    intro n g
    unfold Np.notNan videoCells
    rw [List.filter_flatMap]
    congr 1
    funext e
    split <;> rfl
  unfold Numbers
  rw [hcells, hcells]
  refine flatMap_perm_times m _ _ (fun e => ?_) _
  split
  · exact videoCells_follows h hf e
  · simp [times]

theorem ravel3_follows (h : CopiesOf m φ) {f' : Arr3 (Fl ℝ) E S' R} {f : Arr3 (Fl ℝ) E S R} (hf : Follows φ f' f) :
    Numbers m (ravel3 f') (ravel3 f) := by
  have hr : ∀ {n : ℕ} (g : Arr3 (Fl ℝ) E n R), Np.notNan (ravel3 g) = (List.finRange E).flatMap fun e => Np.notNan (videoCells g e) := by
    intro n g
    show Np.notNan (List.ofFn fun e => videoCells g e).flatten = _
    unfold Np.notNan
    rw [List.ofFn_eq_map, List.filter_flatten, List.map_map]
    rfl
  unfold Numbers
  rw [hr, hr]
  exact flatMap_perm_times m _ _ (fun e => videoCells_follows h hf e) _

theorem observerCells_follows {f' : Arr3 (Fl ℝ) E S' R} {f : Arr3 (Fl ℝ) E S R} {i' : Fin S'} {i : Fin S} (hf : ∀ e r, f' e i' r = f e i r) :
    observerCells f' i' = observerCells f i := by
  unfold observerCells
  simp only [hf]

theorem sumE_follows {f' : Arr3 (Fl ℝ) E S' R} {f : Arr3 (Fl ℝ) E S R} {i' : Fin S'} {i : Fin S} (hf : ∀ e r, f' e i' r = f e i r) :
    sumE f' i' = sumE f i := by
  unfold sumE
  rw [nansum_perm (colL_stack0_perm f' i'), nansum_perm (colL_stack0_perm f i), observerCells_follows hf]

theorem sumContent_times (hm : 0 < m) (cid : Fin E → Fin C) {xs' xs : Arr1 (Fl ℝ) E} (h : ∀ e, xs' e = .fin (m : ℝ) * xs e) (c : Fin C) :
    sumContent cid xs' c = .fin (m : ℝ) * sumContent cid xs c := by
  have hm' : (0 : ℝ) < m := by exact_mod_cast hm
  rw [sumContent_foldl, sumContent_foldl]
  have key : ∀ (l : List (Fin E)) (t' t : Fl ℝ), t' = .fin (m : ℝ) * t →
      l.foldl (fun t e => if c = cid e then t + xs' e else t) t' = .fin (m : ℝ) * l.foldl (fun t e => if c = cid e then t + xs e else t) t := by
    intro l
    induction l with
    | nil => intro t' t ht; exact ht
    | cons e l ih =>
      intro t' t ht
      rw [List.foldl_cons, List.foldl_cons]
      refine ih _ _ ?_
      split
      · rw [ht, h e]
        exact (sc_two hm).mp (Sc.add (root_pos hm) ((sc_two hm).mpr rfl) ((sc_two hm).mpr rfl))
      · exact ht
  exact key _ _ _ (by rw [Fl.zero_def, Fl.fin_mul, mul_zero])

theorem stdOf_times (hm : 0 < m) {t' t : Fl ℝ} (h : t' = .fin (m : ℝ) * t) : Sc (Real.sqrt m) (-1) (stdOf t') (stdOf t) := by
  have hr := root_pos hm
  have h2 : Sc (Real.sqrt m) 2 t' t := (sc_two hm).mpr h
  unfold stdOf
  have h1 : Sc (Real.sqrt m) 1 (Fl.maximum 0 t').sqrt (Fl.maximum 0 t).sqrt :=
    ((Sc.of_zero 2).maximum hr h2).cast (show (2 : ℤ) = 1 + 1 from rfl) |>.sqrt hr
  exact ((Sc.zero hr 1).div hr h1).cast (by norm_num)

theorem neg_times (hm : 0 < m) {t' t : Fl ℝ} (h : t' = .fin (m : ℝ) * t) : -t' = .fin (m : ℝ) * -t :=
  (sc_two hm).mp (((sc_two hm).mpr h).neg (root_pos hm))

theorem div_times (hm : 0 < m) {a' a b' b : Fl ℝ} (ha : a' = .fin (m : ℝ) * a) (hb : b' = .fin (m : ℝ) * b) : a' / b' = a / b := by
  rw [ha, hb, ratio_copies hm]

theorem fl_mul_nan (a : Fl ℝ) : a * .nan = .nan := by cases a <;> rfl

theorem mul_times (hm : 0 < m) (k : Fl ℝ) {t' t : Fl ℝ} (h : t' = .fin (m : ℝ) * t) : k * t' = .fin (m : ℝ) * (k * t) :=
  (sc_two hm).mp (((Sc.zero (root_pos hm) k).mul (root_pos hm) ((sc_two hm).mpr h)).cast (zero_add 2))

theorem quot_times (hm : 0 < m) (k : Fl ℝ) {t' t : Fl ℝ} (h : t' = .fin (m : ℝ) * t) : t' / k = .fin (m : ℝ) * (t / k) :=
  (sc_two hm).mp ((((sc_two hm).mpr h).div (root_pos hm) (Sc.zero (root_pos hm) k)).cast (sub_zero 2))

theorem add_times (hm : 0 < m) {a' a b' b : Fl ℝ} (ha : a' = .fin (m : ℝ) * a) (hb : b' = .fin (m : ℝ) * b) : a' + b' = .fin (m : ℝ) * (a + b) :=
  (sc_two hm).mp (((sc_two hm).mpr ha).add (root_pos hm) ((sc_two hm).mpr hb))

theorem sub_times (hm : 0 < m) {a' a b' b : Fl ℝ} (ha : a' = .fin (m : ℝ) * a) (hb : b' = .fin (m : ℝ) * b) : a' - b' = .fin (m : ℝ) * (a - b) :=
  (sc_two hm).mp (((sc_two hm).mpr ha).sub (root_pos hm) ((sc_two hm).mpr hb))

theorem diff1_times (hm : 0 < m) {n : ℕ} {ll' ll : Fl ℝ → Arr1 (Fl ℝ) n} (h : ∀ t i, ll' t i = .fin (m : ℝ) * ll t i) (i : Fin n) :
    diff1 ll' i = .fin (m : ℝ) * diff1 ll i := by
  unfold diff1
  exact quot_times hm _ (sub_times hm (h _ i) (h _ i))

theorem diff2_times (hm : 0 < m) {n : ℕ} {ll' ll : Fl ℝ → Arr1 (Fl ℝ) n} (h : ∀ t i, ll' t i = .fin (m : ℝ) * ll t i) (i : Fin n) :
    diff2 ll' i = .fin (m : ℝ) * diff2 ll i := by
  unfold diff2
  exact quot_times hm _ (add_times hm (sub_times hm (h _ i) (mul_times hm _ (h _ i))) (h _ i))

/-! ### votes and parameters -/

/-- the new votes are those of the originals, and NaN for the silent -/
structure Votes (φ : Fin S' → Option (Fin S)) (d' : Data ℝ E S' R C) (d : Data ℝ E S R C) : Prop where
  x : Follows φ d'.x d.x
  cid : d'.cid = d.cid

/-- the same qualities and ambiguities; copies have the parameters of their originals -/
structure Same (φ : Fin S' → Option (Fin S)) (p' : Params ℝ E S' C) (p : Params ℝ E S C) : Prop where
  x : p'.x = p.x
  a : p'.a = p.a
  b : ∀ i' i, φ i' = some i → p'.b i' = p.b i
  v : ∀ i' i, φ i' = some i → p'.v i' = p.v i

/-- the standard deviations of qualities and ambiguities are divided by the root of `m` -/
structure Shrunk (m : ℕ) (φ : Fin S' → Option (Fin S)) (s' : Stds ℝ E S' C) (s : Stds ℝ E S C) : Prop where
  x : ∀ e, Sc (Real.sqrt m) (-1) (s'.x e) (s.x e)
  a : ∀ c, Sc (Real.sqrt m) (-1) (s'.a c) (s.a c)
  b : ∀ i' i, φ i' = some i → s'.b i' = s.b i
  v : ∀ i' i, φ i' = some i → s'.v i' = s.v i

/-- a cell that depends on vote and parameters of its observer, and is NaN without a vote, follows -/
theorem cell_follows {d' : Data ℝ E S' R C} {d : Data ℝ E S R C} (hd : Votes φ d' d) {p' : Params ℝ E S' C} {p : Params ℝ E S C} (hp : Same φ p' p)
    (F : Fl ℝ → Fl ℝ → Fl ℝ → Fl ℝ → Fl ℝ → Fl ℝ) (hF : (∃ i', φ i' = none) → ∀ x b v a, F .nan x b v a = .nan) :
    Follows φ (fun e s r => F (d'.x e s r) (p'.x e) (p'.b s) (p'.v s) (p'.a (d'.cid e)))
      fun e s r => F (d.x e s r) (p.x e) (p.b s) (p.v s) (p.a (d.cid e)) := by
  constructor
  · intro i' i hi e r
    dsimp only
    rw [hd.x.1 i' i hi, hp.x, hp.a, hp.b i' i hi, hp.v i' i hi, hd.cid]
  · intro i' hi e r
    dsimp only
    rw [hd.x.2 i' hi, hF ⟨i', hi⟩]

variable {d' : Data ℝ E S' R C} {d : Data ℝ E S R C} (hd : Votes φ d' d) {p' : Params ℝ E S' C} {p : Params ℝ E S C} (hp : Same φ p' p)
include hd hp

theorem cell_sumE (F : Fl ℝ → Fl ℝ → Fl ℝ → Fl ℝ → Fl ℝ → Fl ℝ) {i' : Fin S'} {i : Fin S} (hi : φ i' = some i) :
    sumE (fun e s r => F (d'.x e s r) (p'.x e) (p'.b s) (p'.v s) (p'.a (d'.cid e))) i' =
      sumE (fun e s r => F (d.x e s r) (p.x e) (p.b s) (p.v s) (p.a (d.cid e))) i := by
  refine sumE_follows fun e r => ?_
  rw [hd.x.1 i' i hi, hp.x, hp.a, hp.b i' i hi, hp.v i' i hi, hd.cid]

theorem cell_sumS (h : CopiesOf m φ) (hm : 0 < m) (F : Fl ℝ → Fl ℝ → Fl ℝ → Fl ℝ → Fl ℝ → Fl ℝ) (hF : (∃ i', φ i' = none) → ∀ x b v a, F .nan x b v a = .nan) (e : Fin E) :
    sumS (fun e s r => F (d'.x e s r) (p'.x e) (p'.b s) (p'.v s) (p'.a (d'.cid e))) e = .fin (m : ℝ) *
      sumS (fun e s r => F (d.x e s r) (p.x e) (p.b s) (p.v s) (p.a (d.cid e))) e :=
  sumS_follows h hm (cell_follows hd hp F hF) e

theorem bSimplified_copies {i' : Fin S'} {i : Fin S} (hi : φ i' = some i) :
    (bSimplified d' p').1 i' = (bSimplified d p).1 i ∧ (bSimplified d' p').2 i' = (bSimplified d p).2 i := by
  have h1 := cell_sumE hd hp (fun o x _ v a => (o - x) / vadd v a) hi
  have h2 := cell_sumE hd hp (fun o _ _ v a => oneOrNan o / vadd v a) hi
  unfold bSimplified
  dsimp only at h1 h2 ⊢
  rw [h1, h2, hp.b i' i hi]
  exact ⟨rfl, rfl⟩

theorem bOriginal_copies {i' : Fin S'} {i : Fin S} (hi : φ i' = some i) :
    (bOriginal d' p').1 i' = (bOriginal d p).1 i ∧ (bOriginal d' p').2 i' = (bOriginal d p).2 i := by
  have h1 := cell_sumE hd hp (fun o x b v a => (o - x - b) / vadd v a) hi
  have h2 := cell_sumE hd hp (fun o _ _ v a => (-oneOrNan o) / vadd v a) hi
  unfold bOriginal
  dsimp only at h1 h2 ⊢
  rw [h1, h2, hp.b i' i hi]
  exact ⟨rfl, rfl⟩

theorem vSimplified_copies {i' : Fin S'} {i : Fin S} (hi : φ i' = some i) :
    (vSimplified d' p').1 i' = (vSimplified d p).1 i ∧ (vSimplified d' p').2 i' = (vSimplified d p).2 i := by
  have h1 := cell_sumE hd hp (fun o x b v a => vFirst (o - x - b) v a) hi
  have h2 := cell_sumE hd hp (fun o x b v a => vSecond (o - x - b) v a) hi
  unfold vSimplified resid
  dsimp only at h1 h2 ⊢
  rw [h1, h2, hp.v i' i hi]
  exact ⟨rfl, rfl⟩

theorem aSimplified_copies (h : CopiesOf m φ) (hm : 0 < m) :
    (aSimplified d' p').1 = (aSimplified d p).1 ∧ ∀ c, Sc (Real.sqrt m) (-1) ((aSimplified d' p').2 c) ((aSimplified d p).2 c) := by
  have h1 := fun c => sumContent_times hm d.cid (cell_sumS hd hp h hm (fun o x b v a => aFirst (o - x - b) v a) (fun _ x b v a => by
    show (-a) / _ + a * Fl.nan / _ = _
    rw [fl_mul_nan]
    show _ + Fl.nan = _
    cases (-a) / vadd v a <;> rfl)) c
  have h2 := fun c => sumContent_times hm d.cid (cell_sumS hd hp h hm (fun o x b v a => aSecond (o - x - b) v a) (fun _ x b v a => by
    show (-vsub v a) / _ + Fl.nan = _
    cases (-vsub v a) / (vadd v a).sq <;> rfl)) c
  unfold aSimplified resid
  dsimp only at h1 h2 ⊢
  rw [hd.cid] at h1 h2 ⊢
  constructor
  · funext c
    rw [div_times hm (h1 c) (h2 c), hp.a]
  · intro c
    exact stdOf_times hm (neg_times hm (h2 c))

theorem xSimplified_copies (h : CopiesOf m φ) (hm : 0 < m) :
    (xSimplified d' p').1 = (xSimplified d p).1 ∧ ∀ e, Sc (Real.sqrt m) (-1) ((xSimplified d' p').2 e) ((xSimplified d p).2 e) := by
  have h1 := cell_sumS hd hp h hm (fun o _ b v a => (o - b) / vadd v a) (fun _ _ _ _ _ => rfl)
  have h2 := cell_sumS hd hp h hm (fun o _ _ v a => oneOrNan o / vadd v a) (fun _ _ _ _ _ => rfl)
  unfold xSimplified
  dsimp only at h1 h2 ⊢
  constructor
  · funext e
    rw [div_times hm (h1 e) (h2 e), hp.x]
  · intro e
    exact stdOf_times hm (h2 e)

theorem xOriginal_copies (h : CopiesOf m φ) (hm : 0 < m) :
    (xOriginal d' p').1 = (xOriginal d p).1 ∧ ∀ e, Sc (Real.sqrt m) (-1) ((xOriginal d' p').2 e) ((xOriginal d p).2 e) := by
  have h1 := cell_sumS hd hp h hm (fun o x b v a => (o - x - b) / vadd v a) (fun _ _ _ _ _ => rfl)
  have h2 := cell_sumS hd hp h hm (fun o _ _ v a => (-oneOrNan o) / vadd v a) (fun _ _ _ _ _ => rfl)
  unfold xOriginal resid
  dsimp only at h1 h2 ⊢
  constructor
  · funext e
    rw [div_times hm (h1 e) (h2 e), hp.x]
  · intro e
    exact stdOf_times hm (neg_times hm (h2 e))

variable (dens : Fl ℝ → Fl ℝ → Fl ℝ → Fl ℝ → Fl ℝ → Fl ℝ)

theorem bNumerical_copies {i' : Fin S'} {i : Fin S} (hi : φ i' = some i) :
    (bNumerical dens d' p').1 i' = (bNumerical dens d p).1 i ∧ (bNumerical dens d' p').2 i' = (bNumerical dens d p).2 i := by
  have h1 : ∀ t, sumE (logCells dens d' { p' with b := fun s => p'.b s + t }) i' = sumE (logCells dens d { p with b := fun s => p.b s + t }) i :=
    fun t => cell_sumE hd (p' := { p' with b := fun s => p'.b s + t }) (p := { p with b := fun s => p.b s + t })
      ⟨hp.x, hp.a, fun i' i hi => by dsimp only; rw [hp.b i' i hi], hp.v⟩ (fun o x b v a => (dens o x b v a).log) hi
  unfold bNumerical diff1 diff2
  dsimp only
  simp only [h1, hp.b i' i hi]
  exact ⟨trivial, trivial⟩

theorem vNumerical_copies {i' : Fin S'} {i : Fin S} (hi : φ i' = some i) :
    (vNumerical dens d' p').1 i' = (vNumerical dens d p).1 i ∧ (vNumerical dens d' p').2 i' = (vNumerical dens d p).2 i := by
  have h1 : ∀ t, sumE (logCells dens d' { p' with v := fun s => p'.v s + t }) i' = sumE (logCells dens d { p with v := fun s => p.v s + t }) i :=
    fun t => cell_sumE hd (p' := { p' with v := fun s => p'.v s + t }) (p := { p with v := fun s => p.v s + t })
      ⟨hp.x, hp.a, hp.b, fun i' i hi => by dsimp only; rw [hp.v i' i hi]⟩ (fun o x b v a => (dens o x b v a).log) hi
  unfold vNumerical diff1 diff2
  dsimp only
  simp only [h1, hp.v i' i hi]
  exact ⟨trivial, trivial⟩

/-- without a vote the log-density is NaN, or everybody votes -/
def Quiet (φ : Fin S' → Option (Fin S)) (dens : Fl ℝ → Fl ℝ → Fl ℝ → Fl ℝ → Fl ℝ → Fl ℝ) : Prop :=
  (∃ i', φ i' = none) → ∀ x b v a, (dens .nan x b v a).log = .nan

variable {dens}

theorem logCells_copies (h : CopiesOf m φ) (hm : 0 < m) (hq : Quiet φ dens) (e : Fin E) :
    sumS (logCells dens d' p') e = .fin (m : ℝ) * sumS (logCells dens d p) e :=
  cell_sumS hd hp h hm (fun o x b v a => (dens o x b v a).log) hq e

theorem aNumerical_copies (h : CopiesOf m φ) (hm : 0 < m) (hq : Quiet φ dens) :
    (aNumerical dens d' p').1 = (aNumerical dens d p).1 ∧ ∀ c, Sc (Real.sqrt m) (-1) ((aNumerical dens d' p').2 c) ((aNumerical dens d p).2 c) := by
  have h1 : ∀ t e, sumS (logCells dens d' { p' with a := fun s => p'.a s + t }) e = .fin (m : ℝ) * sumS (logCells dens d { p with a := fun s => p.a s + t }) e :=
    fun t e => logCells_copies hd (p' := { p' with a := fun s => p'.a s + t }) (p := { p with a := fun s => p.a s + t })
      ⟨hp.x, by dsimp only; rw [hp.a], hp.b, hp.v⟩ h hm hq e
  have h2 := fun c => sumContent_times hm d.cid (diff1_times hm h1) c
  have h3 := fun c => sumContent_times hm d.cid (diff2_times hm h1) c
  unfold aNumerical
  dsimp only
  rw [hd.cid]
  constructor
  · funext c
    rw [div_times hm (h2 c) (h3 c), hp.a]
  · intro c
    exact stdOf_times hm (neg_times hm (h3 c))

theorem xNumerical_copies (h : CopiesOf m φ) (hm : 0 < m) (hq : Quiet φ dens) :
    (xNumerical dens d' p').1 = (xNumerical dens d p).1 ∧ ∀ e, Sc (Real.sqrt m) (-1) ((xNumerical dens d' p').2 e) ((xNumerical dens d p).2 e) := by
  have h1 : ∀ t e, sumS (logCells dens d' { p' with x := fun s => p'.x s + t }) e = .fin (m : ℝ) * sumS (logCells dens d { p with x := fun s => p.x s + t }) e :=
    fun t e => logCells_copies hd (p' := { p' with x := fun s => p'.x s + t }) (p := { p with x := fun s => p.x s + t })
      ⟨by dsimp only; rw [hp.x], hp.a, hp.b, hp.v⟩ h hm hq e
  have h2 := diff1_times hm h1
  have h3 := diff2_times hm h1
  unfold xNumerical
  dsimp only
  constructor
  · funext e
    rw [div_times hm (h2 e) (h3 e), hp.x]
  · intro e
    exact stdOf_times hm (neg_times hm (h3 e))
end

/-! ### one pass, and the loop -/

section
variable {φ : Fin S' → Option (Fin S)} {m : ℕ} {d' : Data ℝ E S' R C} {d : Data ℝ E S R C}

/-- the updates on both panels -/
structure Alike (m : ℕ) (φ : Fin S' → Option (Fin S)) (d' : Data ℝ E S' R C) (d : Data ℝ E S R C) (u' : Updates ℝ E S' R C) (u : Updates ℝ E S R C) : Prop where
  b : ∀ p' p, Same φ p' p → ∀ i' i, φ i' = some i → (u'.b d' p').1 i' = (u.b d p).1 i ∧ (u'.b d' p').2 i' = (u.b d p).2 i
  v : ∀ p' p, Same φ p' p → ∀ i' i, φ i' = some i → (u'.v d' p').1 i' = (u.v d p).1 i ∧ (u'.v d' p').2 i' = (u.v d p).2 i
  a : ∀ p' p, Same φ p' p → (u'.a d' p').1 = (u.a d p).1 ∧ ∀ c, Sc (Real.sqrt m) (-1) ((u'.a d' p').2 c) ((u.a d p).2 c)
  x : ∀ p' p, Same φ p' p → (u'.x d' p').1 = (u.x d p).1 ∧ ∀ e, Sc (Real.sqrt m) (-1) ((u'.x d' p').2 e) ((u.x d p).2 e)

theorem step_copies {u' : Updates ℝ E S' R C} {u : Updates ℝ E S R C} (h : Alike m φ d' d u' u) (mode : Mode) {p' : Params ℝ E S' C} {p : Params ℝ E S C}
    (hp : Same φ p' p) : Same φ (step mode u' d' p').1 (step mode u d p).1 ∧ Shrunk m φ (step mode u' d' p').2 (step mode u d p).2 := by
  unfold step
  dsimp only
  set b' := (if mode = .subjectOblivious then (fun _ => 0) else (u'.b d' p').1 : Arr1 (Fl ℝ) S') with hb'
  set b := (if mode = .subjectOblivious then (fun _ => 0) else (u.b d p).1 : Arr1 (Fl ℝ) S) with hb
  have s1 : Same φ ⟨p'.x, b', p'.v, p'.a⟩ ⟨p.x, b, p.v, p.a⟩ := by
    refine ⟨hp.x, hp.a, fun i' i hi => ?_, hp.v⟩
    dsimp only
    rw [hb', hb]
    split
    · rfl
    · exact (h.b _ _ hp i' i hi).1
  set v' := (if mode = .subjectOblivious then (fun _ => 0) else fun s => Fl.maximum ((u'.v d' ⟨p'.x, b', p'.v, p'.a⟩).1 s) 0 : Arr1 (Fl ℝ) S') with hv'
  set v := (if mode = .subjectOblivious then (fun _ => 0) else fun s => Fl.maximum ((u.v d ⟨p.x, b, p.v, p.a⟩).1 s) 0 : Arr1 (Fl ℝ) S) with hv
  have s2 : Same φ ⟨p'.x, b', v', p'.a⟩ ⟨p.x, b, v, p.a⟩ := by
    refine ⟨hp.x, hp.a, s1.b, fun i' i hi => ?_⟩
    dsimp only
    rw [hv', hv]
    split
    · rfl
    · dsimp only
      rw [(h.v _ _ s1 i' i hi).1]
  have s3 : Same φ ⟨p'.x, b', v', if mode = .contentOblivious then (fun _ => 0) else fun c => Fl.maximum ((u'.a d' ⟨p'.x, b', v', p'.a⟩).1 c) 0⟩
      ⟨p.x, b, v, if mode = .contentOblivious then (fun _ => 0) else fun c => Fl.maximum ((u.a d ⟨p.x, b, v, p.a⟩).1 c) 0⟩ := by
    refine ⟨hp.x, ?_, s1.b, s2.v⟩
    dsimp only
    rw [(h.a _ _ s2).1]
  constructor
  · exact ⟨(h.x _ _ s3).1, s3.a, s1.b, s2.v⟩
  · refine ⟨(h.x _ _ s3).2, fun c => ?_, fun i' i hi => ?_, fun i' i hi => ?_⟩
    · dsimp only
      split
      · exact Sc.of_zero (-1)
      · exact (h.a _ _ s2).2 c
    · dsimp only
      split
      · rfl
      · exact (h.b _ _ hp i' i hi).2
    · dsimp only
      split
      · rfl
      · exact (h.v _ _ s1 i' i hi).2

/-- the same exception, or fits that correspond -/
def FitsAlike (m : ℕ) (φ : Fin S' → Option (Fin S)) (r' : Py (Fit ℝ E S' C)) (r : Py (Fit ℝ E S C)) : Prop :=
  (∃ e, r' = .error e ∧ r = .error e) ∨ ∃ f' f, r' = .ok f' ∧ r = .ok f ∧ Same φ f'.p f.p ∧ Shrunk m φ f'.std f.std ∧ f'.itr = f.itr

theorem loop_copies {u' : Updates ℝ E S' R C} {u : Updates ℝ E S R C} (h : Alike m φ d' d u' u) (mode : Mode) (pdf : Option String) (thr : Fl ℝ)
    (n itr : ℕ) (hn : maxItr - itr = n) {p' : Params ℝ E S' C} {p : Params ℝ E S C} (hp : Same φ p' p) :
    FitsAlike m φ (loop mode u' pdf thr d' itr p') (loop mode u pdf thr d itr p) := by
  induction n generalizing itr p' p with
  | zero =>
    rw [loop_unfold mode u' pdf thr d' itr p', loop_unfold mode u pdf thr d itr p]
    obtain ⟨s1, s2⟩ := step_copies h mode hp
    rw [hp.x, s1.x]
    cases Np.linalgNorm (List.ofFn fun e => p.x e - (step mode u d p).1.x e) with
    | error e => exact Or.inl ⟨e, rfl, rfl⟩
    | ok δ =>
      cases density (K := ℝ) pdf R with
      | error e => exact Or.inl ⟨e, rfl, rfl⟩
      | ok dens =>
        have : maxItr ≤ itr + 1 := by omega
        simp only [if_pos this]
        refine Or.inr ⟨⟨(step mode u' d' p').1, (step mode u' d' p').2, itr + 1⟩, ⟨(step mode u d p).1, (step mode u d p).2, itr + 1⟩, ?_, ?_, s1, s2, rfl⟩ <;> split <;> rfl
  | succ n ih =>
    rw [loop_unfold mode u' pdf thr d' itr p', loop_unfold mode u pdf thr d itr p]
    obtain ⟨s1, s2⟩ := step_copies h mode hp
    rw [hp.x, s1.x]
    cases Np.linalgNorm (List.ofFn fun e => p.x e - (step mode u d p).1.x e) with
    | error e => exact Or.inl ⟨e, rfl, rfl⟩
    | ok δ =>
      cases density (K := ℝ) pdf R with
      | error e => exact Or.inl ⟨e, rfl, rfl⟩
      | ok dens =>
        dsimp only
        have stop : FitsAlike m φ (.ok ⟨(step mode u' d' p').1, (step mode u' d' p').2, itr + 1⟩) (.ok ⟨(step mode u d p).1, (step mode u d p).2, itr + 1⟩) :=
          Or.inr ⟨_, _, rfl, rfl, s1, s2, rfl⟩
        split
        · exact stop
        · split
          · exact stop
          · exact ih (itr + 1) (by omega) s1

theorem alike_simplified (hd : Votes φ d' d) (h : CopiesOf m φ) (hm : 0 < m) : Alike m φ d' d simplifiedU simplifiedU :=
  ⟨fun _ _ hp _ _ hi => bSimplified_copies hd hp hi, fun _ _ hp _ _ hi => vSimplified_copies hd hp hi, fun _ _ hp => aSimplified_copies hd hp h hm,
    fun _ _ hp => xSimplified_copies hd hp h hm⟩

theorem alike_original (hd : Votes φ d' d) (h : CopiesOf m φ) (hm : 0 < m) : Alike m φ d' d originalU originalU :=
  ⟨fun _ _ hp _ _ hi => bOriginal_copies hd hp hi, fun _ _ hp _ _ hi => vSimplified_copies hd hp hi, fun _ _ hp => aSimplified_copies hd hp h hm,
    fun _ _ hp => xOriginal_copies hd hp h hm⟩

theorem alike_numerical (hd : Votes φ d' d) (h : CopiesOf m φ) (hm : 0 < m) {dens : Fl ℝ → Fl ℝ → Fl ℝ → Fl ℝ → Fl ℝ → Fl ℝ} (hq : Quiet φ dens) :
    Alike m φ d' d ⟨bNumerical dens, vNumerical dens, aNumerical dens, xNumerical dens⟩ ⟨bNumerical dens, vNumerical dens, aNumerical dens, xNumerical dens⟩ :=
  ⟨fun _ _ hp _ _ hi => bNumerical_copies hd hp dens hi, fun _ _ hp _ _ hi => vNumerical_copies hd hp dens hi, fun _ _ hp => aNumerical_copies hd hp h hm hq,
    fun _ _ hp => xNumerical_copies hd hp h hm hq⟩

theorem init_copies (hd : Votes φ d' d) (h : CopiesOf m φ) (hm : 0 < m) (mode : Mode) (mos : Arr1 (Fl ℝ) E) : Same φ (init mode d' mos) (init mode d mos) := by
  have hf : Follows φ (fun e s t => d'.x e s t - mos e) fun e s t => d.x e s t - mos e :=
    ⟨fun i' i hi e r => by dsimp only; rw [hd.x.1 i' i hi], fun i' hi e r => by dsimp only; rw [hd.x.2 i' hi]; rfl⟩
  refine ⟨rfl, ?_, fun _ _ _ => rfl, fun i' i hi => ?_⟩
  · unfold init
    dsimp only
    rw [hd.cid, stdContent_follows h hm d.cid hf]
  · unfold init
    dsimp only
    split
    · rfl
    · dsimp only
      rw [nanstd_perm (colL_stack0_perm _ i'), nanstd_perm (colL_stack0_perm _ i), observerCells_follows (f' := fun e s t => d'.x e s t - mos e) (f := fun e s t => d.x e s t - mos e) (hf.1 i' i hi)]

theorem quiet_gauss {pdf : Option String} (hpdf : pdf ≠ some "uniform" ∨ ∀ i', φ i' ≠ none) {dens : Fl ℝ → Fl ℝ → Fl ℝ → Fl ℝ → Fl ℝ → Fl ℝ}
    (hd : density (K := ℝ) pdf R = .ok dens) : Quiet φ dens := by
  rintro ⟨i', hi'⟩
  rcases hpdf with hpdf | hpdf
  swap
  · exact absurd hi' (hpdf i')
  unfold density at hd
  dsimp only at hd
  split at hd
  · cases hd
    intro x b v a
    dsimp only
    unfold gaussian
    show Fl.log (_ * Fl.nan) = _
    rw [fl_mul_nan]
    rfl
  · split at hd
    · split at hd <;> cases hd
    · split at hd
      · rename_i hu
        cases pdf with
        | none => simp at hu
        | some s => exact absurd (congrArg some hu) hpdf
      · cases hd

theorem fitArr_copies (hd : Votes φ d' d) (h : CopiesOf m φ) (hm : 0 < m) (mode : Mode) (g : Method) {pdf : Option String}
    (hpdf : pdf ≠ some "uniform" ∨ ∀ i', φ i' ≠ none) (thr : Fl ℝ) (mos : Arr1 (Fl ℝ) E) :
    FitsAlike m φ (fitArr mode g pdf thr d' mos) (fitArr mode g pdf thr d mos) := by
  unfold fitArr
  cases g with
  | simplified => exact loop_copies (alike_simplified hd h hm) mode pdf thr _ 0 rfl (init_copies hd h hm mode mos)
  | original => exact loop_copies (alike_original hd h hm) mode pdf thr _ 0 rfl (init_copies hd h hm mode mos)
  | numerical =>
    unfold updates
    dsimp only
    cases hdens : density (K := ℝ) pdf R with
    | error e => exact Or.inl ⟨e, rfl, rfl⟩
    | ok dens => exact loop_copies (alike_numerical hd h hm (quiet_gauss hpdf hdens)) mode pdf thr _ 0 rfl (init_copies hd h hm mode mos)

theorem centre_copies (h : CopiesOf m φ) (hm : 0 < m) (force : Bool) (hz : force = false ∨ ∀ i', φ i' ≠ none) {p' : Params ℝ E S' C} {p : Params ℝ E S C}
    (hp : Same φ p' p) : Same φ (centre force p') (centre force p) := by
  unfold centre
  cases force
  · exact hp
  · have hz : ∀ i', φ i' ≠ none := by rcases hz with hz | hz; cases hz; exact hz
    have hl : (List.ofFn p'.b).Perm (times m (List.ofFn p.b)) := by
      have : List.ofFn p'.b = ((List.finRange S').filterMap φ).map p.b := by
        rw [List.ofFn_eq_map]
        have key : ∀ l : List (Fin S'), l.map p'.b = (l.filterMap φ).map p.b := by
          intro l
          induction l with
          | nil => rfl
          | cons a l ih =>
            rw [List.map_cons, List.filterMap_cons, ih]
            obtain ⟨i, hi⟩ := Option.ne_none_iff_exists'.mp (hz a)
            rw [hi, hp.b a i hi]
            rfl
        exact key _
      rw [this, List.ofFn_eq_map, ← map_times]
      exact (filterMap_copies φ h).map _
    have hmean : Np.mean (List.ofFn p'.b) = Np.mean (List.ofFn p.b) := by
      rw [mean_perm' hl]
      unfold Np.mean
      rw [sum_times hm, length_times, natCast_mul, ratio_copies hm]
    rw [if_pos rfl, if_pos rfl]
    dsimp only
    rw [hmean]
    refine ⟨?_, hp.a, fun i' i hi => ?_, hp.v⟩
    · dsimp only
      rw [hp.x]
    · dsimp only
      rw [hp.b i' i hi]

/-! ### the silent -/

theorem silent_updates (hd : Votes φ d' d) {g : Method} {pdf : Option String} (hpdf : pdf ≠ some "uniform" ∨ ∀ i', φ i' ≠ none) {u : Updates ℝ E S' R C}
    (hu : updates g pdf = .ok u) (p : Params ℝ E S' C) {i' : Fin S'} (hi : φ i' = none) : (u.b d' p).1 i' = .nan ∧ (u.v d' p).1 i' = .nan := by
  have h00 : (0 : Fl ℝ) / 0 = .nan := Fl.zero_div_zero
  have hx := hd.x.2 i' hi
  have hv1 : sumE (fun e s r => vFirst (resid d' p e s r) (p.v s) (p.a (d'.cid e))) i' = 0 := sumE_all_nan _ _ (by
    intro e r
    unfold resid
    rw [hx]
    unfold vFirst
    show (-(p.v i')) / vadd _ _ + p.v i' * Fl.nan / _ = _
    rw [fl_mul_nan]
    show _ + Fl.nan = _
    cases (-(p.v i')) / vadd (p.v i') (p.a (d'.cid e)) <;> rfl)
  have hv2 : sumE (fun e s r => vSecond (resid d' p e s r) (p.v s) (p.a (d'.cid e))) i' = 0 := sumE_all_nan _ _ (by
    intro e r
    unfold resid
    rw [hx]
    unfold vSecond
    show vsub (p.v i') _ / _ + Fl.nan = _
    cases vsub (p.v i') (p.a (d'.cid e)) / (vadd (p.v i') (p.a (d'.cid e))).sq <;> rfl)
  cases g with
  | simplified =>
    refine ⟨silent_bias (by decide) hu _ _ _ hx, ?_⟩
    cases hu
    show refresh (p.v i') (p.v i' - sumE _ i' / sumE _ i') = .nan
    rw [hv1, hv2, h00, Fl.sub_nan, refresh_nan]
  | original =>
    refine ⟨silent_bias (by decide) hu _ _ _ hx, ?_⟩
    cases hu
    show refresh (p.v i') (p.v i' - sumE _ i' / sumE _ i') = .nan
    rw [hv1, hv2, h00, Fl.sub_nan, refresh_nan]
  | numerical =>
    unfold updates at hu
    dsimp only at hu
    cases hdens : density (K := ℝ) pdf R with
    | error e => rw [hdens] at hu; cases hu
    | ok dens =>
      rw [hdens] at hu
      cases hu
      have hq := quiet_gauss hpdf hdens ⟨i', hi⟩
      have hs : ∀ q : Params ℝ E S' C, sumE (logCells dens d' q) i' = 0 := fun q => sumE_all_nan _ _ (by
        intro e r
        unfold logCells
        rw [hx, hq])
      have he : (0 : Fl ℝ) / eps = 0 := by
        show Fl.fin 0 / Fl.fin _ = Fl.fin 0
        rw [Fl.fin_div (by norm_num), zero_div]
      have he2 : (0 : Fl ℝ) / eps.sq = 0 := by
        show Fl.fin 0 / (Fl.fin _ * Fl.fin _) = Fl.fin 0
        rw [Fl.fin_mul, Fl.fin_div (by norm_num), zero_div]
      have hsub : (0 : Fl ℝ) - 0 = 0 := by show Fl.fin 0 - Fl.fin 0 = Fl.fin 0; rw [Fl.fin_sub, sub_zero]
      have hadd : (0 : Fl ℝ) + 0 = 0 := by show Fl.fin 0 + Fl.fin 0 = Fl.fin 0; rw [Fl.fin_add, add_zero]
      have hmul : ((2 : ℕ) : Fl ℝ) * 0 = 0 := by show Fl.fin _ * Fl.fin 0 = Fl.fin 0; rw [Fl.fin_mul, mul_zero]
      constructor
      · show refresh (p.b i') (p.b i' - diff1 _ i' / diff2 _ i') = .nan
        unfold diff1 diff2
        simp only [hs]
        rw [hmul, hsub, he, hadd, he2, h00, Fl.sub_nan, refresh_nan]
      · show refresh (p.v i') (p.v i' - diff1 _ i' / diff2 _ i') = .nan
        unfold diff1 diff2
        simp only [hs]
        rw [hmul, hsub, he, hadd, he2, h00, Fl.sub_nan, refresh_nan]

theorem silent_fit (hd : Votes φ d' d) {mode : Mode} (hmode : mode ≠ .subjectOblivious) {g : Method} {pdf : Option String}
    (hpdf : pdf ≠ some "uniform" ∨ ∀ i', φ i' ≠ none) {thr : Fl ℝ} {mos : Arr1 (Fl ℝ) E} {f : Fit ℝ E S' C} (hf : fitArr mode g pdf thr d' mos = .ok f)
    {i' : Fin S'} (hi : φ i' = none) : f.p.b i' = .nan ∧ f.p.v i' = .nan := by
  obtain ⟨u, hu, hl⟩ := fitArr_inv hf
  obtain ⟨⟨q, hq, _⟩, _⟩ := loop_out _ 0 rfl (by unfold maxItr; omega) _ hl
  rw [hq]
  unfold step
  dsimp only
  simp only [if_neg hmode]
  refine ⟨(silent_updates hd hpdf hu _ hi).1, ?_⟩
  rw [(silent_updates hd hpdf hu _ hi).2]
  rfl
end

/-! ### two runs -/

/-- Two runs on panels of different sizes whose fits correspond. -/
theorem run_panels {κ : Type} (mode : Mode) {rd rd' : Reader κ ℝ} (hobs : Obs rd) (hobs' : Obs rd') {x : Arr3 (Fl ℝ) E S R} {x' : Arr3 (Fl ℝ) E S' R}
    (ha : rd.scores = .ok ⟨E, S, R, x⟩) (ha' : rd'.scores = .ok ⟨E, S', R, x'⟩)
    (hid : rd'.disVideos.map (·.contentId) = rd.disVideos.map (·.contentId))
    (href : rd'.dataset.refVideos.map (·.contentId) = rd.dataset.refVideos.map (·.contentId))
    (z : Flag) (g pdf : Option String) (thr : Option (Fl ℝ)) {n : ℕ} {φ : Fin S' → Option (Fin S)}
    (hF : ∀ m C (cid : Fin E → Fin C),
      FitsAlike n φ (fitArr mode m pdf (thr.getD defaultThr) (⟨x', cid⟩ : Data ℝ E S' R C) (meanAlongS x'))
        (fitArr mode m pdf (thr.getD defaultThr) (⟨x, cid⟩ : Data ℝ E S R C) (meanAlongS x))) :
    (∃ e, run mode rd (optsOf z g pdf thr) = .error e ∧ run mode rd' (optsOf z g pdf thr) = .error e) ∨
    ∃ (C : ℕ) (m : Method) (cid : Fin E → Fin C) (f : Fit ℝ E S C) (f' : Fit ℝ E S' C) (dens : Fl ℝ → Fl ℝ → Fl ℝ → Fl ℝ → Fl ℝ → Fl ℝ) (obs obs' : Option (List κ)),
      density pdf R = .ok dens ∧ Same φ f'.p f.p ∧ Shrunk n φ f'.std f.std ∧ f'.itr = f.itr ∧
      fitArr mode m pdf (thr.getD defaultThr) (⟨x', cid⟩ : Data ℝ E S' R C) (meanAlongS x') = .ok f' ∧
      run mode rd (optsOf z g pdf thr) =
        .ok { result (κ := κ) mode (Ap.forced (optsOf z g pdf thr).base) dens (⟨x, cid⟩ : Data ℝ E S R C) ⟨E, S, R, x⟩ f with observers := obs } ∧
      run mode rd' (optsOf z g pdf thr) =
        .ok { result (κ := κ) mode (Ap.forced (optsOf z g pdf thr).base) dens (⟨x', cid⟩ : Data ℝ E S' R C) ⟨E, S', R, x'⟩ f' with observers := obs' } := by
  have hp : ∀ {n : ℕ} (rd : Reader κ ℝ) (x : Arr3 (Fl ℝ) E n R), rd.scores = .ok ⟨E, n, R, x⟩ →
      preprocess rd (optsOf z g pdf thr).base = .ok { arr := ⟨E, n, R, x⟩, orig := ⟨E, n, R, x⟩ } := by
    intro n rd x ha
    unfold preprocess
    rw [ha]
    rfl
  have hs : ¬ (optsOf z g pdf thr).base.subjectRejection.isTrue = true := by
    show ¬ Flag.isTrue none = true
    decide
  have hC' : numContents rd' = numContents rd := by unfold numContents; rw [href]
  have hc' : ∀ C, contentIndex (contentIdOfDisVideos rd'.disVideos) E C = contentIndex (contentIdOfDisVideos rd.disVideos) E C := by
    intro C
    unfold contentIdOfDisVideos
    rw [hid]
  have stuck : ∀ {n : ℕ} (rd₁ : Reader κ ℝ) (x : Arr3 (Fl ℝ) E n R), Obs rd₁ → rd₁.scores = .ok ⟨E, n, R, x⟩ → numContents rd₁ = numContents rd →
      (∀ C, contentIndex (contentIdOfDisVideos rd₁.disVideos) E C = contentIndex (contentIdOfDisVideos rd.disVideos) E C) → ∀ e,
      (method (optsOf z g pdf thr) = .error e ∨ (∃ m, method (optsOf z g pdf thr) = .ok m) ∧ (numContents rd = .error e ∨
        ∃ C, numContents rd = .ok C ∧ contentIndex (contentIdOfDisVideos rd.disVideos) E C = .error e)) → run mode rd₁ (optsOf z g pdf thr) = .error e := by
    intro n rd₁ x ho ha hC hc e he
    obtain ⟨mos, hmos, -⟩ := mos_run ho ha
    apply run_error
    unfold runModelingWith
    rw [if_neg hs]
    rcases he with he | ⟨⟨m, hm⟩, he | ⟨C, hC1, hc1⟩⟩
    · rw [he]
    · rw [hm]
      dsimp only
      rw [hp rd₁ x ha]
      dsimp only
      rw [hC, he]
    · rw [hm]
      dsimp only
      rw [hp rd₁ x ha]
      dsimp only
      rw [hC, hC1]
      dsimp only
      rw [hmos]
      dsimp only
      rw [hc, hc1]
  cases hm : method (optsOf z g pdf thr) with
  | error e => exact Or.inl ⟨e, stuck rd x hobs ha rfl (fun _ => rfl) e (Or.inl hm), stuck rd' x' hobs' ha' hC' hc' e (Or.inl hm)⟩
  | ok m =>
    cases hC : numContents rd with
    | error e =>
      exact Or.inl ⟨e, stuck rd x hobs ha rfl (fun _ => rfl) e (Or.inr ⟨⟨m, hm⟩, Or.inl hC⟩), stuck rd' x' hobs' ha' hC' hc' e (Or.inr ⟨⟨m, hm⟩, Or.inl hC⟩)⟩
    | ok C =>
      cases hcid : contentIndex (contentIdOfDisVideos rd.disVideos) E C with
      | error e =>
        exact Or.inl ⟨e, stuck rd x hobs ha rfl (fun _ => rfl) e (Or.inr ⟨⟨m, hm⟩, Or.inr ⟨C, hC, hcid⟩⟩),
          stuck rd' x' hobs' ha' hC' hc' e (Or.inr ⟨⟨m, hm⟩, Or.inr ⟨C, hC, hcid⟩⟩)⟩
      | ok cid =>
        have r1 := run_fit mode hobs ha z g pdf thr hm hC hcid
        have r2 := run_fit mode hobs' ha' z g pdf thr hm (hC'.trans hC) ((hc' C).trans hcid)
        rcases hF m C cid with ⟨e, h1, h2⟩ | ⟨f', f, h1, h2, h3, h4, h5⟩
        · exact Or.inl ⟨e, r1.1 e h2, r2.1 e h1⟩
        · obtain ⟨u, -, hl⟩ := fitArr_inv h2
          obtain ⟨dens, hdens⟩ := loop_dens hl
          obtain ⟨obs, e1⟩ := r1.2 f dens h2 hdens
          obtain ⟨obs', e2⟩ := r2.2 f' dens h1 hdens
          exact Or.inr ⟨C, m, cid, f, f', dens, obs, obs', hdens, h3, h4, h5, h1, e1, e2⟩

end Sureal.Mle
