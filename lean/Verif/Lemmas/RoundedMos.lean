import Verif.Lemmas.Rounding
import Verif.Lemmas.Stack
import Verif.Model.Mos
import Verif.Spec.Stats
import Mathlib.Algebra.Order.BigOperators.Group.List
/-! Sums and means in rounded arithmetic. -/
set_option linter.unusedSectionVars false
namespace Sureal
open Spec

section lawless
variable {κ K : Type} [Zero K] [One K] [Add K] [Neg K] [Sub K] [Mul K] [Div K] [NatCast K]
  [LT K] [LE K] [DecidableLT K] [DecidableLE K] [MathFn K]

/-- the run of MOS with default options, for every kind of number -/
theorem runMOS_any {rd : Reader κ K} {a : Arr3D (Fl K)} {res : Result κ K} (h : rd.scores = .ok a) (hr : runMOS rd {} = .ok res) :
    res = { (mosAndStats (fun E _ _ => E * 2) a a : Result κ K) with observers := res.observers } := by
  have hpre : preprocess rd {} = .ok { arr := a, orig := a } := by
    unfold preprocess
    rw [h]
    rfl
  unfold runMOS runModeling mosRunModeling at hr
  rw [hpre] at hr
  dsimp only [Result.withRejection] at hr
  have hp : ∀ q : List (Fl K), postprocessScores ({} : Opts K) q = q := fun q => rfl
  split at hr
  · cases hr; rfl
  · cases hr; rfl
  · cases hr; rfl
  · cases hr

/-- the example reader with the given array -/
def anyReader (E S R : ℕ) (a : Arr3 (Fl K) E S R) : Reader String K :=
  { dataset := { refVideos := [], disVideos := [] }, disVideos := [], scores := .ok ⟨E, S, R, a⟩, observers := .ok [] }

theorem anyReader_runs (E S R : ℕ) (a : Arr3 (Fl K) E S R) : ∃ res, runMOS (anyReader E S R a) {} = .ok res := by
  have hpre : preprocess (anyReader E S R a) {} = .ok { arr := ⟨E, S, R, a⟩, orig := ⟨E, S, R, a⟩ } := rfl
  unfold runMOS runModeling mosRunModeling
  rw [hpre]
  exact ⟨_, rfl⟩

end lawless

section
variable {F : Type} [Field F] [LinearOrder F] [IsStrictOrderedRing F] {ρ : F → F}

/-- a vote as the program sees it: NaN if there is none -/
def cellOf (ρ : F → F) : Option F → Fl (Rd ρ)
  | none => .nan
  | some x => .fin ⟨x⟩

theorem rd_add (a b : Rd ρ) : a + b = ⟨ρ (a.val + b.val)⟩ := rfl
theorem rd_sub (a b : Rd ρ) : a - b = ⟨ρ (a.val - b.val)⟩ := rfl
theorem rd_mul (a b : Rd ρ) : a * b = ⟨ρ (a.val * b.val)⟩ := rfl
theorem rd_div (a b : Rd ρ) : a / b = ⟨ρ (a.val / b.val)⟩ := rfl
theorem rd_cast (n : ℕ) : ((n : ℕ) : Rd ρ) = ⟨ρ n⟩ := rfl
theorem rd_lt (a b : Rd ρ) : a < b ↔ a.val < b.val := Iff.rfl
theorem rd_zero : (0 : Rd ρ) = ⟨0⟩ := rfl

theorem fl_div_pos {a b : Rd ρ} (hb : 0 < b.val) : Fl.fin a / Fl.fin b = .fin ⟨ρ (a.val / b.val)⟩ := if_pos (.inl hb)

theorem fl_zero_div_zero : Fl.fin (⟨0⟩ : Rd ρ) / Fl.fin ⟨0⟩ = .nan :=
  (if_neg (by rintro (h | h) <;> exact lt_irrefl _ h)).trans ((if_neg fun h => lt_irrefl _ h).trans (if_neg fun h => lt_irrefl _ h))

/-! ### trees of additions -/
/-- the tree of `l[0] + (l[1] + (... + 0))` -/
def listTree : List F → SumTree (Rd ρ)
  | [] => .leaf ⟨0⟩
  | x :: l => .node (.leaf ⟨x⟩) (listTree l)

theorem listTree_leaves (l : List F) : (listTree (ρ := ρ) l).leaves.map (·.val) = l ++ [0] := by
  induction l with
  | nil => rfl
  | cons x l ih => simp [listTree, SumTree.leaves, ih]

theorem listTree_depth (l : List F) : (listTree (ρ := ρ) l).depth = l.length := by
  induction l with
  | nil => rfl
  | cons x l ih => simp [listTree, SumTree.depth, ih]

theorem listTree_eval (l : List F) : (l.map fun x => Fl.fin (⟨x⟩ : Rd ρ)).sum = .fin (listTree (ρ := ρ) l).eval := by
  induction l with
  | nil => rfl
  | cons x l ih => rw [List.map_cons, List.sum_cons, ih]; rfl

/-- whole numbers are added without error -/
theorem tree_exact {N : ℕ} (h : Rounds ρ N) (t : SumTree (Rd ρ)) (hw : ∀ x ∈ t.leaves, ∃ n : ℤ, x.val = n)
    (hN : (t.leaves.map fun x => |x.val|).sum ≤ N) : t.eval.val = (t.leaves.map (·.val)).sum ∧ ∃ n : ℤ, t.eval.val = n := by
  induction t with
  | leaf x => exact ⟨by simp [SumTree.eval, SumTree.leaves], hw x (by simp [SumTree.leaves])⟩
  | node l r ihl ihr =>
    simp only [SumTree.leaves, List.map_append, List.sum_append] at hN ⊢
    have nn : ∀ l : List (Rd ρ), 0 ≤ (l.map fun x => |x.val|).sum := fun l => List.sum_nonneg (by simp)
    have abs_le : ∀ l : List (Rd ρ), |(l.map (·.val)).sum| ≤ (l.map fun x => |x.val|).sum := by
      intro l
      induction l with
      | nil => simp
      | cons x l ih =>
        simp only [List.map_cons, List.sum_cons]
        exact (abs_add_le _ _).trans (by linarith)
    obtain ⟨hl, a, ha⟩ := ihl (fun x hx => hw x (by simp [SumTree.leaves, hx])) (by linarith [nn r.leaves])
    obtain ⟨hr, b, hb⟩ := ihr (fun x hx => hw x (by simp [SumTree.leaves, hx])) (by linarith [nn l.leaves])
    have hab : ρ (l.eval.val + r.eval.val) = l.eval.val + r.eval.val := by
      rw [ha, hb, ← Int.cast_add]
      refine h.whole _ ?_
      have : |((a + b : ℤ) : F)| ≤ N := by
        rw [Int.cast_add, ← ha, ← hb, hl, hr]
        refine (abs_add_le _ _).trans (le_trans ?_ hN)
        exact add_le_add (abs_le _) (abs_le _)
      exact_mod_cast this
    change ρ (l.eval.val + r.eval.val) = _ ∧ _
    refine ⟨by rw [hab, hl, hr], a + b, ?_⟩
    change ρ (l.eval.val + r.eval.val) = _
    rw [hab, ha, hb]
    push_cast
    rfl

/-- the error of a sum, however it is put together -/
theorem tree_error {u : F} (hu : 0 ≤ u) (h : RelErr ρ u) (t : SumTree (Rd ρ)) :
    |t.eval.val - (t.leaves.map (·.val)).sum| ≤ ((1 + u) ^ t.depth - 1) * (t.leaves.map fun x => |x.val|).sum := by
  induction t with
  | leaf x => simp [SumTree.eval, SumTree.leaves, SumTree.depth]
  | node l r ihl ihr =>
    simp only [SumTree.leaves, List.map_append, List.sum_append, SumTree.depth]
    have nn : ∀ l : List (Rd ρ), 0 ≤ (l.map fun x => |x.val|).sum := fun l => List.sum_nonneg (by simp)
    have abs_le' : ∀ l : List (Rd ρ), |(l.map (·.val)).sum| ≤ (l.map fun x => |x.val|).sum := by
      intro l
      induction l with
      | nil => simp
      | cons x l ih =>
        simp only [List.map_cons, List.sum_cons]
        exact (abs_add_le _ _).trans (by linarith)
    change |ρ (l.eval.val + r.eval.val) - _| ≤ _
    set a := l.eval.val
    set b := r.eval.val
    set A := (l.leaves.map (·.val)).sum
    set B := (r.leaves.map (·.val)).sum
    set TA := (l.leaves.map fun x => |x.val|).sum
    set TB := (r.leaves.map fun x => |x.val|).sum
    set d := max l.depth r.depth
    have hTA : 0 ≤ TA := nn _
    have hTB : 0 ≤ TB := nn _
    have hA : |A| ≤ TA := abs_le' _
    have hB : |B| ≤ TB := abs_le' _
    have h1 : (1 : F) ≤ 1 + u := by linarith
    have hdl : (1 + u) ^ l.depth ≤ (1 + u) ^ d := pow_le_pow_right₀ h1 (le_max_left _ _)
    have hdr : (1 + u) ^ r.depth ≤ (1 + u) ^ d := pow_le_pow_right₀ h1 (le_max_right _ _)
    have ea : |a - A| ≤ ((1 + u) ^ d - 1) * TA := ihl.trans (by gcongr)
    have eb : |b - B| ≤ ((1 + u) ^ d - 1) * TB := ihr.trans (by gcongr)
    have e0 := h (a + b)
    have e1 : |a + b - (A + B)| ≤ ((1 + u) ^ d - 1) * (TA + TB) := by
      rw [show a + b - (A + B) = (a - A) + (b - B) by ring]
      refine (abs_add_le _ _).trans ?_
      linarith
    have e2 : |a + b| ≤ (1 + u) ^ d * (TA + TB) := by
      have : |a + b| ≤ |a + b - (A + B)| + |A + B| := by
        have := abs_add_le (a + b - (A + B)) (A + B)
        rwa [sub_add_cancel] at this
      have h3 : |A + B| ≤ TA + TB := (abs_add_le _ _).trans (add_le_add hA hB)
      linarith
    calc |ρ (a + b) - (A + B)| ≤ |ρ (a + b) - (a + b)| + |a + b - (A + B)| := by
          have := abs_add_le (ρ (a + b) - (a + b)) (a + b - (A + B))
          rwa [sub_add_sub_cancel] at this
      _ ≤ u * ((1 + u) ^ d * (TA + TB)) + ((1 + u) ^ d - 1) * (TA + TB) := by
          have := mul_le_mul_of_nonneg_left e2 hu
          linarith
      _ = ((1 + u) ^ (d + 1) - 1) * (TA + TB) := by rw [pow_succ]; ring

/-- a sum of numbers that are not negative has a relative error -/
theorem tree_rel {u : F} (hu : 0 ≤ u) (hu1 : u ≤ 1) (h : RelErr ρ u) (t : SumTree (Rd ρ)) (h0 : ∀ x ∈ t.leaves, 0 ≤ x.val) :
    (1 - u) ^ t.depth * (t.leaves.map (·.val)).sum ≤ t.eval.val ∧ t.eval.val ≤ (1 + u) ^ t.depth * (t.leaves.map (·.val)).sum := by
  induction t with
  | leaf x => simp [SumTree.eval, SumTree.leaves, SumTree.depth]
  | node l r ihl ihr =>
    have nn : ∀ l : List (Rd ρ), (∀ x ∈ l, 0 ≤ x.val) → 0 ≤ (l.map fun x => x.val).sum := fun l hl => List.sum_nonneg (by simpa using hl)
    have hl0 : ∀ x ∈ l.leaves, 0 ≤ x.val := fun x hx => h0 x (by simp [SumTree.leaves, hx])
    have hr0 : ∀ x ∈ r.leaves, 0 ≤ x.val := fun x hx => h0 x (by simp [SumTree.leaves, hx])
    obtain ⟨l1, l2⟩ := ihl hl0
    obtain ⟨r1, r2⟩ := ihr hr0
    simp only [SumTree.leaves, List.map_append, List.sum_append, SumTree.depth]
    change _ ≤ ρ (l.eval.val + r.eval.val) ∧ ρ (l.eval.val + r.eval.val) ≤ _
    set a := l.eval.val
    set b := r.eval.val
    have hA := nn _ hl0
    have hB := nn _ hr0
    set A := (l.leaves.map (·.val)).sum
    set B := (r.leaves.map (·.val)).sum
    set d := max l.depth r.depth
    have h1 : (1 : F) ≤ 1 + u := by linarith
    have g1 : (0 : F) ≤ 1 - u := by linarith
    have g2 : (1 : F) - u ≤ 1 := by linarith
    have p1 : (1 - u) ^ d * A ≤ a := le_trans (mul_le_mul_of_nonneg_right (pow_le_pow_of_le_one g1 g2 (le_max_left _ _)) hA) l1
    have p2 : (1 - u) ^ d * B ≤ b := le_trans (mul_le_mul_of_nonneg_right (pow_le_pow_of_le_one g1 g2 (le_max_right _ _)) hB) r1
    have p3 : a ≤ (1 + u) ^ d * A := l2.trans (mul_le_mul_of_nonneg_right (pow_le_pow_right₀ h1 (le_max_left _ _)) hA)
    have p4 : b ≤ (1 + u) ^ d * B := r2.trans (mul_le_mul_of_nonneg_right (pow_le_pow_right₀ h1 (le_max_right _ _)) hB)
    have ha0 : 0 ≤ a := le_trans (mul_nonneg (pow_nonneg g1 _) hA) p1
    have hb0 : 0 ≤ b := le_trans (mul_nonneg (pow_nonneg g1 _) hB) p2
    have e0 := abs_le.mp (h (a + b))
    rw [abs_of_nonneg (add_nonneg ha0 hb0)] at e0
    constructor
    · calc (1 - u) ^ (d + 1) * (A + B) = (1 - u) * ((1 - u) ^ d * A + (1 - u) ^ d * B) := by rw [pow_succ]; ring
        _ ≤ (1 - u) * (a + b) := mul_le_mul_of_nonneg_left (add_le_add p1 p2) g1
        _ ≤ _ := by linarith [e0.1]
    · calc ρ (a + b) ≤ (1 + u) * (a + b) := by linarith [e0.2]
        _ ≤ (1 + u) * ((1 + u) ^ d * A + (1 + u) ^ d * B) := mul_le_mul_of_nonneg_left (add_le_add p3 p4) (by linarith)
        _ = _ := by rw [pow_succ]; ring

/-! ### what the program sees of the votes of a video -/
/-- the votes of a video in the order of the stacked array -/
def stackedVotes {E S R : ℕ} (v : Fin E → Fin S → Fin R → Option F) (e : Fin E) : List F :=
  ((List.ofFn fun r => List.ofFn fun s => v e s r).flatten).filterMap id

theorem stackedVotes_perm {E S R : ℕ} (v : Fin E → Fin S → Fin R → Option F) (e : Fin E) :
    (stackedVotes v e).Perm ((videoCells v e).filterMap id) := by
  unfold stackedVotes videoCells
  exact (flatten_ofFn_comm fun s r => v e s r).symm.filterMap id

theorem notNan_row {E S R : ℕ} (v : Fin E → Fin S → Fin R → Option F) (e : Fin E) :
    Np.notNan (rowL (stack1 fun e s r => cellOf ρ (v e s r)) e) = (stackedVotes v e).map fun x => Fl.fin (⟨x⟩ : Rd ρ) := by
  rw [rowL_stack1]
  have h : (List.ofFn fun r => List.ofFn fun s => cellOf ρ (v e s r)).flatten
      = ((List.ofFn fun r => List.ofFn fun s => v e s r).flatten).map (cellOf ρ) := by
    rw [List.map_flatten, List.map_ofFn]
    congr 2
    funext r
    simp [Function.comp_def, List.map_ofFn]
  rw [h]
  unfold stackedVotes Np.notNan
  generalize (List.ofFn fun r => List.ofFn fun s => v e s r).flatten = l
  induction l with
  | nil => rfl
  | cons x l ih => cases x <;> simp_all [cellOf, Fl.isNan]

/-- the mean as the program computes it -/
theorem rounded_mean {N : ℕ} (h : Rounds ρ N) {E S R : ℕ} (v : Fin E → Fin S → Fin R → Option F) (e : Fin E) (hn : (stackedVotes v e).length ≤ N)
    (h0 : stackedVotes v e ≠ []) : meanAlongS (fun e s r => cellOf ρ (v e s r)) e
      = .fin ⟨ρ ((listTree (ρ := ρ) (stackedVotes v e)).eval.val / (stackedVotes v e).length)⟩ := by
  unfold meanAlongS Np.nanmean Np.nansum Np.sum Np.countNotNan
  rw [notNan_row, listTree_eval, List.length_map]
  have hc : ρ (((stackedVotes v e).length : ℕ) : F) = (stackedVotes v e).length := by
    have := h.whole ((stackedVotes v e).length : ℤ) (by rw [abs_of_nonneg (by positivity)]; exact_mod_cast hn)
    simpa using this
  have hp : (0 : F) < (stackedVotes v e).length := by exact_mod_cast List.length_pos_iff.mpr h0
  change Fl.fin _ / Fl.fin (⟨ρ ((stackedVotes v e).length : F)⟩ : Rd ρ) = _
  rw [hc, fl_div_pos hp]

/-- no votes, no mean -/
theorem rounded_mean_none {N : ℕ} (h : Rounds ρ N) {E S R : ℕ} (v : Fin E → Fin S → Fin R → Option F) (e : Fin E)
    (h0 : stackedVotes v e = []) : meanAlongS (fun e s r => cellOf ρ (v e s r)) e = .nan := by
  unfold meanAlongS Np.nanmean Np.nansum Np.sum Np.countNotNan
  rw [notNan_row, h0]
  have hc : ρ ((0 : ℕ) : F) = 0 := by
    have := h.whole 0 (by simp)
    simpa using this
  change Fl.fin (⟨0⟩ : Rd ρ) / Fl.fin ⟨ρ ((0 : ℕ) : F)⟩ = _
  rw [hc, fl_zero_div_zero]

end
end Sureal
