import Verif.Lemmas.MleMethods
import Mathlib.Data.List.FinRange
/-! Reordering videos and observers and shifting the scale commutes with the MLE models. -/
set_option linter.unusedSectionVars false
namespace Sureal.Mle
open Sureal Spec
variable {E S R C : ℕ}

/-! ### arithmetic with NaN and infinities -/

theorem fl_add_comm (a b : Fl ℝ) : a + b = b + a := by
  cases a <;> cases b <;> first | rfl | (rw [Fl.fin_add, Fl.fin_add, add_comm])

theorem fl_add_assoc (a b c : Fl ℝ) : a + b + c = a + (b + c) := by
  cases a <;> cases b <;> cases c <;> first | rfl | (simp only [Fl.fin_add, add_assoc])

theorem add_sub_add (a b : Fl ℝ) (c : ℝ) : a + .fin c - (b + .fin c) = a - b := by
  cases a <;> cases b <;> first | rfl | (simp only [Fl.fin_add, Fl.fin_sub, add_sub_add_right_eq_sub])

theorem add_right_comm' (a b : Fl ℝ) (c : ℝ) : a + .fin c + b = a + b + .fin c := by
  rw [fl_add_assoc, fl_add_comm (.fin c), fl_add_assoc]

theorem add_sub_right_comm (a b : Fl ℝ) (c : ℝ) : a + .fin c - b = a - b + .fin c := by
  cases a <;> cases b <;> first | rfl | (simp only [Fl.fin_add, Fl.fin_sub]; congr 1; ring)

theorem add_fin_zero (a : Fl ℝ) : a + .fin 0 = a := by
  cases a <;> first | rfl | (simp only [Fl.fin_add, add_zero])

theorem oneOrNan_add (a : Fl ℝ) (c : ℝ) : oneOrNan (a + .fin c) = oneOrNan a := by
  cases a <;> rfl

theorem isNan_add (a : Fl ℝ) (c : ℝ) : (a + .fin c).isNan = a.isNan := by cases a <;> rfl

theorem refresh_shift (x q : Fl ℝ) (c : ℝ) : refresh (x + .fin c) (x + .fin c - q) = refresh x (x - q) + .fin c := by
  rw [refresh_eq, refresh_eq]
  have h9 : (0 : ℝ) < 9 / 10 := by norm_num
  have h1 : (0 : ℝ) < 1 / 10 := by norm_num
  have p9 : (Fl.pinf : Fl ℝ) * .fin (9 / 10) = .pinf := by show Fl.infMul true (9 / 10 : ℝ) = _; unfold Fl.infMul; rw [if_pos h9]; rfl
  have n9 : (Fl.ninf : Fl ℝ) * .fin (9 / 10) = .ninf := by show Fl.infMul false (9 / 10 : ℝ) = _; unfold Fl.infMul; rw [if_pos h9]; rfl
  have p1 : (Fl.pinf : Fl ℝ) * .fin (1 / 10) = .pinf := by show Fl.infMul true (1 / 10 : ℝ) = _; unfold Fl.infMul; rw [if_pos h1]; rfl
  have n1 : (Fl.ninf : Fl ℝ) * .fin (1 / 10) = .ninf := by show Fl.infMul false (1 / 10 : ℝ) = _; unfold Fl.infMul; rw [if_pos h1]; rfl
  cases x <;> cases q
  case fin.fin => simp only [Fl.fin_add, Fl.fin_sub, Fl.fin_mul]; congr 1; ring
  case fin.pinf => show Fl.fin _ * Fl.fin _ + Fl.ninf * Fl.fin _ = Fl.fin _ * Fl.fin _ + Fl.ninf * Fl.fin _ + _; rw [n1]; rfl
  case fin.ninf => show Fl.fin _ * Fl.fin _ + Fl.pinf * Fl.fin _ = Fl.fin _ * Fl.fin _ + Fl.pinf * Fl.fin _ + _; rw [p1]; rfl
  case pinf.fin => show Fl.pinf * Fl.fin _ + Fl.pinf * Fl.fin _ = Fl.pinf * Fl.fin _ + Fl.pinf * Fl.fin _ + _; rw [p1, p9]; rfl
  case pinf.ninf => show Fl.pinf * Fl.fin _ + Fl.pinf * Fl.fin _ = Fl.pinf * Fl.fin _ + Fl.pinf * Fl.fin _ + _; rw [p1, p9]; rfl
  case ninf.fin => show Fl.ninf * Fl.fin _ + Fl.ninf * Fl.fin _ = Fl.ninf * Fl.fin _ + Fl.ninf * Fl.fin _ + _; rw [n1, n9]; rfl
  case ninf.pinf => show Fl.ninf * Fl.fin _ + Fl.ninf * Fl.fin _ = Fl.ninf * Fl.fin _ + Fl.ninf * Fl.fin _ + _; rw [n1, n9]; rfl
  case pinf.pinf => show _ + Fl.nan * _ = _ + Fl.nan * _ + _; simp
  case ninf.ninf => show _ + Fl.nan * _ = _ + Fl.nan * _ + _; simp
  all_goals simp

/-! ### sums and orders -/

instance : LeftCommutative (fun a b : Fl ℝ => a + b) :=
  ⟨fun a b c => by show a + (b + c) = b + (a + c); rw [← fl_add_assoc, fl_add_comm a b, fl_add_assoc]⟩

theorem sum_perm {l l' : List (Fl ℝ)} (h : l.Perm l') : Np.sum l = Np.sum l' := by
  unfold Np.sum List.sum
  exact h.foldr_eq 0

theorem notNan_perm {l l' : List (Fl ℝ)} (h : l.Perm l') : (Np.notNan l).Perm (Np.notNan l') := h.filter _

theorem nansum_perm {l l' : List (Fl ℝ)} (h : l.Perm l') : Np.nansum l = Np.nansum l' := sum_perm (notNan_perm h)

theorem countNotNan_perm {l l' : List (Fl ℝ)} (h : l.Perm l') : Np.countNotNan l = Np.countNotNan l' := (notNan_perm h).length_eq

theorem nanmean_perm {l l' : List (Fl ℝ)} (h : l.Perm l') : Np.nanmean l = Np.nanmean l' := by
  unfold Np.nanmean; rw [nansum_perm h, countNotNan_perm h]

theorem nanstd_perm {l l' : List (Fl ℝ)} (h : l.Perm l') (n : ℕ) : Np.nanstd n l = Np.nanstd n l' := by
  unfold Np.nanstd Np.nanvar
  rw [countNotNan_perm h, nanmean_perm h, sum_perm ((notNan_perm h).map _)]

theorem mean_perm' {l l' : List (Fl ℝ)} (h : l.Perm l') : Np.mean l = Np.mean l' := by
  unfold Np.mean; rw [sum_perm h, h.length_eq]

theorem all_perm {α : Type} {l l' : List α} (h : l.Perm l') (f : α → Bool) : l.all f = l'.all f := by
  rw [Bool.eq_iff_iff, List.all_eq_true, List.all_eq_true]
  exact ⟨fun hh x hx => hh x (h.mem_iff.mpr hx), fun hh x hx => hh x (h.mem_iff.mp hx)⟩

theorem norm_perm {l l' : List (Fl ℝ)} (h : l.Perm l') : Np.linalgNorm l = Np.linalgNorm l' := by
  unfold Np.linalgNorm
  rw [all_perm h, sum_perm (h.map _)]

theorem ofFn_perm {α : Type} {n : ℕ} (f : Fin n → α) (τ : Equiv.Perm (Fin n)) : (List.ofFn fun i => f (τ i)).Perm (List.ofFn f) :=
  Equiv.Perm.ofFn_comp_perm τ f

theorem finRange_perm {n : ℕ} (τ : Equiv.Perm (Fin n)) : ((List.finRange n).map τ).Perm (List.finRange n) := by
  have := ofFn_perm (fun i : Fin n => i) τ
  rwa [List.ofFn_eq_map, List.ofFn_eq_map, List.map_id'] at this

variable (τ : Equiv.Perm (Fin E)) (σ : Equiv.Perm (Fin S))

theorem videoCells_act {α : Type} (f : Arr3 α E S R) (e : Fin E) :
    (videoCells (fun e s r => f (τ e) (σ s) r) e).Perm (videoCells f (τ e)) := by
  unfold videoCells
  exact (ofFn_perm (fun s => List.ofFn fun r => f (τ e) s r) σ).flatten

theorem observerCells_act {α : Type} (f : Arr3 α E S R) (s : Fin S) :
    (observerCells (fun e s r => f (τ e) (σ s) r) s).Perm (observerCells f (σ s)) := by
  unfold observerCells
  exact (ofFn_perm (fun e => List.ofFn fun r => f e (σ s) r) τ).flatten

theorem ravel3_act {α : Type} (f : Arr3 α E S R) : (ravel3 fun e s r => f (τ e) (σ s) r).Perm (ravel3 f) := by
  have h : ∀ g : Arr3 α E S R, ravel3 g = (List.ofFn fun e => videoCells g e).flatten := fun g => rfl
  rw [h, h]
  refine List.Perm.trans ?_ (ofFn_perm (fun e => videoCells f e) τ).flatten
  apply List.Perm.flatten_congr
  rw [List.forall₂_iff_get]
  refine ⟨by simp, fun i h1 h2 => ?_⟩
  simp only [List.get_eq_getElem, List.getElem_ofFn]
  exact videoCells_act τ σ f _

theorem sumE_act (f : Arr3 (Fl ℝ) E S R) : sumE (fun e s r => f (τ e) (σ s) r) = fun s => sumE f (σ s) := by
  funext s
  unfold sumE
  rw [nansum_perm (colL_stack0_perm _ s), nansum_perm (colL_stack0_perm f (σ s)), nansum_perm (observerCells_act τ σ f s)]

theorem sumS_act (f : Arr3 (Fl ℝ) E S R) : sumS (fun e s r => f (τ e) (σ s) r) = fun e => sumS f (τ e) := by
  funext e
  unfold sumS
  rw [nansum_perm (rowL_stack1_perm _ e), nansum_perm (rowL_stack1_perm f (τ e)), nansum_perm (videoCells_act τ σ f e)]

theorem sumContent_foldl (cid : Fin E → Fin C) (xs : Arr1 (Fl ℝ) E) (c : Fin C) :
    sumContent cid xs c = (List.finRange E).foldl (fun t e => if c = cid e then t + xs e else t) 0 := by
  unfold sumContent
  have key : ∀ (l : List (Fin E)) (g : Fin C → Fl ℝ),
      l.foldl (fun sums e => fun c => if c = cid e then sums c + xs e else sums c) g c =
        l.foldl (fun t e => if c = cid e then t + xs e else t) (g c) := by
    intro l
    induction l with
    | nil => intro g; rfl
    | cons e l ih => intro g; rw [List.foldl_cons, List.foldl_cons, ih]
  exact key _ _

theorem sumContent_act (cid : Fin E → Fin C) (xs : Arr1 (Fl ℝ) E) :
    sumContent (fun e => cid (τ e)) (fun e => xs (τ e)) = sumContent cid xs := by
  funext c
  rw [sumContent_foldl, sumContent_foldl]
  have h1 : (List.finRange E).foldl (fun t e => if c = cid (τ e) then t + xs (τ e) else t) (0 : Fl ℝ) =
      ((List.finRange E).map τ).foldl (fun t e => if c = cid e then t + xs e else t) 0 := by rw [List.foldl_map]
  rw [h1]
  have : RightCommutative (fun (t : Fl ℝ) e => if c = cid e then t + xs e else t) := by
    constructor
    intro t a b
    split <;> split <;> first | rfl | (rw [fl_add_assoc, fl_add_comm (xs _), fl_add_assoc])
  exact (finRange_perm τ).foldl_eq 0

theorem stdContent_act (cid : Fin E → Fin C) (r : Arr3 (Fl ℝ) E S R) :
    stdContent (fun e => cid (τ e)) (fun e s t => r (τ e) (σ s) t) = stdContent cid r := by
  funext c
  unfold stdContent
  apply nanstd_perm
  have h1 : ((List.finRange E).flatMap fun e =>
        if cid (τ e) = c then (List.ofFn fun s => List.ofFn fun t => r (τ e) s t).flatten else []) =
      ((List.finRange E).map τ).flatMap fun e => if cid e = c then (List.ofFn fun s => List.ofFn fun t => r e s t).flatten else [] := by
    rw [List.flatMap_map]
  refine List.Perm.trans ?_ ((finRange_perm τ).flatMap_right _)
  rw [← h1]
  apply List.Perm.flatMap_left
  intro e _
  split
  · exact (ofFn_perm (fun s => List.ofFn fun t => r (τ e) s t) σ).flatten
  · exact List.Perm.refl _

/-! ### the action on votes and parameters -/

variable (c : Fin E → ℝ)

/-- the votes with the videos reordered by `τ`, the observers by `σ`, and `c e` added to the votes on video `e` -/
noncomputable def actD (d : Data ℝ E S R C) : Data ℝ E S R C := ⟨fun e s r => d.x (τ e) (σ s) r + .fin (c e), fun e => d.cid (τ e)⟩

/-- the parameters that belong to these votes -/
noncomputable def actP (p : Params ℝ E S C) : Params ℝ E S C :=
  ⟨fun e => p.x (τ e) + .fin (c e), fun s => p.b (σ s), fun s => p.v (σ s), p.a⟩

/-- the standard deviations that belong to these votes -/
def actS (p : Stds ℝ E S C) : Stds ℝ E S C := ⟨fun e => p.x (τ e), fun s => p.b (σ s), fun s => p.v (σ s), p.a⟩

variable (d : Data ℝ E S R C) (p : Params ℝ E S C)

theorem resid_act : resid (actD τ σ c d) (actP τ σ c p) = fun e s r => resid d p (τ e) (σ s) r := by
  funext e s r
  unfold resid actD actP
  dsimp only
  rw [add_sub_add]

theorem bSimplified_act : bSimplified (actD τ σ c d) (actP τ σ c p) =
    (fun s => (bSimplified d p).1 (σ s), fun s => (bSimplified d p).2 (σ s)) := by
  have h1 := sumE_act τ σ fun e s r => (d.x e s r - p.x e) / vadd (p.v s) (p.a (d.cid e))
  have h2 := sumE_act τ σ fun e s r => oneOrNan (d.x e s r) / vadd (p.v s) (p.a (d.cid e))
  unfold bSimplified
  unfold actD actP
  dsimp only
  simp only [add_sub_add, oneOrNan_add]
  rw [h1, h2]

theorem bOriginal_act : bOriginal (actD τ σ c d) (actP τ σ c p) =
    (fun s => (bOriginal d p).1 (σ s), fun s => (bOriginal d p).2 (σ s)) := by
  have h1 := sumE_act τ σ fun e s r => (d.x e s r - p.x e - p.b s) / vadd (p.v s) (p.a (d.cid e))
  have h2 := sumE_act τ σ fun e s r => (-oneOrNan (d.x e s r)) / vadd (p.v s) (p.a (d.cid e))
  unfold bOriginal
  unfold actD actP
  dsimp only
  simp only [add_sub_add, oneOrNan_add]
  rw [h1, h2]

theorem vSimplified_act : vSimplified (actD τ σ c d) (actP τ σ c p) =
    (fun s => (vSimplified d p).1 (σ s), fun s => (vSimplified d p).2 (σ s)) := by
  have h1 := sumE_act τ σ fun e s r => vFirst (resid d p e s r) (p.v s) (p.a (d.cid e))
  have h2 := sumE_act τ σ fun e s r => vSecond (resid d p e s r) (p.v s) (p.a (d.cid e))
  unfold vSimplified
  rw [resid_act]
  unfold actD actP
  dsimp only
  rw [h1, h2]

theorem aSimplified_act : aSimplified (actD τ σ c d) (actP τ σ c p) = aSimplified d p := by
  have h1 := sumS_act τ σ fun e s r => aFirst (resid d p e s r) (p.v s) (p.a (d.cid e))
  have h2 := sumS_act τ σ fun e s r => aSecond (resid d p e s r) (p.v s) (p.a (d.cid e))
  unfold aSimplified
  rw [resid_act]
  unfold actD actP
  dsimp only
  rw [h1, h2, sumContent_act, sumContent_act]

theorem xOriginal_act : xOriginal (actD τ σ c d) (actP τ σ c p) =
    (fun e => (xOriginal d p).1 (τ e) + .fin (c e), fun e => (xOriginal d p).2 (τ e)) := by
  have h1 := sumS_act τ σ fun e s r => resid d p e s r / vadd (p.v s) (p.a (d.cid e))
  have h2 := sumS_act τ σ fun e s r => (-oneOrNan (d.x e s r)) / vadd (p.v s) (p.a (d.cid e))
  unfold xOriginal
  rw [resid_act]
  unfold actD actP
  dsimp only
  simp only [oneOrNan_add]
  rw [h1, h2]
  dsimp only
  simp only [refresh_shift]

theorem xSimplified_act : xSimplified (actD τ σ 0 d) (actP τ σ 0 p) =
    (fun e => (xSimplified d p).1 (τ e) + .fin ((0 : Fin E → ℝ) e), fun e => (xSimplified d p).2 (τ e)) := by
  have h1 := sumS_act τ σ fun e s r => (d.x e s r - p.b s) / vadd (p.v s) (p.a (d.cid e))
  have h2 := sumS_act τ σ fun e s r => oneOrNan (d.x e s r) / vadd (p.v s) (p.a (d.cid e))
  unfold xSimplified
  unfold actD actP
  dsimp only
  simp only [Pi.zero_apply, add_fin_zero]
  rw [h1, h2]

/-- a density that depends on the difference of the vote and the quality only, or `c = 0` -/
def ShiftFree (dens : Fl ℝ → Fl ℝ → Fl ℝ → Fl ℝ → Fl ℝ → Fl ℝ) (c : Fin E → ℝ) : Prop :=
  ∀ e o x b v a, dens (o + .fin (c e)) (x + .fin (c e)) b v a = dens o x b v a

theorem shiftFree_zero (dens : Fl ℝ → Fl ℝ → Fl ℝ → Fl ℝ → Fl ℝ → Fl ℝ) : ShiftFree dens (0 : Fin E → ℝ) := by
  intro e o x b v a; show dens (o + .fin 0) (x + .fin 0) b v a = _; rw [add_fin_zero, add_fin_zero]

theorem shiftFree_gauss {pdf : Option String} (h : pdf ≠ some "uniform" ∨ c = 0) {dens : Fl ℝ → Fl ℝ → Fl ℝ → Fl ℝ → Fl ℝ → Fl ℝ}
    (hd : density (K := ℝ) pdf R = .ok dens) : ShiftFree dens c := by
  rcases h with h | rfl
  swap
  · exact shiftFree_zero dens
  unfold density at hd
  dsimp only at hd
  split at hd
  · cases hd
    intro e o x b v a
    dsimp only
    unfold gaussian
    rw [add_right_comm', add_sub_add]
  · split at hd
    · split at hd <;> cases hd
    · split at hd
      · rename_i hu
        cases pdf with
        | none => simp at hu
        | some s => exact absurd (congrArg some hu) h
      · cases hd

variable {dens : Fl ℝ → Fl ℝ → Fl ℝ → Fl ℝ → Fl ℝ → Fl ℝ}

theorem logCells_act (hd : ShiftFree dens c) :
    logCells dens (actD τ σ c d) (actP τ σ c p) = fun e s r => logCells dens d p (τ e) (σ s) r := by
  funext e s r
  unfold logCells actD actP
  dsimp only
  rw [hd]

theorem bNumerical_act (hd : ShiftFree dens c) : bNumerical dens (actD τ σ c d) (actP τ σ c p) =
    (fun s => (bNumerical dens d p).1 (σ s), fun s => (bNumerical dens d p).2 (σ s)) := by
  have h : ∀ h, sumE (logCells dens (actD τ σ c d) { actP τ σ c p with b := fun s => (actP τ σ c p).b s + h }) =
      fun s => sumE (logCells dens d { p with b := fun s => p.b s + h }) (σ s) := by
    intro h
    rw [← sumE_act τ σ, ← logCells_act τ σ c d _ hd]
    rfl
  unfold bNumerical
  simp only [h]
  rfl

theorem vNumerical_act (hd : ShiftFree dens c) : vNumerical dens (actD τ σ c d) (actP τ σ c p) =
    (fun s => (vNumerical dens d p).1 (σ s), fun s => (vNumerical dens d p).2 (σ s)) := by
  have h : ∀ h, sumE (logCells dens (actD τ σ c d) { actP τ σ c p with v := fun s => (actP τ σ c p).v s + h }) =
      fun s => sumE (logCells dens d { p with v := fun s => p.v s + h }) (σ s) := by
    intro h
    rw [← sumE_act τ σ, ← logCells_act τ σ c d _ hd]
    rfl
  unfold vNumerical
  simp only [h]
  rfl

theorem aNumerical_act (hd : ShiftFree dens c) : aNumerical dens (actD τ σ c d) (actP τ σ c p) = aNumerical dens d p := by
  have h : ∀ h, sumS (logCells dens (actD τ σ c d) { actP τ σ c p with a := fun s => (actP τ σ c p).a s + h }) =
      fun e => sumS (logCells dens d { p with a := fun s => p.a s + h }) (τ e) := by
    intro h
    rw [← sumS_act τ σ, ← logCells_act τ σ c d _ hd]
    rfl
  have h1 : ∀ ll : Fl ℝ → Arr1 (Fl ℝ) E, diff1 (fun h e => ll h (τ e)) = fun e => diff1 ll (τ e) := fun ll => rfl
  have h2 : ∀ ll : Fl ℝ → Arr1 (Fl ℝ) E, diff2 (fun h e => ll h (τ e)) = fun e => diff2 ll (τ e) := fun ll => rfl
  unfold aNumerical
  simp only [h]
  have hc : (actD τ σ c d).cid = fun e => d.cid (τ e) := rfl
  rw [hc]
  rw [h1 fun h => sumS (logCells dens d { p with a := fun s => p.a s + h }), h2 fun h => sumS (logCells dens d { p with a := fun s => p.a s + h }),
    sumContent_act, sumContent_act]
  rfl

theorem xNumerical_act (hd : ShiftFree dens c) : xNumerical dens (actD τ σ c d) (actP τ σ c p) =
    (fun e => (xNumerical dens d p).1 (τ e) + .fin (c e), fun e => (xNumerical dens d p).2 (τ e)) := by
  have h : ∀ h, sumS (logCells dens (actD τ σ c d) { actP τ σ c p with x := fun e => (actP τ σ c p).x e + h }) =
      fun e => sumS (logCells dens d { p with x := fun e => p.x e + h }) (τ e) := by
    intro h
    rw [← sumS_act τ σ, ← logCells_act τ σ c d _ hd]
    congr 2
    unfold actP
    dsimp only
    simp only [add_right_comm']
  have h1 : ∀ ll : Fl ℝ → Arr1 (Fl ℝ) E, diff1 (fun h e => ll h (τ e)) = fun e => diff1 ll (τ e) := fun ll => rfl
  have h2 : ∀ ll : Fl ℝ → Arr1 (Fl ℝ) E, diff2 (fun h e => ll h (τ e)) = fun e => diff2 ll (τ e) := fun ll => rfl
  unfold xNumerical
  simp only [h]
  rw [h1 fun h => sumS (logCells dens d { p with x := fun s => p.x s + h }), h2 fun h => sumS (logCells dens d { p with x := fun s => p.x s + h })]
  have hx : ∀ e, (actP τ σ c p).x e = p.x (τ e) + .fin (c e) := fun e => rfl
  simp only [hx, refresh_shift]

/-! ### one pass, and the loop -/

/-- the updates of biases, inconsistencies and ambiguities commute with the action -/
structure Commutes (u : Updates ℝ E S R C) (d : Data ℝ E S R C) : Prop where
  b : ∀ p, u.b (actD τ σ c d) (actP τ σ c p) = (fun s => (u.b d p).1 (σ s), fun s => (u.b d p).2 (σ s))
  v : ∀ p, u.v (actD τ σ c d) (actP τ σ c p) = (fun s => (u.v d p).1 (σ s), fun s => (u.v d p).2 (σ s))
  a : ∀ p, u.a (actD τ σ c d) (actP τ σ c p) = u.a d p

/-- the update of the qualities commutes with the action at these parameters -/
def CommutesX (u : Updates ℝ E S R C) (d : Data ℝ E S R C) (p : Params ℝ E S C) : Prop :=
  u.x (actD τ σ c d) (actP τ σ c p) = (fun e => (u.x d p).1 (τ e) + .fin (c e), fun e => (u.x d p).2 (τ e))

theorem step_act {u : Updates ℝ E S R C} (h : Commutes τ σ c u d) (mode : Mode)
    (hx : CommutesX τ σ c u d ⟨p.x, (step mode u d p).1.b, (step mode u d p).1.v, (step mode u d p).1.a⟩) :
    step mode u (actD τ σ c d) (actP τ σ c p) = (actP τ σ c (step mode u d p).1, actS τ σ (step mode u d p).2) := by
  have hb := h.b p
  have hv : ∀ B : Fin S → Fl ℝ, u.v (actD τ σ c d) { x := (actP τ σ c p).x, b := fun s => B (σ s), v := (actP τ σ c p).v, a := (actP τ σ c p).a } =
      (fun s => (u.v d { p with b := B }).1 (σ s), fun s => (u.v d { p with b := B }).2 (σ s)) := fun B => h.v { p with b := B }
  have ha : ∀ B V : Fin S → Fl ℝ, u.a (actD τ σ c d) { x := (actP τ σ c p).x, b := fun s => B (σ s), v := fun s => V (σ s), a := (actP τ σ c p).a } =
      u.a d { p with b := B, v := V } := fun B V => h.a { p with b := B, v := V }
  have hx' : ∀ (B V : Fin S → Fl ℝ) (A : Fin C → Fl ℝ), CommutesX τ σ c u d ⟨p.x, B, V, A⟩ →
      u.x (actD τ σ c d) { x := (actP τ σ c p).x, b := fun s => B (σ s), v := fun s => V (σ s), a := A } =
      (fun e => (u.x d { p with b := B, v := V, a := A }).1 (τ e) + .fin (c e), fun e => (u.x d { p with b := B, v := V, a := A }).2 (τ e)) :=
    fun B V A h => h
  cases mode
  · have ha1 := ha (u.b d p).1 (fun s => Fl.maximum ((u.v d { p with b := (u.b d p).1 }).1 s) 0)
    have hx1 := hx' _ _ _ hx
    unfold step at hx1 ⊢
    simp only [reduceCtorEq, if_false] at hx1 ⊢
    rw [hb, hv, ha1, hx1]
    rfl
  · have ha1 := ha (u.b d p).1 (fun s => Fl.maximum ((u.v d { p with b := (u.b d p).1 }).1 s) 0)
    have hx1 := hx' _ _ _ hx
    unfold step at hx1 ⊢
    simp only [reduceCtorEq, if_false, if_true] at hx1 ⊢
    rw [hb, hv, hx1]
    rfl
  · have ha1 := ha (fun _ => 0) (fun _ => 0)
    have hx1 := hx' _ _ _ hx
    unfold step at hx1 ⊢
    simp only [reduceCtorEq, if_false, if_true] at hx1 ⊢
    rw [ha1, hx1]
    rfl

/-- what the loop leaves behind, for the reordered and shifted votes -/
noncomputable def actF (f : Fit ℝ E S C) : Fit ℝ E S C := ⟨actP τ σ c f.p, actS τ σ f.std, f.itr⟩

theorem norm_act (p q : Params ℝ E S C) :
    Np.linalgNorm (List.ofFn fun e => (actP τ σ c p).x e - (actP τ σ c q).x e) = Np.linalgNorm (List.ofFn fun e => p.x e - q.x e) := by
  rw [← norm_perm (ofFn_perm (fun e => p.x e - q.x e) τ)]
  congr 2
  funext e
  exact add_sub_add _ _ _

/-- an exception stays, a value is mapped -/
def mapOk {α β : Type} (f : α → β) : Py α → Py β
  | .error e => .error e
  | .ok a => .ok (f a)

theorem loop_act (u : Updates ℝ E S R C) (mode : Mode) (pdf : Option String) (thr : Fl ℝ) (Good : Params ℝ E S C → Prop)
    (hstep : ∀ p, Good p → (∀ e, ∃ v, p.x e = .fin v) →
      step mode u (actD τ σ c d) (actP τ σ c p) = (actP τ σ c (step mode u d p).1, actS τ σ (step mode u d p).2))
    (hnext : ∀ p δ, Good p → (∀ e, ∃ v, p.x e = .fin v) → Np.linalgNorm (List.ofFn fun e => p.x e - (step mode u d p).1.x e) = .ok δ →
      δ.lt thr = false → Good (step mode u d p).1)
    (n itr : ℕ) (hn : maxItr - itr = n) (p : Params ℝ E S C) (hp : Good p) :
    loop mode u pdf thr (actD τ σ c d) itr (actP τ σ c p) = mapOk (actF τ σ c) (loop mode u pdf thr d itr p) := by
  induction n generalizing itr p with
  | zero =>
    rw [loop_unfold mode u pdf thr _ itr (actP τ σ c p), loop_unfold mode u pdf thr d itr p]
    by_cases hx : ∀ e, ∃ v, p.x e = .fin v
    · rw [hstep p hp hx, norm_act]
      cases hd : Np.linalgNorm (List.ofFn fun e => p.x e - (step mode u d p).1.x e) with
      | error e => rfl
      | ok δ =>
        cases density (K := ℝ) pdf R with
        | error e => rfl
        | ok dens =>
          have : maxItr ≤ itr + 1 := by omega
          simp only [if_pos this]
          split <;> rfl
    · push Not at hx
      obtain ⟨e, he⟩ := hx
      rw [norm_not_finite p.x (step mode u d p).1.x e he,
        norm_not_finite (actP τ σ c p).x (step mode u _ (actP τ σ c p)).1.x (τ.symm e) (by
          intro v hv
          have hv' : p.x (τ (τ.symm e)) + .fin (c (τ.symm e)) = .fin v := hv
          rw [Equiv.apply_symm_apply] at hv'
          cases hpx : p.x e with
          | fin w => exact he w hpx
          | nan => rw [hpx] at hv'; cases hv'
          | pinf => rw [hpx] at hv'; cases hv'
          | ninf => rw [hpx] at hv'; cases hv')]
      rfl
  | succ n ih =>
    rw [loop_unfold mode u pdf thr _ itr (actP τ σ c p), loop_unfold mode u pdf thr d itr p]
    by_cases hx : ∀ e, ∃ v, p.x e = .fin v
    · rw [hstep p hp hx, norm_act]
      cases hd : Np.linalgNorm (List.ofFn fun e => p.x e - (step mode u d p).1.x e) with
      | error e => rfl
      | ok δ =>
        cases density (K := ℝ) pdf R with
        | error e => rfl
        | ok dens =>
          dsimp only
          cases hlt : δ.lt thr
          · rw [ih (itr + 1) (by omega) _ (hnext p δ hp hx hd hlt)]
            simp only [Bool.false_eq_true, if_false]
            split <;> rfl
          · rfl
    · push Not at hx
      obtain ⟨e, he⟩ := hx
      rw [norm_not_finite p.x (step mode u d p).1.x e he,
        norm_not_finite (actP τ σ c p).x (step mode u _ (actP τ σ c p)).1.x (τ.symm e) (by
          intro v hv
          have hv' : p.x (τ (τ.symm e)) + .fin (c (τ.symm e)) = .fin v := hv
          rw [Equiv.apply_symm_apply] at hv'
          cases hpx : p.x e with
          | fin w => exact he w hpx
          | nan => rw [hpx] at hv'; cases hv'
          | pinf => rw [hpx] at hv'; cases hv'
          | ninf => rw [hpx] at hv'; cases hv')]
      rfl

theorem commutes_simplified : Commutes τ σ c simplifiedU d :=
  ⟨bSimplified_act τ σ c d, vSimplified_act τ σ c d, aSimplified_act τ σ c d⟩

theorem commutes_original : Commutes τ σ c originalU d :=
  ⟨bOriginal_act τ σ c d, vSimplified_act τ σ c d, aSimplified_act τ σ c d⟩

theorem commutes_numerical (hd : ShiftFree dens c) : Commutes τ σ c ⟨bNumerical dens, vNumerical dens, aNumerical dens, xNumerical dens⟩ d :=
  ⟨fun p => bNumerical_act τ σ c d p hd, fun p => vNumerical_act τ σ c d p hd, fun p => aNumerical_act τ σ c d p hd⟩

/-- the 'simplified' update of the qualities, for a shift, when the variances are positive -/
theorem xSimplified_shift (P : Fin E → Fin S → Fin R → Bool) (X : Fin E → Fin S → Fin R → ℝ) (cid : Fin E → Fin C)
    (p : Params ℝ E S C) (hx : ∀ e, ∃ v, p.x e = .fin v) (hb : ∀ e s r, P e s r = true → ∃ v, p.b s = .fin v)
    (hv : VariancesPositive ⟨Ap.maskX P X, cid⟩ p) : CommutesX τ σ c simplifiedU ⟨Ap.maskX P X, cid⟩ p := by
  have hD : actD τ σ c (⟨Ap.maskX P X, cid⟩ : Data ℝ E S R C) =
      ⟨Ap.maskX (fun e s r => P (τ e) (σ s) r) (fun e s r => X (τ e) (σ s) r + c e), fun e => cid (τ e)⟩ := by
    unfold actD
    congr 1
    funext e s r
    show mask (P (τ e) (σ s) r) (X (τ e) (σ s) r) + .fin (c e) = mask (P (τ e) (σ s) r) (X (τ e) (σ s) r + c e)
    cases P (τ e) (σ s) r <;> rfl
  have reg := regular_num P X cid p hx hb hv
  have reg' := regular_num (fun e s r => P (τ e) (σ s) r) (fun e s r => X (τ e) (σ s) r + c e) (fun e => cid (τ e)) (actP τ σ c p)
    (fun e => by obtain ⟨v, h⟩ := hx (τ e); exact ⟨v + c e, by show p.x (τ e) + _ = _; rw [h]; rfl⟩)
    (fun e s r h => hb (τ e) (σ s) r h)
    (by
      intro e s r v h
      have hP : P (τ e) (σ s) r = true := by
        by_contra hP
        have hP : P (τ e) (σ s) r = false := by simpa using hP
        have h' : mask (P (τ e) (σ s) r) (X (τ e) (σ s) r + c e) = .fin v := h
        rw [hP] at h'
        cases h'
      exact hv (τ e) (σ s) r (X (τ e) (σ s) r) (by show Ap.maskX P X _ _ _ = _; unfold Ap.maskX; rw [hP]; rfl))
  unfold CommutesX
  show xSimplified _ _ = _
  have h1 := xOriginal_eq (X := fun e s r => X (τ e) (σ s) r + c e) reg'
  have h2 := xOriginal_eq (X := X) reg
  have h3 := xOriginal_act τ σ c (⟨Ap.maskX P X, cid⟩ : Data ℝ E S R C) p
  rw [hD] at h3 ⊢
  rw [← h1, h3]
  show _ = (fun e => (xSimplified _ p).1 (τ e) + .fin (c e), fun e => (xSimplified _ p).2 (τ e))
  rw [← h2]

theorem init_act (mode : Mode) (mos : Arr1 (Fl ℝ) E) :
    init mode (actD τ σ c d) (fun e => mos (τ e) + .fin (c e)) = actP τ σ c (init mode d mos) := by
  have hv : (fun s => Np.nanstd 0 (colL (stack0 fun (e : Fin E) (s : Fin S) (t : Fin R) => d.x (τ e) (σ s) t - mos (τ e)) s)) =
      fun s => Np.nanstd 0 (colL (stack0 fun e s t => d.x e s t - mos e) (σ s)) := by
    funext s
    rw [nanstd_perm (colL_stack0_perm _ s), nanstd_perm (colL_stack0_perm _ (σ s)),
      nanstd_perm (observerCells_act τ σ (fun e s t => d.x e s t - mos e) s)]
  have ha := stdContent_act τ σ d.cid fun e s t => d.x e s t - mos e
  unfold init actD
  dsimp only
  simp only [add_sub_add]
  rw [hv, ha]
  unfold actP
  cases mode <;> rfl

/-- what is needed of the shift -/
def ShiftOk (mode : Mode) (m : Method) (pdf : Option String) (thr : Fl ℝ) (d : Data ℝ E S R C) (mos : Arr1 (Fl ℝ) E) (c : Fin E → ℝ) : Prop :=
  c = 0 ∨ (pdf ≠ some "uniform" ∧ (m = .simplified → (∀ e s r, NumOrNan (d.x e s r)) ∧ ∀ q, Visited mode simplifiedU thr d (init mode d mos) q →
    VariancesPositive d q ∧ VariancesPositive d (step mode simplifiedU d q).1))

theorem fitArr_act (mode : Mode) (m : Method) (pdf : Option String) (thr : Fl ℝ) (mos : Arr1 (Fl ℝ) E)
    (hok : ShiftOk mode m pdf thr d mos c) :
    fitArr mode m pdf thr (actD τ σ c d) (fun e => mos (τ e) + .fin (c e)) = mapOk (actF τ σ c) (fitArr mode m pdf thr d mos) := by
  unfold fitArr
  cases m with
  | original =>
    show loop mode originalU _ _ _ 0 _ = mapOk _ (loop mode originalU _ _ _ 0 _)
    rw [init_act]
    exact loop_act τ σ c d originalU mode pdf thr (fun _ => True)
      (fun p _ _ => step_act τ σ c d p (commutes_original τ σ c d) mode (xOriginal_act τ σ c d _)) (fun _ _ _ _ _ _ => trivial) _ 0 rfl _ trivial
  | numerical =>
    unfold updates
    dsimp only
    cases hd : density (K := ℝ) pdf R with
    | error e => rfl
    | ok dens =>
      dsimp only
      rw [init_act]
      have hs : ShiftFree dens c := shiftFree_gauss c (by rcases hok with h | ⟨h, _⟩; exact Or.inr h; exact Or.inl h) hd
      exact loop_act τ σ c d _ mode pdf thr (fun _ => True)
        (fun p _ _ => step_act τ σ c d p (commutes_numerical τ σ c d hs) mode (xNumerical_act τ σ c d _ hs)) (fun _ _ _ _ _ _ => trivial) _ 0 rfl _ trivial
  | simplified =>
    show loop mode simplifiedU _ _ _ 0 _ = mapOk _ (loop mode simplifiedU _ _ _ 0 _)
    rw [init_act]
    rcases hok with rfl | ⟨_, hok⟩
    · exact loop_act τ σ 0 d simplifiedU mode pdf thr (fun _ => True)
        (fun p _ _ => step_act τ σ 0 d p (commutes_simplified τ σ 0 d) mode (xSimplified_act τ σ d _)) (fun _ _ _ _ _ _ => trivial) _ 0 rfl _ trivial
    · obtain ⟨hclean, hvis⟩ := hok rfl
      obtain ⟨dx, cid⟩ := d
      dsimp only at hclean
      obtain ⟨P, X, hmask⟩ : ∃ P X, dx = Ap.maskX P X := ⟨_, _, exists_mask dx hclean⟩
      subst hmask
      have key : ∀ p, (Visited mode simplifiedU thr ⟨Ap.maskX P X, cid⟩ (init mode ⟨Ap.maskX P X, cid⟩ mos) p ∧
          ∀ e s r, P e s r = true → ∃ v, p.b s = .fin v) → (∀ e, ∃ v, p.x e = .fin v) →
          step mode originalU ⟨Ap.maskX P X, cid⟩ p = step mode simplifiedU ⟨Ap.maskX P X, cid⟩ p ∧
          ∀ e s r, P e s r = true → ∃ v, (step mode simplifiedU ⟨Ap.maskX P X, cid⟩ p).1.b s = .fin v :=
        fun p hp hx => step_methods mode P X cid p hx hp.2 (hvis p hp.1).1 (hvis p hp.1).2
      refine loop_act τ σ c _ simplifiedU mode pdf thr (fun p => Visited mode simplifiedU thr ⟨Ap.maskX P X, cid⟩ (init mode ⟨Ap.maskX P X, cid⟩ mos) p ∧
          ∀ e s r, P e s r = true → ∃ v, p.b s = .fin v) ?_ ?_ _ 0 rfl _ ⟨Visited.start, fun _ _ _ _ => ⟨0, rfl⟩⟩
      · intro p hp hx
        exact step_act τ σ c _ p (commutes_simplified τ σ c _) mode (xSimplified_shift τ σ c P X cid _ hx (key p hp hx).2 (hvis p hp.1).2)
      · intro p δ hp hx hd hlt
        exact ⟨Visited.next hp.1 hd hlt, (key p hp hx).2⟩

theorem centre_act (z : Bool) : centre z (actP τ σ c p) = actP τ σ c (centre z p) := by
  unfold centre
  cases z
  · rfl
  · rw [if_pos rfl, if_pos rfl]
    have hm : Np.mean (List.ofFn (actP τ σ c p).b) = Np.mean (List.ofFn p.b) := mean_perm' (ofFn_perm p.b σ)
    dsimp only
    rw [hm]
    unfold actP
    dsimp only
    simp only [add_right_comm']

end Sureal.Mle
