import Verif.Spec.MlePass
import Verif.Lemmas.MleMethods
import Verif.Lemmas.BtFl
/-! The loop of the MLE models as a sequence of rounds. -/
set_option linter.unusedSectionVars false
namespace Sureal.Mle
open Sureal Spec
variable {E S R C : ℕ}

/-- the parameters after `k` passes -/
noncomputable def iter (mode : Mode) (u : Updates ℝ E S R C) (d : Data ℝ E S R C) (p : Params ℝ E S C) : ℕ → Params ℝ E S C
  | 0 => p
  | k + 1 => (step mode u d (iter mode u d p k)).1

theorem iter_succ' (mode : Mode) (u : Updates ℝ E S R C) (d : Data ℝ E S R C) (p : Params ℝ E S C) (k : ℕ) :
    iter mode u d p (k + 1) = iter mode u d (step mode u d p).1 k := by
  induction k with
  | zero => rfl
  | succ k ih => rw [iter, ih]; rfl

theorem loop_trace {mode : Mode} {u : Updates ℝ E S R C} {pdf : Option String} {thr : Fl ℝ} {d : Data ℝ E S R C}
    {f : Fit ℝ E S C} (m itr : ℕ) (hm : maxItr - itr = m) (hi : itr < maxItr) (p : Params ℝ E S C)
    (h : loop mode u pdf thr d itr p = .ok f) :
    ∃ n, 1 ≤ n ∧ f.itr = itr + n ∧ f.itr ≤ maxItr ∧ f.p = iter mode u d p n ∧ f.std = (step mode u d (iter mode u d p (n - 1))).2 ∧
      ∀ k, k < n → ∃ δ, Np.linalgNorm (List.ofFn fun e => (iter mode u d p k).x e - (iter mode u d p (k + 1)).x e) = .ok δ ∧
        (k + 1 < n → δ.lt thr = false) ∧ (k + 1 = n → δ.lt thr = true ∨ f.itr = maxItr) := by
  induction m generalizing itr p with
  | zero => omega
  | succ m ih =>
    rw [loop_unfold] at h
    cases hd : Np.linalgNorm (List.ofFn fun e => p.x e - (step mode u d p).1.x e) with
    | error e => rw [hd] at h; cases h
    | ok δ =>
      rw [hd] at h
      dsimp only at h
      cases hdens : density (K := ℝ) pdf R with
      | error e => rw [hdens] at h; cases h
      | ok dens =>
        rw [hdens] at h
        dsimp only at h
        by_cases hlt : δ.lt thr = true
        · rw [if_pos hlt] at h
          cases h
          refine ⟨1, le_refl _, rfl, hi, rfl, rfl, fun k hk => ?_⟩
          obtain rfl : k = 0 := by omega
          exact ⟨δ, hd, fun h => by omega, fun _ => Or.inl hlt⟩
        · rw [if_neg hlt] at h
          by_cases hmax : maxItr ≤ itr + 1
          · rw [if_pos hmax] at h
            cases h
            refine ⟨1, le_refl _, rfl, hi, rfl, rfl, fun k hk => ?_⟩
            obtain rfl : k = 0 := by omega
            exact ⟨δ, hd, fun h => by omega, fun _ => Or.inr (by dsimp only; omega)⟩
          · rw [if_neg hmax] at h
            obtain ⟨n, hn, h1, h2, h3, h4, h5⟩ := ih (itr + 1) (by omega) (by omega) _ h
            refine ⟨n + 1, by omega, by omega, h2, ?_, ?_, fun k hk => ?_⟩
            · rw [iter_succ']; exact h3
            · rw [h4]
              obtain ⟨n', rfl⟩ : ∃ n', n = n' + 1 := ⟨n - 1, by omega⟩
              rw [Nat.add_sub_cancel, Nat.add_sub_cancel, iter_succ']
            · cases k with
              | zero => exact ⟨δ, hd, fun _ => by simpa using hlt, fun h => by omega⟩
              | succ k =>
                obtain ⟨δ', g1, g2, g3⟩ := h5 k (by omega)
                refine ⟨δ', ?_, fun h => g2 (by omega), fun h => g3 (by omega)⟩
                rw [iter_succ', iter_succ']
                exact g1

/-- the parameters as four groups -/
def four (p : Params ℝ E S C) : Four E S C := ⟨p.x, p.b, p.v, p.a⟩
/-- the standard deviations as four groups -/
def fourStd (p : Stds ℝ E S C) : Four E S C := ⟨p.x, p.b, p.v, p.a⟩

theorem clip0_eq (x : Fl ℝ) : Fl.maximum x 0 = clip0 x := by
  cases x with
  | nan => rfl
  | pinf => rfl
  | ninf => rfl
  | fin x =>
    show (if (Fl.fin x).le (Fl.fin 0) = true then Fl.fin 0 else Fl.fin x) = Fl.fin (max x 0)
    by_cases h : x ≤ 0
    · rw [if_pos (by simpa [Fl.le] using h), max_eq_right h]
    · rw [if_neg (by simpa [Fl.le] using h), max_eq_left (by linarith)]

/-- one pass is a round -/
theorem step_round (mode : Mode) {u : Updates ℝ E S R C} (P : Fin E → Fin S → Fin R → Bool) (X : Fin E → Fin S → Fin R → ℝ)
    (cid : Fin E → Fin C) (hu : ∀ (p : Params ℝ E S C) ξ β ν α, Regular P cid p ξ β ν α →
      (∀ s, (∃ e r, P e s r = true) → NewtonTo (fun t => logLik P X cid ξ (setEntry β s t) ν α) (β s)
        ((u.b ⟨Ap.maskX P X, cid⟩ p).1 s) ((u.b ⟨Ap.maskX P X, cid⟩ p).2 s)) ∧
      (∀ s, (∃ e r, P e s r = true) → NewtonTo (fun t => logLik P X cid ξ β (setEntry ν s t) α) (ν s)
        ((u.v ⟨Ap.maskX P X, cid⟩ p).1 s) ((u.v ⟨Ap.maskX P X, cid⟩ p).2 s)) ∧
      (∀ c, (∃ e s r, cid e = c ∧ P e s r = true) → NewtonTo (fun t => logLik P X cid ξ β ν (setEntry α c t)) (α c)
        ((u.a ⟨Ap.maskX P X, cid⟩ p).1 c) ((u.a ⟨Ap.maskX P X, cid⟩ p).2 c)) ∧
      (∀ e, (∃ s r, P e s r = true) → NewtonTo (fun t => logLik P X cid (setEntry ξ e t) β ν α) (ξ e)
        ((u.x ⟨Ap.maskX P X, cid⟩ p).1 e) ((u.x ⟨Ap.maskX P X, cid⟩ p).2 e)))
    (p : Params ℝ E S C) :
    Round (mode = .subjectOblivious) (mode = .contentOblivious) P X cid (four p)
      (four (step mode u ⟨Ap.maskX P X, cid⟩ p).1) (fourStd (step mode u ⟨Ap.maskX P X, cid⟩ p).2) := by
  have hat : ∀ {q : Params ℝ E S C} {ξ β ν α}, At P cid (four q) ξ β ν α → Regular P cid q ξ β ν α := fun hA =>
    ⟨fun e s r h => (hA e s r h).1, fun e s r h => (hA e s r h).2.1, fun e s r h => (hA e s r h).2.2.1,
      fun e s r h => (hA e s r h).2.2.2.1, fun e s r h => (hA e s r h).2.2.2.2⟩
  refine ⟨?_, ?_, ?_, ?_, ?_, ?_⟩
  · intro hmode ξ β ν α hA s hs
    have := (hu p ξ β ν α (hat hA)).1 s hs
    unfold step four fourStd
    dsimp only
    rw [if_neg hmode, if_neg hmode]
    exact this
  · intro hmode ξ β ν α hA s hs
    have hsd : (fourStd (step mode u ⟨Ap.maskX P X, cid⟩ p).2).v s =
        (u.v ⟨Ap.maskX P X, cid⟩ { p with b := (step mode u ⟨Ap.maskX P X, cid⟩ p).1.b }).2 s := by
      unfold fourStd step
      dsimp only
      rw [if_neg hmode]
    rw [hsd]
    refine ⟨_, (hu { p with b := (step mode u ⟨Ap.maskX P X, cid⟩ p).1.b } ξ β ν α (hat hA)).2.1 s hs, ?_⟩
    · rw [← clip0_eq]
      unfold four step
      dsimp only
      rw [if_neg hmode, if_neg hmode]
  · intro hmode ξ β ν α hA c hc
    have hsd : (fourStd (step mode u ⟨Ap.maskX P X, cid⟩ p).2).a c = (u.a ⟨Ap.maskX P X, cid⟩
        { p with b := (step mode u ⟨Ap.maskX P X, cid⟩ p).1.b, v := (step mode u ⟨Ap.maskX P X, cid⟩ p).1.v }).2 c := by
      unfold fourStd step
      dsimp only
      rw [if_neg hmode]
    rw [hsd]
    refine ⟨_, (hu { p with b := (step mode u ⟨Ap.maskX P X, cid⟩ p).1.b, v := (step mode u ⟨Ap.maskX P X, cid⟩ p).1.v }
      ξ β ν α (hat hA)).2.2.1 c hc, ?_⟩
    rw [← clip0_eq]
    unfold four step
    dsimp only
    rw [if_neg hmode]
  · intro ξ β ν α hA e he
    exact (hu ⟨p.x, (step mode u ⟨Ap.maskX P X, cid⟩ p).1.b, (step mode u ⟨Ap.maskX P X, cid⟩ p).1.v,
      (step mode u ⟨Ap.maskX P X, cid⟩ p).1.a⟩ ξ β ν α (hat hA)).2.2.2 e he
  · intro hmode s
    unfold four fourStd step
    dsimp only
    rw [if_pos hmode, if_pos hmode, if_pos hmode, if_pos hmode]
    exact ⟨rfl, rfl, rfl, rfl⟩
  · intro hmode c
    unfold four fourStd step
    dsimp only
    rw [if_pos hmode, if_pos hmode]
    exact ⟨rfl, rfl⟩

/-- the votes on a content, as the initial ambiguity sees them -/
theorem coe_content (P : Fin E → Fin S → Fin R → Bool) (F : Fin E → Fin S → Fin R → ℝ) (cid : Fin E → Fin C) (c : Fin C) :
    ((present ((List.finRange E).flatMap fun e =>
      if cid e = c then (List.ofFn fun s => List.ofFn fun t => mask (P e s t) (F e s t)).flatten else []) : List ℝ) : Multiset ℝ)
      = (votesOnContent P cid c).val.map fun q => F q.1 q.2.1 q.2.2 := by
  have h1 : present ((List.finRange E).flatMap fun e =>
      if cid e = c then (List.ofFn fun s => List.ofFn fun t => mask (P e s t) (F e s t)).flatten else []) =
      (List.finRange E).flatMap fun e => present (videoCells (fun e s t => mask (decide (cid e = c) && P e s t) (F e s t)) e) := by
    unfold present
    rw [List.filterMap_flatMap]
    congr 1
    funext e
    by_cases he : cid e = c
    · rw [if_pos he]
      unfold videoCells
      dsimp only
      rw [decide_eq_true he]
      rfl
    · rw [if_neg he]
      symm
      rw [List.filterMap_nil, List.filterMap_eq_nil_iff]
      intro x hx
      unfold videoCells at hx
      obtain ⟨l, hl, hx⟩ := List.mem_flatten.mp hx
      obtain ⟨s, rfl⟩ := List.mem_ofFn.mp hl
      obtain ⟨t, rfl⟩ := List.mem_ofFn.mp hx
      dsimp only
      rw [decide_eq_false he]
      rfl
  rw [h1, ← Multiset.coe_bind]
  have h2 : ∀ e, ((present (videoCells (fun e s t => mask (decide (cid e = c) && P e s t) (F e s t)) e) : List ℝ) : Multiset ℝ)
      = Multiset.filterMap Fl.val? ((Finset.univ : Finset (Fin S × Fin R)).val.map fun p =>
          mask (decide (cid e = c) && P e p.1 p.2) (F e p.1 p.2)) := by
    intro e
    unfold present
    rw [← Multiset.filterMap_coe, coe_videoCells]
  simp only [h2, filterMap_mask]
  have h3 : ((List.finRange E : List (Fin E)) : Multiset (Fin E)) = (Finset.univ : Finset (Fin E)).val := by
    rfl
  rw [h3]
  unfold votesOnContent
  have h4 : (Finset.univ : Finset (Fin E × (Fin S × Fin R))).val =
      (Finset.univ : Finset (Fin E)).val.bind fun e => (Finset.univ : Finset (Fin S × Fin R)).val.map (Prod.mk e) := by
    rw [← Finset.univ_product_univ, Finset.product_val]
    rfl
  rw [Finset.filter_val, h4, Multiset.filter_bind, Multiset.map_bind]
  refine congrArg _ (funext fun e => ?_)
  rw [Multiset.filter_map, Multiset.map_map]
  simp [Function.comp_def]

/-- the initial values are the starting point -/
theorem init_start (mode : Mode) (P : Fin E → Fin S → Fin R → Bool) (X : Fin E → Fin S → Fin R → ℝ) (cid : Fin E → Fin C)
    (m : Fin E → ℝ) :
    Start (mode = .subjectOblivious) (mode = .contentOblivious) P X cid m
      (four (init mode ⟨Ap.maskX P X, cid⟩ fun e => .fin (m e))) := by
  have hr : (fun (e : Fin E) (s : Fin S) (t : Fin R) => Ap.maskX P X e s t - Fl.fin (m e)) =
      fun e s t => mask (P e s t) (X e s t - m e) := by
    funext e s t
    unfold Ap.maskX
    cases P e s t
    · simp
    · simp
  refine ⟨fun e => rfl, fun s => rfl, ?_, ?_, ?_, ?_⟩
  · intro hm s hs
    unfold four init
    dsimp only
    rw [if_neg hm, hr, nanstd0_of_coe (mask_col_clean P _ s) (coe_present_col P _ s), decide_eq_true, mask_true]
    obtain ⟨e, r, h⟩ := hs
    exact ⟨(e, r), by simp [votesOfObserver, h]⟩
  · intro hm c hc
    unfold four init
    dsimp only
    rw [if_neg hm, hr]
    unfold stdContent
    rw [nanstd0_of_coe (A := votesOnContent P cid c) (f := fun q => X q.1 q.2.1 q.2.2 - m q.1) ?_ (coe_content P _ cid c), decide_eq_true, mask_true]
    · obtain ⟨e, s, r, h, h'⟩ := hc
      exact ⟨(e, s, r), by simp [votesOnContent, h, h']⟩
    · intro x hx
      obtain ⟨e, _, hx⟩ := List.mem_flatMap.mp hx
      split at hx
      · obtain ⟨l, hl, hx⟩ := List.mem_flatten.mp hx
        obtain ⟨s, rfl⟩ := List.mem_ofFn.mp hl
        obtain ⟨t, rfl⟩ := List.mem_ofFn.mp hx
        exact mask_clean _ _
      · cases hx
  · intro hm s
    unfold four init
    dsimp only
    rw [if_pos hm]
    rfl
  · intro hm s
    unfold four init
    dsimp only
    rw [if_pos hm]
    rfl

end Sureal.Mle
