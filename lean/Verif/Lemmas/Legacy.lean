import Verif.Model.Legacy
import Verif.Lemmas.MleMethods
/-! Helper lemmas for the early maximum likelihood model. -/
set_option linter.unusedSectionVars false
namespace Sureal.Legacy
open Sureal Spec

section generic
variable {κ K : Type} [Field K] [LinearOrder K] [IsStrictOrderedRing K] [MathFn K]
variable {E S : ℕ}

theorem loop_unfold (useLog : Bool) (d : Arr2 (Fl K) E S) (itr : Nat) (p : St K E S) :
    loop useLog d itr p =
      match Np.linalgNorm (List.ofFn fun e => p.x e - (step useLog d p).x e) with
      | .error e => .error e
      | .ok delta =>
        if delta.lt thr then .ok (step useLog d p)
        else if maxItr ≤ itr + 1 then .ok (step useLog d p)
        else loop useLog d (itr + 1) (step useLog d p) := by
  rw [loop]
  cases Np.linalgNorm (List.ofFn fun e => p.x e - (step useLog d p).x e) <;> rfl

/-! ### a column of missing votes -/

theorem notNan_insert {n : ℕ} (i : Fin (n + 1)) (g : Fin (n + 1) → Fl K) (hg : g i = .nan) :
    Np.notNan (List.ofFn g) = Np.notNan (List.ofFn fun s => g (i.succAbove s)) := by
  induction n with
  | zero =>
    have : i = 0 := by omega
    subst this
    rw [List.ofFn_succ, hg]
    simp [Np.notNan, Fl.isNan]
  | succ n ih =>
    induction i using Fin.cases with
    | zero =>
      rw [List.ofFn_succ, hg]
      simp [Np.notNan, Fl.isNan]
    | succ i =>
      rw [List.ofFn_succ, List.ofFn_succ (f := fun s => g (i.succ.succAbove s))]
      have := ih i (fun j => g j.succ) hg
      unfold Np.notNan at this ⊢
      rw [List.filter_cons, List.filter_cons, this]
      simp [Fin.succ_succAbove_succ]

theorem nansum_insert {n : ℕ} (i : Fin (n + 1)) (g : Fin (n + 1) → Fl K) (h : Fin n → Fl K) (hg : g i = .nan)
    (hh : ∀ s, g (i.succAbove s) = h s) : Np.nansum (List.ofFn g) = Np.nansum (List.ofFn h) := by
  unfold Np.nansum
  rw [notNan_insert i g hg, funext hh]

theorem nanmean_insert {n : ℕ} (i : Fin (n + 1)) (g : Fin (n + 1) → Fl K) (h : Fin n → Fl K) (hg : g i = .nan)
    (hh : ∀ s, g (i.succAbove s) = h s) : Np.nanmean (List.ofFn g) = Np.nanmean (List.ofFn h) := by
  unfold Np.nanmean Np.countNotNan Np.nansum
  rw [notNan_insert i g hg, funext hh]

theorem nansum_nan {n : ℕ} (g : Fin n → Fl K) (hg : ∀ i, g i = .nan) : Np.nansum (List.ofFn g) = 0 := by
  have : Np.notNan (List.ofFn g) = [] := by
    unfold Np.notNan
    rw [List.filter_eq_nil_iff]
    intro x hx
    obtain ⟨i, rfl⟩ := List.mem_ofFn.mp hx
    rw [hg]; simp [Fl.isNan]
  unfold Np.nansum
  rw [this]; rfl

/-- what belongs together in a run with and a run without the silent observer `i` -/
structure Rel (i : Fin (S + 1)) (p' : St K E (S + 1)) (p : St K E S) : Prop where
  x : p'.x = p.x
  b : ∀ s, p'.b (i.succAbove s) = p.b s
  v : ∀ s, p'.v (i.succAbove s) = p.v s
  lv : ∀ s, p'.lv (i.succAbove s) = p.lv s

variable {d' : Arr2 (Fl K) E (S + 1)} {d : Arr2 (Fl K) E S} {i : Fin (S + 1)}

theorem step_rel (useLog : Bool) (hi : ∀ e, d' e i = .nan) (hd : ∀ e s, d' e (i.succAbove s) = d e s)
    {p' : St K E (S + 1)} {p : St K E S} (h : Rel i p' p) : Rel i (step useLog d' p') (step useLog d p) := by
  have hb : ∀ s, newB d' p' (i.succAbove s) = newB d p s := by
    intro s
    unfold newB sumE colL
    simp only [hd, h.x, h.b]
  have hlv : ∀ s, (if useLog = true then newLv d' p' (newB d' p') else p'.lv) (i.succAbove s)
      = (if useLog = true then newLv d p (newB d p) else p.lv) s := by
    intro s
    cases useLog
    · exact h.lv s
    · simp only [if_true]
      unfold newLv sumE colL resid
      simp only [hd, h.x, hb, h.v, h.lv]
  have hv : ∀ s, (step useLog d' p').v (i.succAbove s) = (step useLog d p).v s := by
    intro s
    unfold step
    cases useLog
    · show newV d' p' (newB d' p') (i.succAbove s) = newV d p (newB d p) s
      unfold newV sumE colL resid
      simp only [hd, h.x, hb, h.v]
    · show (newLv d' p' (newB d' p') (i.succAbove s)).exp = (newLv d p (newB d p) s).exp
      have := hlv s
      simp only [if_true] at this
      rw [this]
  refine ⟨?_, hb, hv, hlv⟩
  have hx : (step useLog d' p').x = newX d' p'.x (newB d' p') (step useLog d' p').v := rfl
  have hx2 : (step useLog d p).x = newX d p.x (newB d p) (step useLog d p).v := rfl
  rw [hx, hx2]
  funext e
  unfold newX sumS rowL
  dsimp only
  rw [h.x]
  rw [nansum_insert i _ (fun s => (d e s - newB d p s) / ((step useLog d p).v s).sq) (by rw [hi]; simp)
      (by intro s; rw [hd, hb, hv]),
    nansum_insert i _ (fun s => oneOrNan (d e s) / ((step useLog d p).v s).sq) (by rw [hi]; simp [oneOrNan, Fl.isNan])
      (by intro s; rw [hd, hv])]

theorem loop_rel (useLog : Bool) (hi : ∀ e, d' e i = .nan) (hd : ∀ e s, d' e (i.succAbove s) = d e s) (n itr : ℕ)
    (hn : maxItr - itr = n) {p' : St K E (S + 1)} {p : St K E S} (h : Rel i p' p) :
    (∀ err, loop useLog d itr p = .error err → loop useLog d' itr p' = .error err) ∧
    (∀ t, loop useLog d itr p = .ok t → ∃ t', loop useLog d' itr p' = .ok t' ∧ Rel i t' t ∧ ∃ q', t' = step useLog d' q') := by
  induction n generalizing itr p' p with
  | zero =>
    have hs := step_rel useLog hi hd h
    rw [loop_unfold, loop_unfold useLog d' itr p', h.x, hs.x]
    cases Np.linalgNorm (List.ofFn fun e => p.x e - (step useLog d p).x e) with
    | error e => exact ⟨fun err he => (by cases he; rfl), fun t ht => by cases ht⟩
    | ok δ =>
      dsimp only
      have : maxItr ≤ itr + 1 := by omega
      rw [if_pos this, if_pos this]
      split
      · exact ⟨fun err he => (by cases he), fun t ht => by cases ht; exact ⟨_, rfl, hs, _, rfl⟩⟩
      · exact ⟨fun err he => (by cases he), fun t ht => by cases ht; exact ⟨_, rfl, hs, _, rfl⟩⟩
  | succ n ih =>
    have hs := step_rel useLog hi hd h
    rw [loop_unfold, loop_unfold useLog d' itr p', h.x, hs.x]
    cases Np.linalgNorm (List.ofFn fun e => p.x e - (step useLog d p).x e) with
    | error e => exact ⟨fun err he => (by cases he; rfl), fun t ht => by cases ht⟩
    | ok δ =>
      dsimp only
      split
      · exact ⟨fun err he => (by cases he), fun t ht => by cases ht; exact ⟨_, rfl, hs, _, rfl⟩⟩
      · split
        · exact ⟨fun err he => (by cases he), fun t ht => by cases ht; exact ⟨_, rfl, hs, _, rfl⟩⟩
        · exact ih (itr + 1) (by omega) hs

theorem init_rel (hi : ∀ e, d' e i = .nan) (hd : ∀ e s, d' e (i.succAbove s) = d e s) :
    Rel i (init d') (init d) := by
  have hx : (init d').x = (init d).x := by
    funext e
    show Np.nanmean (rowL d' e) = Np.nanmean (rowL d e)
    unfold rowL
    exact nanmean_insert i _ _ (hi e) (hd e)
  have hv : ∀ s, (init d').v (i.succAbove s) = (init d).v s := by
    intro s
    have h1 : (init d').v = fun s => Np.nanstd 0 (colL (fun e s => d' e s - (init d').x e) s) := rfl
    have h2 : (init d).v = fun s => Np.nanstd 0 (colL (fun e s => d e s - (init d).x e) s) := rfl
    rw [h1, h2]
    unfold colL
    simp only [hd, hx]
  refine ⟨hx, fun s => rfl, hv, fun s => ?_⟩
  show ((init d').v (i.succAbove s)).log = ((init d).v s).log
  rw [hv]

/-- the silent observer has neither bias nor inconsistency after a pass -/
theorem step_silent (useLog : Bool) (hi : ∀ e, d' e i = .nan) (p' : St K E (S + 1)) :
    (step useLog d' p').b i = .nan ∧ (step useLog d' p').v i = .nan := by
  have h00 : (0 : Fl K) / 0 = .nan := Fl.zero_div_zero
  constructor
  · show newB d' p' i = .nan
    unfold newB sumE colL refresh
    dsimp only
    rw [nansum_nan _ (by intro e; rw [hi]; simp), nansum_nan _ (by intro e; rw [hi]; simp [oneOrNan, Fl.isNan]), h00]
    simp
  · have hr : ∀ b e, resid d' p'.x b e i = .nan := by intro b e; unfold resid; rw [hi]; simp
    have hsq : (Fl.nan : Fl K).sq = .nan := by simp [Fl.sq]
    unfold step
    cases useLog
    · show newV d' p' (newB d' p') i = .nan
      unfold newV sumE colL refresh
      dsimp only
      rw [nansum_nan _ (by intro e; rw [hr, hsq]; simp), nansum_nan _ (by intro e; rw [hr, hsq]; simp), h00]
      simp
    · show (newLv d' p' (newB d' p') i).exp = .nan
      unfold newLv sumE colL refresh
      dsimp only
      rw [nansum_nan _ (by intro e; rw [hr, hsq]; simp), nansum_nan _ (by intro e; rw [hr, hsq]; simp), h00]
      simp [Fl.exp]

theorem centre_rel (force : Bool) {t' : St K E (S + 1)} {t : St K E S} (h : Rel i t' t) (hb : t'.b i = .nan) (hv : t'.v i = .nan) :
    Rel i (centre force t') (centre force t) ∧ (centre force t').b i = .nan ∧ (centre force t').v i = .nan := by
  cases force
  · exact ⟨h, hb, hv⟩
  · have hm : Np.nanmean (List.ofFn t'.b) = Np.nanmean (List.ofFn t.b) := nanmean_insert i _ _ hb h.b
    unfold centre
    simp only [if_true]
    rw [hm]
    refine ⟨⟨?_, ?_, h.v, h.lv⟩, ?_, hv⟩
    · rw [h.x]
    · intro s; show t'.b (i.succAbove s) - _ = _; rw [h.b]
    · show t'.b i - _ = _; rw [hb]; simp

end generic

/-! ### comparison with the content oblivious model, one repetition -/
section compare
variable {E S C : ℕ}

theorem sumE_eq (f : Arr2 (Fl ℝ) E S) (s : Fin S) : sumE f s = Mle.sumE (fun e s (_ : Fin 1) => f e s) s := by
  unfold sumE Mle.sumE
  rw [colL_stack0]
  simp [colL]

theorem sumS_eq (f : Arr2 (Fl ℝ) E S) (e : Fin E) : sumS f e = Mle.sumS (fun e s (_ : Fin 1) => f e s) e := by
  unfold sumS Mle.sumS
  rw [rowL_stack1]
  simp [rowL]

theorem sumE_mask (P : Fin E → Fin S → Fin 1 → Bool) (F : Fin E → Fin S → ℝ) (f : Arr2 (Fl ℝ) E S)
    (s : Fin S) (h : ∀ e, f e s = mask (P e s 0) (F e s)) :
    sumE f s = .fin (∑ e, if P e s 0 = true then F e s else 0) := by
  rw [sumE_eq, Mle.sumE_mask P (fun e s _ => F e s) _ s (by intro e r; rw [h, Subsingleton.elim r 0])]
  simp

theorem sumS_mask (P : Fin E → Fin S → Fin 1 → Bool) (F : Fin E → Fin S → ℝ) (f : Arr2 (Fl ℝ) E S)
    (e : Fin E) (h : ∀ s, f e s = mask (P e s 0) (F e s)) :
    sumS f e = .fin (∑ s, if P e s 0 = true then F e s else 0) := by
  rw [sumS_eq, Mle.sumS_mask P (fun e s _ => F e s) _ e (by intro s r; rw [h, Subsingleton.elim r 0])]
  simp

variable {P : Fin E → Fin S → Fin 1 → Bool} {X : Fin E → Fin S → Fin 1 → ℝ}

/-- the votes -/
noncomputable def votes (P : Fin E → Fin S → Fin 1 → Bool) (X : Fin E → Fin S → Fin 1 → ℝ) : Arr2 (Fl ℝ) E S :=
  fun e s => Ap.maskX P X e s 0

theorem votes_eq (e : Fin E) (s : Fin S) : votes P X e s = mask (P e s 0) (X e s 0) := rfl

theorem oneOrNan_mask (q : Bool) (v : ℝ) : oneOrNan (mask q v) = mask q 1 := by
  unfold oneOrNan
  cases q <;> simp [Fl.isNan, Fl.one_def]

/-- the parameters of the voters and the videos are the given numbers, and the inconsistencies do not vanish -/
structure Regular (P : Fin E → Fin S → Fin 1 → Bool) (x : Arr1 (Fl ℝ) E) (b v : Arr1 (Fl ℝ) S)
    (ξ : Fin E → ℝ) (β ν : Fin S → ℝ) : Prop where
  x : ∀ e s, P e s 0 = true → x e = .fin (ξ e)
  b : ∀ e s, P e s 0 = true → b s = .fin (β s)
  v : ∀ e s, P e s 0 = true → v s = .fin (ν s)
  ne : ∀ e s, P e s 0 = true → ν s ≠ 0

/-- number of votes of an observer -/
def voteCount (P : Fin E → Fin S → Fin 1 → Bool) (s : Fin S) : ℝ := ∑ e, if P e s 0 = true then 1 else 0

theorem voteCount_pos {s : Fin S} (h : ∃ e, P e s 0 = true) : 0 < voteCount P s := by
  obtain ⟨e, he⟩ := h
  unfold voteCount
  refine Finset.sum_pos' (fun i _ => by split <;> norm_num) ⟨e, Finset.mem_univ _, by rw [if_pos he]; norm_num⟩

/-- (8): a damped step to the mean residual -/
theorem newB_val {p : St ℝ E S} {ξ : Fin E → ℝ} {β : Fin S → ℝ} (hx : ∀ e s, P e s 0 = true → p.x e = .fin (ξ e))
    {s : Fin S} (hs : ∃ e, P e s 0 = true) (hb : p.b s = .fin (β s)) :
    newB (votes P X) p s = .fin (β s * (9 / 10) + (∑ e, if P e s 0 = true then X e s 0 - ξ e else 0) / voteCount P s * (1 / 10)) := by
  have h1 : sumE (fun e s => votes P X e s - p.x e) s = .fin (∑ e, if P e s 0 = true then X e s 0 - ξ e else 0) := by
    apply sumE_mask P (fun e s => X e s 0 - ξ e)
    intro e
    rw [votes_eq]
    cases hP : P e s 0
    · simp
    · rw [hx e s hP]; simp [Fl.fin_sub]
  have h2 : sumE (fun e s => oneOrNan (votes P X e s)) s = .fin (voteCount P s) := by
    unfold voteCount
    apply sumE_mask P (fun _ _ => (1 : ℝ))
    intro e
    rw [votes_eq, oneOrNan_mask]
  unfold newB
  rw [h1, h2, Fl.fin_div (voteCount_pos hs).ne', hb]
  have : refresh (K := ℝ) = Mle.refresh := rfl
  rw [this, Mle.refresh_eq, Fl.fin_mul, Fl.fin_mul, Fl.fin_add]

theorem resid_mask {x : Arr1 (Fl ℝ) E} {b : Arr1 (Fl ℝ) S} {ξ : Fin E → ℝ} {β : Fin S → ℝ} {e : Fin E} {s : Fin S}
    (hx : P e s 0 = true → x e = .fin (ξ e)) (hb : P e s 0 = true → b s = .fin (β s)) :
    resid (votes P X) x b e s = mask (P e s 0) (X e s 0 - ξ e - β s) := by
  unfold resid
  rw [votes_eq]
  cases hP : P e s 0
  · simp
  · rw [hx hP, hb hP]; simp [Fl.fin_sub]

/-- the sums of (9) -/
theorem newV_sums {p : St ℝ E S} {b : Arr1 (Fl ℝ) S} {ξ : Fin E → ℝ} {β ν : Fin S → ℝ}
    (hx : ∀ e s, P e s 0 = true → p.x e = .fin (ξ e)) {s : Fin S} (hb : b s = .fin (β s)) (hv : p.v s = .fin (ν s)) :
    sumE (fun e s => ((2 : Nat) : Fl ℝ) * 1 * ((p.v s).sq * p.v s) - ((4 : Nat) : Fl ℝ) * p.v s * (resid (votes P X) p.x b e s).sq) s =
      .fin (∑ e, if P e s 0 = true then 2 * ν s ^ 3 - 4 * ν s * (X e s 0 - ξ e - β s) ^ 2 else 0) ∧
    sumE (fun e s => 1 * (p.v s).sq - ((3 : Nat) : Fl ℝ) * (resid (votes P X) p.x b e s).sq) s =
      .fin (∑ e, if P e s 0 = true then ν s ^ 2 - 3 * (X e s 0 - ξ e - β s) ^ 2 else 0) := by
  have hr : ∀ e, resid (votes P X) p.x b e s = mask (P e s 0) (X e s 0 - ξ e - β s) :=
    fun e => resid_mask (fun h => hx e s h) (fun _ => hb)
  constructor
  · apply sumE_mask P (fun e s => 2 * ν s ^ 3 - 4 * ν s * (X e s 0 - ξ e - β s) ^ 2)
    intro e
    rw [hr, hv]
    cases hP : P e s 0
    · simp [Fl.sq]
    · simp only [mask_true, Fl.natCast_def, Fl.one_def, Fl.sq_fin, Fl.fin_mul, Fl.fin_sub]
      congr 1; push_cast; ring
  · apply sumE_mask P (fun e s => ν s ^ 2 - 3 * (X e s 0 - ξ e - β s) ^ 2)
    intro e
    rw [hr, hv]
    cases hP : P e s 0
    · simp [Fl.sq]
    · simp only [mask_true, Fl.natCast_def, Fl.one_def, Fl.sq_fin, Fl.fin_mul, Fl.fin_sub]
      congr 1; push_cast; ring

/-- the sums of (9') -/
theorem newLv_sums {p : St ℝ E S} {b : Arr1 (Fl ℝ) S} {ξ : Fin E → ℝ} {β ν : Fin S → ℝ}
    (hx : ∀ e s, P e s 0 = true → p.x e = .fin (ξ e)) {s : Fin S} (hb : b s = .fin (β s)) (hv : p.v s = .fin (ν s)) (hne : ν s ≠ 0) :
    sumE (fun e s => -1 + (resid (votes P X) p.x b e s).sq / (p.v s).sq) s =
      .fin (∑ e, if P e s 0 = true then -1 + (X e s 0 - ξ e - β s) ^ 2 / ν s ^ 2 else 0) ∧
    sumE (fun e s => (-((2 : Nat) : Fl ℝ)) * (resid (votes P X) p.x b e s).sq / (p.v s).sq) s =
      .fin (∑ e, if P e s 0 = true then -2 * (X e s 0 - ξ e - β s) ^ 2 / ν s ^ 2 else 0) := by
  have hr : ∀ e, resid (votes P X) p.x b e s = mask (P e s 0) (X e s 0 - ξ e - β s) :=
    fun e => resid_mask (fun h => hx e s h) (fun _ => hb)
  have hne2 : ν s * ν s ≠ 0 := mul_ne_zero hne hne
  constructor
  · apply sumE_mask P (fun e s => -1 + (X e s 0 - ξ e - β s) ^ 2 / ν s ^ 2)
    intro e
    rw [hr, hv]
    cases hP : P e s 0
    · simp [Fl.sq]
    · simp only [mask_true, Fl.one_def, Fl.sq_fin, Fl.fin_div hne2, Fl.fin_neg, Fl.fin_add]
      congr 1; rw [pow_two, pow_two]
  · apply sumE_mask P (fun e s => -2 * (X e s 0 - ξ e - β s) ^ 2 / ν s ^ 2)
    intro e
    rw [hr, hv]
    cases hP : P e s 0
    · simp [Fl.sq]
    · simp only [mask_true, Fl.natCast_def, Fl.sq_fin, Fl.fin_neg, Fl.fin_mul, Fl.fin_div hne2]
      congr 1; push_cast; ring

/-- the sums of (7) -/
theorem newX_sums {b v : Arr1 (Fl ℝ) S} {β ν : Fin S → ℝ} {e : Fin E}
    (hb : ∀ s, P e s 0 = true → b s = .fin (β s)) (hv : ∀ s, P e s 0 = true → v s = .fin (ν s))
    (hne : ∀ s, P e s 0 = true → ν s ≠ 0) :
    sumS (fun e s => (votes P X e s - b s) / (v s).sq) e = .fin (∑ s, if P e s 0 = true then (X e s 0 - β s) / ν s ^ 2 else 0) ∧
    sumS (fun e s => oneOrNan (votes P X e s) / (v s).sq) e = .fin (∑ s, if P e s 0 = true then 1 / ν s ^ 2 else 0) := by
  constructor
  · apply sumS_mask P (fun e s => (X e s 0 - β s) / ν s ^ 2)
    intro s
    rw [votes_eq]
    cases hP : P e s 0
    · simp
    · have := mul_ne_zero (hne s hP) (hne s hP)
      rw [hb s hP, hv s hP]
      simp only [mask_true, Fl.fin_sub, Fl.sq_fin, Fl.fin_div this]
      rw [pow_two]
  · apply sumS_mask P (fun e s => 1 / ν s ^ 2)
    intro s
    rw [votes_eq, oneOrNan_mask]
    cases hP : P e s 0
    · simp
    · have := mul_ne_zero (hne s hP) (hne s hP)
      rw [hv s hP]
      simp only [mask_true, Fl.sq_fin, Fl.fin_div this]
      rw [pow_two]

theorem sum_ite_div {n : ℕ} (q : Fin n → Prop) [DecidablePred q] (F : Fin n → ℝ) (c : ℝ) :
    (∑ i, if q i then F i / c else 0) = (∑ i, if q i then F i else 0) / c := by
  rw [Finset.sum_div]
  refine Finset.sum_congr rfl fun i _ => ?_
  split
  · rfl
  · rw [zero_div]

/-- one pass of the two programs -/
theorem step_compare (P : Fin E → Fin S → Fin 1 → Bool) (X : Fin E → Fin S → Fin 1 → ℝ) (cid : Fin E → Fin C)
    (p : Mle.Params ℝ E S C) (q : St ℝ E S) (hqx : q.x = p.x) (hqb : q.b = p.b) (hqv : q.v = p.v) (ha : p.a = fun _ => 0)
    (hx : ∀ e, ∃ v, p.x e = .fin v) (hb : ∀ s, ∃ v, p.b s = .fin v) (hall : ∀ s, ∃ e, P e s 0 = true)
    (hv : Mle.VariancesPositive ⟨Ap.maskX P X, cid⟩ p)
    (hv' : Mle.VariancesPositive ⟨Ap.maskX P X, cid⟩ (Mle.step .contentOblivious Mle.simplifiedU ⟨Ap.maskX P X, cid⟩ p).1) :
    (step false (votes P X) q).x = (Mle.step .contentOblivious Mle.simplifiedU ⟨Ap.maskX P X, cid⟩ p).1.x ∧
    (step false (votes P X) q).b = (Mle.step .contentOblivious Mle.simplifiedU ⟨Ap.maskX P X, cid⟩ p).1.b ∧
    (step false (votes P X) q).v = (Mle.step .contentOblivious Mle.simplifiedU ⟨Ap.maskX P X, cid⟩ p).1.v ∧
    ((Mle.step .contentOblivious Mle.simplifiedU ⟨Ap.maskX P X, cid⟩ p).1.a = fun _ => 0) ∧
    ∀ s, ∃ v, (Mle.step .contentOblivious Mle.simplifiedU ⟨Ap.maskX P X, cid⟩ p).1.b s = .fin v := by
  generalize ht : Mle.step .contentOblivious Mle.simplifiedU ⟨Ap.maskX P X, cid⟩ p = t at hv' ⊢
  -- the four results of the pass
  have tb : t.1.b = (Mle.bSimplified ⟨Ap.maskX P X, cid⟩ p).1 := by rw [← ht]; rfl
  have tv : t.1.v = fun s => Fl.maximum ((Mle.vSimplified ⟨Ap.maskX P X, cid⟩ { p with b := t.1.b }).1 s) 0 := by
    rw [tb, ← ht]; rfl
  have ta : t.1.a = fun _ => 0 := by rw [← ht]; rfl
  have tx : t.1.x = (Mle.xSimplified ⟨Ap.maskX P X, cid⟩ ⟨p.x, t.1.b, t.1.v, t.1.a⟩).1 := by rw [← ht]; rfl
  have hpv : ∀ e s, P e s 0 = true → ∃ σ : ℝ, p.v s = .fin σ ∧ σ ≠ 0 := by
    intro e s hP
    obtain ⟨σ, τ, h1, h2, h3⟩ := hv e s 0 (X e s 0) (by show Ap.maskX P X e s 0 = _; unfold Ap.maskX; rw [hP]; rfl)
    have h2' : p.a (cid e) = .fin τ := h2
    rw [ha, Fl.zero_def, Fl.fin_inj] at h2'
    refine ⟨σ, h1, ?_⟩
    rintro rfl
    rw [← h2'] at h3
    norm_num at h3
  have htv : ∀ s, ∃ σ : ℝ, t.1.v s = .fin σ ∧ σ ≠ 0 := by
    intro s
    obtain ⟨e, hP⟩ := hall s
    obtain ⟨σ, τ, h1, h2, h3⟩ := hv' e s 0 (X e s 0) (by show Ap.maskX P X e s 0 = _; unfold Ap.maskX; rw [hP]; rfl)
    have h2' : t.1.a (cid e) = .fin τ := h2
    rw [ta, Fl.zero_def, Fl.fin_inj] at h2'
    refine ⟨σ, h1, ?_⟩
    rintro rfl
    rw [← h2'] at h3
    norm_num at h3
  choose ξ hξ using hx
  choose β hβ using hb
  have hpv' : ∀ s, ∃ σ : ℝ, p.v s = .fin σ ∧ σ ≠ 0 := fun s => by
    obtain ⟨e, he⟩ := hall s
    exact hpv e s he
  choose ν hν hν0 using hpv'
  have hpa : ∀ c, p.a c = .fin 0 := fun c => by rw [ha]; rfl
  have hpos : ∀ s, 0 < ν s ^ 2 + (0 : ℝ) ^ 2 := fun s => by have := hν0 s; positivity
  have reg : Mle.Regular P cid p ξ β ν (fun _ => 0) :=
    ⟨fun e _ _ _ => hξ e, fun _ s _ _ => hβ s, fun _ s _ _ => hν s, fun e _ _ _ => hpa _, fun _ s _ _ => hpos s⟩
  -- biases
  have hB : ∀ s, t.1.b s = .fin (β s * (9 / 10) + (∑ e, if P e s 0 = true then X e s 0 - ξ e else 0) / voteCount P s * (1 / 10)) := by
    intro s
    rw [tb]
    obtain ⟨h1, h2, _⟩ := Mle.b_sums (X := X) reg s
    show Mle.refresh (p.b s) (Mle.sumE _ s / Mle.sumE _ s) = _
    erw [h1, h2]
    have hn := (voteCount_pos (hall s)).ne'
    have hden : (∑ e, ∑ r, if P e s r = true then 1 / (ν s ^ 2 + (0 : ℝ) ^ 2) else 0) = voteCount P s / (ν s ^ 2 + 0 ^ 2) := by
      simp only [Finset.univ_unique, Finset.sum_singleton]
      exact sum_ite_div (fun e => P e s 0 = true) (fun _ => 1) _
    have hnum : (∑ e, ∑ r, if P e s r = true then (X e s r - ξ e) / (ν s ^ 2 + (0 : ℝ) ^ 2) else 0) =
        (∑ e, if P e s 0 = true then X e s 0 - ξ e else 0) / (ν s ^ 2 + 0 ^ 2) := by
      simp only [Finset.univ_unique, Finset.sum_singleton]
      exact sum_ite_div (fun e => P e s 0 = true) (fun e => X e s 0 - ξ e) _
    rw [hden, hnum, Fl.fin_div (div_ne_zero hn (hpos s).ne'), hβ, Mle.refresh_eq, Fl.fin_mul, Fl.fin_mul, Fl.fin_add,
      div_div_div_cancel_right₀ (hpos s).ne']
  have hLB : newB (votes P X) q = t.1.b := by
    funext s
    rw [hB, newB_val (fun e s _ => by rw [hqx]; exact hξ e) (hall s) (by rw [hqb]; exact hβ s)]
  choose β' hβ' using fun s => (⟨_, hB s⟩ : ∃ v, t.1.b s = .fin v)
  -- inconsistencies
  have hLV : newV (votes P X) q t.1.b = t.1.v := by
    funext s
    have reg1 : Mle.Regular P cid { p with b := t.1.b } ξ β' ν (fun _ => 0) :=
      ⟨fun e _ _ _ => hξ e, fun _ s _ _ => hβ' s, fun _ s _ _ => hν s, fun e _ _ _ => hpa _, fun _ s _ _ => hpos s⟩
    obtain ⟨e0, he0⟩ := hall s
    have hnewton := (Mle.vSimplified_newton (X := X) reg1 s ⟨e0, 0, he0⟩).1
    obtain ⟨σ, hσ, hσ0⟩ := htv s
    have hmax : t.1.v s = Fl.maximum ((Mle.vSimplified ⟨Ap.maskX P X, cid⟩ { p with b := t.1.b }).1 s) 0 := congrFun tv s
    simp only [Finset.univ_unique, Finset.sum_singleton] at hnewton
    generalize hd1 : (∑ e, if P e s default = true then Mle.cell1 (ν s) 0 (X e s default - ξ e - β' s) else 0) = d1 at hnewton
    generalize hd2 : (∑ e, if P e s default = true then Mle.cell2 (ν s) 0 (X e s default - ξ e - β' s) else 0) = d2 at hnewton
    rw [hnewton] at hmax
    have hd2ne : d2 ≠ 0 := by
      rintro rfl
      rw [hσ] at hmax
      unfold newtonStep at hmax
      rcases lt_trichotomy d1 0 with h | h | h
      · rw [Fl.fin_div_zero_neg h] at hmax
        have h1 : (Fl.fin (ν s) : Fl ℝ) - .ninf = .pinf := rfl
        rw [h1] at hmax
        have h2 : (Fl.pinf : Fl ℝ) * Fl.fin (1 / 10) = .pinf := by
          show Fl.infMul _ _ = _
          unfold Fl.infMul
          rw [if_pos (by norm_num)]
          rfl
        rw [h2, Fl.fin_mul] at hmax
        exact absurd hmax (by intro hh; cases hh)
      · rw [h, Fl.zero_div_zero] at hmax
        simp at hmax
      · rw [Fl.fin_div_zero_pos h] at hmax
        have h1 : (Fl.fin (ν s) : Fl ℝ) - .pinf = .ninf := rfl
        rw [h1] at hmax
        have h2 : (Fl.ninf : Fl ℝ) * Fl.fin (1 / 10) = .ninf := by
          show Fl.infMul _ _ = _
          unfold Fl.infMul
          rw [if_pos (by norm_num)]
          rfl
        rw [h2, Fl.fin_mul] at hmax
        have h3 : Fl.maximum (Fl.fin (ν s * (9 / 10)) + (.ninf : Fl ℝ)) 0 = 0 := rfl
        rw [h3, Fl.zero_def, Fl.fin_inj] at hmax
        exact hσ0 hmax
    rw [Mle.newtonStep_of_ne hd2ne, Fl.zero_def, Fl.maximum_fin, hσ, Fl.fin_inj] at hmax
    have hval : ν s * (9 / 10) + (ν s - d1 / d2) * (1 / 10) = σ := by
      rcases max_choice (ν s * (9 / 10) + (ν s - d1 / d2) * (1 / 10)) 0 with h | h
      · rw [← h, ← hmax]
      · rw [h] at hmax; exact absurd hmax hσ0
    obtain ⟨hn, hd⟩ := newV_sums (P := P) (X := X) (p := q) (b := t.1.b) (ξ := ξ) (β := β') (ν := ν) (s := s)
      (fun e s _ => by rw [hqx]; exact hξ e) (hβ' s) (by rw [hqv]; exact hν s)
    have hc2 : (∑ e, if P e s 0 = true then ν s ^ 2 - 3 * (X e s 0 - ξ e - β' s) ^ 2 else 0) = ν s ^ 4 * d2 := by
      rw [← hd2, Finset.mul_sum]
      refine Finset.sum_congr rfl fun e _ => ?_
      show _ = ν s ^ 4 * if P e s 0 = true then Mle.cell2 (ν s) 0 (X e s 0 - ξ e - β' s) else 0
      split
      · unfold Mle.cell2
        have := hν0 s
        field_simp
        ring
      · ring
    have hc1 : (∑ e, if P e s 0 = true then 2 * ν s ^ 3 - 4 * ν s * (X e s 0 - ξ e - β' s) ^ 2 else 0) =
        ν s ^ 4 * (ν s * d2 - d1) := by
      rw [← hd2, ← hd1, Finset.mul_sum, ← Finset.sum_sub_distrib, Finset.mul_sum]
      refine Finset.sum_congr rfl fun e _ => ?_
      show _ = ν s ^ 4 * (ν s * (if P e s 0 = true then Mle.cell2 (ν s) 0 (X e s 0 - ξ e - β' s) else 0) -
        if P e s 0 = true then Mle.cell1 (ν s) 0 (X e s 0 - ξ e - β' s) else 0)
      split
      · unfold Mle.cell2 Mle.cell1
        have := hν0 s
        field_simp
        ring
      · ring
    have h4 : ν s ^ 4 ≠ 0 := pow_ne_zero _ (hν0 s)
    show refresh (q.v s) (sumE _ s / sumE _ s) = _
    rw [hn, hd, hc1, hc2, Fl.fin_div (mul_ne_zero h4 hd2ne), hqv, hν]
    have : refresh (K := ℝ) = Mle.refresh := rfl
    rw [this, Mle.refresh_eq, Fl.fin_mul, Fl.fin_mul, Fl.fin_add, hσ, ← hval]
    congr 3
    rw [mul_div_mul_left _ _ h4]
    field_simp
  choose ν' hν' hν'0 using htv
  refine ⟨?_, hLB, ?_, ta, fun s => ⟨_, hB s⟩⟩
  · have h1 : (step false (votes P X) q).x = newX (votes P X) q.x (newB (votes P X) q) (newV (votes P X) q (newB (votes P X) q)) := rfl
    rw [h1, hLB, hLV, tx]
    funext e
    have reg3 : Mle.Regular P cid ⟨p.x, t.1.b, t.1.v, t.1.a⟩ ξ β' ν' (fun _ => 0) :=
      ⟨fun e _ _ _ => hξ e, fun _ s _ _ => hβ' s, fun _ s _ _ => hν' s, fun e _ _ _ => by show t.1.a _ = _; rw [ta]; rfl,
        fun _ s _ _ => by have := hν'0 s; positivity⟩
    obtain ⟨g1, g2, _⟩ := Mle.x_sums (X := X) reg3 e
    obtain ⟨l1, l2⟩ := newX_sums (P := P) (X := X) (b := t.1.b) (v := t.1.v) (β := β') (ν := ν') (e := e)
      (fun s _ => hβ' s) (fun s _ => hν' s) (fun s _ => hν'0 s)
    show refresh (q.x e) (sumS _ e / sumS _ e) = Mle.refresh (p.x e) (Mle.sumS _ e / Mle.sumS _ e)
    erw [l1, l2, g1, g2]
    rw [hqx]
    simp only [Finset.univ_unique, Finset.sum_singleton, ne_eq, OfNat.ofNat_ne_zero, not_false_eq_true, zero_pow, add_zero]
    rfl
  · have h1 : (step false (votes P X) q).v = newV (votes P X) q (newB (votes P X) q) := rfl
    rw [h1, hLB, hLV]

/-- the loops -/
theorem loop_compare (pdf : Option String) (P : Fin E → Fin S → Fin 1 → Bool) (X : Fin E → Fin S → Fin 1 → ℝ) (cid : Fin E → Fin C)
    (hall : ∀ s, ∃ e, P e s 0 = true) (p0 : Mle.Params ℝ E S C)
    (hvis : ∀ p, Mle.Visited .contentOblivious Mle.simplifiedU Mle.defaultThr ⟨Ap.maskX P X, cid⟩ p0 p →
      Mle.VariancesPositive ⟨Ap.maskX P X, cid⟩ p ∧
      Mle.VariancesPositive ⟨Ap.maskX P X, cid⟩ (Mle.step .contentOblivious Mle.simplifiedU ⟨Ap.maskX P X, cid⟩ p).1)
    (n itr : ℕ) (hn : Mle.maxItr - itr = n) (p : Mle.Params ℝ E S C) (q : St ℝ E S)
    (hp : Mle.Visited .contentOblivious Mle.simplifiedU Mle.defaultThr ⟨Ap.maskX P X, cid⟩ p0 p)
    (hqx : q.x = p.x) (hqb : q.b = p.b) (hqv : q.v = p.v) (ha : p.a = fun _ => 0) (hb : ∀ s, ∃ v, p.b s = .fin v)
    (f : Mle.Fit ℝ E S C) (hitr : itr < maxItr)
    (hf : Mle.loop .contentOblivious Mle.simplifiedU pdf Mle.defaultThr ⟨Ap.maskX P X, cid⟩ itr p = .ok f) (hle : f.itr ≤ maxItr) :
    ∃ t, loop false (votes P X) itr q = .ok t ∧ t.x = f.p.x ∧ t.b = f.p.b ∧ t.v = f.p.v ∧
      ∀ s, ∃ v, f.p.b s = .fin v := by
  induction n generalizing itr p q with
  | zero =>
    unfold maxItr at hitr
    unfold Mle.maxItr at hn
    omega
  | succ n ih =>
    rw [Mle.loop_unfold] at hf
    rw [loop_unfold]
    have hx : ∀ e, ∃ v, p.x e = .fin v := by
      by_contra hx
      push Not at hx
      obtain ⟨e, he⟩ := hx
      rw [Mle.norm_not_finite p.x _ e he] at hf
      cases hf
    obtain ⟨h1, h2, h3, h4, h5⟩ := step_compare P X cid p q hqx hqb hqv ha hx hb hall (hvis p hp).1 (hvis p hp).2
    rw [hqx, h1]
    cases hd : Np.linalgNorm (List.ofFn fun e => p.x e - (Mle.step .contentOblivious Mle.simplifiedU ⟨Ap.maskX P X, cid⟩ p).1.x e) with
    | error e => rw [hd] at hf; cases hf
    | ok δ =>
      rw [hd] at hf
      dsimp only at hf ⊢
      cases hdens : Mle.density (K := ℝ) pdf 1 with
      | error e => rw [hdens] at hf; cases hf
      | ok dens =>
        rw [hdens] at hf
        dsimp only at hf
        have hthr : (thr : Fl ℝ) = Mle.defaultThr := rfl
        rw [hthr]
        cases hlt : δ.lt (Mle.defaultThr : Fl ℝ)
        · rw [hlt] at hf
          simp only [Bool.false_eq_true, if_false] at hf ⊢
          have hmle : ¬ Mle.maxItr ≤ itr + 1 := by unfold maxItr at hitr; unfold Mle.maxItr; omega
          rw [if_neg hmle] at hf
          have hout := Mle.loop_out _ (itr + 1) rfl (by omega) _ hf
          have : ¬ maxItr ≤ itr + 1 := by
            have := hout.2.1
            omega
          rw [if_neg this]
          exact ih (itr + 1) (by omega) _ _ (Mle.Visited.next hp hd hlt) h1 h2 h3 h4 h5 (by omega) hf
        · rw [hlt] at hf
          simp only [if_true] at hf ⊢
          cases hf
          exact ⟨_, rfl, h1, h2, h3, h5⟩

end compare
end Sureal.Legacy
