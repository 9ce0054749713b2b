import Verif.Lemmas.Unanimous
/-!
# Helper lemmas: the maximum likelihood models when all initial deviations are 0
-/
set_option linter.unusedSectionVars false
namespace Sureal.Mle
open Sureal Spec
variable {E S R C : ℕ}

/-- 0 or NaN -/
def ZeroOrNan (x : Fl ℝ) : Prop := x = .fin 0 ∨ x = .nan

theorem zero_nan : ZeroOrNan (.nan : Fl ℝ) := Or.inr rfl
theorem zero_zero : ZeroOrNan (.fin 0 : Fl ℝ) := Or.inl rfl
theorem zero_zero' : ZeroOrNan (0 : Fl ℝ) := Or.inl rfl

private theorem div00 : (Fl.fin 0 : Fl ℝ) / Fl.fin 0 = .nan := Fl.zero_div_zero

theorem vadd_nan_left (a : Fl ℝ) : vadd .nan a = .nan := by unfold vadd; simp [Fl.sq]
theorem vadd_nan_right (v : Fl ℝ) : vadd v .nan = .nan := by unfold vadd; simp [Fl.sq]
theorem vadd_zero : vadd (.fin 0) (.fin 0) = (.fin 0 : Fl ℝ) := by unfold vadd; simp [Fl.sq]

theorem vFirst_dead {r v a : Fl ℝ} (hv : ZeroOrNan v) (ha : ZeroOrNan a) : vFirst r v a = .nan := by
  unfold vFirst
  rcases hv with rfl | rfl
  · rcases ha with rfl | rfl
    · rw [vadd_zero, show (-(Fl.fin 0) : Fl ℝ) = .fin 0 from congrArg Fl.fin neg_zero, div00, Fl.nan_add]
    · rw [vadd_nan_right]; simp
  · simp

theorem vSecond_dead {r v a : Fl ℝ} (hv : ZeroOrNan v) (ha : ZeroOrNan a) : vSecond r v a = .nan := by
  unfold vSecond
  rcases hv with rfl | rfl
  · rcases ha with rfl | rfl
    · rw [vadd_zero, show vsub (.fin 0) (.fin 0) = (.fin 0 : Fl ℝ) by unfold vsub; simp [Fl.sq],
        show (Fl.fin 0 : Fl ℝ).sq = .fin 0 by simp [Fl.sq], div00, Fl.nan_add]
    · rw [vadd_nan_right]; simp [Fl.sq]
  · rw [vadd_nan_left]; simp [Fl.sq]

theorem aFirst_dead {r v a : Fl ℝ} (hv : ZeroOrNan v) (ha : ZeroOrNan a) : aFirst r v a = .nan := by
  unfold aFirst
  rcases ha with rfl | rfl
  · rcases hv with rfl | rfl
    · rw [vadd_zero, show (-(Fl.fin 0) : Fl ℝ) = .fin 0 from congrArg Fl.fin neg_zero, div00, Fl.nan_add]
    · rw [vadd_nan_left]; simp
  · simp

theorem aSecond_dead {r v a : Fl ℝ} (hv : ZeroOrNan v) (ha : ZeroOrNan a) : aSecond r v a = .nan := by
  unfold aSecond
  rcases hv with rfl | rfl
  · rcases ha with rfl | rfl
    · rw [vadd_zero, show (-vsub (.fin 0) (.fin 0)) = (.fin 0 : Fl ℝ) by unfold vsub; simp [Fl.sq],
        show (Fl.fin 0 : Fl ℝ).sq = .fin 0 by simp [Fl.sq], div00, Fl.nan_add]
    · rw [vadd_nan_right]; simp [Fl.sq]
  · rw [vadd_nan_left]; simp [Fl.sq]

theorem sumContent_zero (cid : Fin E → Fin C) (xs : Arr1 (Fl ℝ) E) (h : ∀ e, xs e = 0) : sumContent cid xs = fun _ => 0 := by
  unfold sumContent
  generalize List.finRange E = l
  induction l with
  | nil => rfl
  | cons e l ih =>
    rw [List.foldl_cons]
    have : (fun c => if c = cid e then (0 : Fl ℝ) + xs e else 0) = fun _ : Fin C => (0 : Fl ℝ) := by
      funext c
      rw [h e]
      split
      · show Fl.fin (0 + 0 : ℝ) = _
        rw [add_zero]; rfl
      · rfl
    rw [this]
    exact ih

section updates
variable {m : Method} {pdf : Option String} {u : Updates ℝ E S R C} (hm : m ≠ .numerical) (hu : updates m pdf = .ok u) (d : Data ℝ E S R C)
  (p : Params ℝ E S C)
include hm hu

theorem v_dead (hv : ∀ s, ZeroOrNan (p.v s)) (ha : ∀ e, ZeroOrNan (p.a (d.cid e))) (s : Fin S) : (u.v d p).1 s = .nan := by
  have h00 : (0 : Fl ℝ) / 0 = .nan := Fl.zero_div_zero
  cases m with
  | numerical => exact absurd rfl hm
  | simplified =>
    cases hu
    show refresh (p.v s) (p.v s - sumE _ s / sumE _ s) = .nan
    rw [sumE_all_nan _ s (fun e r => vFirst_dead (hv s) (ha e)), sumE_all_nan _ s (fun e r => vSecond_dead (hv s) (ha e)), h00, Fl.sub_nan, refresh_nan]
  | original =>
    cases hu
    show refresh (p.v s) (p.v s - sumE _ s / sumE _ s) = .nan
    rw [sumE_all_nan _ s (fun e r => vFirst_dead (hv s) (ha e)), sumE_all_nan _ s (fun e r => vSecond_dead (hv s) (ha e)), h00, Fl.sub_nan, refresh_nan]

theorem a_dead (hv : ∀ s, ZeroOrNan (p.v s)) (ha : ∀ e, ZeroOrNan (p.a (d.cid e))) (c : Fin C) : (u.a d p).1 c = .nan := by
  have h00 : (0 : Fl ℝ) / 0 = .nan := Fl.zero_div_zero
  cases m with
  | numerical => exact absurd rfl hm
  | simplified =>
    cases hu
    show refresh (p.a c) (p.a c - sumContent _ _ c / sumContent _ _ c) = .nan
    rw [sumContent_zero _ _ (fun e => sumS_all_nan _ e (fun s r => aFirst_dead (hv s) (ha e))),
      sumContent_zero _ _ (fun e => sumS_all_nan _ e (fun s r => aSecond_dead (hv s) (ha e))), h00, Fl.sub_nan, refresh_nan]
  | original =>
    cases hu
    show refresh (p.a c) (p.a c - sumContent _ _ c / sumContent _ _ c) = .nan
    rw [sumContent_zero _ _ (fun e => sumS_all_nan _ e (fun s r => aFirst_dead (hv s) (ha e))),
      sumContent_zero _ _ (fun e => sumS_all_nan _ e (fun s r => aSecond_dead (hv s) (ha e))), h00, Fl.sub_nan, refresh_nan]

theorem x_dead (e : Fin E) (h : ∀ s, vadd (p.v s) (p.a (d.cid e)) = .nan) : (u.x d p).1 e = .nan := by
  have h00 : (0 : Fl ℝ) / 0 = .nan := Fl.zero_div_zero
  cases m with
  | numerical => exact absurd rfl hm
  | simplified =>
    cases hu
    show refresh (p.x e) (sumS _ e / sumS _ e) = .nan
    rw [sumS_all_nan _ e (fun s r => by rw [h]; simp), sumS_all_nan _ e (fun s r => by rw [h]; simp), h00, refresh_nan]
  | original =>
    cases hu
    show refresh (p.x e) (p.x e - sumS _ e / sumS _ e) = .nan
    rw [sumS_all_nan _ e (fun s r => by rw [h]; simp), sumS_all_nan _ e (fun s r => by rw [h]; simp), h00, Fl.sub_nan, refresh_nan]

/-- if there is no deviation to start from, all qualities are NaN after one pass -/
theorem step_dead (mode : Mode) (hv : ∀ s, ZeroOrNan (p.v s)) (ha : ∀ e, ZeroOrNan (p.a (d.cid e))) (e : Fin E) : (step mode u d p).1.x e = .nan := by
  refine x_dead hm hu d _ e fun s => ?_
  by_cases hs : mode = .subjectOblivious
  · subst hs
    have h1 := a_dead hm hu d ⟨p.x, fun _ => 0, fun _ => 0, p.a⟩ (fun _ => zero_zero') ha (d.cid e)
    show vadd (0 : Fl ℝ) (Fl.maximum ((u.a d ⟨p.x, fun _ => 0, fun _ => 0, p.a⟩).1 (d.cid e)) 0) = .nan
    rw [h1, Fl.maximum_nan_left, vadd_nan_right]
  · show vadd ((if mode = .subjectOblivious then (fun _ => 0) else fun s => Fl.maximum ((u.v d _).1 s) 0) s) _ = .nan
    rw [if_neg hs]
    dsimp only
    rw [v_dead hm hu d ⟨p.x, if mode = .subjectOblivious then fun _ => 0 else (u.b d p).1, p.v, p.a⟩ hv ha s, Fl.maximum_nan_left, vadd_nan_left]

/-- the loop then ends with ValueError, as `linalg.norm` takes finite numbers only -/
theorem loop_dead (mode : Mode) (thr : Fl ℝ) (hE : 0 < E) (hv : ∀ s, ZeroOrNan (p.v s)) (ha : ∀ e, ZeroOrNan (p.a (d.cid e))) (itr : ℕ) :
    loop mode u pdf thr d itr p = .error .value := by
  rw [loop_unfold]
  have : Np.linalgNorm (List.ofFn fun e => p.x e - (step mode u d p).1.x e) = .error .value := by
    unfold Np.linalgNorm
    rw [if_neg]
    intro hall
    rw [List.all_eq_true] at hall
    have := hall _ (List.mem_ofFn.mpr ⟨⟨0, hE⟩, rfl⟩)
    rw [step_dead hm hu d p mode hv ha, Fl.sub_nan] at this
    cases this
  rw [this]

end updates

theorem fit_dead {mode : Mode} {m : Method} {pdf : Option String} {thr : Fl ℝ} {d : Data ℝ E S R C} {mos : Arr1 (Fl ℝ) E} (hm : m ≠ .numerical)
    (hE : 0 < E)
    (hv : mode = .subjectOblivious ∨ ∀ s, ∃ c, ∀ e r, d.x e s r - mos e = .nan ∨ d.x e s r - mos e = .fin c)
    (ha : mode = .contentOblivious ∨ ∃ c, ∀ e s r, d.x e s r - mos e = .nan ∨ d.x e s r - mos e = .fin c) :
    fitArr mode m pdf thr d mos = .error .value := by
  unfold fitArr
  obtain ⟨u, hu⟩ : ∃ u : Updates ℝ E S R C, updates m pdf = .ok u := by
    cases m with
    | numerical => exact absurd rfl hm
    | simplified => exact ⟨_, rfl⟩
    | original => exact ⟨_, rfl⟩
  rw [hu]
  refine loop_dead hm hu d _ mode thr hE ?_ ?_ 0
  · intro s
    unfold init
    dsimp only
    split
    · exact zero_zero'
    · rename_i hmode
      obtain ⟨c, hc⟩ := hv.resolve_left hmode s
      refine Unanimous.nanstd_const (c := c) fun x hx => ?_
      obtain ⟨e, r, rfl⟩ := (mem_observerCells _ s x).mp ((colL_stack0_perm _ s).mem_iff.mp hx)
      exact hc e r
  · intro e0
    unfold init
    dsimp only
    split
    · exact zero_zero'
    · rename_i hmode
      obtain ⟨c, hc⟩ := ha.resolve_left hmode
      unfold stdContent
      refine Unanimous.nanstd_const (c := c) fun x hx => ?_
      obtain ⟨e, _, hx⟩ := List.mem_flatMap.mp hx
      split at hx
      · obtain ⟨l, hl, hx⟩ := List.mem_flatten.mp hx
        obtain ⟨s, rfl⟩ := List.mem_ofFn.mp hl
        obtain ⟨t, rfl⟩ := List.mem_ofFn.mp hx
        exact hc e s t
      · cases hx

end Sureal.Mle
