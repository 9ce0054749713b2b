import Verif.Lemmas.Pareto
import Verif.Lemmas.MleSym
import Verif.Lemmas.MlePass
import Verif.Model.Legacy
/-! Lemmas: comparing two videos observer by observer, through the passes of the maximum likelihood models. -/
set_option linter.unusedSectionVars false
namespace Sureal
open Spec Props
namespace Pareto
variable {Q : ℝ → ℝ → Prop}

/-- compares or is equal -/
def Weak (Q : ℝ → ℝ → Prop) (u v : ℝ) : Prop := Q u v ∨ u = v

theorem Compat.weak (hQ : Compat Q) : Compat (Weak Q) := by
  refine ⟨?_, ?_, ?_⟩
  · rintro u v u' v' (h | rfl) (h' | rfl)
    · exact Or.inl (hQ.add h h')
    · exact Or.inl (hQ.shift h u')
    · refine Or.inl ?_
      rw [add_comm u u', add_comm u v']
      exact hQ.shift h' u
    · exact Or.inr rfl
  · rintro u v (h | rfl) c
    · exact Or.inl (hQ.shift h c)
    · exact Or.inr rfl
  · rintro u v (h | rfl) c hc
    · exact Or.inl (hQ.scale h hc)
    · exact Or.inr rfl

theorem Compat.add_weak (hQ : Compat Q) {u v u' v' : ℝ} (h : Q u v) (h' : Weak Q u' v') : Q (u + u') (v + v') := by
  rcases h' with h' | rfl
  · exact hQ.add h h'
  · exact hQ.shift h u'

/-! ### sums of floats -/

theorem fin_of_add {a b : Fl ℝ} {c : ℝ} (h : a + b = .fin c) : ∃ u v, a = .fin u ∧ b = .fin v ∧ c = u + v := by
  cases a <;> cases b <;> try (cases h; done)
  exact ⟨_, _, rfl, rfl, (Fl.fin_inj.mp h).symm⟩

theorem fin_of_sub {a b : Fl ℝ} {c : ℝ} (h : a - b = .fin c) : ∃ u v, a = .fin u ∧ b = .fin v := by
  cases a <;> cases b <;> try (cases h; done)
  exact ⟨_, _, rfl, rfl⟩

theorem nansum_nil : Np.nansum ([] : List (Fl ℝ)) = .fin 0 := rfl

theorem nansum_nan (l : List (Fl ℝ)) : Np.nansum (Fl.nan :: l) = Np.nansum l := rfl

theorem nansum_cons {x : Fl ℝ} (h : x ≠ .nan) (l : List (Fl ℝ)) : Np.nansum (x :: l) = x + Np.nansum l := by
  unfold Np.nansum Np.notNan Np.sum
  rw [List.filter_cons_of_pos (by cases x <;> first | exact absurd rfl h | rfl), List.sum_cons]

/-- a weight is not a negative number -/
def Wt (w : Fl ℝ) : Prop := ∀ t, w = .fin t → 0 ≤ t

theorem wt_sq (v : Fl ℝ) : Wt v.sq := by
  intro t h
  cases v <;> try (cases h; done)
  rename_i x
  have : x * x = t := Fl.fin_inj.mp h
  rw [← this]
  exact mul_self_nonneg x

theorem wt_vadd (v a : Fl ℝ) : Wt (Mle.vadd v a) := by
  intro t h
  obtain ⟨x, y, h1, h2, rfl⟩ := fin_of_add h
  exact add_nonneg (wt_sq v x h1) (wt_sq a y h2)

/-- the contributions of one cell to the numerators of two videos and to their common denominator -/
theorem cell_cases (hQ : Compat Q) {x y b w : Fl ℝ} (h : Rated Q x y) (hw : Wt w) :
    ((x - b) / w = .nan ∧ (y - b) / w = .nan) ∨ (∃ u v, (x - b) / w = .fin u ∧ (y - b) / w = .fin v ∧ Weak Q u v) ∨
      oneOrNan x / w = .pinf ∨ (x - b) / w = .pinf ∨ (x - b) / w = .ninf := by
  rcases h with ⟨rfl, rfl⟩ | ⟨u, v, rfl, rfl, h⟩
  · exact Or.inl ⟨by simp, by simp⟩
  · cases b with
    | nan => exact Or.inl ⟨by simp, by simp⟩
    | pinf =>
      cases w with
      | nan => exact Or.inl ⟨rfl, rfl⟩
      | pinf => exact Or.inl ⟨rfl, rfl⟩
      | ninf => exact Or.inl ⟨rfl, rfl⟩
      | fin w =>
        refine Or.inr (Or.inr (Or.inr (Or.inr ?_)))
        show (if w < 0 then (Fl.pinf : Fl ℝ) else .ninf) = .ninf
        rw [if_neg (not_lt.mpr (hw w rfl))]
    | ninf =>
      cases w with
      | nan => exact Or.inl ⟨rfl, rfl⟩
      | pinf => exact Or.inl ⟨rfl, rfl⟩
      | ninf => exact Or.inl ⟨rfl, rfl⟩
      | fin w =>
        refine Or.inr (Or.inr (Or.inr (Or.inl ?_)))
        show (if w < 0 then (Fl.ninf : Fl ℝ) else .pinf) = .pinf
        rw [if_neg (not_lt.mpr (hw w rfl))]
    | fin b =>
      cases w with
      | nan => exact Or.inl ⟨rfl, rfl⟩
      | pinf => exact Or.inr (Or.inl ⟨0, 0, rfl, rfl, Or.inr rfl⟩)
      | ninf => exact Or.inr (Or.inl ⟨0, 0, rfl, rfl, Or.inr rfl⟩)
      | fin w =>
        rcases (hw w rfl).lt_or_eq with hp | rfl
        · refine Or.inr (Or.inl ⟨(u - b) / w, (v - b) / w, ?_, ?_, Or.inl ?_⟩)
          · rw [Fl.fin_sub, Fl.fin_div hp.ne']
          · rw [Fl.fin_sub, Fl.fin_div hp.ne']
          · have := hQ.scale (hQ.shift h (-b)) (inv_pos.mpr hp)
            rwa [← sub_eq_add_neg, ← sub_eq_add_neg, inv_mul_eq_div, inv_mul_eq_div] at this
        · exact Or.inr (Or.inr (Or.inl (Fl.fin_div_zero_pos one_pos)))

/-- finite sums with a finite denominator compare -/
theorem sums_weak (hQ : Compat Q) {ι : Type} (L : List ι) {x y b w : ι → Fl ℝ} (h : ∀ c, Rated Q (x c) (y c)) (hw : ∀ c, Wt (w c))
    {n m d : ℝ} (hn : Np.nansum (L.map fun c => (x c - b c) / w c) = .fin n) (hm : Np.nansum (L.map fun c => (y c - b c) / w c) = .fin m)
    (hd : Np.nansum (L.map fun c => oneOrNan (x c) / w c) = .fin d) : Weak Q n m := by
  induction L generalizing n m d with
  | nil => cases hn; cases hm; exact Or.inr rfl
  | cons c L ih =>
    rw [List.map_cons] at hn hm hd
    have hd' : ∃ d', Np.nansum (L.map fun c => oneOrNan (x c) / w c) = .fin d' ∧ oneOrNan (x c) / w c ≠ .pinf := by
      by_cases h0 : oneOrNan (x c) / w c = .nan
      · rw [h0, nansum_nan] at hd
        exact ⟨d, hd, by rw [h0]; nofun⟩
      · rw [nansum_cons h0] at hd
        obtain ⟨u, v, h1, h2, -⟩ := fin_of_add hd
        exact ⟨v, h2, by rw [h1]; nofun⟩
    obtain ⟨d', hd', hne⟩ := hd'
    rcases cell_cases hQ (h c) (hw c) (b := b c) with ⟨h1, h2⟩ | ⟨u, v, h1, h2, hq⟩ | h1 | h1 | h1
    · rw [h1, nansum_nan] at hn
      rw [h2, nansum_nan] at hm
      exact ih hn hm hd'
    · rw [h1, nansum_cons (by nofun)] at hn
      rw [h2, nansum_cons (by nofun)] at hm
      obtain ⟨u', n', hu', hn', rfl⟩ := fin_of_add hn
      obtain ⟨v', m', hv', hm', rfl⟩ := fin_of_add hm
      cases hu'
      cases hv'
      exact hQ.weak.add hq (ih hn' hm' hd')
    · exact absurd h1 hne
    · rw [h1, nansum_cons (by nofun)] at hn
      obtain ⟨_, _, hh, -⟩ := fin_of_add hn
      cases hh
    · rw [h1, nansum_cons (by nofun)] at hn
      obtain ⟨_, _, hh, -⟩ := fin_of_add hn
      cases hh

theorem denominator_cases {ι : Type} (L : List ι) {x w : ι → Fl ℝ} (hw : ∀ c, Wt (w c)) :
    Np.nansum (L.map fun c => oneOrNan (x c) / w c) = .pinf ∨ ∃ d, Np.nansum (L.map fun c => oneOrNan (x c) / w c) = .fin d ∧ 0 ≤ d := by
  induction L with
  | nil => exact Or.inr ⟨0, rfl, le_refl _⟩
  | cons c L ih =>
    rw [List.map_cons]
    have hcell : oneOrNan (x c) / w c = .nan ∨ oneOrNan (x c) / w c = .pinf ∨ ∃ t, oneOrNan (x c) / w c = .fin t ∧ 0 ≤ t := by
      unfold oneOrNan
      split
      · exact Or.inl (by simp)
      · have hwc := hw c
        cases h0 : w c with
        | nan => exact Or.inl rfl
        | pinf => exact Or.inr (Or.inr ⟨0, rfl, le_refl _⟩)
        | ninf => exact Or.inr (Or.inr ⟨0, rfl, le_refl _⟩)
        | fin t =>
          rcases (hwc t h0).lt_or_eq with hp | rfl
          · exact Or.inr (Or.inr ⟨1 / t, Fl.fin_div hp.ne', (one_div_pos.mpr hp).le⟩)
          · exact Or.inr (Or.inl (Fl.fin_div_zero_pos one_pos))
    rcases hcell with h | h | ⟨t, h, ht⟩
    · rw [h, nansum_nan]; exact ih
    · rw [h, nansum_cons (by nofun)]
      rcases ih with ih | ⟨d, ih, -⟩ <;> rw [ih] <;> exact Or.inl rfl
    · rw [h, nansum_cons (by nofun)]
      rcases ih with ih | ⟨d, ih, hd⟩ <;> rw [ih]
      · exact Or.inl rfl
      · exact Or.inr ⟨t + d, rfl, add_nonneg ht hd⟩

/-- weighted means that are numbers compare -/
theorem ratio_weak (hQ : Compat Q) {ι : Type} (L : List ι) {x y b w : ι → Fl ℝ} (h : ∀ c, Rated Q (x c) (y c)) (hw : ∀ c, Wt (w c))
    {u v : ℝ} (hu : Np.nansum (L.map fun c => (x c - b c) / w c) / Np.nansum (L.map fun c => oneOrNan (x c) / w c) = .fin u)
    (hv : Np.nansum (L.map fun c => (y c - b c) / w c) / Np.nansum (L.map fun c => oneOrNan (y c) / w c) = .fin v) : Weak Q u v := by
  have hone : (L.map fun c => oneOrNan (y c) / w c) = L.map fun c => oneOrNan (x c) / w c := by
    refine List.map_congr_left fun c _ => ?_
    rcases h c with ⟨h1, h2⟩ | ⟨_, _, h1, h2, -⟩ <;> rw [h1, h2] <;> rfl
  rw [hone] at hv
  rcases denominator_cases L (x := x) hw with hd | ⟨d, hd, h0⟩
  · rw [hd] at hu hv
    have key : ∀ (t : Fl ℝ) (u : ℝ), t / .pinf = .fin u → u = 0 := by
      intro t u ht
      cases t <;> try (cases ht; done)
      exact (Fl.fin_inj.mp ht).symm
    exact Or.inr ((key _ _ hu).trans (key _ _ hv).symm)
  · have key : ∀ (t : Fl ℝ) (u : ℝ), t / .fin d = .fin u → ∃ n, t = .fin n ∧ 0 < d ∧ u = n / d := by
      intro t u ht
      rcases h0.lt_or_eq with hp | rfl
      · cases t with
        | nan => cases ht
        | pinf =>
          change (if d < 0 then (Fl.ninf : Fl ℝ) else .pinf) = _ at ht
          rw [if_neg (not_lt.mpr h0)] at ht
          cases ht
        | ninf =>
          change (if d < 0 then (Fl.pinf : Fl ℝ) else .ninf) = _ at ht
          rw [if_neg (not_lt.mpr h0)] at ht
          cases ht
        | fin n =>
          rw [Fl.fin_div hp.ne'] at ht
          exact ⟨n, rfl, hp, (Fl.fin_inj.mp ht).symm⟩
      · cases t with
        | nan => cases ht
        | pinf =>
          change (if (0 : ℝ) < 0 then (Fl.ninf : Fl ℝ) else .pinf) = _ at ht
          rw [if_neg (lt_irrefl _)] at ht
          cases ht
        | ninf =>
          change (if (0 : ℝ) < 0 then (Fl.pinf : Fl ℝ) else .ninf) = _ at ht
          rw [if_neg (lt_irrefl _)] at ht
          cases ht
        | fin n =>
          rcases lt_trichotomy n 0 with hn | rfl | hn
          · rw [Fl.fin_div_zero_neg hn] at ht; cases ht
          · rw [Fl.zero_div_zero] at ht; cases ht
          · rw [Fl.fin_div_zero_pos hn] at ht; cases ht
    rw [hd] at hu hv
    obtain ⟨n, hn, hp, rfl⟩ := key _ _ hu
    obtain ⟨m, hm, -, rfl⟩ := key _ _ hv
    have := hQ.weak.scale (sums_weak hQ L h hw hn hm hd) (inv_pos.mpr hp)
    rwa [inv_mul_eq_div, inv_mul_eq_div] at this

/-- means of residuals against numbers are numbers or NaN -/
theorem ratio_clean {ι : Type} (L : List ι) {x m w : ι → Fl ℝ} (hx : ∀ c, NumOrNan (x c)) (hm : ∀ c, ∃ t, m c = .fin t) (hw : ∀ c, Wt (w c)) :
    NumOrNan (Np.nansum (L.map fun c => (x c - m c) / w c) / Np.nansum (L.map fun c => oneOrNan (x c) / w c)) := by
  have key : ∀ d, Np.nansum (L.map fun c => oneOrNan (x c) / w c) = .fin d →
      ∃ n, Np.nansum (L.map fun c => (x c - m c) / w c) = .fin n ∧ 0 ≤ d ∧ (d = 0 → n = 0) := by
    induction L with
    | nil => intro d hd; cases hd; exact ⟨0, rfl, le_refl _, fun _ => rfl⟩
    | cons c L ih =>
      intro d hd
      rw [List.map_cons] at hd ⊢
      obtain ⟨t, ht⟩ := hm c
      rcases hx c with hc | ⟨v, hc⟩
      · rw [hc] at hd ⊢
        rw [show oneOrNan (Fl.nan : Fl ℝ) / w c = .nan by simp [oneOrNan], nansum_nan] at hd
        rw [show (Fl.nan - m c : Fl ℝ) / w c = .nan by simp, nansum_nan]
        exact ih d hd
      · rw [hc] at hd ⊢
        rw [ht]
        have hone : oneOrNan (Fl.fin v : Fl ℝ) = .fin 1 := rfl
        rw [hone] at hd
        have hwc := hw c
        cases h0 : w c with
        | nan =>
          rw [h0] at hd
          rw [show (Fl.fin v - Fl.fin t : Fl ℝ) / .nan = .nan from rfl, nansum_nan]
          rw [show (Fl.fin 1 : Fl ℝ) / .nan = .nan from rfl, nansum_nan] at hd
          exact ih d hd
        | pinf =>
          rw [h0] at hd
          rw [show (Fl.fin v - Fl.fin t : Fl ℝ) / .pinf = .fin 0 from rfl, nansum_cons (by nofun)]
          rw [show (Fl.fin 1 : Fl ℝ) / .pinf = .fin 0 from rfl, nansum_cons (by nofun)] at hd
          obtain ⟨a, b, ha, hb, rfl⟩ := fin_of_add hd
          cases ha
          obtain ⟨n, hn, h1, h2⟩ := ih b hb
          rw [hn]
          exact ⟨0 + n, rfl, by simpa using h1, fun h => by simpa using h2 (by simpa using h)⟩
        | ninf =>
          rw [h0] at hd
          rw [show (Fl.fin v - Fl.fin t : Fl ℝ) / .ninf = .fin 0 from rfl, nansum_cons (by nofun)]
          rw [show (Fl.fin 1 : Fl ℝ) / .ninf = .fin 0 from rfl, nansum_cons (by nofun)] at hd
          obtain ⟨a, b, ha, hb, rfl⟩ := fin_of_add hd
          cases ha
          obtain ⟨n, hn, h1, h2⟩ := ih b hb
          rw [hn]
          exact ⟨0 + n, rfl, by simpa using h1, fun h => by simpa using h2 (by simpa using h)⟩
        | fin k =>
          rw [h0] at hd
          rcases (hwc k h0).lt_or_eq with hp | rfl
          · rw [Fl.fin_sub, Fl.fin_div hp.ne', nansum_cons (by nofun)]
            rw [Fl.fin_div hp.ne', nansum_cons (by nofun)] at hd
            obtain ⟨a, b, ha, hb, rfl⟩ := fin_of_add hd
            cases ha
            obtain ⟨n, hn, h1, h2⟩ := ih b hb
            rw [hn]
            have hpos : 0 < 1 / k + b := add_pos_of_pos_of_nonneg (one_div_pos.mpr hp) h1
            exact ⟨_, rfl, hpos.le, fun h => absurd h hpos.ne'⟩
          · rw [Fl.fin_div_zero_pos one_pos, nansum_cons (by nofun)] at hd
            obtain ⟨_, _, hh, -⟩ := fin_of_add hd
            cases hh
  rcases denominator_cases L (x := x) hw with hd | ⟨d, hd, -⟩
  · rw [hd]
    cases Np.nansum (L.map fun c => (x c - m c) / w c)
    · exact Or.inl rfl
    · exact Or.inl rfl
    · exact Or.inl rfl
    · exact Or.inr ⟨0, rfl⟩
  · obtain ⟨n, hn, h1, h2⟩ := key d hd
    rw [hd, hn]
    rcases h1.lt_or_eq with hp | rfl
    · exact Or.inr ⟨_, Fl.fin_div hp.ne'⟩
    · rw [h2 rfl, Fl.zero_div_zero]; exact Or.inl rfl

theorem refresh_clean {a b : Fl ℝ} (ha : NumOrNan a) (hb : NumOrNan b) : NumOrNan (Mle.refresh a b) := by
  rcases ha with rfl | ⟨a, rfl⟩
  · exact Or.inl rfl
  · rcases hb with rfl | ⟨b, rfl⟩
    · exact Or.inl rfl
    · exact Or.inr ⟨_, rfl⟩

theorem rate_eq : (Mle.rate : Fl ℝ) = .fin (1 / 10) := by
  unfold Mle.rate Fl.dec
  norm_num

theorem refresh_fin {a : ℝ} {b : Fl ℝ} {c : ℝ} (h : Mle.refresh (.fin a) b = .fin c) :
    ∃ v, b = .fin v ∧ c = 9 / 10 * a + 1 / 10 * v := by
  unfold Mle.refresh at h
  rw [rate_eq] at h
  obtain ⟨u, v, h1, h2, rfl⟩ := fin_of_add h
  cases b with
  | nan => cases h2
  | pinf =>
    change Fl.infMul true (1 / 10 : ℝ) = _ at h2
    rw [Fl.infMul, if_pos (by norm_num)] at h2
    cases h2
  | ninf =>
    change Fl.infMul false (1 / 10 : ℝ) = _ at h2
    rw [Fl.infMul, if_pos (by norm_num)] at h2
    cases h2
  | fin b =>
    refine ⟨b, rfl, ?_⟩
    have h3 : a * (1 - 1 / 10) = u := Fl.fin_inj.mp h1
    have h4 : b * (1 / 10) = v := Fl.fin_inj.mp h2
    rw [← h3, ← h4]
    ring

theorem refresh_rated (hQ : Compat Q) {a a' : ℝ} {b b' : Fl ℝ} {c c' : ℝ} (h : Mle.refresh (.fin a) b = .fin c)
    (h' : Mle.refresh (.fin a') b' = .fin c') (ha : Q a a') (hb : ∀ v v', b = .fin v → b' = .fin v' → Weak Q v v') : Q c c' := by
  obtain ⟨v, hv, rfl⟩ := refresh_fin h
  obtain ⟨v', hv', rfl⟩ := refresh_fin h'
  exact hQ.add_weak (hQ.scale ha (by norm_num)) (hQ.weak.scale (hb v v' hv hv') (by norm_num))

theorem norm_fin {n : ℕ} {x y : Fin n → Fl ℝ} {δ : Fl ℝ} (h : Np.linalgNorm (List.ofFn fun e => x e - y e) = .ok δ) (e : Fin n) :
    ∃ u v, x e = .fin u ∧ y e = .fin v := by
  unfold Np.linalgNorm at h
  split at h
  · rename_i hall
    rw [List.all_eq_true] at hall
    have := hall (x e - y e) ((List.mem_ofFn' _ _).mpr ⟨e, rfl⟩)
    cases hd : x e - y e with
    | fin c => exact fin_of_sub hd
    | nan => rw [hd] at this; cases this
    | pinf => rw [hd] at this; cases this
    | ninf => rw [hd] at this; cases this
  · cases h

/-! ### the maximum likelihood models -/

section mle
open Mle
variable {E S R C : ℕ}

theorem videoCells_map' (f : Arr3 (Fl ℝ) E S R) (e : Fin E) :
    videoCells f e = ((List.finRange S).flatMap fun s => (List.finRange R).map fun r => (s, r)).map fun c => f e c.1 c.2 := by
  unfold videoCells
  rw [List.map_flatMap, List.ofFn_eq_map, List.flatMap_def]
  congr 1
  refine List.map_congr_left fun s _ => ?_
  rw [List.ofFn_eq_map, List.map_map]
  rfl

theorem observerCells_map' (f : Arr3 (Fl ℝ) E S R) (s : Fin S) :
    observerCells f s = ((List.finRange E).flatMap fun e => (List.finRange R).map fun r => (e, r)).map fun c => f c.1 s c.2 := by
  unfold observerCells
  rw [List.map_flatMap, List.ofFn_eq_map, List.flatMap_def]
  congr 1
  refine List.map_congr_left fun s _ => ?_
  rw [List.ofFn_eq_map, List.map_map]
  rfl

theorem sumS_map (f : Arr3 (Fl ℝ) E S R) (e : Fin E) :
    sumS f e = Np.nansum (((List.finRange S).flatMap fun s => (List.finRange R).map fun r => (s, r)).map fun c => f e c.1 c.2) := by
  unfold sumS
  rw [nansum_perm (rowL_stack1_perm f e), videoCells_map']

theorem sumE_map (f : Arr3 (Fl ℝ) E S R) (s : Fin S) :
    sumE f s = Np.nansum (((List.finRange E).flatMap fun e => (List.finRange R).map fun r => (e, r)).map fun c => f c.1 s c.2) := by
  unfold sumE
  rw [nansum_perm (colL_stack0_perm f s), observerCells_map']

/-- the update of the quality scores keeps the comparison -/
theorem xSimplified_rated (hQ : Compat Q) {d : Data ℝ E S R C} {p : Params ℝ E S C} {e f : Fin E} (ha : p.a (d.cid e) = p.a (d.cid f))
    (h : ∀ s r, Rated Q (d.x e s r) (d.x f s r)) {u v u' v' : ℝ} (hu : p.x e = .fin u) (hv : p.x f = .fin v) (hq : Q u v)
    (hu' : (xSimplified d p).1 e = .fin u') (hv' : (xSimplified d p).1 f = .fin v') : Q u' v' := by
  unfold xSimplified at hu' hv'
  dsimp only at hu' hv'
  rw [hu] at hu'
  rw [hv] at hv'
  refine refresh_rated hQ hu' hv' hq fun t t' ht ht' => ?_
  rw [sumS_map, sumS_map] at ht ht'
  rw [← ha] at ht'
  exact ratio_weak hQ _ (ι := Fin S × Fin R) (x := fun c => d.x e c.1 c.2) (y := fun c => d.x f c.1 c.2) (b := fun c => p.b c.1)
    (w := fun c => vadd (p.v c.1) (p.a (d.cid e))) (fun c => h c.1 c.2) (fun c => wt_vadd _ _) ht ht'

theorem bSimplified_clean {d : Data ℝ E S R C} {p : Params ℝ E S C} (hc : ∀ e s r, NumOrNan (d.x e s r)) (hx : ∀ e, ∃ t, p.x e = .fin t)
    (hb : ∀ s, NumOrNan (p.b s)) (s : Fin S) : NumOrNan ((bSimplified d p).1 s) := by
  unfold bSimplified
  dsimp only
  refine refresh_clean (hb s) ?_
  rw [sumE_map, sumE_map]
  exact ratio_clean _ (ι := Fin E × Fin R) (x := fun c => d.x c.1 s c.2) (m := fun c => p.x c.1) (w := fun c => vadd (p.v s) (p.a (d.cid c.1)))
    (fun c => hc c.1 s c.2) (fun c => hx c.1) (fun c => wt_vadd _ _)

theorem step_x (mode : Mode) (d : Data ℝ E S R C) (p : Params ℝ E S C) : ∃ p3 : Params ℝ E S C, p3.x = p.x ∧
    (mode = .contentOblivious → p3.a = fun _ => 0) ∧ (step mode simplifiedU d p).1.x = (xSimplified d p3).1 := by
  refine ⟨_, ?_, ?_, rfl⟩
  · rfl
  · intro h
    exact if_pos h

theorem step_b (mode : Mode) {d : Data ℝ E S R C} {p : Params ℝ E S C} (hc : ∀ e s r, NumOrNan (d.x e s r)) (hx : ∀ e, ∃ t, p.x e = .fin t)
    (hb : ∀ s, NumOrNan (p.b s)) (s : Fin S) : NumOrNan ((step mode simplifiedU d p).1.b s) := by
  have h : (step mode simplifiedU d p).1.b = if mode = .subjectOblivious then (fun _ => 0) else (bSimplified d p).1 := rfl
  rw [h]
  split
  · exact Or.inr ⟨0, rfl⟩
  · exact bSimplified_clean hc hx hb s

/-- what a successful loop leaves compares, if the initial scores do -/
theorem loop_rated (hQ : Compat Q) {mode : Mode} {pdf : Option String} {thr : Fl ℝ} {d : Data ℝ E S R C} {p : Params ℝ E S C} {ft : Fit ℝ E S C}
    (hl : loop mode simplifiedU pdf thr d 0 p = .ok ft) (hc : ∀ e s r, NumOrNan (d.x e s r)) (hb : ∀ s, NumOrNan (p.b s)) {e f : Fin E}
    (hcid : mode = .contentOblivious ∨ d.cid e = d.cid f) (h : ∀ s r, Rated Q (d.x e s r) (d.x f s r)) (h0 : Rated Q (p.x e) (p.x f)) :
    Rated Q (ft.p.x e) (ft.p.x f) ∧ ∀ s, NumOrNan (ft.p.b s) := by
  obtain ⟨n, hn1, -, -, hfp, -, htr⟩ := loop_trace maxItr 0 rfl (by unfold maxItr; norm_num) p hl
  rw [hfp]
  have hfin : ∀ k, k < n → ∀ e, (∃ u, (iter mode simplifiedU d p k).x e = .fin u) ∧ ∃ v, (iter mode simplifiedU d p (k + 1)).x e = .fin v := by
    intro k hk e
    obtain ⟨δ, hδ, -⟩ := htr k hk
    obtain ⟨u, v, hu, hv⟩ := norm_fin hδ e
    exact ⟨⟨u, hu⟩, v, hv⟩
  have key : ∀ k, k ≤ n → Rated Q ((iter mode simplifiedU d p k).x e) ((iter mode simplifiedU d p k).x f) ∧
      ∀ s, NumOrNan ((iter mode simplifiedU d p k).b s) := by
    intro k
    induction k with
    | zero => exact fun _ => ⟨h0, hb⟩
    | succ k ih =>
      intro hk
      obtain ⟨ih1, ih2⟩ := ih (by omega)
      refine ⟨?_, step_b mode hc (fun e => (hfin k (by omega) e).1) ih2⟩
      obtain ⟨⟨u, hu⟩, u', hu'⟩ := hfin k (by omega) e
      obtain ⟨⟨v, hv⟩, v', hv'⟩ := hfin k (by omega) f
      rw [hu, hv] at ih1
      rw [hu', hv']
      refine Or.inr ⟨u', v', rfl, rfl, ?_⟩
      rcases ih1 with ⟨h, -⟩ | ⟨u0, v0, h1, h2, hq⟩
      · cases h
      · cases h1
        cases h2
        obtain ⟨p3, h3, h4, h5⟩ := step_x mode d (iter mode simplifiedU d p k)
        refine xSimplified_rated hQ (d := d) (p := p3) ?_ h (h3 ▸ hu) (h3 ▸ hv) hq ?_ ?_
        · rcases hcid with hm | hcid
          · rw [h4 hm]
          · rw [hcid]
        · rw [← h5]; exact hu'
        · rw [← h5]; exact hv'
  exact key n (le_refl n)

theorem mean_clean {n : ℕ} {b : Fin n → Fl ℝ} (h : ∀ s, NumOrNan (b s)) : NumOrNan (Np.mean (List.ofFn b)) := by
  have hsum : ∀ l : List (Fl ℝ), Np.Clean l → NumOrNan (Np.sum l) := by
    intro l
    induction l with
    | nil => exact fun _ => Or.inr ⟨0, rfl⟩
    | cons x l ih =>
      intro hc
      rw [Np.Clean.cons] at hc
      unfold Np.sum
      rw [List.sum_cons]
      rcases hc.1 with rfl | ⟨v, rfl⟩
      · exact Or.inl (by simp)
      · rcases ih hc.2 with h | ⟨w, h⟩ <;> unfold Np.sum at h <;> rw [h]
        · exact Or.inl rfl
        · exact Or.inr ⟨_, rfl⟩
  unfold Np.mean
  rw [List.length_ofFn]
  rcases Nat.eq_zero_or_pos n with rfl | hn
  · left
    show (Fl.fin 0 : Fl ℝ) / .fin ((0 : ℕ) : ℝ) = .nan
    rw [Nat.cast_zero, Fl.zero_div_zero]
  · have hne : ((n : ℕ) : ℝ) ≠ 0 := by exact_mod_cast hn.ne'
    rcases hsum _ (Np.clean_ofFn.mpr h) with h | ⟨v, h⟩ <;> rw [h, Fl.natCast_def]
    · exact Or.inl (by simp)
    · exact Or.inr ⟨_, Fl.fin_div hne⟩

theorem centre_rated (hQ : Compat Q) (force : Bool) {p : Params ℝ E S C} {e f : Fin E} (h : Rated Q (p.x e) (p.x f)) (hb : ∀ s, NumOrNan (p.b s)) :
    Rated Q ((centre force p).x e) ((centre force p).x f) := by
  unfold centre
  split
  · exact rated_add hQ h (mean_clean hb)
  · exact h

end mle

/-! ### the early maximum likelihood model -/

section legacy
open Legacy
variable {E S : ℕ}

theorem rowL_map (f : Arr2 (Fl ℝ) E S) (e : Fin E) : rowL f e = (List.finRange S).map fun s => f e s := by
  unfold rowL
  rw [List.ofFn_eq_map]

theorem colL_map (f : Arr2 (Fl ℝ) E S) (s : Fin S) : colL f s = (List.finRange E).map fun e => f e s := by
  unfold colL
  rw [List.ofFn_eq_map]

theorem newX_rated (hQ : Compat Q) {d : Arr2 (Fl ℝ) E S} {x : Arr1 (Fl ℝ) E} {b w : Arr1 (Fl ℝ) S} {e f : Fin E}
    (h : ∀ s, Rated Q (d e s) (d f s)) {u v u' v' : ℝ} (hu : x e = .fin u) (hv : x f = .fin v) (hq : Q u v)
    (hu' : newX d x b w e = .fin u') (hv' : newX d x b w f = .fin v') : Q u' v' := by
  unfold newX at hu' hv'
  rw [hu] at hu'
  rw [hv] at hv'
  refine refresh_rated hQ hu' hv' hq fun t t' ht ht' => ?_
  unfold sumS at ht ht'
  rw [rowL_map, rowL_map] at ht ht'
  exact ratio_weak hQ _ (x := fun c => d e c) (y := fun c => d f c) (b := b) (w := fun c => (w c).sq) h (fun c => wt_sq _) ht ht'

theorem newB_clean {d : Arr2 (Fl ℝ) E S} {p : St ℝ E S} (hc : ∀ e s, NumOrNan (d e s)) (hx : ∀ e, ∃ t, p.x e = .fin t)
    (hb : ∀ s, NumOrNan (p.b s)) (s : Fin S) : NumOrNan (newB d p s) := by
  unfold newB
  refine refresh_clean (hb s) ?_
  unfold sumE
  rw [colL_map, colL_map]
  have := ratio_clean (List.finRange E) (x := fun c => d c s) (m := fun c => p.x c) (w := fun _ => .fin 1)
    (fun c => hc c s) (fun c => hx c) (fun c t ht => by cases ht; exact zero_le_one)
  have hdiv : ∀ y : Fl ℝ, NumOrNan y → y / .fin 1 = y := by
    rintro y (rfl | ⟨v, rfl⟩)
    · rfl
    · rw [Fl.fin_div one_ne_zero, div_one]
  have h1 : ((List.finRange E).map fun c => (d c s - p.x c) / .fin 1) = (List.finRange E).map fun c => d c s - p.x c := by
    refine List.map_congr_left fun c _ => hdiv _ ?_
    obtain ⟨t, ht⟩ := hx c
    rw [ht]
    rcases hc c s with h | ⟨v, h⟩ <;> rw [h]
    · exact Or.inl rfl
    · exact Or.inr ⟨_, rfl⟩
  have h2 : ((List.finRange E).map fun c => oneOrNan (d c s) / .fin 1) = (List.finRange E).map fun c => oneOrNan (d c s) := by
    refine List.map_congr_left fun c _ => hdiv _ ?_
    rcases hc c s with h | ⟨v, h⟩ <;> rw [h]
    · exact Or.inl rfl
    · exact Or.inr ⟨_, rfl⟩
  rw [h1, h2] at this
  exact this

theorem legacy_rated (hQ : Compat Q) {useLog : Bool} {d : Arr2 (Fl ℝ) E S} (hc : ∀ e s, NumOrNan (d e s)) {e f : Fin E}
    (h : ∀ s, Rated Q (d e s) (d f s)) (n itr : ℕ) (hn : maxItr - itr = n) {p t : St ℝ E S} (hl : loop useLog d itr p = .ok t)
    (hb : ∀ s, NumOrNan (p.b s)) (h0 : Rated Q (p.x e) (p.x f)) : Rated Q (t.x e) (t.x f) ∧ ∀ s, NumOrNan (t.b s) := by
  have one : ∀ (p : St ℝ E S) (δ : Fl ℝ), Np.linalgNorm (List.ofFn fun e => p.x e - (step useLog d p).x e) = .ok δ → (∀ s, NumOrNan (p.b s)) →
      Rated Q (p.x e) (p.x f) → Rated Q ((step useLog d p).x e) ((step useLog d p).x f) ∧ ∀ s, NumOrNan ((step useLog d p).b s) := by
    intro p δ hδ hb h0
    obtain ⟨u, u', hu, hu'⟩ := norm_fin hδ e
    obtain ⟨v, v', hv, hv'⟩ := norm_fin hδ f
    refine ⟨?_, newB_clean hc (fun e => ?_) hb⟩
    · rw [hu', hv']
      rw [hu, hv] at h0
      refine Or.inr ⟨u', v', rfl, rfl, ?_⟩
      rcases h0 with ⟨h, -⟩ | ⟨u0, v0, h1, h2, hq⟩
      · cases h
      · cases h1
        cases h2
        exact newX_rated hQ h hu hv hq hu' hv'
    · obtain ⟨a, _, ha, -⟩ := norm_fin hδ e
      exact ⟨a, ha⟩
  induction n generalizing itr p with
  | zero =>
    rw [loop] at hl
    split at hl
    · cases hl
    · rename_i δ hδ
      split at hl
      · cases hl; exact one p δ hδ hb h0
      · rw [if_pos (by omega)] at hl
        cases hl; exact one p δ hδ hb h0
  | succ n ih =>
    rw [loop] at hl
    split at hl
    · cases hl
    · rename_i δ hδ
      obtain ⟨h1, h2⟩ := one p δ hδ hb h0
      split at hl
      · cases hl; exact ⟨h1, h2⟩
      · split at hl
        · cases hl; exact ⟨h1, h2⟩
        · exact ih (itr + 1) (by omega) hl h2 h1

/-- means of lists that compare -/
theorem nanmean_rated (hQ : Compat Q) {ι : Type} (L : List ι) {x y : ι → Fl ℝ} (h : ∀ c, Rated Q (x c) (y c)) :
    Rated Q (Np.nanmean (L.map x)) (Np.nanmean (L.map y)) := by
  have hx : Np.Clean (L.map x) := by
    intro t ht
    obtain ⟨c, -, rfl⟩ := List.mem_map.mp ht
    rcases h c with ⟨h, -⟩ | ⟨u, _, h, -⟩
    · exact Or.inl h
    · exact Or.inr ⟨u, h⟩
  have hy : Np.Clean (L.map y) := by
    intro t ht
    obtain ⟨c, -, rfl⟩ := List.mem_map.mp ht
    rcases h c with ⟨-, h⟩ | ⟨_, v, -, h, -⟩
    · exact Or.inl h
    · exact Or.inr ⟨v, h⟩
  have key : (present (L.map x) = [] ∧ present (L.map y) = []) ∨
      ((present (L.map x)).length = (present (L.map y)).length ∧ present (L.map x) ≠ [] ∧ Q (present (L.map x)).sum (present (L.map y)).sum) := by
    clear hx hy
    induction L with
    | nil => exact Or.inl ⟨rfl, rfl⟩
    | cons c L ih =>
      rcases h c with ⟨h1, h2⟩ | ⟨u, v, h1, h2, hq⟩
      · rw [List.map_cons, List.map_cons, h1, h2]
        exact ih
      · have e1 : present ((c :: L).map x) = u :: present (L.map x) := by rw [List.map_cons, h1]; rfl
        have e2 : present ((c :: L).map y) = v :: present (L.map y) := by rw [List.map_cons, h2]; rfl
        rw [e1, e2]
        right
        rcases ih with ⟨h3, h4⟩ | ⟨h3, -, h4⟩
        · rw [h3, h4]
          exact ⟨rfl, by simp, by simpa using hq⟩
        · refine ⟨by simp [h3], by simp, ?_⟩
          rw [List.sum_cons, List.sum_cons]
          exact hQ.add hq h4
  rw [nanmean_spec hx, nanmean_spec hy]
  rcases key with ⟨h1, h2⟩ | ⟨h1, h2, h3⟩
  · unfold meanOrNan
    rw [h1, h2]
    exact Or.inl ⟨rfl, rfl⟩
  · have h4 : present (L.map y) ≠ [] := by
      intro h0
      rw [h0] at h1
      exact h2 (List.length_eq_zero_iff.mp h1)
    rw [meanOrNan_eq h2, meanOrNan_eq h4]
    refine Or.inr ⟨_, _, rfl, rfl, ?_⟩
    unfold Spec.mean
    rw [← h1]
    have := hQ.scale h3 (c := ((present (L.map x)).length : ℝ)⁻¹) (inv_pos.mpr (by exact_mod_cast List.length_pos_iff.mpr h2))
    rwa [inv_mul_eq_div, inv_mul_eq_div] at this

end legacy

end Pareto
end Sureal
