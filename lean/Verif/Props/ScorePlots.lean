import Verif.Lemmas.ScorePlots
import Verif.Props.Mos
import Mathlib.Tactic.IntervalCases
import Mathlib.Data.List.Sort
set_option linter.unusedSectionVars false
/-!
# C110, C111: the plots of the quality scores
-/
namespace Sureal.Props
open Sureal.ScorePlots Spec
variable {κ K : Type}

section general
variable [Field K] [LinearOrder K] [IsStrictOrderedRing K]

/-- **C110, the scores.** For results with a score for each of `n` videos: there is one order of the videos, the same for all models, such that
place `p` of every model's points shows that model's score of the video that comes `p`-th in the order.  Without sorting the order is that of
the dataset; with sorting the scores of the first model ascend (NaN last). -/
theorem C110_scores (argsort : List (Fl K) → List ℕ) (ha : Argsort argsort) (sort : Bool) (pt : PlotType) (results : List (Result κ K)) (n : ℕ)
    (hn : ∀ r ∈ results, r.qualityScores.length = n) (out : List (Series K)) (h : quality argsort sort pt results = .ok out) :
    out.length = results.length ∧ ∃ order : List ℕ, order.Perm (List.range n) ∧ (sort = false → order = List.range n) ∧
      (∀ (k : ℕ) (s : Series K) (r : Result κ K), out[k]? = some s → results[k]? = some r → s.ys.length = n ∧
        ∀ (p v : ℕ), order[p]? = some v → ∃ x : Fl K, r.qualityScores[v]? = some x ∧ s.ys[p]? = some x) ∧
      (sort = true → ∀ s : Series K, out[0]? = some s → s.ys.Pairwise fun a b => b.isNan = true ∨ Fl.le a b = true) := by
  unfold quality at h
  cases results with
  | nil => exact absurd h (by simp)
  | cons r0 rs =>
    dsimp only at h
    have hl0 : r0.qualityScores.length = n := hn r0 (by simp)
    have hperm := order_spec ha sort r0.qualityScores
    set order := (if sort then argsort r0.qualityScores else List.range r0.qualityScores.length) with horder
    rw [hl0] at hperm
    have hlt : ∀ r ∈ r0 :: rs, ∀ i ∈ order, i < r.qualityScores.length := by
      intro r hr i hi
      rw [hn r hr]
      exact List.mem_range.mp (hperm.mem_iff.mp hi)
    obtain ⟨h1, h2⟩ := qualityLoop_ok hlt h
    refine ⟨h1, order, hperm, ?_, ?_, ?_⟩
    · intro hs
      rw [horder, hs, hl0]
      rfl
    · intro k s r hs hr
      have h3 := h2 k s r hs hr
      obtain ⟨h4, -⟩ := series_ok h3
      rw [h4]
      refine ⟨by rw [List.length_map, hperm.length_eq, List.length_range], ?_⟩
      intro p v hv
      have hmem : r ∈ r0 :: rs := List.mem_of_getElem? hr
      have hvl : v < r.qualityScores.length := hlt r hmem v (List.mem_of_getElem? hv)
      refine ⟨r.qualityScores[v], List.getElem?_eq_getElem hvl, ?_⟩
      rw [List.getElem?_map, hv]
      simp [List.getElem?_eq_getElem hvl]
    · intro hs s hs0
      have h3 := h2 0 s r0 hs0 rfl
      obtain ⟨h4, -⟩ := series_ok h3
      rw [h4, horder, hs]
      exact (ha r0.qualityScores).2

/-- **C110, when there is a plot.** -/
theorem C110_runs (argsort : List (Fl K) → List ℕ) (ha : Argsort argsort) (sort : Bool) (pt : PlotType) (hpt : pt ≠ .other)
    (results : List (Result κ K)) (h0 : results ≠ []) (h8 : results.length ≤ 8) (n : ℕ) (hn0 : n ≠ 0)
    (hn : ∀ r ∈ results, r.qualityScores.length = n) : ∃ out, quality argsort sort pt results = .ok out := by
  unfold quality
  cases results with
  | nil => exact absurd rfl h0
  | cons r0 rs =>
    dsimp only
    have hl0 : r0.qualityScores.length = n := hn r0 (by simp)
    have hperm := order_spec ha sort r0.qualityScores
    rw [hl0] at hperm ⊢
    refine qualityLoop_runs hpt (by omega) ?_ ?_
    · intro hnil
      rw [hnil] at hperm
      have := hperm.length_eq
      simp at this
      omega
    · intro r hr i hi
      rw [hn r hr]
      exact List.mem_range.mp (hperm.mem_iff.mp hi)

/-- **C110, no plot for other videos.** If some model has fewer scores than the first one, there is no plot (`IndexError`). -/
theorem C110_short (argsort : List (Fl K) → List ℕ) (ha : Argsort argsort) (sort : Bool) (pt : PlotType) (hpt : pt ≠ .other)
    (results : List (Result κ K)) (h8 : results.length ≤ 8) (r0 r : Result κ K) (h0 : results.head? = some r0) (hr : r ∈ results)
    (hlen : r.qualityScores.length < r0.qualityScores.length) : quality argsort sort pt results = .error .index := by
  unfold quality
  cases results with
  | nil => cases h0
  | cons r1 rs =>
    cases h0
    dsimp only
    have hperm := order_spec ha sort r0.qualityScores
    have hmem : r.qualityScores.length ∈ (if sort then argsort r0.qualityScores else List.range r0.qualityScores.length) :=
      hperm.mem_iff.mpr (List.mem_range.mpr hlen)
    exact qualityLoop_short hpt (by omega) (List.ne_nil_of_mem hmem) r hr _ hmem le_rfl

/-- a second model with one score less -/
example : ∃ r0 r1 : Result String ℚ, r1.qualityScores.length < r0.qualityScores.length ∧ [r0, r1].head? = some r0 :=
  ⟨{ qualityScores := [.fin 1, .fin 2] }, { qualityScores := [.fin 1] }, by decide, rfl⟩

/-- **C110, the intervals.** Without sorting every point carries the interval of its own video: place `j` shows score and interval of video `j`. -/
theorem C110_intervals_partial (argsort : List (Fl K) → List ℕ) (results : List (Result κ K)) (n : ℕ)
    (hn : ∀ r ∈ results, r.qualityScores.length = n) (out : List (Series K)) (h : quality argsort false .errorbar results = .ok out)
    (k : ℕ) (s : Series K) (r : Result κ K) (hs : out[k]? = some s) (hr : results[k]? = some r) :
    s.ys = r.qualityScores ∧ s.err = r.qualityScoresCi95 := by
  unfold quality at h
  cases results with
  | nil => exact absurd h (by simp)
  | cons r0 rs =>
    dsimp only at h
    have hl0 : r0.qualityScores.length = n := hn r0 (by simp)
    rw [if_neg (by simp), hl0] at h
    have hlt : ∀ r ∈ r0 :: rs, ∀ i ∈ List.range n, i < r.qualityScores.length := by
      intro r hr i hi
      rw [hn r hr]
      exact List.mem_range.mp hi
    obtain ⟨-, h2⟩ := qualityLoop_ok hlt h
    obtain ⟨h4, -, h5, -⟩ := series_ok (h2 k s r hs hr)
    refine ⟨?_, h5⟩
    rw [h4]
    have hrn := hn r (List.mem_of_getElem? hr)
    refine List.ext_getElem (by simp [hrn]) fun i hi hi' => ?_
    simp [List.getElem?_eq_getElem hi']

/-- **C110, sorted.** With sorting the interval at place `p` is that of video `p` of the dataset, whichever video is shown there. -/
theorem C110_sorted_intervals (argsort : List (Fl K) → List ℕ) (ha : Argsort argsort) (results : List (Result κ K)) (n : ℕ)
    (hn : ∀ r ∈ results, r.qualityScores.length = n) (out : List (Series K)) (h : quality argsort true .errorbar results = .ok out)
    (k : ℕ) (s : Series K) (r : Result κ K) (hs : out[k]? = some s) (hr : results[k]? = some r) : s.err = r.qualityScoresCi95 := by
  unfold quality at h
  cases results with
  | nil => exact absurd h (by simp)
  | cons r0 rs =>
    dsimp only at h
    have hl0 : r0.qualityScores.length = n := hn r0 (by simp)
    have hperm := order_spec ha true r0.qualityScores
    rw [hl0] at hperm
    have hlt : ∀ r ∈ r0 :: rs, ∀ i ∈ (if true = true then argsort r0.qualityScores else List.range r0.qualityScores.length),
        i < r.qualityScores.length := by
      intro r hr i hi
      rw [hn r hr]
      rw [hl0] at hi
      exact List.mem_range.mp (hperm.mem_iff.mp hi)
    obtain ⟨-, h2⟩ := qualityLoop_ok hlt h
    exact (series_ok (h2 k s r hs hr)).2.2.1

/-! ## C111: places and colours -/

/-- where the points are and which colour they have -/
theorem C111_places (argsort : List (Fl K) → List ℕ) (ha : Argsort argsort) (sort : Bool) (results : List (Result κ K)) (n : ℕ)
    (hn : ∀ r ∈ results, r.qualityScores.length = n) (out : List (Series K)) (h : quality argsort sort .errorbar results = .ok out)
    (k : ℕ) (s : Series K) (hs : out[k]? = some s) :
    colors[k]? = some s.color ∧ s.xs.length = n ∧ s.axis = (0, n) ∧ ∀ j < n, s.xs[j]? = some (.fin ((j : K) + k * (2 / 5) + 1 / 5)) := by
  unfold quality at h
  cases results with
  | nil => exact absurd h (by simp)
  | cons r0 rs =>
    dsimp only at h
    have hl0 : r0.qualityScores.length = n := hn r0 (by simp)
    have hperm := order_spec ha sort r0.qualityScores
    set order := (if sort then argsort r0.qualityScores else List.range r0.qualityScores.length) with horder
    rw [hl0] at hperm
    have hlt : ∀ r ∈ r0 :: rs, ∀ i ∈ order, i < r.qualityScores.length := by
      intro r hr i hi
      rw [hn r hr]
      exact List.mem_range.mp (hperm.mem_iff.mp hi)
    obtain ⟨h1, h2⟩ := qualityLoop_ok hlt h
    have hk : k < (r0 :: rs).length := by
      rw [← h1]
      exact (List.getElem?_eq_some_iff.mp hs).1
    have hk2 := h2 k s _ hs (List.getElem?_eq_getElem hk)
    rw [Nat.zero_add] at hk2
    obtain ⟨-, h4, -, h5, h6⟩ := series_ok hk2
    have hol : order.length = n := by rw [hperm.length_eq, List.length_range]
    refine ⟨h4, by rw [h5]; simp [hol], by rw [h6, List.length_map, hol], ?_⟩
    intro j hj
    rw [h5, List.getElem?_map, List.length_map, hol, List.getElem?_range hj]
    rfl

/-- **C111, two models.** With at most two models every point lies in the slot of its video, from `j` up to but not including `j + 1`, and so
within the limits of the axis. -/
theorem C111_slot_partial (argsort : List (Fl K) → List ℕ) (ha : Argsort argsort) (sort : Bool) (results : List (Result κ K)) (n : ℕ)
    (hn : ∀ r ∈ results, r.qualityScores.length = n) (h2 : results.length ≤ 2) (out : List (Series K))
    (h : quality argsort sort .errorbar results = .ok out) (k : ℕ) (s : Series K) (hs : out[k]? = some s) (j : ℕ) (hj : j < n) :
    ∃ x : K, s.xs[j]? = some (.fin x) ∧ (j : K) ≤ x ∧ x < j + 1 ∧ (s.axis.1 : K) ≤ x ∧ x ≤ s.axis.2 := by
  obtain ⟨-, -, h4, h3⟩ := C111_places argsort ha sort results n hn out h k s hs
  have hk : k < 2 := by
    have h1 := (C110_scores argsort ha sort .errorbar results n hn out h).1
    have := (List.getElem?_eq_some_iff.mp hs).1
    omega
  have hjn : (j : K) + 1 ≤ n := by exact_mod_cast hj
  have hj0 : (0 : K) ≤ j := Nat.cast_nonneg j
  refine ⟨_, h3 j hj, ?_⟩
  rw [h4]
  interval_cases k <;> refine ⟨?_, ?_, ?_, ?_⟩ <;> push_cast <;> linarith

/-- **C111, refuted: three models.** The point of the third model for video `j` is at `j + 1`, in the slot of the next video; every further model
lies to the right of the end of the axis with its last point. -/
theorem C111_refuted_slot (argsort : List (Fl K) → List ℕ) (ha : Argsort argsort) (sort : Bool) (results : List (Result κ K)) (n : ℕ)
    (hn : ∀ r ∈ results, r.qualityScores.length = n) (out : List (Series K)) (h : quality argsort sort .errorbar results = .ok out)
    (k : ℕ) (s : Series K) (hs : out[k]? = some s) :
    (k = 2 → ∀ j < n, s.xs[j]? = some (.fin ((j : K) + 1))) ∧
      (2 < k → n ≠ 0 → ∃ x : K, s.xs[n - 1]? = some (.fin x) ∧ (s.axis.2 : K) < x) := by
  obtain ⟨-, -, h4, h3⟩ := C111_places argsort ha sort results n hn out h k s hs
  refine ⟨?_, ?_⟩
  · rintro rfl j hj
    rw [h3 j hj]
    congr 2
    push_cast
    ring
  · intro hk hn0
    refine ⟨_, h3 (n - 1) (by omega), ?_⟩
    have hk' : (3 : K) ≤ k := by exact_mod_cast hk
    have : ((n - 1 : ℕ) : K) = n - 1 := by
      rw [Nat.cast_sub (by omega)]
      simp
    rw [this, h4]
    dsimp only
    linarith

/-- **C111, apart.** The points of at most five models are all at different places; with six, the sixth model's point of video `j` is exactly below or
above the first model's point of video `j + 2`. -/
theorem C111_apart (argsort : List (Fl K) → List ℕ) (ha : Argsort argsort) (sort : Bool) (results : List (Result κ K)) (n : ℕ)
    (hn : ∀ r ∈ results, r.qualityScores.length = n) (out : List (Series K)) (h : quality argsort sort .errorbar results = .ok out)
    (k k' j j' : ℕ) (s s' : Series K) (hs : out[k]? = some s) (hs' : out[k']? = some s') (hj : j < n) (hj' : j' < n) :
    s.xs[j]? = s'.xs[j']? ↔ 5 * j + 2 * k = 5 * j' + 2 * k' := by
  obtain ⟨-, -, -, h3⟩ := C111_places argsort ha sort results n hn out h k s hs
  obtain ⟨-, -, -, h3'⟩ := C111_places argsort ha sort results n hn out h k' s' hs'
  rw [h3 j hj, h3' j' hj', Option.some.injEq, Fl.fin.injEq]
  constructor
  · intro he
    have : (5 * j + 2 * k : K) = 5 * j' + 2 * k' := by linarith
    exact_mod_cast this
  · intro he
    have : (5 * j + 2 * k : K) = 5 * j' + 2 * k' := by exact_mod_cast he
    linarith

/-- the first five models stay apart, the sixth meets the first -/
theorem C111_five {k k' j j' : ℕ} (hk : k < 5) (hk' : k' < 5) (h : 5 * j + 2 * k = 5 * j' + 2 * k') : k = k' ∧ j = j' := by omega

/-- **C111, colours.** Models `k` and `k'` have the same colour exactly if `k` and `k'` differ by a multiple of 4: the fifth model looks like the first. -/
theorem C111_colors (argsort : List (Fl K) → List ℕ) (ha : Argsort argsort) (sort : Bool) (results : List (Result κ K)) (n : ℕ)
    (hn : ∀ r ∈ results, r.qualityScores.length = n) (out : List (Series K)) (h : quality argsort sort .errorbar results = .ok out)
    (k k' : ℕ) (s s' : Series K) (hs : out[k]? = some s) (hs' : out[k']? = some s') : s.color = s'.color ↔ k % 4 = k' % 4 := by
  obtain ⟨h3, -⟩ := C111_places argsort ha sort results n hn out h k s hs
  obtain ⟨h3', -⟩ := C111_places argsort ha sort results n hn out h k' s' hs'
  have l1 : k < 8 := (List.getElem?_eq_some_iff.mp h3).1
  have l2 : k' < 8 := (List.getElem?_eq_some_iff.mp h3').1
  rw [← Option.some.injEq, ← h3, ← h3']
  interval_cases k <;> interval_cases k' <;> simp [colors]

/-- **C111, refuted: nine models.** There is no plot for more than eight models. -/
theorem C111_refuted_nine (argsort : List (Fl K) → List ℕ) (ha : Argsort argsort) (sort : Bool) (pt : PlotType) (hpt : pt ≠ .other)
    (results : List (Result κ K)) (h8 : 8 < results.length) (n : ℕ) (hn0 : n ≠ 0)
    (hn : ∀ r ∈ results, r.qualityScores.length = n) : quality argsort sort pt results = .error .index := by
  unfold quality
  cases results with
  | nil => simp at h8
  | cons r0 rs =>
    dsimp only
    have hl0 : r0.qualityScores.length = n := hn r0 (by simp)
    have hperm := order_spec ha sort r0.qualityScores
    rw [hl0] at hperm ⊢
    refine qualityLoop_index hpt (by omega) (by omega) ?_ ?_
    · intro hnil
      rw [hnil] at hperm
      have := hperm.length_eq
      simp at this
      omega
    · intro r hr i hi
      rw [hn r hr]
      exact List.mem_range.mp (hperm.mem_iff.mp hi)

end general

/-! ## Refutation -/

/-- two videos: both observers give the first one 4, and 1 and 3 to the second one -/
noncomputable def sortArr : Arr3 (Fl ℝ) 2 2 1 := fun e s _ => if e = 0 then .fin 4 else if s = 0 then .fin 1 else .fin 3

theorem sortArr_clean : ∀ e s r, NumOrNan (sortArr e s r) := by
  intro e s r
  unfold sortArr
  split
  · exact Or.inr ⟨_, rfl⟩
  · split <;> exact Or.inr ⟨_, rfl⟩

/-- **C110, refuted with sorting.** The MOS of two videos are 4 with an interval of length 0 and 2 with an interval of length `2 * 1.95996`.  Whatever `argsort` does,
the sorted plot shows the score 2 first, with the interval of the other video. -/
theorem C110_refuted : ∃ (rd : Reader String ℝ) (res : Result String ℝ) (lo hi : List (Fl ℝ)), runMOS rd {} = .ok res ∧
    res.qualityScores = [.fin 4, .fin 2] ∧ res.qualityScoresCi95 = some (lo, hi) ∧ lo[0]? = some (.fin 0) ∧ lo[1]? = some (.fin (195996 / 100000)) ∧
    ∀ argsort, Argsort argsort → ∃ s : Series ℝ, quality argsort true .errorbar [res] = .ok [s] ∧
      s.ys = [.fin 2, .fin 4] ∧ s.err = some (lo, hi) := by
  obtain ⟨res, hres⟩ := arrReader_runs 2 2 1 sortArr
  have hv0 : present (videoCells sortArr 0) = [4, 4] := by simp [videoCells, present, sortArr, Fl.val?]
  have hv1 : present (videoCells sortArr 1) = [1, 3] := by simp [videoCells, present, sortArr, Fl.val?]
  have hq : res.qualityScores = [.fin 4, .fin 2] := by
    rw [runMOS_default (a := ⟨2, 2, 1, sortArr⟩) rfl hres]
    change List.ofFn (meanAlongS sortArr) = _
    simp only [List.ofFn_succ, List.ofFn_zero, meanAlongS_spec sortArr _ fun s r => sortArr_clean _ s r, Fin.succ_zero_eq_one, meanOrNan, hv0, hv1]
    norm_num [Spec.mean]
  obtain ⟨amb, se, lo, hi, -, -, h3, -, -, -, h7, h8⟩ := C12_mos_uncertainty (arrReader 2 2 1 sortArr) ⟨2, 2, 1, sortArr⟩ res rfl hres sortArr_clean
  have hs0 := ((h8 (0 : Fin 2) _ rfl).1 (by rw [hv0]; simp)).2.1
  have hs1 := ((h8 (1 : Fin 2) _ rfl).1 (by rw [hv1]; simp)).2.1
  rw [hv0] at hs0
  rw [hv1] at hs1
  have e0 : sampleVar [(4 : ℝ), 4] = 0 := by norm_num [sampleVar, sqDev, Spec.mean]
  have e1 : sampleVar [(1 : ℝ), 3] = 2 := by norm_num [sampleVar, sqDev, Spec.mean]
  rw [e0] at hs0
  rw [e1] at hs1
  refine ⟨_, res, lo, hi, hres, hq, h3, ?_, ?_, ?_⟩
  · rw [h7, List.getElem?_map]
    change Option.map _ se[0]? = _
    rw [show se[0]? = _ from hs0]
    simp
  · rw [h7, List.getElem?_map]
    change Option.map _ se[1]? = _
    rw [show se[1]? = _ from hs1]
    simp
  · intro argsort ha
    obtain ⟨out, hout⟩ := C110_runs argsort ha true .errorbar (by simp) [res] (by simp) (by simp) 2 (by simp) (by simp [hq])
    obtain ⟨k1, order, k2, -, k3, k4⟩ := C110_scores argsort ha true .errorbar [res] 2 (by simp [hq]) out hout
    obtain ⟨s, rfl⟩ : ∃ s, out = [s] := by
      match out, k1 with
      | [s], _ => exact ⟨s, rfl⟩
    refine ⟨s, hout, ?_, ?_⟩
    · obtain ⟨k5, k6⟩ := k3 0 s res rfl rfl
      have k7 := k4 rfl s rfl
      have hol : order.length = 2 := by rw [k2.length_eq]; rfl
      match order, hol, k2 with
      | [a, b], _, k2 =>
        obtain ⟨x, hx, hx'⟩ := k6 0 a rfl
        obtain ⟨y, hy, hy'⟩ := k6 1 b rfl
        match hsy : s.ys, k5 with
        | [x', y'], _ =>
          rw [hsy] at hx' hy' k7
          simp only [List.getElem?_cons_zero, List.getElem?_cons_succ, Option.some.injEq] at hx' hy'
          subst hx' hy'
          have hb := k2.mem_iff (a := a)
          have hab : a = 0 ∧ b = 1 ∨ a = 1 ∧ b = 0 := by
            have m0 := k2.mem_iff (a := 0)
            have m1 := k2.mem_iff (a := 1)
            simp at m0 m1
            omega
          rw [hq] at hx hy
          rcases hab with ⟨rfl, rfl⟩ | ⟨rfl, rfl⟩
          · simp at hx hy
            subst hx hy
            exfalso
            simp [Fl.isNan, Fl.le] at k7
            norm_num at k7
          · simp at hx hy
            subst hx hy
            rfl
    · rw [C110_sorted_intervals argsort ha [res] 2 (by simp [hq]) [s] hout 0 s res rfl rfl]
      exact h3
/-! ## Examples -/

/-- the indices sorted by insertion -/
def insArgsort [LinearOrder K] (l : List (Fl K)) : List ℕ :=
  (l.zipIdx.insertionSort fun p q => q.1.isNan = true ∨ Fl.le p.1 q.1 = true).map Prod.snd

/-- the contract of `np.argsort` can be met -/
theorem insArgsort_ok [LinearOrder K] : Argsort (insArgsort (K := K)) := by
  intro l
  have : Std.Total fun p q : Fl K × ℕ => q.1.isNan = true ∨ Fl.le p.1 q.1 = true :=
    ⟨fun p q => by
      obtain ⟨a, -⟩ := p
      obtain ⟨b, -⟩ := q
      cases a <;> cases b <;> simp [Fl.isNan, Fl.le]
      exact le_total _ _⟩
  have : IsTrans (Fl K × ℕ) fun p q => q.1.isNan = true ∨ Fl.le p.1 q.1 = true :=
    ⟨fun p q r => by
      obtain ⟨a, -⟩ := p
      obtain ⟨b, -⟩ := q
      obtain ⟨c, -⟩ := r
      cases a <;> cases b <;> cases c <;> simp [Fl.isNan, Fl.le]
      exact le_trans⟩
  refine ⟨?_, ?_⟩
  · refine ((List.perm_insertionSort _ _).map Prod.snd).trans ?_
    rw [List.zipIdx_map_snd, List.range_eq_range']
  · have hs := List.pairwise_insertionSort (fun p q : Fl K × ℕ => q.1.isNan = true ∨ Fl.le p.1 q.1 = true) l.zipIdx
    unfold insArgsort
    rw [List.map_map, List.pairwise_map]
    refine hs.imp_of_mem ?_
    intro p q hp hq h
    have e : ∀ p ∈ l.zipIdx.insertionSort (fun p q : Fl K × ℕ => q.1.isNan = true ∨ Fl.le p.1 q.1 = true), l.getD p.2 .nan = p.1 := by
      intro p hp
      have := (List.perm_insertionSort _ _).mem_iff.mp hp
      rw [List.mem_zipIdx_iff_getElem?] at this
      simp [this]
    simp only [Function.comp, e p hp, e q hq]
    exact h

/-- a plot of two models over three videos, sorted by the first one -/
example : (match quality insArgsort true .errorbar
      [({ qualityScores := [.fin 4, .fin 1, .fin 3], qualityScoresCi95 := some ([.fin 1, .fin 2, .fin 3], [.fin 1, .fin 2, .fin 3]) } : Result ℕ ℚ),
        { qualityScores := [.fin 5, .fin 2, .fin 1] }] with
    | .ok out => out.map fun s => (s.xs, s.ys, s.color)
    | .error _ => []) =
    [([.fin (1/5), .fin (6/5), .fin (11/5)], [.fin 1, .fin 3, .fin 4], "black"),
      ([.fin (3/5), .fin (8/5), .fin (13/5)], [.fin 2, .fin 1, .fin 5], "gray")] := by
  decide +kernel

end Sureal.Props
