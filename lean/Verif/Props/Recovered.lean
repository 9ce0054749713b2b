import Verif.Model.Recovered
import Verif.Props.Plots
import Verif.Props.Mos
import Verif.Props.Corrupt
import Verif.Props.Dscore
import Verif.Props.Pc
import Verif.Props.RoundingFraction
/-!
# C132, C133: the plot of the recovered scores against the votes; the sizes of figures
-/
set_option linter.unusedSectionVars false
namespace Sureal.Props
open Sureal Spec Plots

section
variable {K : Type} [Field K] [LinearOrder K] [IsStrictOrderedRing K] {E S R : ℕ}

/-- the mean vote of an observer on a video, if there is one -/
theorem meanMatrix_cases (a : Arr3 (Fl K) E S R) (hc : ∀ j i r, NumOrNan (a j i r)) (i : Fin S) (j : Fin E) :
    (present (List.ofFn (a j i)) = [] ∧ meanMatrix a i j = .nan) ∨
    (present (List.ofFn (a j i)) ≠ [] ∧ meanMatrix a i j = .fin (mean (present (List.ofFn (a j i))))) := by
  have hl : Np.Clean (List.ofFn (a j i)) := Np.clean_ofFn.mpr (hc j i)
  unfold meanMatrix
  by_cases hp : present (List.ofFn (a j i)) = []
  · exact Or.inl ⟨hp, Np.nanmean_empty hl hp⟩
  · exact Or.inr ⟨hp, Np.nanmean_eq hl hp⟩

theorem mem_matrix {a : Arr3 (Fl K) E S R} {x : Fl K} : x ∈ (List.ofFn fun i => rowL (meanMatrix a) i).flatten ↔ ∃ i j, meanMatrix a i j = x := by
  simp only [List.mem_flatten, List.mem_ofFn, rowL]
  constructor
  · rintro ⟨l, ⟨i, rfl⟩, hx⟩
    obtain ⟨j, hj⟩ := List.mem_ofFn.mp hx
    exact ⟨i, j, hj⟩
  · rintro ⟨i, j, hj⟩
    exact ⟨_, ⟨i, rfl⟩, List.mem_ofFn.mpr ⟨j, hj⟩⟩

theorem matrix_clean (a : Arr3 (Fl K) E S R) (hc : ∀ j i r, NumOrNan (a j i r)) : Np.Clean (List.ofFn fun i => rowL (meanMatrix a) i).flatten := by
  intro x hx
  obtain ⟨i, j, rfl⟩ := mem_matrix.mp hx
  rcases meanMatrix_cases a hc i j with ⟨-, h⟩ | ⟨-, h⟩
  · exact Or.inl h
  · exact Or.inr ⟨_, h⟩

/-- the subplots, in terms of the matrix of the mean votes -/
theorem subplots_matrix (a : Arr3 (Fl K) E S R) (hc : ∀ j i r, NumOrNan (a j i r)) (h2 : 2 ≤ S) (hv : ∃ j i r v, a j i r = .fin v)
    (q : Fin E → Fl K) :
    ∃ p lo hi, recovered a (List.ofFn q) = .ok p ∧ p.lo = .fin lo ∧ p.hi = .fin hi ∧
      p.subplots = List.ofFn (fun i : Fin S => (i.val + 1, List.ofFn fun j => (meanMatrix a i j, q j))) ∧
      (∃ i j, meanMatrix a i j = .fin lo) ∧ (∃ i j, meanMatrix a i j = .fin hi) ∧ ∀ i j v, meanMatrix a i j = .fin v → lo ≤ v ∧ v ≤ hi := by
  obtain ⟨j, i, r, v, hr⟩ := hv
  have hcl := matrix_clean a hc
  have hne : present (List.ofFn (a j i)) ≠ [] := by
    intro h
    have : v ∈ present (List.ofFn (a j i)) := by
      unfold present
      exact List.mem_filterMap.mpr ⟨_, List.mem_ofFn.mpr ⟨r, rfl⟩, by rw [hr]; rfl⟩
    rw [h] at this
    cases this
  obtain ⟨-, hm⟩ := (meanMatrix_cases a hc i j).resolve_left fun h => hne h.1
  have hmem := mem_matrix.mpr ⟨i, j, hm⟩
  obtain ⟨lo, l1, l2, l3⟩ := Mock.nanmin_spec hcl hmem
  obtain ⟨hi, u1, u2, u3⟩ := Mock.nanmax_spec hcl hmem
  refine ⟨⟨.fin lo, .fin hi, List.ofFn (fun i : Fin S => (i.val + 1, List.ofFn fun j => (meanMatrix a i j, q j)))⟩, lo, hi, ?_, rfl, rfl, rfl, mem_matrix.mp l2, mem_matrix.mp u2, fun i j v h => ⟨l3 _ (mem_matrix.mpr ⟨i, j, h⟩), u3 _ (mem_matrix.mpr ⟨i, j, h⟩)⟩⟩
  have hE : E ≠ 0 := by have := j.isLt; omega
  unfold recovered
  rw [if_neg (by omega), if_neg hE]
  dsimp only
  rw [l1, u1, if_neg (by simp), if_pos (by rfl)]
  congr 3
  funext i
  congr 1
  unfold rowL
  refine List.ext_getElem (by simp) fun n h1 h2 => ?_
  simp

theorem meanMatrix_spec (a : Arr3 (Fl K) E S R) (hc : ∀ j i r, NumOrNan (a j i r)) (i : Fin S) (j : Fin E) :
    meanMatrix a i j = meanOrNan (List.ofFn (a j i)) := by
  unfold meanOrNan
  rcases meanMatrix_cases a hc i j with ⟨h1, h2⟩ | ⟨h1, h2⟩
  · rw [h2, h1]
  · rw [h2]
    cases hp : present (List.ofFn (a j i)) with
    | nil => exact absurd hp h1
    | cons => rfl

/-- **C132, what is drawn.** With at least two observers and a vote there is a plot for every model with a score for each video: a subplot per observer, in their order and numbered from 1, with
the observer's mean vote on each video against the score of that video.  Both axes run from the smallest to the largest mean vote. -/
theorem C132_subplots (a : Arr3 (Fl K) E S R) (hc : ∀ j i r, NumOrNan (a j i r)) (h2 : 2 ≤ S) (hv : ∃ j i r v, a j i r = .fin v)
    (q : Fin E → Fl K) :
    ∃ p lo hi, recovered a (List.ofFn q) = .ok p ∧ p.lo = .fin lo ∧ p.hi = .fin hi ∧
      p.subplots = List.ofFn (fun i : Fin S => (i.val + 1, List.ofFn fun j => (meanOrNan (List.ofFn (a j i)), q j))) ∧
      (∃ i j, meanOrNan (List.ofFn (a j i)) = .fin lo) ∧ (∃ i j, meanOrNan (List.ofFn (a j i)) = .fin hi) ∧ ∀ i j v, meanOrNan (List.ofFn (a j i)) = .fin v → lo ≤ v ∧ v ≤ hi := by
  have h := subplots_matrix a hc h2 hv q
  simp only [meanMatrix_spec a hc] at h
  exact h

/-- **C132.** The plot is refused with AssertionError exactly if there are fewer than two observers; with two or more, scores that do not match the number of
videos are refused with ValueError, and so is a plot without any vote. -/
theorem C132_errors (a : Arr3 (Fl K) E S R) (hc : ∀ j i r, NumOrNan (a j i r)) (q : List (Fl K)) :
    (recovered a q = .error .assertion ↔ S < 2) ∧
    (2 ≤ S → (q.length ≠ E ∨ ∀ j i r, a j i r = .nan) → recovered a q = .error .value) := by
  constructor
  · constructor
    · intro h
      by_contra hS
      unfold recovered at h
      rw [if_neg (by omega)] at h
      by_cases hE : E = 0
      · rw [if_pos hE] at h; cases h
      · rw [if_neg hE] at h
        dsimp only at h
        split_ifs at h <;> cases h
    · intro h
      unfold recovered
      rw [if_pos (by omega)]
  · intro h2 h
    unfold recovered
    rw [if_neg (by omega)]
    by_cases hE : E = 0
    · rw [if_pos hE]
    · rw [if_neg hE]
      dsimp only
      by_cases hq : q.length = E
      · have hn := h.resolve_left (fun h => h hq)
        have hm : Np.nanmin (List.ofFn fun i => rowL (meanMatrix a) i).flatten = .nan := by
          have : Np.notNan (List.ofFn fun i => rowL (meanMatrix a) i).flatten = [] := by
            unfold Np.notNan
            rw [List.filter_eq_nil_iff]
            intro x hx
            obtain ⟨i, j, rfl⟩ := mem_matrix.mp hx
            rcases meanMatrix_cases a hc i j with ⟨-, h⟩ | ⟨h1, -⟩
            · rw [h]; simp [Fl.isNan]
            · exfalso
              apply h1
              unfold present
              rw [List.filterMap_eq_nil_iff]
              intro y hy
              obtain ⟨r, rfl⟩ := List.mem_ofFn.mp hy
              rw [hn j i r]
              rfl
          unfold Np.nanmin
          rw [this]
        rw [if_neg (by simpa using hq), hm, if_neg (by simp [Fl.isFinite])]
      · rw [if_pos hq]

/-- the mean of groups whose means lie between two bounds -/
theorem mean_groups {lo hi : K} (rows : List (List K)) (h : ∀ r ∈ rows, r ≠ [] → lo ≤ mean r ∧ mean r ≤ hi) :
    rows.flatten.length * lo ≤ rows.flatten.sum ∧ rows.flatten.sum ≤ rows.flatten.length * hi := by
  induction rows with
  | nil => simp
  | cons r rows ih =>
    obtain ⟨i1, i2⟩ := ih fun r' hr' => h r' (List.mem_cons_of_mem _ hr')
    simp only [List.flatten_cons, List.length_append, List.sum_append]
    push_cast
    have hr : r.length * lo ≤ r.sum ∧ r.sum ≤ r.length * hi := by
      by_cases he : r = []
      · subst he; simp
      · obtain ⟨h1, h2⟩ := h r (List.mem_cons_self ..) he
        have hl : (0 : K) < r.length := by exact_mod_cast List.length_pos_iff.mpr he
        unfold mean at h1 h2
        rw [le_div_iff₀ hl] at h1
        rw [div_le_iff₀ hl] at h2
        constructor <;> linarith
    constructor <;> nlinarith [hr.1, hr.2]

end

section
variable {κ : Type} {K : Type} [Field K] [LinearOrder K] [IsStrictOrderedRing K] [MathFn K]

/-- **C132, mean opinion scores are visible.** The plot of MOS shows the point of every observer and every video the observer has rated. -/
theorem C132_mos_partial (rd : Reader κ K) (a : Arr3D (Fl K)) (res : Result κ K) (ha : rd.scores = .ok a) (hr : runMOS rd {} = .ok res)
    (hc : ∀ j i r, NumOrNan (a.get j i r)) (h2 : 2 ≤ a.S) (hv : ∃ j i r v, a.get j i r = .fin v) :
    ∃ p lo hi, recovered a.get res.qualityScores = .ok p ∧ p.lo = .fin lo ∧ p.hi = .fin hi ∧ p.subplots.length = a.S ∧
      ∀ sp ∈ p.subplots, ∀ x y, (.fin x, y) ∈ sp.2 → ∃ v, y = .fin v ∧ lo ≤ x ∧ x ≤ hi ∧ lo ≤ v ∧ v ≤ hi := by
  have hq : res.qualityScores = List.ofFn (meanAlongS a.get) := by rw [runMOS_default ha hr]; rfl
  obtain ⟨p, lo, hi, h1, h3, h4, h5, -, -, h6⟩ := subplots_matrix a.get hc h2 hv (meanAlongS a.get)
  refine ⟨p, lo, hi, by rw [hq]; exact h1, h3, h4, by rw [h5, List.length_ofFn], ?_⟩
  intro sp hsp x y hxy
  rw [h5] at hsp
  obtain ⟨i, rfl⟩ := List.mem_ofFn.mp hsp
  obtain ⟨j, hj⟩ := List.mem_ofFn.mp hxy
  simp only [Prod.mk.injEq] at hj
  obtain ⟨hx, rfl⟩ := hj
  rw [meanAlongS_spec a.get j fun s r => hc j s r]
  have hpres : present (videoCells a.get j) = (List.ofFn fun s => present (List.ofFn (a.get j s))).flatten := by
    unfold present videoCells
    rw [List.filterMap_flatten, List.map_ofFn]
    rfl
  have hrow : ∀ r ∈ (List.ofFn fun s => present (List.ofFn (a.get j s))), r ≠ [] → lo ≤ mean r ∧ mean r ≤ hi := by
    intro r hr hne
    obtain ⟨s, rfl⟩ := List.mem_ofFn.mp hr
    obtain ⟨-, h⟩ := (meanMatrix_cases a.get hc s j).resolve_left fun h => hne h.1
    exact h6 s j _ h
  obtain ⟨b1, b2⟩ := mean_groups _ hrow
  rw [← hpres] at b1 b2
  have hne : present (videoCells a.get j) ≠ [] := by
    rw [hpres]
    have hmi : present (List.ofFn (a.get j i)) ≠ [] := by
      rcases meanMatrix_cases a.get hc i j with ⟨-, h⟩ | ⟨h, -⟩
      · rw [h] at hx; cases hx
      · exact h
    intro h
    exact hmi (List.flatten_eq_nil_iff.mp h _ (List.mem_ofFn.mpr ⟨i, rfl⟩))
  have hl : (0 : K) < (present (videoCells a.get j)).length := by exact_mod_cast List.length_pos_iff.mpr hne
  refine ⟨mean (present (videoCells a.get j)), ?_, (h6 i j x hx).1, (h6 i j x hx).2, ?_, ?_⟩
  · unfold meanOrNan
    cases hp : present (videoCells a.get j) with
    | nil => exact absurd hp hne
    | cons => rfl
  · unfold mean
    rw [le_div_iff₀ hl]
    linarith
  · unfold mean
    rw [div_le_iff₀ hl]
    linarith

end

/-- two videos, two observers; the first observer did not rate the second video -/
def exHidden : Arr3 (Fl ℚ) 2 2 1 := fun j i _ => if j = 0 then (if i = 0 then .fin 5 else .fin 1) else if i = 0 then .nan else .fin 5

/-- a reader of these votes -/
def exHiddenReader : Reader String ℚ := { dataset := { refVideos := [], disVideos := [] }, disVideos := [], scores := .ok ⟨2, 2, 1, exHidden⟩, observers := .ok [] }

attribute [local instance] ratMath in
/-- **C132, refuted for other models.** The second observer gave the second video the highest vote, 5.  Without their bias that vote is 6: BR_MOS reports 6, and the point of this video lies outside the
axes, which end at 5. -/
theorem C132_refuted : ∃ res p, runBR_MOS exHiddenReader {} = .ok res ∧ res.qualityScores = [.fin (5 / 2), .fin 6] ∧
    recovered exHidden res.qualityScores = .ok p ∧ p.lo = .fin 1 ∧ p.hi = .fin 5 ∧ p.subplots[1]? = some (2, [(.fin 1, .fin (5 / 2)), (.fin 5, .fin 6)]) := by
  obtain ⟨res, h1, h2⟩ := okWith_elim (x := runBR_MOS exHiddenReader {})
    (P := fun res => decide (res.qualityScores = [.fin (5 / 2), .fin 6])) (by decide +kernel)
  rw [decide_eq_true_eq] at h2
  obtain ⟨p, h3, h4⟩ := okWith_elim (x := recovered exHidden [(.fin (5 / 2) : Fl ℚ), .fin 6])
    (P := fun p => decide (p.lo = .fin 1) && decide (p.hi = .fin 5) && decide (p.subplots[1]? = some (2, [((.fin 1 : Fl ℚ), (.fin (5 / 2) : Fl ℚ)), (.fin 5, .fin 6)]))) (by decide +kernel)
  simp only [Bool.and_eq_true, decide_eq_true_eq] at h4
  exact ⟨res, p, h1, h2, by rw [h2]; exact h3, h4.1.1, h4.1.2, h4.2⟩

theorem exHidden_clean (j : Fin 2) (i : Fin 2) (r : Fin 1) : NumOrNan (exHidden j i r) := by
  unfold exHidden
  split_ifs
  · exact Or.inr ⟨_, rfl⟩
  · exact Or.inr ⟨_, rfl⟩
  · exact Or.inl rfl
  · exact Or.inr ⟨_, rfl⟩

/-- the hypotheses of `C132_subplots` and `C132_mos_partial` are met by votes with a missing one -/
example (q : Fin 2 → Fl ℚ) : ∃ p lo hi, recovered exHidden (List.ofFn q) = .ok p ∧ p.lo = .fin lo ∧ p.hi = .fin hi := by
  obtain ⟨p, lo, hi, h, h1, h2, -⟩ := C132_subplots exHidden exHidden_clean le_rfl ⟨0, 0, 0, 5, rfl⟩ q
  exact ⟨p, lo, hi, h, h1, h2⟩
example : recovered exHidden [.fin 3] = .error .value ∧ recovered (fun (_ : Fin 2) (_ : Fin 1) (_ : Fin 1) => (.fin 3 : Fl ℚ)) [.fin 3, .fin 3] = .error .assertion :=
  ⟨(C132_errors exHidden exHidden_clean _).2 (by decide) (Or.inl (by decide)),
    (C132_errors _ (fun _ _ _ => Or.inr ⟨3, rfl⟩) _).1.mpr (by decide)⟩

attribute [local instance] ratMath in
example : ∃ res p, runMOS exHiddenReader {} = .ok res ∧ recovered exHidden res.qualityScores = .ok p ∧ p.subplots.length = 2 := by
  have ⟨res, hr⟩ : ∃ res, runMOS exHiddenReader {} = .ok res := by
    unfold runMOS runModeling mosRunModeling
    rw [preprocess_default (rd := exHiddenReader) rfl]
    exact ⟨_, rfl⟩
  obtain ⟨p, -, -, h, -, -, h1, -⟩ := C132_mos_partial exHiddenReader ⟨2, 2, 1, exHidden⟩ res rfl hr exHidden_clean le_rfl ⟨0, 0, 0, 5, rfl⟩
  exact ⟨res, p, hr, h, h1⟩

/-! ## Sizes -/

section
variable {K : Type} [Field K] [LinearOrder K] [IsStrictOrderedRing K]

theorem hundreds_spec (n : ℕ) {x : K} (h0 : 0 ≤ x) (hx : x < (n + 1) * 100) : (hundreds n x : K) * 100 ≤ x ∧ x < (hundreds n x + 1) * 100 := by
  have key : ∀ m ≤ n, ∃ k ≤ m, (k : K) * 100 ≤ x ∧ (k < m → x < (k + 1) * 100) := by
    intro m
    induction m with
    | zero => exact fun _ => ⟨0, le_rfl, by simpa using h0, by omega⟩
    | succ m ih =>
      intro hm
      obtain ⟨k, hk, h3, h4⟩ := ih (by omega)
      rcases lt_or_ge x (((m : K) + 1) * 100) with hlt | hge
      · rcases Nat.lt_or_ge k m with hkm | hkm
        · exact ⟨k, by omega, h3, fun _ => h4 hkm⟩
        · obtain rfl : k = m := by omega
          exact ⟨k, by omega, h3, fun _ => hlt⟩
      · exact ⟨m + 1, le_rfl, by push_cast; exact hge, by omega⟩
  obtain ⟨k, hk, h3, h4⟩ := key n le_rfl
  have h5 : x < ((k : K) + 1) * 100 := by
    rcases hk.lt_or_eq with h | rfl
    · exact h4 h
    · exact hx
  have : hundreds n x = k := by
    unfold hundreds
    refine countP_upto n k hk _ fun i hi => ?_
    rw [decide_eq_true_iff]
    push_cast
    constructor
    · intro hle
      by_contra hcon
      have : (k : K) ≤ i := by exact_mod_cast (by omega : k ≤ i)
      nlinarith
    · intro hlt
      have : (i : K) + 1 ≤ k := by exact_mod_cast hlt
      nlinarith
  rw [this]
  exact ⟨h3, h5⟩

/-- one of the two steps: both sides are divided by the same number, the larger one ends below 200 -/
theorem shrink {n : ℕ} {x : K} (h : 100 < x) (hx : x ≤ n) : (1 : K) ≤ hundreds n x ∧ x / hundreds n x < 200 := by
  have hn : (0 : K) ≤ n := Nat.cast_nonneg _
  obtain ⟨h1, h2⟩ := hundreds_spec n (x := x) (by linarith) (by linarith)
  have h3 : 1 ≤ hundreds n x := by
    by_contra hc
    have : hundreds n x = 0 := by omega
    rw [this] at h2
    push_cast at h2
    linarith
  have h3' : (1 : K) ≤ hundreds n x := by exact_mod_cast h3
  refine ⟨h3', ?_⟩
  rw [div_lt_iff₀ (by linarith)]
  nlinarith

/-- **C133, images of matrices.** The figure is larger than 2 by 2 and smaller than 202 by 202 (inches), whatever the matrix; without the margin of 2 it has the proportions of the matrix; and
matrices of at most 3000 rows and columns are drawn at 30 cells per inch. -/
theorem C133_imshow_partial (rows cols : ℕ) (hr : 0 < rows) (hc : 0 < cols) :
    let s : K × K := imshowSize rows cols
    2 < s.1 ∧ s.1 < 202 ∧ 2 < s.2 ∧ s.2 < 202 ∧ (s.1 - 2) * rows = (s.2 - 2) * cols ∧
    (rows ≤ 3000 → cols ≤ 3000 → s.1 = cols / 30 + 2 ∧ s.2 = rows / 30 + 2) := by
  have hr' : (0 : K) < rows := by exact_mod_cast hr
  have hc' : (0 : K) < cols := by exact_mod_cast hc
  -- after the first step
  obtain ⟨w, h, hp, hw0, hh0, hw, hh, hratio, hsmall⟩ : ∃ w h : K, (if ((100 : ℕ) : K) < (cols : K) / ((30 : ℕ) : K) then
      ((cols : K) / ((30 : ℕ) : K) / ((hundreds cols ((cols : K) / ((30 : ℕ) : K)) : ℕ) : K), (rows : K) / ((30 : ℕ) : K) / ((hundreds cols ((cols : K) / ((30 : ℕ) : K)) : ℕ) : K))
      else ((cols : K) / ((30 : ℕ) : K), (rows : K) / ((30 : ℕ) : K))) = (w, h) ∧ 0 < w ∧ 0 < h ∧ w < 200 ∧ h ≤ rows ∧ w * rows = h * cols ∧
      (cols ≤ 3000 → w = cols / 30 ∧ h = rows / 30) := by
    push_cast
    by_cases hlt : (100 : K) < cols / 30
    · rw [if_pos hlt]
      obtain ⟨k1, k2⟩ := shrink (n := cols) hlt (by linarith)
      have k0 : (0 : K) < hundreds cols ((cols : K) / 30) := by linarith
      refine ⟨_, _, rfl, by positivity, by positivity, k2, ?_, by field_simp, ?_⟩
      · rw [div_le_iff₀ k0]
        nlinarith
      · intro h3
        have : (cols : K) ≤ 3000 := by exact_mod_cast h3
        linarith
    · rw [if_neg hlt]
      exact ⟨_, _, rfl, by positivity, by positivity, by linarith, by linarith, by field_simp, fun _ => ⟨rfl, rfl⟩⟩
  intro s
  have hs : s = imshowSize rows cols := rfl
  unfold imshowSize at hs
  dsimp only at hs
  rw [hp] at hs
  dsimp only at hs
  push_cast at hs
  by_cases hlt : (100 : K) < h
  · rw [if_pos hlt] at hs
    obtain ⟨k1, k2⟩ := shrink (n := rows) hlt hh
    have k0 : (0 : K) < hundreds rows h := by linarith
    have k3 : w / hundreds rows h ≤ w := by
      rw [div_le_iff₀ k0]
      nlinarith
    have k4 : 0 < w / hundreds rows h := by positivity
    have k5 : 0 < h / hundreds rows h := by positivity
    rw [hs]
    refine ⟨by linarith, by linarith, by linarith, by linarith, ?_, ?_⟩
    · rw [add_sub_cancel_right, add_sub_cancel_right, div_mul_eq_mul_div, hratio, div_mul_eq_mul_div]
    · intro h3 h4
      have : (rows : K) ≤ 3000 := by exact_mod_cast h3
      have := (hsmall h4).2
      linarith
  · rw [if_neg hlt] at hs
    rw [hs]
    refine ⟨by linarith, by linarith, by linarith, by linarith, ?_, ?_⟩
    · rw [add_sub_cancel_right, add_sub_cancel_right, hratio]
    · intro h3 h4
      obtain ⟨e1, e2⟩ := hsmall h4
      exact ⟨by rw [e1], by rw [e2]⟩

end

/-- **C133, refuted.** The code divides by `w // 100` where the width exceeds 100; this does not bring it to at most 100: 5999 columns give a width of almost 202, as against 102 for 6000 columns. -/
theorem C133_refuted : (imshowSize 1 5999 : ℚ × ℚ).1 = 5999 / 30 + 2 ∧ (imshowSize 1 6000 : ℚ × ℚ).1 = 102 := by
  constructor <;> decide +kernel

/-- **C133, plots over videos or observers.** At least 10 wide, 3 high; from 64 on the width is the root of the number plus 2, so it does not fall when the number grows. -/
theorem C133_plot (n : ℕ) : ∃ w : ℝ, (plotSize (some n) : Fl ℝ × Fl ℝ) = (.fin w, .fin 3) ∧ 10 ≤ w ∧ (64 ≤ n → w = Real.sqrt n + 2) ∧ (n ≤ 64 → w = 10) := by
  have h1 : ((n : Fl ℝ)).sqrt = .fin (Real.sqrt n) := Fl.sqrt_fin (Nat.cast_nonneg n)
  have h2 : (plotSize (some n) : Fl ℝ × Fl ℝ) = ((if Fl.lt (.fin (Real.sqrt n + 2)) (.fin 10) then .fin 10 else .fin (Real.sqrt n + 2)), .fin 3) := by
    unfold plotSize
    dsimp only
    rw [h1]
    have e10 : ((10 : ℕ) : Fl ℝ) = .fin 10 := by rw [Fl.natCast_def]; norm_num
    have e2 : ((2 : ℕ) : Fl ℝ) = .fin 2 := by rw [Fl.natCast_def]; norm_num
    have e3 : ((3 : ℕ) : Fl ℝ) = .fin 3 := by rw [Fl.natCast_def]; norm_num
    rw [e10, e2, e3]
    rfl
  have h64 : Real.sqrt 64 = 8 := by
    rw [show (64 : ℝ) = 8 ^ 2 by norm_num]
    exact Real.sqrt_sq (by norm_num)
  rw [h2]
  by_cases hlt : Real.sqrt n + 2 < 10
  · rw [if_pos (by simpa [Fl.lt] using hlt)]
    refine ⟨10, rfl, le_rfl, ?_, fun _ => rfl⟩
    intro h3
    have h4 : (64 : ℝ) ≤ n := by exact_mod_cast h3
    have := Real.sqrt_le_sqrt h4
    linarith
  · rw [if_neg (by simpa [Fl.lt] using hlt)]
    refine ⟨_, rfl, by linarith, fun _ => rfl, ?_⟩
    intro h3
    have h4 : (n : ℝ) ≤ 64 := by exact_mod_cast h3
    have := Real.sqrt_le_sqrt h4
    linarith

/-- **C133, plots without a number.** 10 wide, 3 high, as for up to 64 videos or observers. -/
theorem C133_default : (plotSize none : Fl ℝ × Fl ℝ) = (.fin 10, .fin 3) ∧ ∀ n ≤ 64, (plotSize (some n) : Fl ℝ × Fl ℝ) = plotSize none := by
  have h0 : (plotSize none : Fl ℝ × Fl ℝ) = (.fin 10, .fin 3) := by
    unfold plotSize
    dsimp only
    rw [Fl.natCast_def, Fl.natCast_def]
    norm_num
  refine ⟨h0, fun n hn => ?_⟩
  obtain ⟨w, h1, -, -, h2⟩ := C133_plot n
  rw [h1, h2 hn, h0]

end Sureal.Props
