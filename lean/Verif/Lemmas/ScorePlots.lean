import Verif.Model.ScorePlots
import Verif.Spec.ScorePlots
import Verif.Lemmas.Mos
import Verif.Lemmas.Dataset
set_option linter.unusedSectionVars false
/-! Helper lemmas about the plots of the scores. -/
namespace Sureal.ScorePlots
open Spec
variable {κ K : Type}

variable [Field K] [LinearOrder K] [IsStrictOrderedRing K]

theorem fancy_ok {q : List (Fl K)} {order : List ℕ} (h : ∀ i ∈ order, i < q.length) :
    fancy q order = .ok (order.map fun i => q.getD i .nan) := by
  unfold fancy
  refine mapPy_ok ?_
  intro i hi
  simp [List.getElem?_eq_getElem (h i hi)]

theorem xlim_ok {n : ℕ} {lim : ℕ × ℕ} (h : xlim n = .ok lim) : lim = (0, n) := by
  unfold xlim at h
  cases n with
  | zero => cases h
  | succ n => cases h; rfl

theorem xlim_runs {n : ℕ} (h : n ≠ 0) : xlim n = .ok (0, n) := by
  cases n with
  | zero => exact absurd rfl h
  | succ n => rfl

/-- what a series shows once it is made -/
theorem series_ok {pt : PlotType} {k : ℕ} {ys : List (Fl K)} {ci : Option (List (Fl K) × List (Fl K))} {s : Series K}
    (h : series pt k ys ci = .ok s) : s.ys = ys ∧ colors[k]? = some s.color ∧
      s.err = (match pt with | .errorbar => ci | _ => none) ∧ s.xs = ((List.range ys.length).map fun j : ℕ => Fl.fin ((j : K) + k * (2 / 5) +
        (match pt with | .errorbar => 1 / 5 | _ => 0))) ∧ s.axis = (0, ys.length) := by
  unfold series at h
  cases pt with
  | other => exact absurd h (by simp)
  | bar =>
    dsimp only at h
    split at h
    · exact absurd h (by simp)
    · rename_i c hc
      split at h
      · exact absurd h (by simp)
      rename_i lim hlim
      obtain rfl := Except.ok.inj h
      refine ⟨rfl, hc, rfl, List.map_congr_left fun j _ => ?_, xlim_ok hlim⟩
      simp only [barWidth, Fl.dec, Fl.natCast_def, Fl.fin_mul, Fl.fin_add]
      congr 1; norm_num
  | errorbar =>
    dsimp only at h
    split at h
    · exact absurd h (by simp)
    · rename_i c hc
      split at h
      · exact absurd h (by simp)
      rename_i lim hlim
      obtain rfl := Except.ok.inj h
      refine ⟨rfl, hc, rfl, List.map_congr_left fun j _ => ?_, xlim_ok hlim⟩
      simp only [barWidth, Fl.dec, Fl.natCast_def, Fl.fin_mul, Fl.fin_add]
      congr 1; norm_num

theorem qualityLoop_ok {order : List ℕ} {pt : PlotType} {results : List (Result κ K)} {k : ℕ} {out : List (Series K)}
    (ho : ∀ r ∈ results, ∀ i ∈ order, i < r.qualityScores.length) (h : qualityLoop order pt k results = .ok out) :
    out.length = results.length ∧ ∀ i s r, out[i]? = some s → results[i]? = some r →
      series pt (k + i) (order.map fun i => r.qualityScores.getD i .nan) r.qualityScoresCi95 = .ok s := by
  induction results generalizing k out with
  | nil =>
    obtain rfl := Except.ok.inj h
    simp
  | cons r rs ih =>
    unfold qualityLoop at h
    rw [fancy_ok (ho r (by simp))] at h
    dsimp only at h
    split at h
    · exact absurd h (by simp)
    rename_i s hs
    split at h
    · exact absurd h (by simp)
    rename_i ss hss
    obtain rfl := Except.ok.inj h
    obtain ⟨h1, h2⟩ := ih (fun r hr => ho r (by simp [hr])) hss
    refine ⟨by simp [h1], ?_⟩
    intro i s' r' hs' hr'
    cases i with
    | zero =>
      simp only [List.getElem?_cons_zero, Option.some.injEq] at hs' hr'
      subst hs' hr'
      exact hs
    | succ i =>
      simp only [List.getElem?_cons_succ] at hs' hr'
      rw [show k + (i + 1) = k + 1 + i by omega]
      exact h2 i s' r' hs' hr'

theorem qualityLoop_runs {order : List ℕ} {pt : PlotType} (hpt : pt ≠ .other) {results : List (Result κ K)} {k : ℕ}
    (hk : k + results.length ≤ 8) (h0 : order ≠ []) (ho : ∀ r ∈ results, ∀ i ∈ order, i < r.qualityScores.length) :
    ∃ out, qualityLoop order pt k results = .ok out := by
  induction results generalizing k with
  | nil => exact ⟨_, rfl⟩
  | cons r rs ih =>
    unfold qualityLoop
    rw [fancy_ok (ho r (by simp))]
    dsimp only
    have hk' : k < colors.length := by
      have : colors.length = 8 := rfl
      simp only [List.length_cons] at hk
      omega
    have hs : ∃ s, series pt k (order.map fun i => r.qualityScores.getD i .nan) r.qualityScoresCi95 = .ok s := by
      unfold series
      rw [xlim_runs (n := (order.map fun i => r.qualityScores.getD i .nan).length) (by simpa using h0)]
      cases pt with
      | other => exact absurd rfl hpt
      | bar => rw [List.getElem?_eq_getElem hk']; exact ⟨_, rfl⟩
      | errorbar => rw [List.getElem?_eq_getElem hk']; exact ⟨_, rfl⟩
    obtain ⟨s, hs⟩ := hs
    obtain ⟨out, hout⟩ := ih (k := k + 1) (by simp only [List.length_cons] at hk; omega) fun r hr => ho r (by simp [hr])
    rw [hs, hout]
    exact ⟨_, rfl⟩

/-- the order in which the videos are shown -/
theorem order_spec {argsort : List (Fl K) → List ℕ} (ha : Argsort argsort) (sort : Bool) (l : List (Fl K)) :
    (if sort then argsort l else List.range l.length).Perm (List.range l.length) := by
  cases sort with
  | false => exact List.Perm.refl _
  | true => exact (ha l).1

/-- a result with fewer scores than the first -/
theorem qualityLoop_short {order : List ℕ} {pt : PlotType} (hpt : pt ≠ .other) {results : List (Result κ K)} {k : ℕ}
    (hk : k + results.length ≤ 8) (h0 : order ≠ []) (r : Result κ K) (hr : r ∈ results) (i : ℕ) (hi : i ∈ order) (hlen : r.qualityScores.length ≤ i) :
    qualityLoop order pt k results = .error .index := by
  induction results generalizing k with
  | nil => cases hr
  | cons r0 rs ih =>
    unfold qualityLoop
    have hk' : k < colors.length := by
      have : colors.length = 8 := rfl
      simp only [List.length_cons] at hk
      omega
    by_cases hall : ∀ i ∈ order, i < r0.qualityScores.length
    · rw [fancy_ok hall]
      dsimp only
      have hs : ∃ s, series pt k (order.map fun i => r0.qualityScores.getD i .nan) r0.qualityScoresCi95 = .ok s := by
        unfold series
        rw [xlim_runs (n := (order.map fun i => r0.qualityScores.getD i .nan).length) (by simpa using h0)]
        cases pt with
        | other => exact absurd rfl hpt
        | bar => rw [List.getElem?_eq_getElem hk']; exact ⟨_, rfl⟩
        | errorbar => rw [List.getElem?_eq_getElem hk']; exact ⟨_, rfl⟩
      obtain ⟨s, hs⟩ := hs
      rw [hs]
      dsimp only
      have hne : r ≠ r0 := by
        rintro rfl
        have := hall i hi
        omega
      rw [ih (k := k + 1) (by simp only [List.length_cons] at hk; omega) ((List.mem_cons.mp hr).resolve_left hne)]
    · have : fancy r0.qualityScores order = .error .index := by
        unfold fancy
        clear hi h0 ih
        induction order with
        | nil => simp at hall
        | cons j js ihj =>
          unfold mapPy
          by_cases hj : j < r0.qualityScores.length
          · rw [List.getElem?_eq_getElem hj]
            dsimp only
            rw [ihj]
            intro h
            apply hall
            intro i hi
            rcases List.mem_cons.mp hi with rfl | hi
            · exact hj
            · exact h i hi
          · rw [List.getElem?_eq_none (by omega)]
      rw [this]

/-- more models than colours -/
theorem qualityLoop_index {order : List ℕ} {pt : PlotType} (hpt : pt ≠ .other) {results : List (Result κ K)} {k : ℕ}
    (hk : 8 < k + results.length) (hk8 : k ≤ 8) (h0 : order ≠ []) (ho : ∀ r ∈ results, ∀ i ∈ order, i < r.qualityScores.length) :
    qualityLoop order pt k results = .error .index := by
  induction results generalizing k with
  | nil => simp at hk; omega
  | cons r rs ih =>
    unfold qualityLoop
    rw [fancy_ok (ho r (by simp))]
    dsimp only
    by_cases h8 : k = 8
    · subst h8
      have : series pt 8 (order.map fun i => r.qualityScores.getD i .nan) r.qualityScoresCi95 = .error .index := by
        cases pt with
        | other => exact absurd rfl hpt
        | bar => rfl
        | errorbar => rfl
      rw [this]
    · have hk' : k < colors.length := by
        have : colors.length = 8 := rfl
        omega
      have hs : ∃ s, series pt k (order.map fun i => r.qualityScores.getD i .nan) r.qualityScoresCi95 = .ok s := by
        unfold series
        rw [xlim_runs (n := (order.map fun i => r.qualityScores.getD i .nan).length) (by simpa using h0)]
        cases pt with
        | other => exact absurd rfl hpt
        | bar => rw [List.getElem?_eq_getElem hk']; exact ⟨_, rfl⟩
        | errorbar => rw [List.getElem?_eq_getElem hk']; exact ⟨_, rfl⟩
      obtain ⟨s, hs⟩ := hs
      rw [hs, ih (k := k + 1) (by simp only [List.length_cons] at hk; omega) (by omega) fun r hr => ho r (by simp [hr])]

end Sureal.ScorePlots
