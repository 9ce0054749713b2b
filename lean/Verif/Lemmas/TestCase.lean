import Verif.Spec.TestCase
import Mathlib.Tactic.Linarith
import Mathlib.Tactic.Positivity
import Mathlib.Tactic.FieldSimp
/-!
# Lemmas on comparisons
-/
namespace Sureal.TestCase
open Sureal Sureal.Spec

theorem roundEven_zero {x : ℝ} (hx : 0 ≤ x) : roundEven x = 0 ↔ x ≤ 1 / 2 := by
  have h1 := Int.floor_le x
  have h2 := Int.lt_floor_add_one x
  have h0 : 0 ≤ ⌊x⌋ := Int.floor_nonneg.mpr hx
  unfold roundEven
  constructor
  · intro h
    by_contra hc
    push Not at hc
    by_cases h3 : x - ⌊x⌋ < 1 / 2
    · rw [if_pos h3] at h
      have : (⌊x⌋ : ℝ) = 0 := by exact_mod_cast h
      linarith
    rw [if_neg h3] at h
    by_cases h4 : 1 / 2 < x - ⌊x⌋
    · rw [if_pos h4] at h
      omega
    rw [if_neg h4] at h
    by_cases h5 : ⌊x⌋ % 2 = 0
    · rw [if_pos h5] at h
      have : (⌊x⌋ : ℝ) = 0 := by exact_mod_cast h
      linarith
    · rw [if_neg h5] at h
      omega
  · intro h
    have hf : ⌊x⌋ = 0 := Int.floor_eq_zero_iff.mpr ⟨hx, by linarith⟩
    have hf' : (⌊x⌋ : ℝ) = 0 := by exact_mod_cast hf
    by_cases h3 : x - ⌊x⌋ < 1 / 2
    · rw [if_pos h3, hf]
    · rw [if_neg h3, if_neg (by linarith), hf]
      rfl

theorem same_iff {x y : Fl ℝ} : same x y = true ↔ Close 0 x y := by
  cases x <;> cases y <;> simp [same, Close, Fl.le]
  rename_i x y
  constructor
  · rintro ⟨h, h'⟩; exact Or.inl (le_antisymm h h')
  · rintro (h | h)
    · exact ⟨h.le, h.ge⟩
    · have := sub_eq_zero.mp h
      exact ⟨this.le, this.ge⟩

theorem close_mono {s t : ℝ} (h : s ≤ t) {x y : Fl ℝ} : Close s x y → Close t x y := by
  cases x <;> cases y <;> simp only [Close, imp_self]
  rintro (h' | h')
  · exact Or.inl h'
  · exact Or.inr (h'.trans h)

theorem close_zero (t : ℝ) {x y : Fl ℝ} : Close 0 x y → Close t x y := by
  cases x <;> cases y <;> simp only [Close, imp_self]
  rintro (h' | h')
  · exact Or.inl h'
  · exact Or.inl (sub_eq_zero.mp (abs_nonpos_iff.mp h'))

theorem roundTo_zero (p : ℤ) {u : ℝ} (hu : 0 ≤ u) : same (roundTo p (.fin u)) (.fin 0) = true ↔ u ≤ 10 ^ (-p) / 2 := by
  have h10 : (0 : ℝ) < 10 ^ p := zpow_pos (by norm_num) p
  have : same (roundTo p (.fin u)) (.fin 0) = true ↔ roundEven (u * 10 ^ p) = 0 := by
    rw [same_iff]
    simp only [roundTo, Close]
    constructor
    · intro h
      have h' : (roundEven (u * 10 ^ p) : ℝ) / 10 ^ p = 0 := by
        rcases h with h | h
        · exact h
        · simpa using h
      rcases div_eq_zero_iff.mp h' with h' | h'
      · exact_mod_cast h'
      · exact absurd h' h10.ne'
    · intro h
      left
      rw [h]
      simp
  rw [this, roundEven_zero (by positivity), zpow_neg]
  rw [← le_div_iff₀ h10]
  rw [show (1 : ℝ) / 2 / 10 ^ p = (10 ^ p)⁻¹ / 2 by field_simp]

theorem diff_cases (x y : Fl ℝ) : (∃ u v, x = .fin u ∧ y = .fin v ∧ (x - y).abs = .fin |u - v|) ∨
    (((x - y).abs = .nan ∨ (x - y).abs = .pinf) ∧ (Close 0 x y ∨ ∀ t, ¬ Close t x y)) := by
  cases x <;> cases y
  case fin.fin u v =>
    left
    refine ⟨u, v, rfl, rfl, ?_⟩
    show (if u - v < 0 then Fl.fin (-(u - v)) else Fl.fin (u - v)) = _
    split
    · rw [abs_of_neg (by assumption)]
    · rw [abs_of_nonneg (by linarith)]
  all_goals
    right
    first
      | exact ⟨Or.inl rfl, Or.inl trivial⟩
      | exact ⟨Or.inr rfl, Or.inl trivial⟩
      | exact ⟨Or.inl rfl, Or.inr fun t h => h⟩
      | exact ⟨Or.inr rfl, Or.inr fun t h => h⟩

theorem almostEqual_single {x y : Fl ℝ} {p : Option ℤ} {d : Option ℝ} (h : p = none ∨ d = none) :
    (Close (allowed p d) x y → almostEqual x y p d = .ok ()) ∧ (¬ Close (allowed p d) x y → almostEqual x y p d = .error .assertion) := by
  unfold almostEqual
  by_cases hs : same x y = true
  · rw [if_pos hs]
    exact ⟨fun _ => rfl, fun hc => absurd (close_zero _ (same_iff.mp hs)) hc⟩
  rw [if_neg hs, if_neg (by rcases h with rfl | rfl <;> simp)]
  have hx : ¬ Close 0 x y := fun h => hs (same_iff.mpr h)
  have hfin : ∀ {u v : ℝ}, x = .fin u → y = .fin v → ∀ t, Close t x y ↔ |u - v| ≤ t := by
    rintro u v rfl rfl t
    refine ⟨fun h => ?_, Or.inr⟩
    rcases h with h | h
    · exact absurd (Or.inl h) hx
    · exact h
  cases d with
  | some d =>
    dsimp only
    have : Fl.le (x - y).abs (.fin d) = true ↔ Close (allowed p (some d)) x y := by
      rcases diff_cases x y with ⟨u, v, hu, hv, he⟩ | ⟨he, hc⟩
      · rw [he, hfin hu hv]
        simp [Fl.le, allowed]
      · have hc := hc.resolve_left hx
        refine ⟨fun h => ?_, fun h => absurd h (hc _)⟩
        rcases he with he | he <;> rw [he] at h <;> cases h
    exact ⟨fun h => if_pos (this.mpr h), fun h => if_neg fun h' => h (this.mp h')⟩
  | none =>
    dsimp only
    have : same (roundTo (p.getD 7) (x - y).abs) (.fin 0) = true ↔ Close (allowed p none) x y := by
      rcases diff_cases x y with ⟨u, v, hu, hv, he⟩ | ⟨he, hc⟩
      · rw [he, hfin hu hv, roundTo_zero _ (abs_nonneg _)]
        cases p <;> rfl
      · have hc := hc.resolve_left hx
        refine ⟨fun h => ?_, fun h => absurd h (hc _)⟩
        rcases he with he | he <;> rw [he] at h <;> cases h
    exact ⟨fun h => if_pos (this.mpr h), fun h => if_neg fun h' => h (this.mp h')⟩

theorem almostEqual_both {x y : Fl ℝ} (p : ℤ) (d : ℝ) :
    (Close 0 x y → almostEqual x y (some p) (some d) = .ok ()) ∧ (¬ Close 0 x y → almostEqual x y (some p) (some d) = .error .type) := by
  unfold almostEqual
  exact ⟨fun h => if_pos (same_iff.mpr h), fun h => by rw [if_neg fun h' => h (same_iff.mp h')]; rfl⟩

/-- a comparison, in the words of the specification -/
theorem almost_cases (x y : Fl ℝ) (p : Option ℤ) (d : Option ℝ) :
    (Holds (.almost x y p d) ∧ almostEqual x y p d = .ok ()) ∨
    (Fails (.almost x y p d) (x, y) ∧ almostEqual x y p d = .error .assertion) ∨
    (Raises (.almost x y p d) .type ∧ almostEqual x y p d = .error .type) := by
  classical
  by_cases hb : ∃ p' d', p = some p' ∧ d = some d'
  · obtain ⟨p', d', rfl, rfl⟩ := hb
    by_cases h : Close 0 x y
    · exact Or.inl ⟨⟨fun e he => he.2 h, fun f hf => hf⟩, (almostEqual_both _ _).1 h⟩
    · exact Or.inr (Or.inr ⟨⟨rfl, h⟩, (almostEqual_both _ _).2 h⟩)
  · have hb' : p = none ∨ d = none := by
      cases p with
      | none => exact Or.inl rfl
      | some p => cases d with
        | none => exact Or.inr rfl
        | some d => exact absurd ⟨p, d, rfl, rfl⟩ hb
    by_cases h : Close (allowed p d) x y
    · refine Or.inl ⟨⟨?_, ?_⟩, (almostEqual_single hb').1 h⟩
      · rcases hb' with rfl | rfl
        · exact fun e he => he
        · cases p <;> exact fun e he => he
      · rcases hb' with rfl | rfl
        · exact fun f hf => hf.2 h
        · cases p <;> exact fun f hf => hf.2 h
    · refine Or.inr (Or.inl ⟨?_, (almostEqual_single hb').2 h⟩)
      rcases hb' with rfl | rfl
      · exact ⟨rfl, h⟩
      · cases p <;> exact ⟨rfl, h⟩

theorem fails_not_raises {s : Step} {f : Failure} {e : PyErr} (h : Fails s f) (h' : Raises s e) : False := by
  cases s with
  | other r => exact h
  | almost x y p d =>
    cases p <;> cases d <;> first | exact h' | exact h

theorem steps_spec (body : List Step) : ∀ acc : List Failure, ∃ before after fs, body = before ++ after ∧ FailuresOf before fs ∧
    (steps acc body).1 = acc ++ fs ∧
    ((after = [] ∧ (steps acc body).2 = none) ∨ ∃ s l e, after = s :: l ∧ Raises s e ∧ (steps acc body).2 = some e) := by
  induction body with
  | nil => intro acc; exact ⟨[], [], [], rfl, .nil, (List.append_nil _).symm, Or.inl ⟨rfl, rfl⟩⟩
  | cons s l ih =>
    intro acc
    have hgo : ∀ fs₀, (step acc s = .ok (acc ++ fs₀)) → (∀ {l fs}, FailuresOf l fs → FailuresOf (s :: l) (fs₀ ++ fs)) →
        ∃ before after fs, s :: l = before ++ after ∧ FailuresOf before fs ∧ (steps acc (s :: l)).1 = acc ++ fs ∧
        ((after = [] ∧ (steps acc (s :: l)).2 = none) ∨ ∃ s' l' e, after = s' :: l' ∧ Raises s' e ∧ (steps acc (s :: l)).2 = some e) := by
      intro fs₀ h0 hf
      obtain ⟨b, a, fs, h1, h2, h3, h4⟩ := ih (acc ++ fs₀)
      have hs : steps acc (s :: l) = steps (acc ++ fs₀) l := by rw [steps, h0]
      refine ⟨s :: b, a, fs₀ ++ fs, by rw [h1]; rfl, hf h2, ?_, ?_⟩
      · rw [hs, h3, List.append_assoc]
      · rw [hs]; exact h4
    have hstop : ∀ e, step acc s = .error e → Raises s e →
        ∃ before after fs, s :: l = before ++ after ∧ FailuresOf before fs ∧ (steps acc (s :: l)).1 = acc ++ fs ∧
        ((after = [] ∧ (steps acc (s :: l)).2 = none) ∨ ∃ s' l' e, after = s' :: l' ∧ Raises s' e ∧ (steps acc (s :: l)).2 = some e) := by
      intro e h0 hr
      have hs : steps acc (s :: l) = (acc, some e) := by rw [steps, h0]
      exact ⟨[], s :: l, [], rfl, .nil, by rw [hs, List.append_nil], Or.inr ⟨s, l, e, rfl, hr, by rw [hs]⟩⟩
    cases s with
    | other r =>
      cases r with
      | none => exact hgo [] (by rw [List.append_nil]; rfl) fun h => .holds ⟨fun e he => (by cases he), fun f hf => hf⟩ h
      | some e => exact hstop e rfl rfl
    | almost x y p d =>
      rcases almost_cases x y p d with ⟨h, he⟩ | ⟨h, he⟩ | ⟨h, he⟩
      · exact hgo [] (by rw [step, he, List.append_nil]) fun h' => .holds h h'
      · exact hgo [(x, y)] (by rw [step, he]) fun h' => .fails h h'
      · exact hstop _ (by rw [step, he]) h

theorem failuresOf_nil {l : List Step} {fs : List Failure} (h : FailuresOf l fs) : fs = [] ↔ ∀ s ∈ l, Holds s := by
  induction h with
  | nil => simp
  | fails h _ ih => exact ⟨fun h' => (by cases h'), fun h' => absurd h ((h' _ List.mem_cons_self).2 _)⟩
  | holds h _ ih =>
    rw [ih]
    exact ⟨fun h' s hs => (List.mem_cons.mp hs).elim (fun e => e ▸ h) (h' s), fun h' s hs => h' s (List.mem_cons_of_mem _ hs)⟩

theorem plain_passed (body : List Step) : (runPlain body).passed = true ↔ ∀ s ∈ body, Holds s := by
  induction body with
  | nil => simp [runPlain, Report.passed]
  | cons s l ih =>
    have hgo : runPlain (s :: l) = runPlain l → Holds s → ((runPlain (s :: l)).passed = true ↔ ∀ t ∈ s :: l, Holds t) := by
      intro h hs
      rw [h, ih]
      exact ⟨fun h' t ht => (List.mem_cons.mp ht).elim (fun e => e ▸ hs) (h' t), fun h' t ht => h' t (List.mem_cons_of_mem _ ht)⟩
    have hstop : ∀ e, runPlain (s :: l) = ⟨some e, []⟩ → ¬ Holds s → ((runPlain (s :: l)).passed = true ↔ ∀ t ∈ s :: l, Holds t) := by
      intro e h hs
      rw [h]
      exact ⟨fun h' => (by cases h'), fun h' => absurd (h' s List.mem_cons_self) hs⟩
    cases s with
    | other r =>
      cases r with
      | none => exact hgo rfl ⟨fun e he => (by cases he), fun f hf => hf⟩
      | some e => exact hstop e rfl fun h => h.1 e rfl
    | almost x y p d =>
      rcases almost_cases x y p d with ⟨h, he⟩ | ⟨h, he⟩ | ⟨h, he⟩
      · exact hgo (by rw [runPlain, he]) h
      · exact hstop _ (by rw [runPlain, he]) fun h' => h'.2 _ h
      · exact hstop _ (by rw [runPlain, he]) fun h' => h'.1 _ h

end Sureal.TestCase
