import Verif.Model.Inverse
import Verif.Spec.Inverse
import Verif.Lemmas.Fl
import Mathlib.Tactic.Linarith
import Mathlib.Tactic.Positivity
/-! # Lemmas on `inversefunc` -/
set_option linter.unusedSectionVars false
namespace Sureal.Inverse
open Spec.Inv
variable {K : Type} [Field K] [LinearOrder K] [IsStrictOrderedRing K]
variable {xmin xmax imin imax : Option K} {lo ro : Bool} {func : K → Py (Fl K)} {f : K → K} {x x' x₀ : K}

theorem below_false : below xmin lo x = false ↔ ∀ a, xmin = some a → if lo then a < x else a ≤ x := by
  unfold below
  cases xmin with
  | none => simp
  | some a =>
    cases lo
    · simp
    · simp only [Bool.and_true, Bool.or_eq_false_iff, decide_eq_false_iff_not, not_lt, Bool.and_eq_false_iff, not_le, Option.some.injEq,
        forall_eq', if_true]
      constructor
      · rintro ⟨h1, h2 | h2⟩
        · exact h2
        · exact absurd h1 (not_le.mpr h2)
      · intro h
        exact ⟨h.le, .inl h⟩

theorem above_false : above xmax ro x = false ↔ ∀ b, xmax = some b → if ro then x < b else x ≤ b := by
  unfold above
  cases xmax with
  | none => simp
  | some a =>
    cases ro
    · simp
    · simp only [Bool.and_true, Bool.or_eq_false_iff, decide_eq_false_iff_not, not_lt, Bool.and_eq_false_iff, not_le, Option.some.injEq,
        forall_eq', if_true]
      constructor
      · rintro ⟨h1, h2 | h2⟩
        · exact absurd h1 (not_le.mpr h2)
        · exact h2
      · intro h
        exact ⟨h.le, .inr h⟩

theorem domain_iff : x ∈ Domain xmin xmax lo ro ↔ below xmin lo x = false ∧ above xmax ro x = false := by
  rw [below_false, above_false]
  rfl

theorem domain_mid {y : K} (hx : x ∈ Domain xmin xmax lo ro) (hy : y ∈ Domain xmin xmax lo ro) (h1 : x ≤ x') (h2 : x' ≤ y) :
    x' ∈ Domain xmin xmax lo ro := by
  constructor
  · intro a ha
    have := hx.1 a ha
    cases lo
    · exact le_trans (by simpa using this) h1
    · exact lt_of_lt_of_le (by simpa using this) h1
  · intro b hb
    have := hy.2 b hb
    cases ro
    · exact le_trans h2 (by simpa using this)
    · exact lt_of_le_of_lt h2 (by simpa using this)

theorem bounded_in (h : x ∈ Domain xmin xmax lo ro) (t : Trend) : bounded func xmin xmax lo ro t x = func x := by
  obtain ⟨h1, h2⟩ := domain_iff.mp h
  unfold bounded
  rw [h1, h2]
  rfl

theorem bounded_out (h : x ∉ Domain xmin xmax lo ro) {t : Trend} (ht : t ≠ .unknown) :
    bounded func xmin xmax lo ro t x = .ok .pinf ∨ bounded func xmin xmax lo ro t x = .ok .ninf := by
  rw [domain_iff, not_and_or, Bool.not_eq_false, Bool.not_eq_false] at h
  unfold bounded
  by_cases h1 : below xmin lo x = true
  · rw [if_pos h1]
    cases t
    · exact .inr rfl
    · exact .inl rfl
    · exact absurd rfl ht
  · rw [if_neg h1, if_pos (h.resolve_left h1)]
    cases t
    · exact .inl rfl
    · exact .inr rfl
    · exact absurd rfl ht

theorem refs_in (ho : ordered (xmin, xmax) = true) :
    (refPoints xmin xmax).1 ∈ Domain xmin xmax lo ro ∧ (refPoints xmin xmax).2 ∈ Domain xmin xmax lo ro ∧
      (refPoints xmin xmax).1 < (refPoints xmin xmax).2 := by
  have key : ∀ z : K, (∀ a, xmin = some a → a < z) → (∀ b, xmax = some b → z < b) → z ∈ Domain xmin xmax lo ro := by
    intro z h1 h2
    refine ⟨fun a ha => ?_, fun b hb => ?_⟩
    · split
      · exact h1 a ha
      · exact (h1 a ha).le
    · split
      · exact h2 b hb
      · exact (h2 b hb).le
  cases xmin with
  | none =>
    cases xmax with
    | none => exact ⟨key _ (by simp) (by simp), key _ (by simp) (by simp), by simp [refPoints]⟩
    | some b =>
      refine ⟨key _ (by simp) ?_, key _ (by simp) ?_, ?_⟩
      · rintro _ ⟨rfl⟩; simp [refPoints]
      · rintro _ ⟨rfl⟩; simp [refPoints]
      · simp only [refPoints]; push_cast; linarith
  | some a =>
    cases xmax with
    | none =>
      refine ⟨key _ ?_ (by simp), key _ ?_ (by simp), ?_⟩
      · rintro _ ⟨rfl⟩; simp [refPoints]
      · rintro _ ⟨rfl⟩; simp [refPoints]
      · simp only [refPoints]; push_cast; linarith
    | some b =>
      have hab : a < b := by simpa [ordered] using ho
      have hd : 0 < (b - a) / 4 := by linarith [div_pos (sub_pos.mpr hab) (show (0 : K) < 4 by norm_num)]
      have h4 : (b - a) / 4 * 4 = b - a := by field_simp
      refine ⟨key _ ?_ ?_, key _ ?_ ?_, ?_⟩
      · rintro _ ⟨rfl⟩; simp only [refPoints]; push_cast; linarith
      · rintro _ ⟨rfl⟩; simp only [refPoints]; push_cast; linarith
      · rintro _ ⟨rfl⟩; simp only [refPoints]; push_cast; linarith
      · rintro _ ⟨rfl⟩; simp only [refPoints]; push_cast; linarith
      · simp only [refPoints]; push_cast; linarith

/-- the function that is minimised -/
noncomputable def dist2 (f : K → K) (D : Set K) (x₀ x : K) : Fl K := by
  classical exact if x ∈ D then .fin ((f x - f x₀) * (f x - f x₀)) else .pinf

theorem objective_eq (hv : ∀ x ∈ Domain xmin xmax lo ro, func x = .ok (.fin (f x))) {t : Trend} (ht : t ≠ .unknown) :
    objective (bounded func xmin xmax lo ro t) (.fin (f x₀)) = fun x => .ok (dist2 f (Domain xmin xmax lo ro) x₀ x) := by
  funext x
  unfold objective dist2
  by_cases h : x ∈ Domain xmin xmax lo ro
  · rw [bounded_in h, hv x h, if_pos h]
    dsimp only
    rw [Fl.fin_sub, Fl.fin_mul]
  · rw [if_neg h]
    rcases bounded_out (func := func) h ht with h' | h' <;> rw [h'] <;> rfl

theorem mono_sq {f : K → K} {D : Set K} (hf : StrictlyMonotone f D) {a b c : K} (ha : a ∈ D) (hb : b ∈ D) (hc : c ∈ D)
    (h : (a ≤ b ∧ b ≤ c) ∨ (c ≤ b ∧ b ≤ a)) : (f b - f c) * (f b - f c) ≤ (f a - f c) * (f a - f c) := by
  have key : (f a ≤ f b ∧ f b ≤ f c) ∨ (f c ≤ f b ∧ f b ≤ f a) := by
    rcases hf with hf | hf
    · rcases h with ⟨h1, h2⟩ | ⟨h1, h2⟩
      · exact .inl ⟨hf.monotoneOn ha hb h1, hf.monotoneOn hb hc h2⟩
      · exact .inr ⟨hf.monotoneOn hc hb h1, hf.monotoneOn hb ha h2⟩
    · rcases h with ⟨h1, h2⟩ | ⟨h1, h2⟩
      · exact .inr ⟨hf.antitoneOn hb hc h2, hf.antitoneOn ha hb h1⟩
      · exact .inl ⟨hf.antitoneOn hb ha h2, hf.antitoneOn hc hb h1⟩
  rcases key with ⟨h1, h2⟩ | ⟨h1, h2⟩ <;> nlinarith

theorem StrictlyMonotone.inj {f : K → K} {D : Set K} (hf : StrictlyMonotone f D) {a b : K} (ha : a ∈ D) (hb : b ∈ D) (h : f a = f b) :
    a = b := by
  rcases hf with hf | hf
  · exact hf.injOn ha hb h
  · exact hf.injOn ha hb h

theorem solver_finds {solver : (K → Py (Fl K)) → K → K → Py (Fl K)} (hs : FindsZero solver)
    (hf : StrictlyMonotone f (Domain xmin xmax lo ro)) (hv : ∀ x ∈ Domain xmin xmax lo ro, func x = .ok (.fin (f x)))
    {t : Trend} (ht : t ≠ .unknown) (hx : x₀ ∈ Domain xmin xmax lo ro) {a b : K} (hab : a < b) :
    solver (objective (bounded func xmin xmax lo ro t) (.fin (f x₀))) a b = .ok (.fin x₀) := by
  rw [objective_eq hv ht]
  refine hs _ x₀ a b hab ?_ ?_ ?_ ?_
  · unfold dist2
    rw [if_pos hx, sub_self, mul_zero]
  · intro x hne
    unfold dist2
    split
    · rename_i h
      rw [Fl.lt_fin, decide_eq_true_eq]
      exact mul_self_pos.mpr (sub_ne_zero.mpr fun he => hne (StrictlyMonotone.inj hf h hx he))
    · rfl
  · intro x x' h1 h2
    unfold dist2
    by_cases h : x ∈ Domain xmin xmax lo ro
    · have h' := domain_mid h hx h1.le h2
      rw [if_pos h, if_pos h', Fl.le_fin, decide_eq_true_eq]
      exact mono_sq hf h h' hx (.inl ⟨h1.le, h2⟩)
    · rw [if_neg h]
      split <;> rfl
  · intro x x' h1 h2
    unfold dist2
    by_cases h : x' ∈ Domain xmin xmax lo ro
    · have h' := domain_mid hx h h1 h2.le
      rw [if_pos h, if_pos h', Fl.le_fin, decide_eq_true_eq]
      exact mono_sq hf h h' hx (.inr ⟨h1, h2.le⟩)
    · rw [if_neg h]
      split <;> rfl

theorem feq_fin {a b : K} : feq (.fin a) (.fin b) = decide (a = b) := by
  unfold feq
  rw [Fl.le_fin, Fl.le_fin, ← Bool.decide_and]
  exact decide_eq_decide.mpr le_antisymm_iff.symm

theorem atEnd_eq (hf : StrictlyMonotone f (Domain xmin xmax lo ro)) (hv : ∀ x ∈ Domain xmin xmax lo ro, func x = .ok (.fin (f x)))
    {t : Trend} (ht : t ≠ .unknown) (hx : x₀ ∈ Domain xmin xmax lo ro) (e : Option K) :
    atEnd (bounded func xmin xmax lo ro t) e (.fin (f x₀)) = .ok (decide (e = some x₀)) := by
  unfold atEnd
  cases e with
  | none => rfl
  | some e =>
    by_cases h : e ∈ Domain xmin xmax lo ro
    · dsimp only
      rw [bounded_in h, hv e h]
      dsimp only
      rw [feq_fin]
      congr 1
      refine decide_eq_decide.mpr ⟨fun he => ?_, fun he => ?_⟩
      · rw [StrictlyMonotone.inj hf h hx he]
      · rw [Option.some.inj he]
    · have hne : ¬ (some e = some x₀) := fun he => h (Option.some.inj he ▸ hx)
      rw [decide_eq_false hne]
      rcases bounded_out (func := func) h ht with h' | h' <;> dsimp only <;> rw [h'] <;> rfl

theorem invOne_eq {solver : (K → Py (Fl K)) → K → K → Py (Fl K)} (hs : FindsZero solver)
    (hf : StrictlyMonotone f (Domain xmin xmax lo ro)) (hv : ∀ x ∈ Domain xmin xmax lo ro, func x = .ok (.fin (f x)))
    {t : Trend} (ht : t ≠ .unknown) (hx : x₀ ∈ Domain xmin xmax lo ro) (ho : ordered (xmin, xmax) = true) :
    invOne solver (bounded func xmin xmax lo ro t) xmin xmax (refPoints xmin xmax) (.fin (f x₀)) = .ok (.fin x₀) := by
  unfold invOne
  rw [atEnd_eq hf hv ht hx, atEnd_eq hf hv ht hx]
  by_cases h1 : xmax = some x₀
  · rw [decide_eq_true h1]
    dsimp only
    rw [h1]
    rfl
  · rw [decide_eq_false h1]
    dsimp only
    by_cases h2 : xmin = some x₀
    · rw [decide_eq_true h2]
      dsimp only
      rw [h2]
      rfl
    · rw [decide_eq_false h2]
      dsimp only
      rw [solver_finds hs hf hv ht hx (refs_in (lo := lo) (ro := ro) ho).2.2]

theorem invAll_map {one : Fl K → Py (Fl K)} {f : K → K} {xs : List K} (h : ∀ x ∈ xs, one (.fin (f x)) = .ok (.fin x)) :
    invAll one (xs.map fun x => .fin (f x)) = .ok (xs.map .fin) := by
  induction xs with
  | nil => rfl
  | cons x xs ih =>
    rw [List.map_cons]
    unfold invAll
    rw [h x List.mem_cons_self]
    dsimp only
    rw [ih fun y hy => h y (List.mem_cons_of_mem _ hy)]
    rfl

end Sureal.Inverse
