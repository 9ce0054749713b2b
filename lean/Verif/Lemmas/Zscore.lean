import Verif.Lemmas.Preproc
import Mathlib.Algebra.BigOperators.Fin
import Mathlib.Algebra.BigOperators.Group.Finset.Sigma
import Mathlib.Algebra.BigOperators.Field
/-! Helper lemmas for z-scoring and bias removal. -/
set_option linter.unusedSectionVars false
namespace Sureal
open Spec Fl

section runs
variable {κ K : Type} [Field K] [LinearOrder K] [IsStrictOrderedRing K] [MathFn K]

theorem runModeling_mos {rd : Reader κ K} {o : Opts K} {p : Prep K} {res : Result κ K}
    (hp : preprocess rd o = .ok p) (hr : runModeling mosRunModeling rd o = .ok res) :
    res = { ((mosAndStats (fun E _ _ => E * 2) p.arr p.orig : Result κ K).withRejection p.rejection) with
      observers := res.observers
      qualityScores := postprocessScores o (List.ofFn (meanAlongS p.arr.get)) } := by
  unfold runModeling mosRunModeling at hr
  rw [hp] at hr
  dsimp only at hr
  have hq : ((mosAndStats (fun E _ _ => E * 2) p.arr p.orig : Result κ K).withRejection p.rejection).qualityScores
      = List.ofFn (meanAlongS p.arr.get) := by
    unfold Result.withRejection; split <;> rfl
  rw [hq] at hr
  have ho : ((mosAndStats (fun E _ _ => E * 2) p.arr p.orig : Result κ K).withRejection p.rejection).observers
      = none := by
    unfold Result.withRejection; split <;> rfl
  split at hr
  · cases hr; rfl
  · cases hr; simp [ho]
  · cases hr; simp [ho]
  · cases hr

theorem runModeling_bias {rd : Reader κ K} {o : Opts K} {p : Prep K} {b : List (Fl K)} {res : Result κ K}
    (hp : preprocess rd o = .ok p) (hb : p.bias = some b) (hr : runModeling biasremvRunModeling rd o = .ok res) :
    res = { ((mosAndStats (fun E S R => E * 2 + S * R) p.arr p.orig : Result κ K).withRejection p.rejection) with
      observerBias := some b
      observers := res.observers
      qualityScores := postprocessScores o (List.ofFn (meanAlongS p.arr.get)) } := by
  unfold runModeling biasremvRunModeling at hr
  rw [hp] at hr
  dsimp only at hr
  rw [hb] at hr
  dsimp only at hr
  unfold Result.withRejection at hr ⊢
  cases hrej : p.rejection <;> rw [hrej] at hr <;> dsimp only at hr ⊢ <;> split at hr
  all_goals first | (cases hr; rfl) | cases hr

end runs

section complete
variable {K : Type} [Field K] [LinearOrder K] [IsStrictOrderedRing K] {E S R : Nat}

theorem sum_flatten_ofFn {n m : Nat} (f : Fin n → Fin m → K) :
    ((List.ofFn fun i => List.ofFn fun j => f i j).flatten).sum = ∑ i, ∑ j, f i j := by
  rw [List.sum_flatten, List.map_ofFn, List.sum_ofFn]
  apply Finset.sum_congr rfl
  intro i _
  simp [List.sum_ofFn]

theorem length_flatten_ofFn {α : Type} {n m : Nat} (f : Fin n → Fin m → α) :
    ((List.ofFn fun i => List.ofFn fun j => f i j).flatten).length = n * m := by
  rw [List.length_flatten, List.map_ofFn, List.sum_ofFn]
  simp

theorem present_map_fin (l : List K) : present (l.map Fl.fin) = l := by
  unfold present
  rw [List.filterMap_map]
  exact List.filterMap_some

theorem meanOrNan_map_fin {l : List K} (h : l ≠ []) : meanOrNan (l.map Fl.fin) = .fin (Spec.mean l) := by
  unfold meanOrNan
  rw [present_map_fin]
  cases l with
  | nil => exact absurd rfl h
  | cons x xs => rfl

theorem meanAlongS_fin (x : Arr3 K E S R) (e : Fin E) (h : S * R ≠ 0) :
    meanAlongS (fun e s r => Fl.fin (x e s r)) e = .fin ((∑ s, ∑ r, x e s r) / ((S : K) * R)) := by
  rw [meanAlongS_spec _ _ (fun s r => Or.inr ⟨_, rfl⟩), videoCells_map Fl.fin x e, meanOrNan_map_fin]
  · unfold Spec.mean videoCells
    rw [sum_flatten_ofFn, length_flatten_ofFn, Nat.cast_mul]
  · intro h0
    have := congrArg List.length h0
    unfold videoCells at this
    rw [length_flatten_ofFn] at this
    exact h this

theorem meanAlongE_fin (x : Arr3 K E S R) (s : Fin S) (h : E * R ≠ 0) :
    meanAlongE (fun e s r => Fl.fin (x e s r)) s = .fin ((∑ e, ∑ r, x e s r) / ((E : K) * R)) := by
  rw [meanAlongE_spec _ _ (fun s r => Or.inr ⟨_, rfl⟩), observerCells_map Fl.fin x s, meanOrNan_map_fin]
  · unfold Spec.mean observerCells
    rw [sum_flatten_ofFn, length_flatten_ofFn, Nat.cast_mul]
  · intro h0
    have := congrArg List.length h0
    unfold observerCells at this
    rw [length_flatten_ofFn] at this
    exact h this

/-- bias of observer `s` on complete data -/
def biasOf (x : Arr3 K E S R) (s : Fin S) : K :=
  (∑ e, ∑ r, x e s r) / ((E : K) * R) - (∑ e, ∑ s, ∑ r, x e s r) / ((E : K) * S * R)

theorem biasEstimate_fin (x : Arr3 K E S R) (hE : E ≠ 0) (hS : S ≠ 0) (hR : R ≠ 0) (s : Fin S) :
    biasEstimate (fun e s r => Fl.fin (x e s r)) s = .fin (biasOf x s) := by
  have hE' : (E : K) ≠ 0 := by exact_mod_cast hE
  have hS' : (S : K) ≠ 0 := by exact_mod_cast hS
  have hR' : (R : K) ≠ 0 := by exact_mod_cast hR
  unfold biasEstimate
  simp only [meanAlongS_fin x _ (Nat.mul_ne_zero hS hR), fin_sub]
  rw [meanAlongE_fin (fun e s r => x e s r - (∑ s, ∑ r, x e s r) / ((S : K) * R)) s (Nat.mul_ne_zero hE hR)]
  congr 1
  unfold biasOf
  simp only [Finset.sum_sub_distrib, Finset.sum_const, Finset.card_univ, Fintype.card_fin, nsmul_eq_mul]
  rw [← Finset.mul_sum, ← Finset.sum_div]
  field_simp

theorem biasArr_fin (x : Arr3 K E S R) (hE : E ≠ 0) (hS : S ≠ 0) (hR : R ≠ 0) :
    biasArr (fun e s r => Fl.fin (x e s r)) = fun e s r => Fl.fin (x e s r - biasOf x s) := by
  unfold biasArr
  funext e s r
  simp only [biasEstimate_fin x hE hS hR, fin_sub]

theorem sum_biasOf (x : Arr3 K E S R) (hE : E ≠ 0) (hS : S ≠ 0) (hR : R ≠ 0) : ∑ s, biasOf x s = 0 := by
  have hE' : (E : K) ≠ 0 := by exact_mod_cast hE
  have hS' : (S : K) ≠ 0 := by exact_mod_cast hS
  have hR' : (R : K) ≠ 0 := by exact_mod_cast hR
  unfold biasOf
  rw [Finset.sum_sub_distrib, ← Finset.sum_div]
  simp only [Finset.sum_const, Finset.card_univ, Fintype.card_fin, nsmul_eq_mul]
  rw [Finset.sum_comm]
  field_simp
  ring

end complete

section zscore
variable {E S R : Nat}

theorem sqDev_eq_zero_iff {l : List ℝ} : Spec.sqDev l = 0 ↔ ∀ x ∈ l, x = Spec.mean l := by
  unfold Spec.sqDev
  generalize Spec.mean l = m
  induction l with
  | nil => simp
  | cons x l ih =>
    have h1 : 0 ≤ (l.map fun x => (x - m) ^ 2).sum := by
      apply List.sum_nonneg
      intro y hy
      obtain ⟨z, _, rfl⟩ := List.mem_map.mp hy
      positivity
    simp only [List.map_cons, List.sum_cons, List.forall_mem_cons]
    rw [← ih]
    constructor
    · intro h
      have h2 : (x - m) ^ 2 = 0 := le_antisymm (by linarith) (by positivity)
      have h3 : (l.map fun x => (x - m) ^ 2).sum = 0 := by linarith
      exact ⟨by have := pow_eq_zero_iff (two_ne_zero) |>.mp h2; linarith, h3⟩
    · rintro ⟨rfl, h⟩
      rw [h]; ring

theorem mean_const {l : List ℝ} (h : l ≠ []) {c : ℝ} (hc : ∀ x ∈ l, x = c) : Spec.mean l = c := by
  have := mean_bounds h (lo := c) (hi := c) (fun x hx => by simp [hc x hx])
  exact le_antisymm this.2 this.1

theorem nanstd1_col (a : Arr3 (Fl ℝ) E S R) (s : Fin S) (c : ∀ e r, NumOrNan (a e s r)) :
    Np.nanstd 1 (colL (stack0 a) s) = sampleStdOrNan (observerCells a s) := by
  rw [nanstd1_spec (clean_col c)]
  exact sampleStdOrNan_perm (Np.present_perm (colL_stack0_perm a s))

/-- one cell of the z-scored array -/
theorem zscore_cell (a : Arr3 (Fl ℝ) E S R) (hc : ∀ e s r, NumOrNan (a e s r)) (e : Fin E) (s : Fin S) (r : Fin R) :
    zscoreArr a e s r = (a e s r - meanOrNan (observerCells a s)) / sampleStdOrNan (observerCells a s) := by
  unfold zscoreArr
  simp only
  rw [meanAlongE_spec _ _ (fun e r => hc e s r), nanstd1_col _ _ (fun e r => hc e s r)]

theorem sampleStd_pos {l : List ℝ} (h : ∃ x ∈ l, ∃ y ∈ l, x ≠ y) : 0 < sampleVar l ∧ 2 ≤ l.length := by
  obtain ⟨x, hx, y, hy, hxy⟩ := h
  have hlen : 2 ≤ l.length := by
    match l, hx, hy with
    | [z], hx, hy => simp at hx hy; exact absurd (hx.trans hy.symm) hxy
    | a :: b :: t, _, _ => simp
  refine ⟨?_, hlen⟩
  have hpos : 0 < Spec.sqDev l := by
    rcases (Np.sqDev_nonneg l).lt_or_eq with h | h
    · exact h
    · exfalso
      have := sqDev_eq_zero_iff.mp h.symm
      exact hxy ((this x hx).trans (this y hy).symm)
  unfold sampleVar
  apply div_pos hpos
  have : (2 : ℝ) ≤ l.length := by exact_mod_cast hlen
  linarith

theorem sampleStdOrNan_eq {L : List (Fl ℝ)} (h : 2 ≤ (present L).length) :
    sampleStdOrNan L = .fin (Real.sqrt (sampleVar (present L))) := by
  unfold sampleStdOrNan
  match hp : present L with
  | [] => simp [hp] at h
  | [x] => simp [hp] at h
  | x :: y :: xs => rfl

theorem meanOrNan_eq {K : Type} [Field K] {L : List (Fl K)} (h : present L ≠ []) : meanOrNan L = .fin (Spec.mean (present L)) := by
  unfold meanOrNan
  match hp : present L with
  | [] => exact absurd hp h
  | x :: xs => rfl

theorem present_observerCells {K : Type} (a : Arr3 (Fl K) E S R) (s : Fin S) (v : K) :
    v ∈ present (observerCells a s) ↔ ∃ e r, a e s r = .fin v := by
  unfold present
  rw [List.mem_filterMap]
  constructor
  · rintro ⟨x, hx, hv⟩
    obtain ⟨e, r, rfl⟩ := (mem_observerCells _ _ _).mp hx
    refine ⟨e, r, ?_⟩
    cases h : a e s r <;> simp_all [Fl.val?]
  · rintro ⟨e, r, h⟩
    exact ⟨_, (mem_observerCells _ _ _).mpr ⟨e, r, rfl⟩, by rw [h]; rfl⟩

/-- votes not all equal: z-scoring is an increasing affine map -/
theorem zscore_affine (a : Arr3 (Fl ℝ) E S R) (hc : ∀ e s r, NumOrNan (a e s r)) (s : Fin S)
    (h : ∃ x ∈ present (observerCells a s), ∃ y ∈ present (observerCells a s), x ≠ y) (e : Fin E) (r : Fin R) :
    zscoreArr a e s r = affine (1 / Real.sqrt (sampleVar (present (observerCells a s))))
      (-(Spec.mean (present (observerCells a s))) / Real.sqrt (sampleVar (present (observerCells a s)))) (a e s r) := by
  obtain ⟨hv, hl⟩ := sampleStd_pos h
  have hne : present (observerCells a s) ≠ [] := by intro h0; rw [h0] at hl; simp at hl
  have hs : Real.sqrt (sampleVar (present (observerCells a s))) ≠ 0 := Real.sqrt_ne_zero'.mpr hv
  rw [zscore_cell a hc, sampleStdOrNan_eq hl, meanOrNan_eq hne]
  rcases hc e s r with h | ⟨v, h⟩ <;> rw [h]
  · simp [affine]
  · rw [fin_sub, fin_div hs]
    simp only [affine, fin_inj]
    ring

/-- votes all equal (or fewer than two): z-scoring leaves nothing -/
theorem zscore_const (a : Arr3 (Fl ℝ) E S R) (hc : ∀ e s r, NumOrNan (a e s r)) (s : Fin S)
    (h : ∀ x ∈ present (observerCells a s), ∀ y ∈ present (observerCells a s), x = y) (e : Fin E) (r : Fin R) :
    zscoreArr a e s r = .nan := by
  rw [zscore_cell a hc]
  by_cases hl : 2 ≤ (present (observerCells a s)).length
  · have hne : present (observerCells a s) ≠ [] := by intro h0; rw [h0] at hl; simp at hl
    rw [sampleStdOrNan_eq hl, meanOrNan_eq hne]
    rcases hc e s r with h1 | ⟨v, h1⟩ <;> rw [h1]
    · simp
    · have hv : v ∈ present (observerCells a s) := (present_observerCells a s v).mpr ⟨e, r, h1⟩
      have hm : Spec.mean (present (observerCells a s)) = v := mean_const hne (fun x hx => h x hx v hv)
      have hz : Spec.sqDev (present (observerCells a s)) = 0 :=
        sqDev_eq_zero_iff.mpr (fun x hx => by rw [hm]; exact h x hx v hv)
      rw [hm, sampleVar, hz]
      simp [zero_div_zero]
  · have : sampleStdOrNan (observerCells a s) = .nan := by
      unfold sampleStdOrNan
      match hp : present (observerCells a s) with
      | [] => rfl
      | [x] => rfl
      | x :: y :: xs => simp [hp] at hl
    rw [this]; simp

end zscore
end Sureal
