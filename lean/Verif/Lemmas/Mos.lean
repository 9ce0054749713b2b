import Verif.Model.Mos
import Verif.Lemmas.Stack
import Mathlib.Tactic.NormNum
/-! Helper lemmas for the MOS properties. -/
set_option linter.unusedSectionVars false
namespace Sureal
open Spec Fl

section field
variable {κ K : Type} [Field K] [LinearOrder K] [IsStrictOrderedRing K]

theorem nanmean_spec {l : List (Fl K)} (c : Np.Clean l) : Np.nanmean l = meanOrNan l := by
  unfold meanOrNan
  cases h : present l with
  | nil => exact Np.nanmean_empty c h
  | cons x xs => rw [Np.nanmean_eq c (by simp [h]), h]

theorem meanOrNan_perm {l l' : List (Fl K)} (h : (present l).Perm (present l')) : meanOrNan l = meanOrNan l' := by
  unfold meanOrNan
  cases h1 : present l with
  | nil =>
    have : present l' = [] := by rw [h1] at h; exact h.nil_eq.symm
    rw [this]
  | cons x xs =>
    cases h2 : present l' with
    | nil => rw [h1, h2] at h; exact absurd h.symm.nil_eq (by simp)
    | cons y ys =>
      rw [h1, h2] at h
      simp only [Spec.mean, h.sum_eq, h.length_eq]

theorem present_dropNan (l : List (Fl K)) : present (dropNan l) = present l := by
  induction l with
  | nil => rfl
  | cons x l ih => cases x <;> simp_all [dropNan, present, Fl.isNan, Fl.val?, List.filterMap_cons]

theorem present_congr_dropNan {l l' : List (Fl K)} (h : (dropNan l).Perm (dropNan l')) :
    (present l).Perm (present l') := by
  rw [← present_dropNan l, ← present_dropNan l']; exact Np.present_perm h

theorem mean_perm {l l' : List K} (h : l.Perm l') : Spec.mean l = Spec.mean l' := by
  simp only [Spec.mean, h.sum_eq, h.length_eq]

theorem sqDev_perm {l l' : List K} (h : l.Perm l') : Spec.sqDev l = Spec.sqDev l' := by
  simp only [Spec.sqDev, mean_perm h]
  exact (h.map _).sum_eq

theorem meanAlongS_spec {E S R : Nat} (a : Arr3 (Fl K) E S R) (e : Fin E)
    (c : ∀ s r, NumOrNan (a e s r)) : meanAlongS a e = meanOrNan (videoCells a e) := by
  have hc : Np.Clean (videoCells a e) := by
    intro x hx; obtain ⟨s, r, rfl⟩ := (mem_videoCells a e x).mp hx; exact c s r
  unfold meanAlongS
  rw [nanmean_spec (hc.perm (rowL_stack1_perm a e).symm)]
  exact meanOrNan_perm (Np.present_perm (rowL_stack1_perm a e))

theorem meanAlongE_spec {E S R : Nat} (a : Arr3 (Fl K) E S R) (s : Fin S)
    (c : ∀ e r, NumOrNan (a e s r)) : meanAlongE a s = meanOrNan (observerCells a s) := by
  have hc : Np.Clean (observerCells a s) := by
    intro x hx; obtain ⟨e, r, rfl⟩ := (mem_observerCells a s x).mp hx; exact c e r
  unfold meanAlongE
  rw [nanmean_spec (hc.perm (colL_stack0_perm a s).symm)]
  exact meanOrNan_perm (Np.present_perm (colL_stack0_perm a s))

theorem clean_row {E S R : Nat} {a : Arr3 (Fl K) E S R} {e : Fin E}
    (c : ∀ s r, NumOrNan (a e s r)) : Np.Clean (rowL (stack1 a) e) := by
  intro x hx
  obtain ⟨s, r, rfl⟩ := (mem_videoCells a e x).mp ((rowL_stack1_perm a e).mem_iff.mp hx)
  exact c s r

theorem clean_col {E S R : Nat} {a : Arr3 (Fl K) E S R} {s : Fin S}
    (c : ∀ e r, NumOrNan (a e s r)) : Np.Clean (colL (stack0 a) s) := by
  intro x hx
  obtain ⟨e, r, rfl⟩ := (mem_observerCells a s x).mp ((colL_stack0_perm a s).mem_iff.mp hx)
  exact c e r

theorem countNotNan_row {E S R : Nat} (a : Arr3 (Fl K) E S R) (e : Fin E)
    (c : ∀ s r, NumOrNan (a e s r)) :
    Np.countNotNan (rowL (stack1 a) e) = (present (videoCells a e)).length := by
  rw [Np.countNotNan_eq (clean_row c)]
  exact (Np.present_perm (rowL_stack1_perm a e)).length_eq

theorem mean_bounds {l : List K} (h : l ≠ []) {lo hi : K} (hb : ∀ x ∈ l, lo ≤ x ∧ x ≤ hi) :
    lo ≤ Spec.mean l ∧ Spec.mean l ≤ hi := by
  have hpos : (0 : K) < l.length := by
    have : 0 < l.length := List.length_pos_iff.mpr h
    exact_mod_cast this
  have key : ∀ l : List K, (∀ x ∈ l, lo ≤ x ∧ x ≤ hi) → lo * l.length ≤ l.sum ∧ l.sum ≤ hi * l.length := by
    intro l
    induction l with
    | nil => simp
    | cons x l ih =>
      intro hb
      obtain ⟨h1, h2⟩ := ih (fun y hy => hb y (by simp [hy]))
      obtain ⟨h3, h4⟩ := hb x (by simp)
      simp only [List.sum_cons, List.length_cons, Nat.cast_add, Nat.cast_one]
      constructor <;> linarith
  obtain ⟨h1, h2⟩ := key l hb
  unfold Spec.mean
  constructor
  · rw [le_div_iff₀ hpos]; exact h1
  · rw [div_le_iff₀ hpos]; exact h2

theorem present_map_affine (a b : K) (l : List (Fl K)) :
    present (l.map (affine a b)) = (present l).map fun x => a * x + b := by
  induction l with
  | nil => rfl
  | cons x l ih => cases x <;> simp_all [present, affine, Fl.val?, List.filterMap_cons]

theorem mean_affine (a b : K) {l : List K} (h : l ≠ []) :
    Spec.mean (l.map fun x => a * x + b) = a * Spec.mean l + b := by
  have hne := Np.length_ne_zero h
  unfold Spec.mean
  rw [List.length_map]
  have : (l.map fun x => a * x + b).sum = a * l.sum + b * l.length := by
    clear hne h
    induction l with
    | nil => simp
    | cons x l ih => simp [ih]; ring
  rw [this]
  field_simp

theorem sqDev_affine (a b : K) (l : List K) :
    Spec.sqDev (l.map fun x => a * x + b) = a ^ 2 * Spec.sqDev l := by
  by_cases h : l = []
  · subst h; simp [Spec.sqDev]
  · unfold Spec.sqDev
    rw [mean_affine a b h, List.map_map]
    generalize Spec.mean l = m
    clear h
    induction l with
    | nil => simp
    | cons x l ih => simp [ih]; ring

theorem meanOrNan_affine (a b : K) (l : List (Fl K)) :
    meanOrNan (l.map (affine a b)) = affine a b (meanOrNan l) := by
  unfold meanOrNan
  rw [present_map_affine]
  cases h : present l with
  | nil => rfl
  | cons x xs =>
    simp only [List.map_cons]
    rw [← List.map_cons (f := fun x => a * x + b), mean_affine a b (by simp)]; rfl

theorem affine_clean {a b : K} {x : Fl K} (h : NumOrNan x) : NumOrNan (affine a b x) := by
  rcases h with rfl | ⟨v, rfl⟩
  · exact Or.inl rfl
  · exact Or.inr ⟨_, rfl⟩

/-- default options: nothing is done to the array -/
theorem preprocess_default [MathFn K] {rd : Reader κ K} {a : Arr3D (Fl K)} (h : rd.scores = .ok a) :
    preprocess rd {} = .ok { arr := a, orig := a } := by
  unfold preprocess
  rw [h]
  rfl

theorem runMOS_default [MathFn K] {rd : Reader κ K} {a : Arr3D (Fl K)} {res : Result κ K} (h : rd.scores = .ok a)
    (hr : runMOS rd {} = .ok res) :
    res = { (mosAndStats (fun E _ _ => E * 2) a a : Result κ K) with observers := res.observers } := by
  unfold runMOS runModeling mosRunModeling at hr
  rw [preprocess_default h] at hr
  dsimp only [Result.withRejection] at hr
  have hp : ∀ q : List (Fl K), postprocessScores ({} : Opts K) q = q := fun q => rfl
  split at hr
  · cases hr; rfl
  · cases hr; rfl
  · cases hr; rfl
  · cases hr

end field

section real

theorem nanstd1_spec {l : List (Fl ℝ)} (c : Np.Clean l) : Np.nanstd 1 l = sampleStdOrNan l := by
  unfold sampleStdOrNan
  match h : present l with
  | [] => rw [Np.nanstd, Np.nanvar_small c (by simp [h])]; rfl
  | [x] => rw [Np.nanstd, Np.nanvar_small c (by simp [h])]; rfl
  | x :: y :: xs =>
    rw [Np.nanstd, Np.nanvar_eq c (by simp [h]), h]
    rw [Fl.sqrt_fin (div_nonneg (Np.sqDev_nonneg _) (Nat.cast_nonneg _))]
    simp only [fin_inj]
    show Real.sqrt _ = _
    congr 1
    unfold sampleVar
    congr 1
    simp

theorem sampleStdOrNan_perm {l l' : List (Fl ℝ)} (h : (present l).Perm (present l')) :
    sampleStdOrNan l = sampleStdOrNan l' := by
  unfold sampleStdOrNan
  have hlen := h.length_eq
  match h1 : present l, h2 : present l' with
  | [], [] => rfl
  | [], _ :: _ => simp [h1, h2] at hlen
  | [_], [] => simp [h1, h2] at hlen
  | [_], [_] => rfl
  | [_], _ :: _ :: _ => simp [h1, h2] at hlen
  | _ :: _ :: _, [] => simp [h1, h2] at hlen
  | _ :: _ :: _, [_] => simp [h1, h2] at hlen
  | x :: y :: xs, x' :: y' :: xs' =>
    rw [h1, h2] at h
    simp only [sampleVar, sqDev_perm h, h.length_eq]

theorem sampleStdOrNan_affine (a b : ℝ) (l : List (Fl ℝ)) :
    sampleStdOrNan (l.map (affine a b)) = .fin |a| * sampleStdOrNan l := by
  unfold sampleStdOrNan
  rw [present_map_affine]
  match h : present l with
  | [] => simp
  | [x] => simp
  | x :: y :: xs =>
    simp only [List.map_cons]
    rw [← List.map_cons (f := fun x => a * x + b), ← List.map_cons (f := fun x => a * x + b)]
    simp only [sampleVar, sqDev_affine, fin_mul, fin_inj, List.length_map]
    rw [mul_div_assoc, Real.sqrt_mul (by positivity), Real.sqrt_sq_eq_abs]

theorem nanstd1_row {E S R : Nat} (a : Arr3 (Fl ℝ) E S R) (e : Fin E)
    (c : ∀ s r, NumOrNan (a e s r)) :
    Np.nanstd 1 (rowL (stack1 a) e) = sampleStdOrNan (videoCells a e) := by
  rw [nanstd1_spec (clean_row c)]
  exact sampleStdOrNan_perm (Np.present_perm (rowL_stack1_perm a e))

end real
end Sureal
