import Verif.Lemmas.Mock
import Verif.Spec.Mock
/-! # Helper lemmas for the corrupting readers -/
set_option linter.unusedSectionVars false
namespace Sureal.Mock
open Spec

theorem arr3D_ext {α : Type} {E S R : ℕ} {g g' : Arr3 α E S R} (h : ∀ e s r, g e s r = g' e s r) :
    (⟨E, S, R, g⟩ : Arr3D α) = ⟨E, S, R, g'⟩ := by
  congr 1
  funext e s r
  exact h e s r

section fold
variable {α : Type} {E S R : ℕ}

/-- one column replaced -/
def colUpd (F : ℕ → (Fin E → Fin R → α) → Fin E → Fin R → α) (g : Arr3 α E S R) (n s : ℕ) : Arr3 α E S R :=
  fun e t r => if t.val = s then F n (fun e r => g e t r) e r else g e t r

/-- a loop over different columns, each replaced by a function of itself and of the number of draws made before -/
theorem fold_cols (step : ℕ) (F : ℕ → (Fin E → Fin R → α) → Fin E → Fin R → α)
    (f : Arr3D α × ℕ → ℕ → Arr3D α × ℕ)
    (hf : ∀ g n s, f (⟨E, S, R, g⟩, n) s = (⟨E, S, R, colUpd F g n s⟩, n + step)) :
    ∀ (sel : List ℕ), sel.Nodup → ∀ (g : Arr3 α E S R) (n : ℕ),
    ∃ g' : Arr3 α E S R, (sel.foldl f (⟨E, S, R, g⟩, n)).1 = ⟨E, S, R, g'⟩ ∧
      (∀ e (t : Fin S) r, t.val ∉ sel → g' e t r = g e t r) ∧
      ∀ k (t : Fin S), sel[k]? = some t.val → ∀ e r, g' e t r = F (n + k * step) (fun e r => g e t r) e r := by
  intro sel
  induction sel with
  | nil => intro _ g n; exact ⟨g, rfl, fun _ _ _ _ => rfl, by simp⟩
  | cons s l ih =>
    intro hnd g n
    obtain ⟨hs, hl⟩ := List.nodup_cons.mp hnd
    obtain ⟨g', h1, h2, h3⟩ := ih hl (colUpd F g n s) (n + step)
    refine ⟨g', by rw [List.foldl_cons, hf]; exact h1, ?_, ?_⟩
    · intro e t r ht
      rw [List.mem_cons, not_or] at ht
      rw [h2 e t r ht.2]
      exact if_neg ht.1
    · intro k t hk e r
      cases k with
      | zero =>
        have hts : s = t.val := by simpa using hk
        rw [h2 e t r (hts ▸ hs)]
        simp [colUpd, hts]
      | succ k =>
        have hk' : l[k]? = some t.val := by simpa using hk
        have hts : t.val ≠ s := by
          rintro rfl
          exact hs (List.mem_of_getElem? hk')
        rw [h3 k t hk' e r]
        have : (fun e r => colUpd F g n s e t r) = fun e r => g e t r := by
          funext e r
          exact if_neg hts
        rw [this]
        congr 1
        ring

end fold

section order
variable {K : Type} [Field K] [LinearOrder K] [IsStrictOrderedRing K]

theorem foldl_min_spec (l : List K) (x : K) :
    ∃ m, (l.map Fl.fin).foldl (fun a b => if Fl.lt b a then b else a) (Fl.fin x) = Fl.fin m ∧ m ∈ x :: l ∧
      ∀ y ∈ x :: l, m ≤ y := by
  induction l generalizing x with
  | nil => exact ⟨x, rfl, by simp, by simp⟩
  | cons z l ih =>
    simp only [List.map_cons, List.foldl_cons]
    by_cases h : z < x
    · rw [if_pos (by simpa [Fl.lt_fin] using h)]
      obtain ⟨m, h1, h2, h3⟩ := ih z
      refine ⟨m, h1, List.mem_cons_of_mem _ h2, ?_⟩
      intro y hy
      rcases List.mem_cons.mp hy with rfl | hy
      · exact (h3 z (by simp)).trans h.le
      · exact h3 y hy
    · rw [if_neg (by simpa [Fl.lt_fin] using h)]
      obtain ⟨m, h1, h2, h3⟩ := ih x
      refine ⟨m, h1, ?_, ?_⟩
      · rcases List.mem_cons.mp h2 with rfl | h2
        · simp
        · simp [h2]
      · intro y hy
        rcases List.mem_cons.mp hy with rfl | hy
        · exact h3 y (by simp)
        · rcases List.mem_cons.mp hy with rfl | hy
          · exact (h3 x (by simp)).trans (not_lt.mp h)
          · exact h3 y (by simp [hy])

theorem foldl_max_spec (l : List K) (x : K) :
    ∃ m, (l.map Fl.fin).foldl (fun a b => if Fl.lt a b then b else a) (Fl.fin x) = Fl.fin m ∧ m ∈ x :: l ∧
      ∀ y ∈ x :: l, y ≤ m := by
  induction l generalizing x with
  | nil => exact ⟨x, rfl, by simp, by simp⟩
  | cons z l ih =>
    simp only [List.map_cons, List.foldl_cons]
    by_cases h : x < z
    · rw [if_pos (by simpa [Fl.lt_fin] using h)]
      obtain ⟨m, h1, h2, h3⟩ := ih z
      refine ⟨m, h1, List.mem_cons_of_mem _ h2, ?_⟩
      intro y hy
      rcases List.mem_cons.mp hy with rfl | hy
      · exact h.le.trans (h3 z (by simp))
      · exact h3 y hy
    · rw [if_neg (by simpa [Fl.lt_fin] using h)]
      obtain ⟨m, h1, h2, h3⟩ := ih x
      refine ⟨m, h1, ?_, ?_⟩
      · rcases List.mem_cons.mp h2 with rfl | h2
        · simp
        · simp [h2]
      · intro y hy
        rcases List.mem_cons.mp hy with rfl | hy
        · exact h3 y (by simp)
        · rcases List.mem_cons.mp hy with rfl | hy
          · exact (not_lt.mp h).trans (h3 x (by simp))
          · exact h3 y (by simp [hy])

theorem mem_present {l : List (Fl K)} {x : K} : x ∈ Spec.present l ↔ Fl.fin x ∈ l := by
  induction l with
  | nil => simp [Spec.present]
  | cons y l ih =>
    cases y <;> simp_all [Spec.present, Fl.val?, List.filterMap_cons]

theorem nanmin_spec {l : List (Fl K)} (c : Np.Clean l) {x : K} (hx : Fl.fin x ∈ l) :
    ∃ m, Np.nanmin l = .fin m ∧ Fl.fin m ∈ l ∧ ∀ y, Fl.fin y ∈ l → m ≤ y := by
  unfold Np.nanmin
  rw [Np.notNan_eq c]
  have hx' := mem_present.mpr hx
  cases hp : Spec.present l with
  | nil => rw [hp] at hx'; cases hx'
  | cons z t =>
    obtain ⟨m, h1, h2, h3⟩ := foldl_min_spec t z
    refine ⟨m, h1, mem_present.mp (hp ▸ h2), ?_⟩
    intro y hy
    exact h3 y (hp ▸ mem_present.mpr hy)

theorem nanmax_spec {l : List (Fl K)} (c : Np.Clean l) {x : K} (hx : Fl.fin x ∈ l) :
    ∃ m, Np.nanmax l = .fin m ∧ Fl.fin m ∈ l ∧ ∀ y, Fl.fin y ∈ l → y ≤ m := by
  unfold Np.nanmax
  rw [Np.notNan_eq c]
  have hx' := mem_present.mpr hx
  cases hp : Spec.present l with
  | nil => rw [hp] at hx'; cases hx'
  | cons z t =>
    obtain ⟨m, h1, h2, h3⟩ := foldl_max_spec t z
    refine ⟨m, h1, mem_present.mp (hp ▸ h2), ?_⟩
    intro y hy
    exact h3 y (hp ▸ mem_present.mpr hy)

theorem mem_cellsOf {α : Type} {a : Arr3D (Fl α)} {v : Fl α} : v ∈ cellsOf a ↔ ∃ e s r, cell a e s r = some v := by
  unfold cellsOf ravel3
  simp only [List.mem_flatten, List.mem_ofFn]
  constructor
  · rintro ⟨l, ⟨e, rfl⟩, h⟩
    obtain ⟨l', h', hv⟩ := List.mem_flatten.mp h
    obtain ⟨s, rfl⟩ := List.mem_ofFn.mp h'
    obtain ⟨r, rfl⟩ := List.mem_ofFn.mp hv
    exact ⟨e, s, r, cell_fin a e s r⟩
  · rintro ⟨e, s, r, h⟩
    unfold cell at h
    split at h
    · rename_i hh
      refine ⟨_, ⟨⟨e, hh.1⟩, rfl⟩, List.mem_flatten.mpr ⟨_, List.mem_ofFn.mpr ⟨⟨s, hh.2.1⟩, rfl⟩, ?_⟩⟩
      rw [List.mem_ofFn]
      exact ⟨⟨r, hh.2.2⟩, Option.some.inj h⟩
    · cases h

theorem range_unique {a : Arr3D (Fl K)} {lo hi lo' hi' : K} (h : VoteRange a lo hi) (h' : VoteRange a lo' hi') :
    lo = lo' ∧ hi = hi' := by
  obtain ⟨⟨e1, s1, r1, h1⟩, ⟨e2, s2, r2, h2⟩, h3⟩ := h
  obtain ⟨⟨e1', s1', r1', h1'⟩, ⟨e2', s2', r2', h2'⟩, h3'⟩ := h'
  exact ⟨le_antisymm (h3 _ _ _ _ h1').1 (h3' _ _ _ _ h1).1, le_antisymm (h3' _ _ _ _ h2).2 (h3 _ _ _ _ h2').2⟩

theorem clean_cells {a : Arr3D (Fl K)} (hv : VotesOrMissing a) : Np.Clean (cellsOf a) := by
  intro v h
  obtain ⟨e, s, r, hc⟩ := mem_cellsOf.mp h
  exact hv e s r v hc

theorem extremum_spec {a : Arr3D (Fl K)} (hv : VotesOrMissing a) {lo hi : K} (h : VoteRange a lo hi) :
    extremum Np.nanmin a = .ok (.fin lo) ∧ extremum Np.nanmax a = .ok (.fin hi) := by
  have hc := clean_cells hv
  have hlo : Fl.fin lo ∈ cellsOf a := mem_cellsOf.mpr h.1
  obtain ⟨m, m1, m2, m3⟩ := nanmin_spec hc hlo
  obtain ⟨M, M1, M2, M3⟩ := nanmax_spec hc hlo
  have hr : VoteRange a m M := ⟨mem_cellsOf.mp m2, mem_cellsOf.mp M2, fun e s r x hx =>
    ⟨m3 x (mem_cellsOf.mpr ⟨e, s, r, hx⟩), M3 x (mem_cellsOf.mpr ⟨e, s, r, hx⟩)⟩⟩
  obtain ⟨rfl, rfl⟩ := range_unique h hr
  unfold extremum
  cases hl : cellsOf a with
  | nil => rw [hl] at hlo; cases hlo
  | cons z t => exact ⟨by rw [← m1, hl], by rw [← M1, hl]⟩

/-- an array with at least one vote has a smallest and a largest vote -/
theorem exists_range {a : Arr3D (Fl K)} (hv : VotesOrMissing a) {e s r : ℕ} {x : K} (hx : cell a e s r = some (.fin x)) :
    ∃ lo hi, VoteRange a lo hi := by
  have hc := clean_cells hv
  have hm := mem_cellsOf.mpr ⟨e, s, r, hx⟩
  obtain ⟨m, m1, m2, m3⟩ := nanmin_spec hc hm
  obtain ⟨M, M1, M2, M3⟩ := nanmax_spec hc hm
  exact ⟨m, M, mem_cellsOf.mp m2, mem_cellsOf.mp M2, fun e s r x hx =>
    ⟨m3 x (mem_cellsOf.mpr ⟨e, s, r, hx⟩), M3 x (mem_cellsOf.mpr ⟨e, s, r, hx⟩)⟩⟩

end order

/-! ## The permutation of the hit videos -/

theorem permuted_mem {E : ℕ} {vs : List (Fin E)} {σ : Equiv.Perm (Fin vs.length)} {e : Fin E} (h : e ∈ vs) :
    permuted vs σ e = vs.get (σ ⟨vs.idxOf e, List.idxOf_lt_length_of_mem h⟩) := dif_pos _

theorem permuted_not_mem {E : ℕ} {vs : List (Fin E)} {σ : Equiv.Perm (Fin vs.length)} {e : Fin E} (h : e ∉ vs) :
    permuted vs σ e = e := dif_neg (by rw [List.idxOf_lt_length_iff]; exact h)

theorem permuted_injective {E : ℕ} {vs : List (Fin E)} (hnd : vs.Nodup) (σ : Equiv.Perm (Fin vs.length)) :
    Function.Injective (permuted vs σ) := by
  intro e e' h
  by_cases he : e ∈ vs <;> by_cases he' : e' ∈ vs
  · rw [permuted_mem he, permuted_mem he'] at h
    have h1 := List.nodup_iff_injective_get.mp hnd h
    have h2 := congrArg Fin.val (σ.injective h1)
    exact (List.idxOf_inj he).mp h2
  · rw [permuted_mem he, permuted_not_mem he'] at h
    exact absurd (h ▸ List.get_mem _ _) he'
  · rw [permuted_not_mem he, permuted_mem he'] at h
    exact absurd (h ▸ List.get_mem _ _) he
  · rwa [permuted_not_mem he, permuted_not_mem he'] at h

/-- without a probability the rows are permuted by the drawn permutation -/
theorem permuted_all {E : ℕ} (p : (k : ℕ) → Equiv.Perm (Fin k)) (e : Fin E) :
    permuted (List.finRange E) (p (List.finRange E).length) e = p E e := by
  rw [permuted_mem (List.mem_finRange e)]
  have key : ∀ k (h : k = E) (i : Fin k), i.val = e.val → (p k i).val = (p E e).val := by
    rintro k rfl i hi
    rw [Fin.ext hi]
  apply Fin.ext
  have := key _ List.length_finRange ⟨(List.finRange E).idxOf e, List.idxOf_lt_length_of_mem (List.mem_finRange e)⟩
    (by simp [List.idxOf_finRange])
  rw [← this]
  simp

end Sureal.Mock
