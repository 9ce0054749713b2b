import Verif.Spec.Pareto
import Verif.Lemmas.ApLik
import Verif.Lemmas.Main
/-! Lemmas: comparing two videos observer by observer, through the steps of preprocessing and the passes of the solver. -/
set_option linter.unusedSectionVars false
namespace Sureal
open Spec Ap Props Main
namespace Pareto

/-- what the proofs use of a comparison -/
structure Compat (Q : ℝ → ℝ → Prop) : Prop where
  add : ∀ {u v u' v'}, Q u v → Q u' v' → Q (u + u') (v + v')
  shift : ∀ {u v}, Q u v → ∀ c, Q (u + c) (v + c)
  scale : ∀ {u v}, Q u v → ∀ {c : ℝ}, 0 < c → Q (c * u) (c * v)

theorem compat {Q : ℝ → ℝ → Prop} (h : IsComparison Q) : Compat Q := by
  rcases h with rfl | rfl | rfl
  · exact ⟨fun h h' => add_le_add h h', fun h c => add_le_add_left h c, fun h c hc => mul_le_mul_of_nonneg_left h hc.le⟩
  · exact ⟨fun h h' => add_lt_add h h', fun h c => add_lt_add_left h c, fun h c hc => mul_lt_mul_of_pos_left h hc⟩
  · exact ⟨fun h h' => congrArg₂ (· + ·) h h', fun h c => congrArg (· + c) h, fun h c _ => congrArg (c * ·) h⟩

variable {Q : ℝ → ℝ → Prop}

theorem Compat.sum (hQ : Compat Q) {ι : Type} [DecidableEq ι] {A : Finset ι} (hA : A.Nonempty) {f g : ι → ℝ}
    (h : ∀ c ∈ A, Q (f c) (g c)) : Q (∑ c ∈ A, f c) (∑ c ∈ A, g c) := by
  induction hA using Finset.Nonempty.cons_induction with
  | singleton a => simpa using h a (by simp)
  | cons a s ha hs ih =>
    rw [Finset.sum_cons, Finset.sum_cons]
    exact hQ.add (h a (by simp)) (ih fun c hc => h c (by simp [hc]))

theorem Compat.wavg (hQ : Compat Q) {ι : Type} [DecidableEq ι] {A : Finset ι} (hA : A.Nonempty) {w f g : ι → ℝ}
    (hw : ∀ c ∈ A, 0 < w c) (h : ∀ c ∈ A, Q (f c) (g c)) : Q (wavg A w f) (wavg A w g) := by
  unfold Spec.wavg
  have h1 := hQ.sum hA (f := fun c => f c * w c) (g := fun c => g c * w c) fun c hc => by
    have := hQ.scale (h c hc) (hw c hc)
    rwa [mul_comm (w c), mul_comm (w c)] at this
  have h2 := hQ.scale h1 (inv_pos.mpr (Finset.sum_pos hw hA))
  rwa [inv_mul_eq_div, inv_mul_eq_div] at h2

theorem Compat.avg (hQ : Compat Q) {ι : Type} [DecidableEq ι] {A : Finset ι} (hA : A.Nonempty) {f g : ι → ℝ}
    (h : ∀ c ∈ A, Q (f c) (g c)) : Q (avg A f) (avg A g) := by
  unfold Spec.avg
  have h2 := hQ.scale (hQ.sum hA h) (c := ((A.card : ℝ))⁻¹) (inv_pos.mpr (by exact_mod_cast hA.card_pos))
  rwa [inv_mul_eq_div, inv_mul_eq_div] at h2

theorem rated_shift (hQ : Compat Q) {x y : Fl ℝ} (h : Rated Q x y) {d : Fl ℝ} (hd : NumOrNan d) :
    Rated Q (x - d) (y - d) := by
  rcases h with ⟨rfl, rfl⟩ | ⟨u, v, rfl, rfl, h⟩
  · exact Or.inl ⟨rfl, rfl⟩
  · rcases hd with rfl | ⟨c, rfl⟩
    · exact Or.inl ⟨rfl, rfl⟩
    · refine Or.inr ⟨u - c, v - c, rfl, rfl, ?_⟩
      have := hQ.shift h (-c)
      rwa [← sub_eq_add_neg, ← sub_eq_add_neg] at this

theorem rated_add (hQ : Compat Q) {x y : Fl ℝ} (h : Rated Q x y) {d : Fl ℝ} (hd : NumOrNan d) :
    Rated Q (x + d) (y + d) := by
  rcases h with ⟨rfl, rfl⟩ | ⟨u, v, rfl, rfl, h⟩
  · exact Or.inl ⟨rfl, rfl⟩
  · rcases hd with rfl | ⟨c, rfl⟩
    · exact Or.inl ⟨rfl, rfl⟩
    · exact Or.inr ⟨u + c, v + c, rfl, rfl, hQ.shift h c⟩

theorem rated_affine (hQ : Compat Q) {x y : Fl ℝ} (h : Rated Q x y) {k : ℝ} (hk : 0 < k) (c : ℝ) :
    Rated Q (affine k c x) (affine k c y) := by
  rcases h with ⟨rfl, rfl⟩ | ⟨u, v, rfl, rfl, h⟩
  · exact Or.inl ⟨rfl, rfl⟩
  · exact Or.inr ⟨k * u + c, v * k + c, rfl, by rw [mul_comm]; rfl, by
      rw [mul_comm v]; exact hQ.shift (hQ.scale h hk) c⟩

section masked
variable {J I R : ℕ} {P : Fin J → Fin I → Fin R → Bool} {X : Fin J → Fin I → Fin R → ℝ} {e f : Fin J}

/-- votes that compare, as masks -/
theorem mask_rated (h : ∀ s r, Rated Q (maskX P X e s r) (maskX P X f s r)) :
    votesOnVideo P e = votesOnVideo P f ∧ ∀ c ∈ votesOnVideo P e, Q (X e c.1 c.2) (X f c.1 c.2) := by
  have key : ∀ s r, (P e s r = true ↔ P f s r = true) ∧ (P e s r = true → Q (X e s r) (X f s r)) := by
    intro s r
    have := h s r
    unfold maskX at this
    cases h1 : P e s r <;> cases h2 : P f s r <;> rw [h1, h2] at this
    · simp
    · rcases this with ⟨-, h⟩ | ⟨u, v, h, -⟩ <;> cases h
    · rcases this with ⟨h, -⟩ | ⟨u, v, -, h, -⟩ <;> cases h
    · rcases this with ⟨h, -⟩ | ⟨u, v, h, h', hq⟩
      · cases h
      · cases h
        cases h'
        exact ⟨Iff.rfl, fun _ => hq⟩
  refine ⟨?_, ?_⟩
  · ext c
    simp only [votesOnVideo, Finset.mem_filter, Finset.mem_univ, true_and]
    exact (key c.1 c.2).1
  · intro c hc
    simp only [votesOnVideo, Finset.mem_filter, Finset.mem_univ, true_and] at hc
    exact (key c.1 c.2).2 hc

theorem maskS_rated (hv : votesOnVideo P e = votesOnVideo P f) {S : Fin J → ℝ}
    (h : (votesOnVideo P e).Nonempty → Q (S e) (S f)) : Rated Q (maskS P S e) (maskS P S f) := by
  classical
  unfold maskS
  rw [← hv]
  by_cases hn : (votesOnVideo P e).Nonempty
  · rw [decide_eq_true hn]
    exact Or.inr ⟨_, _, rfl, rfl, h hn⟩
  · rw [decide_eq_false hn]
    exact Or.inl ⟨rfl, rfl⟩

/-- one pass of the solver keeps the comparison, whatever the biases and spreads -/
theorem quality_rated (hQ : Compat Q) (hv : votesOnVideo P e = votesOnVideo P f)
    (hx : ∀ c ∈ votesOnVideo P e, Q (X e c.1 c.2) (X f c.1 c.2)) (hn : (votesOnVideo P e).Nonempty) (B V : Fin I → ℝ) :
    Q (apQuality P X B V e) (apQuality P X B V f) := by
  classical
  unfold apQuality
  rw [← hv]
  refine hQ.wavg hn (fun c _ => apWeight_pos _) fun c hc => ?_
  have := hQ.shift (hx c hc) (-B c.1)
  rwa [← sub_eq_add_neg, ← sub_eq_add_neg] at this

end masked

section arrays
variable {E S R : ℕ} {x : Arr3 (Fl ℝ) E S R} {e f : Fin E}

theorem mean_rated (hQ : Compat Q) (hc : ∀ e s r, NumOrNan (x e s r)) (h : ∀ s r, Rated Q (x e s r) (x f s r)) :
    Rated Q (meanAlongS x e) (meanAlongS x f) := by
  classical
  have hx := exists_mask x hc
  generalize hP : (fun j i r => !(x j i r).isNan) = P at *
  have hP' : ∀ j i r, (!(x j i r).isNan) = P j i r := fun j i r => congrFun (congrFun (congrFun hP j) i) r
  have hX : x = maskX P fun j i r => (x j i r).val?.getD 0 := by
    conv_lhs => rw [hx]
    funext j i r
    rw [hP']; rfl
  generalize (fun j i r => (x j i r).val?.getD 0) = X at hX
  rw [hX] at h ⊢
  obtain ⟨hv, hq⟩ := mask_rated h
  rw [init_spec]
  refine maskS_rated hv fun hn => ?_
  rw [← hv]
  exact hQ.avg hn hq

theorem zscore_rated (hQ : Compat Q) (hc : ∀ e s r, NumOrNan (x e s r)) (h : ∀ s r, Rated Q (x e s r) (x f s r)) (s : Fin S) (r : Fin R) :
    Rated Q (zscoreArr x e s r) (zscoreArr x f s r) := by
  by_cases hd : ∃ u ∈ present (observerCells x s), ∃ v ∈ present (observerCells x s), u ≠ v
  · rw [zscore_affine x hc s hd, zscore_affine x hc s hd]
    exact rated_affine hQ (h s r) (one_div_pos.mpr (Real.sqrt_pos.mpr (sampleStd_pos hd).1)) _
  · push Not at hd
    rw [zscore_const x hc s hd, zscore_const x hc s hd]
    exact Or.inl ⟨rfl, rfl⟩

theorem zscore_clean (hc : ∀ e s r, NumOrNan (x e s r)) (e : Fin E) (s : Fin S) (r : Fin R) : NumOrNan (zscoreArr x e s r) := by
  by_cases hd : ∃ u ∈ present (observerCells x s), ∃ v ∈ present (observerCells x s), u ≠ v
  · rw [zscore_affine x hc s hd]
    exact affine_clean (hc e s r)
  · push Not at hd
    rw [zscore_const x hc s hd]
    exact Or.inl rfl

theorem biasEstimate_clean (hc : ∀ e s r, NumOrNan (x e s r)) (s : Fin S) : NumOrNan (biasEstimate x s) := by
  have hsub : ∀ e r, NumOrNan (x e s r - meanAlongS x e) := by
    intro e r
    rw [meanAlongS_spec x e (hc e)]
    rcases hc e s r with h | ⟨v, h⟩ <;> rcases meanOrNan_clean (videoCells x e) with h' | ⟨w, h'⟩ <;> rw [h, h']
    · exact Or.inl rfl
    · exact Or.inl rfl
    · exact Or.inl rfl
    · exact Or.inr ⟨_, rfl⟩
  rw [show biasEstimate x s = meanOrNan (observerCells (fun e s r => x e s r - meanAlongS x e) s) from meanAlongE_spec _ s hsub]
  exact meanOrNan_clean _

end arrays

/-! ### preprocessing -/

theorem rated_all_cols {E S R : ℕ} {x : Arr3 (Fl ℝ) E S R} (cols : List (Fin S)) {i j : ℕ} (h : RatedAll Q ⟨E, S, R, x⟩ i j) :
    RatedAll Q ⟨E, cols.length, R, selectCols x cols⟩ i j := fun e f he hf s r => h e f he hf (cols.get s) r

/-- what a step of preprocessing keeps -/
def Keeps (Q : ℝ → ℝ → Prop) (a b : Arr3D (Fl ℝ)) (i j : ℕ) : Prop :=
  CleanVotes a → RatedAll Q a i j → b.E = a.E ∧ CleanVotes b ∧ RatedAll Q b i j

theorem Keeps.refl (a : Arr3D (Fl ℝ)) (i j : ℕ) : Keeps Q a a i j := fun hc h => ⟨rfl, hc, h⟩

theorem Keeps.trans {a b c : Arr3D (Fl ℝ)} {i j : ℕ} (h : Keeps Q a b i j) (h' : Keeps Q b c i j) : Keeps Q a c i j := by
  intro hc hr
  obtain ⟨h1, h2, h3⟩ := h hc hr
  obtain ⟨h4, h5, h6⟩ := h' h2 h3
  exact ⟨h4.trans h1, h5, h6⟩

theorem zscore_keeps (hQ : Compat Q) (a : Arr3D (Fl ℝ)) (i j : ℕ) : Keeps Q a { a with get := zscoreArr a.get } i j :=
  fun hc h => ⟨rfl, zscore_clean hc, fun e f he hf s r => zscore_rated hQ hc (h e f he hf) s r⟩

theorem biasarr_keeps (hQ : Compat Q) (a : Arr3D (Fl ℝ)) (i j : ℕ) : Keeps Q a { a with get := biasArr a.get } i j :=
  fun hc h => ⟨rfl, fun e s r => (bias_keeps a.get hc s).1 e r,
    fun e f he hf s r => rated_shift hQ (h e f he hf s r) (biasEstimate_clean hc s)⟩

theorem reject_keeps {o : Opts ℝ} {ty : Option String} {a b : Arr3D (Fl ℝ)} {r : Option (Rejection ℝ)}
    (hr : rejectStep o ty a = .ok (b, r)) (i j : ℕ) : Keeps Q a b i j := by
  intro hc h
  unfold rejectStep at hr
  split at hr
  · split at hr
    · cases hr
      exact ⟨rfl, fun e s r => hc e _ r, rated_all_cols _ h⟩
    · split at hr
      · split at hr
        · cases hr
        · rename_i hcr
          cases hr
          unfold corrReject at hcr
          split at hcr
          · cases hcr
          · cases hcr
            exact ⟨rfl, fun e s r => hc e _ r, rated_all_cols _ h⟩
      · cases hr
  · cases hr
    exact ⟨rfl, hc, h⟩

theorem forall₂_get {α β : Type} {P : α → β → Prop} {l : List α} {m : List β} (h : List.Forall₂ P l m) {i : ℕ} {y : β} (hy : m[i]? = some y) :
    ∃ x, l[i]? = some x ∧ P x y := by
  induction h generalizing i with
  | nil => cases hy
  | cons h1 h2 ih =>
    cases i with
    | zero => cases hy; exact ⟨_, rfl, h1⟩
    | succ i => exact ih hy

/-- differential scores: the two videos show the same content and the score of references is a number -/
theorem dscore_keeps {κ : Type} (hQ : Compat Q) {rd : Reader κ ℝ} {a b : Arr3D (Fl ℝ)} (hb : dscoreStep rd a = .ok b) (i j : ℕ)
    (hs : ∀ x, rd.dataset.refScore = some (some x) → NumOrNan x)
    (hcid : ∀ dv dv', rd.dataset.disVideos[i]? = some dv → rd.dataset.disVideos[j]? = some dv' → dv.contentId = dv'.contentId) :
    Keeps Q a b i j := by
  intro hc h
  have hclean : ∀ rm, refMos rd (List.ofFn (meanAlongS a.get)) = .ok rm → ∀ (n : ℕ), NumOrNan ((rm[n]?).getD .nan) := by
    intro rm hrm n
    cases hn : rm[n]? with
    | none => exact Or.inl rfl
    | some y =>
      obtain ⟨dv, -, hdv⟩ := forall₂_get (mapPy_eq_ok_iff.mp hrm) hn
      split at hdv
      · cases hdv
      · split at hdv
        · split at hdv
          · rename_i m hm
            cases hdv
            have := List.mem_of_getElem? hm
            obtain ⟨e, he⟩ := (List.mem_ofFn' _ _).mp this
            show NumOrNan y
            rw [← he]
            change NumOrNan (meanAlongS a.get e)
            rw [meanAlongS_spec _ _ (hc e)]
            exact meanOrNan_clean _
          · cases hdv
        · cases hdv
  have hsum : ∀ (x y z : Fl ℝ), NumOrNan x → NumOrNan y → NumOrNan z → NumOrNan (x + y - z) := by
    intro x y z hx hy hz
    rcases hx with rfl | ⟨x, rfl⟩ <;> rcases hy with rfl | ⟨y, rfl⟩ <;> rcases hz with rfl | ⟨z, rfl⟩ <;>
      first | exact Or.inl rfl | exact Or.inr ⟨_, rfl⟩
  unfold dscoreStep at hb
  split at hb
  · cases hb
  · cases hb
  · rename_i rs hrs
    have hrs := hs rs hrs
    split at hb
    · cases hb
    · rename_i rm hrm
      have hcl := hclean rm hrm
      have hsame : ∀ e f : Fin a.E, e.val = i → f.val = j → rm.length = a.E → (rm[e.val]?).getD .nan = (rm[f.val]?).getD .nan := by
        intro e f he hf hl
        obtain ⟨y, hy⟩ : ∃ y, rm[e.val]? = some y := ⟨_, List.getElem?_eq_getElem (by omega)⟩
        obtain ⟨z, hz⟩ : ∃ z, rm[f.val]? = some z := ⟨_, List.getElem?_eq_getElem (by omega)⟩
        obtain ⟨dv, h1, h2⟩ := forall₂_get (mapPy_eq_ok_iff.mp hrm) hy
        obtain ⟨dv', h3, h4⟩ := forall₂_get (mapPy_eq_ok_iff.mp hrm) hz
        have := hcid dv dv' (he ▸ h1) (hf ▸ h3)
        rw [this] at h2
        rw [h2] at h4
        cases h4
        rw [hy, hz]
      split at hb
      · rename_i hl
        cases hb
        refine ⟨rfl, fun e s r => hsum _ _ _ (hc e s r) hrs (hcl _), fun e f he hf s r => ?_⟩
        dsimp only
        rw [← hsame e f he hf hl]
        exact rated_shift hQ (rated_add hQ (h e f he hf s r) hrs) (hcl _)
      · split at hb
        · cases hb
          refine ⟨rfl, fun e s r => hsum _ _ _ (hc e s r) hrs (hcl _), fun e f he hf s r => ?_⟩
          exact rated_shift hQ (rated_add hQ (h e f he hf s r) hrs) (hcl _)
        · cases hb

/-- all of preprocessing -/
theorem preprocess_keeps {κ : Type} (hQ : Compat Q) {rd : Reader κ ℝ} {o : Opts ℝ} {p : Prep ℝ} (hp : preprocess rd o = .ok p)
    {a : Arr3D (Fl ℝ)} (ha : rd.scores = .ok a) (i j : ℕ)
    (hd : o.dscoreMode.isTrue = true → (∀ x, rd.dataset.refScore = some (some x) → NumOrNan x) ∧
      ∀ dv dv', rd.dataset.disVideos[i]? = some dv → rd.dataset.disVideos[j]? = some dv' → dv.contentId = dv'.contentId) :
    Keeps Q a p.arr i j := by
  unfold preprocess at hp
  rw [ha] at hp
  dsimp only at hp
  split at hp
  · cases hp
  · split at hp
    · cases hp
    · rename_i a1 h1
      split at hp
      · cases hp
      · rename_i a4 rej h4
        cases hp
        refine Keeps.trans (b := a1) ?_ (Keeps.trans (b := if o.zscoreMode.isTrue then { a1 with get := zscoreArr a1.get } else a1) ?_
          (Keeps.trans ?_ (reject_keeps h4 i j)))
        · split at h1
          · rename_i hm
            exact dscore_keeps hQ h1 i j (hd hm).1 (hd hm).2
          · cases h1
            exact Keeps.refl _ _ _
        · split
          · exact zscore_keeps hQ _ _ _
          · exact Keeps.refl _ _ _
        · by_cases hb : o.biasOffset.isTrue = true
          · rw [if_pos hb]
            exact biasarr_keeps hQ _ _ _
          · rw [if_neg hb]
            exact Keeps.refl _ _ _

end Pareto
end Sureal
