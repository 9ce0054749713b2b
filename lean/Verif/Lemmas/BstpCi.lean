import Verif.Lemmas.Bstp
/-! Percentiles and offsets of the bootstrapping models. -/
set_option linter.unusedSectionVars false
namespace Sureal.Bstp
open Spec
variable {κ K : Type} [Field K] [LinearOrder K] [IsStrictOrderedRing K] [MathFn K]

theorem percentile_fin (num : ℕ) (hnum : num ≤ 1000) (ys : List K) (hys : ys ≠ []) :
    ∃ z, percentile num (ys.map Fl.fin) = .fin z ∧ Quantile num 1000 ys z := by
  have hlen : 0 < ys.length := List.length_pos_iff.mpr hys
  set s := ys.insertionSort (· ≤ ·) with hs
  have hperm : s.Perm ys := List.perm_insertionSort _ _
  have hsl : s.length = ys.length := hperm.length_eq
  have hsort : (ys.map Fl.fin).insertionSort (fun a b => Fl.le a b = true) = s.map Fl.fin := by
    rw [hs]
    refine (List.map_insertionSort (r := (· ≤ ·)) (s := fun a b : Fl K => Fl.le a b = true) Fl.fin ys ?_).symm
    intro a _ b _
    simp
  have hnan : (ys.map Fl.fin).any Fl.isNan = false := by simp
  set pos := (ys.length - 1) * num with hpos
  have hle : pos ≤ (ys.length - 1) * 1000 := Nat.mul_le_mul_left _ hnum
  have hi : pos / 1000 < s.length := by omega
  have hmin : min (pos / 1000 + 1) (ys.length - 1) < s.length := by omega
  unfold percentile
  rw [hnan, if_neg (by simp), hsort]
  dsimp only
  rw [List.length_map, ← hpos, List.getElem?_map, List.getElem?_map, List.getElem?_eq_getElem hi,
    List.getElem?_eq_getElem hmin]
  simp only [Option.map_some, Option.getD_some, Fl.dec, Fl.fin_sub, Fl.fin_mul, Fl.fin_add]
  refine ⟨_, rfl, s, hperm, List.pairwise_insertionSort _ _, pos / 1000, ((pos % 1000 : ℕ) : K) / ((1000 : ℕ) : K), s[pos / 1000],
    s[min (pos / 1000 + 1) (ys.length - 1)], ?_, ?_, ?_, List.getElem?_eq_getElem hi, ?_, ?_⟩
  · positivity
  · rw [div_lt_one (by norm_num)]
    exact_mod_cast Nat.mod_lt _ (by norm_num)
  · have h : ((1000 * (pos / 1000) + pos % 1000 : ℕ) : K) = ((pos : ℕ) : K) := by rw [Nat.div_add_mod]
    have h2 : ((pos : ℕ) : K) = ((ys.length - 1 : ℕ) : K) * (num : K) := by rw [hpos]; push_cast; ring
    rw [← h2, ← h]
    push_cast
    field_simp
  · by_cases hc : pos / 1000 + 1 ≤ ys.length - 1
    · left
      have : min (pos / 1000 + 1) (ys.length - 1) = pos / 1000 + 1 := by omega
      rw [List.getElem?_eq_getElem (by omega)]
      simp only [this]
    · right
      have : pos % 1000 = 0 := by omega
      rw [this]; simp
  · ring

theorem Quantile.shift {num den : ℕ} {ys : List K} {z : K} (c : K) (h : Quantile num den ys z) :
    Quantile num den (ys.map (· + c)) (z + c) := by
  obtain ⟨s, hp, hs, i, t, a, b, h0, h1, h2, h3, h4, h5⟩ := h
  refine ⟨s.map (· + c), hp.map _, ?_, i, t, a + c, b + c, h0, h1, by simpa using h2, by simp [h3], ?_, ?_⟩
  · rw [List.pairwise_map]
    exact hs.imp (fun h => by simpa using h)
  · rcases h4 with h4 | h4
    · left; simp [h4]
    · right; exact h4
  · rw [h5]; ring

theorem pick_eq {l : List (Fl K)} {sel : List Int} {c : List (Fl K)} (h : pick l sel = .ok c) :
    c = sel.map fun x => (l[x.toNat]?).getD .nan := by
  unfold pick at h
  rw [mapPy_eq_ok_iff] at h
  induction h with
  | nil => rfl
  | cons hab _ ih =>
    rw [List.map_cons, ← ih]
    split at hab
    · rename_i x hx
      cases hab
      rw [hx]; rfl
    · cases hab

theorem pick_range {l : List (Fl K)} {sel : List Int} {c : List (Fl K)} (h : pick l sel = .ok c) :
    ∀ x ∈ sel, x.toNat < l.length := by
  intro x hx
  by_contra hn
  have : pick l sel = .error .index := by
    unfold pick
    clear h
    induction sel with
    | nil => simp at hx
    | cons y t ih =>
      unfold mapPy
      cases hy : l[y.toNat]? with
      | none => rfl
      | some v =>
        dsimp only
        have hxt : x ∈ t := by
          rcases List.mem_cons.mp hx with rfl | h'
          · rw [List.getElem?_eq_none (by omega)] at hy; cases hy
          · exact h'
        rw [ih hxt]
  rw [this] at h; cases h

theorem zipWith_sub_fin (a c : List K) : List.zipWith (fun x y => x - y) (a.map Fl.fin) (c.map Fl.fin) =
    (List.zipWith (fun x y => x - y) a c).map Fl.fin := by
  induction a generalizing c with
  | nil => rfl
  | cons x a ih =>
    cases c with
    | nil => rfl
    | cons y c => simp only [List.map_cons, List.zipWith_cons_cons, ih]; rfl

theorem zipWith_sub_sum (a c : List K) (h : a.length = c.length) :
    (List.zipWith (fun x y => x - y) a c).sum = a.sum - c.sum := by
  induction a generalizing c with
  | nil => cases c <;> simp_all
  | cons x a ih =>
    cases c with
    | nil => simp at h
    | cons y c =>
      simp only [List.zipWith_cons_cons, List.sum_cons]
      rw [ih c (by simpa using h)]; ring

/-- the offset of finite estimates aligns them -/
theorem offset_fin {a ref : List K} {sel : List Int} {off : Fl K} (hlen : a.length = sel.length) (hpos : a ≠ [])
    (h : offset (a.map Fl.fin) (ref.map Fl.fin) sel = .ok off) :
    ∃ c : K, off = .fin c ∧ (a.map (· - c)).sum = (sel.map fun x => (ref[x.toNat]?).getD 0).sum := by
  unfold offset at h
  cases hp : pick (ref.map Fl.fin) sel with
  | error e => rw [hp] at h; cases h
  | ok c =>
    rw [hp] at h
    dsimp only at h
    have hr := pick_range hp
    rw [List.length_map] at hr
    have hc : c = (sel.map fun x => (ref[x.toNat]?).getD 0).map Fl.fin := by
      rw [pick_eq hp, List.map_map]
      apply List.map_congr_left
      intro x hx
      rw [List.getElem?_map, List.getElem?_eq_getElem (hr x hx)]
      simp [List.getElem?_eq_getElem (hr x hx)]
    rw [hc] at h
    unfold sub at h
    rw [if_pos (by simp [hlen]), zipWith_sub_fin] at h
    dsimp only at h
    set b := sel.map fun x => (ref[x.toNat]?).getD 0 with hb
    have hbl : a.length = b.length := by simp [hb, hlen]
    have hz : List.zipWith (fun x y => x - y) a b ≠ [] := by
      intro he
      have := congrArg List.length he
      rw [List.length_zipWith, ← hbl, Nat.min_self, List.length_nil] at this
      exact hpos (List.length_eq_zero_iff.mp this)
    rw [Np.mean_map_fin hz] at h
    cases h
    refine ⟨_, rfl, ?_⟩
    unfold Spec.mean
    rw [zipWith_sub_sum a b hbl, List.length_zipWith, ← hbl, Nat.min_self]
    have hn : (a.length : K) ≠ 0 := by
      have : a.length ≠ 0 := fun h => hpos (List.length_eq_zero_iff.mp h)
      exact_mod_cast this
    have hs : ∀ (l : List K) (c : K), (l.map (· - c)).sum = l.sum - l.length * c := by
      intro l c
      induction l with
      | nil => simp
      | cons x l ih => simp only [List.map_cons, List.sum_cons, ih, List.length_cons]; push_cast; ring
    rw [hs]
    field_simp
    ring

theorem percentiles_inv {num : ℕ} {rows : List (List (Fl K))} {n : ℕ} (hne : rows ≠ []) (hrows : ∀ r ∈ rows, r.length = n) :
    percentiles num rows = .ok ((List.range n).map fun e => percentile num (rows.map fun r => (r[e]?).getD .nan)) := by
  have hh : (rows.head?.getD []).length = n := by
    cases rows with
    | nil => exact absurd rfl hne
    | cons r rs => exact hrows r (by simp)
  unfold percentiles
  dsimp only
  rw [hh, if_pos]
  rw [List.all_eq_true]
  intro r hr
  simpa using hrows r hr

/-- the two halves of the interval of the `e`-th estimate -/
theorem interval_inv {est : List (Fl K)} {rows : List (List (Fl K))} {ci : List (Fl K) × List (Fl K)} (hne : rows ≠ [])
    (hrows : ∀ r ∈ rows, r.length = est.length) (h : interval est rows = .ok ci) :
    ci.1.length = est.length ∧ ci.2.length = est.length ∧
    ∀ (e : ℕ) (x : Fl K), est[e]? = some x →
      ci.1[e]? = some (x - percentile 25 (rows.map fun r => (r[e]?).getD .nan)) ∧
      ci.2[e]? = some (percentile 975 (rows.map fun r => (r[e]?).getD .nan) - x) := by
  unfold interval at h
  rw [percentiles_inv hne hrows, percentiles_inv hne hrows] at h
  dsimp only at h
  unfold sub at h
  rw [if_pos (by simp), if_pos (by simp)] at h
  cases h
  refine ⟨by simp, by simp, ?_⟩
  intro e x hx
  have he : e < est.length := (List.getElem?_eq_some_iff.mp hx).1
  constructor
  · rw [List.getElem?_zipWith, hx]
    simp [List.getElem?_range he]
  · rw [List.getElem?_zipWith, hx]
    simp [List.getElem?_range he]

/-- the interval of an estimate, when all numbers are finite -/
theorem interval_fin {est : List (Fl K)} {rows : List (List (Fl K))} {ci : List (Fl K) × List (Fl K)} (hne : rows ≠ [])
    (hrows : ∀ r ∈ rows, r.length = est.length) (h : interval est rows = .ok ci) {e : ℕ} {x : K} (hx : est[e]? = some (.fin x))
    {ys : List K} (hys : (rows.map fun r => (r[e]?).getD .nan) = ys.map Fl.fin) :
    ∃ l u, ci.1[e]? = some (.fin l) ∧ ci.2[e]? = some (.fin u) ∧
      Quantile 25 1000 ys (x - l) ∧ Quantile 975 1000 ys (x + u) := by
  obtain ⟨-, -, h3⟩ := interval_inv hne hrows h
  obtain ⟨h4, h5⟩ := h3 e _ hx
  rw [hys] at h4 h5
  have hn : ys ≠ [] := by
    rintro rfl
    exact hne (by simpa using hys)
  obtain ⟨z1, hz1, q1⟩ := percentile_fin 25 (by norm_num) ys hn
  obtain ⟨z2, hz2, q2⟩ := percentile_fin 975 (by norm_num) ys hn
  rw [hz1] at h4
  rw [hz2] at h5
  exact ⟨_, _, h4, h5, by simpa using q1, by simpa using q2⟩

end Sureal.Bstp
