import Verif.Lemmas.ConvolvePdf
/-! # C101: `ConvolveTwoPdf` -/
set_option linter.unusedSectionVars false
namespace Sureal.Props
open ConvolvePdf Spec.Convolve
variable {K : Type} [Field K] [LinearOrder K] [IsStrictOrderedRing K] [FloorRing K]

/-- the minimisation returns `r` as the place where `f` has the value `y` -/
def Found (solver : (K → Py (Fl K)) → K → K → Py (Fl K)) (f : K → K) (y r : K) : Prop :=
  f 0 ≠ f 1 ∧ solver (fun x => .ok (.fin ((f x - y) * (f x - y)))) 0 1 = .ok (.fin r)

theorem ceil_pos {r δ : K} (hr : 0 < r) (hδ : 0 < δ) : 0 < ⌈2 * r / δ⌉₊ := Nat.ceil_pos.mpr (by positivity)

theorem getModel_eq {solver : (K → Py (Fl K)) → K → K → Py (Fl K)} {f g : K → K} {δ tf tg rf rg : K} (hδ : 0 < δ)
    (hf : Found solver f tf rf) (hg : Found solver g tg rg) (hrf : 0 < rf) (hrg : 0 < rg) {n : ℕ} (hn : n = ⌈2 * max rf rg / δ⌉₊) :
    getModel solver ⟨f, g, δ, tf, tg, none⟩ =
      .ok ((List.range n).map (point (max rf rg) δ), (List.range n).map fun k => conv f g (max rf rg) δ n k) := by
  have hpos : 0 < n := hn ▸ ceil_pos (lt_max_of_lt_left hrf) hδ
  unfold getModel
  dsimp only
  rw [inverseAt_eq hf.1 hf.2, inverseAt_eq hg.1 hg.2]
  dsimp only
  rw [if_neg (not_not.mpr hrf), if_neg (not_not.mpr hrg)]
  have hgrid : grid (max rf rg) δ = .ok ((List.range n).map fun i : ℕ => -max rf rg + (i : K) * δ) := by
    unfold grid
    rw [if_neg hδ.ne', sub_neg_eq_add, ← two_mul, ← hn]
  rw [hgrid]
  dsimp only
  rw [cells_eq f δ _ hpos, cells_eq g δ _ hpos]
  dsimp only
  rw [convSame_eq]
  rfl

/-- **C101 (values).** Let the inverses of the two truncation values be found as positive numbers, `r` the larger one.  The values of `pdf`: at the
points of the grid from `-r` in steps of `delta` below `r` the convolution of the cell masses, between two points the linear interpolation, outside
the grid the product of the truncation values.  Later calls work with the same table. -/
theorem C101_values {solver : (K → Py (Fl K)) → K → K → Py (Fl K)} {f g : K → K} {δ tf tg rf rg : K} (hδ : 0 < δ)
    (hf : Found solver f tf rf) (hg : Found solver g tg rg) (hrf : 0 < rf) (hrg : 0 < rg) {n : ℕ} (hn : n = ⌈2 * max rf rg / δ⌉₊) :
    ∃ (o : Obj K) (v : K → K), (∀ x, pdf solver ⟨f, g, δ, tf, tg, none⟩ x = .ok (v x, o)) ∧ (∀ x, pdf solver o x = .ok (v x, o)) ∧
      ∀ x, (x < -max rf rg → v x = tf * tg) ∧ (point (max rf rg) δ (n - 1) < x → v x = tf * tg) ∧
        (∀ k < n, x = point (max rf rg) δ k → v x = conv f g (max rf rg) δ n k) ∧
        (∀ k, k + 1 < n → point (max rf rg) δ k ≤ x → x ≤ point (max rf rg) δ (k + 1) →
          v x = conv f g (max rf rg) δ n k +
            (x - point (max rf rg) δ k) / δ * (conv f g (max rf rg) δ n (k + 1) - conv f g (max rf rg) δ n k)) := by
  have hpos : 0 < n := hn ▸ ceil_pos (lt_max_of_lt_left hrf) hδ
  choose v hv hrest using fun x : K => interp_eq (r := max rf rg) (e := tf * tg) hδ hpos (conv f g (max rf rg) δ n) x
  refine ⟨⟨f, g, δ, tf, tg, some ((List.range n).map (point (max rf rg) δ), (List.range n).map fun k => conv f g (max rf rg) δ n k)⟩, v,
    fun x => ?_, fun x => ?_, fun x => hrest x⟩
  · unfold pdf
    dsimp only
    rw [getModel_eq hδ hf hg hrf hrg hn]
    dsimp only
    rw [hv x]
  · unfold pdf
    dsimp only
    rw [hv x]

/-- every number is left of the grid, right of it, one of its points or between two neighbours -/
theorem place {r δ : K} (hδ : 0 < δ) {n : ℕ} (hn : 0 < n) (x : K) :
    x < -r ∨ point r δ (n - 1) < x ∨ (∃ k < n, x = point r δ k) ∨
      ∃ k, k + 1 < n ∧ point r δ k ≤ x ∧ x ≤ point r δ (k + 1) := by
  by_cases h1 : x < -r
  · exact .inl h1
  by_cases h2 : point r δ (n - 1) < x
  · exact .inr (.inl h2)
  push Not at h1 h2
  have key : ∀ m, x ≤ point r δ m → (∃ k ≤ m, x = point r δ k) ∨ ∃ k, k + 1 ≤ m ∧ point r δ k ≤ x ∧ x ≤ point r δ (k + 1) := by
    intro m
    induction m with
    | zero =>
      intro hm
      refine .inl ⟨0, le_rfl, le_antisymm hm ?_⟩
      simpa [point] using h1
    | succ m ih =>
      intro hm
      rcases le_total x (point r δ m) with h | h
      · rcases ih h with ⟨k, hk, e⟩ | ⟨k, hk, e⟩
        · exact .inl ⟨k, hk.trans (Nat.le_succ m), e⟩
        · exact .inr ⟨k, hk.trans (Nat.le_succ m), e⟩
      · exact .inr ⟨m, le_rfl, h, hm⟩
  rcases key (n - 1) h2 with ⟨k, hk, e⟩ | ⟨k, hk, e⟩
  · exact .inr (.inr (.inl ⟨k, by omega, e⟩))
  · exact .inr (.inr (.inr ⟨k, by omega, e⟩))

theorem mass_nonneg {f : K → K} (hf : ∀ x, 0 ≤ f x) {r δ : K} (hδ : 0 < δ) (n i : ℕ) : 0 ≤ mass f r δ n i := by
  unfold mass
  have h1 := hf (point r δ i)
  have h2 := hf (point r δ (min (i + 1) (n - 1)))
  positivity

theorem conv_nonneg {f g : K → K} (hf : ∀ x, 0 ≤ f x) (hg : ∀ x, 0 ≤ g x) {r δ : K} (hδ : 0 < δ) (n k : ℕ) : 0 ≤ conv f g r δ n k :=
  div_nonneg (Finset.sum_nonneg fun _ _ => mul_nonneg (mass_nonneg hf hδ _ _) (mass_nonneg hg hδ _ _)) hδ.le

theorem conv_comm (f g : K → K) (r δ : K) (n k : ℕ) : conv f g r δ n k = conv g f r δ n k := by
  unfold conv
  congr 1
  refine Finset.sum_bij' (fun p _ => p.swap) (fun p _ => p.swap) ?_ ?_ ?_ ?_ ?_
  · intro p hp
    simp only [Finset.mem_filter, Finset.mem_antidiagonal, Prod.fst_swap, Prod.snd_swap] at hp ⊢
    omega
  · intro p hp
    simp only [Finset.mem_filter, Finset.mem_antidiagonal, Prod.fst_swap, Prod.snd_swap] at hp ⊢
    omega
  · intro p _
    rfl
  · intro p _
    rfl
  · intro p _
    exact mul_comm _ _

/-- **C101 (not negative).** For densities and truncation values that are not negative no value is negative. -/
theorem C101_nonneg {solver : (K → Py (Fl K)) → K → K → Py (Fl K)} {f g : K → K} {δ tf tg rf rg : K} (hδ : 0 < δ)
    (hf : Found solver f tf rf) (hg : Found solver g tg rg) (hrf : 0 < rf) (hrg : 0 < rg)
    (hf0 : ∀ x, 0 ≤ f x) (hg0 : ∀ x, 0 ≤ g x) (htf : 0 ≤ tf) (htg : 0 ≤ tg) (x : K) :
    ∃ v o, pdf solver ⟨f, g, δ, tf, tg, none⟩ x = .ok (v, o) ∧ 0 ≤ v := by
  obtain ⟨o, v, h1, -, h2⟩ := C101_values hδ hf hg hrf hrg rfl
  refine ⟨v x, o, h1 x, ?_⟩
  obtain ⟨a1, a2, a3, a4⟩ := h2 x
  rcases place hδ (ceil_pos (lt_max_of_lt_left hrf) hδ) x with h | h | ⟨k, hk, h⟩ | ⟨k, hk, h, h'⟩
  · rw [a1 h]
    positivity
  · rw [a2 h]
    positivity
  · rw [a3 k hk h]
    exact conv_nonneg hf0 hg0 hδ _ _
  · rw [a4 k hk h h']
    set c := conv f g (max rf rg) δ ⌈2 * max rf rg / δ⌉₊ with hc
    have c1 : 0 ≤ c k := conv_nonneg hf0 hg0 hδ _ _
    have c2 : 0 ≤ c (k + 1) := conv_nonneg hf0 hg0 hδ _ _
    set t := (x - point (max rf rg) δ k) / δ with ht
    have t0 : 0 ≤ t := div_nonneg (sub_nonneg.mpr h) hδ.le
    have t1 : t ≤ 1 := by
      rw [ht, div_le_one hδ]
      unfold point at h' ⊢
      push_cast at h'
      linarith
    nlinarith [mul_nonneg t0 c2, mul_nonneg (sub_nonneg.mpr t1) c1]

/-- **C101 (symmetry).** Exchanging the two densities does not change a value. -/
theorem C101_symmetric {solver : (K → Py (Fl K)) → K → K → Py (Fl K)} {f g : K → K} {δ tf tg rf rg : K} (hδ : 0 < δ)
    (hf : Found solver f tf rf) (hg : Found solver g tg rg) (hrf : 0 < rf) (hrg : 0 < rg) (x : K) :
    ∃ v o o', pdf solver ⟨f, g, δ, tf, tg, none⟩ x = .ok (v, o) ∧ pdf solver ⟨g, f, δ, tg, tf, none⟩ x = .ok (v, o') := by
  obtain ⟨o, v, h1, -, h2⟩ := C101_values hδ hf hg hrf hrg rfl
  obtain ⟨o', v', h1', -, h2'⟩ := C101_values hδ hg hf hrg hrf rfl
  refine ⟨v x, o, o', h1 x, ?_⟩
  rw [h1' x]
  suffices v' x = v x by rw [this]
  obtain ⟨a1, a2, a3, a4⟩ := h2 x
  obtain ⟨b1, b2, b3, b4⟩ := h2' x
  rw [max_comm rg rf] at b1 b2 b3 b4
  rcases place hδ (ceil_pos (lt_max_of_lt_left hrf) hδ) x with h | h | ⟨k, hk, h⟩ | ⟨k, hk, h, h'⟩
  · rw [a1 h, b1 h, mul_comm]
  · rw [a2 h, b2 h, mul_comm]
  · rw [a3 k hk h, b3 k hk h, conv_comm]
  · rw [a4 k hk h h', b4 k hk h h', conv_comm, conv_comm g f _ _ _ (k + 1)]

/-- **C101 (total mass).** The masses at the points of the grid add up to at most the product of the two total masses. -/
theorem C101_mass {solver : (K → Py (Fl K)) → K → K → Py (Fl K)} {f g : K → K} {δ tf tg rf rg : K} (hδ : 0 < δ)
    (hf : Found solver f tf rf) (hg : Found solver g tg rg) (hrf : 0 < rf) (hrg : 0 < rg)
    (hf0 : ∀ x, 0 ≤ f x) (hg0 : ∀ x, 0 ≤ g x) {n : ℕ} (hn : n = ⌈2 * max rf rg / δ⌉₊) :
    ∃ (o : Obj K) (v : K → K), (∀ x, pdf solver ⟨f, g, δ, tf, tg, none⟩ x = .ok (v x, o)) ∧
      ∑ k ∈ Finset.range n, v (point (max rf rg) δ k) * δ ≤
        (∑ i ∈ Finset.range n, mass f (max rf rg) δ n i) * ∑ i ∈ Finset.range n, mass g (max rf rg) δ n i := by
  obtain ⟨o, v, h1, -, h2⟩ := C101_values hδ hf hg hrf hrg hn
  refine ⟨o, v, h1, ?_⟩
  set F := mass f (max rf rg) δ n with hF
  set G := mass g (max rf rg) δ n with hG
  have e : ∀ k ∈ Finset.range n, v (point (max rf rg) δ k) * δ =
      ∑ p ∈ (Finset.range n ×ˢ Finset.range n).filter (fun p => p.1 + p.2 = k + (n - 1) / 2), F p.1 * G p.2 := by
    intro k hk
    rw [(h2 _).2.2.1 k (Finset.mem_range.mp hk) rfl]
    unfold conv
    rw [div_mul_cancel₀ _ hδ.ne']
    refine Finset.sum_congr ?_ fun _ _ => rfl
    ext p
    simp only [Finset.mem_filter, Finset.mem_antidiagonal, Finset.mem_product, Finset.mem_range]
    tauto
  rw [Finset.sum_congr rfl e, Finset.sum_mul_sum, ← Finset.sum_product', ← Finset.sum_biUnion]
  · refine Finset.sum_le_sum_of_subset_of_nonneg ?_ fun p _ _ => mul_nonneg (mass_nonneg hf0 hδ _ _) (mass_nonneg hg0 hδ _ _)
    intro p hp
    simp only [Finset.mem_biUnion, Finset.mem_filter] at hp
    obtain ⟨k, -, h, -⟩ := hp
    exact h
  · intro i _ j _ hij
    refine Finset.disjoint_left.mpr fun p hp hq => hij ?_
    simp only [Finset.mem_filter] at hp hq
    omega

/-- **C101 refuted (negative root).** `inversefunc` gets a density that is not monotone.  Where the value is taken at `r` and at `-r` the
minimisation may find the negative one, and then there is an AssertionError. -/
theorem C101_refuted_root {solver : (K → Py (Fl K)) → K → K → Py (Fl K)} {f g : K → K} {δ tf tg r r' : K} (hr : 0 < r)
    (hf : Found solver f tf (-r)) (hg : Found solver g tg r') (x : K) :
    pdf solver ⟨f, g, δ, tf, tg, none⟩ x = .error .assertion := by
  unfold pdf getModel
  dsimp only
  rw [inverseAt_eq hf.1 hf.2, inverseAt_eq hg.1 hg.2]
  dsimp only
  rw [if_pos (by simpa using hr.le)]

/-- **C101 refuted (even densities).** The convolution of two even functions is even.  With `f x = g x = 1 / (1 + x²)`, truncated at 1, and the
step 1/2 the values at -1/2 and 1/2 differ: the cell of the last point has not the height of the cell of the first one. -/
theorem C101_refuted_even {solver : (ℚ → Py (Fl ℚ)) → ℚ → ℚ → Py (Fl ℚ)} (h : Found solver (fun x => 1 / (1 + x * x)) (1 / 2) 1) :
    ∃ v w o, pdf solver ⟨fun x => 1 / (1 + x * x), fun x => 1 / (1 + x * x), 1 / 2, 1 / 2, 1 / 2, none⟩ (-1 / 2) = .ok (v, o) ∧
      pdf solver ⟨fun x => 1 / (1 + x * x), fun x => 1 / (1 + x * x), 1 / 2, 1 / 2, 1 / 2, none⟩ (1 / 2) = .ok (w, o) ∧
      v = 99 / 100 ∧ w = 9 / 8 := by
  have hn : 4 = ⌈2 * max (1 : ℚ) 1 / (1 / 2)⌉₊ := by norm_num
  obtain ⟨o, v, h1, -, h2⟩ := C101_values (by norm_num) h h (by norm_num) (by norm_num) hn
  refine ⟨_, _, o, h1 _, h1 _, ?_, ?_⟩
  · rw [(h2 _).2.2.1 1 (by norm_num) (by norm_num [point])]
    decide +kernel
  · rw [(h2 _).2.2.1 3 (by norm_num) (by norm_num [point])]
    decide +kernel

/-- a minimisation that finds 1 for the function in the last theorem -/
example : Found (fun _ _ _ => .ok (.fin 1)) (fun x : ℚ => 1 / (1 + x * x)) (1 / 2) 1 := ⟨by norm_num, rfl⟩

/-- the value of the function at the place found is the truncation value; -1 would do as well -/
example : (fun x : ℚ => 1 / (1 + x * x)) 1 = 1 / 2 ∧ (fun x : ℚ => 1 / (1 + x * x)) (-1) = 1 / 2 := by norm_num

end Sureal.Props
