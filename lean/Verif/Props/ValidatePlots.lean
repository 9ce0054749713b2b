import Verif.Lemmas.ValidatePlots
import Verif.Lemmas.Readings
import Verif.Props.Perf
import Verif.Props.Criteria
import Verif.Props.Readings
/-!
# C130: the plots of `validate_with_synthetic_dataset`
-/
set_option linter.unusedSectionVars false
namespace Sureal.Props
open Spec Mock Routine
variable {κ K : Type} [LinearOrder κ] [Field K] [LinearOrder K] [IsStrictOrderedRing K] [MathFn K]

/-- **C130, returned values.** A run with plots that completes returns what the run without plots returns; without axes the two are the same,
also in their errors, and nothing is drawn. -/
theorem C130_returned (strict : Bool) (o : PlotOpts) (cls : SynthClass) (w : Rand K) (seed : Option (Option Int))
    (models : List (String × Modelled κ K)) (dataset : Py (Dataset κ K)) (truth : SynthKw K) (std : Option (List (Fl K)))
    (missing : Option (Fl K)) (write : Bool) :
    (∀ out d, validateDraw strict o cls w seed models dataset truth std missing write = .ok (out, d) →
      validate cls w seed models dataset truth missing write = .ok out) ∧
    (o.axes = [] → validateDraw strict o cls w seed models dataset truth std missing write =
      match validate cls w seed models dataset truth missing write with
      | .error e => .error e
      | .ok out => .ok (out, [])) := by
  refine ⟨fun out d h => (validateDraw_inv h).1, ?_⟩
  intro ho
  unfold validateDraw validate
  by_cases hm : (missing.all fun p => Fl.le 0 p && Fl.lt p 1) = true
  · rw [if_pos hm, if_pos hm]
    cases dataset with
    | error e => rfl
    | ok ds =>
      dsimp only
      cases readerAt cls w seed ds truth missing 0 with
      | error e => rfl
      | ok rd0 =>
        dsimp only
        cases writtenDataset write rd0 with
        | error e => rfl
        | ok wr =>
          dsimp only
          cases fitAll (readerAt cls w seed ds truth missing) (if write then 1 else 0) models with
          | error e => rfl
          | ok fits =>
            dsimp only
            rw [checkDraw_none ho]
            cases checkAll truth fits (fits.foldl (fun acc p => setKey p.1 ({ fit := p.2 } : Checked κ K) acc) []) <;> rfl
  · rw [if_neg hm, if_neg hm]

/-- **C130, which points are drawn.** Model after model, and for each model panel after panel: there are points in a panel exactly when it is among the
axes and both the true values and the estimates are given, and only once. -/
theorem C130_drawn {strict : Bool} {o : PlotOpts} {cls : SynthClass} {w : Rand K} {seed : Option (Option Int)}
    {models : List (String × Modelled κ K)} {dataset : Py (Dataset κ K)} {truth : SynthKw K} {std : Option (List (Fl K))}
    {missing : Option (Fl K)} {write : Bool} {out : Validation κ K} {d : Drawn K} (hnd : (models.map (·.1)).Nodup)
    (h : validateDraw strict o cls w seed models dataset truth std missing write = .ok (out, d)) :
    (d.map fun t => (t.1, t.2.1)).Nodup ∧
    ∀ ty p, (∃ q, (ty, p, q) ∈ d) ↔
      p ∈ o.axes ∧ (panelTruth truth std p).isSome = true ∧ ∃ c, out.results.lookup ty = some c ∧ (panelEst c.fit p).isSome = true := by
  obtain ⟨hv, fits, h1, h2, h3⟩ := validateDraw_inv h
  obtain ⟨-, g1, -⟩ := checkDraw_inv h1
  have hres := C98_results hv
  rw [← h2] at hnd
  refine ⟨?_, ?_⟩
  · rw [g1]
    refine List.nodup_flatMap.mpr ⟨?_, ?_⟩
    · intro f _
      refine List.Nodup.map (fun a b hab => (Prod.mk.inj hab).2) (List.Nodup.filter _ (by decide))
    · refine List.Pairwise.imp ?_ (List.pairwise_map.mp hnd)
      intro f f' hne
      intro t ht ht'
      obtain ⟨p, -, rfl⟩ := List.mem_map.mp ht
      obtain ⟨p', -, hp'⟩ := List.mem_map.mp ht'
      exact hne (congrArg Prod.fst hp').symm
  · intro ty p
    have hmem : (∃ q, (ty, p, q) ∈ d) ↔ (ty, p) ∈ d.map fun t => (t.1, t.2.1) := by
      rw [List.mem_map]
      constructor
      · rintro ⟨q, hq⟩; exact ⟨_, hq, rfl⟩
      · rintro ⟨⟨a, b, q⟩, hq, he⟩
        cases he
        exact ⟨q, hq⟩
    rw [hmem, g1, List.mem_flatMap]
    constructor
    · rintro ⟨⟨ty', fit⟩, hf, ht⟩
      obtain ⟨p', hp', he⟩ := List.mem_map.mp ht
      cases he
      have := List.of_mem_filter hp'
      simp only [decide_eq_true_eq] at this
      obtain ⟨c, c1, c2⟩ := h3 (by rw [← h2]; exact hnd) _ _ hf
      exact ⟨this.1, this.2.1, c, c1, by rw [c2]; exact this.2.2⟩
    · rintro ⟨hax, ht, c, hc, he⟩
      have hin : ∃ fit, (ty, fit) ∈ fits := by
        obtain ⟨_, e1, -, k1, -⟩ := validate_inv hv
        have hk : out.results.lookup ty ≠ none := by rw [hc]; simp
        by_contra hno
        have hz := checkAll_fit (checkDraw_inv h1).1 ty
        rw [lookup_foldl] at hz
        have : (fits.filter fun p => p.1 = ty) = [] := by
          rw [List.filter_eq_nil_iff]
          rintro ⟨a, b⟩ hab hta
          simp only [decide_eq_true_eq] at hta
          subst hta
          exact hno ⟨b, hab⟩
        rw [this, hc] at hz
        simp at hz
      obtain ⟨fit, hfit⟩ := hin
      obtain ⟨c', c1, c2⟩ := h3 (by rw [← h2]; exact hnd) _ _ hfit
      rw [hc] at c1
      cases c1
      subst c2
      refine ⟨_, hfit, List.mem_map.mpr ⟨p, List.mem_filter.mpr ⟨by cases p <;> decide, ?_⟩, rfl⟩⟩
      simp [hax, ht, he]

/-- the smallest and the largest of finitely many numbers -/
theorem line_fin {l : List K} (hl : l ≠ []) : ∃ a b, line (l.map fun v => (Fl.fin v : Fl K)) = .ok (.fin a, .fin b) ∧ a ∈ l ∧ b ∈ l ∧
    ∀ v ∈ l, a ≤ v ∧ v ≤ b := by
  obtain ⟨x, l, rfl⟩ := List.exists_cons_of_ne_nil hl
  have hmin : ∀ (l : List K) (x : K), (l.map fun v => (Fl.fin v : Fl K)).foldl (fun a b => if b.lt a then b else a) (.fin x) = .fin (l.foldl min x) := by
    intro l
    induction l with
    | nil => intro x; rfl
    | cons y l ih =>
      intro x
      rw [List.map_cons, List.foldl_cons, List.foldl_cons, ← ih]
      congr 1
      show (if Fl.lt (.fin y) (.fin x) then Fl.fin y else Fl.fin x) = _
      by_cases h : y < x
      · rw [if_pos (by simpa [Fl.lt] using h), min_eq_right h.le]
      · rw [if_neg (by simpa [Fl.lt] using h), min_eq_left (not_lt.mp h)]
  have hmax : ∀ (l : List K) (x : K), (l.map fun v => (Fl.fin v : Fl K)).foldl (fun a b => if a.lt b then b else a) (.fin x) = .fin (l.foldl max x) := by
    intro l
    induction l with
    | nil => intro x; rfl
    | cons y l ih =>
      intro x
      rw [List.map_cons, List.foldl_cons, List.foldl_cons, ← ih]
      congr 1
      show (if Fl.lt (.fin x) (.fin y) then Fl.fin y else Fl.fin x) = _
      by_cases h : x < y
      · rw [if_pos (by simpa [Fl.lt] using h), max_eq_right h.le]
      · rw [if_neg (by simpa [Fl.lt] using h), max_eq_left (not_lt.mp h)]
  have smin : ∀ (l : List K) (x : K), l.foldl min x ∈ x :: l ∧ ∀ v ∈ x :: l, l.foldl min x ≤ v := by
    intro l
    induction l with
    | nil => intro x; simp
    | cons y l ih =>
      intro x
      obtain ⟨h1, h2⟩ := ih (min x y)
      rw [List.foldl_cons]
      constructor
      · rcases List.mem_cons.mp h1 with h | h
        · rw [h]; rcases min_choice x y with h | h <;> simp [h]
        · simp [h]
      · intro v hv
        have h0 := h2 _ List.mem_cons_self
        rcases List.mem_cons.mp hv with rfl | hv
        · exact h0.trans (min_le_left _ _)
        · rcases List.mem_cons.mp hv with rfl | hv
          · exact h0.trans (min_le_right _ _)
          · exact h2 v (List.mem_cons_of_mem _ hv)
  have smax : ∀ (l : List K) (x : K), l.foldl max x ∈ x :: l ∧ ∀ v ∈ x :: l, v ≤ l.foldl max x := by
    intro l
    induction l with
    | nil => intro x; simp
    | cons y l ih =>
      intro x
      obtain ⟨h1, h2⟩ := ih (max x y)
      rw [List.foldl_cons]
      constructor
      · rcases List.mem_cons.mp h1 with h | h
        · rw [h]; rcases max_choice x y with h | h <;> simp [h]
        · simp [h]
      · intro v hv
        have h0 := h2 _ List.mem_cons_self
        rcases List.mem_cons.mp hv with rfl | hv
        · exact (le_max_left _ _).trans h0
        · rcases List.mem_cons.mp hv with rfl | hv
          · exact (le_max_right _ _).trans h0
          · exact h2 v (List.mem_cons_of_mem _ hv)
  refine ⟨l.foldl min x, l.foldl max x, ?_, (smin l x).1, (smax l x).1, fun v hv => ⟨(smin l x).2 v hv, (smax l x).2 v hv⟩⟩
  unfold line pyMin pyMax
  rw [List.map_cons]
  dsimp only
  rw [hmin, hmax]

/-- **C130, the points.** In every panel a point pairs the true value and the estimate of the same video or observer.  All of them are shown if there
are as many estimates as true values, which the panels of the scores and their standard deviations insist on; the other panels leave out the end
of the longer list.  The error bars are the confidence intervals of the model, and the percentage in the label is the one that is returned; both are
there only if error bars are asked for.  Colour and marker are those asked for, or black dots. -/
theorem C130_points_partial {strict : Bool} {o : PlotOpts} {cls : SynthClass} {w : Rand K} {seed : Option (Option Int)}
    {models : List (String × Modelled κ K)} {dataset : Py (Dataset κ K)} {truth : SynthKw K} {std : Option (List (Fl K))}
    {missing : Option (Fl K)} {write : Bool} {out : Validation κ K} {d : Drawn K} (hnd : (models.map (·.1)).Nodup)
    (h : validateDraw strict o cls w seed models dataset truth std missing write = .ok (out, d))
    (ty : String) (p : Panel) (q : Points K) (hq : (ty, p, q) ∈ d) :
    ∃ c x y, out.results.lookup ty = some c ∧ panelTruth truth std p = some x ∧ panelEst c.fit p = some y ∧
      q.xs <+: x ∧ q.ys <+: y ∧ q.xs.length = min x.length y.length ∧ q.ys.length = min x.length y.length ∧
      (p = .quality ∨ p = .qualityStd → x.length = y.length) ∧ (x.length = y.length → q.xs = x ∧ q.ys = y) ∧
      q.bars = (if o.errorbar then panelBars c.fit p else none) ∧ q.perc = (if o.errorbar then panelPerc c p else none) ∧
      q.color = (o.colors.lookup ty).getD "black" ∧ q.marker = (o.markers.lookup ty).getD "." := by
  obtain ⟨hv, fits, h1, h2, h3⟩ := validateDraw_inv h
  obtain ⟨hca, -, g2⟩ := checkDraw_inv h1
  obtain ⟨hax, ⟨ty', fit⟩, hf, hty, x, y, hx, hy, hp⟩ := g2 _ hq
  dsimp only at hax hty hx hy hp
  obtain rfl : ty = ty' := hty.symm
  obtain ⟨c, c1, c2⟩ := h3 hnd _ _ hf
  have hlen := hp.len
  have hpos : (p = .quality ∨ p = .qualityStd → x.length = y.length) := by
    rintro (rfl | rfl)
    · simpa [hp.xs, hp.ys, cuts] using hlen
    · simpa [hp.xs, hp.ys, cuts] using hlen
  have hcut : cuts p = false → x.length = y.length := by
    cases p <;> simp [cuts] at * <;> assumption
  refine ⟨c, x, y, c1, hx, by rw [c2]; exact hy, ?_, ?_, ?_, ?_, hpos, ?_, by rw [c2]; exact hp.bars, ?_, hp.color, hp.marker⟩
  · rw [hp.xs]; split_ifs
    · exact List.take_prefix _ _
    · exact List.prefix_refl _
  · rw [hp.ys]; split_ifs
    · exact List.take_prefix _ _
    · exact List.prefix_refl _
  · rw [hp.xs]; split_ifs with hc
    · simp
    · have := hcut (by simpa using hc); omega
  · rw [hp.ys]; split_ifs with hc
    · simp
    · have := hcut (by simpa using hc); omega
  · intro he
    rw [hp.xs, hp.ys, he, Nat.min_self]
    split_ifs
    · exact ⟨by rw [← he, List.take_length], by rw [List.take_length]⟩
    · exact ⟨rfl, rfl⟩
  · obtain ⟨c', d1, d2, d3, d4⟩ := checkAll_perc hca (by rw [h2]; exact hnd) ty fit hf fit (by
      rw [lookup_foldl]
      have hl := checkAll_fit hca ty
      rw [c1, lookup_foldl] at hl
      cases hg : (fits.filter fun p => p.1 = ty).getLast? with
      | none => rw [hg] at hl; simp at hl
      | some g =>
        rw [hg] at hl
        simp only [Option.map_some, Option.some.injEq] at hl ⊢
        rw [← c2, hl])
    rw [c1] at d1
    cases d1
    have key : ∀ (v : Option (Fl K)), IsPercentage (panelTruth truth std p) (panelEst fit p) (panelBars fit p) v →
        q.perc = if o.errorbar then v else none := by
      intro v hv
      rw [hx, hy] at hv
      cases hb : panelBars fit p with
      | none =>
        rw [hb] at hv
        rw [hp.noCi hb, hv.2 (.inr (.inr rfl))]
        simp
      | some b =>
        rw [hb] at hv
        obtain ⟨pp, e1, e2⟩ := hp.cov b hb
        rw [e2]
        have := percentage_spec (truth := some x) (est := some y) (ci := some b) (v := some pp) (by
          unfold percentage
          dsimp only
          rw [e1])
        obtain ⟨l, u, r, f1, f2, f3⟩ := hv.1 x y b rfl rfl rfl
        obtain ⟨l', u', r', f1', f2', f3'⟩ := this.1 x y b rfl rfl rfl
        rw [f1] at f1'
        simp only [List.cons.injEq, and_true] at f1'
        obtain ⟨rfl, rfl⟩ := f1'
        cases f2'
        subst f2
        have : r = pp := by
          obtain ⟨n, fx, fy, fl, fu, hn, q1, q2, q3, q4, q5⟩ := f3
          obtain ⟨n', fx', fy', fl', fu', hn', q1', q2', q3', q4', q5'⟩ := f3'
          have : n = n' := by
            have := congrArg List.length (q1.symm.trans q1')
            simpa using this
          subst this
          have i1 := List.ofFn_injective (q1.symm.trans q1')
          have i2 := List.ofFn_injective (q2.symm.trans q2')
          have i3 := List.ofFn_injective (q3.symm.trans q3')
          have i4 := List.ofFn_injective (q4.symm.trans q4')
          subst i1 i2 i3 i4
          rw [q5, q5']
        rw [this]
    cases p with
    | quality => exact key _ d2
    | qualityStd => rw [hp.noCi rfl]; simp [panelPerc]
    | bias => exact key _ d3
    | inconsistency => exact key _ d4
    | ambiguity => rw [hp.noCi rfl]; simp [panelPerc]

theorem mean_nan_mem {l : List (Fl K)} (h : Fl.nan ∈ l) : Np.mean l = .nan := by
  have hs : l.sum = .nan := by
    induction l with
    | nil => cases h
    | cons x l ih =>
      rw [List.sum_cons]
      rcases List.mem_cons.mp h with h | h
      · rw [← h]; cases l.sum <;> rfl
      · rw [ih h]; cases x <;> rfl
  unfold Np.mean Np.sum
  rw [hs]
  rfl

/-- **C130, the numbers.** The number in the label is the root mean squared difference of the points shown, and the gray line goes from the smallest to the
largest true value shown, if all are numbers.  A single NaN among the estimates makes the number NaN. -/
theorem C130_label {κ : Type} [LinearOrder κ] {strict : Bool} {o : PlotOpts} {cls : SynthClass} {w : Rand ℝ} {seed : Option (Option Int)}
    {models : List (String × Modelled κ ℝ)} {dataset : Py (Dataset κ ℝ)} {truth : SynthKw ℝ} {std : Option (List (Fl ℝ))}
    {missing : Option (Fl ℝ)} {write : Bool} {out : Validation κ ℝ} {d : Drawn ℝ}
    (h : validateDraw strict o cls w seed models dataset truth std missing write = .ok (out, d))
    (ty : String) (p : Panel) (q : Points ℝ) (hq : (ty, p, q) ∈ d) :
    (∀ ps : List (ℝ × ℝ), q.xs = ps.map (fun t => .fin t.1) → q.ys = ps.map (fun t => .fin t.2) →
      ps ≠ [] ∧ q.rmse = .fin (rmsError ps) ∧
      ∃ a b, q.line = (.fin a, .fin b) ∧ a ∈ ps.map (·.1) ∧ b ∈ ps.map (·.1) ∧ ∀ t ∈ ps, a ≤ t.1 ∧ t.1 ≤ b) ∧
    (Fl.nan ∈ q.ys → q.rmse = .nan) := by
  obtain ⟨hv, fits, h1, h2, h3⟩ := validateDraw_inv h
  obtain ⟨hca, -, g2⟩ := checkDraw_inv h1
  obtain ⟨hax, ⟨ty', fit⟩, hf, hty, x, y, hx, hy, hp⟩ := g2 _ hq
  dsimp only at hax hty hx hy hp
  constructor
  · intro ps e1 e2
    have hl := hp.line
    rw [e1] at hl
    have hne : ps ≠ [] := by
      rintro rfl
      simp [line, pyMin] at hl
    refine ⟨hne, ?_, ?_⟩
    · have hr := hp.rmse
      rw [e1, e2, rmse_spec hne] at hr
      exact (Except.ok.inj hr).symm
    · obtain ⟨a, b, k1, k2, k3, k4⟩ := line_fin (l := ps.map (·.1)) (by simpa using hne)
      rw [List.map_map] at k1
      have : line (ps.map fun t => (Fl.fin t.1 : Fl ℝ)) = .ok (.fin a, .fin b) := k1
      rw [this] at hl
      refine ⟨a, b, (Except.ok.inj hl).symm, k2, k3, fun t ht => k4 _ (List.mem_map_of_mem ht)⟩
  · intro hn
    have hr := hp.rmse
    unfold Perf.rmse at hr
    have hm : Fl.nan ∈ List.zipWith (fun a b : Fl ℝ => (a - b).sq) q.xs q.ys := by
      obtain ⟨j, hj, he⟩ := List.mem_iff_getElem.mp hn
      rw [List.mem_iff_getElem]
      refine ⟨j, by rw [List.length_zipWith, hp.len]; simpa using hj, ?_⟩
      rw [List.getElem_zipWith, he]
      cases q.xs[j]'(by rw [hp.len]; exact hj) <;> rfl
    rw [mean_nan_mem hm] at hr
    exact (Except.ok.inj hr).symm

/-- **C130, when the plots can be drawn.** If the run without plots completes, and the true values of every panel are numbers, at least one and as many
as there are estimates, and no error bar that is asked for is negative, the run with plots completes. -/
theorem C130_runs_partial {strict : Bool} {o : PlotOpts} {cls : SynthClass} {w : Rand K} {seed : Option (Option Int)}
    {models : List (String × Modelled κ K)} {dataset : Py (Dataset κ K)} {truth : SynthKw K} {std : Option (List (Fl K))}
    {missing : Option (Fl K)} {write : Bool} {out : Validation κ K} (hnd : (models.map (·.1)).Nodup)
    (h : validate cls w seed models dataset truth missing write = .ok out)
    (hp : ∀ ty c p x y, out.results.lookup ty = some c → p ∈ o.axes → panelTruth truth std p = some x → panelEst c.fit p = some y →
      x ≠ [] ∧ (∀ v ∈ x, v.isFinite = true) ∧ x.length = y.length ∧
      (o.errorbar = true → ∀ b r v, panelBars c.fit p = some b → r ∈ b → v ∈ r → Fl.lt v 0 = false)) :
    ∃ d, validateDraw strict o cls w seed models dataset truth std missing write = .ok (out, d) := by
  obtain ⟨fits, h2, hca, hd⟩ := validateDraw_of (strict := strict) (o := o) (std := std) out h
  have hlook : ∀ ty fit, (ty, fit) ∈ fits → ∃ c, out.results.lookup ty = some c ∧ c.fit = fit ∧
      IsPercentage truth.quality (some fit.res.qualityScores) (fit.res.qualityScoresCi95.map fun p => [p.1, p.2]) c.qualityPerc ∧
      IsPercentage truth.bias fit.res.observerBias fit.biasCi95 c.biasPerc ∧
      IsPercentage truth.inconsistency fit.res.observerInconsistency fit.inconsistencyCi95 c.inconsistencyPerc := by
    intro ty fit hf
    have hlast : (fits.filter fun p => p.1 = ty).getLast? = some (ty, fit) := by
      rw [← h2] at hnd
      have hall : ∀ p ∈ fits.filter fun p => p.1 = ty, p = (ty, fit) := by
        intro p hp
        rw [List.mem_filter] at hp
        have : p.1 = ty := by simpa using hp.2
        exact List.inj_on_of_nodup_map hnd hp.1 hf this
      have hne : (fits.filter fun p => p.1 = ty) ≠ [] := by
        intro hnil
        have : (ty, fit) ∈ fits.filter fun p => p.1 = ty := List.mem_filter.mpr ⟨hf, by simp⟩
        rw [hnil] at this
        cases this
      rw [List.getLast?_eq_getLast_of_ne_nil hne, hall _ (List.getLast_mem hne)]
    obtain ⟨c, k1, k2, k3, k4⟩ := checkAll_perc hca (by rw [h2]; exact hnd) ty fit hf fit (by rw [lookup_foldl, hlast]; rfl)
    refine ⟨c, k1, ?_, k2, k3, k4⟩
    have := checkAll_fit hca ty
    rw [k1, lookup_foldl, hlast] at this
    simpa using this
  obtain ⟨d, hdd⟩ := checkDraw_fwd (strict := strict) (o := o) (std := std) hca (by
    rintro ⟨ty, fit⟩ hf p hax
    obtain ⟨c, c1, c2, q1, q2, q3⟩ := hlook ty fit hf
    dsimp only
    rw [panel_eq]
    cases hx : panelTruth truth std p with
    | none =>
      cases hy : panelEst fit p <;> exact ⟨none, rfl⟩
    | some x =>
      cases hy : panelEst fit p with
      | none => exact ⟨none, rfl⟩
      | some y =>
        obtain ⟨a1, a2, a3, a4⟩ := hp ty c p x y c1 hax hx (by rw [c2]; exact hy)
        rw [c2] at a4
        have hperc : ∀ b, panelBars fit p = some b → ∃ v l u, Ci.ciPercentage (some x) (some y) (some b) = .ok v ∧ b = [l, u] ∧
            l.length = y.length ∧ u.length = y.length := by
          intro b hb
          have key : ∀ v, IsPercentage (panelTruth truth std p) (panelEst fit p) (panelBars fit p) v →
              ∃ v l u, Ci.ciPercentage (some x) (some y) (some b) = .ok v ∧ b = [l, u] ∧ l.length = y.length ∧ u.length = y.length := by
            intro v hv
            obtain ⟨l, u, r, f1, f2, f3⟩ := hv.1 x y b hx hy hb
            obtain ⟨n, fx, fy, fl, fu, hn, q1, q2, q3, q4, q5⟩ := f3
            subst f1 q1 q2 q3 q4
            exact ⟨_, _, _, ciPercentage_ofFn hn fx fy fl fu, rfl, by simp, by simp⟩
          cases p with
          | quality => exact key _ q1
          | qualityStd => cases hb
          | bias => exact key _ q2
          | inconsistency => exact key _ q3
          | ambiguity => cases hb
        have hcx : (if cuts p then x.take (min x.length y.length) else x) = x := by
          rw [a3, Nat.min_self, ← a3, List.take_length, ite_self]
        have hcy : (if cuts p then y.take (min x.length y.length) else y) = y := by
          rw [a3, Nat.min_self, List.take_length, ite_self]
        have hline : ∃ l, line x = .ok l := by
          have : ∃ z : List K, x = z.map fun v => (Fl.fin v : Fl K) := by
            clear a1 a3 hx hcx hperc hcy
            induction x with
            | nil => exact ⟨[], rfl⟩
            | cons v x ih =>
              obtain ⟨z, hz⟩ := ih fun v hv => a2 v (List.mem_cons_of_mem _ hv)
              have := a2 v List.mem_cons_self
              cases v with
              | fin v => exact ⟨v :: z, by rw [hz]; rfl⟩
              | nan => simp [Fl.isFinite] at this
              | pinf => simp [Fl.isFinite] at this
              | ninf => simp [Fl.isFinite] at this
          obtain ⟨z, hz⟩ := this
          subst hz
          obtain ⟨a, b, k, -⟩ := line_fin (l := z) (by rintro rfl; simp at a1)
          exact ⟨_, k⟩
        obtain ⟨l, hl⟩ := hline
        unfold points
        dsimp only
        rw [hcx, hcy]
        cases hb : panelBars fit p with
        | none =>
          dsimp only
          rw [evaluate_rmse, if_pos a3]
          unfold Perf.rmse
          dsimp only
          rw [ite_self]
          dsimp only
          rw [hl]
          exact ⟨_, rfl⟩
        | some b =>
          obtain ⟨v, lo, up, hv, hbe, hlo, hup⟩ := hperc b hb
          dsimp only
          rw [hv]
          dsimp only
          rw [evaluate_rmse, if_pos a3]
          unfold Perf.rmse
          dsimp only
          by_cases he : o.errorbar = true
          · rw [if_pos he]
            dsimp only
            have herr : errorbar strict y b = .ok () := by
              unfold errorbar
              rw [if_pos (by subst hbe; simp [hlo, hup]), if_neg]
              simp only [Bool.and_eq_true, List.any_eq_true, not_and, not_exists]
              intro _ r hr v hv hlt
              have := a4 he b r v hb hr hv
              cases v with
              | fin v =>
                have h1 : v < -v := by
                  have : Fl.lt (.fin v) (.fin (-v)) = true := hlt
                  simpa [Fl.lt] using this
                have h2 : ¬ v < 0 := by
                  have h0 : Fl.lt (.fin v) (.fin (0 : K)) = false := this
                  simpa [Fl.lt] using h0
                have : 0 ≤ v := not_lt.mp h2
                linarith
              | nan => simp [Fl.lt] at hlt
              | pinf => exact absurd hlt (by show ¬ Fl.lt .pinf .ninf = true; simp [Fl.lt])
              | ninf =>
                have h0 : Fl.lt .ninf (.fin (0 : K)) = false := this
                simp [Fl.lt] at h0
            rw [herr]
            dsimp only
            rw [hl]
            exact ⟨_, rfl⟩
          · rw [if_neg he]
            dsimp only
            rw [hl]
            exact ⟨_, rfl⟩)
  exact ⟨d, hd d hdd⟩

/-- **C130, refuted for negative error bars.** If error bars are asked for and one half width is negative, a matplotlib from version 3.4 on does not let the run
complete: nothing is returned, although the run without plots completes. -/
theorem C130_refuted_negative {o : PlotOpts} {cls : SynthClass} {w : Rand K} {seed : Option (Option Int)}
    {models : List (String × Modelled κ K)} {dataset : Py (Dataset κ K)} {truth : SynthKw K} {std : Option (List (Fl K))}
    {missing : Option (Fl K)} {write : Bool} {out : Validation κ K} (hnd : (models.map (·.1)).Nodup)
    (h : validate cls w seed models dataset truth missing write = .ok out) (ho : o.errorbar = true)
    (ty : String) (c : Checked κ K) (p : Panel) (b : List (List (Fl K))) (r : List (Fl K)) (v : K)
    (hc : out.results.lookup ty = some c) (hax : p ∈ o.axes) (ht : (panelTruth truth std p).isSome = true)
    (he : (panelEst c.fit p).isSome = true) (hb : panelBars c.fit p = some b) (hr : r ∈ b) (hv : .fin v ∈ r) (hneg : v < 0) :
    ∀ z, validateDraw true o cls w seed models dataset truth std missing write ≠ .ok z := by
  rintro ⟨out', d⟩ hz
  have hout : out' = out := by
    have := (validateDraw_inv hz).1
    rw [h] at this
    exact (Except.ok.inj this).symm
  subst hout
  obtain ⟨q, hq⟩ := ((C130_drawn hnd hz).2 ty p).mpr ⟨hax, ht, c, hc, he⟩
  obtain ⟨hv', fits, h1, h2, h3⟩ := validateDraw_inv hz
  obtain ⟨hca, -, g2⟩ := checkDraw_inv h1
  obtain ⟨-, ⟨ty', fit⟩, hf, hty, x, y, hx, hy, hp⟩ := g2 _ hq
  dsimp only at hty hx hy hp
  subst hty
  obtain ⟨c', c1, c2⟩ := h3 hnd _ _ hf
  rw [hc] at c1
  cases c1
  rw [c2] at hb
  have := hp.bar b ho hb
  unfold errorbar at this
  split_ifs at this with h4 h5
  apply h5
  simp only [Bool.true_and, List.any_eq_true]
  refine ⟨r, hr, .fin v, hv, ?_⟩
  show Fl.lt (.fin v) (.fin (-v)) = true
  simp [Fl.lt, hneg]

theorem readerAt_shape {cls : SynthClass} {w : Rand K} {seed : Option (Option Int)} {d : Dataset κ K} {truth : SynthKw K} {i : ℕ}
    {rd : Reader κ K} {a : Arr3D (Fl K)} (h : readerAt cls w seed d truth none i = .ok rd) (ha : rd.scores = .ok a) :
    ∃ b sg, truth.bias = some b ∧ truth.inconsistency = some sg ∧ a.S = b.length ∧ sg.length = b.length := by
  have key : ∀ (scale : Fl K) (g : ℕ → K) (cids : List ℤ) (q b sg mu dl : List (Fl K)) (phi : Option (List (Fl K))) (a : Arr3D (Fl K)),
      synthetic scale g cids q b sg mu dl phi = .ok a → a.S = b.length := by
    intro scale g cids q b sg mu dl phi a h
    unfold synthetic at h
    split at h
    · cases h
    · cases h
    · dsimp only at h
      split at h
      · cases h; rfl
      · split_ifs at h
        cases h; rfl
  unfold readerAt synthAt at h
  cases cls with
  | normal =>
    dsimp only at h
    unfold syntheticReader at h
    split at h
    · cases h
    · split at h
      · rename_i q b sg mu dl _ hb hs _ _
        split_ifs at h with hok
        cases h
        refine ⟨b, sg, hb, hs, key _ _ _ _ _ _ _ _ _ _ ha, ?_⟩
        simp only [synthOk, Bool.and_eq_true, decide_eq_true_eq] at hok
        exact hok.1.1.1
      · cases h
  | logistic =>
    dsimp only at h
    unfold logisticReader at h
    split at h
    · cases h
    · split at h
      · rename_i q b sg mu dl _ hb hs _ _
        by_cases hok : synthOk d.disVideos.length d.refVideos.length q b sg mu dl = true
        swap
        · rw [if_neg hok] at h; cases h
        rw [if_pos hok] at h
        cases h
        dsimp only at ha
        split at ha
        · cases ha
        · rename_i a' ha'
          split_ifs at ha
          cases ha
          refine ⟨b, sg, hb, hs, key _ _ _ _ _ _ _ _ _ _ ha', ?_⟩
          simp only [synthOk, Bool.and_eq_true, decide_eq_true_eq] at hok
          exact hok.1.1.1
      · cases h

/-- **C130, maximum likelihood models.** Without missing votes the panels of the maximum likelihood models show every video and every observer. -/
theorem C130_all_mle {strict : Bool} {o : PlotOpts} {cls : SynthClass} {w : Rand K} {seed : Option (Option Int)}
    {models : List (String × Modelled κ K)} {dataset : Py (Dataset κ K)} {truth : SynthKw K} {std : Option (List (Fl K))}
    {write : Bool} {out : Validation κ K} {d : Drawn K} (hnd : (models.map (·.1)).Nodup)
    (h : validateDraw strict o cls w seed models dataset truth std none write = .ok (out, d))
    (j : ℕ) (ty : String) (ppf : Fl K → ℕ → Fl K) (mode : Mle.Mode) (om : Mle.Opts K) (hj : models[j]? = some (ty, mle ppf mode om))
    (p : Panel) (q : Points K) (hq : (ty, p, q) ∈ d) :
    p ≠ .ambiguity ∧ panelTruth truth std p = some q.xs ∧ ∃ c, out.results.lookup ty = some c ∧ panelEst c.fit p = some q.ys := by
  obtain ⟨c, x, y, c1, hx, hy, -, -, -, -, k1, k2, -⟩ := C130_points_partial hnd h ty p q hq
  obtain ⟨ds, fits, e1, e4, h5, -, h7⟩ := C98_results (validateDraw_inv h).1
  obtain ⟨fit, f1, f2⟩ := h5 j ty _ hj
  obtain ⟨c', c1', c2', -⟩ := h7 hnd ty fit (List.mem_of_getElem? f1)
  rw [c1] at c1'
  cases c1'
  subst c2'
  unfold mle at f2
  dsimp only at f2
  split at f2
  · cases f2
  · rename_i rd hrd
    split at f2
    · cases f2
    · rename_i rd2 hrd2
      split at f2
      · cases f2
      · rename_i r hr
        have f2 := Except.ok.inj f2
        obtain ⟨pr, C, m, mos, cid, f, dens, obs, hrun, hres⟩ := Mle.runTwo_inv hr
        obtain ⟨hs, -, hS, -⟩ := preprocess_shape hrun.hsr hrun.hp
        obtain ⟨b, sg, hb, hsg, ha, hl⟩ := readerAt_shape hrd hs
        have hbias : c.fit.res.observerBias = (if mode = .subjectOblivious then none else some (List.ofFn (Mle.centre (Ap.forced om.base) f.p).b)) := by
          rw [← f2, hres]; rfl
        have hinc : c.fit.res.observerInconsistency = (if mode = .subjectOblivious then none else some (List.ofFn (Mle.centre (Ap.forced om.base) f.p).v)) := by
          rw [← f2, hres]; rfl
        have hamb : c.fit.res.qualityAmbiguity = none := by rw [← f2, hres]; rfl
        have hlen : x.length = y.length := by
          cases p with
          | quality => exact k1 (.inl rfl)
          | qualityStd => exact k1 (.inr rfl)
          | bias =>
            have e : some b = some x := hb.symm.trans hx
            have e' := hbias.symm.trans hy
            split_ifs at e'
            cases e; cases e'
            simp [← ha, hS]
          | inconsistency =>
            have e : some sg = some x := hsg.symm.trans hx
            have e' := hinc.symm.trans hy
            split_ifs at e'
            cases e; cases e'
            simp [hl, ← ha, hS]
          | ambiguity =>
            have e' : none = some y := hamb.symm.trans hy
            cases e'
        obtain ⟨rfl, rfl⟩ := k2 hlen
        refine ⟨?_, hx, c, c1, hy⟩
        rintro rfl
        have e' : none = some q.ys := hamb.symm.trans hy
        cases e'

attribute [local instance] ratMath in
/-- `C130_all_mle` applies to the validation of the subject-oblivious model with the seed 7 -/
example (ppf : Fl ℚ → ℕ → Fl ℚ) : ∃ out d q,
    validateDraw true { axes := [.quality] } .normal exTwiceRand (some (some 7)) [("MLE_SO", mle ppf .subjectOblivious { deltaThr := some 1 })] (.ok exTwice)
      (synthKw [1] [-1, 1] [2, 2] [0] [0] none) none none false = .ok (out, d) ∧ ("MLE_SO", .quality, q) ∈ d ∧ q.xs = [.fin 1] := by
  obtain ⟨out, h, c, hc, hl⟩ := exTwice_validate ppf
  obtain ⟨d, hd⟩ := C130_runs_partial (strict := true) (o := { axes := [.quality] }) (std := none) (by simp) h (by
    intro ty c' p x y h1 h2 h3 h4
    obtain rfl : p = .quality := by simpa using h2
    have hty : ty = "MLE_SO" := by
      obtain ⟨d', fits, e1, e2, -, e3, -⟩ := C98_results h
      have := e3 ty
      rw [h1] at this
      by_contra hne
      have hnil : (fits.filter fun p => p.1 = ty) = [] := by
        rw [List.filter_eq_nil_iff]
        intro f hf hft
        have : f.1 ∈ fits.map (·.1) := List.mem_map_of_mem hf
        rw [e2] at this
        simp only [List.map_cons, List.map_nil, List.mem_singleton] at this
        exact hne (by rw [← of_decide_eq_true hft, this])
      rw [hnil] at this
      simp at this
    subst hty
    rw [hc] at h1
    cases h1
    have e3 : [Fl.fin (1 : ℚ)] = x := Option.some.inj h3
    have e4 : c.fit.res.qualityScores = y := Option.some.inj h4
    subst e3 e4
    refine ⟨by simp, by simp [Fl.isFinite], by rw [hl]; rfl, by simp⟩)
  obtain ⟨q, hq⟩ := ((C130_drawn (by simp) hd).2 "MLE_SO" .quality).mpr ⟨by simp, rfl, c, hc, rfl⟩
  refine ⟨out, d, q, hd, hq, ?_⟩
  obtain ⟨-, k, -⟩ := C130_all_mle (by simp) hd 0 "MLE_SO" ppf .subjectOblivious _ rfl .quality q hq
  exact (Option.some.inj k).symm

/-- a model class of one's own with the same scores, intervals and biases whatever the votes -/
def exFixed (q : List (Fl ℚ)) (ci : Option (List (Fl ℚ) × List (Fl ℚ))) (b : Option (List (Fl ℚ))) : Modelled String ℚ :=
  .once fun _ => .ok { res := { qualityScores := q, qualityScoresCi95 := ci, observerBias := b } }

attribute [local instance] ratMath in
/-- **C130, refuted for fewer estimates than true values.** A model that reports the bias of one observer out of two gets a plot of one point, and the error in
its label is that of this point alone; the run completes. -/
theorem C130_refuted_cut : ∃ out d q, validateDraw true { axes := [.bias] } .normal exRand none [("A", exFixed [.fin 3, .fin 4] none (some [.fin 0]))]
      (.ok flipDs) (synthKw [3, 4] [0, 1] [1, 2] [0] [0] none) none none false = .ok (out, d) ∧ ("A", .bias, q) ∈ d ∧
    q.xs = [.fin 0] ∧ q.ys = [.fin 0] ∧ q.rmse = .fin 0 := by
  obtain ⟨⟨out, d⟩, h, hP⟩ := okWith_elim
    (x := validateDraw true { axes := [.bias] } .normal exRand none [("A", exFixed [.fin 3, .fin 4] none (some [.fin 0]))]
      (.ok flipDs) (synthKw [3, 4] [0, 1] [1, 2] [0] [0] none) none none false)
    (P := fun z => match z.2 with
      | [(ty, p, q)] => decide (ty = "A" ∧ p = .bias ∧ q.xs = [.fin 0] ∧ q.ys = [.fin 0] ∧ q.rmse = .fin 0)
      | _ => false) (by decide +kernel)
  dsimp only at hP
  split at hP
  · rename_i ty p q
    obtain ⟨rfl, rfl, h1, h2, h3⟩ := of_decide_eq_true hP
    exact ⟨out, _, q, h, List.mem_singleton.mpr rfl, h1, h2, h3⟩
  · cases hP

attribute [local instance] ratMath in
/-- the hypotheses of the theorems above are met: two models, three panels, error bars for one of the models -/
example : okWith (validateDraw true { axes := [.quality, .bias, .ambiguity], errorbar := true, colors := [("B", "red")] } .normal exRand none
      [("A", exFixed [.fin 3, .fin 4] none none), ("B", exFixed [.fin (7 / 2), .fin 9] (some ([.fin 1, .fin 1], [.fin 1, .fin 1])) (some [.fin 0, .fin 1]))]
      (.ok flipDs) (synthKw [3, 4] [0, 1] [1, 2] [0] [0] none) none none false) (fun z =>
        decide (z.2.map (fun t => (t.1, t.2.1, t.2.2.color)) = [("A", .quality, "black"), ("B", .quality, "red"), ("B", .bias, "red")]) &&
        decide (z.2.map (fun t => (t.2.2.xs, t.2.2.ys, t.2.2.perc)) =
          [([.fin 3, .fin 4], [.fin 3, .fin 4], none), ([.fin 3, .fin 4], [.fin (7 / 2), .fin 9], some (.fin 50)),
           ([.fin 0, .fin 1], [.fin 0, .fin 1], none)]) &&
        decide (z.2.map (fun t => t.2.2.line) = [(.fin 3, .fin 4), (.fin 3, .fin 4), (.fin 0, .fin 1)])) = true := by
  decide +kernel

attribute [local instance] ratMath in
/-- `C130_refuted_negative` applies: the run without plots completes, with a matplotlib before 3.4 also the one with plots; later it is a ValueError -/
example :
    (∃ out, validate .normal exRand none [("A", exFixed [.fin 3, .fin 4] (some ([.fin 1, .fin (-1)], [.fin 1, .fin 1])) none)] (.ok flipDs)
      (synthKw [3, 4] [0, 1] [1, 2] [0] [0] none) none false = .ok out ∧ ∃ c, out.results.lookup "A" = some c ∧
        panelBars c.fit .quality = some [[.fin 1, .fin (-1)], [.fin 1, .fin 1]]) ∧
    okWith (validateDraw false { axes := [.quality], errorbar := true } .normal exRand none
      [("A", exFixed [.fin 3, .fin 4] (some ([.fin 1, .fin (-1)], [.fin 1, .fin 1])) none)] (.ok flipDs)
      (synthKw [3, 4] [0, 1] [1, 2] [0] [0] none) none none false) (fun z => decide (z.2.length = 1)) = true ∧
    (match validateDraw true { axes := [.quality], errorbar := true } .normal exRand none
      [("A", exFixed [.fin 3, .fin 4] (some ([.fin 1, .fin (-1)], [.fin 1, .fin 1])) none)] (.ok flipDs)
      (synthKw [3, 4] [0, 1] [1, 2] [0] [0] none) none none false with
    | .error e => decide (e = .value)
    | .ok _ => false) = true := by
  refine ⟨?_, by decide +kernel, by decide +kernel⟩
  obtain ⟨out, h, hP⟩ := okWith_elim
    (x := validate .normal exRand none [("A", exFixed [.fin 3, .fin 4] (some ([.fin 1, .fin (-1)], [.fin 1, .fin 1])) none)] (.ok flipDs)
      (synthKw [3, 4] [0, 1] [1, 2] [0] [0] none) none false)
    (P := fun out => match out.results.lookup "A" with
      | none => false
      | some c => decide (panelBars c.fit .quality = some [[.fin 1, .fin (-1)], [.fin 1, .fin 1]])) (by decide +kernel)
  split at hP
  · cases hP
  · rename_i c hc
    exact ⟨out, h, c, hc, of_decide_eq_true hP⟩

end Sureal.Props
