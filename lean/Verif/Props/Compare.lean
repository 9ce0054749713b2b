import Verif.Spec.Compare
import Verif.Props.SampleStats
import Verif.Props.Perf
import Verif.Props.RoundingFraction
import Verif.Props.FileName
/-!
# C131: the comparison of target models with compared models
-/
set_option linter.unusedSectionVars false
namespace Sureal.Props
open Spec Mock Routine SynthLaw Fl

section
variable {κ K : Type} [LinearOrder κ] [Zero K] [One K] [Add K] [Neg K] [Sub K] [Mul K] [Div K] [NatCast K]
  [LT K] [LE K] [DecidableLT K] [DecidableLE K] [MathFn K]

theorem mapPy_get {α β : Type} {f : α → Py β} {l : List α} {bs : List β} (h : mapPy f l = .ok bs) {i : ℕ} {a : α} (ha : l[i]? = some a) :
    ∃ b, bs[i]? = some b ∧ f a = .ok b := by
  have hl := mapPy_length h
  rw [mapPy_eq_ok_iff, List.forall₂_iff_get] at h
  obtain ⟨hi, rfl⟩ := List.getElem?_eq_some_iff.mp ha
  exact ⟨_, List.getElem?_eq_getElem (by omega), h.2 i hi (by omega)⟩

/-- `get_sample_stats` of one model gives one result -/
theorem sampleOne_single {frac : Option (Fl K)} {order : ℕ → List ℕ} {src : Source κ K} {m : Reader κ K → Py (Result κ K)}
    {reps : List (Report κ K)} (h : sampleOne frac order src [m] = .ok reps) : ∃ rep, reps = [rep] := by
  have hrun : ∀ reader, run src.path src.readPy src.readJson reader [m] = .ok reps → reps.length = 1 := by
    intro reader hr
    rw [run_source] at hr
    split at hr
    · cases hr
    · split at hr
      · cases hr
      · split at hr
        · cases hr
        · rename_i h1
          rw [mapPy_length hr, mapPy_length h1]
          rfl
  have hl : reps.length = 1 := by
    unfold sampleOne at h
    split at h
    · exact hrun _ h
    · split at h
      · split at h
        · cases h
        · split at h
          · cases h
          · split at h
            · cases h
            · exact hrun _ h
      · cases h
  exact List.length_eq_one_iff.mp hl

theorem wrapper_inv {find : String → Py (Reader κ K → Py (Result κ K))} {frac : Option (Fl K)} {order : ℕ → List ℕ} {src : Source κ K}
    {name : String} {rs : List (List (Report κ K))} (h : wrapper find frac order src name = .ok rs) :
    ∃ m rep rep', find name = .ok m ∧ sampleOne frac order src [m] = .ok [rep] ∧ rs = [[rep']] ∧
      rep'.result.qualityScores = rep.result.qualityScores := by
  unfold wrapper at h
  cases hf : find name with
  | error e => rw [hf] at h; cases h
  | ok m =>
    rw [hf] at h
    dsimp only at h
    unfold sampleStats at h
    simp only [List.zipIdx_cons, List.zipIdx_nil, mapPy] at h
    cases hs : sampleOne frac order src [m] with
    | error e => rw [hs] at h; cases h
    | ok reps =>
      obtain ⟨rep, rfl⟩ := sampleOne_single hs
      rw [hs] at h
      simp only [mapPy, trim] at h
      cases h
      exact ⟨m, rep, _, rfl, hs, rfl, rfl⟩

/-- **C131, what the wrapper returns.** A list with the report of the one dataset as its only element.  That report holds neither the votes nor the
reconstructions; everything else in it is as the model returned it. -/
theorem C131_trimmed {find : String → Py (Reader κ K → Py (Result κ K))} {frac : Option (Fl K)} {order : ℕ → List ℕ} {src : Source κ K}
    {name : String} {rs : List (List (Report κ K))} (h : wrapper find frac order src name = .ok rs) :
    ∃ m rep rep', find name = .ok m ∧ sampleOne frac order src [m] = .ok [rep] ∧ rs = [[rep']] ∧
      rep'.result.rawScores = none ∧ rep'.result.reconstructions = none ∧
      rep = { rep' with result := { rep'.result with rawScores := rep.result.rawScores, reconstructions := rep.result.reconstructions } } := by
  unfold wrapper at h
  cases hf : find name with
  | error e => rw [hf] at h; cases h
  | ok m =>
    rw [hf] at h
    dsimp only at h
    unfold sampleStats at h
    simp only [List.zipIdx_cons, List.zipIdx_nil, mapPy] at h
    cases hs : sampleOne frac order src [m] with
    | error e => rw [hs] at h; cases h
    | ok reps =>
      obtain ⟨rep, rfl⟩ := sampleOne_single hs
      rw [hs] at h
      simp only [mapPy, trim] at h
      cases h
      exact ⟨m, rep, _, rfl, hs, rfl, rfl, rfl, rfl⟩

theorem wrapper_fwd {find : String → Py (Reader κ K → Py (Result κ K))} {frac : Option (Fl K)} {order : ℕ → List ℕ} {src : Source κ K}
    {name : String} {m : Reader κ K → Py (Result κ K)} {rep : Report κ K} (hf : find name = .ok m)
    (hs : sampleOne frac order src [m] = .ok [rep]) :
    ∃ rep', wrapper find frac order src name = .ok [[rep']] ∧ rep'.result.qualityScores = rep.result.qualityScores := by
  unfold wrapper
  rw [hf]
  dsimp only
  unfold sampleStats
  simp only [List.zipIdx_cons, List.zipIdx_nil, mapPy, hs, trim]
  exact ⟨_, rfl, rfl⟩

theorem compared_inv {path : List Char} {xl yl : String} {xs ys : List (Fl K)} {c : Compared K} (h : compared path xl yl xs ys = .ok c) :
    c.label = (FileName.withoutExtension path).take 30 ∧ c.xlabel = xl ∧ c.ylabel = yl ∧ c.xs = xs ∧ c.ys = ys ∧ xs.length = ys.length ∧
    2 ≤ xs.length ∧ c.diffs = List.zipWith (fun y x => y - x) ys xs ∧ c.meanDiff = Np.mean c.diffs ∧ c.stdDiff = Np.std c.diffs ∧
    Stats.pearsonr xs ys = .ok c.plcc ∧ Stats.spearmanr xs ys = .ok c.srocc := by
  unfold compared at h
  dsimp only at h
  cases hp : Stats.pearsonr xs ys with
  | error e => rw [hp] at h; cases h
  | ok plcc =>
    rw [hp] at h
    dsimp only at h
    cases hs : Stats.spearmanr xs ys with
    | error e => rw [hs] at h; cases h
    | ok srocc =>
      rw [hs] at h
      cases h
      unfold Stats.pearsonr at hp
      by_cases h1 : xs.length ≠ ys.length
      · rw [if_pos h1] at hp; cases hp
      · by_cases h2 : xs.length < 2
        · rw [if_neg h1, if_pos h2] at hp; cases hp
        · exact ⟨rfl, rfl, rfl, rfl, rfl, not_not.mp h1, by omega, rfl, rfl, rfl, rfl, rfl⟩

/-- **C131, what is shown.** The figure of a dataset has a pair of axes per compared model.  Into the pair number `i` goes exactly one comparison: the `i`-th target model
against the `i`-th compared model.  Its points are the scores each of the two finds by itself for the videos of this dataset, in the same order, and the axes carry their names. -/
theorem C131_panels_partial (find : String → Py (Reader κ K → Py (Result κ K))) (fT fC : Option (Fl K)) (order : ℕ → ℕ → List ℕ) (src : Source κ K)
    (targets compareds : List String) (fig : Figure K) (h : compareOne find fT fC order src targets compareds = .ok fig) :
    fig.ncols = compareds.length ∧ fig.drawn.length = min targets.length compareds.length ∧
    ∀ i t c, targets[i]? = some t → compareds[i]? = some c → ∃ p mt mc, fig.drawn[i]? = some [p] ∧ find t = .ok mt ∧ find c = .ok mc ∧
      ScoresOf fT (order i) src mt p.xs ∧ ScoresOf fC (order (targets.length + i)) src mc p.ys ∧ p.xs.length = p.ys.length ∧
      p.xlabel = tag t fT ∧ p.ylabel = tag c fC ∧ p.label = (FileName.withoutExtension src.path).take 30 := by
  unfold compareOne at h
  split at h
  · cases h
  rename_i tss ht
  split at h
  · cases h
  rename_i css hc
  split_ifs at h with h0
  split at h
  · cases h
  rename_i drawn hd
  cases h
  have lt := mapPy_length ht
  have lc := mapPy_length hc
  have ld := mapPy_length hd
  simp only [List.length_zipIdx, List.length_zip] at lt lc ld
  dsimp only
  refine ⟨lc, by omega, ?_⟩
  intro i t c hti hci
  obtain ⟨ts, h1, h2⟩ := mapPy_get ht (i := i) (a := (t, i)) (by simp [List.getElem?_zipIdx, hti])
  obtain ⟨cs, h3, h4⟩ := mapPy_get hc (i := i) (a := (c, i)) (by simp [List.getElem?_zipIdx, hci])
  obtain ⟨ps, h5, h6⟩ := mapPy_get hd (i := i) (a := ((t, ts), (c, cs))) (by simp [List.getElem?_zip_eq_some, hti, hci, h1, h3])
  obtain ⟨mt, rep, rep', k1, k2, rfl, k3⟩ := wrapper_inv h2
  obtain ⟨mc, repc, repc', k4, k5, rfl, k6⟩ := wrapper_inv h4
  dsimp only at h6 k2 k5
  unfold axesPair at h6
  simp only [List.zip_cons_cons, List.zip_nil_right, mapPy] at h6
  split at h6
  · cases h6
  rename_i p hp
  cases h6
  obtain ⟨e1, e2, e3, e4, e5, e6, -⟩ := compared_inv hp
  exact ⟨p, mt, mc, h5, k1, k4, ⟨rep, k2, e4.trans k3⟩, ⟨repc, k5, e5.trans k6⟩, by rw [e4, e5, e6], e2, e3, e1⟩

/-- all numbers of a comparison come from its points -/
theorem drawn_compared {find : String → Py (Reader κ K → Py (Result κ K))} {fT fC : Option (Fl K)} {order : ℕ → ℕ → List ℕ} {src : Source κ K}
    {targets compareds : List String} {fig : Figure K} (h : compareOne find fT fC order src targets compareds = .ok fig) {i : ℕ}
    {l : List (Compared K)} (hi : fig.drawn[i]? = some l) {p : Compared K} (hp : p ∈ l) :
    ∃ xl yl, compared src.path xl yl p.xs p.ys = .ok p := by
  unfold compareOne at h
  split at h
  · cases h
  split at h
  · cases h
  split_ifs at h with h0
  split at h
  · cases h
  rename_i drawn hd
  cases h
  obtain ⟨hi', -⟩ := List.getElem?_eq_some_iff.mp hi
  have ld := mapPy_length hd
  obtain ⟨b, h1, h2⟩ := mapPy_get hd (List.getElem?_eq_getElem (i := i) (by dsimp only at hi'; omega))
  obtain rfl : b = l := Option.some.inj (h1.symm.trans hi)
  unfold axesPair at h2
  split at h2
  · obtain ⟨j, hj⟩ := List.getElem?_of_mem hp
    obtain ⟨hj', -⟩ := List.getElem?_eq_some_iff.mp hj
    have lm := mapPy_length h2
    obtain ⟨b', h3, h4⟩ := mapPy_get h2 (List.getElem?_eq_getElem (i := j) (by omega))
    obtain rfl : b' = p := Option.some.inj (h3.symm.trans hj)
    obtain ⟨-, -, -, e4, e5, -⟩ := compared_inv h4
    exact ⟨_, _, by rw [e4, e5]; exact h4⟩
  · cases h2

/-- **C131, success.** There is a figure as soon as all models run, there is one to compare, and the models to be paired give equally many scores, at least two. -/
theorem C131_runs (find : String → Py (Reader κ K → Py (Result κ K))) (fT fC : Option (Fl K)) (order : ℕ → ℕ → List ℕ) (src : Source κ K)
    (targets compareds : List String) (hne : compareds ≠ [])
    (ht : ∀ i t, targets[i]? = some t → ∃ m q, find t = .ok m ∧ ScoresOf fT (order i) src m q)
    (hc : ∀ i c, compareds[i]? = some c → ∃ m q, find c = .ok m ∧ ScoresOf fC (order (targets.length + i)) src m q)
    (hlen : ∀ i t c mt mc q q', targets[i]? = some t → compareds[i]? = some c → find t = .ok mt → find c = .ok mc → ScoresOf fT (order i) src mt q →
      ScoresOf fC (order (targets.length + i)) src mc q' → q.length = q'.length ∧ 2 ≤ q.length) :
    ∃ fig, compareOne find fT fC order src targets compareds = .ok fig := by
  have key : ∀ (frac : Option (Fl K)) (ord : ℕ → ℕ → List ℕ) (names : List String),
      (∀ i t, names[i]? = some t → ∃ m q, find t = .ok m ∧ ScoresOf frac (ord i) src m q) →
      ∃ tss, mapPy (fun p : String × ℕ => wrapper find frac (ord p.2) src p.1) names.zipIdx = .ok tss := by
    intro frac ord names hn
    have : ∀ p ∈ names.zipIdx, ∃ b, wrapper find frac (ord p.2) src p.1 = .ok b := by
      rintro ⟨t, i⟩ hp
      obtain ⟨m, q, h1, rep, h2, -⟩ := hn i t (by simpa [List.mem_zipIdx_iff_getElem?] using hp)
      obtain ⟨rep', h3, -⟩ := wrapper_fwd h1 h2
      exact ⟨_, h3⟩
    choose! g hg using this
    exact ⟨_, mapPy_ok hg⟩
  obtain ⟨tss, h1⟩ := key fT order targets ht
  obtain ⟨css, h2⟩ := key fC (fun i => order (targets.length + i)) compareds hc
  have lt := mapPy_length h1
  have lc := mapPy_length h2
  rw [List.length_zipIdx] at lt lc
  unfold compareOne
  rw [h1]
  dsimp only
  rw [h2]
  dsimp only
  rw [if_neg (by rw [lc]; exact fun h0 => hne (List.length_eq_zero_iff.mp h0))]
  have : ∀ p ∈ (targets.zip tss).zip (compareds.zip css), ∃ b, axesPair src.path (tag p.1.1 fT) (tag p.2.1 fC) p.1.2 p.2.2 = .ok b := by
    rintro ⟨⟨t, ts⟩, ⟨c, cs⟩⟩ hp
    obtain ⟨i, hi⟩ := List.getElem?_of_mem hp
    simp only [List.getElem?_zip_eq_some] at hi
    obtain ⟨⟨hti, hts⟩, hci, hcs⟩ := hi
    obtain ⟨ts', e1, e2⟩ := mapPy_get h1 (i := i) (a := (t, i)) (by simp [List.getElem?_zipIdx, hti])
    obtain ⟨cs', e3, e4⟩ := mapPy_get h2 (i := i) (a := (c, i)) (by simp [List.getElem?_zipIdx, hci])
    obtain rfl : ts' = ts := Option.some.inj (e1.symm.trans hts)
    obtain rfl : cs' = cs := Option.some.inj (e3.symm.trans hcs)
    obtain ⟨mt, rep, rep', k1, k2, rfl, k3⟩ := wrapper_inv e2
    obtain ⟨mc, repc, repc', k4, k5, rfl, k6⟩ := wrapper_inv e4
    obtain ⟨l1, l2⟩ := hlen i t c mt mc _ _ hti hci k1 k4 ⟨rep, k2, rfl⟩ ⟨repc, k5, rfl⟩
    dsimp only
    unfold axesPair compared Stats.pearsonr Stats.spearmanr
    simp only [List.zip_cons_cons, List.zip_nil_right, mapPy, k3, k6]
    rw [if_neg (by simpa using l1), if_neg (by omega)]
    dsimp only
    rw [if_neg (by simpa using l1), if_neg (by omega)]
    exact ⟨_, rfl⟩
  choose! g hg using this
  rw [mapPy_ok hg]
  exact ⟨_, rfl⟩

/-- **C131, refuted: all models are shown.** All models given are run, but of the longer list the models beyond the length of the shorter one are shown nowhere. -/
theorem C131_refuted_all (find : String → Py (Reader κ K → Py (Result κ K))) (fT fC : Option (Fl K)) (order : ℕ → ℕ → List ℕ) (src : Source κ K)
    (targets compareds : List String) (hne : targets.length ≠ compareds.length) (fig : Figure K)
    (h : compareOne find fT fC order src targets compareds = .ok fig) :
    (targets.length < compareds.length → fig.drawn.length < fig.ncols ∧ ∀ i c, targets.length ≤ i → compareds[i]? = some c → fig.drawn[i]? = none) ∧
    (compareds.length < targets.length → fig.drawn.length = fig.ncols ∧ ∀ i t, compareds.length ≤ i → targets[i]? = some t → fig.drawn[i]? = none) := by
  obtain ⟨h1, h2, -⟩ := C131_panels_partial find fT fC order src targets compareds fig h
  constructor
  · intro hl
    exact ⟨by omega, fun i c hi _ => List.getElem?_eq_none (by omega)⟩
  · intro hl
    exact ⟨by omega, fun i c hi _ => List.getElem?_eq_none (by omega)⟩

/-- **C131, several datasets.** One figure per dataset, in their order. -/
theorem C131_datasets (find : String → Py (Reader κ K → Py (Result κ K))) (fT fC : Option (Fl K)) (order : ℕ → ℕ → ℕ → List ℕ) (srcs : List (Source κ K))
    (targets compareds : List String) (figs : List (Figure K)) (h : compareModels find fT fC order srcs targets compareds = .ok figs) :
    figs.length = srcs.length ∧ ∀ i src, srcs[i]? = some src → ∃ fig, figs[i]? = some fig ∧
      compareOne find fT fC (order i) src targets compareds = .ok fig := by
  unfold compareModels at h
  refine ⟨by simpa using mapPy_length h, fun i src hi => ?_⟩
  exact mapPy_get h (i := i) (a := (src, i)) (by simp [List.getElem?_zipIdx, hi])

/-- **C131, with a seed.** All calls draw in the same order.  Then a model compared with itself from the same fraction is compared on the same observers: the points lie on the diagonal. -/
theorem C131_seed (find : String → Py (Reader κ K → Py (Result κ K))) (f : Option (Fl K)) (order : ℕ → List ℕ) (src : Source κ K)
    (targets compareds : List String) (fig : Figure K) (h : compareOne find f f (fun _ => order) src targets compareds = .ok fig)
    (i : ℕ) (t : String) (ht : targets[i]? = some t) (hc : compareds[i]? = some t) :
    ∃ p, fig.drawn[i]? = some [p] ∧ p.ys = p.xs := by
  obtain ⟨-, -, h3⟩ := C131_panels_partial find f f _ src targets compareds fig h
  obtain ⟨p, mt, mc, k1, k2, k3, ⟨rep, k4, k5⟩, ⟨repc, k6, k7⟩, -⟩ := h3 i t t ht hc
  rw [k2] at k3
  cases k3
  rw [k4] at k6
  cases k6
  exact ⟨p, k1, k7.trans k5.symm⟩

end

section
variable {κ : Type} [LinearOrder κ]

theorem compared_numbers {path : List Char} {xl yl : String} {ps : List (ℝ × ℝ)} {c : Compared ℝ}
    (h : compared path xl yl (ps.map fun p => .fin p.1) (ps.map fun p => .fin p.2) = .ok c) :
    c.diffs = (gaps ps).map .fin ∧ c.plcc = numOrNanOf (correlation ps) ∧ c.srocc = numOrNanOf (correlation (rankPairs ps)) ∧
    c.meanDiff = .fin (mean (gaps ps)) ∧ c.stdDiff = .fin (Real.sqrt (popVar (gaps ps))) ∧ ps ≠ [] := by
  obtain ⟨-, -, -, -, -, -, h2, h3, h4, h5, h6, h7⟩ := compared_inv h
  rw [List.length_map] at h2
  have hne : ps ≠ [] := by rintro rfl; simp at h2
  have hg : gaps ps ≠ [] := by simpa [gaps] using hne
  have hd : c.diffs = (gaps ps).map .fin := by
    rw [h3, List.zipWith_map, List.zipWith_self]
    simp [gaps]
  refine ⟨hd, ?_, ?_, ?_, ?_, hne⟩
  · rw [pcc_spec h2] at h6
    exact (Except.ok.inj h6).symm
  · rw [srcc_spec] at h7
    exact (Except.ok.inj h7).symm
  · rw [h4, hd, Np.mean_map_fin hg]
  · rw [h5, hd, Np.std, Np.var_map_fin hg, sqrt_fin (Np.popVar_nonneg _)]
    rfl

theorem mean_gaps (ps : List (ℝ × ℝ)) : mean (gaps ps) = mean (ps.map (·.2)) - mean (ps.map (·.1)) := by
  have : (gaps ps).sum = (ps.map (·.2)).sum - (ps.map (·.1)).sum := by
    induction ps with
    | nil => simp [gaps]
    | cons p ps ih =>
      simp only [gaps, List.map_cons, List.sum_cons] at ih ⊢
      rw [ih]
      ring
  unfold mean
  rw [this]
  simp only [gaps, List.length_map]
  ring

/-- **C131, numbers.** Where the scores of both models are numbers: the mean difference is the mean of the compared scores minus the mean of the target scores; mean
and standard deviation of the differences together make the root mean squared error, `mean² + std² = RMSE²`; and the two correlations are those of the scores and of their ranks. -/
theorem C131_numbers (find : String → Py (Reader κ ℝ → Py (Result κ ℝ))) (fT fC : Option (Fl ℝ)) (order : ℕ → ℕ → List ℕ) (src : Source κ ℝ)
    (targets compareds : List String) (fig : Figure ℝ) (h : compareOne find fT fC order src targets compareds = .ok fig) (i : ℕ) (c : Compared ℝ)
    (hi : fig.drawn[i]? = some [c]) (ps : List (ℝ × ℝ)) (hx : c.xs = ps.map fun p => .fin p.1) (hy : c.ys = ps.map fun p => .fin p.2) :
    c.diffs = (gaps ps).map .fin ∧ c.plcc = numOrNanOf (correlation ps) ∧ c.srocc = numOrNanOf (correlation (rankPairs ps)) ∧
    ∃ m s : ℝ, c.meanDiff = .fin m ∧ c.stdDiff = .fin s ∧ m = mean (ps.map (·.2)) - mean (ps.map (·.1)) ∧ 0 ≤ s ∧
      m ^ 2 + s ^ 2 = rmsError ps ^ 2 := by
  obtain ⟨xl, yl, hc⟩ := drawn_compared h hi (List.mem_singleton.mpr rfl)
  rw [hx, hy] at hc
  obtain ⟨h1, h2, h3, h4, h5, hne⟩ := compared_numbers hc
  refine ⟨h1, h2, h3, _, _, h4, h5, mean_gaps ps, Real.sqrt_nonneg _, ?_⟩
  rw [Real.sq_sqrt (Np.popVar_nonneg _)]
  unfold rmsError
  have hlen : (0 : ℝ) < ps.length := by exact_mod_cast List.length_pos_iff.mpr hne
  have hsum : ∀ (l : List ℝ) (m : ℝ), (l.map fun x => (x - m) ^ 2).sum = (l.map fun x => x ^ 2).sum - 2 * m * l.sum + l.length * m ^ 2 := by
    intro l m
    induction l with
    | nil => simp
    | cons a l ih =>
      simp only [List.map_cons, List.sum_cons, List.length_cons, ih]
      push_cast
      ring
  have hsq : (ps.map fun p => (p.1 - p.2) ^ 2) = (gaps ps).map fun x => x ^ 2 := by
    unfold gaps
    rw [List.map_map]
    apply List.map_congr_left
    intro p _
    simp only [Function.comp]
    ring
  rw [Real.sq_sqrt, hsq]
  · unfold popVar sqDev
    rw [hsum]
    have hl : (gaps ps).length = ps.length := by simp [gaps]
    unfold mean
    rw [List.length_map, hl]
    field_simp
    ring
  · unfold mean
    refine div_nonneg (List.sum_nonneg ?_) (by positivity)
    intro y hy
    obtain ⟨z, _, rfl⟩ := List.mem_map.mp hy
    positivity

theorem sqDev_zero {l : List ℝ} (h : sqDev l = 0) {a : ℝ} (ha : a ∈ l) : a = mean l := by
  unfold sqDev at h
  have h1 : ∀ y ∈ l.map fun x => (x - mean l) ^ 2, 0 ≤ y := by
    intro y hy
    obtain ⟨z, _, rfl⟩ := List.mem_map.mp hy
    positivity
  have h2 := List.single_le_sum h1 ((a - mean l) ^ 2) (List.mem_map_of_mem ha)
  rw [h] at h2
  have h3 : (a - mean l) ^ 2 = 0 := le_antisymm h2 (sq_nonneg _)
  have h4 := pow_eq_zero_iff (two_ne_zero) |>.mp h3
  linarith

theorem avgRank_lt {l : List ℝ} {x y : ℝ} (hx : x ∈ l) (h : x < y) : avgRank l x < avgRank l y := by
  have h1 : (l.countP fun z => decide (z < x)) + (l.countP fun z => decide (z = x)) ≤ l.countP fun z => decide (z < y) := by
    clear hx
    induction l with
    | nil => simp
    | cons a l ih =>
      simp only [List.countP_cons, decide_eq_true_eq]
      rcases lt_trichotomy a x with hax | hax | hax
      · rw [if_pos hax, if_neg hax.ne, if_pos (hax.trans h)]
        omega
      · subst hax
        rw [if_neg (lt_irrefl _), if_pos rfl, if_pos h]
        omega
      · rw [if_neg hax.not_gt, if_neg hax.ne']
        omega
  have h2 : 1 ≤ l.countP fun z => decide (z = x) := List.countP_pos_iff.mpr ⟨x, hx, by simp⟩
  have h1' : ((l.countP fun z => decide (z < x) : ℕ) : ℝ) + ((l.countP fun z => decide (z = x) : ℕ) : ℝ) ≤ ((l.countP fun z => decide (z < y) : ℕ) : ℝ) := by
    exact_mod_cast h1
  have h2' : (1 : ℝ) ≤ ((l.countP fun z => decide (z = x) : ℕ) : ℝ) := by exact_mod_cast h2
  have h3 : (0 : ℝ) ≤ ((l.countP fun z => decide (z = y) : ℕ) : ℝ) := Nat.cast_nonneg _
  unfold avgRank
  linarith

/-- **C131, a model compared with itself.** With a seed and the same fraction: mean and standard deviation of the differences are zero, and if the scores are not all the same, both correlations are 1. -/
theorem C131_same (find : String → Py (Reader κ ℝ → Py (Result κ ℝ))) (f : Option (Fl ℝ)) (order : ℕ → List ℕ) (src : Source κ ℝ)
    (targets compareds : List String) (fig : Figure ℝ) (h : compareOne find f f (fun _ => order) src targets compareds = .ok fig)
    (i : ℕ) (t : String) (ht : targets[i]? = some t) (hc : compareds[i]? = some t) (c : Compared ℝ) (hi : fig.drawn[i]? = some [c])
    (q : List ℝ) (hq : c.xs = q.map .fin) :
    c.meanDiff = .fin 0 ∧ c.stdDiff = .fin 0 ∧ ((∃ x ∈ q, ∃ y ∈ q, x < y) → c.plcc = .fin 1 ∧ c.srocc = .fin 1) := by
  obtain ⟨p, h1, h2⟩ := C131_seed find f order src targets compareds fig h i t ht hc
  rw [hi] at h1
  cases h1
  have hx : c.xs = (q.map fun x => (x, x)).map fun p : ℝ × ℝ => .fin p.1 := by rw [hq, List.map_map]; rfl
  have hy : c.ys = (q.map fun x => (x, x)).map fun p : ℝ × ℝ => .fin p.2 := by rw [h2, hq, List.map_map]; rfl
  obtain ⟨xl, yl, hcc⟩ := drawn_compared h hi (List.mem_singleton.mpr rfl)
  rw [hx, hy] at hcc
  obtain ⟨-, k2, k3, k4, k5, hne⟩ := compared_numbers hcc
  have hg : gaps (q.map fun x => (x, x)) = q.map fun _ => (0 : ℝ) := by
    unfold gaps
    rw [List.map_map]
    exact List.map_congr_left fun y _ => sub_self y
  have hm : mean (q.map fun _ => (0 : ℝ)) = 0 := by simp [mean]
  have hv : popVar (q.map fun _ => (0 : ℝ)) = 0 := by
    unfold popVar sqDev
    rw [hm, List.map_map, List.sum_eq_zero, zero_div]
    intro y hy
    obtain ⟨z, _, rfl⟩ := List.mem_map.mp hy
    simp
  refine ⟨by rw [k4, hg, hm], by rw [k5, hg, hv, Real.sqrt_zero], ?_⟩
  rintro ⟨x, hxq, y, hyq, hxy⟩
  have one : ∀ l : List ℝ, (∃ a ∈ l, ∃ b ∈ l, a ≠ b) → correlation (l.map fun x => (x, x)) = some 1 := by
    rintro l ⟨a, ha, b, hb, hab⟩
    have hpos : 0 < sqDev l := by
      rcases (Np.sqDev_nonneg l).lt_or_eq with h | h
      · exact h
      · exact absurd ((sqDev_zero h.symm ha).trans (sqDev_zero h.symm hb).symm) hab
    unfold correlation
    have e1 : (l.map fun x => (x, x)).map (·.1) = l := by rw [List.map_map]; exact List.map_id l
    have e2 : (l.map fun x => (x, x)).map (·.2) = l := by rw [List.map_map]; exact List.map_id l
    rw [e1, e2, if_neg (by rintro (h | h) <;> exact hpos.ne' h), List.map_map]
    congr 1
    rw [Real.mul_self_sqrt hpos.le]
    have : ((fun p : ℝ × ℝ => (p.1 - mean l) * (p.2 - mean l)) ∘ fun x => (x, x)) = fun x => (x - mean l) ^ 2 := by
      funext x
      simp only [Function.comp]
      ring
    rw [this]
    exact div_self hpos.ne'
  refine ⟨by rw [k2, one q ⟨x, hxq, y, hyq, hxy.ne⟩]; rfl, ?_⟩
  have hr : rankPairs (q.map fun x => (x, x)) = (q.map (avgRank q)).map fun x => (x, x) := by
    unfold rankPairs
    simp [List.map_map, Function.comp_def]
  rw [k3, hr, one _ ⟨_, List.mem_map_of_mem hxq, _, List.mem_map_of_mem hyq, ?_⟩]
  · rfl
  · exact (avgRank_lt hxq hxy).ne

/-- **C131, with a seed: fractions.** The observers of the smaller fraction are among those of the larger one. -/
theorem C131_nested (f₁ f₂ : ℝ) (h0 : 0 < f₁) (h12 : f₁ ≤ f₂) (h1 : f₂ ≤ 1) (src : Source κ ℝ) (d : Dataset κ ℝ) (hd : Reads src d)
    (rd : Reader κ ℝ) (hraw : rawReader d = .ok rd) (base : Arr3D (Fl ℝ)) (hbase : rd.scores = .ok base) (order : ℕ → List ℕ) :
    ∃ sel₁ sel₂ : List ℤ, sel₁ <+: sel₂ ∧ ∀ models,
      sampleOne (some (.fin f₁)) order src models = run src.path src.readPy src.readJson (fun d => selectSubjectReader d (some sel₁)) models ∧
      sampleOne (some (.fin f₂)) order src models = run src.path src.readPy src.readJson (fun d => selectSubjectReader d (some sel₂)) models := by
  have hd' := import_of_reads hd
  refine ⟨_, _, ?_, fun models => ⟨sampleOne_eq h0 (h12.trans h1) hd' hraw hbase order models,
    sampleOne_eq (h0.trans_le h12) h1 hd' hraw hbase order models⟩⟩
  have hle : ⌊(base.S : ℝ) * f₁⌋₊ ≤ ⌊(base.S : ℝ) * f₂⌋₊ :=
    Nat.floor_le_floor (mul_le_mul_of_nonneg_left h12 (Nat.cast_nonneg _))
  rw [List.map_take, List.map_take]
  exact List.take_prefix_take_left hle

theorem ScoresOf.unique {frac : Option (Fl ℝ)} {o : ℕ → List ℕ} {src : Source κ ℝ} {m : Reader κ ℝ → Py (Result κ ℝ)} {q q' : List (Fl ℝ)}
    (h : ScoresOf frac o src m q) (h' : ScoresOf frac o src m q') : q = q' := by
  obtain ⟨r, e1, e2⟩ := h
  obtain ⟨r', e3, e4⟩ := h'
  rw [e1] at e3
  cases e3
  exact e2.trans e4.symm

theorem single_runs {find : String → Py (Reader κ ℝ → Py (Result κ ℝ))} {fT fC : Option (Fl ℝ)} {order : ℕ → ℕ → List ℕ} {src : Source κ ℝ}
    {t c : String} {mt mc : Reader κ ℝ → Py (Result κ ℝ)} (ht : find t = .ok mt) (hc : find c = .ok mc) {q q' : List (Fl ℝ)}
    (s1 : ScoresOf fT (order 0) src mt q) (s2 : ScoresOf fC (order 1) src mc q') (hl : q.length = q'.length) (h2 : 2 ≤ q.length) :
    ∃ fig, compareOne find fT fC order src [t] [c] = .ok fig := by
  refine C131_runs find fT fC order src [t] [c] (by simp) ?_ ?_ ?_
  · intro i t' hi
    cases i with
    | zero => cases hi; exact ⟨_, _, ht, s1⟩
    | succ i => simp at hi
  · intro i t' hi
    cases i with
    | zero => cases hi; exact ⟨_, _, hc, s2⟩
    | succ i => simp at hi
  · intro i t' c' mt' mc' p p' hi hi' hmt hmc hq hq'
    cases i with
    | succ i => simp at hi
    | zero =>
      cases hi
      cases hi'
      rw [ht] at hmt
      rw [hc] at hmc
      cases hmt
      cases hmc
      rw [ScoresOf.unique hq s1, ScoresOf.unique hq' s2]
      exact ⟨hl, h2⟩

theorem single_panel {find : String → Py (Reader κ ℝ → Py (Result κ ℝ))} {fT fC : Option (Fl ℝ)} {order : ℕ → ℕ → List ℕ} {src : Source κ ℝ}
    {t c : String} {fig : Figure ℝ} (hfig : compareOne find fT fC order src [t] [c] = .ok fig) {mt mc : Reader κ ℝ → Py (Result κ ℝ)}
    (ht : find t = .ok mt) (hc : find c = .ok mc) {q q' : List (Fl ℝ)} (s1 : ScoresOf fT (order 0) src mt q) (s2 : ScoresOf fC (order 1) src mc q') :
    ∃ p, fig.drawn = [[p]] ∧ ∃ xl yl, compared src.path xl yl q q' = .ok p := by
  obtain ⟨-, e2, e3⟩ := C131_panels_partial find fT fC order src [t] [c] fig hfig
  obtain ⟨p, mt', mc', k1, k2, k3, k4, k5, -⟩ := e3 0 t c rfl rfl
  rw [ht] at k2
  rw [hc] at k3
  cases k2
  cases k3
  refine ⟨p, ?_, ?_⟩
  · match hdr : fig.drawn, e2, k1 with
    | [a], _, k1 => simpa using k1
  · obtain ⟨xl, yl, hcc⟩ := drawn_compared hfig k1 (List.mem_singleton.mpr rfl)
    rw [ScoresOf.unique k4 s1, ScoresOf.unique k5 s2] at hcc
    exact ⟨xl, yl, hcc⟩

/-- **C131, no systematic difference.** Mean opinion scores of all observers against mean opinion scores of `k` observers drawn at random: the mean difference in the title is zero on average over the draws.
Missing as in C97: datasets in list style when some observers are left out. -/
theorem C131_unbiased_partial (src : Source κ ℝ) (d : Dataset κ ℝ) (hd : Reads src d) (rd : Reader κ ℝ) (hraw : rawReader d = .ok rd)
    {E S R : ℕ} (x : Fin E → Fin S → Fin R → ℝ) (hbase : rd.scores = .ok ⟨E, S, R, fun e s r => .fin (x e s r)⟩)
    (f : ℝ) (h0 : 0 < f) (h1 : f ≤ 1) (k : ℕ) (hk : (k : ℝ) ≤ S * f ∧ S * f < k + 1) (hk0 : k ≠ 0) (hR0 : R ≠ 0)
    (hstyle : (∀ dv ∈ d.disVideos, DictStyle dv) ∨ (∀ dv ∈ d.disVideos, SeqStyle dv) ∧ k = S) (h2 : 2 ≤ E)
    (find : String → Py (Reader κ ℝ → Py (Result κ ℝ))) (t c : String) (ht : find t = .ok fun rd => runMOS rd {}) (hc : find c = .ok fun rd => runMOS rd {}) :
    ∃ gap : Equiv.Perm (Fin S) → ℝ,
      (∀ σ order, order 1 S = inOrder σ → ∃ fig p, compareOne find none (some (.fin f)) order src [t] [c] = .ok fig ∧ fig.drawn = [[p]] ∧
        p.meanDiff = .fin (gap σ)) ∧
      orderMean S gap = 0 := by
  have h2' : 2 ≤ E * (k * R) := by
    have : 1 ≤ k * R := Nat.one_le_iff_ne_zero.mpr (Nat.mul_ne_zero hk0 hR0)
    nlinarith
  have hd' := import_of_reads hd
  have hkS : k ≤ S := by
    have : (k : ℝ) ≤ S := by
      have : (S : ℝ) * f ≤ S := by nlinarith [show (0 : ℝ) ≤ S from Nat.cast_nonneg S]
      linarith [hk.1]
    exact_mod_cast this
  have hS0 : S ≠ 0 := by omega
  have hfl : ⌊(S : ℝ) * f⌋₊ = k := (Nat.floor_eq_iff (by positivity)).mpr hk
  have hobs : (∃ o, rd.observers = .ok o) ∨ rd.observers = .error .assertion :=
    observers_cases hraw (hstyle.symm.imp And.left id)
  have hlen : ∀ {n : ℕ} (y : Fin E → Fin n → Fin R → ℝ),
      ((List.finRange E).map fun e => (present (videoCells (fun e s r => Fl.fin (y e s r)) e)).length).sum = E * (n * R) := by
    intro n y
    simp only [present_complete, length_complete]
    simp
  have hscore : ∀ {n : ℕ} (hn : n ≠ 0) (y : Fin E → Fin n → Fin R → ℝ) (e : Fin E),
      meanOrNan (videoCells (fun e s r => Fl.fin (y e s r)) e) = .fin (avg fun s => avg (y e s)) := by
    intro n hn y e
    unfold meanOrNan
    rw [present_complete, ← mean_complete hn hR0]
    cases hp : (List.ofFn fun s => List.ofFn (y e s)).flatten with
    | nil =>
      have := length_complete y e
      rw [hp] at this
      have h3 : n * R ≠ 0 := Nat.mul_ne_zero hn hR0
      exact absurd this.symm h3
    | cons => rfl
  let full : Fin E → ℝ := fun e => avg fun s => avg (x e s)
  let part : Equiv.Perm (Fin S) → Fin E → ℝ := fun σ e => avg fun s => avg (x e (σ (Fin.castLE hkS s)))
  refine ⟨fun σ => avg (part σ) - avg full, ?_, ?_⟩
  · intro σ order ho
    have s1 : ScoresOf none (order 0) src (fun rd => runMOS rd {}) (List.ofFn fun e => Fl.fin (full e)) := by
      obtain ⟨rep, hrep, hq⟩ := (run_mos hd' hraw hbase hobs fun e s r => Or.inr ⟨_, rfl⟩).2
        (by rw [hlen]; exact le_trans h2' (Nat.mul_le_mul_left _ (Nat.mul_le_mul_right _ hkS)))
      refine ⟨rep, hrep, ?_⟩
      rw [hq]
      exact congrArg List.ofFn (funext fun e => (hscore hS0 x e).symm)
    have s2 : ScoresOf (some (.fin f)) (order 1) src (fun rd => runMOS rd {}) (List.ofFn fun e => Fl.fin (part σ e)) := by
      obtain ⟨rd', h3, h4, h5⟩ := select_runs hraw hbase hkS hstyle σ
      obtain ⟨rep, hrep, hq⟩ := (run_mos hd' (reader := fun d => selectSubjectReader d
        (some (((inOrder σ).take k).map Int.ofNat))) h3 h5 (by rw [h4]; exact hobs) fun e s r => Or.inr ⟨_, rfl⟩).2
        (by rw [hlen]; exact h2')
      refine ⟨rep, ?_, ?_⟩
      · rw [sampleOne_eq h0 h1 hd' hraw hbase]
        dsimp only
        rw [ho, hfl]
        exact hrep
      · rw [hq]
        exact congrArg List.ofFn (funext fun e => (hscore hk0 (fun e s r => x e (σ (Fin.castLE hkS s)) r) e).symm)
    obtain ⟨fig, hfig⟩ := single_runs ht hc s1 s2 (by simp) (by simpa using h2)
    obtain ⟨p, k1, xl, yl, hcc⟩ := single_panel hfig ht hc s1 s2
    refine ⟨fig, p, hfig, k1, ?_⟩
    · let ps : List (ℝ × ℝ) := List.ofFn fun e => (full e, part σ e)
      have e1 : (List.ofFn fun e => Fl.fin (full e)) = ps.map fun p => Fl.fin p.1 := by rw [List.map_ofFn]; rfl
      have e2 : (List.ofFn fun e => Fl.fin (part σ e)) = ps.map fun p => Fl.fin p.2 := by rw [List.map_ofFn]; rfl
      rw [e1, e2] at hcc
      obtain ⟨-, -, -, e5, -⟩ := compared_numbers hcc
      rw [e5, mean_gaps]
      have f1 : ps.map (·.1) = List.ofFn full := by rw [List.map_ofFn]; rfl
      have f2 : ps.map (·.2) = List.ofFn (part σ) := by rw [List.map_ofFn]; rfl
      rw [f1, f2, mean_ofFn, mean_ofFn]
  · have h3 : ∀ e, orderMean S (fun σ => part σ e) = full e := fun e => orderMean_avg hkS hk0 fun s => avg (x e s)
    have hE : (E : ℝ) ≠ 0 := Nat.cast_ne_zero.mpr (by omega)
    have hfac : (S.factorial : ℝ) ≠ 0 := Nat.cast_ne_zero.mpr (Nat.factorial_ne_zero S)
    unfold orderMean at h3 ⊢
    rw [div_eq_zero_iff]
    left
    have h4 : ∀ e, ∑ σ, part σ e = S.factorial * full e := fun e => by
      rw [← h3 e]
      field_simp
    unfold SynthLaw.avg
    rw [Finset.sum_sub_distrib, ← Finset.sum_div, Finset.sum_comm, Finset.sum_congr rfl fun e _ => h4 e, ← Finset.mul_sum]
    simp [Fintype.card_perm]
    ring

/-- **C131, the fraction on the axes.** Without rounding, the whole part of the percentage is printed. -/
theorem C131_percent (f : ℝ) (h0 : 0 < f) (h1 : f ≤ 1) (k : ℕ) : percent (.fin f : Fl ℝ) = k ↔ (k : ℝ) ≤ 100 * f ∧ 100 * f < k + 1 := by
  have h : percent (.fin f : Fl ℝ) = fracNum 100 (.fin f : Fl ℝ) := by
    unfold percent fracNum
    congr 1
    funext i
    show decide (_ ≤ f * ((100 : ℕ) : ℝ)) = decide (_ ≤ ((100 : ℕ) : ℝ) * f)
    rw [mul_comm]
  rw [h, C97_size 100 h0 h1 k]
  norm_num

end

/-- **C131, refuted: the fraction on the axes.** Doubles: 0.29 of the observers are labelled as 28%. -/
theorem C131_refuted_percent : percent (.fin (⟨binary64 (29 / 100)⟩ : Rd (binary64 : ℚ → ℚ))) = 28 := by decide +kernel

example : percent (.fin (3 / 10) : Fl ℝ) = 30 := (C131_percent (3 / 10) (by norm_num) (by norm_num) 30).mpr (by norm_num)

/-! ## Examples -/

section
variable {κ K : Type} [LinearOrder κ] [Zero K] [One K] [Add K] [Neg K] [Sub K] [Mul K] [Div K] [NatCast K]
  [LT K] [LE K] [DecidableLT K] [DecidableLE K] [MathFn K]

/-- two of the models -/
def exFind (n : String) : Py (Reader κ K → Py (Result κ K)) :=
  if n = "MOS" then .ok fun rd => runMOS rd {} else if n = "BR_MOS" then .ok fun rd => runBR_MOS rd {} else .error .assertion
end

attribute [local instance] ratMath in
/-- One target, two compared models, two of three observers for the latter: there are two pairs of axes, the second of which stays empty. -/
theorem exCompare : ∃ fig p, compareOne exFind none (some (.fin (7 / 10))) (fun _ _ => [2, 1, 0]) ⟨"d/a.py".toList, .ok exNames, .error .json⟩ ["MOS"] ["MOS", "BR_MOS"] =
      .ok fig ∧ fig.ncols = 2 ∧ fig.drawn = [[p]] ∧ p.label = ['a'] ∧ p.xlabel = "MOS" ∧ p.ylabel = "MOS 70% data" ∧
      p.xs = [.fin 3, .fin (11 / 3)] ∧ p.ys = [.fin 4, .fin 4] ∧ p.meanDiff = .fin (2 / 3) := by
  obtain ⟨fig, h1, h2⟩ := okWith_elim (x := compareOne exFind none (some (.fin (7 / 10))) (fun _ _ => [2, 1, 0])
      ⟨"d/a.py".toList, .ok exNames, .error .json⟩ ["MOS"] ["MOS", "BR_MOS"])
    (P := fun fig => match fig.drawn with
      | [[p]] => decide (fig.ncols = 2) && decide (p.label = ['a'] ∧ p.xlabel = "MOS" ∧ p.ylabel = "MOS 70% data") &&
        decide (p.xs = [.fin 3, .fin (11 / 3)] ∧ p.ys = [.fin 4, .fin 4] ∧ p.meanDiff = .fin (2 / 3))
      | _ => false) (by decide +kernel)
  refine ⟨fig, ?_⟩
  split at h2
  · rename_i p hp
    simp only [Bool.and_eq_true, decide_eq_true_eq] at h2
    exact ⟨p, h1, h2.1.1, hp, h2.1.2.1, h2.1.2.2.1, h2.1.2.2.2, h2.2.1, h2.2.2.1, h2.2.2.2⟩
  · cases h2

attribute [local instance] ratMath in
/-- the hypotheses of `C131_refuted_all` are met -/
example : ∃ fig : Figure ℚ, fig.drawn.length < fig.ncols ∧ fig.drawn[1]? = none := by
  obtain ⟨fig, p, h, -⟩ := exCompare
  obtain ⟨h1, h2⟩ := (C131_refuted_all _ _ _ _ _ _ _ (by decide) fig h).1 (by decide)
  exact ⟨fig, h1, h2 1 "BR_MOS" (by decide) rfl⟩

/-- the hypotheses of `C131_unbiased_partial` are met: two of three observers -/
example : ∃ gap : Equiv.Perm (Fin 3) → ℝ, (∀ σ, ∃ fig p, compareOne exFind none (some (.fin (7 / 10))) (fun _ _ => inOrder (n := 3) σ)
      ⟨"a.py".toList, .ok exSample, .error .json⟩ ["MOS"] ["MOS"] = .ok fig ∧ fig.drawn = [[p]] ∧ p.meanDiff = .fin (gap σ)) ∧
    orderMean 3 gap = 0 := by
  obtain ⟨rd, h1, h2⟩ := exSample_reader
  have hd : ∀ dv ∈ exSample.disVideos, DictStyle dv := by
    intro dv hdv
    simp only [exSample, List.mem_cons, List.not_mem_nil, or_false] at hdv
    rcases hdv with rfl | rfl <;> exact ⟨_, rfl, by decide⟩
  obtain ⟨gap, h3, h4⟩ := C131_unbiased_partial ⟨"a.py".toList, .ok exSample, .error .json⟩ exSample
    (Or.inl ⟨⟨['a'], rfl⟩, rfl⟩) rd h1 exSampleVotes h2 (7 / 10) (by norm_num) (by norm_num) 2 (by norm_num) (by norm_num) (by norm_num) (Or.inl hd) (by norm_num)
    exFind "MOS" "MOS" rfl rfl
  exact ⟨gap, fun σ => h3 σ (fun _ _ => inOrder σ) rfl, h4⟩

/-- the hypotheses of `C131_numbers`, `C131_seed` and `C131_same` are met: the scores are 3 and 4 -/
example : ∃ fig p, compareOne exFind none none (fun _ _ => []) ⟨"a.py".toList, .ok exSample, .error .json⟩ ["MOS"] ["MOS"] = .ok fig ∧ fig.drawn = [[p]] ∧
    p.meanDiff = .fin 0 ∧ p.plcc = .fin 1 := by
  obtain ⟨rd, h1, h2⟩ := exSample_reader
  have hd : ∀ dv ∈ exSample.disVideos, DictStyle dv := by
    intro dv hdv
    simp only [exSample, List.mem_cons, List.not_mem_nil, or_false] at hdv
    rcases hdv with rfl | rfl <;> exact ⟨_, rfl, by decide⟩
  obtain ⟨rep, hrep, hq⟩ := (run_mos (import_of_reads (s := ⟨"a.py".toList, .ok exSample, .error .json⟩) (Or.inl ⟨⟨['a'], rfl⟩, rfl⟩)) h1 h2
    (observers_cases h1 (Or.inr hd)) fun e s r => Or.inr ⟨_, rfl⟩).2 (by
      simp only [present_complete, length_complete]
      decide)
  have hq' : rep.result.qualityScores = [.fin 3, .fin 4] := by
    rw [hq]
    show [_, _] = _
    congr 1
    · show meanOrNan [Fl.fin (exSampleVotes 0 0 0), .fin (exSampleVotes 0 1 0), .fin (exSampleVotes 0 2 0)] = _
      simp [meanOrNan, present, exSampleVotes, mean]
      norm_num
    · congr 1
      show meanOrNan [Fl.fin (exSampleVotes 1 0 0), .fin (exSampleVotes 1 1 0), .fin (exSampleVotes 1 2 0)] = _
      simp [meanOrNan, present, exSampleVotes, mean]
      norm_num
  have hs : ScoresOf none (fun _ => []) ⟨"a.py".toList, .ok exSample, .error .json⟩ (fun rd => runMOS rd {}) [Fl.fin (3 : ℝ), .fin 4] := ⟨rep, hrep, hq'.symm⟩
  obtain ⟨fig, hfig⟩ := single_runs (find := exFind) (t := "MOS") (c := "MOS") (order := fun _ _ => []) rfl rfl hs hs rfl (by simp)
  obtain ⟨p, hp, xl, yl, hcc⟩ := single_panel hfig rfl rfl hs hs
  obtain ⟨-, -, -, e4, -⟩ := compared_inv hcc
  obtain ⟨k1, -, k3⟩ := C131_same exFind none (fun _ => []) _ ["MOS"] ["MOS"] fig hfig 0 "MOS" rfl rfl p (by rw [hp]; rfl) [3, 4] e4
  exact ⟨fig, p, hfig, hp, k1, (k3 ⟨3, by simp, 4, by simp, by norm_num⟩).1⟩

/-- the hypotheses of `C131_nested` are met -/
example (order : ℕ → List ℕ) : ∃ sel₁ sel₂ : List ℤ, sel₁ <+: sel₂ ∧ ∀ models,
    sampleOne (some (.fin (1 / 3))) order ⟨"a.py".toList, .ok exSample, .error .json⟩ models =
      run "a.py".toList (.ok exSample) (.error .json) (fun d => selectSubjectReader d (some sel₁)) models ∧
    sampleOne (some (.fin (7 / 10))) order ⟨"a.py".toList, .ok exSample, .error .json⟩ models =
      run "a.py".toList (.ok exSample) (.error .json) (fun d => selectSubjectReader d (some sel₂)) models := by
  obtain ⟨rd, h1, h2⟩ := exSample_reader
  exact C131_nested (1 / 3) (7 / 10) (by norm_num) (by norm_num) (by norm_num) ⟨"a.py".toList, .ok exSample, .error .json⟩ exSample
    (Or.inl ⟨⟨['a'], rfl⟩, rfl⟩) rd h1 _ h2 order

end Sureal.Props
