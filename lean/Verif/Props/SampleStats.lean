import Verif.Lemmas.SampleStats
import Verif.Lemmas.RunModels
import Verif.Lemmas.BstpRun
import Verif.Props.Mock
import Verif.Props.SynthLaw
/-!
# C97: `get_sample_stats`
-/
set_option linter.unusedSectionVars false
namespace Sureal.Props
open Spec Mock Routine SynthLaw
variable {κ : Type} [LinearOrder κ]

theorem import_of_reads {K : Type} {s : Source κ K} {d : Dataset κ K} (h : Reads s d) : s.import = .ok d := by
  unfold Source.import
  rcases h with ⟨⟨l, hl⟩, h⟩ | ⟨⟨l, hl⟩, h⟩
  · rw [if_pos, h]
    exact List.isSuffixOf_iff_suffix.mpr ⟨l, hl.symm⟩
  · rw [if_neg, if_pos, h]
    · exact List.isSuffixOf_iff_suffix.mpr ⟨l, hl.symm⟩
    · intro hs
      obtain ⟨l', hl'⟩ := List.isSuffixOf_iff_suffix.mp hs
      rw [hl] at hl'
      have := congrArg List.getLast? hl'
      simp [show ".json".toList = ['.', 'j', 's', 'o', 'n'] from rfl] at this

/-- the numbers of an array without missing votes -/
theorem present_complete {E S R : ℕ} (x : Fin E → Fin S → Fin R → ℝ) (e : Fin E) :
    present (videoCells (fun e s r => Fl.fin (x e s r)) e) = (List.ofFn fun s => List.ofFn (x e s)).flatten := by
  unfold present videoCells
  rw [List.filterMap_flatten, List.map_ofFn]
  congr 2
  funext s
  simp only [Function.comp, List.ofFn_eq_map, List.filterMap_map]
  exact congrFun List.filterMap_eq_map' _

theorem length_complete {E S R : ℕ} (x : Fin E → Fin S → Fin R → ℝ) (e : Fin E) :
    (List.ofFn fun s => List.ofFn (x e s)).flatten.length = S * R := by
  rw [List.length_flatten, List.map_ofFn, List.sum_ofFn]
  simp

theorem mean_complete {E S R : ℕ} (hS : S ≠ 0) (hR : R ≠ 0) (x : Fin E → Fin S → Fin R → ℝ) (e : Fin E) :
    mean (List.ofFn fun s => List.ofFn (x e s)).flatten = avg fun s => avg (x e s) := by
  have hS' : (S : ℝ) ≠ 0 := Nat.cast_ne_zero.mpr hS
  have hR' : (R : ℝ) ≠ 0 := Nat.cast_ne_zero.mpr hR
  unfold mean
  rw [length_complete, List.sum_flatten, List.map_ofFn, List.sum_ofFn]
  unfold SynthLaw.avg
  simp only [Function.comp, List.sum_ofFn, ← Finset.sum_div]
  push_cast
  field_simp

theorem run_source {K : Type} [Zero K] [One K] [Add K] [Neg K] [Sub K] [Mul K] [Div K] [NatCast K]
    [LT K] [LE K] [DecidableLT K] [DecidableLE K] [MathFn K] (src : Source κ K) (reader : Dataset κ K → Py (Reader κ K))
    (models : List (Reader κ K → Py (Result κ K))) :
    run src.path src.readPy src.readJson reader models =
      match src.import with
      | .error e => .error e
      | .ok d =>
        match reader d with
        | .error e => .error e
        | .ok rd =>
          match mapPy (fun m => m rd) models with
          | .error e => .error e
          | .ok results => mapPy (report rd) results := rfl

theorem bothPresent_mos {E S R : ℕ} (a : Arr3 (Fl ℝ) E S R) (hc : ∀ e s r, NumOrNan (a e s r)) :
    (∀ e, NumOrNan (meanAlongS a e)) ∧
    (bothPresent a fun e _ _ => meanAlongS a e).length = ((List.finRange E).map fun e => (present (videoCells a e)).length).sum := by
  have hmos : ∀ e, meanAlongS a e = meanOrNan (videoCells a e) := fun e => meanAlongS_spec a e (hc e)
  constructor
  · intro e
    rw [hmos]
    unfold meanOrNan
    split
    · exact Or.inl rfl
    · exact Or.inr ⟨_, rfl⟩
  · rw [bothPresent_video a hc _ (fun e => mean (present (videoCells a e)))]
    · simp [List.length_flatMap]
    · intro e he
      rw [hmos]
      unfold meanOrNan
      cases hp : present (videoCells a e) with
      | nil => exact absurd hp he
      | cons => rfl

theorem run_mos {src : Source κ ℝ} {d : Dataset κ ℝ} (hd : src.import = .ok d) {reader : Dataset κ ℝ → Py (Reader κ ℝ)}
    {rd : Reader κ ℝ} (hrd : reader d = .ok rd) {a : Arr3D (Fl ℝ)} (ha : rd.scores = .ok a)
    (hobs : (∃ o, rd.observers = .ok o) ∨ rd.observers = .error .assertion) (hc : ∀ e s r, NumOrNan (a.get e s r)) :
    (((List.finRange a.E).map fun e => (present (videoCells a.get e)).length).sum < 2 →
      run src.path src.readPy src.readJson reader [fun rd => runMOS rd {}] = .error .value) ∧
    (2 ≤ ((List.finRange a.E).map fun e => (present (videoCells a.get e)).length).sum →
      ∃ rep, run src.path src.readPy src.readJson reader [fun rd => runMOS rd {}] = .ok [rep] ∧
        rep.result.qualityScores = List.ofFn fun e => meanOrNan (videoCells a.get e)) := by
  obtain ⟨res, hres⟩ := runMOS_ok ha hobs
  obtain ⟨h1, h2⟩ := bothPresent_mos a.get hc
  have h3 := recStats_eq a.get (fun e _ _ => meanAlongS a.get e) hc fun e _ _ => h1 e
  have hdef := runMOS_default ha hres
  have hraw : res.rawScores = some a := by rw [hdef]; rfl
  have hrec : res.reconstructions = some { a with get := fun e _ _ => meanAlongS a.get e } := by rw [hdef]; rfl
  have hq : res.qualityScores = List.ofFn fun e => meanOrNan (videoCells a.get e) := by
    rw [hdef]
    show List.ofFn (meanAlongS a.get) = _
    congr 1
    funext e
    exact meanAlongS_spec a.get e (hc e)
  rw [run_source, hd]
  dsimp only
  rw [hrd]
  dsimp only [mapPy]
  rw [hres]
  dsimp only [mapPy]
  unfold report
  rw [hraw, hrec]
  dsimp only
  have h3' : recStats a { a with get := fun e _ _ => meanAlongS a.get e } = _ := h3
  rw [h3', h2]
  constructor
  · intro h
    rw [if_neg (by omega)]
  · intro h
    rw [if_pos h]
    exact ⟨_, rfl, hq⟩

theorem select_runs {d : Dataset κ ℝ} {rd : Reader κ ℝ} (hraw : rawReader d = .ok rd) {E S R : ℕ} {x : Fin E → Fin S → Fin R → ℝ}
    (hbase : rd.scores = .ok ⟨E, S, R, fun e s r => .fin (x e s r)⟩) {k : ℕ} (hk : k ≤ S) (hstyle : (∀ dv ∈ d.disVideos, DictStyle dv) ∨
      (∀ dv ∈ d.disVideos, SeqStyle dv) ∧ k = S) (σ : Equiv.Perm (Fin S)) :
    ∃ rd', selectSubjectReader d (some (((inOrder σ).take k).map Int.ofNat)) = .ok rd' ∧ rd'.observers = rd.observers ∧
      rd'.scores = .ok ⟨E, k, R, fun e s r => .fin (x e (σ (Fin.castLE hk s)) r)⟩ := by
  set sel := ((inOrder σ).take k).map Int.ofNat with hsel
  have hlen : sel.length = k := by simp [hsel, inOrder, hk]
  have hget : ∀ j : Fin k, sel[j.val]? = some ((σ (Fin.castLE hk j)).val : ℤ) := by
    intro j
    have hj : j.val < S := lt_of_lt_of_le j.isLt hk
    simp [hsel, inOrder, j.isLt, hj]
    rfl
  have hmem : ∀ y ∈ sel, 0 ≤ y ∧ y < (S : ℤ) := by
    intro y hy
    obtain ⟨z, hz, rfl⟩ := List.mem_map.mp hy
    have hz' := List.mem_of_mem_take hz
    unfold inOrder at hz'
    obtain ⟨i, rfl⟩ := (List.mem_ofFn' _ _).mp hz'
    have := (σ i).isLt
    constructor
    · exact Int.natCast_nonneg _
    · exact Int.ofNat_lt.mpr this
  have key : ∃ rd' arr, selectSubjectReader d (some sel) = .ok rd' ∧ rd'.scores = .ok arr ∧ arr.E = E ∧ arr.S = sel.length ∧ arr.R = R ∧
      ∀ e j r (y : Int), sel[j]? = some y → cell arr e j r = cell ⟨E, S, R, fun e s r => .fin (x e s r)⟩ e y.toNat r := by
    rcases hstyle with h | ⟨h, hkS⟩
    · obtain ⟨rd', arr, h1, -, h2, h3, h4, h5, h6⟩ := C51_dict_partial d rd hraw _ hbase h sel hmem
      exact ⟨rd', arr, h1, h2, h3, h4, h5, h6⟩
    · obtain ⟨rd', h1, -⟩ := C51_list_partial d rd hraw _ hbase h sel hmem
      obtain ⟨-, -, arr, h2, h3, h4, h5, h6⟩ := Bstp.select_panel hraw hbase ⟨by rw [hlen, hkS], hmem⟩ h1
      exact ⟨rd', arr, h1, h2, h3, h4, h5, h6⟩
  obtain ⟨rd', ⟨E', S', R', get⟩, h1, h2, h3, h4, h5, h6⟩ := key
  dsimp only at h3 h4 h5
  subst h3 h5
  have h4' : S' = k := h4.trans hlen
  subst h4'
  refine ⟨rd', h1, ?_, ?_⟩
  · unfold selectSubjectReader at h1
    rw [hraw] at h1
    dsimp only at h1
    split at h1
    · cases h1
    · split at h1
      · cases h1; rfl
      · cases h1
  · rw [h2]
    congr 2
    funext e s r
    have := h6 e s r _ (hget s)
    simpa [cell] using this

/-- **C97, number of observers.** `int(n * f)` observers are used: the largest number that is at most `n * f`. -/
theorem C97_size (n : ℕ) {f : ℝ} (h0 : 0 < f) (h1 : f ≤ 1) (k : ℕ) :
    fracNum n (.fin f : Fl ℝ) = k ↔ (k : ℝ) ≤ n * f ∧ n * f < k + 1 := by
  rw [fracNum_eq n h0 h1, Nat.floor_eq_iff (by positivity)]

/-- **C97, refused fractions.** -/
theorem C97_fraction (f : ℝ) (hf : f ≤ 0 ∨ 1 < f) (order : ℕ → List ℕ) (src : Source κ ℝ) (models : List (Reader κ ℝ → Py (Result κ ℝ))) :
    sampleOne (some (.fin f)) order src models = .error .assertion := by
  unfold sampleOne
  dsimp only
  rw [if_neg]
  intro h
  rw [Bool.and_eq_true] at h
  have h1 : (0 : ℝ) < f := by simpa [Fl.lt] using h.1
  have h2 : f ≤ 1 := by simpa [Fl.le] using h.2
  rcases hf with hf | hf <;> linarith

theorem sampleOne_eq {f : ℝ} (h0 : 0 < f) (h1 : f ≤ 1) {src : Source κ ℝ} {d : Dataset κ ℝ} (hd : src.import = .ok d) {rd : Reader κ ℝ}
    (hraw : rawReader d = .ok rd) {base : Arr3D (Fl ℝ)} (hbase : rd.scores = .ok base) (order : ℕ → List ℕ)
    (models : List (Reader κ ℝ → Py (Result κ ℝ))) :
    sampleOne (some (.fin f)) order src models = run src.path src.readPy src.readJson (fun d => selectSubjectReader d
      (some (((order base.S).take ⌊base.S * f⌋₊).map Int.ofNat))) models := by
  have hn : numObservers d.disVideos = .ok base.S := by
    obtain ⟨-, rfl⟩ := rawReader_inv hraw
    exact Bstp.numObservers_S hbase
  unfold sampleOne
  dsimp only
  rw [if_pos, hd]
  · dsimp only
    rw [hraw]
    dsimp only
    rw [hn]
    dsimp only
    rw [fracNum_eq _ h0 h1]
  · rw [Bool.and_eq_true]
    exact ⟨by simpa [Fl.lt] using h0, by simpa [Fl.le] using h1⟩

/-- **C97.** No vote is missing and `k` of the `S` observers are drawn, every order of the observers equally likely.  Then the opinion score
of a video from the drawn observers is on average the opinion score from all of them, and its mean squared deviation from that is the variance of the
observers' (mean) votes divided by `k`, times `(S - k) / (S - 1)`.

Missing: datasets in list style when some observers are left out (`C97_refuted`). -/
theorem C97_unbiased_partial (src : Source κ ℝ) (d : Dataset κ ℝ) (hd : Reads src d) (rd : Reader κ ℝ) (hraw : rawReader d = .ok rd)
    {E S R : ℕ} (x : Fin E → Fin S → Fin R → ℝ) (hbase : rd.scores = .ok ⟨E, S, R, fun e s r => .fin (x e s r)⟩)
    (f : ℝ) (h0 : 0 < f) (h1 : f ≤ 1) (k : ℕ) (hk : (k : ℝ) ≤ S * f ∧ S * f < k + 1)
    (hstyle : (∀ dv ∈ d.disVideos, DictStyle dv) ∨ (∀ dv ∈ d.disVideos, SeqStyle dv) ∧ k = S)
    (h2 : 2 ≤ E * (k * R)) (e : Fin E) (votes : List ℝ) (hvotes : votes = List.ofFn fun s => mean (List.ofFn (x e s))) :
    (∀ order, ∃ rep, sampleOne none order src [fun rd => runMOS rd {}] = .ok [rep] ∧
      rep.result.qualityScores[e.val]? = some (.fin (mean votes))) ∧
    ∃ score : Equiv.Perm (Fin S) → ℝ,
      (∀ σ order, order S = inOrder σ → ∃ rep, sampleOne (some (.fin f)) order src [fun rd => runMOS rd {}] = .ok [rep] ∧
        rep.result.qualityScores[e.val]? = some (.fin (score σ))) ∧
      orderMean S score = mean votes ∧
      orderMean S (fun σ => (score σ - mean votes) ^ 2) = popVar votes / k * ((S - k) / (S - 1)) := by
  have hd' := import_of_reads hd
  have hkS : k ≤ S := by
    have : (k : ℝ) ≤ S := by
      have : (S : ℝ) * f ≤ S := by nlinarith [show (0 : ℝ) ≤ S from Nat.cast_nonneg S]
      linarith [hk.1]
    exact_mod_cast this
  have hk0 : k ≠ 0 := by rintro rfl; simp at h2
  have hR0 : R ≠ 0 := by rintro rfl; simp at h2
  have hS0 : S ≠ 0 := by omega
  have hfl : ⌊(S : ℝ) * f⌋₊ = k := (Nat.floor_eq_iff (by positivity)).mpr hk
  have hobs : (∃ o, rd.observers = .ok o) ∨ rd.observers = .error .assertion :=
    observers_cases hraw (hstyle.symm.imp And.left id)
  have hm : mean votes = avg fun s => avg (x e s) := by
    rw [hvotes, mean_ofFn]
    simp only [mean_ofFn]
  have hlen : ∀ {n : ℕ} (y : Fin E → Fin n → Fin R → ℝ),
      ((List.finRange E).map fun e => (present (videoCells (fun e s r => Fl.fin (y e s r)) e)).length).sum = E * (n * R) := by
    intro n y
    simp only [present_complete, length_complete]
    simp
  have hscore : ∀ {n : ℕ} (hn : n ≠ 0) (y : Fin E → Fin n → Fin R → ℝ),
      meanOrNan (videoCells (fun e s r => Fl.fin (y e s r)) e) = .fin (avg fun s => avg (y e s)) := by
    intro n hn y
    unfold meanOrNan
    rw [present_complete, ← mean_complete hn hR0]
    cases hp : (List.ofFn fun s => List.ofFn (y e s)).flatten with
    | nil =>
      have := length_complete y e
      rw [hp] at this
      have h3 : n * R ≠ 0 := Nat.mul_ne_zero hn hR0
      exact absurd this.symm h3
    | cons => rfl
  constructor
  · intro order
    obtain ⟨rep, hrep, hq⟩ := (run_mos hd' hraw hbase hobs fun e s r => Or.inr ⟨_, rfl⟩).2
      (by rw [hlen]; exact le_trans h2 (Nat.mul_le_mul_left _ (Nat.mul_le_mul_right _ hkS)))
    refine ⟨rep, hrep, ?_⟩
    rw [hq, List.getElem?_ofFn, dif_pos e.isLt]
    exact congrArg some (by rw [hm]; exact hscore hS0 x)
  · refine ⟨fun σ => avg fun s => avg (x e (σ (Fin.castLE hkS s))), ?_, ?_, ?_⟩
    · intro σ order horder
      obtain ⟨rd', h3, h4, h5⟩ := select_runs hraw hbase hkS hstyle σ
      rw [sampleOne_eq h0 h1 hd' hraw hbase]
      dsimp only
      rw [horder, hfl]
      obtain ⟨rep, hrep, hq⟩ := (run_mos hd' (reader := fun d => selectSubjectReader d
        (some (((inOrder σ).take k).map Int.ofNat))) h3 h5 (by rw [h4]; exact hobs) fun e s r => Or.inr ⟨_, rfl⟩).2
        (by rw [hlen]; exact h2)
      refine ⟨rep, hrep, ?_⟩
      rw [hq, List.getElem?_ofFn, dif_pos e.isLt]
      exact congrArg some (hscore hk0 _)
    · rw [hm]
      exact orderMean_avg hkS hk0 fun s => avg (x e s)
    · rw [hm, orderMean_sq hkS hk0 fun s => avg (x e s), hvotes]
      simp only [mean_ofFn]

/-- the observers' names do not depend on the selection -/
theorem select_observers {d : Dataset κ ℝ} {rd rd' : Reader κ ℝ} (hraw : rawReader d = .ok rd) {sel : List Int}
    (h1 : selectSubjectReader d (some sel) = .ok rd') : rd'.observers = rd.observers := by
  unfold selectSubjectReader at h1
  rw [hraw] at h1
  dsimp only at h1
  split at h1
  · cases h1
  · split at h1
    · cases h1; rfl
    · cases h1

theorem sum_present_zero {E S R : ℕ} (a : Arr3 (Fl ℝ) E S R) (h : ∀ e s r, a e s r = .nan) :
    ((List.finRange E).map fun e => (present (videoCells a e)).length).sum = 0 := by
  have : ∀ e, present (videoCells a e) = [] := by
    intro e
    unfold present
    rw [List.filterMap_eq_nil_iff]
    intro y hy
    obtain ⟨s, r, rfl⟩ := (mem_videoCells a e y).mp hy
    rw [h]
    rfl
  simp [this]

/-- **C97, nobody drawn.** If the fraction of the observers is less than one observer, there is a ValueError. -/
theorem C97_nobody (src : Source κ ℝ) (d : Dataset κ ℝ) (hd : Reads src d) (rd : Reader κ ℝ) (hraw : rawReader d = .ok rd)
    (base : Arr3D (Fl ℝ)) (hbase : rd.scores = .ok base)
    (hstyle : (∀ dv ∈ d.disVideos, DictStyle dv) ∨ (∀ dv ∈ d.disVideos, SeqStyle dv))
    (f : ℝ) (h0 : 0 < f) (h1 : f ≤ 1) (hf : base.S * f < 1) (order : ℕ → List ℕ) :
    sampleOne (some (.fin f)) order src [fun rd => runMOS rd {}] = .error .value := by
  have hfl : ⌊(base.S : ℝ) * f⌋₊ = 0 := Nat.floor_eq_zero.mpr hf
  have key : ∃ rd' arr, selectSubjectReader d (some []) = .ok rd' ∧ rd'.scores = .ok arr ∧ arr.S = 0 := by
    rcases hstyle with h | h
    · obtain ⟨rd', arr, k1, -, k2, -, k4, -⟩ := C51_dict_partial d rd hraw base hbase h [] (by simp)
      exact ⟨rd', arr, k1, k2, k4⟩
    · obtain ⟨rd', k1, -, -, k2⟩ := C51_list_partial d rd hraw base hbase h [] (by simp)
      obtain ⟨arr, k3, -, k4, -⟩ := k2 (Nat.zero_le _)
      exact ⟨rd', arr, k1, k3, k4⟩
  obtain ⟨rd', ⟨E, S, R, get⟩, k1, k2, k3⟩ := key
  dsimp only at k3
  subst k3
  rw [sampleOne_eq h0 h1 (import_of_reads hd) hraw hbase, hfl, List.take_zero, List.map_nil]
  refine (run_mos (import_of_reads hd) (reader := fun d => selectSubjectReader d (some [])) k1 k2
    (by rw [select_observers hraw k1]; exact observers_cases hraw hstyle.symm) fun _ s _ => s.elim0).1 ?_
  rw [sum_present_zero _ fun _ s _ => s.elim0]
  omega

/-- **C97, refuted for datasets in list style.** If `k` observers are drawn and none of them is among the first `k` of the dataset, no vote is
left and there is a ValueError. -/
theorem C97_refuted (src : Source κ ℝ) (d : Dataset κ ℝ) (hd : Reads src d) (rd : Reader κ ℝ) (hraw : rawReader d = .ok rd)
    (base : Arr3D (Fl ℝ)) (hbase : rd.scores = .ok base) (hstyle : ∀ dv ∈ d.disVideos, SeqStyle dv)
    (f : ℝ) (h0 : 0 < f) (h1 : f ≤ 1) (k : ℕ) (hk : (k : ℝ) ≤ base.S * f ∧ base.S * f < k + 1)
    (σ : Equiv.Perm (Fin base.S)) (hσ : ∀ j : Fin base.S, j.val < k → k ≤ (σ j).val) (order : ℕ → List ℕ)
    (horder : order base.S = inOrder σ) :
    sampleOne (some (.fin f)) order src [fun rd => runMOS rd {}] = .error .value := by
  have hfl : ⌊(base.S : ℝ) * f⌋₊ = k := (Nat.floor_eq_iff (by positivity)).mpr hk
  have hkS : k ≤ base.S := by
    have : (k : ℝ) ≤ base.S := by
      have : (base.S : ℝ) * f ≤ base.S := by nlinarith [show (0 : ℝ) ≤ base.S from Nat.cast_nonneg base.S]
      linarith [hk.1]
    exact_mod_cast this
  rw [sampleOne_eq h0 h1 (import_of_reads hd) hraw hbase, hfl, horder]
  set sel := ((inOrder σ).take k).map Int.ofNat with hsel
  have hlen : sel.length = k := by simp [hsel, inOrder, hkS]
  have hget : ∀ j : Fin k, sel[j.val]? = some ((σ (Fin.castLE hkS j)).val : ℤ) := by
    intro j
    have hj : j.val < base.S := lt_of_lt_of_le j.isLt hkS
    simp [hsel, inOrder, j.isLt, hj]
    rfl
  have hmem : ∀ y ∈ sel, 0 ≤ y ∧ y < (base.S : ℤ) := by
    intro y hy
    obtain ⟨z, hz, rfl⟩ := List.mem_map.mp hy
    have hz' := List.mem_of_mem_take hz
    unfold inOrder at hz'
    obtain ⟨i, rfl⟩ := (List.mem_ofFn' _ _).mp hz'
    exact ⟨Int.natCast_nonneg _, Int.ofNat_lt.mpr (σ i).isLt⟩
  obtain ⟨rd', k1, -, -, k2⟩ := C51_list_partial d rd hraw base hbase hstyle sel hmem
  obtain ⟨⟨E, S, R, get⟩, k3, k4, k5, -, k6⟩ := k2 (by omega)
  dsimp only at k4 k5 k6
  have k5' : S = k := k5.trans hlen
  subst k5'
  have hnan : ∀ e s r, get e s r = .nan := by
    intro e s r
    have := (k6 e s _ (hget s) (by omega)).2 (by
      rw [hlen]
      exact_mod_cast hσ (Fin.castLE hkS s) s.isLt) r r.isLt
    simpa [cell] using this
  refine (run_mos (import_of_reads hd) (reader := fun d => selectSubjectReader d (some sel)) k1 k3
    (by rw [select_observers hraw k1]; exact observers_cases hraw (Or.inl hstyle)) fun e s r => Or.inl (hnan e s r)).1 ?_
  rw [sum_present_zero _ hnan]
  omega

/-- **C97, several datasets.** Each dataset is sampled on its own, and the results come in the order of the datasets. -/
theorem C97_datasets (frac : Option (Fl ℝ)) (order : ℕ → ℕ → List ℕ) (srcs : List (Source κ ℝ))
    (models : List (Reader κ ℝ → Py (Result κ ℝ))) (out : List (List (Report κ ℝ))) (h : sampleStats frac order srcs models = .ok out) :
    out.length = srcs.length ∧ ∀ i src, srcs[i]? = some src → ∃ reps, out[i]? = some reps ∧
      sampleOne frac (order i) src models = .ok reps := by
  unfold sampleStats at h
  have hl := mapPy_length h
  rw [List.length_zipIdx] at hl
  refine ⟨hl, ?_⟩
  intro i src hi
  rw [mapPy_eq_ok_iff, List.forall₂_iff_get] at h
  obtain ⟨hi', rfl⟩ := List.getElem?_eq_some_iff.mp hi
  refine ⟨_, List.getElem?_eq_getElem (by omega), ?_⟩
  have := h.2 i (by rw [List.length_zipIdx]; exact hi') (by omega)
  simpa using this

/-! ## Examples -/

/-- two videos, three observers, dictionary style -/
def exSample : Dataset ℕ ℝ :=
  { refVideos := [{ contentId := 0, path := "r" }],
    disVideos := [{ contentId := 0, assetId := 0, path := "a", os := some (.dict [(7, .one (.fin 1)), (8, .one (.fin 2)), (9, .one (.fin 6))]) },
      { contentId := 0, assetId := 1, path := "b", os := some (.dict [(8, .one (.fin 4)), (7, .one (.fin 4)), (9, .one (.fin 4))]) }] }

/-- the votes of `exSample` -/
def exSampleVotes : Fin 2 → Fin 3 → Fin 1 → ℝ := fun e s _ => if e = 0 then (if s = 0 then 1 else if s = 1 then 2 else 6) else 4

theorem exSample_reader : ∃ rd, rawReader exSample = .ok rd ∧ rd.scores = .ok ⟨2, 3, 1, fun e s r => .fin (exSampleVotes e s r)⟩ := by
  refine ⟨_, rfl, ?_⟩
  show opinionScores exSample.disVideos = _
  have hd : ∀ dv ∈ exSample.disVideos, DictStyle dv := by
    intro dv hdv
    simp only [exSample, List.mem_cons, List.not_mem_nil, or_false] at hdv
    rcases hdv with rfl | rfl <;> exact ⟨_, rfl, by decide⟩
  have hr : exSample.disVideos.flatMap raters = [7, 8, 9, 8, 7, 9] := rfl
  have hu : uniqueSorted [7, 8, 9, 8, 7, 9] = [7, 8, 9] := by decide +kernel
  have hm : maxReps exSample.disVideos = 1 := rfl
  rw [opinionScores_dict (by simp [exSample]) hd, hr, hu, hm]
  · show Except.ok (⟨2, 3, 1, _⟩ : Arr3D (Fl ℝ)) = _
    congr 2
    funext e s r
    fin_cases e <;> fin_cases s <;> fin_cases r <;> simp [exSample, exSampleVotes, dictOf, Vote.cell, List.lookup]
  · intro dv hdv
    simp only [exSample, List.mem_cons, List.not_mem_nil, or_false] at hdv
    rcases hdv with rfl | rfl <;> simp [NdarraysSingle, entries]

/-- Two of the three observers are drawn.  The score of the first video is 3 on average, as the score from all observers, and its
mean squared deviation is `14 / 3 / 2 * (1 / 2)`. -/
example : ∃ score : Equiv.Perm (Fin 3) → ℝ,
    (∀ σ, ∃ rep, sampleOne (some (.fin (7 / 10))) (fun _ => inOrder (n := 3) σ) ⟨"a.py".toList, .ok exSample, .error .json⟩
      [fun rd => runMOS rd {}] = .ok [rep] ∧ rep.result.qualityScores[0]? = some (.fin (score σ))) ∧
    orderMean 3 score = 3 ∧ orderMean 3 (fun σ => (score σ - 3) ^ 2) = 7 / 6 := by
  obtain ⟨rd, h1, h2⟩ := exSample_reader
  have hd : ∀ dv ∈ exSample.disVideos, DictStyle dv := by
    intro dv hdv
    simp only [exSample, List.mem_cons, List.not_mem_nil, or_false] at hdv
    rcases hdv with rfl | rfl <;> exact ⟨_, rfl, by decide⟩
  have hv : (List.ofFn fun s => mean (List.ofFn (exSampleVotes 0 s))) = [1, 2, 6] := by
    have : ∀ s, mean (List.ofFn (exSampleVotes 0 s)) = exSampleVotes 0 s 0 := fun s => by simp [mean]
    simp only [this]
    rfl
  obtain ⟨-, score, h3, h4, h5⟩ := C97_unbiased_partial ⟨"a.py".toList, .ok exSample, .error .json⟩ exSample
    (Or.inl ⟨⟨['a'], rfl⟩, rfl⟩) rd h1 exSampleVotes h2 (7 / 10) (by norm_num) (by norm_num) 2 (by norm_num) (Or.inl hd) (by norm_num)
    0 [1, 2, 6] hv.symm
  have hm : mean ([1, 2, 6] : List ℝ) = 3 := by norm_num [mean]
  have hp : popVar ([1, 2, 6] : List ℝ) = 14 / 3 := by norm_num [popVar, sqDev, mean]
  rw [hm] at h4 h5
  rw [hp] at h5
  exact ⟨score, fun σ => h3 σ _ rfl, h4, by rw [h5]; norm_num⟩

/-- two videos, two observers, list style -/
def exSampleList : Dataset String ℝ :=
  { refVideos := [{ contentId := 0, path := "r" }],
    disVideos := [{ contentId := 0, assetId := 0, path := "a", os := some (.seq false [.one (.fin 1), .one (.fin 2)]) },
      { contentId := 0, assetId := 1, path := "b", os := some (.seq false [.one (.fin 3), .one (.fin 4)]) }] }

/-- the second observer first -/
def swapTwo : Equiv.Perm (Fin 2) := Equiv.swap 0 1

/-- One of two observers is drawn, the second one. -/
example : sampleOne (some (.fin (1 / 2))) (fun _ => [1, 0]) ⟨"a.py".toList, .ok exSampleList, .error .json⟩
    [fun rd => runMOS rd {}] = .error .value := by
  have hstyle : ∀ dv ∈ exSampleList.disVideos, SeqStyle dv := by
    intro dv hdv
    simp only [exSampleList, List.mem_cons, List.not_mem_nil, or_false] at hdv
    rcases hdv with rfl | rfl <;> exact ⟨_, _, rfl⟩
  obtain ⟨base, hb, hS⟩ : ∃ base, opinionScores exSampleList.disVideos = .ok base ∧ base.S = 2 := ⟨_, rfl, rfl⟩
  obtain ⟨E, S, R, get⟩ := base
  dsimp only at hS
  subst hS
  exact C97_refuted _ exSampleList (Or.inl ⟨⟨['a'], rfl⟩, rfl⟩) _ rfl _ hb hstyle (1 / 2) (by norm_num) (by norm_num) 1 (by norm_num)
    swapTwo (by decide : ∀ j : Fin 2, j.val < 1 → 1 ≤ (swapTwo j).val) _ (by decide : [1, 0] = inOrder swapTwo)

/-- No observer is drawn. -/
example : sampleOne (some (.fin (1 / 4))) (fun _ => [1, 0]) ⟨"a.json".toList, .error .json, .ok exSampleList⟩
    [fun rd => runMOS rd {}] = .error .value := by
  have hstyle : ∀ dv ∈ exSampleList.disVideos, SeqStyle dv := by
    intro dv hdv
    simp only [exSampleList, List.mem_cons, List.not_mem_nil, or_false] at hdv
    rcases hdv with rfl | rfl <;> exact ⟨_, _, rfl⟩
  obtain ⟨base, hb, hS⟩ : ∃ base, opinionScores exSampleList.disVideos = .ok base ∧ base.S = 2 := ⟨_, rfl, rfl⟩
  exact C97_nobody _ exSampleList (Or.inr ⟨⟨['a'], rfl⟩, rfl⟩) _ rfl _ hb (Or.inr hstyle) (1 / 4) (by norm_num) (by norm_num)
    (by rw [hS]; norm_num) _

/-- two videos, three observers, dictionary style -/
def exNames : Dataset ℕ ℚ :=
  { refVideos := [{ contentId := 0, path := "r" }],
    disVideos := [{ contentId := 0, assetId := 0, path := "a", os := some (.dict [(7, .one (.fin 1)), (8, .one (.fin 2)), (9, .one (.fin 6))]) },
      { contentId := 0, assetId := 1, path := "b", os := some (.dict [(8, .one (.fin 4)), (7, .one (.fin 3)), (9, .one (.fin 4))]) }] }

attribute [local instance] ratMath in
/-- **C97, observers' names refuted.** The observers 9 and 8 are drawn, and the biases `1` and `-1` are theirs; the names reported along with
these biases are 7, 8 and 9. -/
theorem C97_refuted_names : ∃ rep, sampleOne (some (.fin (7 / 10))) (fun _ => [2, 1, 0]) ⟨"a.py".toList, .ok exNames, .error .json⟩
      [fun rd => runBR_MOS rd {}] = .ok [rep] ∧
    rep.result.observerBias = some [.fin 1, .fin (-1)] ∧ rep.result.observers = some [7, 8, 9] := by
  obtain ⟨l, h1, h2⟩ := okWith_elim (x := sampleOne (some (.fin (7 / 10))) (fun _ => [2, 1, 0]) ⟨"a.py".toList, .ok exNames, .error .json⟩
      [fun rd => runBR_MOS rd {}])
    (P := fun l => match l with
      | [rep] => decide (rep.result.observerBias = some [.fin 1, .fin (-1)] ∧ rep.result.observers = some [7, 8, 9])
      | _ => false) (by decide +kernel)
  have h3 : ∃ rep, l = [rep] ∧ rep.result.observerBias = some [.fin 1, .fin (-1)] ∧ rep.result.observers = some [7, 8, 9] := by
    clear h1
    split at h2
    · exact ⟨_, rfl, of_decide_eq_true h2⟩
    · cases h2
  obtain ⟨rep, hl, h4⟩ := h3
  exact ⟨rep, h1.trans (congrArg _ hl), h4⟩

end Sureal.Props
